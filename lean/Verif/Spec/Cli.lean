import Verif.Model.Cli
/-!
# What a command line says

Independent of how it is read: a grammar of command lines.
-/
namespace Bindgen.Spec

/-- An argument that is not an option: it does not start with a dash, or is a dash. -/
def PlainWord (v : Str) : Prop := v.head? ≠ some '-' ∨ v = c!"-"

/-- The ways to write an option with its value in one argument: `--long=v`, `-s=v`, and `-sv`. -/
inductive Attached (long : Str) (short : Char) (v : Str) : Str → Prop
  | long : Attached long short v (c!"--" ++ long ++ c!"=" ++ v)
  | equals : Attached long short v (['-', short, '='] ++ v)
  | short : v ≠ [] → v.head? ≠ some '=' → Attached long short v (['-', short] ++ v)

/-- The command line gives these module names and these output files, in this order: any number of options, `--module-name` or `-m` with one or
more names, or `--output` or `-o` with one non-empty path; at the end there may be `--`. -/
inductive CommandLine : List Str → List Str → List Str → Prop
  | nil : CommandLine [] [] []
  | escape : CommandLine [c!"--"] [] []
  | modules (k : Str) (vs : List Str) (rest ns os : List Str) : k = c!"-m" ∨ k = c!"--module-name" → vs ≠ [] → (∀ v ∈ vs, PlainWord v) →
      CommandLine rest ns os → CommandLine (k :: (vs ++ rest)) (vs ++ ns) os
  | attachedModule (a v : Str) (rest ns os : List Str) : Attached c!"module-name" 'm' v a →
      CommandLine rest ns os → CommandLine (a :: rest) (v :: ns) os
  | output (k v : Str) (rest ns os : List Str) : k = c!"-o" ∨ k = c!"--output" → PlainWord v → v ≠ [] →
      CommandLine rest ns os → CommandLine (k :: v :: rest) ns (v :: os)
  | attachedOutput (a v : Str) (rest ns os : List Str) : Attached c!"output" 'o' v a → v ≠ [] →
      CommandLine rest ns os → CommandLine (a :: rest) ns (v :: os)

end Bindgen.Spec

import Verif.Model.Str
/-!
# Specification: Rust path resolution inside the generated tree, and Python dotted names
-/
namespace Bindgen.Spec

/-- Resolution of plain names: every segment must be a name. -/
def resolveNames (cur : List Str) : List Str → Option (List Str)
  | [] => some cur
  | s :: rest =>
    if s = c!"self" ∨ s = c!"super" ∨ s = c!"Self" ∨ s = c!"crate" then none
    else resolveNames (cur ++ [s]) rest

/-- Resolution of a run of `super`s followed by names. `cur` is a module path below the root of the
generated tree; leaving the root is an error. -/
def resolveSupers (cur : List Str) : List Str → Option (List Str)
  | [] => some cur
  | s :: rest =>
    if s = c!"super" then (if cur = [] then none else resolveSupers cur.dropLast rest)
    else resolveNames cur (s :: rest)

/-- Resolution of a relative Rust path in module `cur`: optional `self`, then `super`s, then names.
The empty path is not a path. -/
def resolve (cur : List Str) : List Str → Option (List Str)
  | [] => none
  | s :: rest => if s = c!"self" then resolveSupers cur rest else resolveSupers cur (s :: rest)

/-- A segment of an ordinary dotted Python name: not empty, no dot, not spelled `r#…`, and not the name `super`
(which the code confuses with the Rust keyword). -/
def PySegment (s : Str) : Prop := s ≠ [] ∧ '.' ∉ s ∧ ¬ c!"r#" <+: s ∧ s ≠ c!"super"

/-- The text of a dotted name with `dots` leading dots. -/
def dotted (dots : Nat) (segs : List Str) : Str := List.replicate dots '.' ++ Str.join c!"." segs

end Bindgen.Spec

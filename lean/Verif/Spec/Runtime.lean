import Verif.Model.Path
/-! # Specification: what the import expressions of the bindings do in a fresh interpreter -/
namespace Bindgen.Spec

/-- A fresh interpreter: what `import n` loads, and the chains of attributes that can be read from a loaded module because the code
of the module binds them. -/
structure Runtime where
  /-- the modules that are loaded after `import n`, unless it raises -/
  after : Str → Option (List Str)
  /-- the code of module `n` binds the attribute, an attribute of which is the next, and so on -/
  binds : Str → List Str → Bool

/-- Importing a module loads it and the packages around it. -/
structure Runtime.Lawful (R : Runtime) : Prop where
  self : ∀ n L, R.after n = some L → n ∈ L
  parent : ∀ p s, R.after (p ++ '.' :: s) ≠ none → R.after p ≠ none

/-- An object: what is reached by attributes from a module. -/
abbrev Place := Str × List Str

/-- Reading an attribute, when the modules `L` are loaded: what the module binds, or else a submodule that is loaded. -/
def Runtime.attr (R : Runtime) (L : List Str) (o : Place) (s : Str) : Option Place :=
  if R.binds o.1 (o.2 ++ [s]) then some (o.1, o.2 ++ [s])
  else if o.2 = [] ∧ (o.1 ++ '.' :: s) ∈ L then some (o.1 ++ '.' :: s, [])
  else none

/-- The value of an import expression in a fresh interpreter, or nothing if it raises. -/
def Runtime.eval (R : Runtime) : Obj → Option (List Str × Place)
  | .self => none
  | .import n => (R.after n).map fun L => (L, (n, []))
  | .getattr o s => (R.eval o).bind fun x => (R.attr x.1 x.2 s).map fun p => (x.1, p)

end Bindgen.Spec

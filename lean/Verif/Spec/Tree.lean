import Verif.Model.Module
import Verif.Spec.Resolve
/-! # Specification: what is where in a module tree -/
namespace Bindgen.Spec

/-- The things a module can hold. -/
inductive SItem
  | prelude (i : Ident)
  | «import» (i : Import)
  | «class» (c : Class)
  | typeVar (t : TypeVar)
  | function (f : Function)
  | property (p : Property)

/-- The module itself (not a submodule) holds the item. -/
def Has (m : Module) : SItem → Prop
  | .prelude i => i ∈ m.prelude
  | .import i => i ∈ m.imports
  | .class c => c ∈ m.classes
  | .typeVar t => t ∈ m.typeVars
  | .function f => f ∈ m.functions
  | .property p => p ∈ m.properties

/-- The module stands at the end of this chain of names, from the top level downwards. -/
def NodeAt : List Module → List Path → Module → Prop
  | _, [], _ => False
  | l, [n], m => m ∈ l ∧ m.name = n
  | l, n :: n' :: ns, m => ∃ k ∈ l, k.name = n ∧ NodeAt k.submodules (n' :: ns) m

/-- The forest has a module at the end of this chain of names. -/
def ModuleAt (l : List Module) (ns : List Path) : Prop := ∃ m, NodeAt l ns m

/-- A module at the end of this chain of names holds the item. -/
def ItemAt (l : List Module) (ns : List Path) (x : SItem) : Prop := ∃ m, NodeAt l ns m ∧ Has m x

/-- The module occurs in the forest, at any depth. -/
inductive InTree (m : Module) : List Module → Prop
  | top {l : List Module} : m ∈ l → InTree m l
  | sub {l : List Module} {n : Module} : n ∈ l → InTree m n.submodules → InTree m l

/-- No module of the forest has two direct submodules of the same name. -/
def DistinctSubmodules (l : List Module) : Prop := ∀ m, InTree m l → (m.submodules.map Module.name).Nodup

/-- Names in the forest are told apart by their Python spelling (true of ordinary dotted names, `C04_equal_iff`). -/
def RegularNames (l : List Module) : Prop :=
  ∀ a b, InTree a l → InTree b l → a.name.toPy = b.name.toPy → a.name = b.name

/-- Every list of items of the module is free of duplicates. -/
def ItemsOnce (m : Module) : Prop :=
  m.prelude.Nodup ∧ m.imports.Nodup ∧ m.classes.Nodup ∧ m.typeVars.Nodup ∧ m.functions.Nodup ∧ m.properties.Nodup

end Bindgen.Spec

namespace Bindgen.Spec

/-- The names of the packages that contain a module of this name, outermost first: for `a.b.c` they are `a`, `a.b`. -/
def packages (p : Path) : List Path := (List.range (p.segs.length - 1)).map (fun i => ⟨false, p.segs.take (i + 1)⟩)

end Bindgen.Spec

namespace Bindgen.Spec

/-- An ordinary dotted module name. -/
def OrdinaryName (E : Env) (p : Path) : Prop :=
  ∃ segs : List Str, segs ≠ [] ∧ (∀ s ∈ segs, PySegment s) ∧ p = Path.fromPy E (Str.join c!"." segs)

/-- All modules of the interpreter have ordinary names. -/
def OrdinaryWorld (W : World) : Prop :=
  ∀ id m n, W.get? id = some m → m.name = some n →
    ∃ segs : List Str, segs ≠ [] ∧ (∀ s ∈ segs, PySegment s) ∧ n = Str.join c!"." segs

end Bindgen.Spec

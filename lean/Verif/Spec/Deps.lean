import Verif.Model.Codegen
import Verif.Spec.Tree
/-! # Specification: the modules that imports come from -/
namespace Bindgen.Spec

/-- Attributes are followed from a module as long as they are modules. -/
inductive Follow (W : World) : Nat → List Ident → Nat → Prop
  | done (id : Nat) : Follow W id [] id
  | step {id id' r : Nat} {m : PyMod} {a : PyAttr} {i : Ident} {rest : List Ident} : W.get? id = some m →
      m.getattr i.asPy = some a → a.mod = some id' → Follow W id' rest r → Follow W id (i :: rest) r
  | stop {id : Nat} {i : Ident} {rest : List Ident} :
      (∀ m a, W.get? id = some m → m.getattr i.asPy = some a → a.mod = none) → Follow W id (i :: rest) id

/-- The module an imported name comes from: the last module on the way from its root. -/
def ComesFrom (W : World) (origin : Path) (id : Nat) : Prop :=
  ∃ i rest root, origin.segs = i :: rest ∧ W.importMod (Path.ofIdent i).toPy = some root ∧ Follow W root rest id

/-- The module with this handle has this `__name__`. -/
def Called (W : World) (id : Nat) (n : Str) : Prop := ∃ m, W.get? id = some m ∧ m.name = some n

/-- The configuration admits the module, taking its dotted name as one name. -/
def Admitted (E : Env) (cfg : Config) (W : World) (id : Nat) (n : Str) : Prop :=
  ∃ m, W.get? id = some m ∧ cfg.isAttrAllowed (Ident.fromPy E n) (Path.fromPy E m.modPath) = true

/-- A debug build does not reject the module: its `__name__` is not empty, and its `__module__` does not contain `::`. -/
def NotRejected (E : Env) (W : World) (id : Nat) (n : Str) : Prop :=
  E.debug = true → n ≠ [] ∧ ∀ m, W.get? id = some m → ¬ c!"::" <:+: m.modPath

/-- The origin belongs to an import from outside the package, somewhere in the forest. -/
def ImportedFrom (l : List Module) (origin : Path) : Prop :=
  ∃ m i, InTree m l ∧ i ∈ m.imports ∧ i.typ = .external ∧ i.origin = origin

/-- Different modules have different names. -/
def UniqueNames (W : World) : Prop := ∀ id id' n, Called W id n → Called W id' n → id = id'

end Bindgen.Spec

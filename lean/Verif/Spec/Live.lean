import Verif.Model.Python
import Verif.Spec.Resolve
import Mathlib.Data.List.Forall2
/-!
# Specification: traces that loading and reading modules leaves in the interpreter
-/
namespace Bindgen.Spec

/-- The attribute that Python gives to package `pkg` when its submodule `s` is imported: the module that `import pkg.s` yields. -/
structure BoundSubmodule (W : World) (pkg s : Str) (a : PyAttr) : Prop where
  isModule : a.obj.isModule = true
  noModulePath : a.obj.modPath = []
  name : a.obj.dunderName = some (pkg ++ c!"." ++ s)
  noFunction : a.obj.isFunction = some false
  noMethod : a.obj.isMethod = some false
  repr : Str.containsSub c!"<locals>" a.obj.repr = false
  typed : a.obj.typeName ≠ [] ∧ ¬ c!"::" <:+: a.obj.typeModule
  noColons : ¬ c!"::" <:+: pkg ++ c!"." ++ s
  loaded : a.mod ≠ none ∧ W.importMod (pkg ++ c!"." ++ s) = a.mod

/-- A new attribute is a trace: the index that reading `__all__` creates, or an imported submodule. -/
def TraceAttr (W : World) (pkg s : Str) (a : PyAttr) : Prop :=
  (s = c!"__all__" ∧ a.mod = none ∧ a.obj.modPath = []) ∨ (s ≠ c!"__all__" ∧ BoundSubmodule W pkg s a)

/-- `m'` is the module `m` at a later time: nothing but traces has been added, under names for which `P` holds. -/
structure LaterMod (W : World) (P : Str → Prop) (m m' : PyMod) : Prop where
  /-- the rest is the same -/
  same : m' = { m with dir := m'.dir, attrs := m'.attrs }
  /-- the names that were listed are still listed, in the same order -/
  listed : m'.dir.filter (fun s => decide (s ∈ m.dir)) = m.dir
  /-- Python names do not begin with `r#` -/
  plain : ∀ s ∈ m'.dir, ¬ c!"r#" <+: s
  /-- new names were not attributes before and are not empty -/
  names : ∀ s ∈ m'.dir, s ∉ m.dir → m.getattr s = none ∧ P s ∧ s ≠ []
  /-- attributes stay -/
  kept : ∀ s a, m.getattr s = some a → m'.getattr s = some a
  /-- new attributes are traces -/
  added : ∀ s a, m.getattr s = none → m'.getattr s = some a → PySegment s ∧ P s ∧
    ∃ segs : List Str, segs ≠ [] ∧ (∀ x ∈ segs, PySegment x) ∧ m.name = some (Str.join c!"." segs) ∧
      TraceAttr W (Str.join c!"." segs) s a

/-- `W'` is the interpreter `W` at a later time, with traces under names for which `P` holds. -/
structure Later (P : Str → Prop) (W W' : World) : Prop where
  imports : W'.importMod = W.importMod
  sources : W'.fromCode = W.fromCode
  mods : List.Forall₂ (LaterMod W P) W.mods W'.mods

end Bindgen.Spec

import Verif.Spec.Scopes
/-! # Specification: what the attributes of a module are -/
namespace Bindgen.Spec

/-- A function that the module `nm` defines, or one that the code never takes for an import: a builtin function, or one defined
inside another. -/
def OwnRoutine (nm : Str) (o : PyObj) : Prop :=
  o.isModule = false ∧ o.isClass = false ∧ (o.isCFunction = true ∨ o.isFunction = some true) ∧
    (o.modPath = nm ∨ (o.isFunction = some false ∧ o.isMethod = some false) ∨ c!"<locals>" <:+: o.repr)

/-- A class that the module `nm` defines. -/
def OwnClass (nm : Str) (o : PyObj) : Prop := o.isModule = false ∧ o.isClass = true ∧ o.modPath = nm

/-- Any other value, except those of types from `functools`, `typing` and `types`. -/
def PlainVariable (o : PyObj) : Prop :=
  Variable o ∧ ∃ segs, segs ≠ [] ∧ (∀ x ∈ segs, PySegment x) ∧ o.typeModule = Str.join c!"." segs ∧
    o.typeModule ∉ [c!"functools", c!"typing", c!"types"]

/-- A value of a type from `typing` or `types`, such as a type variable. -/
def TypingValue (o : PyObj) : Prop := Variable o ∧ (o.typeModule = c!"typing" ∨ o.typeModule = c!"types")

/-- A value of `functools.partial`. -/
def PartialValue (o : PyObj) : Prop := Variable o ∧ o.typeModule = c!"functools" ∧ o.typeName = c!"partial"

/-- A value from which no function of the module `nm` is made: a module, a class, a bound method, a value that is neither a routine nor a
`functools.partial`, or a function that is imported from another module. -/
inductive NotFunction (nm : Str) (o : PyObj) : Prop
  | module : o.isModule = true → NotFunction nm o
  | «class» : o.isClass = true → NotFunction nm o
  | method : o.isCFunction = false → o.isFunction = some false → o.isMethod = some true → NotFunction nm o
  | plain : PlainVariable o → NotFunction nm o
  | typing : TypingValue o → NotFunction nm o
  | imported (segs : List Str) : segs ≠ [] → (∀ x ∈ segs, PySegment x) → o.modPath = Str.join c!"." segs → o.modPath ≠ nm →
      o.isFunction = some true → ¬ c!"<locals>" <:+: o.repr → NotFunction nm o

end Bindgen.Spec

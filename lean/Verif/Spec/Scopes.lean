import Verif.Model.Emit
import Verif.Spec.Names
import Verif.Spec.Deps
/-! # Specification: the names that items define in their scope -/
namespace Bindgen.Spec

/-- The names an item defines among the types, traits and modules of its scope. -/
def typeNames : Item → List Str
  | .class c => [unraw c.name, unraw c.traitName]
  | .typeAlias n => [unraw n]
  | .mod _ _ n _ => [unraw n]
  | .prelude n _ => [unraw n]
  | _ => []

/-- The names an item defines among the functions and constructors of its scope: `pub struct C(PyAny)` is also the constructor
`C`. -/
def valueNames : Item → List Str
  | .class c => [unraw c.name]
  | .func f => [unraw f.sig.name]
  | .prop f => [unraw f.sig.name]
  | .embed _ _ _ => [c!"pyo3_embed_python_source_code"]
  | _ => []

/-- There is a module of this name, or one inside it. -/
def Below (W : World) (n : Str) : Prop := ∃ id n', Called W id n' ∧ (n' = n ∨ (n ++ c!".") <+: n')

/-- The configuration keeps the attribute `s`, whose value is `o`. -/
def Kept (E : Env) (cfg : Config) (s : Str) (o : PyObj) : Prop :=
  cfg.isAttrAllowed (Ident.fromPy E s) (Path.fromPy E o.modPath) = true

/-- The value is neither a module nor a class nor a routine. -/
def Variable (o : PyObj) : Prop :=
  o.isModule = false ∧ o.isClass = false ∧ o.isCFunction = false ∧ o.isFunction ≠ some true ∧ o.isMethod ≠ some true

/-- A class none of whose attributes invite a clash: the names can be spelled in Rust, no variable is called `get_x` or `set_x` beside
a variable `x`, and beside `__call__` and `call` there is no variable `call1`, `call2` and so on. -/
structure CleanClass (E : Env) (cfg : Config) (pc : PyClass) : Prop where
  idents : ∀ s ∈ pc.dir, IsIdent E s
  names : ∀ s ∈ pc.dir, ∀ o, pc.getattr s = some o → Kept E cfg s o → s ∉ unspellable
  accessors : ∀ s ∈ pc.dir, ∀ t ∈ pc.dir, t = c!"get_" ++ s ∨ t = c!"set_" ++ s → ∀ o o', pc.getattr s = some o →
    pc.getattr t = some o' → ¬ (Variable o ∧ Variable o')
  call : c!"__call__" ∈ pc.dir → c!"call" ∈ pc.dir → ∀ t, c!"call" ++ t ∈ pc.dir → (∀ x ∈ t, x.isDigit = true) → ∀ o,
    pc.getattr (c!"call" ++ t) = some o → Variable o → t = []

/-- An attribute that the configuration keeps and that is named like a submodule is this submodule. -/
def OwnSubmodules (E : Env) (cfg : Config) (W : World) : Prop :=
  ∀ id m n, W.get? id = some m → m.name = some n → ∀ s ∈ m.dir, ∀ a, m.getattr s = some a → Kept E cfg s a.obj →
    Below W (n ++ '.' :: s) → a.obj.isModule = true ∧ a.obj.modPath = [] ∧ a.obj.dunderName = some (n ++ '.' :: s)

/-- No attributes that the configuration keeps invite a clash: attributes of modules can be spelled in Rust; beside a variable `x`,
`get_x` and `set_x` are neither variables nor classes; beside a class `C`, `CMethods` is neither a variable nor a class nor a
submodule; an attribute named like a submodule is this submodule; and classes are clean. -/
structure Collisionless (E : Env) (cfg : Config) (W : World) : Prop where
  names : ∀ id m, W.get? id = some m → ∀ s ∈ m.dir, ∀ a, m.getattr s = some a → Kept E cfg s a.obj →
    s ∉ unspellable ∧ s ≠ c!"pyo3_embed_python_source_code"
  accessors : ∀ id m, W.get? id = some m → ∀ s ∈ m.dir, ∀ t ∈ m.dir, t = c!"get_" ++ s ∨ t = c!"set_" ++ s → ∀ a b,
    m.getattr s = some a → m.getattr t = some b → Kept E cfg s a.obj → Kept E cfg t b.obj → Variable a.obj →
    b.obj.isClass = false ∧ ¬ Variable b.obj
  traits : ∀ id m, W.get? id = some m → ∀ s ∈ m.dir, s ++ c!"Methods" ∈ m.dir → ∀ a b,
    m.getattr s = some a → m.getattr (s ++ c!"Methods") = some b → Kept E cfg s a.obj → Kept E cfg (s ++ c!"Methods") b.obj →
    a.obj.isClass = true → b.obj.isClass = false ∧ ¬ Variable b.obj
  submodules : ∀ id m n, W.get? id = some m → m.name = some n → ∀ s ∈ m.dir, ∀ a, m.getattr s = some a → Kept E cfg s a.obj →
    a.obj.isClass = true → ¬ Below W (n ++ '.' :: (s ++ c!"Methods"))
  modules : OwnSubmodules E cfg W
  classes : ∀ id m, W.get? id = some m → ∀ s ∈ m.dir, ∀ a, m.getattr s = some a → Kept E cfg s a.obj → a.obj.isClass = true →
    CleanClass E cfg a.cls

end Bindgen.Spec

import Verif.Model.FromPy
/-!
# Introspection snapshot of the Python interpreter

What the engine can observe of a Python object through the calls it makes.  A snapshot is a value: repeated
observation gives the same answers (see DESIGN.md).  `Option` fields are `none` when the call raises.
-/
namespace Bindgen

/-- `inspect._ParameterKind` — function.rs:696-716. -/
inductive ParamKind
  | positionalOnly | positionalOrKeyword | varPositional | keywordOnly | varKeyword
  deriving DecidableEq, Repr

/-- `inspect.Parameter` — function.rs:63-102: an absent annotation is `Parameter.empty`. -/
structure PyParam where
  name : Str
  kind : ParamKind
  ann : Option PyAnn
  hasDefault : Bool
  deriving Repr

/-- `inspect.Signature` — function.rs:53-117. -/
structure PySig where
  params : List PyParam
  ret : Option PyAnn
  deriving Repr

/-- What `Class.__dict__[name]` is — function.rs:141-160. -/
inductive DictKind
  | classMethod | staticMethod | other
  deriving DecidableEq, Repr

/-- A callable as seen by `Function::parse` — function.rs:35-171. -/
structure PyFn where
  /-- `str(f.__doc__)` -/
  doc : Option Str
  /-- `inspect.signature(f)` -/
  sig : Option PySig
  /-- the entry of the class dictionary, when found by walking the class path -/
  dictKind : Option DictKind
  deriving Repr

/-- The getter of a property — property.rs:53-82. -/
structure PyGetter where
  /-- `inspect.signature(fget).return_annotation`: outer `none` if there is no signature, inner `none` if empty -/
  ret : Option (Option PyAnn)
  doc : Option Str
  deriving Repr

/-- The (non-`None`) setter of a property — property.rs:88-128. -/
structure PySetter where
  /-- annotations of the parameters, if there is a signature -/
  params : Option (List (Option PyAnn))
  doc : Option Str
  deriving Repr

/-- An object as seen by the classification, function and property parsers — attribute_variant.rs:17-91,
function.rs:27-200, property.rs:24-147. -/
structure PyObj where
  /-- `str(attr.__module__)`, or empty -/
  modPath : Str := []
  /-- `type(attr).__name__` -/
  typeName : Str := []
  /-- `str(type(attr).__module__)`, or empty -/
  typeModule : Str := []
  /-- `str(attr)` -/
  repr : Str := []
  /-- `issubclass(type(attr), ModuleType)` -/
  isModule : Bool := false
  /-- `issubclass(type(attr), type)` -/
  isClass : Bool := false
  /-- `issubclass(type(attr), BuiltinFunctionType)` -/
  isCFunction : Bool := false
  /-- `inspect.isfunction(attr)` -/
  isFunction : Option Bool := some false
  /-- `inspect.ismethod(attr)` -/
  isMethod : Option Bool := some false
  /-- `str(attr.__name__)` -/
  dunderName : Option Str := none
  /-- builtin bases of `type(attr)` -/
  typeBases : List PyBase := []
  /-- `str(type(attr))` -/
  typeRepr : Str := []
  fn : PyFn := ⟨some c!"None", none, none⟩
  /-- `attr.fget` -/
  fget : Option PyGetter := none
  /-- `attr.fset`, if it is not `None` -/
  fset : Option PySetter := none
  deriving Repr

/-- A class as seen by `Class::parse` — class.rs:20-134: `dir(cls)` and `getattr(cls, name)`. -/
structure PyClass where
  dir : List Str := []
  /-- `dir(cls)` raises -/
  dirRaises : Bool := false
  attrs : List (Str × PyObj) := []
  /-- `str(cls.__doc__)` -/
  doc : Option Str := some c!"None"
  deriving Repr

/-- A module attribute: the object, its class view (used if it is a class) and its module (if it is one) —
module.rs:86-260. -/
structure PyAttr where
  obj : PyObj
  cls : PyClass := {}
  mod : Option Nat := none
  deriving Repr

/-- A module as seen by `Module::parse` — module.rs:54-316. -/
structure PyMod where
  /-- `module.__name__`, if it is a string -/
  name : Option Str
  /-- `module.index()`: the list `__all__` (empty if there is none), or nothing if it is not a list -/
  all : Option (List Str) := some []
  dir : List Str := []
  /-- `dir(module)` raises -/
  dirRaises : Bool := false
  attrs : List (Str × PyAttr) := []
  /-- `hasattr(module, "__path__")` -/
  isPackage : Bool := false
  /-- names listed by `pkgutil.iter_modules(module.__path__)` -/
  iterModules : Option (List Str) := some []
  /-- `str(module.__doc__)` -/
  doc : Option Str := some c!"None"
  /-- `str(module.__module__)`, or empty -/
  modPath : Str := []
  deriving Repr

/-- The interpreter: the modules, what `import name` yields, and what running source code as a module yields
(`PyModule::from_code_bound(source, file, name)`, codegen.rs:102-107). -/
structure World where
  mods : List PyMod
  importMod : Str → Option Nat
  fromCode : Str → Str → Option Nat := fun _ _ => none

namespace World

/-- The module behind a handle. Every handle produced by a well-formed world is in range.
Stands for `&Bound<PyModule>` (module.rs:54). -/
def get? (W : World) (i : Nat) : Option PyMod := W.mods[i]?

/-- `py.import_bound(name).is_ok()` — path.rs:199-206. -/
def importable (W : World) (name : Str) : Bool := (W.importMod name).isSome

end World

/-- `getattr(module, name)` — module.rs:98, codegen.rs:210. -/
def PyMod.getattr (m : PyMod) (name : Str) : Option PyAttr := m.attrs.lookup name

/-- `getattr(cls, name)` — class.rs:44. -/
def PyClass.getattr (c : PyClass) (name : Str) : Option PyObj := c.attrs.lookup name

/-- `x.dir()` — class.rs:33-37, module.rs:86-90, 580-583: pyo3 0.21 panics when `dir(x)` raises; then the debug assertion of
`Ident::from_py` on the names. -/
def checkDir (E : Env) (raises : Bool) (dir : List Str) : Res Unit :=
  if raises then .error (.panic .unwrap) else Ident.checkPy E dir

/-- Docstrings: empty and `"None"` count as absent — function.rs:43-51 and the same in the other parsers. -/
def docFilter (s : Str) : Option Str := if s = [] || s = c!"None" then none else some s

/-- `….getattr("__doc__")?.to_string()` and the filter — function.rs:43-51, class.rs:126-134,
module.rs:31, 295, property.rs:75, 113. -/
def readDoc (d : Option Str) : Res (Option Str) := do return docFilter (← Res.orErr .pyError d)

/-- An annotation that may be empty — function.rs:77-84, 108-117, property.rs:57-66, 100-105. -/
def readAnn (E : Env) : Option PyAnn → Res PyTy
  | none => .ok .unknown
  | some a => fromAnn E a

/-- Decimal digits of a number, most significant first; the fuel is the number of digits;
`usize::to_string` at function.rs:411, 436, module.rs:657. -/
def decimalGo : Nat → Nat → Str
  | 0, _ => []
  | f + 1, n => (if n < 10 then [] else decimalGo f (n / 10)) ++ [Char.ofNat (48 + n % 10)]

/-- `i.to_string()` — function.rs:411, 436, module.rs:657. -/
def decimal (n : Nat) : Str := decimalGo (n + 1) n

/-- The candidates `base`, `base1`, `base2`, … — function.rs:406-418, 431-443, module.rs:652-664. -/
def candidate (E : Env) (base : Str) (i : Nat) : Ident :=
  Ident.fromPy E (base ++ if i > 0 then decimal i else [])

/-- `loop { if !used(candidate(i)) break; i += 1 }` from `i`; the fuel bounds the search (`C28`: `fresh` starts with
enough) — function.rs:406-418, 431-443, module.rs:652-664. -/
def freshGo (E : Env) (base : Str) (used : Ident → Bool) : Nat → Nat → Res Ident
  | 0, _ => .error (.panic .stackOverflow)
  | f + 1, i => if used (candidate E base i) then freshGo E base used f (i + 1) else .ok (candidate E base i)

/-- The search loops for `new`, `call` and the prelude module — function.rs:404-419, 429-444, module.rs:650-665. -/
def fresh (E : Env) (base : Str) (names : List Ident) : Res Ident :=
  freshGo E base (fun i => names.contains i) (names.length + 1) 0

end Bindgen

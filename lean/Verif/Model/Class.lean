import Verif.Model.Property
import Verif.Model.Attr
/-!
# Classes: `syntax/class.rs`
-/
namespace Bindgen

/-- `struct Class` — class.rs:10-17. -/
structure Class where
  name : Path
  methods : List Function
  properties : List Property
  doc : Option Str
  deriving DecidableEq, Repr

/-- `Itertools::unique`: first occurrences — class.rs:38, module.rs:92, 571, codegen.rs:192, 396. -/
def unique {α : Type} [DecidableEq α] : List α → List α
  | [] => []
  | a :: l => a :: (unique l).filter (· ≠ a)

/-- The members that are parsed, with their names and objects — class.rs:33-66. -/
def Class.candidates (E : Env) (cfg : Config) (c : PyClass) : List (Ident × PyObj) :=
  (unique (c.dir.map (Ident.fromPy E))).filterMap (fun i =>
    match c.getattr i.asPy with
    | none => none
    | some o =>
      if cfg.isAttrAllowed i (Path.fromPy E o.modPath) || [c!"__init__", c!"__call__"].contains i.asPy
      then some (i, o) else none)

/-- The method type given by the name — class.rs:96-100. -/
def methodTypeOf (i : Ident) : MethodType :=
  if i.asPy = c!"__init__" then .constructor
  else if i.asPy = c!"__call__" then .callable
  else .unknown

/-- One member — class.rs:68-124: the methods and properties collected so far grow at the end. -/
def Class.step (E : Env) (name : Path) (acc : List Function × List Property) (m : Ident × PyObj) :
    Res (List Function × List Property) := do
  let full := name.join (Path.ofIdent m.1)
  match ← determine E m.2 (Path.fromPy E m.2.modPath) name false with
  | .function | .method => do
    let f ← Function.parse E m.2.fn full (.method name (methodTypeOf m.1))
    return (acc.1 ++ [f], acc.2)
  | .property => do
    let p ← Property.parse E m.2 full .class
    return (acc.1, acc.2 ++ [p])
  | _ => return acc

/-- Fold in `Res`: `try_for_each` — class.rs:68, module.rs:121, codegen.rs:238 — and loops with `?` — codegen.rs:119, 129. -/
def foldRes {α β : Type} (f : α → β → Res α) : α → List β → Res α
  | a, [] => .ok a
  | a, b :: l => do foldRes f (← f a b) l

/-- The panics while listing the members — class.rs:33-52: `dir` raises, and the debug assertions on the names and on the
`__module__` of each member. Simplification: they come before the first member is parsed (the iterator is lazy). -/
def Class.check (E : Env) (c : PyClass) : Res Unit := do
  checkDir E c.dirRaises c.dir
  Path.checkPy E (((c.dir.map (Ident.fromPy E)).filterMap (fun i => c.getattr i.asPy)).map PyObj.modPath)

/-- `Class::parse` — class.rs:20-143. -/
def Class.parse (E : Env) (cfg : Config) (c : PyClass) (name : Path) : Res Class := do
  Class.check E c
  let (ms, ps) ← foldRes (Class.step E name) ([], []) (Class.candidates E cfg c)
  let doc ← readDoc c.doc
  return ⟨name, ms, ps, doc⟩

/-- The emitted struct name, `none` if the class is left out — class.rs:163-187. -/
def Class.ident (E : Env) (name : Ident) : Option Str :=
  match name.toSyn E with
  | some i => some i
  | none => (sanitize E c!"s_" name).toSyn E

/-- Names of the methods — class.rs:206-210 (`name()` panics on an empty path). -/
def Class.methodIdents (c : Class) : Res (List Ident) := Res.traverse (fun (m : Function) => m.name.name) c.methods

/-- `matches!(method.typ, FunctionType::Method { typ: MethodType::Constructor, .. })` — class.rs:235-243. -/
def FnType.isConstructor : FnType → Bool
  | .method _ .constructor => true
  | _ => false

/-- `matches!(method.typ, FunctionType::Method { typ: MethodType::Callable, .. })` — class.rs:246-254. -/
def FnType.isCallable : FnType → Bool
  | .method _ .callable => true
  | _ => false

/-- The extra names that accessors avoid — class.rs:234-257. -/
def Class.extraIdents (E : Env) (c : Class) : List Ident :=
  (if c.methods.any (fun m => m.typ.isConstructor) then [Ident.fromPy E c!"new"] else []) ++
  (if c.methods.any (fun m => m.typ.isCallable) then [Ident.fromPy E c!"call"] else [])

/-- The three token streams `struct_impl`, `method_defs`, `method_impls` — class.rs:213-215. -/
structure ClassParts where
  inherent : List Fn
  traitSigs : List Sig
  traitImpls : List Fn
  deriving DecidableEq, Repr

/-- Adding one implementation — class.rs:221-229, 262-270. -/
def ClassParts.add (a : ClassParts) : FnImpl → ClassParts
  | .func fns => ⟨a.inherent ++ fns, a.traitSigs, a.traitImpls⟩
  | .method sigs fns => ⟨a.inherent, a.traitSigs ++ sigs, a.traitImpls ++ fns⟩

/-- A class property as an implementation — property.rs:175-191. -/
def propImpl (fns : List (Option Fn)) : FnImpl :=
  .method ((fns.filterMap id).map Fn.sig) (fns.filterMap id)

/-- `Class::generate` — class.rs:145-303; `none` if the class is left out. -/
def Class.generate (E : Env) (cfg : Config) (importable : Str → Bool) (lt : LocalTypes) (c : Class) :
    Res (Option ClassItem) := do
  let name ← c.name.name
  match Class.ident E name with
  | none => return none
  | some ident => do
    let taken ← c.methodIdents
    let impls ← Res.traverse (Function.generate E cfg importable taken lt) c.methods
    let taken' := taken ++ c.extraIdents E
    let props ← Res.traverse (Property.generate E cfg importable taken' lt) c.properties
    let parts := (impls ++ props.map propImpl).foldl ClassParts.add ⟨[], [], []⟩
    let traitIdent ← (Ident.fromPy E (ident ++ c!"Methods")).trySyn E
    return some ⟨docAttr cfg c.doc, ident, c.name.toPy, parts.inherent, traitIdent, parts.traitSigs, parts.traitImpls⟩

end Bindgen

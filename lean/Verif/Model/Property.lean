import Verif.Model.Function
/-!
# Properties: `syntax/property.rs`
-/
namespace Bindgen

/-- `enum PropertyOwner` — property.rs:17-21. -/
inductive Owner
  | module
  | class
  deriving DecidableEq, Repr

/-- `struct Property` — property.rs:6-15. -/
structure Property where
  name : Path
  owner : Owner
  isMutable : Bool
  ann : PyTy
  setterAnn : PyTy
  doc : Option Str
  setterDoc : Option Str
  deriving DecidableEq, Repr

/-- The type of the object itself, `Type::try_from(property.get_type())` — property.rs:33, 44, 69, 84. -/
def ownType (E : Env) (o : PyObj) : Res PyTy := fromClass E o.typeBases o.typeRepr

/-- The getter of a class property — property.rs:53-85. -/
def parseGetter (E : Env) (o : PyObj) : Res (PyTy × Option Str) :=
  match o.fget with
  | some g => do
    let ann ← match g.ret with
      | some r => readAnn E r
      | none => ownType E o
    let doc ← readDoc g.doc
    return (ann, doc)
  | none => do return (← ownType E o, none)

/-- The setter of a class property — property.rs:87-134: mutability, type, getter docs, setter docs. -/
def parseSetter (E : Env) (o : PyObj) (doc : Option Str) : Res (Bool × PyTy × Option Str × Option Str) :=
  match o.fset with
  | some s => do
    let ann ← match s.params with
      | some ps => do readAnn E (← Res.ofOption .unwrap ps[1]?)
      | none => .ok .unknown
    let setterDoc ← readDoc s.doc
    return if doc.isNone then (true, ann, setterDoc, setterDoc)
      else if setterDoc.isNone then (true, ann, doc, doc)
      else (true, ann, doc, setterDoc)
  | none => .ok (false, .unknown, doc, none)

/-- `Property::parse` — property.rs:24-147. -/
def Property.parse (E : Env) (o : PyObj) (name : Path) (owner : Owner) : Res Property :=
  match owner with
  | .module => do
    let ann ← ownType E o
    return ⟨name, .module, true, ann, ann, none, none⟩
  | .class => do
    let (ann, doc) ← parseGetter E o
    let (mutable, setterAnn, doc, setterDoc) ← parseSetter E o doc
    return ⟨name, .class, mutable, ann, setterAnn, doc, setterDoc⟩

/-- A name that is taken or reserved — property.rs:219-220, 223-224, 235-236, 309-310. -/
def nameTaken (taken : List Ident) (i : Ident) : Bool :=
  taken.contains i || forbiddenFunctionNames.contains i.asPy

/-- `get_…` unless taken — property.rs:222-229, 234-241. -/
def getterFallback (E : Env) (taken : List Ident) (name : Ident) : Res (Option Str) :=
  let g := Ident.fromPy E (c!"get_" ++ name.asPy)
  if nameTaken taken g then .ok none else do return some (← g.trySyn E)

/-- The name of the getter, `none` if it is left out — property.rs:216-243. -/
def getterIdent (E : Env) (taken : List Ident) (name : Ident) : Res (Option Str) :=
  match name.toSyn E with
  | some i => if nameTaken taken name then getterFallback E taken name else .ok (some i)
  | none => getterFallback E taken name

/-- The name of the setter, `none` if it is left out — property.rs:307-316. -/
def setterIdent (E : Env) (taken : List Ident) (name : Ident) : Res (Option Str) :=
  let s := Ident.fromPy E (c!"set_" ++ name.asPy)
  if nameTaken taken s then .ok none else do return some (← s.trySyn E)

/-- The object that carries the attribute — property.rs:248-253, 277, 325-330, 355. -/
def Property.target (importable : Str → Bool) (p : Property) : Res Obj :=
  match p.owner with
  | .module => do (← Res.ofOption .unreachable p.name.parent).importQuote importable
  | .class => .ok .self

/-- First parameter of the accessors — property.rs:254-275, 332-352. -/
def Owner.recv : Owner → Recv
  | .module => .py
  | .class => .self

/-- `Property::generate_getter` — property.rs:196-285. -/
def Property.generateGetter (E : Env) (cfg : Config) (importable : Str → Bool) (taken : List Ident) (lt : LocalTypes)
    (p : Property) : Res (Option Fn) := do
  let name ← p.name.name
  match ← getterIdent E taken name with
  | none => return none
  | some ident => do
    let ty ← intoRsOwned E lt p.ann
    let obj ← p.target importable
    return some ⟨docAttr cfg p.doc, ⟨false, ident, p.owner.recv, [], .ty ty⟩, false, [], .getattr obj name.asPy⟩

/-- `Property::generate_setter` — property.rs:287-362. -/
def Property.generateSetter (E : Env) (cfg : Config) (importable : Str → Bool) (taken : List Ident) (lt : LocalTypes)
    (p : Property) : Res (Option Fn) := do
  let name ← p.name.name
  match ← setterIdent E taken name with
  | none => return none
  | some ident => do
    let pre ← preprocess E lt p.ann
    let ty ← intoRsBorrowed E lt p.ann
    let obj ← p.target importable
    return some ⟨docAttr cfg p.setterDoc, ⟨false, ident, p.owner.recv, [(c!"p_value", ty)], .unit⟩,
      p.owner = .class, [(c!"p_value", pre)], .setattr obj name.asPy c!"p_value"⟩

/-- `Property::generate` — property.rs:149-194. The accessors in order; `none` stands for empty tokens. -/
def Property.generate (E : Env) (cfg : Config) (importable : Str → Bool) (taken : List Ident) (lt : LocalTypes)
    (p : Property) : Res (List (Option Fn)) := do
  let getter ← p.generateGetter E cfg importable taken lt
  if p.isMutable then do
    let setter ← p.generateSetter E cfg importable taken lt
    return [getter, setter]
  else return [getter]

end Bindgen

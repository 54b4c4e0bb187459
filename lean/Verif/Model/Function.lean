import Verif.Model.Python
import Verif.Model.Emit
import Verif.Model.Config
import Verif.Model.Text
/-!
# Functions: `syntax/function.rs`
-/
namespace Bindgen

/-- `enum MethodType` — function.rs:24-32. -/
inductive MethodType
  | instanceMethod | classMethod | staticMethod | constructor | callable | unknown
  deriving DecidableEq, Repr

/-- `enum FunctionType` — function.rs:17-22. -/
inductive FnType
  | function
  | method (classPath : Path) (typ : MethodType)
  | closure
  deriving DecidableEq, Repr

/-- `struct Parameter` — function.rs:668-694; equality looks only at the presence of a default. -/
structure Param where
  name : Ident
  kind : ParamKind
  ann : PyTy
  hasDefault : Bool
  deriving DecidableEq, Repr

/-- `struct Function` — function.rs:8-15. -/
structure Function where
  name : Path
  typ : FnType
  params : List Param
  ret : PyTy
  doc : Option Str
  deriving DecidableEq, Repr

/-- `*args` — function.rs:210-215 (and the copies at 268-273, 298-303). -/
def argsParam : Param := ⟨Ident.fromRs c!"args", .varPositional, .tuple [.unknown], false⟩

/-- `**kwargs` — function.rs:216-224 (and the copies at 274-282, 304-312). -/
def kwargsParam : Param := ⟨Ident.fromRs c!"kwargs", .varKeyword, .optional (.dict .unknown .unknown), false⟩

/-- One parameter — function.rs:63-102. -/
def parseParam (E : Env) (p : PyParam) : Res Param := do
  Ident.checkPy E [p.name]
  let ann ← match p.kind with
    | .varPositional => .ok (.tuple [.unknown])
    | .varKeyword => .ok (.optional (.dict .unknown .unknown))
    | _ => readAnn E p.ann
  return ⟨Ident.fromPy E p.name, p.kind, ann, p.hasDefault⟩

/-- Inference of an unknown method type — function.rs:119-174; the class path is never empty, so the `unreachable!` of line 130 is left out. -/
def inferMethod (typ : FnType) (dk : Option DictKind) : FnType :=
  match typ with
  | .method c .unknown =>
    match dk with
    | some .classMethod => .method c .classMethod
    | some .staticMethod => .method c .staticMethod
    | some .other => .method c .instanceMethod
    | none => .method c .staticMethod
  | t => t

/-- `parameters.first().map(|p| p.name.as_rs()) == Some("r#self")` — function.rs:185, 193. -/
def firstIsSelf (ps : List Param) : Bool := (ps.head?.map (fun p => p.name.rs)) = some c!"r#self"

/-- The checks on a first parameter called `self` — function.rs:176-229. -/
def selfCheck (typ : FnType) (ps : List Param) : FnType × List Param :=
  match typ with
  | .method _ .instanceMethod | .method _ .constructor | .method _ .callable => (typ, ps)
  | .method c _ => if firstIsSelf ps then (.method c .instanceMethod, ps) else (typ, ps)
  | .function | .closure =>
    match ps with
    | p :: rest =>
      if p.name.rs = c!"r#self" then
        if p.kind = .positionalOnly || p.kind = .positionalOrKeyword then
          (typ, { p with name := Ident.fromRs c!"__unknown_self__", ann := .unknown } :: rest)
        else (typ, [argsParam, kwargsParam])
      else (typ, ps)
    | [] => (typ, ps)

/-- The reassignment of instance methods without parameters — function.rs:231-247. -/
def noParamHack (name : Path) (typ : FnType) (ps : List Param) : FnType :=
  match typ with
  | .method _ .instanceMethod => if ps.isEmpty then .method name .staticMethod else typ
  | t => t

/-- Removal of the receiver — function.rs:249-256: `Vec::remove(0)` panics on an empty vector. -/
def dropReceiver (typ : FnType) (ps : List Param) : Res (List Param) :=
  match typ with
  | .method _ .instanceMethod | .method _ .constructor | .method _ .callable =>
    match ps with
    | [] => .error (.panic .index)
    | _ :: rest => .ok rest
  | _ => .ok ps

/-- A remaining parameter called `self` — function.rs:258-284. -/
def replaceSelf (ps : List Param) : List Param :=
  if ps.any (fun p => p.name.rs = c!"r#self") then [argsParam, kwargsParam] else ps

/-- `Function::parse` — function.rs:35-318. -/
def Function.parse (E : Env) (f : PyFn) (name : Path) (typ : FnType) : Res Function := do
  let doc ← readDoc f.doc
  match f.sig with
  | none => return ⟨name, typ, [argsParam, kwargsParam], .unknown, doc⟩
  | some s => do
    let ps ← Res.traverse (parseParam E) s.params
    -- 105-106
    let ps := ps.filter (fun p => p.name.rs ≠ c!"r#_")
    let ret ← readAnn E s.ret
    let (typ, ps) := selfCheck (inferMethod typ f.dictKind) ps
    let typ := noParamHack name typ ps
    let ps ← dropReceiver typ ps
    return ⟨name, typ, replaceSelf ps, ret, doc⟩

/-- `format!("{prefix}{}", name.as_py().replace(|c| !c.is_alphanumeric(), "_"))` — function.rs:349-352,
class.rs:169-172. -/
def sanitize (E : Env) (pre : Str) (name : Ident) : Ident :=
  Ident.fromPy E (pre ++ name.asPy.map (fun c => if E.alnum c then c else '_'))

/-- The emitted name, `none` if nothing is emitted — function.rs:339-367. -/
def Function.ident (E : Env) (name : Ident) : Option Str :=
  match name.toSyn E with
  | some i => if forbiddenFunctionNames.contains name.asPy then none else some i
  | none => (sanitize E c!"f_" name).toSyn E

/-- `Ident::from_py(&format!("p_{}", param.name)).try_into()?` — function.rs:371, 517, 569. -/
def paramIdent (E : Env) (p : Param) : Res Str := (Ident.fromPy E (c!"p_" ++ p.name.asPy)).trySyn E

/-- Documentation attribute — function.rs:328-336 and the same in the other generators. -/
def docAttr (cfg : Config) (doc : Option Str) : Option Str :=
  if cfg.generateDocs then doc.map formatDocstring else none

/-- Positional kinds — function.rs:510-516. -/
def ParamKind.isPositional : ParamKind → Bool
  | .positionalOnly | .positionalOrKeyword => true
  | _ => false

/-- Positional arguments — function.rs:506-556. -/
def positionalArgs (E : Env) (ps : List Param) : Res (Option Pos) := do
  let xs ← Res.traverse (paramIdent E) (ps.filter (fun p => p.kind.isPositional))
  let x? := (ps.find? (fun p => p.kind = .varPositional)).bind
    (fun p => (Ident.fromPy E (c!"p_" ++ p.name.asPy)).toSyn E)
  return match x? with
    | some x => some (if xs.isEmpty then .var x else .tupleVar xs x)
    | none => if xs.isEmpty then none else some (.tuple xs)

/-- Keyword arguments — function.rs:557-607. -/
def keywordArgs (E : Env) (ps : List Param) : Res (Option Kw) := do
  let kws := ps.filter (fun p => p.kind = .keywordOnly)
  let xs ← Res.traverse (paramIdent E) kws
  let items := (kws.map (fun p => p.name.asPy)).zip xs
  let x? := (ps.find? (fun p => p.kind = .varKeyword)).bind
    (fun p => (Ident.fromPy E (c!"p_" ++ p.name.asPy)).toSyn E)
  return match x? with
    | some x => some (if xs.isEmpty then .var x else .varSet x items)
    | none => if xs.isEmpty then none else some (.freshSet items)

/-- The receiver of the emitted call — function.rs:474-504; `none` for methods of unknown type. -/
def dispatcher (importable : Str → Bool) (name : Path) : FnType → Res (Option Obj)
  | .function | .closure => do
    let p ← Res.ofOption .unreachable name.parent
    return some (← p.importQuote importable)
  | .method c .classMethod | .method c .staticMethod | .method c .constructor => do
    return some (← c.importQuote importable)
  | .method _ .instanceMethod | .method _ .callable => .ok (some .self)
  | .method _ .unknown => .ok none

/-- The emitted signature — function.rs:390-460. -/
def Function.contract (E : Env) (typ : FnType) (ident : Str) (taken : List Ident) (params : List (Str × RsTy))
    (ret : RsTy) : Res Sig :=
  match typ with
  | .method _ .instanceMethod => .ok ⟨false, ident, .self, params, .ty ret⟩
  | .method _ .callable => do
    let i ← (← fresh E c!"call" taken).trySyn E
    return ⟨false, i, .self, params, .ty ret⟩
  | .method _ .constructor => do
    let i ← (← fresh E c!"new" taken).trySyn E
    return ⟨true, i, .py, params, .selfBound⟩
  | _ => .ok ⟨true, ident, .py, params, .ty ret⟩

/-- `Function::generate` — function.rs:320-665. -/
def Function.generate (E : Env) (cfg : Config) (importable : Str → Bool) (taken : List Ident) (lt : LocalTypes)
    (f : Function) : Res FnImpl := do
  let name ← f.name.name
  match Function.ident E name with
  | none => return .func []
  | some ident => do
    let idents ← Res.traverse (paramIdent E) f.params
    let pres ← Res.traverse (fun p => preprocess E lt p.ann) f.params
    let types ← Res.traverse (fun p => intoRsBorrowed E lt p.ann) f.params
    let ret ← intoRsOwned E lt f.ret
    let sig ← Function.contract E f.typ ident taken (idents.zip types) ret
    match ← dispatcher importable f.name f.typ with
    | none => return .method [] []
    | some obj => do
      let pos ← positionalArgs E f.params
      let kw ← keywordArgs E f.params
      let isSelf := sig.recv = .self
      let meth := match f.typ with
        | .method _ .constructor | .method _ .callable => none
        | _ => some name.asPy
      -- with keyword arguments, absent positional arguments are `()`
      let pos := if kw.isSome && pos.isNone then some .unit else pos
      let fn : Fn := ⟨docAttr cfg f.doc, sig, isSelf, idents.zip pres, .call obj meth pos kw⟩
      return if isSelf then .method [sig] [fn] else .func [fn]

end Bindgen

import Verif.Model.Emit
import Verif.Model.Function
import Verif.Spec.Names
/-!
# Specification: running the emitted bodies, and Python's own argument binding

Written from the documentation of pyo3 and of Python, not from the generator.
-/
namespace Bindgen.Spec

/-- Python values as far as argument passing looks at them. Dictionary keys are abstracted to strings. -/
inductive PyVal
  | none
  | atom (n : Nat)
  | tuple (l : List PyVal)
  | dict (l : List (Str × PyVal))

/-- A conversion statement applied to the value of its variable; nothing if the Rust type of the parameter does not admit
the value. -/
def conv : Pre → PyVal → Option PyVal
  | .none, v => some v
  | .intoAny, v => some v
  | .intoTuple, .tuple l => some (.tuple l)
  | .intoDict, .dict d => some (.dict d)
  | .optDict, .dict d => some (.dict d)
  | .optDict, .none => some (.dict [])
  | _, _ => Option.none

/-- Rust variables. -/
abbrev Vars := List (Str × PyVal)

/-- `let x = convert(x);` for each conversion statement, in order (a later binding shadows an earlier one). -/
def runPre : Vars → List (Str × Pre) → Option Vars
  | vs, [] => some vs
  | vs, (x, p) :: rest =>
    match (vs.lookup x).bind (conv p) with
    | some v => runPre ((x, v) :: vs) rest
    | none => none

/-- Values of several variables. -/
def vals (vs : Vars) : List Str → Option (List PyVal)
  | [] => some []
  | x :: xs => match vs.lookup x, vals vs xs with
    | some v, some r => some (v :: r)
    | _, _ => none

/-- The elements of a tuple. -/
def elems : PyVal → Option (List PyVal)
  | .tuple l => some l
  | _ => none

/-- The entries of a dictionary. -/
def entries : PyVal → Option (List (Str × PyVal))
  | .dict l => some l
  | _ => none

/-- `dict.set_item(k, v)`. -/
def setItem (d : List (Str × PyVal)) (k : Str) (v : PyVal) : List (Str × PyVal) :=
  match d with
  | [] => [(k, v)]
  | (k', v') :: r => if k' = k then (k, v) :: r else (k', v') :: setItem r k v

/-- Several `set_item`s with the values of variables. -/
def setItems (vs : Vars) (d : List (Str × PyVal)) : List (Str × Str) → Option (List (Str × PyVal))
  | [] => some d
  | (k, x) :: r => match vs.lookup x with
    | some v => setItems vs (setItem d k v) r
    | none => none

/-- Positional arguments. -/
def evalPos (vs : Vars) : Option Pos → Option (List PyVal)
  | none => some []
  | some .unit => some []
  | some (.var x) => (vs.lookup x).bind elems
  | some (.tuple xs) => vals vs xs
  | some (.tupleVar xs x) => do return (← vals vs xs) ++ (← (vs.lookup x).bind elems)

/-- Keyword arguments. -/
def evalKw (vs : Vars) : Option Kw → Option (List (Str × PyVal))
  | none => some []
  | some .fresh => some []
  | some (.var x) => (vs.lookup x).bind entries
  | some (.freshSet items) => setItems vs [] items
  | some (.varSet x items) => do setItems vs (← (vs.lookup x).bind entries) items

/-- What a body asks Python to do. -/
inductive Request
  /-- call an object, or a method of it, with positional and keyword arguments -/
  | call (obj : Obj) (meth : Option Str) (args : List PyVal) (kwargs : List (Str × PyVal))
  | get (obj : Obj) (name : Str)
  | set (obj : Obj) (name : Str) (v : PyVal)

/-- Running an emitted function on arguments: the request it makes; nothing if it is not applicable. -/
def run (f : Fn) (args : List PyVal) : Option Request :=
  if args.length ≠ f.sig.params.length then none
  else match runPre ((f.sig.params.map Prod.fst).zip args) f.pre with
  | none => none
  | some vs =>
    match f.body with
    | .call obj meth pos kw => do return .call obj meth (← evalPos vs pos) (← evalKw vs kw)
    | .getattr obj name => some (.get obj name)
    | .setattr obj name x => do return .set obj name (← vs.lookup x)

/-- The functions with bodies in an implementation. -/
def fnsOf : FnImpl → List Fn
  | .func fns => fns
  | .method _ fns => fns

/-- Values that a Rust caller can pass for a parameter of this type, as far as the emitted conversions depend on it. -/
def Admits : RsTy → PyVal → Prop
  | .implIntoPyDict, v => ∃ d, v = .dict d
  | .implIntoPy t, v => t = c!"PyTuple" → ∃ l, v = .tuple l
  | .option (.bound t), v => t = c!"PyDict" → v = .none ∨ ∃ d, v = .dict d
  | _, _ => True

/-- Functions whose first Python parameter is the receiver. -/
def hasReceiver : FnType → Bool
  | .method _ .instanceMethod | .method _ .constructor | .method _ .callable => true
  | _ => false

/-- Functions outside classes. -/
def isFree : FnType → Bool
  | .function | .closure => true
  | .method _ _ => false

/-- Python names and kinds of the parameters of a function of the model. -/
def nk (ps : List Param) : List (Str × ParamKind) := ps.map (fun q => (q.name.asPy, q.kind))

/-- A parameter and the value supplied for it. -/
structure Arg where
  kind : ParamKind
  name : Str
  val : PyVal

/-- Values of the positional parameters. -/
def positionalVals (as : List Arg) : List PyVal :=
  (as.filter (fun a => a.kind = .positionalOnly || a.kind = .positionalOrKeyword)).map Arg.val

/-- Elements of the value of `*args`. -/
def starVals (as : List Arg) : List PyVal :=
  as.flatMap (fun a => if a.kind = .varPositional then (elems a.val).getD [] else [])

/-- Keyword-only parameters with their values. -/
def keywordVals (as : List Arg) : List (Str × PyVal) :=
  (as.filter (fun a => a.kind = .keywordOnly)).map (fun a => (a.name, a.val))

/-- Entries of the value of `**kwargs`. -/
def starStarVals (as : List Arg) : List (Str × PyVal) :=
  as.flatMap (fun a => if a.kind = .varKeyword then (entries a.val).getD [] else [])

/-- The parameters of a function as parsing leaves them (`C26_wellformed`): distinct identifiers, at most one `*args: tuple`
and one `**kwargs: dict`. -/
structure WfParams (E : Env) (ps : List Param) : Prop where
  ident : ∀ p ∈ ps, IsIdent E p.name.asPy
  names : (ps.map (fun p => p.name.asPy)).Nodup
  oneStar : (ps.filter (fun p => p.kind = .varPositional)).length ≤ 1
  oneStarStar : (ps.filter (fun p => p.kind = .varKeyword)).length ≤ 1
  star : ∀ p ∈ ps, p.kind = .varPositional → p.ann = .tuple [.unknown]
  starStar : ∀ p ∈ ps, p.kind = .varKeyword → p.ann = .optional (.dict .unknown .unknown)

/-- Arguments of a function of the model, with the kinds and Python names of its parameters. -/
def supplied (ps : List Param) (args : List PyVal) : List Arg :=
  List.zipWith (fun p v => ⟨p.kind, p.name.asPy, v⟩) ps args

/-! ## Python argument binding -/

/-- What a Python parameter is bound to. -/
inductive Bound
  | val (v : PyVal)
  | default
  /-- extra positional arguments -/
  | rest (l : List PyVal)
  /-- extra keyword arguments -/
  | kwrest (l : List (Str × PyVal))

/-- Names of parameters that a keyword argument can name. -/
def keywordNames (ps : List PyParam) : List Str :=
  (ps.filter (fun p => p.kind = .positionalOrKeyword || p.kind = .keywordOnly)).map PyParam.name

/-- One parameter, given its positional argument (if any), all positional arguments beyond the positional parameters, and
the keyword arguments. -/
def bindOne (ps : List PyParam) (extra : List PyVal) (kwargs : List (Str × PyVal)) (p : PyParam) (pos : Option PyVal) :
    Option Bound :=
  match p.kind with
  | .positionalOnly => match pos with
    | some v => some (.val v)
    | none => if p.hasDefault then some .default else none
  | .positionalOrKeyword => match pos, kwargs.lookup p.name with
    | some v, none => some (.val v)
    | none, some v => some (.val v)
    | none, none => if p.hasDefault then some .default else none
    | some _, some _ => none
  | .varPositional => some (.rest extra)
  | .keywordOnly => match kwargs.lookup p.name with
    | some v => some (.val v)
    | none => if p.hasDefault then some .default else none
  | .varKeyword => some (.kwrest (kwargs.filter (fun e => !(keywordNames ps).contains e.1)))

/-- Walk over the parameters, consuming positional arguments. -/
def bindGo (all : List PyParam) (extra : List PyVal) (kwargs : List (Str × PyVal)) :
    List PyParam → List PyVal → Option (List (Str × Bound))
  | [], _ => some []
  | p :: ps, args =>
    if p.kind = .positionalOnly ∨ p.kind = .positionalOrKeyword then do
      let b ← bindOne all extra kwargs p args.head?
      return (p.name, b) :: (← bindGo all extra kwargs ps args.tail)
    else do
      let b ← bindOne all extra kwargs p none
      return (p.name, b) :: (← bindGo all extra kwargs ps args)

/-- Number of positional parameters. -/
def positionalCount (ps : List PyParam) : Nat :=
  (ps.filter (fun p => p.kind = .positionalOnly || p.kind = .positionalOrKeyword)).length

/-- Python's binding of a call to a signature (`inspect.Signature.bind` with defaults): `none` is a `TypeError`. -/
def bind (ps : List PyParam) (args : List PyVal) (kwargs : List (Str × PyVal)) : Option (List (Str × Bound)) :=
  if args.length > positionalCount ps ∧ ∀ p ∈ ps, p.kind ≠ .varPositional then none
  else if (∀ p ∈ ps, p.kind ≠ .varKeyword) ∧ ∃ e ∈ kwargs, e.1 ∉ keywordNames ps then none
  else bindGo ps (args.drop (positionalCount ps)) kwargs ps args

/-- What a parameter should be bound to, given the value supplied for it. -/
def boundTo (kind : ParamKind) (v : PyVal) : Bound :=
  match kind with
  | .varPositional => .rest ((elems v).getD [])
  | .varKeyword => .kwrest ((entries v).getD [])
  | _ => .val v

/-- Rank of a kind in the order Python requires. -/
def kindRank : ParamKind → Nat
  | .positionalOnly => 0
  | .positionalOrKeyword => 1
  | .varPositional => 2
  | .keywordOnly => 3
  | .varKeyword => 4

/-- A well-formed Python signature: kinds in order, at most one `*args` and one `**kwargs`, distinct names. -/
structure WfSig (ps : List PyParam) : Prop where
  order : ps.Pairwise (fun p q => kindRank p.kind ≤ kindRank q.kind)
  oneStar : (ps.filter (fun p => p.kind = .varPositional)).length ≤ 1
  oneStarStar : (ps.filter (fun p => p.kind = .varKeyword)).length ≤ 1
  names : (ps.map PyParam.name).Nodup

end Bindgen.Spec

import Verif.Model.Typing
import Verif.Model.Rust
/-!
# From `Type` to Rust types: `typing/into_rs.rs`
-/
namespace Bindgen

/-- `local_types: &HashMap<Path, Path>` as the list of insertions (a later insertion wins) —
into_rs.rs:9, built at module.rs:359-389. -/
abbrev LocalTypes := List (Path × Path)

/-- `local_types.get(p)` — into_rs.rs:321. -/
def LocalTypes.get (lt : LocalTypes) (p : Path) : Option Path := lt.reverse.lookup p

/-- Statement that rebinds a parameter before use — into_rs.rs:36-92. -/
inductive Pre
  /-- nothing -/
  | none
  /-- `let x = IntoPyDict::into_py_dict_bound(x, py);` -/
  | intoDict
  /-- `let x = IntoPy::<Py<PyTuple>>::into_py(x, py); let x = x.bind(py);` -/
  | intoTuple
  /-- `let x = IntoPy::<Py<PyAny>>::into_py(x, py); let x = x.bind(py);` -/
  | intoAny
  /-- `let x = if let Some(x) = x { into_py_dict_bound(x, py) } else { PyDict::new_bound(py) };` -/
  | optDict
  deriving DecidableEq, Repr

/-- ASCII lower case; only these letters can become `ndarray` under `str::to_lowercase` — into_rs.rs:348. -/
def Str.lowerAscii (s : Str) : Str :=
  s.map (fun c => if 'A'.toNat ≤ c.toNat && c.toNat ≤ 'Z'.toNat then Char.ofNat (c.toNat + 32) else c)

/-- The numpy test — into_rs.rs:339-349. -/
def isNdarray (E : Env) (name : Str) : Bool :=
  E.numpy &&
    Str.lowerAscii ((Str.splitChar '.' (Str.beforeChar '[' name)).getLast?.getD name) = c!"ndarray"

/-- The fallback for values of unknown type: `(owned, borrowed)` — into_rs.rs:101-104, 116-121, 329-333. -/
def anyOut : RsTy × RsTy := (.bound c!"PyAny", .implIntoPy c!"PyAny")

/-- `(Bound<'py, T>, &Bound<'py, T>)` for a pyo3 type — into_rs.rs:209-303. -/
def boundOut (name : Str) : RsTy × RsTy := (.bound name, .ref (.bound name))

/-- `OutputType::new_identical` — into_rs.rs:385-391. -/
def sameOut (t : RsTy) : RsTy × RsTy := (t, t)

/-- `Type::map_type` and `try_map_external_type` — into_rs.rs:307-368. -/
def mapType (E : Env) (lt : LocalTypes) (name : Str) : Res (RsTy × RsTy) :=
  if isNdarray E name then .ok (.boundNumpy, .ref .boundNumpy)
  else do
    Path.checkPy E [Str.beforeChar '[' name]
    match lt.get (Path.fromPy E (Str.beforeChar '[' name)) with
    | some rel =>
      if rel.synOk E then .ok (.boundLocal rel, .ref (.boundLocal rel)) else .error (.panic .unwrap)
    | .none => .ok anyOut

mutual
/-- `Type::into_rs` — into_rs.rs:99-305: `(owned, borrowed)`. -/
def intoRs (E : Env) (lt : LocalTypes) : PyTy → Res (RsTy × RsTy)
  | .any | .unknown => .ok anyOut
  | .other name => mapType E lt name
  | .bool => .ok (sameOut .bool)
  | .byteArray | .bytes => .ok (.vec .u8, .slice .u8)
  | .float => .ok (sameOut .f64)
  | .long => .ok (sameOut .i64)
  | .string => .ok (.string, .strRef)
  | .optional t => do
    let i ← intoRs E lt t
    return sameOut (.option i.1)
  | .union _ => .ok anyOut
  | .none => .ok anyOut
  | .dict k v => do
    let v' ← intoRs E lt v
    if k.isHashable && !v'.1.mentionsPyAny then
      let k' ← intoRs E lt k
      return (.hashMap k'.1 v'.1, .ref (.hashMap k'.1 v'.1))
    else return (.bound c!"PyDict", .implIntoPyDict)
  | .frozenSet t =>
    if t.isHashable then do
      let i ← intoRs E lt t
      return (.hashSet i.1, .ref (.hashSet i.1))
    else .ok (boundOut c!"PyFrozenSet")
  | .list t => do
    let i ← intoRs E lt t
    return (.vec i.1, .slice i.1)
  | .set t =>
    if t.isHashable then do
      let i ← intoRs E lt t
      return (.hashSet i.1, .ref (.hashSet i.1))
    else .ok (boundOut c!"PySet")
  | .tuple [] => .ok (.bound c!"PyTuple", .implIntoPy c!"PyTuple")
  | .tuple [_] => .ok (.bound c!"PyTuple", .implIntoPy c!"PyTuple")
  | .tuple [t, u] =>
    -- 191-194: `tuple[T, ...]` is treated as a list
    if u = .ellipsis then do
      let i ← intoRs E lt t
      return (.vec i.1, .slice i.1)
    else do
      let a ← intoRs E lt t
      let b ← intoRs E lt u
      return sameOut (.tuple [a.1, b.1])
  | .tuple (t :: u :: w :: ts) => do
    let a ← intoRs E lt t
    let b ← intoRs E lt u
    let c ← intoRs E lt w
    let is ← intoRsList E lt ts
    return sameOut (.tuple (a.1 :: b.1 :: c.1 :: is))
  | .ipV4 => .ok (sameOut (.stdNet c!"IpV4Addr"))
  | .ipV6 => .ok (sameOut (.stdNet c!"IpV6Addr"))
  | .path => .ok (.pathBuf, .ref .path)
  | .slice => .ok (boundOut c!"PySlice")
  | .complex => .ok (boundOut c!"PyComplex")
  | .date => .ok (boundOut c!"PyDate")
  | .dateTime => .ok (boundOut c!"PyDateTime")
  | .delta => .ok anyOut
  | .time => .ok (boundOut c!"PyTime")
  | .tzInfo => .ok (boundOut c!"PyTzInfo")
  | .capsule => .ok (boundOut c!"PyCapsule")
  | .cFunction => .ok (boundOut c!"PyCFunction")
  | .code => .ok (boundOut c!"PyCode")
  | .ellipsis => .ok anyOut
  | .frame => .ok (boundOut c!"PyFrame")
  | .function _ _ => .ok (boundOut c!"PyFunction")
  | .module => .ok (boundOut c!"PyModule")
  | .super => .ok (boundOut c!"PySuper")
  | .traceback => .ok (boundOut c!"PyTraceback")
  | .type => .ok (boundOut c!"PyType")

/-- `inner_types.into_iter().map(|t| t.into_rs(local_types).owned)` — into_rs.rs:196-199. -/
def intoRsList (E : Env) (lt : LocalTypes) : List PyTy → Res (List RsTy)
  | [] => .ok []
  | t :: ts => do
    let i ← intoRs E lt t
    let is ← intoRsList E lt ts
    return i.1 :: is
end

/-- `Type::into_rs_owned` — into_rs.rs:9-12. -/
def intoRsOwned (E : Env) (lt : LocalTypes) (t : PyTy) : Res RsTy := do return (← intoRs E lt t).1

/-- `Type::into_rs_borrowed` — into_rs.rs:14-17. -/
def intoRsBorrowed (E : Env) (lt : LocalTypes) (t : PyTy) : Res RsTy := do
  return (← intoRs E lt t).2

/-- `!key.is_hashable() || value.into_rs().owned.to_string().contains("PyAny")` — into_rs.rs:28-34, 77-83. -/
def dictNeedsConversion (E : Env) (lt : LocalTypes) (k v : PyTy) : Res Bool :=
  if !k.isHashable then .ok true else do return (← intoRs E lt v).1.mentionsPyAny

/-- `Type::preprocess_borrowed` — into_rs.rs:19-97. -/
def preprocess (E : Env) (lt : LocalTypes) : PyTy → Res Pre
  | .dict k v => do return if ← dictNeedsConversion E lt k v then .intoDict else .none
  | .tuple ts => .ok (if ts.length < 2 then .intoTuple else .none)
  | .any | .unknown | .union _ | .none | .delta | .ellipsis => .ok .intoAny
  | .other name =>
    if isNdarray E name then .ok .none
    else do
      Path.checkPy E [name]
      return if (lt.get (Path.fromPy E name)).isNone then .intoAny else .none
  | .optional (.dict k v) => do return if ← dictNeedsConversion E lt k v then .optDict else .none
  | _ => .ok .none

end Bindgen

import Verif.Model.Typing
/-!
# From Python annotations to `Type`: `typing/from_py.rs`
-/
namespace Bindgen

/-- `iter().map(f).collect::<Result<Vec<_>>>()` — from_py.rs:137, 248, 269, 352, 403, module.rs:288, 405-474, function.rs:103, 372, 388. -/
def Res.traverse {α β : Type} (f : α → Res β) : List α → Res (List β)
  | [] => .ok []
  | a :: l => do
    let b ← f a
    let bs ← Res.traverse f l
    return b :: bs

/-- `n - m` on `usize` as seen by the later comparison with `0`; with overflow checks a negative
result panics (from_py.rs:493, 499). Without them the value wraps, which is zero iff this integer is. -/
def usizeSub (E : Env) (n : Int) (m : Nat) : Res Int :=
  if E.debug && n < m then .error (.panic .overflow) else .ok (n - m)

/-- The `j` loop — from_py.rs:497-515: number of elements after `i` up to and including the one
that closes the bracket. -/
def repairScan (E : Env) (n : Int) : List Str → Res (Option Nat)
  | [] => .ok none
  | y :: ys => do
    let n ← usizeSub E (n + y.count '[') (y.count ']')
    if n = 0 then return some 1
    else
      let r ← repairScan E n ys
      return r.map (· + 1)

/-- The `i` loop — from_py.rs:490-517 on `sequence[i..]`. After a merge of `k` further elements the
code compares the old `j = i + k` with the new length: with `rest'` remaining this is `k < rest'.length`
(the offset `i` cancels); then it restarts at the same `i`, otherwise it stops altogether. The fuel bounds the
number of loop steps and is never used up (`repair_terminates`). -/
def repairGo (E : Env) (sep : Char) : Nat → List Str → Res (List Str)
  | 0, _ => .error (.panic .stackOverflow)
  | _ + 1, [] => .ok []
  | _ + 1, [x] => .ok [x]
  | fuel + 1, x :: y :: ys => do
    let n ← usizeSub E (x.count '[') (x.count ']')
    if n = 0 then
      let r ← repairGo E sep fuel (y :: ys)
      return x :: r
    else
      match ← repairScan E n (y :: ys) with
      | none =>
        let r ← repairGo E sep fuel (y :: ys)
        return x :: r
      | some k =>
        let merged := x ++ ((y :: ys).take k).flatMap (fun e => sep :: e)
        let rest := (y :: ys).drop k
        if k < rest.length then repairGo E sep fuel (merged :: rest)
        else return merged :: rest

/-- `repair_complex_sequence` — from_py.rs:481-518. An empty vector overflows in `sequence.len() - 1`. -/
def repair (E : Env) (sep : Char) (l : List Str) : Res (List Str) :=
  if l = [] then .error (.panic .overflow) else repairGo E sep (l.length + 1) l

/-- First group of literal patterns — from_py.rs:216-224. -/
def primTable : List (Str × PyTy) := [
  (c!"Any", .any), (c!"bool", .bool), (c!"bytearray", .byteArray), (c!"bytes", .bytes),
  (c!"float", .float), (c!"int", .long), (c!"str", .string)]

/-- The remaining literal patterns — from_py.rs:251-252, 275-278, 298, 309, 355-388, 417-424.
They are tried in one go: no literal contains a bracket or starts with a prefix of the other arms,
so their order relative to those arms is immaterial. -/
def nameTable : List (Str × PyTy) := [
  (c!"Union", .union [.unknown]), (c!"", .none), (c!"None", .none), (c!"NoneType", .none),
  (c!"dict", .dict .unknown .unknown), (c!"Dict", .dict .unknown .unknown),
  (c!"Mapping", .dict .unknown .unknown), (c!"list", .list .unknown),
  (c!"Sequence", .list .unknown), (c!"Iterable", .list .unknown), (c!"Iterator", .list .unknown),
  (c!"tuple", .tuple [.unknown]), (c!"ipaddress.IPv4Address", .ipV4),
  (c!"ipaddress.IPv6Address", .ipV6), (c!"os.PathLike", .path), (c!"pathlib.Path", .path),
  (c!"slice", .slice), (c!"complex", .complex), (c!"datetime.date", .date),
  (c!"datetime.datetime", .dateTime), (c!"timedelta", .delta), (c!"datetime.time", .time),
  (c!"datetime.tzinfo", .tzInfo), (c!"capsule", .capsule), (c!"cfunction", .cFunction),
  (c!"code", .code), (c!"Ellipsis", .ellipsis), (c!"...", .ellipsis), (c!"frame", .frame),
  (c!"function", .function [.ellipsis] .unknown), (c!"Callable", .function [.ellipsis] .unknown),
  (c!"callable", .function [.ellipsis] .unknown), (c!"module", .module), (c!"super", .super),
  (c!"traceback", .traceback)]

/-- The arms of the form `x.starts_with(pre) && x.ends_with(suf)` and the shape of their right-hand sides —
from_py.rs:255-448. -/
inductive Wrap
  | dict | frozenSet | list | set | tuple | callable | inner
  deriving DecidableEq, Repr

/-- The bracketed arms in order — from_py.rs:255-448. -/
def wrapTable : List (Str × Str × Wrap) := [
  (c!"dict[", c!"]", .dict), (c!"frozenset[", c!"]", .frozenSet), (c!"list[", c!"]", .list),
  (c!"Sequence[", c!"]", .list), (c!"Iterable[", c!"]", .list), (c!"Iterator[", c!"]", .list),
  (c!"set[", c!"]", .set), (c!"tuple[", c!"]", .tuple), (c!"Callable[", c!"]", .callable),
  (c!"type[", c!"]", .inner), (c!"<class '", c!"'>", .inner), (c!"<enum '", c!"'>", .inner)]

/-- `strip_prefix(pre).unwrap_or_else(unreachable).strip_suffix(suf).unwrap_or_else(unreachable)` —
from_py.rs:257-447. -/
def stripBoth (pre suf s : Str) : Res Str :=
  Res.ofOption .unreachable ((Str.stripPrefix pre s).bind (Str.stripSuffix suf))

/-- First bracketed arm that matches — from_py.rs:255-448. -/
def matchWrap (s : Str) : List (Str × Str × Wrap) → Option (Wrap × Res Str)
  | [] => .none
  | (pre, suf, w) :: l =>
    if Str.startsWith s pre && Str.endsWith s suf then some (w, stripBoth pre suf s)
    else matchWrap s l

/-- The prefix arms — from_py.rs:451-468. -/
def prefixTable : List Str := [c!"typing.", c!"collections.abc.", c!"collections."]

/-- First prefix arm that matches: the remaining text — from_py.rs:451-468. -/
def matchPrefix (s : Str) : List Str → Option Str
  | [] => .none
  | p :: l => match Str.stripPrefix p s with | some r => some r | .none => matchPrefix s l

/-- `v[i].clone()` — from_py.rs:154-193, 271-272. -/
def index {α : Type} (l : List α) (i : Nat) : Res α := Res.ofOption .index l[i]?

/-- Split at commas, trim, repair — from_py.rs:261-264, 345-348, 395-398. -/
def splitArgs (E : Env) (s : Str) : Res (List Str) :=
  repair E ',' ((Str.splitChar ',' s).map Str.trim)

/-- `PyFunction` from its argument list — from_py.rs:178-190, 404-415. -/
def mkFunction (ts : List PyTy) : Res PyTy :=
  match ts.getLast? with
  | .none => .error (.panic .unreachable)
  | some r => .ok (.function (if ts.length = 1 then [] else ts.dropLast) r)

/-- `Type::from_str` — from_py.rs:214-476. The fuel is the recursion depth; `fromStr` starts with enough
(`C14`). -/
def fromStrGo (E : Env) : Nat → Str → Res PyTy
  | 0, _ => .error (.panic .stackOverflow)
  | n + 1, s =>
    match primTable.lookup s with
    | some t => .ok t
    | .none =>
    -- 227-238
    if s.count '|' = 1 && Str.countNone s = 1 then
      match ((Str.splitChar '|' s).map Str.trim).find? (fun x => x ≠ c!"None") with
      | .none => .error (.panic .unreachable)
      | some x => do
        let t ← fromStrGo E n x
        return .optional t
    -- 239-250
    else if s.contains '|' then do
      let parts ← repair E ',' ((Str.splitChar '|' s).map Str.trim)
      let ts ← Res.traverse (fromStrGo E n) parts
      return .union ts
    else
    match nameTable.lookup s with
    | some t => .ok t
    | .none =>
    match matchWrap s wrapTable with
    | some (w, inner) => do
      let i ← inner
      match w with
      | .dict =>
        let parts ← splitArgs E i
        let ts ← Res.traverse (fromStrGo E n) parts
        let k ← index ts 0
        let v ← index ts 1
        return .dict k v
      | .frozenSet => return .frozenSet (← fromStrGo E n i)
      | .list => return .list (← fromStrGo E n i)
      | .set => return .set (← fromStrGo E n i)
      | .tuple =>
        let parts ← splitArgs E i
        let ts ← Res.traverse (fromStrGo E n) parts
        return .tuple ts
      | .callable =>
        let parts ← splitArgs E i
        let ts ← Res.traverse (fromStrGo E n) parts
        mkFunction ts
      | .inner => fromStrGo E n i
    | .none =>
    match matchPrefix s prefixTable with
    | some r => fromStrGo E n r
    | .none =>
    -- 471-474
    if forbiddenTypeNames.contains s then .ok .any else .ok (.other s)

/-- `Type::from_str` — from_py.rs:214-476. -/
def fromStr (E : Env) (s : Str) : Res PyTy := fromStrGo E (s.length + 2) s

/-- The subclass tests in order — from_py.rs:50-105. -/
def baseTable : List (PyBase × PyTy) := [
  (.bool, .bool), (.byteArray, .byteArray), (.bytes, .bytes), (.float, .float), (.long, .long),
  (.string, .string), (.dict, .dict .unknown .unknown), (.frozenSet, .frozenSet .unknown),
  (.list, .list .unknown), (.set, .set .unknown), (.tuple, .tuple [.unknown]), (.slice, .slice),
  (.complex, .complex), (.date, .date), (.dateTime, .dateTime), (.delta, .delta), (.time, .time),
  (.tzInfo, .tzInfo), (.capsule, .capsule), (.cFunction, .cFunction), (.code, .code),
  (.frame, .frame), (.function, .function [.ellipsis] .unknown), (.module, .module),
  (.super, .super), (.traceback, .traceback), (.type, .type)]

/-- `TryFrom<Bound<PyType>> for Type` — from_py.rs:45-111. -/
def fromClass (E : Env) (supers : List PyBase) (repr : Str) : Res PyTy :=
  match baseTable.find? (fun e => supers.contains e.1) with
  | some e => .ok e.2
  | .none => fromStr E repr

/-- `Type::from_typing` after the conversion of origin and arguments — from_py.rs:138-199. -/
def applyArgs (wrapping : PyTy) (ts : List PyTy) : Res PyTy :=
  match wrapping with
  | .union _ =>
    if ts.length = 2 && ts.contains PyTy.none then
      match ts.find? (fun t => t ≠ PyTy.none) with
      | some t => .ok (.optional t)
      | .none => .error (.panic .unreachable)
    else .ok (.union ts)
  | .optional _ => do return .optional (← index ts 0)
  | .dict _ _ => do
    let k ← index ts 0
    let v ← index ts 1
    return .dict k v
  | .frozenSet _ => do return .frozenSet (← index ts 0)
  | .list _ => do return .list (← index ts 0)
  | .set _ => do return .set (← index ts 0)
  | .tuple _ => .ok (.tuple ts)
  | .function _ _ => mkFunction ts
  | .type => index ts 0
  | w => .ok w

mutual
/-- `TryFrom<Bound<PyAny>> for Type` and `Type::from_typing` — from_py.rs:7-43, 114-209. -/
def fromAnn (E : Env) : PyAnn → Res PyTy
  | .none => .ok .unknown
  | .cls supers repr => fromClass E supers repr
  | .typingPlain repr => fromStr E repr
  | .typingOrigin o => fromAnn E o
  | .typingArgs o args => do
    let w ← fromAnn E o
    let ts ← fromAnns E args
    applyArgs w ts
  | .str s => fromStr E s
  | .other repr => fromStr E repr

/-- `inner_types.iter().map(Self::try_from).collect()` — from_py.rs:134-137. -/
def fromAnns (E : Env) : List PyAnn → Res (List PyTy)
  | [] => .ok []
  | a :: l => do
    let t ← fromAnn E a
    let ts ← fromAnns E l
    return t :: ts
end

end Bindgen

import Verif.Model.Ident
/-!
# Paths: `syntax/common/path.rs`
-/
namespace Bindgen

/-- `pub struct Path` — path.rs:4-8. -/
structure Path where
  leadingColon : Bool
  segs : List Ident
  deriving DecidableEq, Repr

/-- The expressions built by `Path::import_quote` (path.rs:220-226) and the receiver `self`
(function.rs:490-492): the object a generated body operates on. -/
inductive Obj
  /-- `self` -/
  | self
  /-- `py.import_bound(::pyo3::intern!(py, pkg))?` -/
  | import (pkg : Str)
  /-- `::pyo3::types::PyAnyMethods::getattr(o.as_any(), ::pyo3::intern!(py, name))?` -/
  | getattr (o : Obj) (name : Str)
  deriving DecidableEq, Repr

namespace Path

/-- `Path::default()` — derived, path.rs:4. -/
def empty : Path := ⟨false, []⟩

/-- `Path::from_rs` — path.rs:11-24. -/
def fromRs (s : Str) : Path :=
  if s = [] then empty
  else ⟨Str.startsWith s c!"::", ((Str.splitColons s).filter (· ≠ [])).map Ident.fromRs⟩

/-- `Path::from_py` — path.rs:26-43, without the debug assertion (`checkPy`). -/
def fromPy (E : Env) (s : Str) : Path :=
  if s = [] then empty
  else ⟨false, List.replicate (s.takeWhile (· == '.')).length (Ident.fromRs c!"super") ++
    ((Str.splitChar '.' s).filter (· ≠ [])).map (Ident.fromPy E)⟩

/-- The debug assertion of `Path::from_py` on each of some texts — path.rs:30; evaluated beside each use of `fromPy`. -/
def checkPy (E : Env) (l : List Str) : Res Unit := debugAssert E (l.all (fun s => !Str.containsSub c!"::" s))

/-- `Path::to_rs`/`into_rs` — path.rs:45-59. -/
def toRs (p : Path) : Str :=
  Str.join c!"::" (List.replicate (if p.leadingColon then 1 else 0) [] ++ p.segs.map Ident.rs)

/-- `Path::to_py` — path.rs:61-68; also `Display` — path.rs:287-291. -/
def toPy (p : Path) : Str :=
  Str.join c!"." ((p.segs.map Ident.asPy).map (fun s => if s = c!"super" then [] else s))

/-- `Path::join`/`concat` — path.rs:70-100. The assertion that `other` has no leading colon is not
modelled: every call site passes a path built by `from_py` or from a single identifier. -/
def join (p other : Path) : Path := ⟨p.leadingColon, p.segs ++ other.segs⟩

/-- `impl From<Ident> for Path` — path.rs:230-237. -/
def ofIdent (i : Ident) : Path := ⟨false, [i]⟩

/-- `impl From<&[Ident]> for Path` — path.rs:239-246. -/
def ofSegs (l : List Ident) : Path := ⟨false, l⟩

/-- `Path::name` as an option (`segments.last()`) — path.rs:102-104. -/
def name? (p : Path) : Option Ident := p.segs.getLast?

/-- `Path::name` — path.rs:102-104: panics on an empty path. -/
def name (p : Path) : Res Ident := Res.ofOption .unwrap p.name?

/-- `Path::root` — path.rs:106-115. -/
def root (p : Path) : Option Path :=
  match p.segs with
  | [] => none
  | s :: _ => some ⟨p.leadingColon, [s]⟩

/-- `Path::parent` — path.rs:117-126. -/
def parent (p : Path) : Option Path :=
  if p.segs.length > 1 then some ⟨p.leadingColon, p.segs.take (p.segs.length - 1)⟩ else none

/-- `self.starts_with(&other)` through `Deref<Target = [Ident]>` — path.rs:274-279: a prefix test on segments. -/
def startsWith (p other : Path) : Bool := other.segs.isPrefixOf p.segs

/-- Length of the common prefix — path.rs:147-153. -/
def commonPrefixLen : List Ident → List Ident → Nat
  | a :: s, b :: t => if a = b then commonPrefixLen s t + 1 else 0
  | _, _ => 0

/-- The segments before disambiguation — path.rs:155-182. The two `unreachable!()` arms need a common
prefix longer than `self`; they are left out because `commonPrefixLen ≤ self.len()` by definition. -/
def relativeSegs (self target : Path) (full : Bool) : List Ident :=
  let n := commonPrefixLen self.segs target.segs
  if n < self.segs.length then
    List.replicate (self.segs.length - n) (Ident.fromRs c!"super") ++ target.segs.drop n
  else if full then Ident.fromRs c!"self" :: target.segs.drop n
  else target.segs.drop n

/-- `Path::relative_to` — path.rs:132-195. `target.name()` panics on an empty target. -/
def relativeTo (self target : Path) (full : Bool) : Res Path :=
  if self = target then
    if full then do
      let n ← target.name
      return ⟨false, [Ident.fromRs c!"super", n]⟩
    else return ⟨false, [Ident.fromRs c!"self"]⟩
  else
    let rel := relativeSegs self target full
    if full && (rel.getLast?.map Ident.rs) = some c!"super" then do
      let n ← target.name
      return ⟨false, rel ++ [Ident.fromRs c!"super", n]⟩
    else return ⟨false, rel⟩

/-- `(1..self.len()).rev()` search for the last importable proper prefix — path.rs:199-206.
`importable` is `py.import_bound(name).is_ok()` at generation time. -/
def lastPackage (importable : Str → Bool) (segs : List Ident) : Nat → Option Nat
  | 0 => none
  | i + 1 =>
    if importable (toPy (ofSegs (segs.take (i + 1)))) then some (i + 1)
    else lastPackage importable segs i

/-- `Path::import_quote` — path.rs:197-227. -/
def importQuote (importable : Str → Bool) (p : Path) : Res Obj :=
  match p.root with
  | none => .error (.panic .unreachable)
  | some r =>
    let (package, rest) :=
      match lastPackage importable p.segs (p.segs.length - 1) with
      | some i => (ofSegs (p.segs.take i), p.segs.drop i)
      | none => (r, p.segs.drop 1)
    .ok ((rest.map Ident.asPy).foldl Obj.getattr (Obj.import package.toPy))

/-- `a.cmp(b) != Greater` for `impl Ord for Path` — path.rs:254-258. -/
def le (a b : Path) : Bool := Str.le a.toPy b.toPy

/-- A segment that `syn::Path` accepts: an identifier or one of the path keywords. External;
behind the `parse_str` of path.rs:263, 270. -/
def synSegOk (E : Env) (i : Ident) : Bool :=
  (Ident.toSyn E i).isSome || [c!"super", c!"self", c!"Self", c!"crate"].contains i.rs

/-- `TryFrom<Path> for syn::Path` — path.rs:260-272: whether `syn::parse_str::<syn::Path>(to_rs())` succeeds.
Simplification: a segment whose text contains `::`, `<` or comments is not re-lexed across segment borders. -/
def synOk (E : Env) (p : Path) : Bool := !p.segs.isEmpty && p.segs.all (synSegOk E)

end Path
end Bindgen

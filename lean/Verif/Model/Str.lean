/-!
# Rust string operations

Rust `str`/`String` values are modelled as lists of Unicode scalar values (`Char`).
Each operation below is the operation of the Rust standard library that the code in /repo uses;
byte offsets never escape in that code, so working on characters is exact.
-/

namespace Bindgen

/-- A Rust string (ident.rs:3, from_py.rs:214 and every `&str` argument). -/
abbrev Str := List Char

/-- `c!"abc"` is the explicit character list `['a', 'b', 'c']`. -/
macro:max "c!" s:str : term => do
  let cs := s.getString.toList.map (fun c => Lean.Syntax.mkCharLit c)
  `(([$(cs.toArray),*] : Str))

namespace Str

/-- `char::is_whitespace`: the 25 code points with the Unicode property `White_Space`.
Used by `str::trim`, `str::trim_end` and text.rs:17. -/
def isWs (c : Char) : Bool :=
  let n := c.toNat
  (9 ≤ n && n ≤ 13) || n == 0x20 || n == 0x85 || n == 0xA0 || n == 0x1680 ||
  (0x2000 ≤ n && n ≤ 0x200A) || n == 0x2028 || n == 0x2029 || n == 0x202F || n == 0x205F ||
  n == 0x3000

/-- `str::trim_start`, the first half of `str::trim` (text.rs:6, from_py.rs:233). -/
def trimStart (s : Str) : Str := s.dropWhile isWs

/-- `str::trim_end` — text.rs:13. -/
def trimEnd (s : Str) : Str := (s.reverse.dropWhile isWs).reverse

/-- `str::trim` — text.rs:6, from_py.rs:233, 242, 262, 346, 396. -/
def trim (s : Str) : Str := trimEnd (trimStart s)

/-- `s.starts_with(p)` — text.rs:25, config.rs:89-90, from_py.rs:255-467. -/
def startsWith (s p : Str) : Bool := p.isPrefixOf s

/-- `s.ends_with(p)` — text.rs:11, 29-30, from_py.rs:255-448. -/
def endsWith (s p : Str) : Bool := p.isSuffixOf s

/-- `s.strip_prefix(p)` — ident.rs:29, module.rs:376, from_py.rs:257-467. -/
def stripPrefix (p : Str) (s : Str) : Option Str :=
  match p, s with
  | [], s => some s
  | _ :: _, [] => none
  | a :: p, b :: s => if a = b then stripPrefix p s else none

/-- `s.strip_suffix(p)` — from_py.rs:259-447. -/
def stripSuffix (p : Str) (s : Str) : Option Str :=
  (stripPrefix p.reverse s.reverse).map List.reverse

/-- Put one character in front of the first piece; helper of the splitting functions (path.rs:19, 37, from_py.rs:241). -/
def consHead (c : Char) : List Str → List Str
  | [] => [[c]]
  | p :: ps => (c :: p) :: ps

/-- `s.split(sep)` for a character separator (never empty) — path.rs:37, from_py.rs:232, 241, 261, 345, 395, into_rs.rs:345. -/
def splitChar (sep : Char) : Str → List Str
  | [] => [[]]
  | c :: cs => if c = sep then [] :: splitChar sep cs else consHead c (splitChar sep cs)

/-- `s.split("::")`: non-overlapping matches from left to right (never empty) — path.rs:19. -/
def splitColons : Str → List Str
  | ':' :: ':' :: cs => [] :: splitColons cs
  | c :: cs => consHead c (splitColons cs)
  | [] => [[]]

/-- `s.split_once(sep)`'s first component, or the whole string (`.map(|s| s.0).unwrap_or(s)`) — into_rs.rs:320, 342. -/
def beforeChar (sep : Char) (s : Str) : Str := s.takeWhile (· ≠ sep)

/-- `pieces.join(sep)` — path.rs:50, 58, 67, text.rs:8. -/
def join (sep : Str) : List Str → Str
  | [] => []
  | [x] => x
  | x :: y :: r => x ++ sep ++ join sep (y :: r)

/-- `s.matches("None").count()`: number of non-overlapping occurrences — from_py.rs:228. -/
def countNone : Str → Nat
  | 'N' :: 'o' :: 'n' :: 'e' :: r => countNone r + 1
  | _ :: r => countNone r
  | [] => 0

/-- `s.contains(p)` for a string pattern — attribute_variant.rs:59, into_rs.rs:34, 83, 140. -/
def containsSub (p : Str) : Str → Bool
  | [] => p.isPrefixOf []
  | c :: r => p.isPrefixOf (c :: r) || containsSub p r

/-- `s.split_inclusive('\n')`, on which `str::lines` is built (text.rs:5). -/
def splitInclusive : Str → List Str
  | [] => []
  | c :: cs => if c = '\n' then ['\n'] :: splitInclusive cs else consHead c (splitInclusive cs)

/-- One element of `str::lines`: strip `\n`, then an `\r` in front of it (text.rs:5). -/
def stripEol (line : Str) : Str :=
  match stripSuffix ['\n'] line with
  | none => line
  | some l =>
    match stripSuffix ['\r'] l with
    | none => l
    | some l' => l'

/-- `s.lines()` — text.rs:5. -/
def lines (s : Str) : List Str := (splitInclusive s).map stripEol

/-- `str::cmp(a, b) != Greater`. Rust compares UTF-8 bytes, which is the order by code points
(`Ord` of `Ident`, ident.rs:61-65; used at codegen.rs:280). -/
def le : Str → Str → Bool
  | [], _ => true
  | _ :: _, [] => false
  | a :: s, b :: t => if a.toNat < b.toNat then true else if b.toNat < a.toNat then false else le s t

end Str

/-- Insert `a` in front of the first element that is not smaller; one step of the sort at codegen.rs:280. -/
def insertBy {α : Type} (le : α → α → Bool) (a : α) : List α → List α
  | [] => [a]
  | b :: l => if le a b then a :: b :: l else b :: insertBy le a l

/-- `slice::sort_by` with a total preorder: the stable sorted permutation (codegen.rs:280). -/
def sortBy {α : Type} (le : α → α → Bool) : List α → List α
  | [] => []
  | a :: l => insertBy le a (sortBy le l)

end Bindgen

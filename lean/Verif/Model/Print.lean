import Verif.Model.Render
/-!
# The text of a token stream

`TokenStream::to_string` (codegen.rs:168): the `Display` of proc-macro2 1.0.89 outside of procedural macros.
-/
namespace Bindgen

/-- The digit with this value, in lower case (`usize_suffixed` and `escape_debug`; codegen.rs:168). -/
def digitChar (d : Nat) : Char := if d < 10 then Char.ofNat (d + 48) else Char.ofNat (d + 87)

/-- The digits of a number in base `b`, most significant first; the first argument bounds their number (codegen.rs:168). -/
def digitsGo (b : Nat) : Nat → Nat → Str
  | 0, _ => []
  | k + 1, n => if n < b then [digitChar n] else digitsGo b k (n / b) ++ [digitChar (n % b)]

/-- The digits of a number in base `b ≥ 2` (codegen.rs:168). -/
def digits (b n : Nat) : Str := digitsGo b (n + 1) n

/-- A character of a string literal: `escape_utf8` of proc-macro2, which calls `char::escape_debug` (codegen.rs:168). `plain` tells which
characters `escape_debug` leaves as they are; `next` is the character that follows. -/
def escapeChar (plain : Char → Bool) (c : Char) (next : Option Char) : Str :=
  if c = Char.ofNat 0 then
    if next.any (fun d => '0'.toNat ≤ d.toNat && d.toNat ≤ '7'.toNat) then c!"\\x00" else c!"\\0"
  else if c = '\'' then [c]
  else if c = '\t' then c!"\\t"
  else if c = '\r' then c!"\\r"
  else if c = '\n' then c!"\\n"
  else if c = '\\' then c!"\\\\"
  else if c = '"' then c!"\\\""
  else if plain c then [c]
  else c!"\\u{" ++ digits 16 c.toNat ++ c!"}"

/-- The characters between the quotes of a string literal (codegen.rs:168). -/
def escapeStr (plain : Char → Bool) : Str → Str
  | [] => []
  | c :: cs => escapeChar plain c cs.head? ++ escapeStr plain cs

/-- The characters of a punctuation (codegen.rs:168). -/
def Pn.text : Pn → Str
  | .colon => c!":" | .colon2 => c!"::" | .semi => c!";" | .comma => c!"," | .dot => c!"." | .eq => c!"=" | .lt => c!"<"
  | .gt => c!">" | .arrow => c!"->" | .amp => c!"&" | .question => c!"?" | .bang => c!"!" | .hash => c!"#" | .bar => c!"|"
  | .plus => c!"+"

/-- The opening bracket (codegen.rs:168). -/
def Delim.opening : Delim → Char
  | .paren => '(' | .brace => '{' | .bracket => '['

/-- The closing bracket (codegen.rs:168). -/
def Delim.closing : Delim → Char
  | .paren => ')' | .brace => '}' | .bracket => ']'

/-- The text of a group: there is a space inside of braces, only one if there is nothing between them (codegen.rs:168). -/
def groupText (d : Delim) (empty : Bool) (inner : Str) : Str :=
  match d with
  | .brace => c!"{ " ++ inner ++ (if empty then [] else [' ']) ++ c!"}"
  | d => [d.opening] ++ inner ++ [d.closing]

/-- The text of a string literal that is built from its value (`Literal::string`; codegen.rs:168). -/
def strText (plain : Char → Bool) (v : Str) : Str := ['"'] ++ escapeStr plain v ++ ['"']

mutual
/-- The texts that the token may have (codegen.rs:168). Simplification: a string literal of a template that is a documentation comment
(class.rs:288-290, module.rs:483-484) is a raw string there; here both forms are possible for every string without quotes. -/
def Tok.Shows (plain : Char → Bool) : Tok → Str → Prop
  | .kw k, s => s = k.text
  | .id x, s => s = x
  | .life x, s => s = '\'' :: x
  | .p q, s => s = q.text
  | .str v, s => s = strText plain v ∨ '"' ∉ v ∧ '\r' ∉ v ∧ s = c!"r\"" ++ v ++ c!"\""
  | .num n, s => s = digits 10 n ++ c!"usize"
  | .group d ts, s => ∃ inner, Tok.ShowList plain ts inner ∧ s = groupText d ts.isEmpty inner
/-- The texts that a stream may have: a space between two tokens (codegen.rs:168). Simplification: `>>` in a template
(into_rs.rs:42-69, 103-332, function.rs:449) is written without a space and two tokens `>` from different places with one; here both are possible. -/
def Tok.ShowList (plain : Char → Bool) : List Tok → Str → Prop
  | [], s => s = []
  | [t], s => t.Shows plain s
  | t :: u :: ts, s => ∃ a b, t.Shows plain a ∧ Tok.ShowList plain (u :: ts) b ∧
      (s = a ++ [' '] ++ b ∨ t = .p .gt ∧ u = .p .gt ∧ s = a ++ b)
end

mutual
/-- One of the texts of a token (codegen.rs:168). -/
def Tok.text (plain : Char → Bool) : Tok → Str
  | .kw k => k.text
  | .id x => x
  | .life x => '\'' :: x
  | .p q => q.text
  | .str v => strText plain v
  | .num n => digits 10 n ++ c!"usize"
  | .group d ts => groupText d ts.isEmpty (Tok.textList plain ts)
/-- One of the texts of a stream (codegen.rs:168). -/
def Tok.textList (plain : Char → Bool) : List Tok → Str
  | [] => []
  | [t] => t.text plain
  | t :: u :: ts => t.text plain ++ [' '] ++ Tok.textList plain (u :: ts)
end

end Bindgen

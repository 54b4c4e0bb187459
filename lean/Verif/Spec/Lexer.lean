import Verif.Model.Token
/-!
# Specification: a lexer for Rust

Reads Rust source text into token trees, after the chapter "Lexical structure" of the Rust reference, for a part of Rust that is large
enough for the bindings.  It knows no comments and no other kinds of literals, and it rejects what it does not know: a text that it
reads is read in the same way by `rustc` and `proc_macro2`.  Each `>` is a token by itself.  A number `n` bounds the number of steps;
a text is read if it is for all large bounds (`Lexes`).
-/
namespace Bindgen.Spec

/-- The closing bracket for an opening one. -/
def brackets : List (Char × Delim × Char) := [('(', .paren, ')'), ('{', .brace, '}'), ('[', .bracket, ']')]

/-- Is it a closing bracket? -/
def isClose (c : Char) : Bool := c == ')' || c == '}' || c == ']'

/-- Nothing follows that could be read as a part of an operator: the end, white space or a bracket. -/
def gap : Str → Bool
  | [] => true
  | c :: _ => lexWs c || isClose c || c == '(' || c == '{' || c == '['

/-- Punctuation, the longest first. -/
def punct : Str → Option (Pn × Str)
  | ':' :: ':' :: r => some (.colon2, r)
  | '-' :: '>' :: r => some (.arrow, r)
  | ':' :: r => some (.colon, r)
  | ';' :: r => some (.semi, r)
  | ',' :: r => some (.comma, r)
  | '.' :: r => some (.dot, r)
  | '=' :: r => some (.eq, r)
  | '<' :: r => some (.lt, r)
  | '>' :: r => some (.gt, r)
  | '&' :: r => some (.amp, r)
  | '?' :: r => some (.question, r)
  | '!' :: r => some (.bang, r)
  | '#' :: r => some (.hash, r)
  | '|' :: r => some (.bar, r)
  | '+' :: r => some (.plus, r)
  | _ => none

/-- The value of a hexadecimal digit. -/
def hexVal (c : Char) : Option Nat :=
  if '0'.toNat ≤ c.toNat ∧ c.toNat ≤ '9'.toNat then some (c.toNat - '0'.toNat)
  else if 'a'.toNat ≤ c.toNat ∧ c.toNat ≤ 'f'.toNat then some (c.toNat - 'a'.toNat + 10)
  else if 'A'.toNat ≤ c.toNat ∧ c.toNat ≤ 'F'.toNat then some (c.toNat - 'A'.toNat + 10)
  else none

/-- The value of a decimal digit. -/
def decVal (c : Char) : Option Nat :=
  if '0'.toNat ≤ c.toNat ∧ c.toNat ≤ '9'.toNat then some (c.toNat - '0'.toNat) else none

/-- The value of an escape of one character. -/
def escapes : List (Char × Char) :=
  [('n', '\n'), ('r', '\r'), ('t', '\t'), ('\\', '\\'), ('0', Char.ofNat 0), ('\'', '\''), ('"', '"')]

/-- The rest of a string literal after its opening quote: its value, and what follows the closing quote. In `\u{…}`, the argument is
the value of the digits so far and their number. -/
def strBody : Option (Nat × Nat) → Str → Option (Str × Str)
  | _, [] => none
  | some (v, k), c :: r =>
    if c = '}' then
      if k = 0 ∨ ¬ v.isValidChar then none else (strBody none r).map (fun x => (Char.ofNat v :: x.1, x.2))
    else
      match hexVal c with
      | some d => if k < 6 then strBody (some (16 * v + d, k + 1)) r else none
      | none => none
  | none, '"' :: r => some ([], r)
  | none, '\\' :: 'u' :: '{' :: r => strBody (some (0, 0)) r
  | none, '\\' :: 'x' :: a :: b :: r =>
    match hexVal a, hexVal b with
    | some x, some y => if x < 8 then (strBody none r).map (fun z => (Char.ofNat (16 * x + y) :: z.1, z.2)) else none
    | _, _ => none
  | none, '\\' :: c :: r =>
    match escapes.lookup c with
    | some v => (strBody none r).map (fun x => (v :: x.1, x.2))
    | none => none
  | none, '\r' :: _ => none
  | none, c :: r => (strBody none r).map (fun x => (c :: x.1, x.2))

/-- The rest of a raw string literal `r"…"` after its opening quote. -/
def rawBody : Str → Option (Str × Str)
  | [] => none
  | '"' :: r => some ([], r)
  | '\r' :: _ => none
  | c :: r => (rawBody r).map (fun x => (c :: x.1, x.2))

/-- The longest prefix of characters that may occur in an identifier, and the rest. -/
def word (E : Env) (s : Str) : Str × Str := (s.takeWhile E.xidContinue, s.dropWhile E.xidContinue)

/-- The literal `123usize`. The argument is the value of the digits so far. -/
def number (E : Env) : Nat → Str → Option (Nat × Str)
  | _, [] => none
  | v, c :: r =>
    match decVal c with
    | some d => number E (10 * v + d) r
    | none => if (word E (c :: r)).1 = c!"usize" then some (v, (word E (c :: r)).2) else none

/-- An identifier, a raw identifier or a keyword. A quote or `#` after it would make it a prefix. -/
def name (E : Env) (s : Str) : Option (Tok × Str) :=
  let (w, r) := word E s
  if isIdentText E w && !(r.head?.any (fun c => c == '"' || c == '\'' || c == '#')) then some (Tok.ident w, r) else none

/-- A string literal; characters after it would be a suffix. -/
def literal (E : Env) (x : Option (Str × Str)) : Option (Tok × Str) :=
  match x with
  | some (v, r) => if r.head?.any E.xidContinue then none else some (.str v, r)
  | none => none

/-- One token that is not a group. -/
def token (E : Env) : Str → Option (Tok × Str)
  | [] => none
  | '"' :: r => literal E (strBody none r)
  | 'r' :: '"' :: r => literal E (rawBody r)
  | 'r' :: '#' :: r =>
    let (w, r) := word E r
    if isIdentText E w && !rawReserved.contains w && !(r.head?.any (fun c => c == '"' || c == '\'' || c == '#')) then
      some (.id ('r' :: '#' :: w), r)
    else none
  | '\'' :: r =>
    let (w, r) := word E r
    if isIdentText E w && !(r.head?.any (fun c => c == '\'' || c == '#')) then some (.life w, r) else none
  | c :: r =>
    if (decVal c).isSome then (number E 0 (c :: r)).map (fun x => (.num x.1, x.2))
    else
      match punct (c :: r) with
      | some (p, r) => if gap r || (p == .gt && r.head? == some '>') then some (.p p, r) else none
      | none => name E (c :: r)

/-- Tokens up to the end or a closing bracket. -/
def tokens (E : Env) : Nat → Str → Option (List Tok × Str)
  | 0, _ => none
  | _ + 1, [] => some ([], [])
  | n + 1, c :: r =>
    if lexWs c then tokens E n r
    else if isClose c then some ([], c :: r)
    else
      match brackets.lookup c with
      | some (d, close) =>
        match tokens E n r with
        | some (inner, c' :: r') =>
          if c' = close then (tokens E n r').map (fun x => (.group d inner :: x.1, x.2)) else none
        | _ => none
      | none =>
        match token E (c :: r) with
        | some (t, r) => (tokens E n r).map (fun x => (t :: x.1, x.2))
        | none => none

/-- The text consists of these tokens. -/
def Lexes (E : Env) (s : Str) (ts : List Tok) : Prop := ∃ N, ∀ n ≥ N, tokens E n s = some (ts, [])

end Bindgen.Spec

import Verif.Model.Ident
/-!
# Token streams

`proc_macro2::TokenStream` as the `quote!` templates build it: a list of tokens, with groups for brackets. A punctuation of several
characters is one token here.  The notation `t!"…"` stands for the tokens of a piece of Rust text, as in `quote! { … }`.
-/
namespace Bindgen

/-- Keywords of Rust that the templates use, or that may occur in paths (function.rs:395-653, class.rs:188-302, module.rs:479-519). -/
inductive Keyword
  | pub | fn | mod | use | type | struct | trait | impl | for | let | mut | if | else | const | as
  | self | selfTy | super | crate
  /-- a keyword that the templates do not use -/
  | other (s : Str)
  deriving DecidableEq, Repr

/-- Punctuation of the templates (function.rs:395-653, into_rs.rs:36-368). -/
inductive Pn
  | colon | colon2 | semi | comma | dot | eq | lt | gt | arrow | amp | question | bang | hash | bar | plus
  deriving DecidableEq, Repr

/-- Brackets around groups (function.rs:395-653). -/
inductive Delim
  | paren | brace | bracket
  deriving DecidableEq, Repr

/-- Tokens: `proc_macro2::TokenTree` (function.rs:326). Identifiers are split into keywords and others. -/
inductive Tok
  | kw (k : Keyword)
  | id (s : Str)
  /-- a lifetime, without the quote -/
  | life (s : Str)
  | p (p : Pn)
  /-- a string literal, by its value -/
  | str (s : Str)
  /-- a literal of type `usize` -/
  | num (n : Nat)
  | group (d : Delim) (ts : List Tok)
  deriving Repr

/-- The text of a keyword (function.rs:395-653). -/
def Keyword.text : Keyword → Str
  | .pub => c!"pub" | .fn => c!"fn" | .mod => c!"mod" | .use => c!"use" | .type => c!"type" | .struct => c!"struct"
  | .trait => c!"trait" | .impl => c!"impl" | .for => c!"for" | .let => c!"let" | .mut => c!"mut" | .if => c!"if"
  | .else => c!"else" | .const => c!"const" | .as => c!"as" | .self => c!"self" | .selfTy => c!"Self" | .super => c!"super"
  | .crate => c!"crate" | .other s => s

/-- The keywords of the templates and paths (function.rs:395-653). -/
def Keyword.all : List Keyword :=
  [.pub, .fn, .mod, .use, .type, .struct, .trait, .impl, .for, .let, .mut, .if, .else, .const, .as, .self, .selfTy, .super, .crate]

/-- The token of a spliced identifier, `#ident` (function.rs:396, class.rs:189, path.rs:263). -/
def Tok.ident (s : Str) : Tok :=
  match Keyword.all.find? (fun k => k.text = s) with
  | some k => .kw k
  | none => if rustKeywords.contains s then .kw (.other s) else .id s

/-- `( … )` (function.rs:396-399). -/
abbrev Tok.paren (ts : List Tok) : Tok := .group .paren ts
/-- `{ … }` (function.rs:646-652). -/
abbrev Tok.brace (ts : List Tok) : Tok := .group .brace ts
/-- `[ … ]` (function.rs:553). -/
abbrev Tok.bracket (ts : List Tok) : Tok := .group .bracket ts

open Lean in
/-- Template text to a term of type `List Tok`, up to a closing bracket (for the notation `t!`; quote.rs is external, function.rs:395). -/
def tplToks : Nat → List Char → Array Term → MacroM (Array Term × List Char)
  | 0, _, _ => Macro.throwError "template too long"
  | n + 1, cs, acc => do
    let chars (l : List Char) : MacroM Term := do
      let a := (l.map (fun c => (Syntax.mkCharLit c : Term))).toArray
      `(([$a,*] : Str))
    let punct (n : Name) : MacroM Term := `(Tok.p $(mkIdent n))
    let isId (c : Char) : Bool := c.isAlphanum || c == '_'
    match cs with
    | [] => return (acc, [])
    | ')' :: _ | '}' :: _ | ']' :: _ => return (acc, cs)
    | ' ' :: r | '\n' :: r => tplToks n r acc
    | ':' :: ':' :: r => tplToks n r (acc.push (← punct ``Pn.colon2))
    | '-' :: '>' :: r => tplToks n r (acc.push (← punct ``Pn.arrow))
    | ':' :: r => tplToks n r (acc.push (← punct ``Pn.colon))
    | ';' :: r => tplToks n r (acc.push (← punct ``Pn.semi))
    | ',' :: r => tplToks n r (acc.push (← punct ``Pn.comma))
    | '.' :: r => tplToks n r (acc.push (← punct ``Pn.dot))
    | '=' :: r => tplToks n r (acc.push (← punct ``Pn.eq))
    | '<' :: r => tplToks n r (acc.push (← punct ``Pn.lt))
    | '>' :: r => tplToks n r (acc.push (← punct ``Pn.gt))
    | '&' :: r => tplToks n r (acc.push (← punct ``Pn.amp))
    | '?' :: r => tplToks n r (acc.push (← punct ``Pn.question))
    | '!' :: r => tplToks n r (acc.push (← punct ``Pn.bang))
    | '#' :: r => tplToks n r (acc.push (← punct ``Pn.hash))
    | '|' :: r => tplToks n r (acc.push (← punct ``Pn.bar))
    | '+' :: r => tplToks n r (acc.push (← punct ``Pn.plus))
    | '\'' :: r =>
      let w := r.takeWhile isId
      tplToks n (r.drop w.length) (acc.push (← `(Tok.life $(← chars w))))
    | '"' :: r =>
      let w := r.takeWhile (· != '"')
      tplToks n (r.drop (w.length + 1)) (acc.push (← `(Tok.str $(← chars w))))
    | '(' :: r => do
      let (inner, rest) ← tplToks n r #[]
      tplToks n (rest.drop 1) (acc.push (← `(Tok.group Delim.paren [$inner,*])))
    | '{' :: r => do
      let (inner, rest) ← tplToks n r #[]
      tplToks n (rest.drop 1) (acc.push (← `(Tok.group Delim.brace [$inner,*])))
    | '[' :: r => do
      let (inner, rest) ← tplToks n r #[]
      tplToks n (rest.drop 1) (acc.push (← `(Tok.group Delim.bracket [$inner,*])))
    | c :: r =>
      if isId c then
        let w := (c :: r).takeWhile isId
        let t ← match Keyword.all.find? (fun k => k.text == w) with
          | some k => `(Tok.kw $(mkIdent (((toString (repr k)).splitOn ".").foldl (fun n s => Name.str n s) .anonymous)))
          | none => `(Tok.id $(← chars w))
        tplToks n ((c :: r).drop w.length) (acc.push t)
      else Macro.throwError s!"unexpected character {c}"

/-- `t!"…"`: the tokens of `quote! { … }` (function.rs:395 and the other templates). -/
macro:max "t!" s:str : term => do
  let cs := s.getString.toList
  let (ts, _) ← tplToks (cs.length + 1) cs #[]
  `(([$ts,*] : List Tok))

end Bindgen

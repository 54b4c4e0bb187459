import Verif.Model.Token
/-!
# Specification: a parser for Rust

A recursive-descent parser, written from the grammar in the Rust reference, for a part of Rust that is large enough for the
bindings.  It works on token trees like `syn`.  Everything it accepts is accepted by `syn::parse2::<syn::File>`.  A number `n`
bounds the nesting and the lengths of lists; a file is accepted if it is for all large bounds (`Parses`).
-/
namespace Bindgen.Spec

mutual
/-- Types. A lifetime occurs only as an argument. -/
inductive RType
  | path (global : Bool) (segs : List RSeg)
  | life (s : Str)
  | ref (t : RType)
  | slice (t : RType)
  | tuple (ts : List RType)
  | impl (bound : RType)
/-- A segment of a path with its generic arguments. -/
inductive RSeg
  | mk (name : Str) (args : List RType)
end

mutual
/-- Expressions. -/
inductive RExpr
  | path (global : Bool) (segs : List RSeg)
  | str (s : Str)
  | num (n : Nat)
  | unit
  | array (es : List RExpr)
  | ref (e : RExpr)
  | try (e : RExpr)
  | call (f : RExpr) (args : List RExpr)
  | method (e : RExpr) (name : Str) (args : List RExpr)
  | mac (global : Bool) (segs : List RSeg) (args : List RExpr)
  | closure (x : Str) (e : RExpr)
  | add (a b : RExpr)
  | block (ss : List RStmt) (e : RExpr)
  /-- `if let ctor(x) = e { a } else { b }` -/
  | ifLet (ctor x : Str) (e a b : RExpr)
/-- Statements. -/
inductive RStmt
  | let (mutable : Bool) (x : Str) (e : RExpr)
  | const (x : Str) (t : RType) (e : RExpr)
  | expr (e : RExpr)
end

/-- Parameters. -/
inductive RParam
  /-- `&'a self` -/
  | self (life : Str)
  | typed (x : Str) (t : RType)

/-- `fn name<'a>(params) -> ret`. -/
structure RSig where
  pub : Bool
  name : Str
  lifetimes : List Str
  params : List RParam
  ret : RType

/-- An attribute: its path and the tokens after it. -/
structure RAttr where
  path : List RSeg
  args : List Tok

/-- A function. -/
structure RFn where
  attrs : List RAttr
  sig : RSig
  /-- a block -/
  body : RExpr

/-- Items. -/
inductive RItem
  | use (attrs : List RAttr) (pub : Bool) (global : Bool) (path : List Str) (as : Option Str)
  /-- `use path::{names};` -/
  | useGroup (attrs : List RAttr) (pub : Bool) (global : Bool) (path : List Str) (names : List Str)
  | mod (attrs : List RAttr) (pub : Bool) (name : Str) (items : List RItem)
  | typeAlias (attrs : List RAttr) (pub : Bool) (name : Str) (t : RType)
  /-- a structure with unnamed private fields -/
  | struct (attrs : List RAttr) (pub : Bool) (name : Str) (fields : List RType)
  | trait (attrs : List RAttr) (pub : Bool) (name : Str) (sigs : List RSig)
  | impl (attrs : List RAttr) (trait : Option RType) (self : RType) (fns : List RFn)
  | fn (f : RFn)
  | mac (global : Bool) (segs : List RSeg) (body : List Tok)

/-- A parser of a prefix of the tokens. -/
abbrev Parser (α : Type) := List Tok → Option (α × List Tok)

/-- `p, p, p` up to the end, possibly with a comma at the end. -/
def pCommas {α : Type} (p : Parser α) : Nat → List Tok → Option (List α)
  | 0, _ => none
  | _ + 1, [] => some []
  | n + 1, ts =>
    match p ts with
    | some (a, []) => some [a]
    | some (a, .p .comma :: rest) => (pCommas p n rest).map (a :: ·)
    | _ => none

/-- All tokens. -/
def pAll {α : Type} (p : Parser α) (ts : List Tok) : Option α :=
  match p ts with
  | some (a, []) => some a
  | _ => none

/-! ## Paths and types -/

/-- An identifier or a keyword that can be part of a path. -/
def pSegName : Tok → Option Str
  | .id s => some s
  | .kw .self => some c!"self"
  | .kw .selfTy => some c!"Self"
  | .kw .super => some c!"super"
  | .kw .crate => some c!"crate"
  | _ => none

/-- A generic argument: a lifetime or a type. -/
def pGenericArg (p : Parser RType) : Parser RType
  | .life s :: rest => some (.life s, rest)
  | ts => p ts

/-- Generic arguments after `<`, with the closing `>`. -/
def pGeneric (p : Parser RType) : Nat → Parser (List RType)
  | 0, _ => none
  | n + 1, ts =>
    match pGenericArg p ts with
    | some (a, .p .gt :: rest) => some ([a], rest)
    | some (a, .p .comma :: .p .gt :: rest) => some ([a], rest)
    | some (a, .p .comma :: rest) =>
      match pGeneric p n rest with
      | some (as, rest) => some (a :: as, rest)
      | none => none
    | _ => none

/-- Generic arguments, if there are any; in expressions `::` comes first. -/
def pArgs? (n : Nat) (p : Parser RType) (turbo : Bool) : Parser (List RType)
  | .p .lt :: rest => if turbo then some ([], .p .lt :: rest) else pGeneric p n rest
  | .p .colon2 :: .p .lt :: rest =>
    if turbo then pGeneric p n rest else some ([], .p .colon2 :: .p .lt :: rest)
  | rest => some ([], rest)

/-- The segments of a path. -/
def pSegs (p : Parser RType) (turbo : Bool) : Nat → Parser (List RSeg)
  | 0, _ => none
  | _ + 1, [] => none
  | n + 1, t :: rest =>
    match pSegName t, pArgs? n p turbo rest with
    | some s, some (as, .p .colon2 :: rest) =>
      match pSegs p turbo n rest with
      | some (ss, rest) => some (.mk s as :: ss, rest)
      | none => none
    | some s, some (as, rest) => some ([.mk s as], rest)
    | _, _ => none

/-- A path: whether it starts with `::`, and its segments. -/
def pPath (n : Nat) (p : Parser RType) (turbo : Bool) : Parser (Bool × List RSeg)
  | .p .colon2 :: rest =>
    match pSegs p turbo n rest with
    | some (ss, rest) => some ((true, ss), rest)
    | none => none
  | ts =>
    match pSegs p turbo n ts with
    | some (ss, rest) => some ((false, ss), rest)
    | none => none

/-- A type that is a path. -/
def pPathType (n : Nat) (p : Parser RType) (ts : List Tok) : Option (RType × List Tok) :=
  match pPath n p false ts with
  | some ((g, ss), rest) => some (.path g ss, rest)
  | none => none

/-- A type, given the parser of its parts. -/
def pTypeStep (n : Nat) (p : Parser RType) : Parser RType
  | .p .amp :: rest =>
    match p rest with
    | some (t, rest) => some (.ref t, rest)
    | none => none
  | .kw .impl :: rest =>
    match pPathType n p rest with
    | some (t, rest) => some (.impl t, rest)
    | none => none
  | .group .bracket ts :: rest =>
    match pAll p ts with
    | some t => some (.slice t, rest)
    | none => none
  | .group .paren ts :: rest =>
    match pCommas p n ts with
    | some [_] => none
    | some l => some (.tuple l, rest)
    | none => none
  | ts => pPathType n p ts

/-- Types. -/
def pType : Nat → Parser RType
  | 0 => fun _ => none
  | n + 1 => pTypeStep n (pType n)

/-! ## Expressions -/

/-- Postfix operators: `?`, `.method(args)`, `(args)`. -/
def pPostfix (n : Nat) (p : Parser RExpr) : RExpr → Parser RExpr
  | e, .p .question :: rest => pPostfix n p (.try e) rest
  | e, .p .dot :: .id m :: .group .paren ts :: rest =>
    match pCommas p n ts with
    | some args => pPostfix n p (.method e m args) rest
    | none => none
  | e, .group .paren ts :: rest =>
    match pCommas p n ts with
    | some args => pPostfix n p (.call e args) rest
    | none => none
  | e, rest => some (e, rest)

/-- Statements and the final expression of a block. -/
def pStmts (p : Parser RExpr) (pt : Parser RType) : Nat → List Tok → Option (List RStmt × RExpr)
  | 0, _ => none
  | _ + 1, [] => some ([], .unit)
  | n + 1, .kw .let :: .kw .mut :: .id x :: .p .eq :: ts =>
    match p ts with
    | some (e, .p .semi :: rest) => (pStmts p pt n rest).map (fun (ss, r) => (.let true x e :: ss, r))
    | _ => none
  | n + 1, .kw .let :: .id x :: .p .eq :: ts =>
    match p ts with
    | some (e, .p .semi :: rest) => (pStmts p pt n rest).map (fun (ss, r) => (.let false x e :: ss, r))
    | _ => none
  | n + 1, .kw .const :: .id x :: .p .colon :: ts =>
    match pt ts with
    | some (t, .p .eq :: ts) =>
      match p ts with
      | some (e, .p .semi :: rest) => (pStmts p pt n rest).map (fun (ss, r) => (.const x t e :: ss, r))
      | _ => none
    | _ => none
  | n + 1, ts =>
    match p ts with
    | some (e, []) => some ([], e)
    | some (e, .p .semi :: rest) => (pStmts p pt n rest).map (fun (ss, r) => (.expr e :: ss, r))
    | _ => none

/-- A block, by the tokens between its braces. -/
def pBlock (n : Nat) (p : Parser RExpr) (pt : Parser RType) (ts : List Tok) : Option RExpr :=
  (pStmts p pt n ts).map (fun (ss, e) => .block ss e)

/-- Expressions without operators: literals, `()`, arrays, blocks, macros, paths. -/
def pPrimary (n : Nat) (p : Parser RExpr) (pt : Parser RType) : Parser RExpr
  | .str s :: rest => some (.str s, rest)
  | .num n :: rest => some (.num n, rest)
  | .group .paren [] :: rest => some (.unit, rest)
  | .group .bracket ts :: rest => (pCommas p n ts).map (fun es => (.array es, rest))
  | .group .brace ts :: rest => (pBlock n p pt ts).map (fun e => (e, rest))
  | ts =>
    match pPath n pt true ts with
    | some ((g, ss), .p .bang :: .group .paren ts :: rest) => (pCommas p n ts).map (fun es => (.mac g ss es, rest))
    | some ((g, ss), rest) => some (.path g ss, rest)
    | none => none

/-- Primary expressions with their postfix operators. -/
def pUnit (n : Nat) (p : Parser RExpr) (pt : Parser RType) (ts : List Tok) : Option (RExpr × List Tok) :=
  match pPrimary n p pt ts with
  | some (e, rest) => pPostfix n p e rest
  | none => none

/-- Unary expressions. -/
def pUnary (n : Nat) (p : Parser RExpr) (pt : Parser RType) : Parser RExpr
  | .p .amp :: ts => (pUnit n p pt ts).map (fun (e, rest) => (.ref e, rest))
  | ts => pUnit n p pt ts

/-- Expressions, given the parser of their parts. -/
def pExprStep (n : Nat) (p : Parser RExpr) (pt : Parser RType) : Parser RExpr
  | .p .bar :: .id x :: .p .bar :: ts => (p ts).map (fun (e, rest) => (.closure x e, rest))
  | .kw .if :: .kw .let :: .id c :: .group .paren [.id x] :: .p .eq :: ts =>
    match p ts with
    | some (e, .group .brace a :: .kw .else :: .group .brace b :: rest) =>
      match pBlock n p pt a, pBlock n p pt b with
      | some a, some b => some (.ifLet c x e a b, rest)
      | _, _ => none
    | _ => none
  | ts =>
    match pUnary n p pt ts with
    | some (a, .p .plus :: ts) =>
      match pUnary n p pt ts with
      | some (b, rest) => some (.add a b, rest)
      | none => none
    | r => r

/-- Expressions. -/
def pExpr : Nat → Parser RExpr
  | 0 => fun _ => none
  | n + 1 => pExprStep n (pExpr n) (pType n)

/-! ## Items -/

/-- What may follow the path of an attribute. -/
def attrArgs : List Tok → Bool
  | [] => true
  | [.p .eq, .str _] => true
  | [.p .eq, .num _] => true
  | [.group _ _] => true
  | _ => false

/-- The inside of an attribute. -/
def pAttr (n : Nat) (ts : List Tok) : Option RAttr :=
  match pPath n (fun _ => none) false ts with
  | some ((false, ss), args) => if attrArgs args then some ⟨ss, args⟩ else none
  | _ => none

/-- Attributes. -/
def pAttrs (n : Nat) : Parser (List RAttr)
  | .p .hash :: .group .bracket ts :: rest =>
    match pAttr n ts, pAttrs n rest with
    | some a, some (as, rest) => some (a :: as, rest)
    | _, _ => none
  | ts => some ([], ts)

/-- `pub`. -/
def pVis : List Tok → Bool × List Tok
  | .kw .pub :: rest => (true, rest)
  | rest => (false, rest)

/-- A parameter. -/
def pParam (n : Nat) : Parser RParam
  | .p .amp :: .life l :: .kw .self :: rest => some (.self l, rest)
  | .id x :: .p .colon :: ts => (pType n ts).map (fun (t, rest) => (.typed x t, rest))
  | _ => none

/-- A signature after `fn`. -/
def pSig (n : Nat) (pub : Bool) : Parser RSig
  | .id f :: .p .lt :: .life l :: .p .gt :: .group .paren ps :: .p .arrow :: ts =>
    match pCommas (pParam n) n ps, pType n ts with
    | some ps, some (t, rest) => some (⟨pub, f, [l], ps, t⟩, rest)
    | _, _ => none
  | _ => none

/-- A function after its attributes and visibility. -/
def pFnRest (n : Nat) (attrs : List RAttr) (pub : Bool) (ts : List Tok) : Option (RFn × List Tok) :=
  match pSig n pub ts with
  | some (s, .group .brace b :: rest) => (pBlock n (pExpr n) (pType n) b).map (fun e => (⟨attrs, s, e⟩, rest))
  | _ => none

/-- A function of an `impl`. -/
def pFn (n : Nat) (ts : List Tok) : Option (RFn × List Tok) :=
  match pAttrs n ts with
  | some (ds, ts) =>
    match pVis ts with
    | (b, .kw .fn :: ts) => pFnRest n ds b ts
    | _ => none
  | none => none

/-- A function of a trait: a signature with `;`. -/
def pTraitFn (n : Nat) (ts : List Tok) : Option (RSig × List Tok) :=
  match pAttrs n ts with
  | some (_, .kw .fn :: ts) =>
    match pSig n false ts with
    | some (s, .p .semi :: rest) => some (s, rest)
    | _ => none
  | _ => none

/-- Things one after another, up to the end. -/
def pMany {α : Type} (p : Parser α) : Nat → List Tok → Option (List α)
  | 0, _ => none
  | _ + 1, [] => some []
  | n + 1, ts =>
    match p ts with
    | some (a, rest) => (pMany p n rest).map (a :: ·)
    | none => none

/-- An identifier. -/
def pIdent : Parser Str
  | .id s :: rest => some (s, rest)
  | _ => none

/-- After `use`: segments, then names in braces, or a new name. -/
def pUseN (as : List RAttr) (pub : Bool) (g : Bool) : Nat → List Str → Parser RItem
  | 0, _, _ => none
  | _ + 1, _, [] => none
  | n + 1, acc, t :: rest =>
    match t, rest with
    | .group .brace ts, .p .semi :: rest => (pCommas pIdent n ts).map (fun l => (.useGroup as pub g acc l, rest))
    | t, .p .colon2 :: rest => (pSegName t).bind (fun s => pUseN as pub g n (acc ++ [s]) rest)
    | t, .p .semi :: rest => (pSegName t).map (fun s => (.use as pub g (acc ++ [s]) none, rest))
    | t, .kw .as :: .id a :: .p .semi :: rest => (pSegName t).map (fun s => (.use as pub g (acc ++ [s]) (some a), rest))
    | _, _ => none

/-- `use`. -/
def pUse (as : List RAttr) (pub : Bool) (n : Nat) : Parser RItem
  | .p .colon2 :: rest => pUseN as pub true n [] rest
  | ts => pUseN as pub false n [] ts

/-- `impl T { … }` and `impl Tr for T { … }`, after `impl`. -/
def pImpl (as : List RAttr) (n : Nat) (ts : List Tok) : Option (RItem × List Tok) :=
  match pType n ts with
  | some (t, .group .brace b :: rest) => (pMany (pFn n) n b).map (fun fs => (.impl as none t fs, rest))
  | some (tr, .kw .for :: ts) =>
    match pType n ts with
    | some (t, .group .brace b :: rest) => (pMany (pFn n) n b).map (fun fs => (.impl as (some tr) t fs, rest))
    | _ => none
  | _ => none

/-- A macro as an item. -/
def pMac (n : Nat) (ts : List Tok) : Option (RItem × List Tok) :=
  match pPath n (fun _ => none) false ts with
  | some ((g, ss), .p .bang :: .group .paren b :: .p .semi :: rest) => some (.mac g ss b, rest)
  | _ => none

/-- An item, given the parser of items inside. -/
def pItemStep (n : Nat) (p : Parser RItem) (ts : List Tok) : Option (RItem × List Tok) :=
  match pAttrs n ts with
  | none => none
  | some (as, ts) =>
    match pVis ts with
    | (b, .kw .use :: ts) => pUse as b n ts
    | (pub, .kw .mod :: .id m :: .group .brace b :: rest) => (pMany p n b).map (fun is => (.mod as pub m is, rest))
    | (b, .kw .type :: .id x :: .p .eq :: ts) =>
      match pType n ts with
      | some (t, .p .semi :: rest) => some (.typeAlias as b x t, rest)
      | _ => none
    | (pub, .kw .struct :: .id x :: .group .paren b :: .p .semi :: rest) => (pCommas (pType n) n b).map (fun fs => (.struct as pub x fs, rest))
    | (pub, .kw .trait :: .id x :: .group .brace b :: rest) => (pMany (pTraitFn n) n b).map (fun ss => (.trait as pub x ss, rest))
    | (b, .kw .fn :: ts) => (pFnRest n as b ts).map (fun (f, rest) => (.fn f, rest))
    | (false, .kw .impl :: ts) => pImpl as n ts
    | (false, ts) => if as.isEmpty then pMac n ts else none
    | _ => none

/-- Items. -/
def pItem : Nat → Parser RItem
  | 0 => fun _ => none
  | n + 1 => pItemStep n (pItem n)

/-- A file: items up to the end. -/
def pFile (n : Nat) (ts : List Tok) : Option (List RItem) := pMany (pItem n) n ts

/-- The tokens are those of this file: the parser finds it once its bound is large enough. -/
def Parses (ts : List Tok) (file : List RItem) : Prop := ∃ n, ∀ k ≥ n, pFile k ts = some file

/-- The tokens are those of no file: the parser rejects them once its bound is large enough. -/
def Invalid (ts : List Tok) : Prop := ∃ n, ∀ k ≥ n, pFile k ts = none

/-- Nothing, `pub` or an attribute: none of it can follow `pub`. -/
def startsItem : List Tok → Bool
  | [] => true
  | .kw .pub :: _ => true
  | .p .hash :: _ => true
  | _ => false

/-- A syntax error that no extension of the grammar removes: after complete items, a `pub` and then the end, `pub` or an attribute,
in the file or in the braces of one of its modules. -/
inductive Dangling : List Tok → Prop
  | here {before rest : List Tok} {file : List RItem} : Parses before file → startsItem rest = true →
      Dangling (before ++ .kw .pub :: rest)
  | inside {before inner rest : List Tok} {x : Str} {file : List RItem} :
      Parses (before ++ [.kw .mod, .id x, .group .brace []]) file → Dangling inner →
      Dangling (before ++ [.kw .mod, .id x, .group .brace inner] ++ rest)

end Bindgen.Spec

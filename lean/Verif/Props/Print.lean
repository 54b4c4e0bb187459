import Verif.Props.Syntax
import Verif.Props.Engine
import Verif.Lemmas.PrintItem
/-!
# C68: the written file reads back as the bindings
-/
namespace Bindgen
open Spec

/-- A text is read in at most one way. -/
theorem C68_unique (E : Env) (s : Str) (ts us : List Tok) (h : Lexes E s ts) (h' : Lexes E s us) : ts = us := by
  obtain ⟨N, h⟩ := h
  obtain ⟨M, h'⟩ := h'
  have h1 := h (N + M) (by omega)
  rw [h' (N + M) (by omega)] at h1
  cases h1
  rfl

/-- Whatever string is put into the bindings — names, documentation, the source of a module —, the literal stands for this string. -/
theorem C68_literal (E : Env) (plain : Char → Bool) (v : Str) : Lexes E (strText plain v) [.str v] :=
  lexes_shown (plain := plain) lexStr (by rw [Tok.ShowList, Tok.Shows]; exact .inl rfl)

/-- Whatever the interpreter contains, however the generator is configured: the text of the bindings consists of the generated tokens. -/
theorem C68_text (E : Env) (W : World) (fuel : Nat) (cfg : Config) (srcs : List (Str × Str)) (c : Codegen) (items : List Item)
    (hb : Built E W fuel cfg srcs c) (h : c.generate E W fuel = .ok items) (plain : Char → Bool) (s : Str)
    (hs : Tok.ShowList plain (Item.toksList items) s) : Lexes E s (Item.toksList items) :=
  lexes_shown (Item.lexList items (locList_of items (generated_loc hb h))) hs

/-- `to_string` of a token stream prints its tokens. -/
def Spec.HonestText (plain : Char → Bool) (O : Outside) : Prop := ∀ ts, Tok.ShowList plain ts (O.text ts)

/-- If `build` succeeds, the file that it writes is the text of a Rust file: it can be split into tokens, and these are the file that the
items stand for, provided that no module has a stray `pub`. With one, the file is not valid Rust. -/
theorem C68_build (E : Env) (W : World) (fuel : Nat) (O : Outside) (hO : HonestWrite O) (plain : Char → Bool) (hT : HonestText plain O)
    (cfg : Config) (srcs : List (Str × Str)) (c : Codegen) (hb : Built E W fuel cfg srcs c) (path : Str) (fs fs' : Files)
    (h : c.build E W fuel O path fs = (fs', .ok ())) :
    ∃ items s ts, c.generate E W fuel = .ok items ∧ fs' path = some s ∧ Lexes E s ts ∧
      (¬ Within .strayPub items → Parses ts (Item.treesList items)) ∧ (Within .strayPub items → Invalid ts) := by
  obtain ⟨items, hg, hf⟩ := C45_success E W fuel O hO c path fs fs' h
  refine ⟨items, _, _, hg, ?_, C68_text E W fuel cfg srcs c items hb hg plain _ (hT _), fun hs => ?_, fun hs => ?_⟩
  · rw [hf path, if_pos rfl]
  · exact C65_valid E W fuel cfg srcs c items hb hg hs
  · exact C65_invalid E W fuel cfg srcs c items hb hg hs

/-- Different bindings have different texts. -/
theorem C68_injective (E : Env) (W : World) (fuel : Nat) (cfg : Config) (srcs : List (Str × Str)) (c : Codegen) (items : List Item)
    (hb : Built E W fuel cfg srcs c) (h : c.generate E W fuel = .ok items)
    (W' : World) (fuel' : Nat) (cfg' : Config) (srcs' : List (Str × Str)) (c' : Codegen) (items' : List Item)
    (hb' : Built E W' fuel' cfg' srcs' c') (h' : c'.generate E W' fuel' = .ok items') (plain : Char → Bool) (s : Str)
    (hs : Tok.ShowList plain (Item.toksList items) s) (hs' : Tok.ShowList plain (Item.toksList items') s) :
    Item.toksList items = Item.toksList items' :=
  C68_unique E s _ _ (C68_text E W fuel cfg srcs c items hb h plain s hs)
    (C68_text E W' fuel' cfg' srcs' c' items' hb' h' plain s hs')

/-! ## Examples -/

/-- The printable characters of ASCII. -/
def exPlain (c : Char) : Bool := 32 ≤ c.toNat && c.toNat < 127

/-- A file system that works, and a `to_string` that prints tokens. -/
def exPrinter : Outside where
  write fs path text := (fun q => if q = path then some text else fs q, true)
  createDirAll fs _ := (fs, true)
  text := Tok.textList exPlain
  pretty _ := none

example : HonestText exPlain exPrinter := showList_text exPlain
example : HonestWrite exPrinter := by intro fs path text fs' h; cases h; intro q; rfl

-- the literal of a string with quotes, a backslash, control characters and an `é`
example : strText exPlain [' ', '"', '\\', '\n', Char.ofNat 0, '7', Char.ofNat 0, '\'', 'é', Char.ofNat 127] =
    c!"\" \\\"\\\\\\n\\x007\\0'\\u{e9}\\u{7f}\"" := by decide

-- two ways to print the same type; both are read as the same tokens
example : Tok.ShowList exPlain t!"IntoPy<Py<r>>" c!"IntoPy < Py < r >>" ∧ Tok.ShowList exPlain t!"IntoPy<Py<r>>" c!"IntoPy < Py < r > >" := by
  have h : Tok.ShowList exPlain t!"r > >" c!"r >>" := by
    rw [Tok.ShowList]
    refine ⟨c!"r", c!">>", by rw [Tok.Shows], ?_, .inl rfl⟩
    rw [Tok.ShowList]
    exact ⟨c!">", c!">", by rw [Tok.Shows]; rfl, by rw [Tok.ShowList, Tok.Shows]; rfl, .inr ⟨rfl, rfl, rfl⟩⟩
  have h' : Tok.ShowList exPlain t!"IntoPy<Py<r>>" c!"IntoPy < Py < r > >" := showList_text exPlain t!"IntoPy<Py<r>>"
  refine ⟨?_, h'⟩
  rw [Tok.ShowList]
  refine ⟨c!"IntoPy", c!"< Py < r >>", by rw [Tok.Shows], ?_, .inl rfl⟩
  rw [Tok.ShowList]
  refine ⟨c!"<", c!"Py < r >>", by rw [Tok.Shows]; rfl, ?_, .inl rfl⟩
  rw [Tok.ShowList]
  refine ⟨c!"Py", c!"< r >>", by rw [Tok.Shows], ?_, .inl rfl⟩
  rw [Tok.ShowList]
  exact ⟨c!"<", c!"r >>", by rw [Tok.Shows]; rfl, h, .inl rfl⟩

-- what the lexer of the specification does not read, or reads in another way
example : tokens exEnv 9 c!"a && b" = none ∧ tokens exEnv 9 c!"b\"x\"" = none ∧ tokens exEnv 9 c!"(]" = none ∧
    (tokens exEnv 9 c!"a/**/").isNone = true := ⟨rfl, rfl, rfl, rfl⟩
example : tokens exEnv 9 c!"r#type :: 'a \"\\x41\\u{42}\"" =
    some ([.id c!"r#type", .p .colon2, .life c!"a", .str c!"AB"], []) := rfl

-- the bindings of `pkg`: a file of this length, which is read back
example : ∃ c items, Built exEnv exWorld 5 {} [] c ∧ c.generate exEnv exWorld 5 = .ok items ∧
    ((Tok.textList exPlain (Item.toksList items)).length, ((tokens exEnv 4000 (Tok.textList exPlain (Item.toksList items))).map
      (fun x => (x.1.length, x.2))), (Item.toksList items).length) = (3230, some (6, []), 6) :=
  built_run (names := [c!"pkg"]) (by decide +kernel)

end Bindgen

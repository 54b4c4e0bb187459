import Verif.Lemmas.Legal
import Verif.Props.Parsed
import Verif.Props.Engine
/-!
# C65: the bindings are syntactically valid Rust, unless a module has a stray `pub`

`Spec/RustSyntax.lean` is a grammar for the part of Rust that the templates use; `Spec/Trees.lean` says which syntax tree every
emitted item stands for.
-/
namespace Bindgen
open Spec

/-- Every generated item is legal by itself. -/
theorem generated_loc {E : Env} {W : World} {fuel : Nat} {cfg : Config} {srcs : List (Str × Str)} {c : Codegen} {items : List Item}
    (hb : Built E W fuel cfg srcs c) (h : c.generate E W fuel = .ok items) : ∀ x, Within x items → x.Loc E := by
  have b := built_ok hb
  obtain ⟨out, h1, hf⟩ := generate_from h
  have hp : ∀ m ∈ c.modules, Parsed E c.cfg W m := b.config ▸ b.parsed
  intro x hx
  refine from_loc (fun M hM p hpm ho => ?_) (hf x hx)
  obtain ⟨m, ⟨fu, id, hm⟩, -, hm3⟩ := prepared_has h1 hp hM (x := .property p) hpm
  have key := parse_all (Q := fun x => ∀ p, x = .property p → p.doc = none ∧ p.setterDoc = none) ?_ ?_ ?_ hm (.property p) hm3
  · exact key p rfl
  · rintro x t hx p he
    cases x <;> simp only [renameItem, SItem.property.injEq, reduceCtorEq] at he
    rename_i q
    subst he
    exact hx q rfl
  · rintro i p he; cases he
  · rintro id pm name i a x - - hn p rfl
    cases hn with
    | property p hp =>
      obtain ⟨-, -, -, -, h1, h2, -⟩ := C32_module hp
      exact ⟨h1, h2⟩

/-- A token stream is at most one file. -/
theorem C65_unique (ts : List Tok) (f g : List RItem) (h : Parses ts f) (h' : Parses ts g) : f = g := by
  obtain ⟨n, h⟩ := h
  obtain ⟨m, h'⟩ := h'
  have := (h (n + m) (by omega)).symm.trans (h' (n + m) (by omega))
  simpa using this

/-- A file is not rejected. -/
theorem C65_exclusive (ts : List Tok) (f : List RItem) (h : Parses ts f) : ¬ Invalid ts := by
  rintro ⟨m, h'⟩
  obtain ⟨n, h⟩ := h
  have := (h (n + m) (by omega)).symm.trans (h' (n + m) (by omega))
  cases this

/-- Whatever the interpreter contains, however the generator is configured: the generated tokens are the Rust file that the items
stand for, provided that no module has a stray `pub`. -/
theorem C65_valid (E : Env) (W : World) (fuel : Nat) (cfg : Config) (srcs : List (Str × Str)) (c : Codegen) (items : List Item)
    (hb : Built E W fuel cfg srcs c) (h : c.generate E W fuel = .ok items) (hs : ¬ Within .strayPub items) :
    Parses (Item.toksList items) (Item.treesList items) :=
  parses_clean (generated_loc hb h) hs

/-- A stray `pub` anywhere makes the whole output invalid. -/
theorem C65_invalid (E : Env) (W : World) (fuel : Nat) (cfg : Config) (srcs : List (Str × Str)) (c : Codegen) (items : List Item)
    (hb : Built E W fuel cfg srcs c) (h : c.generate E W fuel = .ok items) (hs : Within .strayPub items) :
    Invalid (Item.toksList items) :=
  invalid_stray (generated_loc hb h) hs

/-- In that case the tokens have a `pub` that nothing can complete. -/
theorem C65_dangling (E : Env) (W : World) (fuel : Nat) (cfg : Config) (srcs : List (Str × Str)) (c : Codegen) (items : List Item)
    (hb : Built E W fuel cfg srcs c) (h : c.generate E W fuel = .ok items) (hs : Within .strayPub items) :
    Dangling (Item.toksList items) :=
  dangling_stray (generated_loc hb h) hs

/-- In an interpreter of ordinary modules with unique names, in which no name is `get_` or `set_` and another name of the same module,
the generated tokens are the Rust file that the items stand for. -/
theorem C65_ordinary (E : Env) (W : World) (hW : OrdinaryWorld W) (hu : UniqueNames W) (hn : NoAccessorNames E W) (fuel : Nat)
    (cfg : Config) (srcs : List (Str × Str)) (c : Codegen) (items : List Item)
    (hb : Built E W fuel cfg srcs c) (h : c.generate E W fuel = .ok items) :
    Parses (Item.toksList items) (Item.treesList items) :=
  C65_valid E W fuel cfg srcs c items hb h (C52_names_partial E W hW hu hn fuel cfg srcs c items hb h)

/-- `prettyplease::unparse(&syn::parse2(tokens).unwrap())` prints files and panics on a `pub` without an item. -/
def Spec.HonestParser (O : Outside) : Prop :=
  (∀ ts file, Parses ts file → ∃ text, O.pretty ts = some text) ∧ ∀ ts, Invalid ts → Dangling ts → O.pretty ts = none

/-- The CLI panics exactly if the engine reports an error, panics, or makes a stray `pub`. -/
theorem C65_cli (E : Env) (W : World) (fuel : Nat) (O : Outside) (hO : HonestParser O) (names : List Str) (fs : Files) :
    (∃ text, cliMain E W fuel O names none fs = (fs, .printed text)) ↔
      ∃ items, EngineOutput E W fuel names items ∧ ¬ Within .strayPub items := by
  constructor
  · rintro ⟨text, h⟩
    obtain ⟨items, ho, hp⟩ := (C55_cli_stdout E W fuel O names fs text).mp h
    refine ⟨items, ho, fun hs => ?_⟩
    obtain ⟨c, hc, hg⟩ := ho
    have hb : Built E W fuel {} [] c := .moduleNames names .new hc
    rw [hO.2 _ (C65_invalid E W fuel {} [] c items hb hg hs) (C65_dangling E W fuel {} [] c items hb hg hs)] at hp
    cases hp
  · rintro ⟨items, ⟨c, hc, hg⟩, hs⟩
    obtain ⟨text, ht⟩ := hO.1 _ _ (C65_valid E W fuel {} [] c items (.moduleNames names .new hc) hg hs)
    exact ⟨text, (C55_cli_stdout E W fuel O names fs text).mpr ⟨items, ⟨c, hc, hg⟩, ht⟩⟩

/-! ## Examples -/

/-- The parser of the specification, made into a front end that prints the number of items. -/
noncomputable def exHonest : Outside where
  write fs path text := (fun q => if q = path then some text else fs q, true)
  createDirAll fs _ := (fs, true)
  text _ := []
  pretty ts := open Classical in if h : ∃ file, Parses ts file then some (h.choose.map (fun _ => 'i')) else none

example : HonestParser exHonest := by
  refine ⟨fun ts file h => ?_, fun ts h _ => ?_⟩
  · exact ⟨_, dif_pos ⟨file, h⟩⟩
  · exact dif_neg (fun ⟨f, hf⟩ => C65_exclusive ts f hf h)

/-- The number of items in a module. -/
def exItems : RItem → Nat
  | .mod _ _ _ is => is.length
  | _ => 0

-- the bindings of `pkg` parse at a bound of 60, as one module with eleven items
example : OrdinaryWorld exWorld ∧ UniqueNames exWorld ∧ NoAccessorNames exEnv exWorld ∧
    ∃ c items, Built exEnv exWorld 5 {} [] c ∧ c.generate exEnv exWorld 5 = .ok items ∧
      (pFile 60 (Item.toksList items)).map (fun l => l.map exItems) = some [11] :=
  ⟨exWorld_ordinary, exWorld_unique, exWorld_noAccessors, built_run (names := [c!"pkg"]) (by decide +kernel)⟩

/-- Whether a top-level module has a stray `pub`. -/
def exStray (items : List Item) : Bool :=
  items.any (fun (x : Item) => match x with
    | .mod _ _ _ inner => inner.any (fun (y : Item) => match y with | .strayPub => true | _ => false)
    | _ => false)

theorem exStray_within {items : List Item} (h : exStray items = true) : Within .strayPub items := by
  unfold exStray at h
  rw [List.any_eq_true] at h
  obtain ⟨x, hx, h⟩ := h
  cases x <;> simp only [Bool.false_eq_true, List.any_eq_true] at h
  obtain ⟨y, hy, h⟩ := h
  cases y <;> simp only [Bool.false_eq_true] at h
  exact .sub hx (.top hy)

/-- A variable `level` next to a function `set_level`: the bindings are not valid Rust. -/
theorem C65_stray_counterexample :
    ∃ c items, Built exEnv exSetterWorld 5 {} [] c ∧ c.generate exEnv exSetterWorld 5 = .ok items ∧
      Invalid (Item.toksList items) ∧ Dangling (Item.toksList items) := by
  obtain ⟨c, items, hb, hg, hs⟩ := built_run (E := exEnv) (W := exSetterWorld) (fuel := 5) (cfg := {}) (names := [c!"conf"])
    (f := exStray) (v := true) (by decide +kernel)
  exact ⟨c, items, hb, hg, C65_invalid _ _ _ _ _ c items hb hg (exStray_within hs),
    C65_dangling _ _ _ _ _ c items hb hg (exStray_within hs)⟩

end Bindgen

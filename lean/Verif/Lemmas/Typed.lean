import Verif.Lemmas.Check
import Verif.Lemmas.Sane
import Verif.Props.RustTypes
import Verif.Props.Panics
import Verif.Props.Flags
import Verif.Props.Accessors
import Verif.Lemmas.FaithfulCheck
/-!
# Lemmas: the generated functions have types
-/
namespace Bindgen
open Spec

theorem namedList_iff {ts : List RsTy} : RsTy.NamedList ts ↔ ∀ t ∈ ts, t.Named := by
  induction ts with
  | nil => simp [RsTy.NamedList]
  | cons t ts ih => simp [RsTy.NamedList, ih]

/-- The paths of local types are relative. -/
def RelativeTypes (lt : LocalTypes) : Prop := ∀ q rel, lt.get q = some rel → rel.leadingColon = false

theorem synOk_ne {E : Env} {p : Path} (h : p.synOk E = true) : p.segs ≠ [] := by
  intro he
  rw [Path.synOk, he] at h
  cases h

/-- The types that are emitted name classes of pyo3, relative paths, and tuples that are not empty. -/
theorem types_named {E : Env} {lt : LocalTypes} (hlt : RelativeTypes lt) {t : PyTy} {o b : RsTy} (h : intoRs E lt t = .ok (o, b)) :
    o.Named ∧ b.Named := by
  induction t using PyTy.ind generalizing o b with
  | step t ih =>
    have own : ∀ {s : PyTy} {p : RsTy × RsTy}, s ∈ t.kids → intoRs E lt s = .ok p → p.1.Named := fun hs hp => (ih _ hs hp).1
    cases t
    case other n =>
      rw [intoRs] at h
      rcases mapType_ok h with ⟨_, h⟩ | ⟨_, rel, hrel, hok, h⟩ | ⟨_, _, h⟩ <;> cases h
      · exact ⟨trivial, trivial⟩
      · exact ⟨⟨hlt _ _ hrel, synOk_ne hok⟩, hlt _ _ hrel, synOk_ne hok⟩
      · exact ⟨(by decide : c!"PyAny" ∈ pyo3Types), .inr rfl⟩
    case optional t =>
      rw [intoRs] at h
      obtain ⟨p, hp, h⟩ := Res.bind_ok h
      cases h
      have := own (by simp [PyTy.kids]) hp
      exact ⟨this, this⟩
    case list t =>
      rw [intoRs] at h
      obtain ⟨p, hp, h⟩ := Res.bind_ok h
      cases h
      have := own (by simp [PyTy.kids]) hp
      exact ⟨this, this⟩
    case dict k v =>
      rw [intoRs] at h
      obtain ⟨p, hp, h⟩ := Res.bind_ok h
      split at h
      · obtain ⟨q, hq, h⟩ := Res.bind_ok h
        cases h
        have h1 := own (by simp [PyTy.kids]) hp
        have h2 := own (by simp [PyTy.kids]) hq
        exact ⟨⟨h2, h1⟩, h2, h1⟩
      · cases h; exact ⟨(by decide : c!"PyDict" ∈ pyo3Types), trivial⟩
    case frozenSet t =>
      rw [intoRs] at h
      split at h
      · obtain ⟨p, hp, h⟩ := Res.bind_ok h
        cases h
        have := own (by simp [PyTy.kids]) hp
        exact ⟨this, this⟩
      · cases h; exact ⟨(by decide : c!"PyFrozenSet" ∈ pyo3Types), (by decide : c!"PyFrozenSet" ∈ pyo3Types)⟩
    case set t =>
      rw [intoRs] at h
      split at h
      · obtain ⟨p, hp, h⟩ := Res.bind_ok h
        cases h
        have := own (by simp [PyTy.kids]) hp
        exact ⟨this, this⟩
      · cases h; exact ⟨(by decide : c!"PySet" ∈ pyo3Types), (by decide : c!"PySet" ∈ pyo3Types)⟩
    case tuple ts =>
      rcases tuple_cases ts with hs | ⟨t, rfl⟩ | ⟨h2, he⟩
      · rw [intoRs_tuple_short E lt hs] at h; cases h
        exact ⟨(by decide : c!"PyTuple" ∈ pyo3Types), .inl rfl⟩
      · rw [intoRs_tuple_ellipsis, intoRs] at h
        obtain ⟨p, hp, h⟩ := Res.bind_ok h
        cases h
        have := own (by simp [PyTy.kids]) hp
        exact ⟨this, this⟩
      · rw [intoRs_tuple E lt h2 he] at h
        obtain ⟨rs, hrs, h⟩ := Res.bind_ok h
        cases h
        have h3 : RsTy.NamedList rs := by
          rw [namedList_iff]
          intro r hr
          obtain ⟨s, hs, hsr⟩ := traverse_mem hrs hr
          obtain ⟨b, hb⟩ := intoRsOwned_ok hsr
          exact own (p := (r, b)) (by simpa [PyTy.kids] using hs) hb
        have h4 : rs ≠ [] := by
          rintro rfl
          have := Res.traverse_length hrs
          simp at this
          omega
        exact ⟨⟨h4, h3⟩, h4, h3⟩
    all_goals
      rw [intoRs] at h
      cases h
      simp [RsTy.Named, pyo3Types]

theorem fits_conversion {b : RsTy} (hl : ParamLegal b) (hn : b.Named) : Fits b (conversionFor b) := by
  cases b with
  | implIntoPy n =>
    rcases hn with rfl | rfl
    · exact .tuple
    · exact .any
  | implIntoPyDict => exact .dict
  | _ => exact .plain _ hl hn rfl

/-- No local type has a bracket in its name. -/
def Bracketless (E : Env) (lt : LocalTypes) : Prop := ∀ n, '[' ∈ n → lt.get (Path.fromPy E n) = none

/-- Conversions belong to the types of the parameters. -/
theorem types_fit {E : Env} {lt : LocalTypes} (hlt : RelativeTypes lt) (hbr : Bracketless E lt) {t : PyTy} {o b : RsTy} {p : Pre}
    (h : intoRs E lt t = .ok (o, b)) (hp : preprocess E lt t = .ok p) : Fits b p := by
  have hn := (types_named hlt h).2
  have hl := (C18_types_legal E lt t o b h).2
  by_cases h1 : ∀ n, t = .other n → '[' ∉ n
  · by_cases h2 : ∀ k v, t ≠ .optional (.dict k v)
    · rw [C19_conversion_partial E lt t o b h h1 h2] at hp
      cases hp
      exact fits_conversion hl hn
    · simp only [ne_eq, not_forall, not_not] at h2
      obtain ⟨k, v, rfl⟩ := h2
      rw [intoRs] at h
      obtain ⟨⟨o', b'⟩, hi, h⟩ := Res.bind_ok h
      cases h
      simp only [preprocess] at hp
      rcases dictNeedsConversion_agrees hi with ⟨hd, rfl, -⟩ | ⟨hd, k', v', rfl, -⟩
      · rw [hd] at hp; cases hp; exact .optDict
      · rw [hd] at hp; cases hp; exact .plain _ hl hn rfl
  · simp only [not_forall, not_not] at h1
    obtain ⟨n, rfl, hb⟩ := h1
    rw [intoRs] at h
    rw [preprocess] at hp
    rcases mapType_ok h with ⟨h1, h⟩ | ⟨h1, rel, h2, h3, h⟩ | ⟨h1, h2, h⟩ <;> cases h <;> rw [h1] at hp
    · cases hp; exact .plain _ hl hn rfl
    · simp only [Bool.false_eq_true, if_false] at hp
      obtain ⟨_, -, hp⟩ := Res.bind_ok hp
      rw [hbr n hb] at hp
      cases hp
      exact .generic _ hn
    · simp only [Bool.false_eq_true, if_false] at hp
      obtain ⟨_, -, hp⟩ := Res.bind_ok hp
      rw [hbr n hb] at hp
      cases hp
      exact .any

/-! ## Names without brackets -/

/-- The names of a path have no brackets. -/
def Path.NoBr (p : Path) : Prop := ∀ i ∈ p.segs, '[' ∉ i.rs

theorem nobr_ident {E : Env} {s : Str} (h : IsIdent E s) : '[' ∉ s := by
  obtain ⟨c, cs, rfl, hc, hcs⟩ := h
  intro hm
  rcases List.mem_cons.1 hm with rfl | hm
  · rcases hc with hc | hc
    · cases hc
    · rw [E.xidStart_ascii _ (by decide)] at hc
      cases hc
  · have := hcs _ hm
    rw [E.xidContinue_ascii _ (by decide)] at this
    cases this

theorem fromPy_rs (E : Env) (s : Str) : (Ident.fromPy E s).rs = s ∨ (Ident.fromPy E s).rs = c!"r#" ++ s := by
  simp only [Ident.fromPy, Ident.pyToRs]
  split
  · exact .inl rfl
  · exact .inr rfl

theorem br_fromPy {E : Env} {s : Str} : '[' ∈ (Ident.fromPy E s).rs ↔ '[' ∈ s := by
  rcases fromPy_rs E s with h | h <;> rw [h]
  simp

theorem nobr_asPy {i : Ident} (h : '[' ∉ i.rs) : '[' ∉ i.asPy := by
  intro hm
  apply h
  unfold Ident.asPy Ident.rsAsPy at hm
  cases hs : Str.stripPrefix c!"r#" i.rs with
  | none => rw [hs] at hm; exact hm
  | some r =>
    rw [hs] at hm
    rw [Str.stripPrefix_eq_some.1 hs]
    exact List.mem_append_right _ hm

theorem mem_joined {c : Char} {sep : Str} (hs : c ∉ sep) : ∀ {l : List Str}, c ∈ Str.join sep l ↔ ∃ s ∈ l, c ∈ s
  | [] => by simp [Str.join]
  | [x] => by simp [Str.join]
  | x :: y :: l => by
    rw [Str.join, List.mem_append, List.mem_append, mem_joined hs (l := y :: l)]
    simp [hs]

theorem nobr_toPy {p : Path} (h : p.NoBr) : '[' ∉ p.toPy := by
  unfold Path.toPy
  rw [mem_joined (by decide)]
  rintro ⟨s, hs, hm⟩
  obtain ⟨t, ht, rfl⟩ := List.mem_map.1 hs
  obtain ⟨i, hi, rfl⟩ := List.mem_map.1 ht
  split at hm
  · cases hm
  · exact nobr_asPy (h i hi) hm

theorem nobr_path {E : Env} {s : Str} : (Path.fromPy E s).NoBr ↔ '[' ∉ s := by
  unfold Path.fromPy
  split
  · rename_i h
    subst h
    exact ⟨fun _ => by simp, fun _ i hi => by cases hi⟩
  · have key : '[' ∈ s ↔ ∃ t ∈ Str.splitChar '.' s, '[' ∈ t := by
      have := mem_joined (c := '[') (sep := ['.']) (by decide) (l := Str.splitChar '.' s)
      rwa [Str.join_splitChar] at this
    constructor
    · intro h hm
      obtain ⟨t, ht, hm⟩ := key.1 hm
      refine h (Ident.fromPy E t) (List.mem_append_right _ (List.mem_map_of_mem (List.mem_filter.2 ⟨ht, ?_⟩))) (br_fromPy.2 hm)
      rw [decide_eq_true_iff]
      rintro rfl
      cases hm
    · intro h i hi hm
      rcases List.mem_append.1 hi with hi | hi
      · obtain ⟨-, rfl⟩ := List.mem_replicate.1 hi
        revert hm
        decide
      · obtain ⟨t, ht, rfl⟩ := List.mem_map.1 hi
        exact h (key.2 ⟨t, (List.mem_filter.1 ht).1, br_fromPy.1 hm⟩)

theorem nobr_name {p : Path} (h : p.NoBr) {i : Ident} (hi : p.name = .ok i) : '[' ∉ i.rs := by
  simp only [Path.name, Path.name?] at hi
  cases hl : p.segs.getLast? with
  | none => rw [hl] at hi; cases hi
  | some j => rw [hl] at hi; cases hi; exact h _ (List.mem_of_getLast? hl)

theorem nobr_imported {E : Env} {i : Import} {p q : Path} (hi : i.target.NoBr) (hp : p.NoBr) (h : importedPath E i p = .ok q) : q.NoBr := by
  unfold importedPath at h
  split at h
  · rename_i stripped hs
    have hst : (Path.fromPy E stripped).NoBr := by
      rw [nobr_path]
      intro hm
      refine nobr_toPy hp ?_
      rw [Str.stripPrefix_eq_some.1 hs]
      exact List.mem_append_right _ hm
    obtain ⟨_, -, h⟩ := Res.bind_ok h
    split at h
    · cases h
    · rename_i x rest hr
      obtain ⟨n, hn, h⟩ := Res.bind_ok h
      cases h
      intro j hj
      rcases List.mem_cons.1 hj with rfl | hj
      · exact nobr_name hi hn
      · exact hst j (hr ▸ List.mem_cons_of_mem _ hj)
  · obtain ⟨n, hn, h⟩ := Res.bind_ok h
    cases h
    intro j hj
    rw [Path.ofIdent, List.mem_singleton] at hj
    subst hj
    exact nobr_name hi hn

theorem localTypes_nobr {E : Env} {ts : List Path} {name : Path} {imports : List Import} {lt : LocalTypes}
    (h : Module.localTypes E ts name imports = .ok lt) (ht : ∀ p ∈ ts, p.NoBr) (hi : ∀ i ∈ imports, i.target.NoBr) : Bracketless E lt := by
  intro n hn
  cases hq : lt.get (Path.fromPy E n) with
  | none => rfl
  | some rel =>
    have hmem := List.mem_reverse.1 (lookup_mem hq)
    have key : (Path.fromPy E n).NoBr := by
      obtain ⟨own, h1, h⟩ := Res.bind_ok h
      obtain ⟨imported, h2, h⟩ := Res.bind_ok h
      cases h
      rcases List.mem_append.mp hmem with hm | hm
      · obtain ⟨p, hp, hr⟩ := traverse_mem h1 hm
        obtain ⟨r, hr, hx⟩ := Res.bind_ok hr
        have hx : p = Path.fromPy E n := congrArg Prod.fst (Except.ok.inj hx)
        exact hx ▸ ht p hp
      · obtain ⟨l, hl, hm⟩ := List.mem_flatten.mp hm
        obtain ⟨i, hii, hl⟩ := traverse_mem h2 hl
        obtain ⟨p, hp, hr⟩ := traverse_mem hl hm
        obtain ⟨k, hk, hr⟩ := Res.bind_ok hr
        obtain ⟨r, hr, hx⟩ := Res.bind_ok hr
        have hx : k = Path.fromPy E n := congrArg Prod.fst (Except.ok.inj hx)
        exact hx ▸ nobr_imported (hi i hii) (ht p (List.mem_filter.1 hp).1) hk
    exact absurd hn (nobr_path.1 key)

theorem localTypes_relative {E : Env} {ts : List Path} {name : Path} {imports : List Import} {lt : LocalTypes}
    (h : Module.localTypes E ts name imports = .ok lt) : RelativeTypes lt := by
  intro q rel hq
  obtain ⟨p, -, hp⟩ := localTypes_get h hq
  rw [Path.relativeTo] at hp
  split at hp
  · cases hp; rfl
  · cases hp; rfl

theorem parsed_nobr {E : Env} {cfg : Config} {W : World} (hF : Faithful E W) {m : Module} (hm : Parsed E cfg W m) : m.name.NoBr := by
  obtain ⟨f, id, hm⟩ := hm
  cases f with
  | zero => exact absurd hm parse_zero
  | succ f =>
    obtain ⟨p⟩ := parse_parts hm
    obtain ⟨segs, h1, h2, h3, h4⟩ := faithful_name hF p.get p.pmName
    have hn : m.name = ⟨false, segs.map (Ident.fromPy E)⟩ := p.name.trans h4
    rw [hn]
    intro i hi
    obtain ⟨t, ht, rfl⟩ := List.mem_map.mp hi
    rw [br_fromPy]
    exact nobr_ident (h2 t ht).2

theorem parsed_item_nobr {E : Env} {cfg : Config} {W : World} (hF : Faithful E W) {m : Module} (hm : Parsed E cfg W m) {x : SItem}
    (hx : Has m x) : (∃ i, x = .prelude i) ∨ (itemName x).NoBr := by
  rcases itemName_mem hx with h | h
  · exact Or.inl h
  · right
    have hp := parsed_nobr hF hm
    obtain ⟨f, id, hm⟩ := hm
    cases f with
    | zero => exact absurd hm parse_zero
    | succ f =>
      obtain ⟨p⟩ := parse_parts hm
      obtain ⟨y, hy, h⟩ := parts_itemNames p _ h
      obtain ⟨c1, -, -⟩ := mem_candidates hy
      obtain ⟨s, hs, c1⟩ := List.mem_map.mp c1
      rw [h]
      intro i hi
      rcases List.mem_append.mp hi with hi | hi
      · exact hp i hi
      · simp only [Path.ofIdent, List.mem_singleton] at hi
        rw [hi, ← c1, br_fromPy]
        exact nobr_ident (hF.attrs _ _ p.get s hs).2

theorem prepared_types_nobr {E : Env} {W : World} {fuel : Nat} {c : Codegen} {out : List Module} (hF : Faithful E W)
    (hp : ∀ m ∈ c.modules, Parsed E c.cfg W m) (h : c.prepare E W fuel = .ok out) : ∀ p ∈ getAllTypes out, p.NoBr := by
  intro p hpt
  obtain ⟨M, hM, ⟨x, hx, rfl⟩ | ⟨x, hx, rfl⟩⟩ := (mem_typesList out).mp (mem_unique.mp hpt)
  · obtain ⟨m, h1, -, h3⟩ := prepared_has h hp hM (x := .class x) hx
    rcases parsed_item_nobr hF h1 h3 with ⟨_, h⟩ | h
    · cases h
    · exact h
  · obtain ⟨m, h1, -, h3⟩ := prepared_has h hp hM (x := .typeVar x) hx
    rcases parsed_item_nobr hF h1 h3 with ⟨_, h⟩ | h
    · cases h
    · exact h

theorem prepared_imports_nobr {E : Env} {W : World} {fuel : Nat} {c : Codegen} {out : List Module} (hF : Faithful E W)
    (hp : ∀ m ∈ c.modules, Parsed E c.cfg W m) (h : c.prepare E W fuel = .ok out) {M : Module} (hM : InTree M out) :
    ∀ i ∈ M.imports, i.target.NoBr := by
  intro i hi
  obtain ⟨m, h1, -, h3⟩ := prepared_has h hp hM (x := .import i) hi
  rcases parsed_item_nobr hF h1 h3 with ⟨_, h⟩ | h
  · cases h
  · exact h

/-! ## Functions -/

/-- The parameters for remaining arguments have the types that the parser gives them. -/
def StarParam (p : Param) : Prop :=
  (p.kind = .varPositional → p.ann = .tuple [.unknown]) ∧ (p.kind = .varKeyword → p.ann = .optional (.dict .unknown .unknown))

theorem star_args : StarParam argsParam := ⟨fun _ => rfl, fun h => nomatch h⟩

theorem star_kwargs : StarParam kwargsParam := ⟨fun h => (nomatch h), fun _ => rfl⟩

theorem star_selfCheck (t : FnType) {ps : List Param} (h : ∀ p ∈ ps, StarParam p) : ∀ p ∈ (selfCheck t ps).2, StarParam p := by
  have hs : ∀ (t : FnType), ∀ p ∈ (match ps with
      | p :: rest =>
        if p.name.rs = c!"r#self" then
          if p.kind = .positionalOnly || p.kind = .positionalOrKeyword then
            (t, { p with name := Ident.fromRs c!"__unknown_self__", ann := .unknown } :: rest)
          else (t, [argsParam, kwargsParam])
        else (t, ps)
      | [] => (t, ps) : FnType × List Param).2, StarParam p := by
    intro t
    cases ps with
    | nil => exact h
    | cons q rest =>
      simp only
      split
      · split
        · rename_i hk
          intro p hp
          rcases List.mem_cons.mp hp with rfl | hp
          · simp only [Bool.or_eq_true, decide_eq_true_eq] at hk
            rcases hk with hk | hk
            all_goals exact ⟨fun h => absurd (hk.symm.trans h) (by decide), fun h => absurd (hk.symm.trans h) (by decide)⟩
          · exact h p (by simp [hp])
        · simp [star_args, star_kwargs]
      · exact h
  match t with
  | .method c .instanceMethod => exact h
  | .method c .constructor => exact h
  | .method c .callable => exact h
  | .method c .classMethod => simp only [selfCheck]; split <;> exact h
  | .method c .staticMethod => simp only [selfCheck]; split <;> exact h
  | .method c .unknown => simp only [selfCheck]; split <;> exact h
  | .function => exact hs .function
  | .closure => exact hs .closure

theorem function_star {E : Env} {pf : PyFn} {n : Path} {t : FnType} {f : Function} (h : Function.parse E pf n t = .ok f) :
    ∀ p ∈ f.params, StarParam p := by
  cases hsig : pf.sig with
  | none =>
    obtain ⟨-, -, hp, -⟩ := parse_nosig hsig h
    rw [hp]
    simp [star_args, star_kwargs]
  | some s =>
    obtain ⟨ps, t2, ps2, h1, h2, -, -, h5, -, ps3, h6, h7⟩ := parse_sig hsig h
    have hps : ∀ p ∈ ps, StarParam p := by
      intro p hp
      obtain ⟨q, hq, hpq⟩ := traverse_mem h1 hp
      obtain ⟨-, hk, -, ha, hb, -⟩ := parseParam_ok hpq
      exact ⟨fun h => ha (hk ▸ h), fun h => hb (hk ▸ h)⟩
    have hps2 : ∀ p ∈ ps2, StarParam p := by
      have := star_selfCheck (inferMethod t pf.dictKind) (ps := ps.filter (fun p => p.name.rs ≠ c!"r#_"))
        fun p hp => hps p (List.mem_of_mem_filter hp)
      rwa [h2] at this
    have hps3 : ∀ p ∈ ps3, StarParam p := by
      intro p hp
      refine hps2 p ?_
      unfold dropReceiver at h6
      split at h6
      iterate 3
        split at h6
        · cases h6
        · cases h6; exact List.mem_cons_of_mem _ hp
      cases h6; exact hp
    rw [h7]
    unfold replaceSelf
    split
    · simp [star_args, star_kwargs]
    · exact hps3

/-- The same for the functions of an item, and the properties of a class are known as such. -/
def ItemStar : SItem → Prop
  | .class c => c.WfOwners ∧ ∀ f ∈ c.methods, ∀ p ∈ f.params, StarParam p
  | .function f => ∀ p ∈ f.params, StarParam p
  | _ => True

theorem parsed_star {E : Env} {cfg : Config} {W : World} {m : Module} (hm : Parsed E cfg W m) {x : SItem} (hx : Has m x) : ItemStar x := by
  obtain ⟨_, _, hm⟩ := hm
  refine parse_all (Q := ItemStar) ?_ (fun _ => trivial) ?_ hm x hx
  · intro x t hx
    cases x <;> exact hx
  · intro id pm name i a x hg hc hn
    cases hn with
    | class' c hc =>
      refine ⟨C33_owners hc, fun f hf => ?_⟩
      obtain ⟨y, -, -, hy⟩ := ((class_parse_exact hc).2.1 f).1 hf
      exact function_star hy
    | function t f ht hf => exact function_star hf
    | _ => trivial

theorem positional_star {E : Env} {ps : List Param} {r : Option Pos} (h : positionalArgs E ps = .ok r) :
    (∀ p ∈ r, p.filled) ∧ (∀ p ∈ r, ∀ x ∈ p.star, ∃ q ∈ ps, q.kind = .varPositional ∧ paramIdent E q = .ok x) ∧
    ∀ q ∈ ps, q.kind.isPositional = true → ∀ x, paramIdent E q = .ok x → ∃ p ∈ r, x ∈ p.single := by
  obtain ⟨xs, hxs, h⟩ := Res.bind_ok h
  have hin : ∀ q ∈ ps, q.kind.isPositional = true → ∀ x, paramIdent E q = .ok x → x ∈ xs := by
    intro q hq hk x hx
    obtain ⟨y, hy, he⟩ := traverse_mem' hxs (List.mem_filter.2 ⟨hq, hk⟩)
    rw [hx] at he
    cases he
    exact hy
  cases h
  split
  · rename_i x hx
    have hx : ∃ q ∈ ps, q.kind = .varPositional ∧ paramIdent E q = .ok x := by
      rw [Option.bind_eq_some_iff] at hx
      obtain ⟨q, hm, hq⟩ := hx
      exact ⟨q, List.mem_of_find?_eq_some hm, by simpa using List.find?_some hm, by unfold paramIdent Ident.trySyn; rw [hq]; rfl⟩
    cases xs with
    | nil =>
      refine ⟨?_, ?_, fun q hq hk x hx => absurd (hin q hq hk x hx) (by simp)⟩
      · rintro p hp; cases hp; trivial
      · rintro p hp z hz; cases hp; cases hz; exact hx
    | cons a xs =>
      refine ⟨?_, ?_, fun q hq hk x hx => ⟨_, rfl, hin q hq hk x hx⟩⟩
      · rintro p hp; cases hp; exact List.cons_ne_nil _ _
      · rintro p hp z hz; cases hp; cases hz; exact hx
  · cases xs with
    | nil =>
      refine ⟨?_, ?_, fun q hq hk x hx => absurd (hin q hq hk x hx) (by simp)⟩
      · rintro p hp; cases hp
      · rintro p hp; cases hp
    | cons a xs =>
      refine ⟨?_, ?_, fun q hq hk x hx => ⟨_, rfl, hin q hq hk x hx⟩⟩
      · rintro p hp; cases hp; exact List.cons_ne_nil _ _
      · rintro p hp z hz; cases hp; cases hz

theorem keyword_star {E : Env} {ps : List Param} {r : Option Kw} (h : keywordArgs E ps = .ok r) :
    (∀ p ∈ r, ∀ x ∈ p.star, ∃ q ∈ ps, q.kind = .varKeyword ∧ paramIdent E q = .ok x) ∧
    ∀ q ∈ ps, q.kind = .keywordOnly → ∀ x, paramIdent E q = .ok x → ∃ p ∈ r, x ∈ p.single := by
  obtain ⟨xs, hxs, h⟩ := Res.bind_ok h
  have hin : ∀ q ∈ ps, q.kind = .keywordOnly → ∀ x, paramIdent E q = .ok x → x ∈ xs := by
    intro q hq hk x hx
    obtain ⟨y, hy, he⟩ := traverse_mem' hxs (List.mem_filter.2 ⟨hq, by simpa using hk⟩)
    rw [hx] at he
    cases he
    exact hy
  have hitems : (((ps.filter (fun p => p.kind = .keywordOnly)).map (fun p => p.name.asPy)).zip xs).map Prod.snd = xs :=
    List.map_snd_zip (by rw [List.length_map, Res.traverse_length hxs])
  cases h
  split
  · rename_i x hx
    have hx : ∃ q ∈ ps, q.kind = .varKeyword ∧ paramIdent E q = .ok x := by
      rw [Option.bind_eq_some_iff] at hx
      obtain ⟨q, hm, hq⟩ := hx
      exact ⟨q, List.mem_of_find?_eq_some hm, by simpa using List.find?_some hm, by unfold paramIdent Ident.trySyn; rw [hq]; rfl⟩
    cases xs with
    | nil =>
      refine ⟨?_, fun q hq hk x hx => absurd (hin q hq hk x hx) (by simp)⟩
      rintro p hp z hz; cases hp; cases hz; exact hx
    | cons a xs =>
      refine ⟨?_, fun q hq hk x hx => ⟨_, rfl, by
        show x ∈ List.map Prod.snd _
        rw [hitems]
        exact hin q hq hk x hx⟩⟩
      rintro p hp z hz; cases hp; cases hz; exact hx
  · cases xs with
    | nil =>
      refine ⟨?_, fun q hq hk x hx => absurd (hin q hq hk x hx) (by simp)⟩
      rintro p hp; cases hp
    | cons a xs =>
      refine ⟨?_, fun q hq hk x hx => ⟨_, rfl, by
        show x ∈ List.map Prod.snd _
        rw [hitems]
        exact hin q hq hk x hx⟩⟩
      rintro p hp z hz; cases hp; cases hz

/-- If the parameters have distinct names, no variable is a keyword argument twice. -/
theorem keyword_once {E : Env} {ps : List Param} {r : Option Kw} (h : keywordArgs E ps = .ok r) {idents : List Str}
    (hi : Res.traverse (paramIdent E) ps = .ok idents) (hn : idents.Nodup) : ∀ k ∈ r, k.vars.Nodup := by
  obtain ⟨xs, hxs, h⟩ := Res.bind_ok h
  obtain ⟨g, rfl, hg⟩ := traverse_map hi
  obtain ⟨g', hx', hg'⟩ := traverse_map hxs
  have hitems : (((ps.filter (fun p => p.kind = .keywordOnly)).map (fun p => p.name.asPy)).zip xs).map Prod.snd = xs :=
    List.map_snd_zip (by rw [List.length_map, Res.traverse_length hxs])
  have hxg : xs = (ps.filter (fun p => p.kind = .keywordOnly)).map g := by
    rw [hx']
    refine List.map_congr_left fun q hq => ?_
    have := hg' q hq
    rw [hg q (List.mem_filter.1 hq).1] at this
    injection this with this
    exact this.symm
  have hnx : xs.Nodup := by
    rw [hxg]
    exact hn.sublist (List.filter_sublist.map g)
  cases h
  split
  · rename_i x hx
    rw [Option.bind_eq_some_iff] at hx
    obtain ⟨q, hm, hq⟩ := hx
    have hqm := List.mem_of_find?_eq_some hm
    have hqk : q.kind = .varKeyword := by simpa using List.find?_some hm
    have hgq : g q = x := by
      have h1 : paramIdent E q = .ok x := by unfold paramIdent Ident.trySyn; rw [hq]; rfl
      rw [hg q hqm] at h1
      cases h1
      rfl
    have hnot : x ∉ xs := by
      rw [hxg]
      intro hmem
      obtain ⟨q', hq', he⟩ := List.mem_map.1 hmem
      obtain ⟨hq', hk'⟩ := List.mem_filter.1 hq'
      have : q' = q := List.inj_on_of_nodup_map hn hq' hqm (he.trans hgq.symm)
      rw [this, hqk] at hk'
      simp at hk'
    intro k hk
    split at hk
    · cases hk; exact List.nodup_singleton _
    · cases hk
      show (x :: List.map Prod.snd _).Nodup
      rw [hitems]
      exact List.nodup_cons.2 ⟨hnot, hnx⟩
  · intro k hk
    split at hk
    · cases hk
    · cases hk
      show (List.map Prod.snd _).Nodup
      rw [hitems]
      exact hnx

theorem traverse_three {α β γ δ : Type} {f : α → Res β} {g : α → Res γ} {k : α → Res δ} {l : List α} {as : List β} {bs : List γ} {cs : List δ}
    (h1 : Res.traverse f l = .ok as) (h2 : Res.traverse g l = .ok bs) (h3 : Res.traverse k l = .ok cs) :
    ∃ es : List (β × γ × δ), as.zip bs = es.map (fun e => (e.1, e.2.1)) ∧ as.zip cs = es.map (fun e => (e.1, e.2.2)) ∧
      (∀ e ∈ es, ∃ q ∈ l, f q = .ok e.1 ∧ g q = .ok e.2.1 ∧ k q = .ok e.2.2) ∧
      ∀ q ∈ l, ∃ e ∈ es, f q = .ok e.1 ∧ g q = .ok e.2.1 ∧ k q = .ok e.2.2 := by
  induction l generalizing as bs cs with
  | nil => cases h1; cases h2; cases h3; exact ⟨[], rfl, rfl, by simp, by simp⟩
  | cons q l ih =>
    obtain ⟨a, ha, h1⟩ := Res.bind_ok h1
    obtain ⟨as, has, h1⟩ := Res.bind_ok h1
    obtain ⟨b, hb, h2⟩ := Res.bind_ok h2
    obtain ⟨bs, hbs, h2⟩ := Res.bind_ok h2
    obtain ⟨c, hc, h3⟩ := Res.bind_ok h3
    obtain ⟨cs, hcs, h3⟩ := Res.bind_ok h3
    cases h1; cases h2; cases h3
    obtain ⟨es, e1, e2, e3, e4⟩ := ih has hbs hcs
    refine ⟨(a, b, c) :: es, by rw [List.zip_cons_cons, e1]; rfl, by rw [List.zip_cons_cons, e2]; rfl, ?_, ?_⟩
    · intro e he
      rcases List.mem_cons.1 he with rfl | he
      · exact ⟨q, by simp, ha, hb, hc⟩
      · obtain ⟨q, hq, h⟩ := e3 e he
        exact ⟨q, List.mem_cons_of_mem _ hq, h⟩
    · intro p hp
      rcases List.mem_cons.1 hp with rfl | hp
      · exact ⟨(a, b, c), by simp, ha, hb, hc⟩
      · obtain ⟨e, he, h⟩ := e4 p hp
        exact ⟨e, List.mem_cons_of_mem _ he, h⟩

theorem borrowed_pair {E : Env} {lt : LocalTypes} {t : PyTy} {b : RsTy} (h : intoRsBorrowed E lt t = .ok b) : ∃ o, intoRs E lt t = .ok (o, b) := by
  obtain ⟨⟨o, b'⟩, h1, h⟩ := Res.bind_ok h
  cases h
  exact ⟨o, h1⟩

theorem star_pos_type {E : Env} {lt : LocalTypes} {b : RsTy} {p : Pre} (h : intoRsBorrowed E lt (.tuple [.unknown]) = .ok b)
    (hp : preprocess E lt (.tuple [.unknown]) = .ok p) : b = .implIntoPy c!"PyTuple" ∧ p = .intoTuple := by
  cases hp
  have : intoRsBorrowed E lt (.tuple [.unknown]) = .ok (.implIntoPy c!"PyTuple") := by
    simp only [intoRsBorrowed, intoRs, Res.ok_bind]; rfl
  rw [this] at h
  cases h
  exact ⟨rfl, rfl⟩

theorem star_kw_type {E : Env} {lt : LocalTypes} {b : RsTy} {p : Pre} (h : intoRsBorrowed E lt (.optional (.dict .unknown .unknown)) = .ok b)
    (hp : preprocess E lt (.optional (.dict .unknown .unknown)) = .ok p) : b = .option (.bound c!"PyDict") ∧ p = .optDict := by
  have h1 : intoRs E lt (.dict .unknown .unknown) = .ok (.bound c!"PyDict", .implIntoPyDict) := by
    simp only [intoRs, Res.ok_bind]; rfl
  have h2 : intoRsBorrowed E lt (.optional (.dict .unknown .unknown)) = .ok (.option (.bound c!"PyDict")) := by
    simp only [intoRsBorrowed, intoRs, Res.ok_bind]; rfl
  rw [h2] at h
  cases h
  rcases dictNeedsConversion_agrees h1 with ⟨hd, -, -⟩ | ⟨hd, _, _, h, -⟩
  · simp only [preprocess] at hp
    rw [hd] at hp
    cases hp
    exact ⟨rfl, rfl⟩
  · cases h

theorem contract_ret {E : Env} {typ : FnType} {ident : Str} {taken : List Ident} {params : List (Str × RsTy)} {ret : RsTy} {s : Sig}
    (h : Function.contract E typ ident taken params ret = .ok s) : s.ret = .ty ret ∨ s.ret = .selfBound := by
  cases typ with
  | function => cases h; exact .inl rfl
  | closure => cases h; exact .inl rfl
  | method c k =>
    cases k with
    | callable =>
      obtain ⟨j, -, h⟩ := Res.bind_ok h
      obtain ⟨k, hk, h⟩ := Res.bind_ok h
      cases h; exact .inl rfl
    | constructor =>
      obtain ⟨j, -, h⟩ := Res.bind_ok h
      obtain ⟨k, hk, h⟩ := Res.bind_ok h
      cases h; exact .inr rfl
    | _ => cases h; exact .inl rfl

theorem owned_named {E : Env} {lt : LocalTypes} (hlt : RelativeTypes lt) {t : PyTy} {o : RsTy} (h : intoRsOwned E lt t = .ok o) :
    Owned o ∧ o.Named := by
  obtain ⟨b, hb⟩ := intoRsOwned_ok h
  exact ⟨(C18_types_legal E lt t o b hb).1, (types_named hlt hb).1⟩

theorem function_typed {E : Env} {cfg : Config} {imp : Str → Bool} {taken : List Ident} {lt : LocalTypes} (hlt : RelativeTypes lt)
    (hbr : Bracketless E lt) {f : Function} (hst : ∀ p ∈ f.params, StarParam p) {r : FnImpl} (h : f.generate E cfg imp taken lt = .ok r)
    {fn : Fn} (hfn : fn ∈ fnsOf r) : fn.Typed := by
  have hsane := function_sane h hfn
  obtain ⟨name, ident, idents, pres, types, ret, sig, obj, pos, kw, -, -, h1, h2, h3, h4, h5, h6, h7, h8, rfl, -⟩ := generate_fn h hfn
  obtain ⟨hp, -⟩ := contract_dispatch h5 h6
  obtain ⟨es, e1, e2, e3, e4⟩ := traverse_three h1 h3 h2
  obtain ⟨p1, p2, p3⟩ := positional_star h7
  obtain ⟨k1, k2⟩ := keyword_star h8
  have hret := contract_ret h5
  have hpos : ∀ p ∈ (if kw.isSome && pos.isNone then some Pos.unit else pos), p = .unit ∨ p ∈ pos := by
    intro p hp
    split at hp
    · cases hp; exact .inl rfl
    · exact .inr hp
  have hpos' : ∀ p ∈ pos, (if kw.isSome && pos.isNone then some Pos.unit else pos) = some p := by
    rintro p hp
    cases hp
    simp
  refine ⟨hsane, ⟨es, hp.trans e1, e2, ?_, ?_, ?_⟩, ?_, ?_, ?_, ?_, ?_⟩
  · intro e he
    obtain ⟨q, -, -, ht, hpre⟩ := e3 e he
    obtain ⟨o, ho⟩ := borrowed_pair ht
    exact types_fit hlt hbr ho hpre
  · intro x hx
    simp only [Body.posStar, Option.mem_def, Option.bind_eq_some_iff] at hx
    obtain ⟨p, hp, hx⟩ := hx
    rcases hpos p hp with rfl | hp
    · cases hx
    · obtain ⟨q, hq, hk, hx⟩ := p2 p hp x hx
      obtain ⟨e, he, hx', ht, hpre⟩ := e4 q hq
      rw [hx] at hx'
      cases hx'
      rw [(hst q hq).1 hk] at ht hpre
      obtain ⟨ht, hpre⟩ := star_pos_type ht hpre
      rw [← ht, ← hpre]
      exact he
  · intro x hx
    simp only [Body.kwStar, Option.mem_def, Option.bind_eq_some_iff] at hx
    obtain ⟨p, hp, hx⟩ := hx
    obtain ⟨q, hq, hk, hx⟩ := k1 p hp x hx
    obtain ⟨e, he, hx', ht, hpre⟩ := e4 q hq
    rw [hx] at hx'
    cases hx'
    rw [(hst q hq).2 hk] at ht hpre
    obtain ⟨ht, hpre⟩ := star_kw_type ht hpre
    rw [← ht, ← hpre]
    exact he
  · intro t ht
    rcases hret with hret | hret
    · rw [hret] at ht
      cases ht
      exact owned_named hlt h4
    · rw [hret] at ht; cases ht
  · constructor
    · intro hu
      rcases hret with hret | hret <;> rw [hret] at hu <;> cases hu
    · rintro ⟨o, n, x, hb⟩; cases hb
  · show Body.filled (.call _ _ _ _)
    cases hc : (if kw.isSome && pos.isNone then some Pos.unit else pos) with
    | none => trivial
    | some p =>
      rcases hpos p hc with rfl | hp
      · trivial
      · exact p1 p hp
  · intro p hpm
    rw [show _ = sig.params from rfl, hp, e1] at hpm
    obtain ⟨e, he, rfl⟩ := List.mem_map.1 hpm
    obtain ⟨q, hq, hx, ht, hpre⟩ := e3 e he
    cases hk : q.kind with
    | varPositional =>
      rw [(hst q hq).1 hk] at ht hpre
      obtain ⟨ht, -⟩ := star_pos_type ht hpre
      right
      show Supported e.2.1
      rw [ht]; trivial
    | varKeyword =>
      rw [(hst q hq).2 hk] at ht hpre
      obtain ⟨ht, -⟩ := star_kw_type ht hpre
      right
      show Supported e.2.1
      rw [ht]; trivial
    | keywordOnly =>
      obtain ⟨k, hkk, hs⟩ := k2 q hq hk _ hx
      left
      refine List.mem_append_right _ ?_
      cases hkk
      exact hs
    | positionalOnly =>
      obtain ⟨k, hkk, hs⟩ := p3 q hq (by rw [hk]; rfl) _ hx
      left
      refine List.mem_append_left _ ?_
      rw [hpos' k hkk]
      exact hs
    | positionalOrKeyword =>
      obtain ⟨k, hkk, hs⟩ := p3 q hq (by rw [hk]; rfl) _ hx
      left
      refine List.mem_append_left _ ?_
      rw [hpos' k hkk]
      exact hs
  · intro hn
    rw [show (Fn.sig _).params = sig.params from rfl, hp, List.map_fst_zip (by
      rw [Res.traverse_length h1, Res.traverse_length h3])] at hn
    show ((kw.map Kw.vars).getD []).Nodup
    cases hk : kw with
    | none => exact List.nodup_nil
    | some k => exact keyword_once h8 h1 hn k hk

theorem property_typed {E : Env} {cfg : Config} {imp : Str → Bool} {taken : List Ident} {lt : LocalTypes} (hlt : RelativeTypes lt)
    (hbr : Bracketless E lt) {p : Property} {l : List (Option Fn)} (h : p.generate E cfg imp taken lt = .ok l) {f : Fn}
    (hf : some f ∈ l) : f.Typed := by
  have hsane := property_sane h hf
  obtain ⟨g, hg, h⟩ := accessors_of h
  have hget : some f = g → f.Typed := by
    rintro rfl
    obtain ⟨_, _, ty, _, -, -, hty, -, rfl⟩ := getter_fn hg
    refine ⟨hsane, ⟨[], rfl, rfl, by simp, (fun x hx => by cases hx), (fun x hx => by cases hx)⟩, ?_, ?_, trivial, (fun _ h => by cases h), fun _ => List.nodup_nil⟩
    · intro t ht
      cases ht
      exact owned_named hlt hty
    · exact ⟨(fun h => by cases h), fun ⟨_, _, _, h⟩ => by cases h⟩
  rcases h with ⟨-, s, hs, rfl⟩ | ⟨-, rfl⟩
  · rcases List.mem_cons.mp hf with hf | hf
    · exact hget hf
    · rw [List.mem_singleton] at hf
      rw [← hf] at hs
      obtain ⟨_, _, pre, ty, _, -, -, hpre, hty, -, rfl⟩ := setter_fn hs
      refine ⟨hsane, ⟨[(c!"p_value", ty, pre)], rfl, rfl, ?_, (fun x hx => by cases hx), (fun x hx => by cases hx)⟩, ?_, ?_, trivial, ?_, fun _ => List.nodup_nil⟩
      · intro e he
        rw [List.mem_singleton] at he
        subst he
        obtain ⟨o, ho⟩ := borrowed_pair hty
        exact types_fit hlt hbr ho hpre
      · intro t ht; cases ht
      · exact ⟨fun _ => ⟨_, _, _, rfl⟩, fun _ => rfl⟩
      · intro q hq
        rw [List.mem_singleton] at hq
        subst hq
        exact .inl (List.mem_singleton.2 rfl)
  · exact hget (List.mem_singleton.mp hf)

theorem class_typed {E : Env} {cfg : Config} {imp : Str → Bool} {lt : LocalTypes} (hlt : RelativeTypes lt) (hbr : Bracketless E lt)
    {c : Class} (hst : ∀ f ∈ c.methods, ∀ p ∈ f.params, StarParam p) {k : ClassItem} (h : c.generate E cfg imp lt = .ok (some k)) {f : Fn}
    (hf : f ∈ k.inherent ∨ f ∈ k.traitImpls) : f.Typed := by
  obtain ⟨taken, -, ⟨m, hm, r, hr, hfr⟩ | ⟨p, hp, l, hl, hfl⟩⟩ := class_fns h hf
  · exact function_typed hlt hbr (hst m hm) hr hfr
  · exact property_typed hlt hbr hl hfl

end Bindgen

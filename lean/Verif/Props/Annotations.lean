import Verif.Lemmas.Annot
/-! # C14–C17, C22: reading type annotations -/
namespace Bindgen
open Spec

/-! ## C14 -/

/-- **C14** Reading any annotation string gives a type or panics: there is no `Err` and the recursion ends (the
fuel of the model never runs out). -/
theorem C14_total (E : Env) (s : Str) :
    (∃ t, fromStr E s = .ok t) ∨ (∃ p, fromStr E s = .error (.panic p) ∧ p ≠ .stackOverflow) :=
  fromStr_calm E s

/-- More fuel changes nothing, so `fromStr` is the recursive function of the source code. -/
theorem C14_fuel (E : Env) (s : Str) (n : Nat) (h : s.length + 2 ≤ n) : fromStrGo E n s = fromStr E s :=
  fromStrGo_fuel E _ _ s (by have := annSize_lt s; omega) (annSize_lt s)

theorem applyArgs_calm (w : PyTy) (ts : List PyTy) : Calm (applyArgs w ts) := by
  unfold applyArgs
  split
  · split
    · split
      · exact Calm.ok _
      · exact Calm.panic (by decide)
    · exact Calm.ok _
  all_goals first
    | exact (index_calm _ _).bind (fun _ _ => Calm.ok _)
    | exact (index_calm _ _).bind (fun _ _ => (index_calm _ _).bind (fun _ _ => Calm.ok _))
    | exact Calm.ok _
    | exact mkFunction_calm _
    | exact index_calm _ _

mutual
theorem fromAnn_calm (E : Env) : ∀ a : PyAnn, Calm (fromAnn E a)
  | .none => by rw [fromAnn]; exact Calm.ok _
  | .cls supers repr => by
    rw [fromAnn, fromClass]
    split
    · exact Calm.ok _
    · exact fromStr_calm E repr
  | .typingPlain repr => by rw [fromAnn]; exact fromStr_calm E repr
  | .typingOrigin o => by rw [fromAnn]; exact fromAnn_calm E o
  | .typingArgs o args => by
    rw [fromAnn]
    exact (fromAnn_calm E o).bind (fun w _ => (fromAnns_calm E args).bind (fun ts _ => applyArgs_calm w ts))
  | .str s => by rw [fromAnn]; exact fromStr_calm E s
  | .other repr => by rw [fromAnn]; exact fromStr_calm E repr
theorem fromAnns_calm (E : Env) : ∀ l : List PyAnn, Calm (fromAnns E l)
  | [] => by rw [fromAnns]; exact Calm.ok _
  | a :: l => by
    rw [fromAnns]
    exact (fromAnn_calm E a).bind (fun _ _ => (fromAnns_calm E l).bind (fun _ _ => Calm.ok _))
end

/-- The same for annotation objects (classes, `typing` objects, strings). -/
theorem C14_total_objects (E : Env) (a : PyAnn) :
    (∃ t, fromAnn E a = .ok t) ∨ (∃ p, fromAnn E a = .error (.panic p) ∧ p ≠ .stackOverflow) :=
  fromAnn_calm E a

/-- Garbage and deep nesting are read. -/
example : fromStr (Env.ascii false false) c!"]]][[|,, |" = .ok (.union [.other c!"]]][[", .other c!",,", .none]) := by
  decide
example : fromStr (Env.ascii true false) c!"list[list[list[set[int]]]]" = .ok (.list (.list (.list (.set .long)))) := by
  decide

/-! ## C17 -/

/-- **C17** The comma repair keeps the text: its result is the input cut into non-empty runs, each run joined by
the separator. Hence the joined text is the same and there are at most as many pieces. -/
theorem C17_repair_keeps_text (E : Env) (sep : Char) (l r : List Str) (h : repair E sep l = .ok r) :
    (∃ runs : List (List Str), runs.flatten = l ∧ (∀ g ∈ runs, g ≠ []) ∧ r = runs.map (Str.join [sep])) ∧
      Str.join [sep] r = Str.join [sep] l ∧ 0 < r.length ∧ r.length ≤ l.length := by
  obtain ⟨gs, h1, h2, h3⟩ := repair_groups h
  refine ⟨⟨gs, h1, h2, h3⟩, ?_, ?_, ?_⟩
  · rw [h3, join_groups _ h2, h1]
  · cases gs with
    | nil =>
      simp only [List.flatten_nil] at h1
      rw [← h1] at h
      cases h
    | cons g gs => rw [h3]; simp
  · rw [h3, List.length_map, ← h1]
    exact length_le_flatten h2

example : repair (Env.ascii true false) ',' [c!"dict[str", c!"Any]", c!"int"] = .ok [c!"dict[str,Any]", c!"int"] := by
  decide
/-- The only input on which the repair itself needs more than text: an empty vector. The callers never pass one. -/
theorem C17_empty_panics (E : Env) (sep : Char) : repair E sep [] = .error (.panic .overflow) := rfl

/-! ## C16 -/

theorem builtins_lookup (s : Str) : (primTable.lookup s).or (nameTable.lookup s) = builtins.lookup s := by
  have : builtins = primTable ++ nameTable := rfl
  rw [this, List.lookup_append]

theorem opaque_eq : forbiddenTypeNames = opaqueNames := rfl

theorem prim_noBracket : ∀ e ∈ primTable, '[' ∉ e.1 := by decide
theorem names_noBracket : ∀ e ∈ nameTable, '[' ∉ e.1 := by decide

theorem lookup_none_of {α : Type} {l : List (Str × α)} {s : Str} (h : ∀ e ∈ l, e.1 ≠ s) : l.lookup s = none := by
  induction l with
  | nil => rfl
  | cons e l ih =>
    obtain ⟨k, v⟩ := e
    rw [List.lookup_cons]
    have : (s == k) = false := by
      rw [beq_eq_false_iff_ne]; exact fun e => h (k, v) (by simp) e.symm
    rw [this]
    exact ih (fun e he => h e (by simp [he]))

/-- Texts without a bar and with an opening bracket skip the literal arms. -/
theorem fromStr_bracket (E : Env) {s : Str} (hb : '|' ∉ s) (ho : '[' ∈ s) {w : Wrap} {i : Str}
    (hw : matchWrap s wrapTable = some (w, .ok i)) : fromStr E s = wrapArm E (fromStr E) w i := by
  rw [fromStr_unfold]
  unfold fromStrStep
  rw [lookup_none_of (fun e he h => prim_noBracket e he (by rw [h]; exact ho)),
    lookup_none_of (fun e he h => names_noBracket e he (by rw [h]; exact ho))]
  have hc : s.count '|' = 0 := List.count_eq_zero.mpr hb
  simp only [hc, hw, List.contains_eq_mem, hb]
  rfl

theorem wrap_get {pre suf i s : Str} {w : Wrap} (hs : s = pre ++ i ++ suf) (T : List (Str × Str × Wrap))
    (hT : (pre, suf, w) ∈ T) (huniq : ∀ e ∈ T, e.1 <+: s → e = (pre, suf, w)) :
    matchWrap s T = some (w, .ok i) := by
  induction T with
  | nil => simp at hT
  | cons e T ih =>
    obtain ⟨p', s', w'⟩ := e
    unfold matchWrap
    by_cases hp : p' <+: s
    · have he := huniq (p', s', w') (by simp) hp
      simp only [Prod.mk.injEq] at he
      obtain ⟨rfl, rfl, rfl⟩ := he
      have h1 : Str.startsWith s p' = true := Str.startsWith_iff.mpr hp
      have h2 : Str.endsWith s s' = true := Str.endsWith_iff.mpr (by rw [hs]; exact List.suffix_append _ _)
      rw [h1, h2, stripBoth_ok.mpr hs]
      rfl
    · have h1 : Str.startsWith s p' = false := by
        rw [Bool.eq_false_iff, ne_eq, Str.startsWith_iff]; exact hp
      rw [h1]
      simp only [Bool.false_and, Bool.false_eq_true, if_false]
      rcases List.mem_cons.mp hT with h | h
      · simp only [Prod.mk.injEq] at h
        obtain ⟨rfl, rfl, rfl⟩ := h
        exact absurd (by rw [hs, List.append_assoc]; exact List.prefix_append _ _) hp
      · exact ih h (fun e he hpre => huniq e (by simp [he]) hpre)

/-- No prefix of a bracketed arm is a prefix of another. -/
theorem wrapTable_unique : ∀ e ∈ wrapTable, ∀ f ∈ wrapTable, (e.1 <+: f.1 ∨ f.1 <+: e.1) → e = f := by decide

theorem wrap_get' {pre suf i s : Str} {w : Wrap} (hs : s = pre ++ i ++ suf) (hT : (pre, suf, w) ∈ wrapTable) :
    matchWrap s wrapTable = some (w, .ok i) := by
  apply wrap_get hs wrapTable hT
  intro e he hpre
  apply wrapTable_unique e he _ hT
  have h2 : pre <+: s := by rw [hs, List.append_assoc]; exact List.prefix_append _ _
  rcases Nat.le_total e.1.length pre.length with h | h
  · exact Or.inl (List.prefix_of_prefix_length_le hpre h2 h)
  · exact Or.inr (List.prefix_of_prefix_length_le h2 hpre h)

theorem bar_of_name {s : Str} (h : IsName s) : '|' ∉ s := h.fixed.noBar

theorem head_of_prefix {a : Char} {p s : Str} (h : (a :: p) <+: s) : s.head? = some a := by
  obtain ⟨t, rfl⟩ := h; rfl

theorem matchWrap_none {s : Str} {T : List (Str × Str × Wrap)} (h : ∀ e ∈ T, ¬ e.1 <+: s) : matchWrap s T = none := by
  induction T with
  | nil => rfl
  | cons e T ih =>
    obtain ⟨p', s', w'⟩ := e
    unfold matchWrap
    have h1 : Str.startsWith s p' = false := by
      rw [Bool.eq_false_iff, ne_eq, Str.startsWith_iff]; exact h (p', s', w') (by simp)
    rw [h1]
    simp only [Bool.false_and, Bool.false_eq_true, if_false]
    exact ih (fun e he => h e (by simp [he]))

theorem matchPrefix_none {s : Str} {T : List Str} (h : ∀ p ∈ T, ¬ p <+: s) : matchPrefix s T = none := by
  induction T with
  | nil => rfl
  | cons p T ih =>
    unfold matchPrefix
    rw [Str.stripPrefix_eq_none.mpr (h p (by simp))]
    exact ih (fun q hq => h q (by simp [hq]))

/-- Every bracketed arm starts with a text that contains `[` or begins with `<`. -/
theorem wrapTable_marks : ∀ e ∈ wrapTable, '[' ∈ e.1 ∨ e.1.head? = some '<' := by decide

theorem fromStr_name (E : Env) {s : Str} (h : IsName s) : fromStr E s = .ok (nameType s) := by
  rw [fromStr_unfold]
  unfold fromStrStep nameType
  have hl := builtins_lookup s
  cases h1 : primTable.lookup s with
  | some t => rw [h1] at hl; simp only [Option.some_or] at hl; rw [← hl]
  | none =>
    rw [h1, Option.none_or] at hl
    have hc : s.count '|' = 0 := List.count_eq_zero.mpr (bar_of_name h)
    rw [← hl]
    simp only [hc, List.contains_eq_mem, bar_of_name h]
    cases h2 : nameTable.lookup s with
    | some t => rfl
    | none =>
      have hw : matchWrap s wrapTable = none := by
        apply matchWrap_none
        intro e he hpre
        rcases wrapTable_marks e he with hm | hm
        · exact (h.2.1 _ (hpre.subset hm)).1 rfl
        · obtain ⟨t, ht⟩ := hpre
          cases he1 : e.1 with
          | nil => rw [he1] at hm; simp at hm
          | cons a q =>
            rw [he1] at hm ht
            simp only [List.head?_cons, Option.some.injEq] at hm
            exact h.2.2.1 (by rw [← ht, hm]; rfl)
      have hp : matchPrefix s prefixTable = none := by
        apply matchPrefix_none
        intro p hp
        simp only [prefixTable, List.mem_cons, List.not_mem_nil, or_false] at hp
        rcases hp with rfl | rfl | rfl
        · exact h.2.2.2 .typing
        · exact h.2.2.2 .collectionsAbc
        · exact h.2.2.2 .collections
      simp only [hw, hp, opaque_eq, Nat.zero_ne_one, decide_false, Bool.false_and, Bool.false_eq_true, if_false]
      by_cases ho : s ∈ opaqueNames
      · simp only [ho, decide_true, if_true]
      · simp only [ho, decide_false, if_false, Bool.false_eq_true]

theorem fromStr_pkg (E : Env) (p : Pkg) {x : Str} (hb : '|' ∉ x) (hp : p = .collections → ¬ c!"abc." <+: x) :
    fromStr E (p.text ++ x) = fromStr E x := by
  rw [fromStr_unfold]
  unfold fromStrStep
  have hbar : '|' ∉ p.text ++ x := by
    rw [List.mem_append, not_or]; exact ⟨p.fixed.1.noBar, hb⟩
  have hc : (p.text ++ x).count '|' = 0 := List.count_eq_zero.mpr hbar
  have hpre : ∀ l : List (Str × PyTy), (∀ e ∈ l, ¬ p.text <+: e.1) → l.lookup (p.text ++ x) = none := by
    intro l hl
    apply lookup_none_of
    intro e he h
    exact hl e he (by rw [h]; exact List.prefix_append _ _)
  rw [hpre primTable (by cases p <;> decide), hpre nameTable (by cases p <;> decide)]
  have hw : matchWrap (p.text ++ x) wrapTable = none := by
    apply matchWrap_none
    intro e he h
    have hcmp : ∀ e ∈ wrapTable, ¬ (e.1 <+: p.text) ∧ ¬ (p.text <+: e.1) := by cases p <;> decide
    have h2 : p.text <+: p.text ++ x := List.prefix_append _ _
    rcases Nat.le_total e.1.length p.text.length with hl | hl
    · exact (hcmp e he).1 (List.prefix_of_prefix_length_le h h2 hl)
    · exact (hcmp e he).2 (List.prefix_of_prefix_length_le h2 h hl)
  have hm : matchPrefix (p.text ++ x) prefixTable = some x := by
    cases p with
    | typing => rfl
    | collectionsAbc => rfl
    | collections =>
      have h1 : Str.stripPrefix c!"collections.abc." (Pkg.collections.text ++ x) = none := by
        rw [Str.stripPrefix_eq_none]
        rintro ⟨t, ht⟩
        apply hp rfl
        refine ⟨t, ?_⟩
        have : c!"collections.abc." = Pkg.collections.text ++ c!"abc." := rfl
        rw [this, List.append_assoc] at ht
        exact List.append_cancel_left ht
      have h0 : Str.stripPrefix c!"typing." (Pkg.collections.text ++ x) = none := rfl
      have h2 : Str.stripPrefix c!"collections." (Pkg.collections.text ++ x) = some x := rfl
      simp only [prefixTable, matchPrefix, h0, h1, h2]
  simp only [hc, hw, hm, List.contains_eq_mem, hbar]
  rfl

/-- `abc.` cannot appear at the front by changing the separator. -/
theorem abc_prefix {sep : Str} (hs : IsSep sep) {a : Ann} (ha : a.Valid) (h : ¬ c!"abc." <+: a.show c!",") :
    ¬ c!"abc." <+: a.show sep := by
  rintro ⟨t, ht⟩
  apply h
  rw [← show_filter hs a ha, ← ht]
  exact ⟨t.filter (fun c => !Str.isWs c), by rw [List.filter_append]; rfl⟩

/-- Reading the argument list of a generic class. -/
theorem args_read (E : Env) {sep : Str} (hs : IsSep sep) (a : Ann) (as : List Ann) (ha : a.Valid)
    (has : Ann.ValidList as) (hsep : separable (a.commas :: as.map Ann.commas) = true)
    (ih : ∀ b ∈ a :: as, fromStr E (b.show c!",") = .ok b.denote) :
    ∃ parts, splitArgs E (a.show sep ++ Ann.showTail sep as) = .ok parts ∧
      Res.traverse (fromStr E) parts = .ok ((a :: as).map Ann.denote) := by
  have hval : ∀ b ∈ a :: as, b.Valid := by
    intro b hb
    rcases List.mem_cons.mp hb with rfl | hb
    · exact ha
    · exact validList_iff.mp has b hb
  have h1 := splitArgs_show E hs a as ha has
  have h2 := (repairBlocks_args_iff hval).mpr hsep
  rw [h2] at h1
  refine ⟨_, h1, ?_⟩
  have : ∀ l : List Ann, (∀ b ∈ l, fromStr E (b.show c!",") = .ok b.denote) →
      Res.traverse (fromStr E) (l.map (Ann.show c!",")) = .ok (l.map Ann.denote) := by
    intro l
    induction l with
    | nil => intro _; rfl
    | cons b l ih =>
      intro h
      rw [List.map_cons, Res.traverse, h b (by simp), ih (fun c hc => h c (by simp [hc]))]
      rfl
  exact this _ ih

mutual
theorem fromStr_show (E : Env) : ∀ (a : Ann), a.Valid → a.clear = true → ∀ sep, IsSep sep →
    fromStr E (a.show sep) = .ok a.denote
  | .name s, h, _, sep, _ => by
    rw [Ann.Valid] at h; rw [Ann.show, Ann.denote]; exact fromStr_name E h
  | .unary g a, h, hc, sep, hs => by
    have hv := h
    rw [Ann.Valid] at h
    rw [Ann.clear] at hc
    have ih := fromStr_show E a h hc sep hs
    have hbar := show_noBar hs _ hv
    rw [Ann.show] at hbar ⊢
    have hopen : '[' ∈ g.text ++ c!"[" ++ a.show sep ++ c!"]" := by simp
    cases g with
    | list =>
      rw [fromStr_bracket E hbar hopen (wrap_get' (pre := c!"list[") (suf := c!"]") (w := .list) rfl (by decide))]
      simp only [wrapArm, ih, Ann.denote]; rfl
    | sequence =>
      rw [fromStr_bracket E hbar hopen (wrap_get' (pre := c!"Sequence[") (suf := c!"]") (w := .list) rfl (by decide))]
      simp only [wrapArm, ih, Ann.denote]; rfl
    | iterable =>
      rw [fromStr_bracket E hbar hopen (wrap_get' (pre := c!"Iterable[") (suf := c!"]") (w := .list) rfl (by decide))]
      simp only [wrapArm, ih, Ann.denote]; rfl
    | iterator =>
      rw [fromStr_bracket E hbar hopen (wrap_get' (pre := c!"Iterator[") (suf := c!"]") (w := .list) rfl (by decide))]
      simp only [wrapArm, ih, Ann.denote]; rfl
    | set =>
      rw [fromStr_bracket E hbar hopen (wrap_get' (pre := c!"set[") (suf := c!"]") (w := .set) rfl (by decide))]
      simp only [wrapArm, ih, Ann.denote]; rfl
    | frozenset =>
      rw [fromStr_bracket E hbar hopen (wrap_get' (pre := c!"frozenset[") (suf := c!"]") (w := .frozenSet) rfl
        (by decide))]
      simp only [wrapArm, ih, Ann.denote]; rfl
    | type =>
      rw [fromStr_bracket E hbar hopen (wrap_get' (pre := c!"type[") (suf := c!"]") (w := .inner) rfl (by decide))]
      simp only [wrapArm, ih, Ann.denote]
  | .dict k v, h, hc, sep, hs => by
    have hv := h
    rw [Ann.Valid] at h
    rw [Ann.clear, Bool.and_eq_true, Bool.and_eq_true] at hc
    have ihk := fromStr_show E k h.1 hc.2.1 c!"," (Or.inr rfl)
    have ihv := fromStr_show E v h.2 hc.2.2 c!"," (Or.inr rfl)
    have hbar := show_noBar hs _ hv
    rw [Ann.show] at hbar ⊢
    have hopen : '[' ∈ c!"dict[" ++ (k.show sep ++ sep ++ v.show sep) ++ c!"]" := by simp
    rw [fromStr_bracket E hbar hopen (wrap_get' (pre := c!"dict[") (suf := c!"]") (w := .dict) rfl (by decide))]
    obtain ⟨parts, hp, ht⟩ := args_read E hs k [v] h.1 (by simp [Ann.ValidList, h.2]) hc.1
      (by
        intro b hb
        simp only [List.mem_cons, List.not_mem_nil, or_false] at hb
        rcases hb with rfl | rfl
        · exact ihk
        · exact ihv)
    have he : k.show sep ++ sep ++ v.show sep = k.show sep ++ Ann.showTail sep [v] := by
      simp [Ann.showTail]
    rw [he]
    simp only [wrapArm, hp, ht, Res.ok_bind, Ann.denote]
    rfl
  | .multi g a as, h, hc, sep, hs => by
    have hv := h
    rw [Ann.Valid] at h
    rw [Ann.clear, Bool.and_eq_true, Bool.and_eq_true] at hc
    have iha := fromStr_show E a h.1 hc.2.1 c!"," (Or.inr rfl)
    have ihas := fromStr_showList E as h.2 hc.2.2
    have hbar := show_noBar hs _ hv
    rw [Ann.show] at hbar ⊢
    have hopen : '[' ∈ g.text ++ c!"[" ++ (a.show sep ++ Ann.showTail sep as) ++ c!"]" := by simp
    obtain ⟨parts, hp, ht⟩ := args_read E hs a as h.1 h.2 hc.1
      (by
        intro b hb
        rcases List.mem_cons.mp hb with rfl | hb
        · exact iha
        · exact ihas b hb)
    cases g with
    | tuple =>
      rw [fromStr_bracket E hbar hopen (wrap_get' (pre := c!"tuple[") (suf := c!"]") (w := .tuple) rfl (by decide))]
      simp only [wrapArm, hp, ht, Res.ok_bind, Ann.denote, denoteList_eq]
      rfl
    | callable =>
      rw [fromStr_bracket E hbar hopen (wrap_get' (pre := c!"Callable[") (suf := c!"]") (w := .callable) rfl
        (by decide))]
      simp only [wrapArm, hp, ht, Res.ok_bind, Ann.denote, denoteList_eq, mkFunction, List.map_cons]
      rw [List.getLast?_eq_some_getLast (by simp)]
      cases as with
      | nil => simp
      | cons b as => simp
  | .qualified p a, h, hc, sep, hs => by
    rw [Ann.Valid] at h
    rw [Ann.clear] at hc
    rw [Ann.show, Ann.denote, fromStr_pkg E p (show_noBar hs a h.1) (fun e => abc_prefix hs h.1 (h.2 e))]
    exact fromStr_show E a h.1 hc sep hs
theorem fromStr_showList (E : Env) : ∀ (as : List Ann), Ann.ValidList as → Ann.clearList as = true →
    ∀ b ∈ as, fromStr E (b.show c!",") = .ok b.denote
  | [], _, _, b, hb => by simp at hb
  | a :: as, h, hc, b, hb => by
    rw [Ann.ValidList] at h
    rw [Ann.clearList, Bool.and_eq_true] at hc
    rcases List.mem_cons.mp hb with hb | hb
    · rw [hb]; exact fromStr_show E a h.1 hc.1 c!"," (Or.inr rfl)
    · exact fromStr_showList E as h.2 hc.2 b hb
end

/-- **C16** (annotations without `|`) Reading the text that Python prints for an annotation gives the type with
the same nesting, provided every argument list in it is `separable`. What is missing from the full claim: argument
lists that are not separable (see `C16_exact`, `C16_counterexample`) and alternatives written with `|` inside
brackets (see `C16_bar_inside_counterexample`). -/
theorem C16_structure_partial (E : Env) (a : Ann) (hv : a.Valid) (hc : a.clear = true) :
    fromStr E (a.show c!", ") = .ok a.denote :=
  fromStr_show E a hv hc _ (Or.inl rfl)

/-- A nested example that satisfies the hypotheses: `dict[str, tuple[collections.abc.Sequence[int], foo.Bar]]`. -/
def annExample : Ann :=
  .dict (.name c!"str") (.multi .tuple (.qualified .collectionsAbc (.unary .sequence (.name c!"int"))) [.name c!"foo.Bar"])

theorem isName_of_check {s : Str}
    (h : (s ≠ [] ∧ (∀ c ∈ s, c ≠ '[' ∧ c ≠ ']' ∧ c ≠ ',' ∧ c ≠ '|' ∧ Str.isWs c = false) ∧ s.head? ≠ some '<' ∧
      (¬ c!"typing." <+: s ∧ ¬ c!"collections.abc." <+: s ∧ ¬ c!"collections." <+: s))) : IsName s := by
  refine ⟨h.1, h.2.1, h.2.2.1, ?_⟩
  intro p
  cases p
  · exact h.2.2.2.1
  · exact h.2.2.2.2.1
  · exact h.2.2.2.2.2

example : annExample.Valid ∧ annExample.clear = true ∧
    annExample.show c!", " = c!"dict[str, tuple[collections.abc.Sequence[int], foo.Bar]]" ∧
    annExample.denote = .dict .string (.tuple [.list .long, .other c!"foo.Bar"]) := by
  refine ⟨?_, by decide, by decide, by decide⟩
  simp only [annExample, Ann.Valid, Ann.ValidList, and_true]
  exact ⟨isName_of_check (by decide), ⟨isName_of_check (by decide), by decide⟩, isName_of_check (by decide)⟩

theorem repairBlocks_length {gs : List (List Str)} (hne : ∀ g ∈ gs, g ≠ [])
    (h : (repairBlocks gs).length = gs.length) : repairBlocks gs = gs.map (Str.join [',']) := by
  induction gs with
  | nil => rfl
  | cons g gs ih =>
    rw [repairBlocks_cons] at h ⊢
    split
    · rename_i hc
      rw [if_pos hc] at h
      simp only [List.length_cons, Nat.add_right_cancel_iff] at h
      rw [ih (fun x hx => hne x (by simp [hx])) h]
      rfl
    · rename_i hc
      rw [if_neg hc] at h
      simp only [List.length_cons, Nat.add_right_cancel_iff] at h
      rw [flatten_singletons (singletons_of_length (fun x hx => hne x (by simp [hx])) h)]
      rfl

/-- **C16** (the condition is exact) If a tuple annotation is read as the tuple of its arguments, its argument
list is `separable`. So every tuple annotation whose argument list is not separable is misread. -/
theorem C16_exact (E : Env) (a : Ann) (as : List Ann) (hv : (Ann.multi .tuple a as).Valid)
    (h : fromStr E ((Ann.multi .tuple a as).show c!", ") = .ok (Ann.multi .tuple a as).denote) :
    separable ((a :: as).map Ann.commas) = true := by
  have hs : IsSep c!", " := Or.inl rfl
  have hbar := show_noBar hs _ hv
  have hvv := hv
  rw [Ann.Valid] at hv
  rw [Ann.show] at h hbar
  have hopen : '[' ∈ Multi.tuple.text ++ c!"[" ++ (a.show c!", " ++ Ann.showTail c!", " as) ++ c!"]" := by simp
  rw [fromStr_bracket E hbar hopen (wrap_get' (pre := c!"tuple[") (suf := c!"]") (w := .tuple) rfl (by decide))] at h
  simp only [wrapArm, splitArgs_show E hs a as hv.1 hv.2, Res.ok_bind] at h
  obtain ⟨ts, ht, h⟩ := Res.bind_ok h
  rw [Ann.denote, denoteList_eq] at h
  have hts : ts = a.denote :: as.map Ann.denote := by
    have := (Except.ok.inj h)
    exact PyTy.tuple.inj this
  have hl := Res.traverse_length ht
  have hval : ∀ b ∈ a :: as, b.Valid := by
    intro b hb
    rcases List.mem_cons.mp hb with rfl | hb
    · exact hv.1
    · exact validList_iff.mp hv.2 b hb
  rw [← repairBlocks_args_iff hval]
  have := repairBlocks_length (gs := (a :: as).map annPieces)
    (by
      intro g hg
      obtain ⟨b, hb, rfl⟩ := List.mem_map.mp hg
      exact (annPieces_block (hval b hb)).ne)
    (by rw [← hl, hts]; simp)
  rw [this, List.map_map]
  apply List.map_congr_left
  intro b _
  exact annPieces_join b

/-- Two counterexamples to the full claim, as Python prints them. The repair stops after the first merged element
because it compares a stale index with the new length: the second element falls apart. -/
theorem C16_counterexample :
    fromStr (Env.ascii false false) c!"tuple[dict[int, tuple[int, str]], dict[str, int]]" =
        .ok (.tuple [.dict .long (.tuple [.long, .string]), .other c!"dict[str", .other c!"int]"]) ∧
      fromStr (Env.ascii false false) c!"dict[tuple[int, int, int], tuple[int, int]]" =
        .ok (.dict (.tuple [.long, .long, .long]) (.other c!"tuple[int")) := by decide

/-- Alternatives inside brackets lose the structure. -/
theorem C16_bar_inside_counterexample :
    fromStr (Env.ascii false false) c!"list[int | str]" = .ok (.union [.list (.other c!"int,str")]) ∧
      fromStr (Env.ascii false false) c!"list[int | None]" = .ok (.optional (.other c!"list[int")) := by decide

/-! ### Alternatives at top level -/

/-- The text of alternatives. -/
def Spec.altText : List Ann → Str
  | [] => []
  | [a] => a.show c!", "
  | a :: b :: l => a.show c!", " ++ c!" | " ++ Spec.altText (b :: l)

theorem trim_spaces {s : Str} (h1 : ∀ c, s.head? = some c → Str.isWs c = false)
    (h2 : ∀ c, s.getLast? = some c → Str.isWs c = false) (hne : s ≠ []) :
    Str.trim s = s ∧ Str.trim (' ' :: s) = s ∧ Str.trim (s ++ [' ']) = s ∧ Str.trim (' ' :: (s ++ [' '])) = s := by
  have base : Str.trim s = s := by
    unfold Str.trim Str.trimStart Str.trimEnd
    cases s with
    | nil => rfl
    | cons a s =>
      rw [List.dropWhile_cons_of_neg (by simp [h1 a rfl])]
      cases hr : (a :: s).reverse with
      | nil => simp at hr
      | cons b r =>
        have hb : (a :: s).getLast? = some b := by
          rw [← List.head?_reverse, hr]; rfl
        rw [List.dropWhile_cons_of_neg (by simp [h2 b hb]), ← hr, List.reverse_reverse]
  have hfront : ∀ t : Str, Str.trim (' ' :: t) = Str.trim t := by
    intro t
    unfold Str.trim Str.trimStart
    rw [List.dropWhile_cons_of_pos (by decide)]
  refine ⟨base, by rw [hfront, base], ?_, ?_⟩
  · rw [trim_append_ws _ (by decide), base]
  · rw [hfront, trim_append_ws _ (by decide), base]

mutual
theorem show_ends {sep : Str} (hs : IsSep sep) : ∀ a : Ann, a.Valid →
    a.show sep ≠ [] ∧ (∀ c, (a.show sep).head? = some c → Str.isWs c = false) ∧
      (∀ c, (a.show sep).getLast? = some c → Str.isWs c = false)
  | .name s, h => by
    rw [Ann.Valid] at h; rw [Ann.show]
    refine ⟨h.1, ?_, ?_⟩
    · intro c hc; exact (h.2.1 c (List.mem_of_head? hc)).2.2.2.2
    · intro c hc; exact (h.2.1 c (List.mem_of_getLast? hc)).2.2.2.2
  | .unary g a, h => by
    rw [Ann.show]
    refine ⟨by simp, ?_, ?_⟩
    · intro c hc; cases g <;> (simp only [Unary.text, List.cons_append, List.head?_cons, Option.some.injEq] at hc; subst hc; decide)
    · intro c hc
      rw [List.getLast?_append] at hc
      simp only [List.getLast?_singleton, Option.some_or, Option.some.injEq] at hc
      subst hc; decide
  | .dict k v, h => by
    rw [Ann.show]
    refine ⟨by simp, ?_, ?_⟩
    · intro c hc; simp only [List.cons_append, List.head?_cons, Option.some.injEq] at hc; subst hc; decide
    · intro c hc
      rw [List.getLast?_append] at hc
      simp only [List.getLast?_singleton, Option.some_or, Option.some.injEq] at hc
      subst hc; decide
  | .multi g a as, h => by
    rw [Ann.show]
    refine ⟨by simp, ?_, ?_⟩
    · intro c hc; cases g <;> (simp only [Multi.text, List.cons_append, List.head?_cons, Option.some.injEq] at hc; subst hc; decide)
    · intro c hc
      rw [List.getLast?_append] at hc
      simp only [List.getLast?_singleton, Option.some_or, Option.some.injEq] at hc
      subst hc; decide
  | .qualified p a, h => by
    rw [Ann.Valid] at h; rw [Ann.show]
    have ih := show_ends hs a h.1
    refine ⟨by simp [ih.1], ?_, ?_⟩
    · intro c hc; cases p <;> (simp only [Pkg.text, List.cons_append, List.head?_cons, Option.some.injEq] at hc; subst hc; decide)
    · intro c hc
      rw [List.getLast?_append, List.getLast?_eq_some_getLast ih.1] at hc
      simp only [Option.some_or] at hc
      exact ih.2.2 c (by rw [List.getLast?_eq_some_getLast ih.1]; exact hc)
end

/-- The pieces between bars. -/
theorem altText_pieces : ∀ (pre : Bool) (a : Ann) (l : List Ann), (∀ b ∈ a :: l, b.Valid) →
    (Str.splitChar '|' ((if pre then [' '] else []) ++ Spec.altText (a :: l))).map Str.trim =
      (a :: l).map (Ann.show c!", ") := by
  intro pre a l
  induction l generalizing a pre with
  | nil =>
    intro h
    have ha := show_ends (Or.inl rfl) a (h a (by simp))
    have hb := show_noBar (Or.inl rfl) a (h a (by simp)) (sep := c!", ")
    have ht := trim_spaces ha.2.1 ha.2.2 ha.1
    cases pre with
    | true =>
      rw [Spec.altText, Str.splitChar_of_not_mem (by simp [hb])]
      simp [ht.2.1]
    | false =>
      rw [Spec.altText, Str.splitChar_of_not_mem (by simpa using hb)]
      simp [ht.1]
  | cons b l ih =>
    intro h
    have ha := show_ends (Or.inl rfl) a (h a (by simp))
    have hb := show_noBar (Or.inl rfl) a (h a (by simp)) (sep := c!", ")
    have ht := trim_spaces ha.2.1 ha.2.2 ha.1
    have ih' := ih true b (fun x hx => h x (by simp [hx]))
    rw [Spec.altText]
    have e : (if pre then [' '] else []) ++ (a.show c!", " ++ c!" | " ++ Spec.altText (b :: l)) =
        ((if pre then [' '] else []) ++ a.show c!", " ++ [' ']) ++ '|' :: ([' '] ++ Spec.altText (b :: l)) := by
      simp
    rw [e, splitChar_append_sep, List.map_append, List.map_cons (f := Ann.show _)]
    simp only [if_true] at ih'
    rw [ih']
    have hnb : '|' ∉ (if pre then [' '] else []) ++ a.show c!", " ++ [' '] := by
      cases pre <;> simp [hb]
    rw [Str.splitChar_of_not_mem hnb]
    cases pre with
    | true => simp [ht.2.2.2]
    | false => simp [ht.2.2.1]

theorem altText_count : ∀ (a : Ann) (l : List Ann), (∀ b ∈ a :: l, b.Valid) →
    (Spec.altText (a :: l)).count '|' = l.length := by
  intro a l
  induction l generalizing a with
  | nil =>
    intro h
    rw [Spec.altText]
    exact List.count_eq_zero.mpr (show_noBar (Or.inl rfl) a (h a (by simp)))
  | cons b l ih =>
    intro h
    rw [Spec.altText, List.count_append, List.count_append, ih b (fun x hx => h x (by simp [hx])),
      List.count_eq_zero.mpr (show_noBar (Or.inl rfl) a (h a (by simp)))]
    have : (c!" | ").count '|' = 1 := rfl
    rw [this, List.length_cons]; omega

theorem countNone_append_space (x y : Str) : Str.countNone (x ++ ' ' :: y) = Str.countNone x + Str.countNone y := by
  fun_induction Str.countNone x with
  | case1 r ih =>
    have : Str.countNone ('N' :: 'o' :: 'n' :: 'e' :: r ++ ' ' :: y) = Str.countNone (r ++ ' ' :: y) + 1 := by
      simp [Str.countNone]
    rw [this, ih]; omega
  | case2 c r h ih =>
    rw [← ih, List.cons_append, Str.countNone]
    intro r' hcc he
    subst hcc
    match r, he with
    | [], he => simp at he
    | [a], he => simp at he
    | [a, b], he => simp at he
    | a :: b :: d :: r'', he =>
      simp only [List.cons_append, List.cons.injEq] at he
      obtain ⟨rfl, rfl, rfl, -⟩ := he
      exact h r'' rfl rfl
  | case3 =>
    rw [List.nil_append, Str.countNone]
    · omega
    · intro r' h; exact absurd h (by decide)

theorem countNone_append_bar (x y : Str) : Str.countNone (x ++ '|' :: y) = Str.countNone x + Str.countNone y := by
  fun_induction Str.countNone x with
  | case1 r ih =>
    have : Str.countNone ('N' :: 'o' :: 'n' :: 'e' :: r ++ '|' :: y) = Str.countNone (r ++ '|' :: y) + 1 := by
      simp [Str.countNone]
    rw [this, ih]; omega
  | case2 c r h ih =>
    rw [← ih, List.cons_append, Str.countNone]
    intro r' hcc he
    subst hcc
    match r, he with
    | [], he => simp at he
    | [a], he => simp at he
    | [a, b], he => simp at he
    | a :: b :: d :: r'', he =>
      simp only [List.cons_append, List.cons.injEq] at he
      obtain ⟨rfl, rfl, rfl, -⟩ := he
      exact h r'' rfl rfl
  | case3 =>
    rw [List.nil_append, Str.countNone]
    · omega
    · intro r' h; exact absurd h (by decide)

theorem countNone_eq_zero {s : Str} : Str.countNone s = 0 ↔ ¬ c!"None" <:+: s := by
  fun_induction Str.countNone s with
  | case1 r ih =>
    simp only [Nat.add_eq_zero_iff, Nat.one_ne_zero, and_false, false_iff, not_not]
    exact ⟨[], r, rfl⟩
  | case2 c r h ih =>
    rw [ih, not_iff_not, List.infix_cons_iff]
    constructor
    · exact Or.inr
    · rintro (⟨t, ht⟩ | h')
      · simp only [List.cons_append, List.nil_append, List.cons.injEq] at ht
        exact absurd ht.2.symm (h t ht.1.symm)
      · exact h'
  | case3 => simp

theorem net_show {sep : Str} (hs : IsSep sep) {a : Ann} (h : a.Valid) : net (a.show sep) = 0 := by
  have h1 : ∀ s : Str, net (s.filter (fun c => !Str.isWs c)) = net s := by
    intro s
    unfold net
    rw [List.count_filter (by decide), List.count_filter (by decide)]
  rw [← h1, show_filter hs a h]
  exact (show_deep a h).1

theorem repair_balanced (E : Env) {l : List Str} (hne : l ≠ []) (h : ∀ x ∈ l, net x = 0) :
    repair E ',' l = .ok l := by
  have hb : ∀ g ∈ l.map (fun x => [x]), Block g := by
    intro g hg
    obtain ⟨x, hx, rfl⟩ := List.mem_map.mp hg
    refine ⟨by simp, by simp [netSum, h x hx], ?_⟩
    intro k h1 h2
    simp at h2; omega
  have hf : (l.map (fun x => [x])).flatten = l := by
    clear h hb hne
    induction l with
    | nil => rfl
    | cons a l ih => simp [ih]
  have := repair_blocks E (gs := l.map (fun x => [x])) (by simpa using hne) hb
  rw [hf] at this
  rw [this]
  clear this hb h hne hf
  congr 1
  induction l with
  | nil => rfl
  | cons a l ih => rw [List.map_cons, repairBlocks_cons, if_pos (by simp), ih]; rfl

/-- **C16** (alternatives) Two or more alternatives are read as the union of what the alternatives are read as,
unless there are exactly two and the text `None` occurs exactly once. -/
theorem C16_union (E : Env) (a b : Ann) (l : List Ann) (hv : ∀ x ∈ a :: b :: l, x.Valid)
    (hc : ∀ x ∈ a :: b :: l, x.clear = true)
    (hn : l = [] → Str.countNone (Spec.altText [a, b]) ≠ 1) :
    fromStr E (Spec.altText (a :: b :: l)) = .ok (.union ((a :: b :: l).map Ann.denote)) := by
  have hcount := altText_count a (b :: l) hv
  have hbar : '|' ∈ Spec.altText (a :: b :: l) := by
    apply List.count_pos_iff.mp; rw [hcount]; simp
  rw [fromStr_unfold]
  unfold fromStrStep
  rw [lookup_none_of (fun e he h => (show ∀ e ∈ primTable, '|' ∉ e.1 by decide) e he (by rw [h]; exact hbar))]
  have hopt : ((Spec.altText (a :: b :: l)).count '|' = 1 && Str.countNone (Spec.altText (a :: b :: l)) = 1) = false := by
    rw [hcount]
    cases l with
    | nil => simp [hn rfl]
    | cons c l => simp
  have hp := altText_pieces false a (b :: l) hv
  simp only [Bool.false_eq_true, if_false, List.nil_append] at hp
  have hr : repair E ',' ((a :: b :: l).map (Ann.show c!", ")) = .ok ((a :: b :: l).map (Ann.show c!", ")) := by
    apply repair_balanced E (by simp)
    intro x hx
    obtain ⟨y, hy, rfl⟩ := List.mem_map.mp hx
    exact net_show (Or.inl rfl) (hv y hy)
  have ht : Res.traverse (fromStr E) ((a :: b :: l).map (Ann.show c!", ")) = .ok ((a :: b :: l).map Ann.denote) := by
    have : ∀ m : List Ann, (∀ x ∈ m, x.Valid) → (∀ x ∈ m, x.clear = true) →
        Res.traverse (fromStr E) (m.map (Ann.show c!", ")) = .ok (m.map Ann.denote) := by
      intro m
      induction m with
      | nil => intro _ _; rfl
      | cons x m ih =>
        intro h1 h2
        rw [List.map_cons, Res.traverse, fromStr_show E x (h1 x (by simp)) (h2 x (by simp)) _ (Or.inl rfl),
          ih (fun y hy => h1 y (by simp [hy])) (fun y hy => h2 y (by simp [hy]))]
        rfl
    exact this _ hv hc
  simp only [hopt, Bool.false_eq_true, if_false, List.contains_eq_mem, hbar, decide_true, if_true, hp, hr, ht,
    Res.ok_bind]
  rfl

/-- **C16** (optional) `X | None` and `None | X` are read as `Optional[X]`, for `X` without the text `None`. -/
theorem C16_optional (E : Env) (a : Ann) (hv : a.Valid) (hc : a.clear = true) (hn : ¬ c!"None" <:+: a.show c!", ") :
    fromStr E (a.show c!", " ++ c!" | None") = .ok (.optional a.denote) ∧
      fromStr E (c!"None | " ++ a.show c!", ") = .ok (.optional a.denote) := by
  have hnone : (Ann.name c!"None").Valid := by rw [Ann.Valid]; exact isName_of_check (by decide)
  have key : ∀ l : List Ann, l = [a, .name c!"None"] ∨ l = [.name c!"None", a] →
      fromStr E (Spec.altText l) = .ok (.optional a.denote) := by
    intro l hl
    have hval : ∀ x ∈ l, x.Valid := by
      intro x hx
      rcases hl with rfl | rfl <;>
        (simp only [List.mem_cons, List.not_mem_nil, or_false] at hx; rcases hx with rfl | rfl) <;> assumption
    have h0 := countNone_eq_zero.mpr hn
    have h1 : (Spec.altText l).count '|' = 1 := by
      rcases hl with rfl | rfl <;> exact altText_count _ _ hval
    have h2 : Str.countNone (Spec.altText l) = 1 := by
      rcases hl with rfl | rfl
      · simp only [Spec.altText, Ann.show]
        have : a.show c!", " ++ c!" | " ++ c!"None" = a.show c!", " ++ ' ' :: c!"| None" := by simp
        rw [this, countNone_append_space, h0]; rfl
      · simp only [Spec.altText, Ann.show]
        have : c!"None" ++ c!" | " ++ a.show c!", " = c!"None |" ++ ' ' :: a.show c!", " := by simp
        rw [this, countNone_append_space, h0]; rfl
    have hne : a.show c!", " ≠ c!"None" := fun e => hn (by rw [e]; exact List.infix_refl _)
    have hp : ((Str.splitChar '|' (Spec.altText l)).map Str.trim).find? (fun x => x ≠ c!"None") =
        some (a.show c!", ") := by
      rcases hl with rfl | rfl
      · have := altText_pieces false a [.name c!"None"] hval
        simp only [Bool.false_eq_true, if_false, List.nil_append] at this
        rw [this, List.map_cons, List.find?_cons]
        simp [hne]
      · have := altText_pieces false (.name c!"None") [a] hval
        simp only [Bool.false_eq_true, if_false, List.nil_append] at this
        rw [this, List.map_cons, List.find?_cons]
        simp [Ann.show, hne]
    have hbar : '|' ∈ Spec.altText l := List.count_pos_iff.mp (by omega)
    rw [fromStr_unfold]
    unfold fromStrStep
    rw [lookup_none_of (fun e he h => (show ∀ e ∈ primTable, '|' ∉ e.1 by decide) e he (by rw [h]; exact hbar))]
    simp only [h1, h2, decide_true, Bool.and_true, if_true, hp,
      fromStr_show E a hv hc c!", " (Or.inl rfl), Res.ok_bind]
    rfl
  constructor
  · have := key [a, .name c!"None"] (Or.inl rfl)
    simpa [Spec.altText, Ann.show] using this
  · have := key [.name c!"None", a] (Or.inr rfl)
    simpa [Spec.altText, Ann.show] using this

example : fromStr (Env.ascii true false) c!"dict[str, int] | None" = .ok (.optional (.dict .string .long)) := by decide
example : fromStr (Env.ascii true false) c!"int | str | None" = .ok (.union [.long, .string, .none]) := by decide

/-! ## C22 -/

theorem fromStr_noBar_not_optional (E : Env) : ∀ (n : Nat) (s : Str), annSize s < n → '|' ∉ s →
    ∀ t, fromStr E s ≠ .ok (.optional t) := by
  intro n
  induction n with
  | zero => intro s h; omega
  | succ n ih =>
    intro s hsz hb t h
    rw [fromStr_unfold] at h
    unfold fromStrStep at h
    have hprim : ∀ e ∈ primTable, ∀ u, e.2 ≠ PyTy.optional u := by
      intro e he u
      simp only [primTable, List.mem_cons, List.not_mem_nil, or_false] at he
      rcases he with rfl | rfl | rfl | rfl | rfl | rfl | rfl <;> simp
    have hname : ∀ e ∈ nameTable, ∀ u, e.2 ≠ PyTy.optional u := by
      have : nameTable.all (fun e => match e.2 with | .optional _ => false | _ => true) = true := by decide
      rw [List.all_eq_true] at this
      intro e he u hu
      have := this e he
      rw [hu] at this
      simp at this
    have hlk : ∀ (l : List (Str × PyTy)) (v : PyTy), l.lookup s = some v → ∃ e ∈ l, e.2 = v := by
      intro l v
      induction l with
      | nil => intro h; cases h
      | cons e l ih =>
        intro h
        obtain ⟨k, w⟩ := e
        rw [List.lookup_cons] at h
        split at h
        · exact ⟨(k, w), by simp, Option.some.inj h⟩
        · obtain ⟨e, he, hv⟩ := ih h
          exact ⟨e, by simp [he], hv⟩
    split at h
    · rename_i v hv
      obtain ⟨e, he, hev⟩ := hlk _ _ hv
      exact hprim e he t (hev.trans (Except.ok.inj h))
    have hc : s.count '|' = 0 := List.count_eq_zero.mpr hb
    simp only [hc, List.contains_eq_mem, hb, Nat.zero_ne_one, decide_false, Bool.false_and, Bool.false_eq_true,
      if_false] at h
    split at h
    · rename_i v hv
      obtain ⟨e, he, hev⟩ := hlk _ _ hv
      exact hname e he t (hev.trans (Except.ok.inj h))
    split at h
    · rename_i w inner hw
      obtain ⟨pre, suf, hmem, -, -, rfl⟩ := matchWrap_some hw
      obtain ⟨i, hi, h⟩ := Res.bind_ok h
      rw [stripBoth_ok] at hi
      unfold wrapArm at h
      split at h
      · obtain ⟨_, -, h⟩ := Res.bind_ok h
        obtain ⟨_, -, h⟩ := Res.bind_ok h
        obtain ⟨_, -, h⟩ := Res.bind_ok h
        obtain ⟨_, -, h⟩ := Res.bind_ok h
        cases h
      · obtain ⟨_, -, h⟩ := Res.bind_ok h; cases h
      · obtain ⟨_, -, h⟩ := Res.bind_ok h; cases h
      · obtain ⟨_, -, h⟩ := Res.bind_ok h; cases h
      · obtain ⟨_, -, h⟩ := Res.bind_ok h
        obtain ⟨_, -, h⟩ := Res.bind_ok h
        cases h
      · obtain ⟨_, -, h⟩ := Res.bind_ok h
        obtain ⟨_, -, h⟩ := Res.bind_ok h
        unfold mkFunction at h
        split at h <;> cases h
      · have hch := Child.wrap (E := E) pre suf _ i hb hmem hi
        have := hch.size_lt
        refine ih i (by omega) ?_ t h
        intro hm; exact hb (by rw [hi]; simp [hm])
    split at h
    · rename_i r hr
      obtain ⟨p, hp, hs⟩ := matchPrefix_some hr
      have := (Child.pre (E := E) p r hb hp hs).size_lt
      exact ih r (by omega) (by intro hm; exact hb (by rw [hs]; simp [hm])) t h
    split at h <;> cases h

/-- **C22** What it takes to be read as `Optional[T]`: exactly one bar, the text `None` exactly once, and `T` is
the first alternative that is not the text `None`. -/
theorem C22_optional_conditions (E : Env) (s : Str) (t : PyTy) (h : fromStr E s = .ok (.optional t)) :
    ∃ l r, s = l ++ '|' :: r ∧ '|' ∉ l ∧ '|' ∉ r ∧ c!"None" <:+: s ∧
      ((Str.trim l ≠ c!"None" ∧ fromStr E (Str.trim l) = .ok t) ∨
       (Str.trim l = c!"None" ∧ Str.trim r ≠ c!"None" ∧ fromStr E (Str.trim r) = .ok t)) := by
  have hbar : '|' ∈ s := by
    by_contra hb
    exact fromStr_noBar_not_optional E _ s (Nat.lt_succ_self _) hb t h
  rw [fromStr_unfold] at h
  unfold fromStrStep at h
  rw [lookup_none_of (fun e he hh => (show ∀ e ∈ primTable, '|' ∉ e.1 by decide) e he (by rw [hh]; exact hbar))] at h
  simp only at h
  split at h
  · rename_i hc
    simp only [Bool.and_eq_true, decide_eq_true_eq] at hc
    obtain ⟨l, r, rfl⟩ := List.append_of_mem hbar
    have hcount := hc.1
    rw [List.count_append, List.count_cons_self] at hcount
    have hl : '|' ∉ l := List.count_eq_zero.mp (by omega)
    have hr : '|' ∉ r := List.count_eq_zero.mp (by omega)
    refine ⟨l, r, rfl, hl, hr, ?_, ?_⟩
    · by_contra hn
      rw [← countNone_eq_zero] at hn
      omega
    · rw [splitChar_append_sep, Str.splitChar_of_not_mem hl, Str.splitChar_of_not_mem hr] at h
      simp only [List.cons_append, List.nil_append, List.map_cons, List.map_nil, List.find?_cons, List.find?_nil] at h
      by_cases h1 : Str.trim l = c!"None"
      · by_cases h2 : Str.trim r = c!"None"
        · simp [h1, h2] at h
        · simp only [h1, ne_eq, not_true, decide_false, h2, not_false_eq_true, decide_true] at h
          obtain ⟨t', ht', h⟩ := Res.bind_ok h
          cases h
          exact Or.inr ⟨h1, h2, ht'⟩
      · simp only [ne_eq, h1, not_false_eq_true, decide_true] at h
        obtain ⟨t', ht', h⟩ := Res.bind_ok h
        cases h
        exact Or.inl ⟨h1, ht'⟩
  · have hb : s.contains '|' = true := by simpa using hbar
    rw [if_pos hb] at h
    obtain ⟨_, -, h⟩ := Res.bind_ok h
    obtain ⟨_, -, h⟩ := Res.bind_ok h
    cases h

theorem infix_trim {s : Str} (p : Str) (hp : ∀ c ∈ p, Str.isWs c = false) : p <:+: s → p <:+: Str.trim s := by
  have hd : ∀ t : Str, p <:+: t → p <:+: t.dropWhile Str.isWs := by
    intro t ht
    induction t with
    | nil => exact ht
    | cons a t ih =>
      cases ha : Str.isWs a with
      | false => rw [List.dropWhile_cons_of_neg (by simp [ha])]; exact ht
      | true =>
        rw [List.dropWhile_cons_of_pos ha]
        rw [List.infix_cons_iff] at ht
        rcases ht with h | h
        · cases p with
          | nil => exact ⟨[], _, rfl⟩
          | cons b p =>
            obtain ⟨u, hu⟩ := h
            simp only [List.cons_append, List.cons.injEq] at hu
            have := hp b (by simp)
            rw [hu.1, ha] at this
            simp at this
        · exact ih h
  intro h
  have h1 := hd s h
  unfold Str.trim Str.trimEnd Str.trimStart
  have h2 : p.reverse <:+: (s.dropWhile Str.isWs).reverse := List.reverse_infix.mpr h1
  have hd' : ∀ t : Str, p.reverse <:+: t → p.reverse <:+: t.dropWhile Str.isWs := by
    intro t ht
    induction t with
    | nil => exact ht
    | cons a t ih =>
      cases ha : Str.isWs a with
      | false => rw [List.dropWhile_cons_of_neg (by simp [ha])]; exact ht
      | true =>
        rw [List.dropWhile_cons_of_pos ha]
        rw [List.infix_cons_iff] at ht
        rcases ht with h | h
        · cases hq : p.reverse with
          | nil => exact ⟨[], _, rfl⟩
          | cons b q =>
            rw [hq] at h
            obtain ⟨u, hu⟩ := h
            simp only [List.cons_append, List.cons.injEq] at hu
            have := hp b (by rw [← List.mem_reverse, hq]; simp)
            rw [hu.1, ha] at this
            simp at this
        · exact ih h
  have h3 := hd' _ h2
  have := List.reverse_infix.mpr h3
  rwa [List.reverse_reverse] at this

/-- **C22** `Optional` only when `None` is an alternative, for texts in which `None` only occurs as a whole
alternative. Missing for the full claim: texts with `None` inside another word or inside brackets, for which it is
false (`C22_counterexample`). -/
theorem C22_optional_partial (E : Env) (l r : Str) (t : PyTy)
    (hl : c!"None" <:+: Str.trim l → Str.trim l = c!"None") (hr : c!"None" <:+: Str.trim r → Str.trim r = c!"None")
    (hlb : '|' ∉ l) (hrb : '|' ∉ r)
    (h : fromStr E (l ++ '|' :: r) = .ok (.optional t)) :
    (Str.trim r = c!"None" ∧ fromStr E (Str.trim l) = .ok t) ∨ (Str.trim l = c!"None" ∧ fromStr E (Str.trim r) = .ok t) := by
  obtain ⟨l', r', hs, hl', hr', hnone, hcase⟩ := C22_optional_conditions E _ t h
  have hp : Str.splitChar '|' (l ++ '|' :: r) = Str.splitChar '|' (l' ++ '|' :: r') := by rw [hs]
  rw [splitChar_append_sep, splitChar_append_sep, Str.splitChar_of_not_mem hlb, Str.splitChar_of_not_mem hrb,
    Str.splitChar_of_not_mem hl', Str.splitChar_of_not_mem hr'] at hp
  simp only [List.cons_append, List.nil_append, List.cons.injEq, and_true] at hp
  obtain ⟨rfl, rfl⟩ := hp
  rcases hcase with ⟨h1, h2⟩ | ⟨h1, h2, h3⟩
  · left
    refine ⟨?_, h2⟩
    have hnl : ¬ c!"None" <:+: l := fun hi => h1 (hl (infix_trim _ (by decide) hi))
    apply hr
    apply infix_trim _ (by decide)
    -- the occurrence of `None` lies in one of the two parts
    obtain ⟨u, v, huv⟩ := hnone
    by_contra hnr
    have h0 : Str.countNone (l ++ '|' :: r) = 0 := by
      rw [countNone_append_bar, countNone_eq_zero.mpr hnl, countNone_eq_zero.mpr hnr]
    rw [countNone_eq_zero] at h0
    exact h0 ⟨u, v, huv⟩
  · exact Or.inr ⟨h1, h3⟩

example : fromStr (Env.ascii true false) (c!"None " ++ '|' :: c!" list[int]") = .ok (.optional (.list .long)) := by
  decide
/-- The claim is false in general: `None` inside a name or inside brackets makes an annotation optional. -/
theorem C22_counterexample :
    fromStr (Env.ascii false false) c!"int | MyNone" = .ok (.optional .long) ∧
      fromStr (Env.ascii false false) c!"dict[str, None] | int" = .ok (.optional (.dict .string .none)) ∧
      fromStr (Env.ascii false false) c!"int | NoneType" = .ok (.optional .long) := by decide

/-- For `typing.Union` objects the claim holds: a union is read as `Optional[t]` iff its arguments are `None` and
`t`, in some order. -/
theorem C22_union_objects (u : List PyTy) (ts : List PyTy) (t : PyTy) :
    applyArgs (.union u) ts = .ok (.optional t) ↔ t ≠ .none ∧ (ts = [t, .none] ∨ ts = [.none, t]) := by
  unfold applyArgs
  constructor
  · intro h
    simp only at h
    split at h
    · rename_i hc
      simp only [Bool.and_eq_true, decide_eq_true_eq, List.contains_eq_mem] at hc
      obtain ⟨h2, hmem⟩ := hc
      match ts, h2 with
      | [x, y], _ =>
        simp only [List.find?_cons, List.find?_nil, List.mem_cons, List.not_mem_nil, or_false] at h hmem
        by_cases hx : x = PyTy.none
        · subst hx
          by_cases hy : y = PyTy.none
          · subst hy; simp at h
          · simp only [ne_eq, not_true, decide_false, hy, not_false_eq_true, decide_true] at h
            cases h
            exact ⟨hy, Or.inr rfl⟩
        · simp only [ne_eq, hx, not_false_eq_true, decide_true] at h
          cases h
          refine ⟨hx, Or.inl ?_⟩
          rcases hmem with h' | h'
          · exact absurd h'.symm hx
          · rw [h']
    · cases h
  · rintro ⟨ht, rfl | rfl⟩
    · simp [ht]
    · simp [ht]

example : applyArgs (.union [.unknown]) [.long, .none] = .ok (.optional .long) := by decide

/-! ## C15 -/

/-- **C15** Annotations as printed by Python whose argument lists are separable do not panic, in any build
profile. Missing for the full claim: see the counterexamples. -/
theorem C15_no_panic_partial (E : Env) (a : Ann) (hv : a.Valid) (hc : a.clear = true) :
    ¬ Res.Panics (fromStr E (a.show c!", ")) := by
  rintro ⟨p, hp⟩
  rw [C16_structure_partial E a hv hc] at hp
  cases hp

/-- Texts that cannot reach a panicking arm in a build without overflow checks. -/
def Spec.Harmless (s : Str) : Prop :=
  ¬ c!"dict[" <:+: s ∧ ¬ c!"<class '>" <:+: s ∧ ¬ c!"<enum '>" <:+: s

theorem infix_trans_trim {p s : Str} (h : p <:+: Str.trim s) : p <:+: s := by
  refine h.trans ?_
  unfold Str.trim
  refine ((trimEnd_prefix _).isInfix).trans ?_
  exact (List.dropWhile_suffix _).isInfix

theorem infix_join {p : Str} {sep : Char} (hp : sep ∉ p) (hne : p ≠ []) {l : List Str}
    (h : p <:+: Str.join [sep] l) : ∃ x ∈ l, p <:+: x := by
  induction l with
  | nil =>
    obtain ⟨u, v, huv⟩ := h
    simp only [Str.join, List.append_eq_nil_iff] at huv
    exact absurd huv.1.2 hne
  | cons a l ih =>
    cases l with
    | nil => exact ⟨a, by simp, h⟩
    | cons b l =>
      rw [Str.join_cons_cons] at h
      obtain ⟨u, v, huv⟩ := h
      have huv' : u ++ (p ++ v) = a ++ (sep :: Str.join [sep] (b :: l)) := by
        rw [← List.append_assoc, huv]; simp
      rw [List.append_eq_append_iff] at huv'
      rcases huv' with ⟨m, h1, h2⟩ | ⟨m, h1, h2⟩
      · -- a = u ++ m
        rw [List.append_eq_append_iff] at h2
        rcases h2 with ⟨m', h3, h4⟩ | ⟨m', h3, h4⟩
        · -- m = p ++ m'
          exact ⟨a, by simp, ⟨u, m', by rw [h1, h3, List.append_assoc]⟩⟩
        · -- p = m ++ m', m' ++ v = sep :: …
          cases m' with
          | nil =>
            simp only [List.append_nil] at h3
            exact ⟨a, by simp, ⟨u, [], by rw [h1, h3]; simp⟩⟩
          | cons c m' =>
            simp only [List.cons_append, List.cons.injEq] at h4
            exact absurd (by rw [h3, ← h4.1]; simp) hp
      · cases m with
        | nil =>
          simp only [List.nil_append] at h2
          cases p with
          | nil => exact absurd rfl hne
          | cons c p =>
            simp only [List.cons_append, List.cons.injEq] at h2
            exact absurd (by rw [h2.1]; simp) hp
        | cons c m =>
          simp only [List.cons_append, List.cons.injEq] at h2
          obtain ⟨x, hx, hi⟩ := ih ⟨m, v, by rw [h2.2, List.append_assoc]⟩
          exact ⟨x, by simp [hx], hi⟩

theorem splitChar_infix {sep : Char} {s p : Str} (h : p ∈ Str.splitChar sep s) : p <:+: s := by
  induction s generalizing p with
  | nil => simp only [Str.splitChar, List.mem_singleton] at h; subst h; exact List.infix_refl _
  | cons c s ih =>
    by_cases hc : c = sep
    · subst hc
      rw [Str.splitChar_cons_sep] at h
      rcases List.mem_cons.mp h with rfl | h
      · exact ⟨[], c :: s, rfl⟩
      · exact (ih h).trans (List.suffix_cons c s).isInfix
    · have key : ∀ q qs, Str.splitChar sep s = q :: qs → (c :: q) <:+: c :: s := by
        intro q qs hq
        -- the first piece is a prefix
        have hpre : ∀ (s : Str) q qs, Str.splitChar sep s = q :: qs → q <+: s := by
          intro s
          induction s with
          | nil => intro q qs h; cases h; exact List.prefix_refl _
          | cons d s ih =>
            intro q qs h
            by_cases hd : d = sep
            · subst hd; rw [Str.splitChar_cons_sep] at h; cases h; exact List.nil_prefix
            · rw [Str.splitChar_cons_ne hd] at h
              cases h' : Str.splitChar sep s with
              | nil => exact absurd h' (Str.splitChar_ne_nil _ _)
              | cons q' qs' =>
                rw [h'] at h
                simp only [Str.consHead, List.cons.injEq] at h
                rw [← h.1]
                exact (List.prefix_cons_inj d).mpr (ih q' qs' h')
        exact ((List.prefix_cons_inj c).mpr (hpre s q qs hq)).isInfix
      rw [Str.splitChar_cons_ne hc] at h
      cases hq : Str.splitChar sep s with
      | nil => exact absurd hq (Str.splitChar_ne_nil _ _)
      | cons q qs =>
        rw [hq] at h ih
        simp only [Str.consHead] at h
        rcases List.mem_cons.mp h with rfl | h
        · exact key q qs hq
        · exact (ih (by simp [h])).trans (List.suffix_cons c s).isInfix

theorem repair_piece_infix {E : Env} {b : Char} {s p : Str} {r : List Str} (hp : ',' ∉ p) (hne : p ≠ [])
    (h : repair E ',' ((Str.splitChar b s).map Str.trim) = .ok r) {x : Str} (hx : x ∈ r) (hi : p <:+: x) : p <:+: s := by
  obtain ⟨gs, h1, h2, h3⟩ := repair_groups h
  rw [h3] at hx
  obtain ⟨g, hg, rfl⟩ := List.mem_map.mp hx
  obtain ⟨y, hy, hiy⟩ := infix_join hp hne hi
  have : y ∈ (Str.splitChar b s).map Str.trim := by
    rw [← h1]; exact List.mem_flatten.mpr ⟨g, hg, hy⟩
  obtain ⟨q, hq, rfl⟩ := List.mem_map.mp this
  exact (infix_trans_trim hiy).trans (splitChar_infix hq)

theorem Child.infix {E : Env} {s x p : Str} (h : Child E s x) (hp : ',' ∉ p) (hne : p ≠ []) (hi : p <:+: x) :
    p <:+: s := by
  cases h with
  | opt x hb hx =>
    obtain ⟨q, hq, rfl⟩ := List.mem_map.mp hx
    exact (infix_trans_trim hi).trans (splitChar_infix hq)
  | union r x hb hr hx => exact repair_piece_infix hp hne hr hx hi
  | wrap pre suf w i hb hmem hs => exact hi.trans ⟨pre, suf, hs.symm⟩
  | args pre suf w i r x hb hmem hs hr hx => exact (repair_piece_infix hp hne hr hx hi).trans ⟨pre, suf, hs.symm⟩
  | pre p' x hb hp' hs => exact hi.trans ⟨p', [], by rw [hs]; simp⟩

theorem Spec.Harmless.child {E : Env} {s x : Str} (h : Spec.Harmless s) (hc : Child E s x) : Spec.Harmless x :=
  ⟨fun hi => h.1 (hc.infix (by decide) (by decide) hi), fun hi => h.2.1 (hc.infix (by decide) (by decide) hi),
    fun hi => h.2.2 (hc.infix (by decide) (by decide) hi)⟩

theorem usizeSub_release {E : Env} (hE : E.debug = false) (n : Int) (m : Nat) : usizeSub E n m = .ok (n - m) := by
  unfold usizeSub; simp [hE]

theorem repairScan_release {E : Env} (hE : E.debug = false) (n : Int) (l : List Str) :
    ∃ r, repairScan E n l = .ok r := by
  induction l generalizing n with
  | nil => exact ⟨_, rfl⟩
  | cons y ys ih =>
    unfold repairScan
    rw [usizeSub_release hE, Res.ok_bind]
    split
    · exact ⟨_, rfl⟩
    · obtain ⟨r, hr⟩ := ih (n + (y.count '[' : Int) - (y.count ']' : Int))
      rw [hr]
      exact ⟨_, rfl⟩

theorem repairGo_release {E : Env} (hE : E.debug = false) (sep : Char) (fuel : Nat) (l : List Str)
    (h : l.length < fuel) : ∃ r, repairGo E sep fuel l = .ok r := by
  induction fuel generalizing l with
  | zero => omega
  | succ fuel ih =>
    match l with
    | [] => exact ⟨_, rfl⟩
    | [x] => exact ⟨_, rfl⟩
    | x :: y :: ys =>
      simp only [List.length_cons] at h
      unfold repairGo
      rw [usizeSub_release hE, Res.ok_bind]
      obtain ⟨r, hr⟩ := ih (y :: ys) (by simp only [List.length_cons]; omega)
      split
      · rw [hr]; exact ⟨_, rfl⟩
      · obtain ⟨k, hk⟩ := repairScan_release hE ((x.count '[' : Int) - (x.count ']' : Int)) (y :: ys)
        rw [hk, Res.ok_bind]
        cases k with
        | none => simp only; rw [hr]; exact ⟨_, rfl⟩
        | some k =>
          simp only
          have hb := repairScan_bounds hk
          split
          · apply ih
            simp only [List.length_cons, List.length_drop] at hb ⊢
            omega
          · exact ⟨_, rfl⟩

theorem repair_release {E : Env} (hE : E.debug = false) {sep : Char} {l : List Str} (h : l ≠ []) :
    ∃ r, repair E sep l = .ok r := by
  unfold repair
  rw [if_neg h]
  exact repairGo_release hE sep _ l (by omega)

/-- The strip of a bracketed arm fails only if prefix and suffix overlap. -/
theorem strip_ok_or_overlap {pre suf s : Str} {w : Wrap} (hmem : (pre, suf, w) ∈ wrapTable) (hp : pre <+: s)
    (hsuf : suf <:+ s) (h1 : ¬ c!"<class '>" <:+: s) (h2 : ¬ c!"<enum '>" <:+: s) : ∃ i, stripBoth pre suf s = .ok i := by
  obtain ⟨t, rfl⟩ := hp
  by_cases hl : suf.length ≤ t.length
  · have : suf <:+ t := List.suffix_of_suffix_length_le hsuf (List.suffix_append _ _) hl
    obtain ⟨i, rfl⟩ := this
    exact ⟨i, stripBoth_ok.mpr (by simp)⟩
  · exfalso
    have hs2 : ∀ e ∈ wrapTable, e.2.1 = c!"]" ∨ (e.2.1 = c!"'>" ∧ (e.1 = c!"<class '" ∨ e.1 = c!"<enum '")) := by decide
    have hlast : ∀ e ∈ wrapTable, e.2.1 = c!"]" → ∃ u, e.1 = u ++ c!"[" := by
      intro e he _
      have : ∀ e ∈ wrapTable, e.2.1 = c!"]" → e.1 = e.1.dropLast ++ c!"[" := by decide
      exact ⟨_, this e he (by assumption)⟩
    rcases hs2 _ hmem with h | ⟨h, h'⟩
    · simp only at h
      subst h
      have ht : t = [] := by
        simp only [List.length_cons, List.length_nil] at hl
        exact List.length_eq_zero_iff.mp (by omega)
      subst ht
      obtain ⟨u, hu⟩ := hlast _ hmem rfl
      simp only at hu
      obtain ⟨q, hq⟩ := hsuf
      rw [List.append_nil, hu] at hq
      have := congrArg List.getLast? hq
      rw [List.getLast?_append, List.getLast?_append] at this
      simp at this
    · simp only at h h'
      subst h
      simp only [List.length_cons, List.length_nil] at hl
      obtain ⟨q, hq⟩ := hsuf
      have hq2 := congrArg List.getLast? hq
      rw [List.getLast?_append] at hq2
      match t, hl with
      | [], _ =>
        rcases h' with rfl | rfl <;> simp at hq2
      | [c], _ =>
        rw [List.getLast?_append] at hq2
        simp only [List.getLast?_cons_cons, List.getLast?_singleton, Option.some_or, Option.some.injEq] at hq2
        subst hq2
        rcases h' with rfl | rfl
        · exact h1 ⟨[], [], rfl⟩
        · exact h2 ⟨[], [], rfl⟩
      | c :: d :: t, hl => simp at hl

/-- **C15** In a build without overflow checks, any text without `dict[` and without the empty class `repr`s
`<class '>` and `<enum '>` is read without panic — however badly its brackets nest. -/
theorem C15_no_panic_without_dict_partial (E : Env) (hE : E.debug = false) (s : Str) (h : Spec.Harmless s) :
    ∃ t, fromStr E s = .ok t := by
  have : ∀ n s, annSize s < n → Spec.Harmless s → ∃ t, fromStr E s = .ok t := by
    intro n
    induction n with
    | zero => intro s h; omega
    | succ n ih =>
      intro s hsz hs
      have ih' : ∀ x, Child E s x → ∃ t, fromStr E x = .ok t := fun x hx =>
        ih x (by have := hx.size_lt; omega) (hs.child hx)
      rw [fromStr_unfold]
      unfold fromStrStep
      split
      · exact ⟨_, rfl⟩
      split
      · rename_i hc
        simp only [Bool.and_eq_true, decide_eq_true_eq] at hc
        have hb : '|' ∈ s := List.count_pos_iff.mp (by omega)
        split
        · rename_i hf
          -- all parts are `None`: then the text occurs twice
          exfalso
          obtain ⟨l, r, rfl⟩ := List.append_of_mem hb
          have hcount := hc.1
          rw [List.count_append, List.count_cons_self] at hcount
          have hl : '|' ∉ l := List.count_eq_zero.mp (by omega)
          have hr : '|' ∉ r := List.count_eq_zero.mp (by omega)
          rw [splitChar_append_sep, Str.splitChar_of_not_mem hl, Str.splitChar_of_not_mem hr] at hf
          rw [List.find?_eq_none] at hf
          have h1 := hf (Str.trim l) (by simp)
          have h2 := hf (Str.trim r) (by simp)
          simp only [ne_eq, decide_not, Bool.not_eq_true', decide_eq_false_iff_not, not_not] at h1 h2
          have hcut := countNone_append_bar l r
          have hl1 : Str.countNone l ≠ 0 := fun e => countNone_eq_zero.mp e (infix_trans_trim (by rw [h1]; exact List.infix_refl _))
          have hr1 : Str.countNone r ≠ 0 := fun e => countNone_eq_zero.mp e (infix_trans_trim (by rw [h2]; exact List.infix_refl _))
          omega
        · rename_i x hx
          obtain ⟨t, ht⟩ := ih' x (Child.opt x hb (List.mem_of_find?_eq_some hx))
          rw [ht]; exact ⟨_, rfl⟩
      split
      · rename_i hb
        have hb : '|' ∈ s := by simpa using hb
        obtain ⟨r, hr⟩ := repair_release hE (sep := ',') (l := (Str.splitChar '|' s).map Str.trim)
          (by simp [Str.splitChar_ne_nil])
        obtain ⟨ts, hts⟩ := traverse_exists (f := fromStr E) (fun x hx => ih' x (Child.union r x hb hr hx))
        rw [hr, Res.ok_bind, hts]
        exact ⟨_, rfl⟩
      rename_i hb
      have hb : '|' ∉ s := by simpa using hb
      split
      · exact ⟨_, rfl⟩
      split
      · rename_i w inner hw
        obtain ⟨pre, suf, hmem, hpre, hsuf, rfl⟩ := matchWrap_some hw
        obtain ⟨i, hi⟩ := strip_ok_or_overlap hmem hpre hsuf hs.2.1 hs.2.2
        have hi' := stripBoth_ok.mp hi
        rw [hi, Res.ok_bind]
        obtain ⟨t, ht⟩ := ih' i (Child.wrap pre suf w i hb hmem hi')
        obtain ⟨r, hr⟩ := repair_release hE (sep := ',') (l := (Str.splitChar ',' i).map Str.trim)
          (by simp [Str.splitChar_ne_nil])
        obtain ⟨ts, hts⟩ := traverse_exists (f := fromStr E)
          (fun x hx => ih' x (Child.args pre suf w i r x hb hmem hi' hr hx))
        have hlen := (C17_repair_keeps_text E ',' _ r hr).2.2.1
        have hr' : splitArgs E i = .ok r := hr
        unfold wrapArm
        split
        · exfalso
          have : ∀ e ∈ wrapTable, e.2.2 = .dict → e.1 = c!"dict[" := by decide
          have hd := this _ hmem rfl
          simp only at hd
          exact hs.1 (by rw [← hd]; exact hpre.isInfix)
        · rw [ht]; exact ⟨_, rfl⟩
        · rw [ht]; exact ⟨_, rfl⟩
        · rw [ht]; exact ⟨_, rfl⟩
        · rw [hr', Res.ok_bind, hts]; exact ⟨_, rfl⟩
        · rw [hr', Res.ok_bind, hts, Res.ok_bind]
          have hl := Res.traverse_length hts
          unfold mkFunction
          have hne : ts ≠ [] := by
            rintro rfl
            simp only [List.length_nil] at hl
            omega
          rw [List.getLast?_eq_some_getLast hne]
          exact ⟨_, rfl⟩
        · exact ⟨t, ht⟩
      split
      · rename_i r hr
        obtain ⟨p, hp, hs'⟩ := matchPrefix_some hr
        exact ih' r (Child.pre p r hb hp hs')
      split <;> exact ⟨_, rfl⟩
  exact this _ s (Nat.lt_succ_self _) h

example : Spec.Harmless c!"Literal[']', 'a'] | tuple[int" ∧
    fromStr (Env.ascii false false) c!"Literal[']', 'a'] | tuple[int" =
      .ok (.union [.other c!"Literal[']', 'a'],tuple[int"]) := by
  refine ⟨⟨?_, ?_, ?_⟩, by decide⟩ <;> decide

/-- **C15** Ordinary annotations panic. First, in every build: the pieces that the repair leaves behind look like a
`dict` with one argument. -/
theorem C15_index_counterexample (b : Bool) :
    fromStr (Env.ascii b false) c!"tuple[tuple[int, int, int, int], dict[list[int], str]]" =
        .error (.panic .index) ∧
      fromStr (Env.ascii b false) c!"dict[int]" = .error (.panic .index) := by
  cases b <;> decide

/-- Second, in builds with overflow checks: alternatives inside a bracket, and brackets inside a literal. -/
theorem C15_overflow_counterexample :
    fromStr (Env.ascii true false) c!"list[tuple[int, str] | tuple[str, int]]" = .error (.panic .overflow) ∧
      fromStr (Env.ascii true false) c!"Literal[']', 'a'] | int" = .error (.panic .overflow) := by decide

/-- Third, for annotation objects: `typing.Counter[str]` is a `dict` with a single argument. -/
theorem C15_object_counterexample (b : Bool) (r : Str) :
    fromAnn (Env.ascii b false) (.typingArgs (.cls [.dict] r) [.cls [.string] c!"<class 'str'>"]) =
      .error (.panic .index) := by
  cases b <;> rfl

end Bindgen

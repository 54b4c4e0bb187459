import Verif.Spec.TypeNames
import Verif.Props.AnnObjects
/-!
# The names in types come from the texts of annotations (C16)
-/
namespace Bindgen
open Spec

theorem mem_tyNamesList {n : Str} {ts : List PyTy} : n ∈ tyNamesList ts ↔ ∃ t ∈ ts, n ∈ tyNames t := by
  induction ts with
  | nil => simp [tyNamesList]
  | cons t ts ih => simp [tyNamesList, ih]

theorem mem_annTextsList {s : Str} {l : List PyAnn} : s ∈ annTextsList l ↔ ∃ a ∈ l, s ∈ annTexts a := by
  induction l with
  | nil => simp [annTextsList]
  | cons a l ih => simp [annTextsList, ih]

theorem lookup_snd {T : List (Str × PyTy)} {s : Str} {t : PyTy} (h : T.lookup s = some t) : t ∈ T.map Prod.snd := by
  induction T with
  | nil => cases h
  | cons e T ih =>
    rw [List.lookup_cons] at h
    split at h
    · cases h; simp
    · exact List.mem_cons_of_mem _ (ih h)

theorem primTable_names : ∀ t ∈ primTable.map Prod.snd, tyNames t = [] := by decide
theorem nameTable_names : ∀ t ∈ nameTable.map Prod.snd, tyNames t = [] := by decide
theorem baseTable_names : ∀ e ∈ baseTable, tyNames e.2 = [] := by decide

theorem index_mem {α : Type} {l : List α} {i : Nat} {a : α} (h : index l i = .ok a) : a ∈ l := by
  unfold index at h
  cases hg : l[i]? with
  | none => rw [hg] at h; cases h
  | some b => rw [hg] at h; cases h; exact List.mem_of_getElem? hg

theorem mkFunction_names {ts : List PyTy} {t : PyTy} (h : mkFunction ts = .ok t) {n : Str} (hn : n ∈ tyNames t) :
    n ∈ tyNamesList ts := by
  unfold mkFunction at h
  split at h
  · cases h
  · rename_i r hr
    cases h
    rw [tyNames, List.mem_append] at hn
    rw [mem_tyNamesList] at hn ⊢
    rcases hn with ⟨t, ht, hn⟩ | hn
    · split at ht
      · cases ht
      · exact ⟨t, List.dropLast_subset _ ht, hn⟩
    · exact ⟨r, List.mem_of_getLast? hr, hn⟩

theorem wrapArm_names {E : Env} {f : Str → Res PyTy} {w : Wrap} {i : Str} {t : PyTy} (h : wrapArm E f w i = .ok t) {n : Str}
    (hn : n ∈ tyNames t) :
    (∃ u, f i = .ok u ∧ n ∈ tyNames u) ∨ ∃ r x u, splitArgs E i = .ok r ∧ x ∈ r ∧ f x = .ok u ∧ n ∈ tyNames u := by
  have parts : ∀ {r ts}, splitArgs E i = .ok r → Res.traverse f r = .ok ts → n ∈ tyNamesList ts →
      ∃ r x u, splitArgs E i = .ok r ∧ x ∈ r ∧ f x = .ok u ∧ n ∈ tyNames u := by
    intro r ts hr hts hn
    obtain ⟨u, hu, hn⟩ := mem_tyNamesList.mp hn
    obtain ⟨x, hx, hu⟩ := traverse_mem hts hu
    exact ⟨r, x, u, hr, hx, hu, hn⟩
  cases w with
  | dict =>
    obtain ⟨r, hr, h⟩ := Res.bind_ok h
    obtain ⟨ts, hts, h⟩ := Res.bind_ok h
    obtain ⟨k, hk, h⟩ := Res.bind_ok h
    obtain ⟨v, hv, h⟩ := Res.bind_ok h
    cases h
    rw [tyNames, List.mem_append] at hn
    rcases hn with hn | hn
    · exact Or.inr (parts hr hts (mem_tyNamesList.mpr ⟨k, index_mem hk, hn⟩))
    · exact Or.inr (parts hr hts (mem_tyNamesList.mpr ⟨v, index_mem hv, hn⟩))
  | frozenSet =>
    obtain ⟨u, hu, h⟩ := Res.bind_ok h
    cases h
    exact Or.inl ⟨u, hu, by simpa [tyNames] using hn⟩
  | list =>
    obtain ⟨u, hu, h⟩ := Res.bind_ok h
    cases h
    exact Or.inl ⟨u, hu, by simpa [tyNames] using hn⟩
  | set =>
    obtain ⟨u, hu, h⟩ := Res.bind_ok h
    cases h
    exact Or.inl ⟨u, hu, by simpa [tyNames] using hn⟩
  | tuple =>
    obtain ⟨r, hr, h⟩ := Res.bind_ok h
    obtain ⟨ts, hts, h⟩ := Res.bind_ok h
    cases h
    exact Or.inr (parts hr hts (by simpa [tyNames] using hn))
  | callable =>
    obtain ⟨r, hr, h⟩ := Res.bind_ok h
    obtain ⟨ts, hts, h⟩ := Res.bind_ok h
    exact Or.inr (parts hr hts (mkFunction_names h hn))
  | inner => exact Or.inl ⟨t, h, hn⟩

theorem step_names {E : Env} {f : Str → Res PyTy} {s : Str} {t : PyTy} (h : fromStrStep E f s = .ok t) {n : Str} (hn : n ∈ tyNames t) :
    n = s ∨ ∃ x u, Child E s x ∧ f x = .ok u ∧ n ∈ tyNames u := by
  unfold fromStrStep at h
  split at h
  · rename_i t' ht
    cases h
    rw [primTable_names _ (lookup_snd ht)] at hn
    cases hn
  split at h
  · rename_i hc
    have hb : '|' ∈ s := by
      simp only [Bool.and_eq_true, decide_eq_true_eq] at hc
      exact List.count_pos_iff.mp (by omega)
    split at h
    · cases h
    · rename_i x hx
      obtain ⟨u, hu, h⟩ := Res.bind_ok h
      cases h
      exact Or.inr ⟨x, u, Child.opt x hb (List.mem_of_find?_eq_some hx), hu, by simpa [tyNames] using hn⟩
  split at h
  · rename_i hb
    have hb : '|' ∈ s := by simpa using hb
    obtain ⟨r, hr, h⟩ := Res.bind_ok h
    obtain ⟨ts, hts, h⟩ := Res.bind_ok h
    cases h
    rw [tyNames] at hn
    obtain ⟨u, hu, hn⟩ := mem_tyNamesList.mp hn
    obtain ⟨x, hx, hu⟩ := traverse_mem hts hu
    exact Or.inr ⟨x, u, Child.union r x hb hr hx, hu, hn⟩
  rename_i hb
  have hb : '|' ∉ s := by simpa using hb
  split at h
  · rename_i t' ht
    cases h
    rw [nameTable_names _ (lookup_snd ht)] at hn
    cases hn
  split at h
  · rename_i w inner hw
    obtain ⟨pre, suf, hmem, -, -, rfl⟩ := matchWrap_some hw
    obtain ⟨i, hi, h⟩ := Res.bind_ok h
    rw [stripBoth_ok] at hi
    rcases wrapArm_names h hn with ⟨u, hu, hn⟩ | ⟨r, x, u, hr, hx, hu, hn⟩
    · exact Or.inr ⟨i, u, Child.wrap pre suf w i hb hmem hi, hu, hn⟩
    · exact Or.inr ⟨x, u, Child.args pre suf w i r x hb hmem hi hr hx, hu, hn⟩
  split at h
  · rename_i r hr
    obtain ⟨p, hp, hs⟩ := matchPrefix_some hr
    exact Or.inr ⟨r, t, Child.pre p r hb hp hs, h, hn⟩
  · split at h
    · cases h; cases hn
    · cases h
      exact Or.inl (by simpa [tyNames] using hn)

theorem names_infix {E : Env} {s : Str} {t : PyTy} (h : fromStr E s = .ok t) {n p : Str} (hn : n ∈ tyNames t)
    (hp : ',' ∉ p) (hne : p ≠ []) (hi : p <:+: n) : p <:+: s := by
  have : ∀ k s, annSize s < k → ∀ t, fromStr E s = .ok t → n ∈ tyNames t → p <:+: s := by
    intro k
    induction k with
    | zero => intro s h; omega
    | succ k ih =>
      intro s hsz t h hn
      rw [fromStr_unfold] at h
      rcases step_names h hn with rfl | ⟨x, u, hx, hu, hn⟩
      · exact hi
      · exact hx.infix hp hne (ih x (by have := hx.size_lt; omega) u hu hn)
  exact this _ s (Nat.lt_succ_self _) t h hn

theorem applyArgs_names {w t : PyTy} {ts : List PyTy} (h : applyArgs w ts = .ok t) {n : Str} (hn : n ∈ tyNames t) :
    n ∈ tyNames w ∨ n ∈ tyNamesList ts := by
  have one : ∀ {u : PyTy}, index ts 0 = .ok u → n ∈ tyNames u → n ∈ tyNamesList ts := fun hu hn =>
    mem_tyNamesList.mpr ⟨_, index_mem hu, hn⟩
  unfold applyArgs at h
  split at h
  · split at h
    · split at h
      · rename_i u hu
        cases h
        exact Or.inr (mem_tyNamesList.mpr ⟨u, List.mem_of_find?_eq_some hu, by simpa [tyNames] using hn⟩)
      · cases h
    · cases h
      exact Or.inr (by simpa [tyNames] using hn)
  · obtain ⟨u, hu, h⟩ := Res.bind_ok h
    cases h
    exact Or.inr (one hu (by simpa [tyNames] using hn))
  · obtain ⟨k, hk, h⟩ := Res.bind_ok h
    obtain ⟨v, hv, h⟩ := Res.bind_ok h
    cases h
    rw [tyNames, List.mem_append] at hn
    rcases hn with hn | hn
    · exact Or.inr (one hk hn)
    · exact Or.inr (mem_tyNamesList.mpr ⟨v, index_mem hv, hn⟩)
  · obtain ⟨u, hu, h⟩ := Res.bind_ok h
    cases h
    exact Or.inr (one hu (by simpa [tyNames] using hn))
  · obtain ⟨u, hu, h⟩ := Res.bind_ok h
    cases h
    exact Or.inr (one hu (by simpa [tyNames] using hn))
  · obtain ⟨u, hu, h⟩ := Res.bind_ok h
    cases h
    exact Or.inr (one hu (by simpa [tyNames] using hn))
  · cases h
    exact Or.inr (by simpa [tyNames] using hn)
  · exact Or.inr (mkFunction_names h hn)
  · exact Or.inr (one h hn)
  · cases h
    exact Or.inl hn

mutual
/-- **C16** (names): whatever occurs in a name inside the type of an annotation occurs in a text of the annotation, unless it has
a comma (lists of arguments are put together again with commas). -/
theorem C16_names_partial (E : Env) (p : Str) (hp : ',' ∉ p) (hne : p ≠ []) : ∀ (a : PyAnn) (t : PyTy), fromAnn E a = .ok t →
    ∀ n ∈ tyNames t, p <:+: n → ∃ s ∈ annTexts a, p <:+: s
  | .none, t, h, n, hn, _ => by
    simp only [fromAnn] at h
    cases h; cases hn
  | .cls supers repr, t, h, n, hn, hi => by
    rw [fromAnn] at h
    cases supers with
    | nil => exact ⟨repr, by simp [annTexts], names_infix (by simpa [fromClass, baseTable] using h) hn hp hne hi⟩
    | cons b bs =>
      exfalso
      unfold fromClass at h
      split at h
      · rename_i e he
        cases h
        rw [baseTable_names e (List.mem_of_find?_eq_some he)] at hn
        cases hn
      · rename_i hf
        rw [List.find?_eq_none] at hf
        have hall : ∃ e ∈ baseTable, e.1 = b := by cases b <;> decide
        obtain ⟨e, he, rfl⟩ := hall
        exact hf e he (by simp)
  | .typingPlain s, t, h, n, hn, hi => by
    rw [fromAnn] at h
    exact ⟨s, by simp [annTexts], names_infix h hn hp hne hi⟩
  | .typingOrigin o, t, h, n, hn, hi => by
    rw [fromAnn] at h
    obtain ⟨s, hs, hi⟩ := C16_names_partial E p hp hne o t h n hn hi
    exact ⟨s, by simpa [annTexts] using hs, hi⟩
  | .typingArgs o args, t, h, n, hn, hi => by
    rw [fromAnn] at h
    obtain ⟨w, hw, h⟩ := Res.bind_ok h
    obtain ⟨ts, hts, h⟩ := Res.bind_ok h
    rcases applyArgs_names h hn with hn | hn
    · obtain ⟨s, hs, hi⟩ := C16_names_partial E p hp hne o w hw n hn hi
      exact ⟨s, by simp [annTexts, hs], hi⟩
    · obtain ⟨s, hs, hi⟩ := namesList_infix E p hp hne args ts hts n hn hi
      exact ⟨s, by simp [annTexts, hs], hi⟩
  | .str s, t, h, n, hn, hi => by
    rw [fromAnn] at h
    exact ⟨s, by simp [annTexts], names_infix h hn hp hne hi⟩
  | .other s, t, h, n, hn, hi => by
    rw [fromAnn] at h
    exact ⟨s, by simp [annTexts], names_infix h hn hp hne hi⟩
theorem namesList_infix (E : Env) (p : Str) (hp : ',' ∉ p) (hne : p ≠ []) : ∀ (l : List PyAnn) (ts : List PyTy),
    fromAnns E l = .ok ts → ∀ n ∈ tyNamesList ts, p <:+: n → ∃ s ∈ annTextsList l, p <:+: s
  | [], ts, h, n, hn, _ => by
    simp only [fromAnns] at h
    cases h; cases hn
  | a :: l, ts, h, n, hn, hi => by
    rw [fromAnns] at h
    obtain ⟨t, ht, h⟩ := Res.bind_ok h
    obtain ⟨ts', hts, h⟩ := Res.bind_ok h
    cases h
    rw [tyNamesList, List.mem_append] at hn
    rcases hn with hn | hn
    · obtain ⟨s, hs, hi⟩ := C16_names_partial E p hp hne a t ht n hn hi
      exact ⟨s, by simp [annTextsList, hs], hi⟩
    · obtain ⟨s, hs, hi⟩ := namesList_infix E p hp hne l ts' hts n hn hi
      exact ⟨s, by simp [annTextsList, hs], hi⟩
end

/-- `dict[str, pkg.K]` -/
example : (fromAnn exEnv (.str c!"dict[str, pkg.K]")).map tyNames = .ok [c!"pkg.K"] ∧
    ∃ s ∈ annTexts (.str c!"dict[str, pkg.K]"), c!"pkg.K" <:+: s :=
  ⟨by decide +kernel, C16_names_partial exEnv c!"pkg.K" (by decide) (by decide) (.str c!"dict[str, pkg.K]")
    (.dict .string (.other c!"pkg.K")) (by decide +kernel) c!"pkg.K" (by decide) (List.infix_refl _)⟩

/-- With a comma it fails: the alternatives of `a[x|y]` are put together with a comma that is not in the text. -/
theorem C16_comma_counterexample : (fromAnn exEnv (.str c!"a[x|y]")).map tyNames = .ok [c!"a[x,y]"] ∧
    ∀ s ∈ annTexts (.str c!"a[x|y]"), ¬ c!"," <:+: s := ⟨by decide +kernel, by decide +kernel⟩

end Bindgen

import Verif.Spec.RustTy
import Verif.Lemmas.Str
import Mathlib.Data.List.TakeWhile
/-! # Recognising numpy arrays -/
namespace Bindgen
open Spec

theorem Str.beforeChar_of_not_mem {c : Char} {s : Str} (h : c ∉ s) : Str.beforeChar c s = s := by
  unfold Str.beforeChar
  induction s with
  | nil => rfl
  | cons a s ih =>
    simp only [List.mem_cons, not_or] at h
    rw [List.takeWhile_cons_of_pos (by simpa using fun e => h.1 e.symm), ih h.2]

theorem Str.beforeChar_append {c : Char} {s r : Str} (h : c ∉ s) : Str.beforeChar c (s ++ c :: r) = s := by
  unfold Str.beforeChar
  induction s with
  | nil => rw [List.nil_append, List.takeWhile_cons_of_neg (by simp)]
  | cons a s ih =>
    simp only [List.mem_cons, not_or] at h
    rw [List.cons_append, List.takeWhile_cons_of_pos (by simpa using fun e => h.1 e.symm), ih h.2]

theorem lower_char {c d u : Char} (hu : u.toNat + 32 = d.toNat) (h1 : 65 ≤ u.toNat) (h2 : u.toNat ≤ 90) :
    (if 'A'.toNat ≤ c.toNat && c.toNat ≤ 'Z'.toNat then Char.ofNat (c.toNat + 32) else c) = d ↔ c = d ∨ c = u := by
  have hA : 'A'.toNat = 65 := rfl
  have hZ : 'Z'.toNat = 90 := rfl
  rw [hA, hZ]
  constructor
  · intro h
    split at h
    · rename_i hc
      simp only [Bool.and_eq_true, decide_eq_true_eq] at hc
      have := congrArg Char.toNat h
      rw [show (Char.ofNat (c.toNat + 32)).toNat = c.toNat + 32 from
        (by decide : ∀ k < 91, (Char.ofNat (k + 32)).toNat = k + 32) _ (by omega)] at this
      exact Or.inr (Char.toNat_inj.mp (by omega))
    · exact Or.inl h
  · rintro (rfl | rfl)
    · rw [if_neg]
      simp only [Bool.and_eq_true, decide_eq_true_eq]
      omega
    · rw [if_pos (by simp only [Bool.and_eq_true, decide_eq_true_eq]; omega), hu]
      exact Char.ofNat_toNat d

theorem lower_step {d u : Char} {t : Str} {ls : List Str} (h : ∀ s, Str.lowerAscii s = t ↔ Letters s ls)
    (hu : u.toNat + 32 = d.toNat) (h1 : 65 ≤ u.toNat) (h2 : u.toNat ≤ 90) (s : Str) :
    Str.lowerAscii s = d :: t ↔ Letters s ([d, u] :: ls) := by
  cases s with
  | nil => simp [Str.lowerAscii, Letters]
  | cons c s =>
    have := h s
    simp only [Str.lowerAscii, List.map_cons, List.cons.injEq, Letters] at this ⊢
    rw [lower_char hu h1 h2, this]
    simp

theorem ndarray_letters (s : Str) : Str.lowerAscii s = c!"ndarray" ↔
    Letters s [c!"nN", c!"dD", c!"aA", c!"rR", c!"rR", c!"aA", c!"yY"] := by
  refine lower_step (lower_step (lower_step (lower_step (lower_step (lower_step (lower_step (fun s => ?_)
    ?_ ?_ ?_) ?_ ?_ ?_) ?_ ?_ ?_) ?_ ?_ ?_) ?_ ?_ ?_) ?_ ?_ ?_) ?_ ?_ ?_ s
  · cases s <;> simp [Str.lowerAscii, Letters]
  all_goals decide

theorem letters_mem {s : Str} {ls : List Str} (h : Letters s ls) : ∀ c ∈ s, ∃ l ∈ ls, c ∈ l := by
  induction s generalizing ls with
  | nil => nofun
  | cons d s ih =>
    cases ls with
    | nil => cases h
    | cons l ls =>
      intro c hc
      rcases List.mem_cons.mp hc with rfl | hc
      · exact ⟨l, by simp, h.1⟩
      · obtain ⟨l', h1, h2⟩ := ih h.2 c hc
        exact ⟨l', by simp [h1], h2⟩

/-- The last piece of a split text. -/
theorem splitChar_last (sep : Char) (s : Str) : ∃ pre last, s = pre ++ last ∧ (pre = [] ∨ pre.getLast? = some sep) ∧ sep ∉ last ∧
    (Str.splitChar sep s).getLast? = some last := by
  induction s with
  | nil => exact ⟨[], [], rfl, Or.inl rfl, nofun, rfl⟩
  | cons c s ih =>
    obtain ⟨pre, last, rfl, h1, h2, h3⟩ := ih
    by_cases hc : c = sep
    · subst hc
      refine ⟨c :: pre, last, rfl, Or.inr ?_, h2, ?_⟩
      · rcases h1 with rfl | h1
        · rfl
        · rw [List.getLast?_cons, h1]; rfl
      · rw [Str.splitChar_cons_sep, List.getLast?_cons, h3]; rfl
    · rcases h1 with rfl | h1
      · refine ⟨[], c :: last, rfl, Or.inl rfl, by simp [Ne.symm hc, h2], ?_⟩
        rw [List.nil_append] at h3 ⊢
        rw [Str.splitChar_of_not_mem (by simp [Ne.symm hc, h2])]
        rfl
      · refine ⟨c :: pre, last, rfl, Or.inr (by rw [List.getLast?_cons, h1]; rfl), h2, ?_⟩
        rw [Str.splitChar_cons_ne hc]
        cases hs : Str.splitChar sep (pre ++ last) with
        | nil => exact absurd hs (Str.splitChar_ne_nil _ _)
        | cons p l =>
          rw [hs] at h3
          cases l with
          | nil =>
            exfalso
            have hj := Str.join_splitChar sep (pre ++ last)
            rw [hs] at hj
            simp only [Str.join] at hj
            have hm := Str.not_mem_of_mem_splitChar (sep := sep) (s := pre ++ last) (p := p) (by rw [hs]; simp)
            rw [hj] at hm
            exact hm (by simp [List.mem_of_getLast? h1])
          | cons q l => simpa [Str.consHead] using h3

theorem append_last {sep : Char} {a b a' b' : Str} (h : a ++ b = a' ++ b') (ha : a = [] ∨ a.getLast? = some sep)
    (ha' : a' = [] ∨ a'.getLast? = some sep) (hb : sep ∉ b) (hb' : sep ∉ b') : b = b' := by
  rcases List.append_eq_append_iff.mp h with ⟨c, h1, h2⟩ | ⟨c, h1, h2⟩
  · by_cases hc : c = []
    · subst hc; simpa using h2
    · exfalso
      rcases ha' with rfl | h'
      · exact hc (List.append_eq_nil_iff.mp h1.symm).2
      · rw [h1, List.getLast?_append, List.getLast?_eq_some_getLast hc] at h'
        have := Option.some.inj h'
        exact hb (by rw [h2, ← this]; simp)
  · by_cases hc : c = []
    · subst hc; simpa using h2.symm
    · exfalso
      rcases ha with rfl | h'
      · exact hc (List.append_eq_nil_iff.mp h1.symm).2
      · rw [h1, List.getLast?_append, List.getLast?_eq_some_getLast hc] at h'
        have := Option.some.inj h'
        exact hb' (by rw [h2, ← this]; simp)

theorem isNdarray_iff (E : Env) (n : Str) : isNdarray E n = true ↔ NumpyArray E n := by
  unfold isNdarray NumpyArray
  simp only [Bool.and_eq_true, decide_eq_true_eq]
  refine and_congr_right fun _ => ?_
  rw [ndarray_letters]
  obtain ⟨pre, last, h1, h2, h3, h4⟩ := splitChar_last '.' (Str.beforeChar '[' n)
  rw [h4]
  have hb : ∃ rest, n = Str.beforeChar '[' n ++ rest ∧ (rest = [] ∨ rest.head? = some '[') ∧ '[' ∉ Str.beforeChar '[' n := by
    refine ⟨n.dropWhile (· ≠ '['), (List.takeWhile_append_dropWhile ..).symm, ?_, fun hm => by simpa using List.mem_takeWhile_imp hm⟩
    cases hd : n.dropWhile (· ≠ '[') with
    | nil => exact Or.inl rfl
    | cons x l =>
      have := List.head?_dropWhile_not (· ≠ '[') n
      rw [hd] at this
      right
      simpa using this
  obtain ⟨rest, h5, h6, h7⟩ := hb
  constructor
  · intro h
    refine ⟨pre, last, rest, by rw [← h1]; exact h5, h, h2, fun hm => h7 (by rw [h1]; simp [hm]), h6⟩
  · rintro ⟨pre', nm, rest', h, hl, hp, hb, hr⟩
    have hnm : '[' ∉ nm ∧ '.' ∉ nm := by
      constructor <;> intro hm <;> obtain ⟨l, h1, h2⟩ := letters_mem hl _ hm <;> revert h1 h2 <;>
        simp only [List.mem_cons, List.not_mem_nil, or_false] <;> rintro (rfl | rfl | rfl | rfl | rfl | rfl | rfl) <;> decide
    have h8 : Str.beforeChar '[' n = pre' ++ nm := by
      have hnot : '[' ∉ pre' ++ nm := by simp [hb, hnm.1]
      rcases hr with rfl | hr
      · rw [h, List.append_nil]; exact Str.beforeChar_of_not_mem hnot
      · cases rest' with
        | nil => cases hr
        | cons x l => cases hr; rw [h]; exact Str.beforeChar_append hnot
    rw [h8] at h1
    have : last = nm := append_last h1.symm h2 hp h3 hnm.2
    rw [Option.getD_some, this]
    exact hl

theorem isNdarray_false {E : Env} {n : Str} (h : ¬ NumpyArray E n) : isNdarray E n = false := by
  rw [← isNdarray_iff] at h
  simpa using h

end Bindgen

import Verif.Model.Str
/-! # Lemmas about the string operations -/
namespace Bindgen
namespace Str

theorem stripPrefix_eq_some {p s r : Str} : stripPrefix p s = some r ↔ s = p ++ r := by
  induction p generalizing s with
  | nil => simp [stripPrefix, eq_comm]
  | cons a p ih =>
    cases s with
    | nil => simp [stripPrefix]
    | cons b s =>
      simp only [stripPrefix, List.cons_append, List.cons.injEq]
      split
      · rename_i h; subst h; simp [ih]
      · rename_i h; simp [Ne.symm h]

theorem stripPrefix_append (p r : Str) : stripPrefix p (p ++ r) = some r :=
  stripPrefix_eq_some.mpr rfl

theorem stripPrefix_eq_none {p s : Str} : stripPrefix p s = none ↔ ¬ p <+: s := by
  rw [← Option.not_isSome_iff_eq_none, Option.isSome_iff_exists]
  constructor
  · rintro h ⟨r, hr⟩
    exact h ⟨r, stripPrefix_eq_some.mpr hr.symm⟩
  · rintro h ⟨r, hr⟩
    exact h ⟨r, (stripPrefix_eq_some.mp hr).symm⟩

theorem stripSuffix_eq_some {p s r : Str} : stripSuffix p s = some r ↔ s = r ++ p := by
  simp only [stripSuffix, Option.map_eq_some_iff, stripPrefix_eq_some]
  constructor
  · rintro ⟨a, h, rfl⟩
    have := congrArg List.reverse h
    simpa using this
  · rintro rfl
    exact ⟨r.reverse, by simp, by simp⟩

theorem stripSuffix_eq_none {p s : Str} : stripSuffix p s = none ↔ ¬ p <:+ s := by
  rw [← Option.not_isSome_iff_eq_none, Option.isSome_iff_exists]
  constructor
  · rintro h ⟨r, hr⟩
    exact h ⟨r, stripSuffix_eq_some.mpr hr.symm⟩
  · rintro h ⟨r, hr⟩
    exact h ⟨r, (stripSuffix_eq_some.mp hr).symm⟩

theorem startsWith_iff {s p : Str} : startsWith s p = true ↔ p <+: s := by
  simp [startsWith]

theorem endsWith_iff {s p : Str} : endsWith s p = true ↔ p <:+ s := by
  simp [endsWith]

theorem splitChar_ne_nil (sep : Char) (s : Str) : splitChar sep s ≠ [] := by
  cases s with
  | nil => simp [splitChar]
  | cons c s =>
    simp only [splitChar]
    split
    · simp
    · cases splitChar sep s <;> simp [consHead]

theorem splitChar_cons_ne {sep c : Char} (h : c ≠ sep) (s : Str) :
    splitChar sep (c :: s) = consHead c (splitChar sep s) := by
  simp [splitChar, h]

theorem splitChar_cons_sep (sep : Char) (s : Str) :
    splitChar sep (sep :: s) = [] :: splitChar sep s := by
  simp [splitChar]

theorem splitChar_append_of_not_mem {sep : Char} {a : Str} (h : sep ∉ a) (s : Str) :
    splitChar sep (a ++ sep :: s) = a :: splitChar sep s := by
  induction a with
  | nil => simp [splitChar]
  | cons c a ih =>
    simp only [List.mem_cons, not_or] at h
    simp only [List.cons_append]
    rw [splitChar_cons_ne (Ne.symm h.1), ih h.2]
    rfl

theorem splitChar_of_not_mem {sep : Char} {a : Str} (h : sep ∉ a) : splitChar sep a = [a] := by
  induction a with
  | nil => simp [splitChar]
  | cons c a ih =>
    simp only [List.mem_cons, not_or] at h
    rw [splitChar_cons_ne (Ne.symm h.1), ih h.2]
    rfl

/-- Splitting what was joined. -/
theorem splitChar_join {sep : Char} {l : List Str} (hne : l ≠ []) (h : ∀ s ∈ l, sep ∉ s) :
    splitChar sep (join [sep] l) = l := by
  induction l with
  | nil => exact absurd rfl hne
  | cons a l ih =>
    cases l with
    | nil => simpa [join] using splitChar_of_not_mem (h a (by simp))
    | cons b l =>
      have : join [sep] (a :: b :: l) = a ++ sep :: join [sep] (b :: l) := by simp [join]
      rw [this, splitChar_append_of_not_mem (h a (by simp)), ih (by simp) (fun s hs => h s (by simp [hs]))]

/-- Joining what was split. -/
theorem join_splitChar (sep : Char) (s : Str) : join [sep] (splitChar sep s) = s := by
  induction s with
  | nil => simp [splitChar, join]
  | cons c s ih =>
    by_cases h : c = sep
    · subst h
      rw [splitChar_cons_sep]
      cases hs : splitChar c s with
      | nil => exact absurd hs (splitChar_ne_nil _ _)
      | cons p ps => rw [hs] at ih; simp [join, ih]
    · rw [splitChar_cons_ne h]
      cases hs : splitChar sep s with
      | nil => exact absurd hs (splitChar_ne_nil _ _)
      | cons p ps =>
        rw [hs] at ih
        cases ps with
        | nil => simp only [consHead, join] at *; rw [ih]
        | cons q ps => simp only [consHead, join, List.cons_append] at *; rw [ih]

theorem not_mem_of_mem_splitChar {sep : Char} {s p : Str} (h : p ∈ splitChar sep s) : sep ∉ p := by
  induction s generalizing p with
  | nil => simp [splitChar] at h; subst h; simp
  | cons c s ih =>
    by_cases hc : c = sep
    · subst hc
      rw [splitChar_cons_sep, List.mem_cons] at h
      rcases h with rfl | h
      · simp
      · exact ih h
    · rw [splitChar_cons_ne hc] at h
      cases hs : splitChar sep s with
      | nil => exact absurd hs (splitChar_ne_nil _ _)
      | cons q qs =>
        rw [hs] at h ih
        simp only [consHead, List.mem_cons] at h
        rcases h with rfl | h
        · simp only [List.mem_cons, not_or]
          exact ⟨Ne.symm hc, ih (by simp)⟩
        · exact ih (by simp [h])

theorem join_cons_cons (sep a b : Str) (l : List Str) :
    join sep (a :: b :: l) = a ++ sep ++ join sep (b :: l) := rfl

theorem join_cons_of_ne_nil (sep a : Str) {l : List Str} (h : l ≠ []) :
    join sep (a :: l) = a ++ sep ++ join sep l := by
  cases l with
  | nil => exact absurd rfl h
  | cons b l => rfl

theorem join_replicate_nil (sep : Str) (n : Nat) {l : List Str} (h : l ≠ []) :
    join sep (List.replicate n [] ++ l) = (List.replicate n sep).flatten ++ join sep l := by
  induction n with
  | zero => simp
  | succ n ih =>
    rw [List.replicate_succ, List.cons_append, join_cons_of_ne_nil _ _ (by simp [h]), ih]
    simp [List.replicate_succ]

theorem le_refl (s : Str) : le s s = true := by
  induction s with
  | nil => rfl
  | cons a s ih => simp [le, ih]

theorem le_total (s t : Str) : le s t = true ∨ le t s = true := by
  induction s generalizing t with
  | nil => simp [le]
  | cons a s ih =>
    cases t with
    | nil => simp [le]
    | cons b t =>
      simp only [le]
      split
      · simp
      · split
        · simp
        · exact ih t

theorem le_antisymm {s t : Str} (h : le s t = true) (h' : le t s = true) : s = t := by
  induction s generalizing t with
  | nil => cases t with
    | nil => rfl
    | cons b t => simp [le] at h'
  | cons a s ih =>
    cases t with
    | nil => simp [le] at h
    | cons b t =>
      simp only [le] at h h'
      by_cases h1 : a.toNat < b.toNat
      · have : ¬ b.toNat < a.toNat := by omega
        simp [h1, this] at h'
      · by_cases h2 : b.toNat < a.toNat
        · simp [h1, h2] at h
        · simp only [h1, h2, if_false] at h h'
          have : a = b := Char.toNat_inj.mp (by omega)
          rw [this, ih h h']

theorem le_trans {s t u : Str} (h : le s t = true) (h' : le t u = true) : le s u = true := by
  induction s generalizing t u with
  | nil => simp [le]
  | cons a s ih =>
    cases t with
    | nil => simp [le] at h
    | cons b t =>
      cases u with
      | nil => simp [le] at h'
      | cons c u =>
        simp only [le] at h h' ⊢
        by_cases h1 : a.toNat < b.toNat
        · by_cases h2 : b.toNat < c.toNat
          · simp [show a.toNat < c.toNat by omega]
          · by_cases h3 : c.toNat < b.toNat
            · simp [h2, h3] at h'
            · simp [show a.toNat < c.toNat by omega]
        · by_cases h2 : b.toNat < a.toNat
          · simp [h1, h2] at h
          · simp only [h1, h2, if_false] at h
            by_cases h3 : b.toNat < c.toNat
            · simp [show a.toNat < c.toNat by omega]
            · by_cases h4 : c.toNat < b.toNat
              · simp [h3, h4] at h'
              · simp only [h3, h4, if_false] at h'
                simp only [show ¬ a.toNat < c.toNat by omega, show ¬ c.toNat < a.toNat by omega, if_false]
                exact ih h h'

end Str

theorem insertBy_perm {α : Type} (le : α → α → Bool) (a : α) (l : List α) :
    (insertBy le a l).Perm (a :: l) := by
  induction l with
  | nil => exact List.Perm.refl _
  | cons b l ih =>
    simp only [insertBy]
    split
    · exact List.Perm.refl _
    · exact (ih.cons b).trans (List.Perm.swap a b l)

theorem sortBy_perm {α : Type} (le : α → α → Bool) (l : List α) : (sortBy le l).Perm l := by
  induction l with
  | nil => exact List.Perm.refl _
  | cons a l ih => exact (insertBy_perm le a _).trans (ih.cons a)

theorem sortBy_pairwise {α : Type} (le : α → α → Bool)
    (trans : ∀ a b c, le a b = true → le b c = true → le a c = true)
    (total : ∀ a b, le a b = true ∨ le b a = true) (l : List α) :
    (sortBy le l).Pairwise (fun a b => le a b = true) := by
  have key : ∀ a (l : List α), l.Pairwise (fun a b => le a b = true) →
      (insertBy le a l).Pairwise (fun a b => le a b = true) := by
    intro a l hl
    induction l with
    | nil => simp [insertBy]
    | cons b l ih =>
      rw [List.pairwise_cons] at hl
      simp only [insertBy]
      split
      · rename_i h
        rw [List.pairwise_cons, List.pairwise_cons]
        refine ⟨?_, hl⟩
        intro c hc
        rcases List.mem_cons.mp hc with rfl | hc
        · exact h
        · exact trans _ _ _ h (hl.1 c hc)
      · rename_i h
        rw [List.pairwise_cons]
        refine ⟨?_, ih hl.2⟩
        intro c hc
        rcases List.mem_cons.mp ((insertBy_perm le a l).mem_iff.mp hc) with rfl | hc
        · rcases total b c with h' | h'
          · exact h'
          · exact absurd h' h
        · exact hl.1 c hc
  induction l with
  | nil => exact List.Pairwise.nil
  | cons a l ih => exact key a _ ih

end Bindgen

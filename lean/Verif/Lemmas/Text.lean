import Mathlib.Data.List.TakeWhile
import Mathlib.Data.List.Chain
import Verif.Model.Text
import Verif.Lemmas.Str
/-! # Lemmas about docstring formatting -/
namespace Bindgen

/-! ## De-duplication -/

/-- Removing repeated neighbours does not create new neighbours. -/
theorem condDedupGo_chain {R : Char → Char → Prop} (p : Char → Bool) (s : Str) (prev : Option Char) (a : Char)
    (hprev : ∀ d, prev = some d → d = a) (h : (a :: s).IsChain R) :
    (a :: condDedupGo p prev s).IsChain R := by
  induction s generalizing prev a with
  | nil => simp [condDedupGo]
  | cons c s ih =>
    rw [List.isChain_cons_cons] at h
    simp only [condDedupGo]
    split
    · split
      · rw [List.isChain_cons_cons]
        exact ⟨h.1, ih (some c) c (fun d hd => by simpa using hd.symm) h.2⟩
      · rename_i hc
        have : c = a := hprev c (by simpa using (not_not.mp hc).symm)
        subst this
        exact ih (some c) c (fun d hd => by simpa using hd.symm) h.2
    · rw [List.isChain_cons_cons]
      exact ⟨h.1, ih none c (fun d hd => by simp at hd) h.2⟩

theorem condDedup_chain_cons {R : Char → Char → Prop} (p : Char → Bool) (s : Str) (a : Char)
    (h : (a :: s).IsChain R) : (a :: condDedup p s).IsChain R :=
  condDedupGo_chain p s none a (fun d hd => by simp at hd) h

/-- What is removed is only repetition: every character of the result was there, in order. -/
theorem condDedupGo_sublist (p : Char → Bool) (s : Str) (prev : Option Char) :
    (condDedupGo p prev s).Sublist s := by
  induction s generalizing prev with
  | nil => simp [condDedupGo]
  | cons c s ih =>
    simp only [condDedupGo]
    split
    · split
      · exact (ih _).cons_cons c
      · exact (ih _).cons c
    · exact (ih _).cons_cons c

/-- After the pass, no two neighbours are equal characters satisfying the predicate. -/
theorem condDedupGo_nodup (p : Char → Bool) (s : Str) (a : Char) (prev : Option Char)
    (hp : (p a = true ∧ prev = some a) ∨ (p a = false ∧ prev = none)) :
    (a :: condDedupGo p prev s).IsChain (fun x y => ¬ (x = y ∧ p x = true)) := by
  induction s generalizing prev a with
  | nil => simp [condDedupGo]
  | cons c s ih =>
    simp only [condDedupGo]
    split
    · rename_i hc
      split
      · rename_i hne
        rw [List.isChain_cons_cons]
        refine ⟨?_, ih c (some c) (Or.inl ⟨hc, rfl⟩)⟩
        rintro ⟨rfl, hpa⟩
        rcases hp with ⟨_, rfl⟩ | ⟨h, _⟩
        · exact hne rfl
        · rw [h] at hpa; exact absurd hpa (by simp)
      · rename_i heq
        have heq := not_not.mp heq
        rcases hp with ⟨hpa, rfl⟩ | ⟨_, rfl⟩
        · simp only [Option.some.injEq] at heq
          subst heq
          exact ih c (some c) (Or.inl ⟨hc, rfl⟩)
        · exact absurd heq (by simp)
    · rename_i hc
      rw [List.isChain_cons_cons]
      refine ⟨?_, ih c none (Or.inr ⟨by simpa using hc, rfl⟩)⟩
      rintro ⟨rfl, hpa⟩
      exact hc hpa

theorem condDedup_nodup (p : Char → Bool) (s : Str) :
    (condDedup p s).IsChain (fun x y => ¬ (x = y ∧ p x = true)) := by
  cases s with
  | nil => simp [condDedup, condDedupGo]
  | cons c s =>
    simp only [condDedup, condDedupGo]
    split
    · rename_i hc
      simp only [ne_eq, reduceCtorEq, not_false_eq_true, if_true]
      exact condDedupGo_nodup p s c (some c) (Or.inl ⟨hc, rfl⟩)
    · rename_i hc
      exact condDedupGo_nodup p s c none (Or.inr ⟨by simpa using hc, rfl⟩)

/-- The last character stays. -/
theorem condDedupGo_append_singleton (p : Char → Bool) (s : Str) (prev : Option Char) (z : Char) (hz : p z = false) :
    condDedupGo p prev (s ++ [z]) = condDedupGo p prev s ++ [z] := by
  induction s generalizing prev with
  | nil => simp [condDedupGo, hz]
  | cons c s ih =>
    simp only [List.cons_append, condDedupGo]
    split
    · split <;> simp [ih]
    · simp [ih]

/-! ## Trimming -/

theorem dropWhile_head_not {p : Char → Bool} {s : Str} {c : Char} (h : (s.dropWhile p).head? = some c) :
    p c = false := by
  induction s with
  | nil => simp at h
  | cons a s ih =>
    cases ha : p a with
    | true => rw [List.dropWhile_cons_of_pos ha] at h; exact ih h
    | false =>
      rw [List.dropWhile_cons_of_neg (by simp [ha])] at h
      simp only [List.head?_cons, Option.some.injEq] at h
      subst h; exact ha

theorem trimEnd_last {s : Str} {c : Char} (h : (Str.trimEnd s).getLast? = some c) : Str.isWs c = false := by
  unfold Str.trimEnd at h
  rw [List.getLast?_reverse] at h
  exact dropWhile_head_not h

theorem trimEnd_prefix (s : Str) : Str.trimEnd s <+: s := by
  unfold Str.trimEnd
  have := List.dropWhile_suffix (l := s.reverse) Str.isWs
  have := List.reverse_prefix.mpr this
  rwa [List.reverse_reverse] at this

theorem trim_last {s : Str} {c : Char} (h : (Str.trim s).getLast? = some c) : Str.isWs c = false :=
  trimEnd_last h

theorem trim_head {s : Str} {c : Char} (h : (Str.trim s).head? = some c) : Str.isWs c = false := by
  obtain ⟨t, ht⟩ := trimEnd_prefix (Str.trimStart s)
  have h' : (Str.trimStart s).head? = some c := by
    rw [← ht]
    unfold Str.trim at h
    cases hs : Str.trimEnd (Str.trimStart s) with
    | nil => rw [hs] at h; simp at h
    | cons a u => rw [hs] at h; simpa using h
  exact dropWhile_head_not h'

theorem trim_sublist (s : Str) : (Str.trim s).Sublist s :=
  ((trimEnd_prefix _).sublist).trans (List.dropWhile_sublist _)

theorem filter_dropWhile_ws (s : Str) :
    (s.dropWhile Str.isWs).filter (fun c => !Str.isWs c) = s.filter (fun c => !Str.isWs c) := by
  induction s with
  | nil => rfl
  | cons a s ih =>
    cases ha : Str.isWs a with
    | true => rw [List.dropWhile_cons_of_pos ha, ih, List.filter_cons_of_neg (by simp [ha])]
    | false => rw [List.dropWhile_cons_of_neg (by simp [ha])]

theorem filter_trim (s : Str) : (Str.trim s).filter (fun c => !Str.isWs c) = s.filter (fun c => !Str.isWs c) := by
  unfold Str.trim Str.trimEnd
  rw [List.filter_reverse, filter_dropWhile_ws, List.filter_reverse, List.reverse_reverse]
  exact filter_dropWhile_ws s

theorem dropWhile_append_of_exists {p : Char → Bool} {s : Str} (t : Str) (h : ∃ c ∈ s, p c = false) :
    (s ++ t).dropWhile p = s.dropWhile p ++ t := by
  induction s with
  | nil => simp at h
  | cons a s ih =>
    cases ha : p a with
    | true =>
      rw [List.cons_append, List.dropWhile_cons_of_pos ha, List.dropWhile_cons_of_pos ha]
      apply ih
      obtain ⟨c, hc, hp⟩ := h
      rcases List.mem_cons.mp hc with rfl | hc
      · rw [ha] at hp; simp at hp
      · exact ⟨c, hc, hp⟩
    | false =>
      rw [List.cons_append, List.dropWhile_cons_of_neg (by simp [ha]), List.dropWhile_cons_of_neg (by simp [ha])]
      rfl

/-- Trailing white space does not matter for `trim`. -/
theorem trim_append_ws (s : Str) {w : Char} (hw : Str.isWs w = true) : Str.trim (s ++ [w]) = Str.trim s := by
  unfold Str.trim Str.trimStart
  by_cases h : ∃ c ∈ s, Str.isWs c = false
  · rw [dropWhile_append_of_exists _ h]
    unfold Str.trimEnd
    rw [List.reverse_append, List.reverse_singleton, List.singleton_append, List.dropWhile_cons_of_pos hw]
  · have hall : ∀ c ∈ s, Str.isWs c = true := by
      intro c hc
      by_contra hn
      exact h ⟨c, hc, by simpa using hn⟩
    have h1 : (s ++ [w]).dropWhile Str.isWs = [] := by
      rw [List.dropWhile_eq_nil_iff]
      intro c hc
      rcases List.mem_append.mp hc with hc | hc
      · exact hall c hc
      · simp only [List.mem_singleton] at hc; subst hc; exact hw
    have h2 : s.dropWhile Str.isWs = [] := List.dropWhile_eq_nil_iff.mpr hall
    rw [h1, h2]

/-! ## Lines -/

theorem splitInclusive_of_splitChar (s : Str) :
    Str.splitInclusive s =
      ((Str.splitChar '\n' s).dropLast.map (· ++ ['\n'])) ++
        (match (Str.splitChar '\n' s).getLast? with
          | some [] => []
          | some l => [l]
          | none => []) := by
  induction s with
  | nil => simp [Str.splitInclusive, Str.splitChar]
  | cons c s ih =>
    by_cases hc : c = '\n'
    · subst hc
      rw [Str.splitChar_cons_sep, Str.splitInclusive, if_pos rfl, ih]
      cases hs : Str.splitChar '\n' s with
      | nil => exact absurd hs (Str.splitChar_ne_nil _ _)
      | cons q qs => simp [List.getLast?_cons_cons]
    · rw [Str.splitChar_cons_ne hc, Str.splitInclusive, if_neg hc, ih]
      cases hs : Str.splitChar '\n' s with
      | nil => exact absurd hs (Str.splitChar_ne_nil _ _)
      | cons q qs =>
        cases qs with
        | nil =>
          cases q with
          | nil => simp [Str.consHead]
          | cons x q => simp [Str.consHead]
        | cons r qs => simp [Str.consHead, List.getLast?_cons_cons]

/-- The pieces between newlines, without an empty piece after a final newline. -/
def linePieces (s : Str) : List Str :=
  if (Str.splitChar '\n' s).getLast? = some [] then (Str.splitChar '\n' s).dropLast else Str.splitChar '\n' s

theorem stripEol_newline_trim (q : Str) : Str.trim (Str.stripEol (q ++ ['\n'])) = Str.trim q := by
  unfold Str.stripEol
  rw [Str.stripSuffix_eq_some.mpr rfl]
  simp only
  split
  · rfl
  · rename_i l h
    rw [Str.stripSuffix_eq_some] at h
    rw [h, trim_append_ws _ (by decide)]

theorem stripEol_of_not_mem {q : Str} (h : '\n' ∉ q) : Str.stripEol q = q := by
  unfold Str.stripEol
  rw [Str.stripSuffix_eq_none.mpr]
  rintro ⟨t, rfl⟩
  exact h (by simp)

theorem lines_map_trim (s : Str) : (Str.lines s).map Str.trim = (linePieces s).map Str.trim := by
  unfold Str.lines
  rw [splitInclusive_of_splitChar]
  unfold linePieces
  have hne := Str.splitChar_ne_nil '\n' s
  have hmem : ∀ p ∈ Str.splitChar '\n' s, '\n' ∉ p := fun p hp => Str.not_mem_of_mem_splitChar hp
  generalize Str.splitChar '\n' s = L at hne hmem
  have hL : L = L.dropLast ++ [L.getLast hne] := (List.dropLast_concat_getLast hne).symm
  have hg : L.getLast? = some (L.getLast hne) := List.getLast?_eq_some_getLast hne
  have hlast : '\n' ∉ L.getLast hne := hmem _ (List.getLast_mem hne)
  have hinit : (L.dropLast.map (· ++ ['\n'])).map (fun x => Str.trim (Str.stripEol x)) = L.dropLast.map Str.trim := by
    rw [List.map_map]
    apply List.map_congr_left
    intro q _
    exact stripEol_newline_trim q
  rw [hg]
  cases hl : L.getLast hne with
  | nil =>
    simp only [List.append_nil, if_true, List.map_map]
    rw [List.map_map] at hinit
    exact hinit
  | cons x q =>
    rw [if_neg (by simp)]
    conv_rhs => rw [hL]
    rw [hl] at hlast
    simp only [List.map_append, List.map_cons, List.map_nil, stripEol_of_not_mem hlast, hl]
    rw [List.map_map] at hinit ⊢
    congr 1
    rw [List.map_map]
    exact hinit

theorem linePieces_join (s : Str) :
    Str.join ['\n'] (linePieces s) = s ∨ Str.join ['\n'] (linePieces s) ++ ['\n'] = s := by
  unfold linePieces
  have hj := Str.join_splitChar '\n' s
  have hne := Str.splitChar_ne_nil '\n' s
  generalize Str.splitChar '\n' s = L at hj hne
  split
  · rename_i h
    have hL : L = L.dropLast ++ [[]] := by
      rw [List.getLast?_eq_some_getLast hne, Option.some.injEq] at h
      rw [← h, List.dropLast_concat_getLast]
    generalize L.dropLast = M at hL
    subst hL
    cases hM : M with
    | nil => left; rw [hM] at hj; simpa [Str.join] using hj
    | cons a M' =>
      right
      rw [← hj, ← hM]
      have : ∀ M : List Str, M ≠ [] → Str.join ['\n'] M ++ ['\n'] = Str.join ['\n'] (M ++ [[]]) := by
        intro M hM
        induction M with
        | nil => exact absurd rfl hM
        | cons a M ih =>
          cases M with
          | nil => simp [Str.join]
          | cons b M =>
            have := ih (by simp)
            rw [Str.join_cons_cons, List.append_assoc, this]
            simp [Str.join]
      exact this M (by simp [hM])
  · exact Or.inl hj

theorem linePieces_mem {s p : Str} (h : p ∈ linePieces s) : '\n' ∉ p := by
  unfold linePieces at h
  split at h
  · exact Str.not_mem_of_mem_splitChar (List.dropLast_subset _ h)
  · exact Str.not_mem_of_mem_splitChar h

theorem join_map_sublist (f : Str → Str) (hf : ∀ s, (f s).Sublist s) (sep : Str) (L : List Str) :
    (Str.join sep (L.map f)).Sublist (Str.join sep L) := by
  induction L with
  | nil => exact List.Sublist.refl _
  | cons a L ih =>
    cases L with
    | nil => exact hf a
    | cons b L => exact ((hf a).append (List.Sublist.refl sep)).append ih

theorem filter_join (P : Char → Bool) (f : Str → Str)
    (hf : ∀ s, (f s).filter P = s.filter P) (L : List Str) :
    (Str.join ['\n'] (L.map f)).filter P = (Str.join ['\n'] L).filter P := by
  induction L with
  | nil => rfl
  | cons a L ih =>
    cases L with
    | nil => exact hf a
    | cons b L =>
      simp only [List.map_cons, Str.join_cons_cons, List.filter_append] at ih ⊢
      rw [hf a, ih]

/-! ## Trimmed lines as a condition on neighbours -/

/-- Neighbours allowed in a text with trimmed lines: white space next to a newline is a newline. -/
def Trimmed (a b : Char) : Prop :=
  (a = '\n' → Str.isWs b = true → b = '\n') ∧ (b = '\n' → Str.isWs a = true → a = '\n')

/-- Chain with a virtual newline on both sides. -/
def LineChain (s : Str) : Prop := ('\n' :: (s ++ ['\n'])).IsChain Trimmed

theorem trimmed_nl : Trimmed '\n' '\n' := ⟨fun _ _ => rfl, fun _ _ => rfl⟩

theorem lineChain_of_line {l : Str} (hn : '\n' ∉ l) (h1 : ∀ c, l.head? = some c → Str.isWs c = false)
    (h2 : ∀ c, l.getLast? = some c → Str.isWs c = false) : LineChain l := by
  unfold LineChain
  cases l with
  | nil => simp [trimmed_nl]
  | cons c l =>
    rw [List.cons_append, List.isChain_cons_cons]
    refine ⟨⟨fun _ h => ?_, fun h => ?_⟩, ?_⟩
    · rw [h1 c rfl] at h; simp at h
    · exact absurd (by rw [h]; simp) hn
    · have : ∀ (x : Char) (m : Str), (∀ y ∈ x :: m, y ≠ '\n') →
          (∀ c, (x :: m).getLast? = some c → Str.isWs c = false) → ((x :: m) ++ ['\n']).IsChain Trimmed := by
        intro x m
        induction m generalizing x with
        | nil =>
          intro hx hl
          have := hl x rfl
          simp only [List.cons_append, List.nil_append, List.isChain_cons_cons, List.isChain_singleton, and_true]
          exact ⟨fun h => absurd h (hx x (by simp)), fun _ h => by rw [this] at h; simp at h⟩
        | cons z m ih =>
          intro hx hl
          rw [List.cons_append, List.cons_append, List.isChain_cons_cons]
          refine ⟨⟨fun h => absurd h (hx x (by simp)), fun h => absurd h (hx z (by simp))⟩, ?_⟩
          exact ih z (fun y hy => hx y (by simp [hy])) (fun c hc => hl c (by rw [List.getLast?_cons_cons]; exact hc))
      exact this c l (fun y hy h => hn (h ▸ hy)) h2

theorem lineChain_join {L : List Str} (h : ∀ l ∈ L, LineChain l) : LineChain (Str.join ['\n'] L) := by
  induction L with
  | nil => simp [LineChain, Str.join, trimmed_nl]
  | cons a L ih =>
    cases L with
    | nil => exact h a (by simp)
    | cons b L =>
      have ha := h a (by simp)
      have hb := ih (fun l hl => h l (by simp [hl]))
      unfold LineChain at *
      rw [Str.join_cons_cons]
      have : '\n' :: (a ++ ['\n'] ++ Str.join ['\n'] (b :: L) ++ ['\n']) =
          ('\n' :: a) ++ ('\n' :: (Str.join ['\n'] (b :: L) ++ ['\n'])) := by simp
      rw [this, List.isChain_append]
      have ha' : (('\n' :: a) ++ ['\n']).IsChain Trimmed := by simpa using ha
      rw [List.isChain_append] at ha'
      exact ⟨ha'.1, hb, fun x hx y hy => ha'.2.2 x hx y (by simpa using hy)⟩

theorem lineChain_condDedup (p : Char → Bool) (hp : p '\n' = false) {s : Str} (h : LineChain s) :
    LineChain (condDedup p s) := by
  unfold LineChain at *
  have : condDedup p (s ++ ['\n']) = condDedup p s ++ ['\n'] := condDedupGo_append_singleton p s none '\n' hp
  rw [← this]
  exact condDedup_chain_cons p _ _ h

/-- Lines of a text with `LineChain` have no white space at their ends. -/
theorem lineChain_lines {s : Str} (h : LineChain s) :
    ∀ l ∈ Str.splitChar '\n' s, (∀ c, l.head? = some c → Str.isWs c = false) ∧
      (∀ c, l.getLast? = some c → Str.isWs c = false) := by
  intro l hl
  have hn := Str.not_mem_of_mem_splitChar hl
  have hinf : ∀ L : List Str, l ∈ L → ('\n' :: (l ++ ['\n'])) <:+: '\n' :: (Str.join ['\n'] L ++ ['\n']) := by
    intro L hL
    induction L with
    | nil => simp at hL
    | cons a L ih =>
      cases L with
      | nil =>
        simp only [List.mem_singleton] at hL
        subst hL
        exact List.infix_refl _
      | cons b L =>
        rcases List.mem_cons.mp hL with rfl | hL
        · refine ⟨[], Str.join ['\n'] (b :: L) ++ ['\n'], ?_⟩
          rw [Str.join_cons_cons]; simp
        · obtain ⟨u, v, huv⟩ := ih hL
          refine ⟨'\n' :: a ++ u, v, ?_⟩
          rw [Str.join_cons_cons]
          have : '\n' :: (a ++ ['\n'] ++ Str.join ['\n'] (b :: L) ++ ['\n']) =
            ('\n' :: a) ++ ('\n' :: (Str.join ['\n'] (b :: L) ++ ['\n'])) := by simp
          rw [this, ← huv]
          simp
  have hc := List.IsChain.infix h (by have := hinf _ hl; rwa [Str.join_splitChar] at this)
  constructor
  · intro c hc'
    cases l with
    | nil => simp at hc'
    | cons x l =>
      simp only [List.head?_cons, Option.some.injEq] at hc'
      subst hc'
      rw [List.cons_append, List.isChain_cons_cons] at hc
      by_contra hw
      have := hc.1.1 rfl (by simpa using hw)
      exact hn (by rw [this]; simp)
  · intro c hc'
    have hc2 : (('\n' :: l) ++ ['\n']).IsChain Trimmed := by simpa using hc
    rw [List.isChain_append] at hc2
    have hlast : ('\n' :: l).getLast? = some c := by
      cases l with
      | nil => simp at hc'
      | cons x l => rw [List.getLast?_cons_cons]; exact hc'
    by_contra hw
    have := (hc2.2.2 c (by simpa using hlast) '\n' (by simp)).2 rfl (by simpa using hw)
    exact hn (by rw [← this]; exact List.mem_of_getLast? hc')

/-! ## Slashes -/

theorem stripSlashesRev_suffix (b : Bool) (r : Str) : stripSlashesRev b r <:+ r := by
  induction r generalizing b with
  | nil => exact List.suffix_refl _
  | cons c r ih =>
    simp only [stripSlashesRev]
    split
    · exact (ih true).trans (List.suffix_cons c r)
    · split
      · exact (ih true).trans (List.suffix_cons c r)
      · exact List.suffix_refl _

theorem stripSlashesRev_true_head (r : Str) {c : Char} (h : (stripSlashesRev true r).head? = some c) :
    Str.isWs c = false ∧ c ≠ '/' := by
  induction r with
  | nil => simp [stripSlashesRev] at h
  | cons a r ih =>
    simp only [stripSlashesRev] at h
    split at h
    · exact ih h
    · split at h
      · exact ih h
      · rename_i h1 h2
        simp only [List.head?_cons, Option.some.injEq] at h
        subst h
        exact ⟨by simpa using h2, h1⟩

theorem stripSlashesRev_false (r : Str) :
    (stripSlashesRev false r = r ∧ r.head? ≠ some '/') ∨
      ((∀ c, (stripSlashesRev false r).head? = some c → Str.isWs c = false ∧ c ≠ '/') ∧ r.head? = some '/') := by
  cases r with
  | nil => left; simp [stripSlashesRev]
  | cons a r =>
    simp only [stripSlashesRev]
    split
    · rename_i h
      subst h
      right
      exact ⟨fun c hc => stripSlashesRev_true_head r hc, rfl⟩
    · rename_i h
      left
      simp [h]

theorem stripSlashesRev_filter (b : Bool) (r : Str) :
    ∃ k, r.filter (fun c => !Str.isWs c) =
      List.replicate k '/' ++ (stripSlashesRev b r).filter (fun c => !Str.isWs c) := by
  induction r generalizing b with
  | nil => exact ⟨0, rfl⟩
  | cons c r ih =>
    simp only [stripSlashesRev]
    split
    · rename_i h
      subst h
      obtain ⟨k, hk⟩ := ih true
      refine ⟨k + 1, ?_⟩
      rw [List.filter_cons_of_pos (by decide), hk]
      simp [List.replicate_succ]
    · split
      · rename_i h
        obtain ⟨k, hk⟩ := ih true
        refine ⟨k, ?_⟩
        simp only [Bool.and_eq_true] at h
        rw [List.filter_cons_of_neg (by simp [h.2]), hk]
      · exact ⟨0, rfl⟩

theorem lineChain_stripSlashes {s : Str} (h : LineChain s) : LineChain (stripSlashes s) := by
  rcases stripSlashesRev_false s.reverse with ⟨he, -⟩ | ⟨hl, -⟩
  · unfold stripSlashes; rw [he, List.reverse_reverse]; exact h
  · have hpre : stripSlashes s <+: s := by
      have := List.reverse_prefix.mpr (stripSlashesRev_suffix false s.reverse)
      rwa [List.reverse_reverse] at this
    obtain ⟨t, ht⟩ := hpre
    unfold LineChain at *
    have e : '\n' :: (s ++ ['\n']) = ('\n' :: stripSlashes s) ++ (t ++ ['\n']) := by
      conv_lhs => rw [← ht]
      simp
    rw [e, List.isChain_append] at h
    have e2 : '\n' :: (stripSlashes s ++ ['\n']) = ('\n' :: stripSlashes s) ++ ['\n'] := by simp
    rw [e2, List.isChain_append]
    refine ⟨h.1, List.isChain_singleton _, ?_⟩
    intro x hx y hy
    simp only [List.head?_cons, Option.mem_def, Option.some.injEq] at hy
    subst hy
    cases hs : stripSlashes s with
    | nil =>
      rw [hs] at hx
      simp only [List.getLast?_singleton, Option.mem_def, Option.some.injEq] at hx
      subst hx; exact trimmed_nl
    | cons a u =>
      rw [hs, List.getLast?_cons_cons, ← hs] at hx
      have hw : Str.isWs x = false := by
        apply (hl x _).1
        have : (stripSlashes s).getLast? = some x := hx
        unfold stripSlashes at this
        rwa [List.getLast?_reverse] at this
      exact ⟨fun h => by subst h; exact absurd hw (by decide), fun _ h => by rw [hw] at h; simp at h⟩

/-! ## Newlines -/

theorem popNewlinesRev_cons (r : Str) : popNewlinesRev ('\n' :: r) = '\n' :: r.dropWhile (· == '\n') := by
  induction r with
  | nil => simp [popNewlinesRev]
  | cons c r ih =>
    by_cases hc : c = '\n'
    · subst hc
      rw [popNewlinesRev, ih, List.dropWhile_cons_of_pos (by rfl)]
    · rw [List.dropWhile_cons_of_neg (by simpa using hc), popNewlinesRev]
      intro r' he
      simp only [List.cons.injEq, true_and] at he
      exact hc he.1

/-- The two outcomes of the newline pass. -/
theorem fixNewlines_cases (s : Str) :
    ('\n' ∉ s ∧ fixNewlines s = s) ∨
    ('\n' ∈ s ∧ ∃ t u, fixNewlines s = t ++ ['\n'] ∧ t.getLast? ≠ some '\n' ∧ t.head? ≠ some '\n' ∧
      (∃ v, s.dropWhile (· == '\n') = t ++ v ∧ (∀ c ∈ v, c = '\n')) ∧ u = t) := by
  unfold fixNewlines
  by_cases h : '\n' ∈ s
  · right
    refine ⟨h, ?_⟩
    simp only [List.contains_eq_mem, h, decide_true, if_true]
    have hhead : ∀ c, (s.dropWhile (· == '\n')).head? = some c → c ≠ '\n' := by
      intro c hc
      have := dropWhile_head_not hc
      simpa using this
    generalize s.dropWhile (· == '\n') = d at hhead
    split
    · rename_i he
      rw [Str.endsWith_iff] at he
      obtain ⟨e, rfl⟩ := he
      have hrev : (e ++ c!"\n").reverse = '\n' :: e.reverse := by simp
      rw [hrev, popNewlinesRev_cons]
      refine ⟨(e.reverse.dropWhile (· == '\n')).reverse, _, by simp, ?_, ?_, ?_, rfl⟩
      · rw [List.getLast?_reverse]
        intro hc
        have := dropWhile_head_not hc
        simp at this
      · intro hc
        have hp : (e.reverse.dropWhile (· == '\n')).reverse <+: e := by
          have := List.reverse_prefix.mpr (List.dropWhile_suffix (l := e.reverse) (· == '\n'))
          rwa [List.reverse_reverse] at this
        obtain ⟨w, hw⟩ := hp
        apply hhead '\n' _ rfl
        rw [← hw]
        cases hx : (e.reverse.dropWhile (· == '\n')).reverse with
        | nil => rw [hx] at hc; simp at hc
        | cons a b => rw [hx] at hc; simpa using hc
      · refine ⟨(e.reverse.takeWhile (· == '\n')).reverse ++ ['\n'], ?_, ?_⟩
        · rw [← List.append_assoc, ← List.reverse_append, List.takeWhile_append_dropWhile, List.reverse_reverse]
        · intro c hc
          rcases List.mem_append.mp hc with hc | hc
          · have := List.mem_takeWhile_imp (List.mem_reverse.mp hc)
            simpa using this
          · simpa using hc
    · rename_i he
      refine ⟨d, _, rfl, ?_, ?_, ⟨[], by simp, by simp⟩, rfl⟩
      · intro hl
        apply he
        rw [Str.endsWith_iff]
        have hne : d ≠ [] := by rintro rfl; simp at hl
        refine ⟨d.dropLast, ?_⟩
        rw [List.getLast?_eq_some_getLast hne, Option.some.injEq] at hl
        rw [← hl]
        exact List.dropLast_concat_getLast hne
      · intro hc; exact hhead _ hc rfl
  · left
    refine ⟨h, ?_⟩
    simp [h]

theorem lineChain_fixNewlines {s : Str} (h : LineChain s) : LineChain (fixNewlines s) := by
  rcases fixNewlines_cases s with ⟨-, he⟩ | ⟨-, t, -, he, -, -, ⟨v, hv, hnl⟩, -⟩
  · rw [he]; exact h
  · rw [he]
    have hd : ∀ s : Str, LineChain s → LineChain (s.dropWhile (· == '\n')) := by
      intro s h
      induction s with
      | nil => exact h
      | cons c s ih =>
        by_cases hc : c = '\n'
        · subst hc
          rw [List.dropWhile_cons_of_pos (by rfl)]
          apply ih
          unfold LineChain at h ⊢
          rw [List.cons_append, List.isChain_cons_cons] at h
          exact h.2
        · rw [List.dropWhile_cons_of_neg (by simpa using hc)]; exact h
    have h1 := hd s h
    rw [hv] at h1
    unfold LineChain at *
    have e1 : '\n' :: (t ++ v ++ ['\n']) = ('\n' :: t) ++ (v ++ ['\n']) := by simp
    have e2 : '\n' :: (t ++ ['\n'] ++ ['\n']) = ('\n' :: t) ++ ['\n', '\n'] := by simp
    rw [e1, List.isChain_append] at h1
    rw [e2, List.isChain_append]
    refine ⟨h1.1, by simp [trimmed_nl], ?_⟩
    intro x hx y hy
    simp only [List.head?_cons, Option.mem_def, Option.some.injEq] at hy
    subst hy
    apply h1.2.2 x hx '\n'
    cases v with
    | nil => simp
    | cons c v => have := hnl c (by simp); subst this; simp

/-! ## Assembling -/

/-- The text before de-duplication. -/
def docStage1 (doc : Str) : Str := stripSlashes (Str.join ['\n'] ((Str.lines doc).map Str.trim))

/-- The text before the newline pass. -/
def docStage2 (doc : Str) : Str :=
  condDedup (· == '`') (condDedup (fun c => Str.isWs c && c != '\n') (docStage1 doc))

theorem formatDocstring_eq (doc : Str) : formatDocstring doc = ' ' :: fixNewlines (docStage2 doc) := rfl

theorem docStage1_lineChain (doc : Str) : LineChain (docStage1 doc) := by
  apply lineChain_stripSlashes
  rw [lines_map_trim]
  apply lineChain_join
  intro l hl
  obtain ⟨p, hp, rfl⟩ := List.mem_map.mp hl
  apply lineChain_of_line
  · intro hm; exact linePieces_mem hp ((trim_sublist p).subset hm)
  · intro c hc; exact trim_head hc
  · intro c hc; exact trim_last hc

theorem docStage2_lineChain (doc : Str) : LineChain (docStage2 doc) :=
  lineChain_condDedup _ (by decide) (lineChain_condDedup _ (by decide) (docStage1_lineChain doc))

theorem docStage1_sublist (doc : Str) : (docStage1 doc).Sublist doc := by
  unfold docStage1
  have h1 : ∀ s : Str, (stripSlashes s).Sublist s := by
    intro s
    have := List.reverse_prefix.mpr (stripSlashesRev_suffix false s.reverse)
    rw [List.reverse_reverse] at this
    exact this.sublist
  refine (h1 _).trans ?_
  rw [lines_map_trim]
  refine (join_map_sublist _ trim_sublist _ _).trans ?_
  rcases linePieces_join doc with h | h
  · rw [h]
  · conv_rhs => rw [← h]
    exact List.sublist_append_left _ _

theorem docStage2_sublist (doc : Str) : (docStage2 doc).Sublist doc :=
  ((condDedupGo_sublist _ _ _).trans (condDedupGo_sublist _ _ _)).trans (docStage1_sublist doc)

theorem docStage1_filter (doc : Str) :
    ∃ k, doc.filter (fun c => !Str.isWs c) = (docStage1 doc).filter (fun c => !Str.isWs c) ++ List.replicate k '/' ∧
      (k = 0 ∨ ∀ c, (docStage1 doc).getLast? = some c → c ≠ '/') := by
  have hj : (Str.join ['\n'] ((Str.lines doc).map Str.trim)).filter (fun c => !Str.isWs c) =
      doc.filter (fun c => !Str.isWs c) := by
    rw [lines_map_trim, filter_join _ _ filter_trim]
    rcases linePieces_join doc with h | h
    · rw [h]
    · conv_rhs => rw [← h, List.filter_append]
      simp; decide
  unfold docStage1
  generalize Str.join ['\n'] ((Str.lines doc).map Str.trim) = s at hj
  rcases stripSlashesRev_false s.reverse with ⟨he, -⟩ | ⟨hl, -⟩
  · refine ⟨0, ?_, Or.inl rfl⟩
    unfold stripSlashes
    rw [he, List.reverse_reverse, ← hj]
    simp
  · obtain ⟨k, hk⟩ := stripSlashesRev_filter false s.reverse
    refine ⟨k, ?_, Or.inr ?_⟩
    · rw [← hj]
      have := congrArg List.reverse hk
      rw [← List.filter_reverse, List.reverse_reverse] at this
      rw [this, List.reverse_append, List.reverse_replicate, ← List.filter_reverse]
      rfl
    · intro c hc
      unfold stripSlashes at hc
      rw [List.getLast?_reverse] at hc
      exact (hl c hc).2

end Bindgen

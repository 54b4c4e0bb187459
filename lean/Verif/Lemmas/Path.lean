import Verif.Model.Path
import Verif.Spec.Resolve
import Verif.Lemmas.Ident
/-! # Lemmas about paths -/
namespace Bindgen
open Spec

theorem superIdent_asPy : (Ident.fromRs c!"super").asPy = c!"super" := by decide

theorem splitChar_dots (n : Nat) (s : Str) :
    (Str.splitChar '.' (List.replicate n '.' ++ s)).filter (· ≠ []) =
      (Str.splitChar '.' s).filter (· ≠ []) := by
  induction n with
  | zero => simp
  | succ n ih =>
    rw [List.replicate_succ, List.cons_append, Str.splitChar_cons_sep]
    simpa using ih

theorem join_ne_nil {l : List Str} (hne : l ≠ []) (h : ∀ s ∈ l, s ≠ []) : Str.join c!"." l ≠ [] := by
  cases l with
  | nil => exact absurd rfl hne
  | cons a l =>
    have ha := h a (by simp)
    cases l with
    | nil => simpa [Str.join] using ha
    | cons b l => rw [Str.join_cons_cons]; simp

theorem join_head' {l : List Str} (hne : l ≠ []) (h : ∀ s ∈ l, s ≠ [] ∧ '.' ∉ s) :
    ∀ c, (Str.join c!"." l).head? = some c → (c == '.') = false := by
  cases l with
  | nil => exact absurd rfl hne
  | cons a l =>
    have ha := h a (by simp)
    have : ∃ t, Str.join c!"." (a :: l) = a ++ t := by
      cases l with
      | nil => exact ⟨[], by simp [Str.join]⟩
      | cons b l => exact ⟨c!"." ++ Str.join c!"." (b :: l), by simp [Str.join]⟩
    obtain ⟨t, ht⟩ := this
    intro c hc
    rw [ht] at hc
    cases a with
    | nil => exact absurd rfl ha.1
    | cons x a =>
      simp only [List.cons_append, List.head?_cons, Option.some.injEq] at hc
      subst hc
      have := ha.2
      simp only [List.mem_cons, not_or] at this
      simpa [beq_eq_false_iff_ne] using Ne.symm this.1

theorem join_head {l : List Str} (hne : l ≠ []) (h : ∀ s ∈ l, PySegment s) :
    ∀ c, (Str.join c!"." l).head? = some c → (c == '.') = false :=
  join_head' hne fun s hs => ⟨(h s hs).1, (h s hs).2.1⟩

theorem takeWhile_dots (n : Nat) {s : Str} (h : ∀ c, s.head? = some c → (c == '.') = false) :
    ((List.replicate n '.' ++ s).takeWhile (· == '.')).length = n := by
  induction n with
  | zero =>
    cases s with
    | nil => rfl
    | cons c s => simp [h c rfl]
  | succ n ih =>
    rw [List.replicate_succ, List.cons_append, List.takeWhile_cons_of_pos (by rfl), List.length_cons, ih]

/-- What `from_py` makes of an ordinary dotted name. -/
theorem fromPy_dotted' (E : Env) (n : Nat) {segs : List Str} (hne : segs ≠ [])
    (h : ∀ s ∈ segs, s ≠ [] ∧ '.' ∉ s) :
    Path.fromPy E (dotted n segs) =
      ⟨false, List.replicate n (Ident.fromRs c!"super") ++ segs.map (Ident.fromPy E)⟩ := by
  have hj : Str.join c!"." segs ≠ [] := join_ne_nil hne (fun s hs => (h s hs).1)
  have hd : dotted n segs ≠ [] := by simp [dotted, hj]
  rw [Path.fromPy, if_neg hd]
  simp only [dotted, Path.mk.injEq, true_and]
  rw [takeWhile_dots n (join_head' hne h), splitChar_dots, Str.splitChar_join hne (fun s hs => (h s hs).2)]
  congr 2
  rw [List.filter_eq_self]
  intro s hs
  simpa using (h s hs).1

theorem fromPy_dotted (E : Env) (n : Nat) {segs : List Str} (hne : segs ≠ [])
    (h : ∀ s ∈ segs, PySegment s) :
    Path.fromPy E (dotted n segs) =
      ⟨false, List.replicate n (Ident.fromRs c!"super") ++ segs.map (Ident.fromPy E)⟩ :=
  fromPy_dotted' E n hne fun s hs => ⟨(h s hs).1, (h s hs).2.1⟩

/-- No identifier made from a Python name is a keyword that may stand in a path. -/
theorem fromPy_not_path (E : Env) (s : Str) :
    ¬ ((Ident.fromPy E s).rs = c!"self" ∨ (Ident.fromPy E s).rs = c!"super" ∨ (Ident.fromPy E s).rs = c!"Self" ∨
      (Ident.fromPy E s).rs = c!"crate") := by
  simp only [Ident.fromPy, Ident.pyToRs]
  split
  · rename_i h
    have key : ∀ k ∈ [c!"self", c!"super", c!"Self", c!"crate"], s ≠ k := by
      rintro k hk rfl
      obtain ⟨t, ht⟩ := Option.isSome_iff_exists.mp h
      simp only [synIdent] at ht
      simp only [List.mem_cons, List.not_mem_nil, or_false] at hk
      rcases hk with rfl | rfl | rfl | rfl
      · have : lexTrim c!"self" = c!"self" := by decide
        rw [this] at ht
        simp [synIdentTok, rustKeywords] at ht
      · have : lexTrim c!"super" = c!"super" := by decide
        rw [this] at ht
        simp [synIdentTok, rustKeywords] at ht
      · have : lexTrim c!"Self" = c!"Self" := by decide
        rw [this] at ht
        simp [synIdentTok, rustKeywords] at ht
      · have : lexTrim c!"crate" = c!"crate" := by decide
        rw [this] at ht
        simp [synIdentTok, rustKeywords] at ht
    simp only [List.mem_cons, List.not_mem_nil, or_false, forall_eq_or_imp, forall_eq] at key
    tauto
  · simp

theorem toPy_segs (E : Env) (n : Nat) {segs : List Str} (h : ∀ s ∈ segs, PySegment s) :
    ((List.replicate n (Ident.fromRs c!"super") ++ segs.map (Ident.fromPy E)).map Ident.asPy).map
      (fun s => if s = c!"super" then [] else s) = List.replicate n [] ++ segs := by
  simp only [List.map_append, List.map_replicate, List.map_map, superIdent_asPy, if_true]
  congr 1
  rw [List.map_congr_left (g := id), List.map_id]
  intro s hs
  have hs := h s hs
  simp only [Function.comp, asPy_fromPy E hs.2.2.1, hs.2.2.2, if_false, id]

theorem toPy_fromPy (E : Env) (n : Nat) {segs : List Str} (hne : segs ≠ [])
    (h : ∀ s ∈ segs, PySegment s) : (Path.fromPy E (dotted n segs)).toPy = dotted n segs := by
  rw [fromPy_dotted E n hne h, Path.toPy, toPy_segs E n h, Str.join_replicate_nil _ _ hne, dotted]
  congr 1
  induction n with
  | zero => rfl
  | succ n ih => simp [List.replicate_succ, ih]

theorem commonPrefixLen_le_left (a b : List Ident) : Path.commonPrefixLen a b ≤ a.length := by
  induction a generalizing b with
  | nil => simp [Path.commonPrefixLen]
  | cons x a ih =>
    cases b with
    | nil => simp [Path.commonPrefixLen]
    | cons y b =>
      simp only [Path.commonPrefixLen]
      split
      · have := ih b; simp; omega
      · simp

theorem commonPrefixLen_le_right (a b : List Ident) : Path.commonPrefixLen a b ≤ b.length := by
  induction a generalizing b with
  | nil => simp [Path.commonPrefixLen]
  | cons x a ih =>
    cases b with
    | nil => simp [Path.commonPrefixLen]
    | cons y b =>
      simp only [Path.commonPrefixLen]
      split
      · have := ih b; simp; omega
      · simp

theorem commonPrefixLen_take (a b : List Ident) :
    a.take (Path.commonPrefixLen a b) = b.take (Path.commonPrefixLen a b) := by
  induction a generalizing b with
  | nil => simp [Path.commonPrefixLen]
  | cons x a ih =>
    cases b with
    | nil => simp [Path.commonPrefixLen]
    | cons y b =>
      simp only [Path.commonPrefixLen]
      split
      · rename_i h; subst h; simp [ih b]
      · simp

end Bindgen

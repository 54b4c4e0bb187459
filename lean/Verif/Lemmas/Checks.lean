import Verif.Lemmas.Res
import Verif.Model.Codegen
import Verif.Spec.Names
/-! # Lemmas about the debug assertions -/
namespace Bindgen
open Spec

theorem error_bind {α β : Type} (e : Fail) (f : α → Res β) : ((.error e : Res α) >>= f) = .error e := rfl

theorem containsSub_iff (p s : Str) : Str.containsSub p s = true ↔ p <:+: s := by
  induction s with
  | nil => simp [Str.containsSub]
  | cons c s ih => simp [Str.containsSub, ih, List.infix_cons_iff]

theorem debugAssert_ok {E : Env} {b : Bool} : debugAssert E b = .ok () ↔ (E.debug = true → b = true) := by
  unfold debugAssert
  cases E.debug <;> cases b <;> simp

theorem debugAssert_cases (E : Env) (b : Bool) : debugAssert E b = .ok () ∨ debugAssert E b = .error (.panic .assertion) := by
  unfold debugAssert
  split
  · exact Or.inr rfl
  · exact Or.inl rfl

theorem debugAssert_panics {E : Env} {b : Bool} :
    debugAssert E b = .error (.panic .assertion) ↔ E.debug = true ∧ b = false := by
  unfold debugAssert
  cases E.debug <;> cases b <;> simp

theorem identCheck_ok (E : Env) (l : List Str) : Ident.checkPy E l = .ok () ↔ (E.debug = true → [] ∉ l) := by
  unfold Ident.checkPy
  rw [debugAssert_ok]
  refine imp_congr_right fun _ => ?_
  rw [List.all_eq_true]
  constructor
  · intro h hm
    have := h _ hm
    simp at this
  · intro h s hs
    cases s with
    | nil => exact absurd hs h
    | cons => rfl

theorem pathCheck_ok (E : Env) (l : List Str) :
    Path.checkPy E l = .ok () ↔ (E.debug = true → ∀ s ∈ l, ¬ c!"::" <:+: s) := by
  unfold Path.checkPy
  rw [debugAssert_ok]
  refine imp_congr_right fun _ => ?_
  rw [List.all_eq_true]
  refine forall_congr' fun s => forall_congr' fun _ => ?_
  rw [← containsSub_iff]
  simp

theorem pathCheck_cases (E : Env) (l : List Str) :
    Path.checkPy E l = .ok () ∨ Path.checkPy E l = .error (.panic .assertion) := debugAssert_cases ..

theorem identCheck_cases (E : Env) (l : List Str) :
    Ident.checkPy E l = .ok () ∨ Ident.checkPy E l = .error (.panic .assertion) := debugAssert_cases ..

theorem pathCheck_panics (E : Env) (l : List Str) :
    Path.checkPy E l = .error (.panic .assertion) ↔ E.debug = true ∧ ∃ s ∈ l, c!"::" <:+: s := by
  rcases pathCheck_cases E l with h | h
  · rw [h]
    have := (pathCheck_ok E l).mp h
    constructor
    · intro h; cases h
    · rintro ⟨hd, s, hs, hc⟩
      exact absurd hc (this hd s hs)
  · refine ⟨fun _ => ?_, fun _ => h⟩
    by_contra hn
    have : Path.checkPy E l = .ok () := (pathCheck_ok E l).mpr fun hd s hs hc => hn ⟨hd, s, hs, hc⟩
    rw [this] at h
    cases h

theorem identCheck_congr (E : Env) {l l' : List Str} (h : [] ∈ l ↔ [] ∈ l') : Ident.checkPy E l = Ident.checkPy E l' := by
  have key := (identCheck_ok E l).trans ((imp_congr_right fun _ => not_congr h).trans (identCheck_ok E l').symm)
  rcases identCheck_cases E l with h1 | h1
  · rw [h1, key.mp h1]
  · rcases identCheck_cases E l' with h2 | h2
    · rw [key.mpr h2, h2]
    · rw [h1, h2]

theorem pathCheck_congr (E : Env) {l l' : List Str} (h : ∀ s, s ≠ [] → (s ∈ l ↔ s ∈ l')) : Path.checkPy E l = Path.checkPy E l' := by
  have key : Path.checkPy E l = .ok () ↔ Path.checkPy E l' = .ok () := by
    rw [pathCheck_ok, pathCheck_ok]
    refine imp_congr_right fun _ => ⟨fun hl s hs hc => ?_, fun hl s hs hc => ?_⟩
    all_goals
      have hne : s ≠ [] := by
        rintro rfl
        exact absurd hc (by decide)
    · exact hl s ((h s hne).mpr hs) hc
    · exact hl s ((h s hne).mp hs) hc
  rcases pathCheck_cases E l with h1 | h1
  · rw [h1, key.mp h1]
  · rcases pathCheck_cases E l' with h2 | h2
    · rw [key.mpr h2, h2]
    · rw [h1, h2]

theorem noColons_check {E : Env} {n : Str} (h : E.debug = true → ¬ c!"::" <:+: n) : Path.checkPy E [n] = .ok () :=
  (pathCheck_ok E [n]).mpr fun hd s hs => by rw [List.mem_singleton.mp hs]; exact h hd

theorem checkType_ok (E : Env) (o : PyObj) :
    checkType E o = .ok () ↔ (E.debug = true → o.typeName ≠ [] ∧ ¬ c!"::" <:+: o.typeModule) := by
  unfold checkType
  constructor
  · intro h hd
    obtain ⟨_, h1, h2⟩ := Res.bind_ok h
    have h1 := (identCheck_ok E _).mp h1 hd
    have h2 := (pathCheck_ok E _).mp h2 hd _ (List.mem_singleton.mpr rfl)
    exact ⟨fun h => h1 (by simp [h]), h2⟩
  · intro h
    rw [(identCheck_ok E _).mpr fun hd hm => (h hd).1 (List.mem_singleton.mp hm).symm, Res.ok_bind]
    exact noColons_check fun hd => (h hd).2

theorem checkType_panics (E : Env) (o : PyObj) :
    checkType E o = .error (.panic .assertion) ↔ E.debug = true ∧ (o.typeName = [] ∨ c!"::" <:+: o.typeModule) := by
  have hc : checkType E o = .ok () ∨ checkType E o = .error (.panic .assertion) := by
    unfold checkType
    rcases identCheck_cases E [o.typeName] with h | h
    · rw [h]; exact pathCheck_cases ..
    · rw [h]; exact Or.inr rfl
  rcases hc with h | h
  · rw [h]
    have := (checkType_ok E o).mp h
    constructor
    · intro h; cases h
    · rintro ⟨hd, h | h⟩
      · exact absurd h (this hd).1
      · exact absurd h (this hd).2
  · refine ⟨fun _ => ?_, fun _ => h⟩
    by_contra hn
    have : checkType E o = .ok () := (checkType_ok E o).mpr fun hd => ⟨fun h => hn ⟨hd, Or.inl h⟩, fun h => hn ⟨hd, Or.inr h⟩⟩
    rw [this] at h
    cases h

/-! ## Names without colons -/

theorem isIdent_colon {E : Env} {s : Str} (h : IsIdent E s) : ':' ∉ s := by
  obtain ⟨c, cs, rfl, h1, h2⟩ := h
  intro hm
  have hc : E.xidContinue ':' = true → False := by
    rw [E.xidContinue_ascii ':' (by decide)]
    decide
  rcases List.mem_cons.mp hm with rfl | hm
  · rcases h1 with h1 | h1
    · exact absurd h1 (by decide)
    · exact hc (E.start_continue _ h1)
  · exact hc (h2 _ hm)

theorem noColons_of_colon {s : Str} (h : ':' ∉ s) : ¬ c!"::" <:+: s := fun hi => h (hi.subset (by simp))

theorem char_join {c : Char} {sep : Str} {l : List Str} (h : c ∈ Str.join sep l) : c ∈ sep ∨ ∃ x ∈ l, c ∈ x := by
  induction l with
  | nil => cases h
  | cons a l ih =>
    cases l with
    | nil => exact Or.inr ⟨a, by simp, h⟩
    | cons b l =>
      rw [Str.join] at h
      rcases List.mem_append.mp h with h | h
      · rcases List.mem_append.mp h with h | h
        · exact Or.inr ⟨a, by simp, h⟩
        · exact Or.inl h
      · rcases ih h with h | ⟨x, hx, h⟩
        · exact Or.inl h
        · exact Or.inr ⟨x, by simp [hx], h⟩

theorem idents_colon {E : Env} {segs : List Str} (h : ∀ s ∈ segs, IsIdent E s) : ':' ∉ Str.join c!"." segs := by
  intro hm
  rcases char_join hm with hm | ⟨x, hx, hm⟩
  · exact absurd hm (by decide)
  · exact isIdent_colon (h x hx) hm

theorem mem_piece {sep c : Char} {s : Str} (hc : c ≠ sep) (h : c ∈ s) : ∃ x ∈ Str.splitChar sep s, c ∈ x := by
  induction s with
  | nil => cases h
  | cons d s ih =>
    unfold Str.splitChar
    split
    · rename_i hd
      rcases List.mem_cons.mp h with h | h
      · exact absurd (h.trans hd) hc
      · obtain ⟨x, hx, hm⟩ := ih h
        exact ⟨x, by simp [hx], hm⟩
    · cases hs : Str.splitChar sep s with
      | nil =>
        rw [Str.consHead]
        rcases List.mem_cons.mp h with rfl | h
        · exact ⟨[c], by simp, by simp⟩
        · obtain ⟨x, hx, hm⟩ := ih h
          rw [hs] at hx
          cases hx
      | cons p ps =>
        rw [Str.consHead]
        rcases List.mem_cons.mp h with rfl | h
        · exact ⟨c :: p, by simp, by simp⟩
        · obtain ⟨x, hx, hm⟩ := ih h
          rw [hs] at hx
          rcases List.mem_cons.mp hx with rfl | hx
          · exact ⟨d :: x, by simp, by simp [hm]⟩
          · exact ⟨x, by simp [hx], hm⟩

theorem mem_fromPy {E : Env} {c : Char} {s : Str} (h : c ∈ s) : c ∈ (Ident.fromPy E s).rs := by
  unfold Ident.fromPy Ident.pyToRs
  simp only
  split
  · exact h
  · simp [h]

theorem fromPy_mem {E : Env} {c : Char} {s : Str} (h : c ∈ (Ident.fromPy E s).rs) : c ∈ s ∨ c = 'r' ∨ c = '#' := by
  unfold Ident.fromPy Ident.pyToRs at h
  simp only at h
  split at h
  · exact Or.inl h
  · simp only [List.mem_append, List.mem_cons, List.not_mem_nil, or_false] at h
    rcases h with h | h
    · exact Or.inr h
    · exact Or.inl h

/-- The text of a path of identifiers has no colons. -/
theorem path_colon {E : Env} {n : Str} (h : ∀ i ∈ (Path.fromPy E n).segs, ∃ s, IsIdent E s ∧ i = Ident.fromPy E s) : ':' ∉ n := by
  intro hm
  obtain ⟨x, hx, hc⟩ := mem_piece (sep := '.') (by decide) hm
  have hne : n ≠ [] := by rintro rfl; cases hm
  have hi : Ident.fromPy E x ∈ (Path.fromPy E n).segs := by
    unfold Path.fromPy
    rw [if_neg hne]
    have hx' : x ≠ [] := by rintro rfl; cases hc
    simp only [List.mem_append, List.mem_map, List.mem_filter]
    exact Or.inr ⟨x, ⟨hx, by simpa using hx'⟩, rfl⟩
  obtain ⟨s, hs, he⟩ := h _ hi
  have := mem_fromPy (E := E) hc
  rw [he] at this
  rcases fromPy_mem this with h | h | h
  · exact isIdent_colon hs h
  · exact absurd h (by decide)
  · exact absurd h (by decide)

end Bindgen

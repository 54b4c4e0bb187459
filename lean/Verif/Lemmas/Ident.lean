import Mathlib.Tactic.Common
import Verif.Model.Ident
import Verif.Spec.Names
import Verif.Lemmas.Str
/-! # Lemmas about identifiers -/
namespace Bindgen
open Spec

theorem isIdentText_iff (E : Env) (s : Str) : isIdentText E s = true ↔ IsIdent E s := by
  cases s with
  | nil => simp [isIdentText, IsIdent]
  | cons c cs =>
    simp only [isIdentText, IsIdent, Bool.and_eq_true, Bool.or_eq_true, beq_iff_eq, List.all_eq_true]
    constructor
    · intro h; exact ⟨c, cs, rfl, h⟩
    · rintro ⟨c', cs', e, h⟩; cases e; exact h

theorem Spec.IsIdent.continue {E : Env} {s : Str} (h : IsIdent E s) : ∀ c ∈ s, E.xidContinue c = true := by
  obtain ⟨c, cs, rfl, h1, h2⟩ := h
  intro x hx
  rcases List.mem_cons.mp hx with rfl | hx
  · rcases h1 with rfl | h1
    · rw [E.xidContinue_ascii _ (by decide)]; decide
    · exact E.start_continue _ h1
  · exact h2 x hx

theorem lexWs_of_continue {E : Env} {c : Char} (h : E.xidContinue c = true) : lexWs c = false := by
  have h1 : Str.isWs c = false := by
    by_contra hc
    have := E.ws_not_continue c (by simpa using hc)
    rw [this] at h; exact absurd h (by decide)
  have h2 : ¬ (c.toNat = 0x200E ∨ c.toNat = 0x200F) := by
    intro hc
    have := E.lrm_not_continue c hc
    rw [this] at h; exact absurd h (by decide)
  rw [not_or] at h2
  simp only [lexWs, h1, Bool.false_or, Bool.or_eq_false_iff, beq_eq_false_iff_ne]
  exact h2

theorem dropWhile_eq_self {p : Char → Bool} {s : Str} (h : ∀ c, s.head? = some c → p c = false) :
    s.dropWhile p = s := by
  cases s with
  | nil => rfl
  | cons c s => simp [List.dropWhile, h c rfl]

theorem hash_not_continue (E : Env) : E.xidContinue '#' = false := by
  rw [E.xidContinue_ascii _ (by decide)]; decide

theorem Spec.IsIdent.no_hash {E : Env} {s : Str} (h : IsIdent E s) : '#' ∉ s := by
  intro hm
  have := h.continue _ hm
  rw [hash_not_continue] at this
  exact absurd this (by decide)

theorem Spec.IsIdent.ne_nil {E : Env} {s : Str} (h : IsIdent E s) : s ≠ [] := by
  obtain ⟨c, cs, rfl, _⟩ := h; simp

/-- White space trimming of the lexer does nothing to a text whose ends are no white space. -/
theorem lexTrim_eq_self {s : Str} (h1 : ∀ c, s.head? = some c → lexWs c = false)
    (h2 : ∀ c, s.getLast? = some c → lexWs c = false) :
    Bindgen.lexTrim s = s := by
  rw [Bindgen.lexTrim, dropWhile_eq_self h1, dropWhile_eq_self (by simpa using h2), List.reverse_reverse]

theorem mem_of_getLast? {s : Str} {c : Char} (h : s.getLast? = some c) : c ∈ s :=
  List.mem_of_getLast? h

theorem mem_of_head? {s : Str} {c : Char} (h : s.head? = some c) : c ∈ s :=
  List.mem_of_head? h

theorem Spec.IsIdent.lexTrim {E : Env} {s : Str} (h : IsIdent E s) :
    Bindgen.lexTrim s = s :=
  lexTrim_eq_self (fun _ hc => lexWs_of_continue (h.continue _ (mem_of_head? hc)))
    (fun _ hc => lexWs_of_continue (h.continue _ (mem_of_getLast? hc)))

theorem Spec.IsIdent.lexTrim_raw {E : Env} {s : Str} (h : IsIdent E s) :
    Bindgen.lexTrim (c!"r#" ++ s) = c!"r#" ++ s := by
  apply lexTrim_eq_self
  · intro c hc
    simp at hc; subst hc; decide
  · intro c hc
    rw [List.getLast?_append, List.getLast?_eq_some_getLast h.ne_nil, Option.some_or, ← List.getLast?_eq_some_getLast h.ne_nil] at hc
    exact lexWs_of_continue (h.continue _ (mem_of_getLast? hc))

/-- The lexer on a plain identifier. -/
theorem synIdent_of_isIdent {E : Env} {s : Str} (h : IsIdent E s) :
    synIdent E s = if rustKeywords.contains s then none else some s := by
  have hb := (isIdentText_iff E s).mpr h
  rw [synIdent, h.lexTrim]
  unfold synIdentTok
  split
  · exact absurd h.no_hash (by simp)
  · simp only [hb, Bool.true_and]
    cases rustKeywords.contains s <;> rfl

/-- The lexer on a raw identifier. -/
theorem synIdent_raw {E : Env} {s : Str} (h : IsIdent E s) :
    synIdent E (c!"r#" ++ s) = if rawReserved.contains s then none else some (c!"r#" ++ s) := by
  have hb := (isIdentText_iff E s).mpr h
  rw [synIdent, h.lexTrim_raw]
  simp only [synIdentTok, List.cons_append, List.nil_append, hb, Bool.true_and]
  cases rawReserved.contains s <;> rfl

theorem keywords_iff (s : Str) : s ∈ keywords ↔ s ∈ rustKeywords := by
  simp only [keywords, rustKeywords, List.mem_cons, List.not_mem_nil, or_false]
  grind

theorem unspellable_iff (s : Str) : s ∈ unspellable ↔ s ∈ rawReserved := by
  simp only [unspellable, rawReserved, List.mem_cons, List.not_mem_nil, or_false]
  grind

/-- What the lexer accepts is a legal identifier token. -/
theorem synIdent_legal {E : Env} {s t : Str} (h : synIdent E s = some t) : RustIdent E t := by
  rw [synIdent] at h
  generalize Bindgen.lexTrim s = u at h
  unfold synIdentTok at h
  split at h
  · rename_i r
    split at h
    · rename_i hc
      simp only [Option.some.injEq] at h
      subst h
      simp only [Bool.and_eq_true, Bool.not_eq_true', List.contains_eq_mem, decide_eq_false_iff_not] at hc
      exact Or.inr ⟨r, rfl, (isIdentText_iff E r).mp hc.1, fun hm => hc.2 ((unspellable_iff r).mp hm)⟩
    · exact absurd h (by simp)
  · split at h
    · rename_i hc
      simp only [Option.some.injEq] at h
      subst h
      simp only [Bool.and_eq_true, Bool.not_eq_true', List.contains_eq_mem, decide_eq_false_iff_not] at hc
      exact Or.inl ⟨(isIdentText_iff E _).mp hc.1, fun hm => hc.2 ((keywords_iff _).mp hm)⟩
    · exact absurd h (by simp)

theorem asPy_fromPy (E : Env) {s : Str} (h : ¬ c!"r#" <+: s) : (Ident.fromPy E s).asPy = s := by
  simp only [Ident.asPy, Ident.fromPy, Ident.pyToRs, Ident.rsAsPy]
  split
  · rw [Str.stripPrefix_eq_none.mpr h]; rfl
  · rw [Str.stripPrefix_append]; rfl

end Bindgen

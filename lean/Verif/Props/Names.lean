import Verif.Lemmas.Ident
/-!
# C01, C02: identifiers
-/
namespace Bindgen
open Spec

/-- **C01**: a Python name survives the conversion to a Rust identifier and back. -/
theorem C01_roundtrip (E : Env) (s : Str) (h : ¬ c!"r#" <+: s) : (Ident.fromPy E s).asPy = s :=
  asPy_fromPy E h

example : ¬ c!"r#" <+: c!"struct" ∧ (Ident.fromPy (.ascii true false) c!"struct").rs = c!"r#struct" := by
  decide

/-- **C01**: different Python names become different Rust identifiers. -/
theorem C01_injective (E : Env) (s t : Str) (hs : ¬ c!"r#" <+: s) (ht : ¬ c!"r#" <+: t)
    (h : Ident.fromPy E s = Ident.fromPy E t) : s = t := by
  rw [← C01_roundtrip E s hs, ← C01_roundtrip E t ht, h]

example : ¬ c!"r#" <+: c!"fn" ∧ ¬ c!"r#" <+: c!"fn_" ∧
    Ident.fromPy (.ascii true false) c!"fn" ≠ Ident.fromPy (.ascii true false) c!"fn_" := by decide

/-- **C01**: no Python identifier starts with `r#`, so the hypothesis above holds for all of them. -/
theorem C01_identifiers (E : Env) (s : Str) (h : IsIdent E s) : (Ident.fromPy E s).asPy = s := by
  apply C01_roundtrip
  rintro ⟨r, rfl⟩
  exact h.no_hash (by simp)

example : IsIdent (.ascii true false) c!"type" := ⟨'t', c!"ype", rfl, by decide, by decide⟩

/-- **C01**, the hypothesis is needed: a name spelled with `r#` is not preserved. -/
theorem C01_raw_counterexample :
    (Ident.fromPy (.ascii true false) c!"r#foo").asPy = c!"foo" := by decide

/-- **C02**: every Python identifier except `_ self Self super crate` becomes one legal Rust identifier token,
and the lexer returns it unchanged. -/
theorem C02_legal (E : Env) (s : Str) (h : IsIdent E s) (hx : s ∉ unspellable) :
    Ident.toSyn E (Ident.fromPy E s) = some (Ident.fromPy E s).rs ∧ RustIdent E (Ident.fromPy E s).rs := by
  have key : Ident.toSyn E (Ident.fromPy E s) = some (Ident.fromPy E s).rs := by
    simp only [Ident.toSyn, Ident.fromPy, Ident.pyToRs]
    rw [synIdent_of_isIdent h]
    by_cases hk : s ∈ rustKeywords
    · simp only [List.contains_eq_mem, hk, decide_true, if_true]
      simp only [Option.isSome_none, Bool.false_eq_true, if_false]
      rw [synIdent_raw h]
      simp [show s ∉ rawReserved from fun hm => hx ((unspellable_iff s).mpr hm)]
    · simp only [List.contains_eq_mem, hk, decide_false]
      simp only [Bool.false_eq_true, if_false, Option.isSome_some, if_true]
      rw [synIdent_of_isIdent h]
      simp [hk]
  exact ⟨key, synIdent_legal key⟩

example : IsIdent (.ascii true false) c!"match" ∧ c!"match" ∉ unspellable :=
  ⟨⟨'m', c!"atch", rfl, by decide, by decide⟩, by decide⟩

/-- **C02**: the five exceptions are exact. -/
theorem C02_exceptions (E : Env) (s : Str) (h : IsIdent E s) :
    Ident.toSyn E (Ident.fromPy E s) = none ↔ s ∈ unspellable := by
  constructor
  · intro hn
    by_contra hx
    rw [(C02_legal E s h hx).1] at hn
    exact absurd hn (by simp)
  · intro hx
    have hr : s ∈ rawReserved := (unspellable_iff s).mp hx
    have hk : s ∈ rustKeywords := by
      simp only [unspellable, List.mem_cons, List.not_mem_nil, or_false] at hx
      rcases hx with rfl | rfl | rfl | rfl | rfl <;> decide
    simp only [Ident.toSyn, Ident.fromPy, Ident.pyToRs]
    rw [synIdent_of_isIdent h]
    simp only [List.contains_eq_mem, hk, decide_true, if_true]
    simp only [Option.isSome_none, Bool.false_eq_true, if_false]
    rw [synIdent_raw h]
    simp [hr]

example : IsIdent (.ascii true false) c!"_" ∧ c!"_" ∈ unspellable ∧
    Ident.toSyn (.ascii true false) (Ident.fromPy (.ascii true false) c!"_") = none :=
  ⟨⟨'_', [], rfl, by decide, by decide⟩, by decide, by decide⟩

/-- **C02**: whatever the lexer accepts (for any input, not only identifiers) is a legal identifier token. -/
theorem C02_accepted_is_legal (E : Env) (i : Ident) (t : Str) (h : Ident.toSyn E i = some t) :
    RustIdent E t := synIdent_legal h

example : Ident.toSyn (.ascii true false) ⟨c!" r#fn "⟩ = some c!"r#fn" := by decide

end Bindgen

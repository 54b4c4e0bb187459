import Mathlib.Tactic.Common
import Mathlib.Data.List.Nodup
import Mathlib.Data.List.Perm.Subperm
import Mathlib.Data.Nat.Find
import Verif.Lemmas.Ident
import Verif.Lemmas.Res
import Verif.Model.Python
/-! # Lemmas about the search for unused names -/
namespace Bindgen

theorem digitChar_ofNat {d : Nat} (h : d < 10) : Char.ofNat (48 + d) = d.digitChar := by
  match d, h with
  | 0, _ | 1, _ | 2, _ | 3, _ | 4, _ | 5, _ | 6, _ | 7, _ | 8, _ | 9, _ => rfl

theorem decimalGo_eq (f n : Nat) (h : n < f) : decimalGo f n = Nat.toDigits 10 n := by
  induction f generalizing n with
  | zero => omega
  | succ f ih =>
    rw [decimalGo, Nat.toDigits_eq_if (by omega)]
    by_cases hn : n < 10
    · rw [if_pos hn, if_pos hn, Nat.mod_eq_of_lt hn, digitChar_ofNat hn]; rfl
    · rw [if_neg hn, if_neg hn, ih _ (by omega), digitChar_ofNat (by omega)]

/-- The model's decimal rendering is the standard one. -/
theorem decimal_eq (n : Nat) : decimal n = Nat.toDigits 10 n := decimalGo_eq _ _ (by omega)

theorem decimal_inj {m n : Nat} (h : decimal m = decimal n) : m = n := by
  rw [decimal_eq, decimal_eq] at h
  rw [← Nat.ofDigitChars_toDigits (b := 10) (n := m) (by omega) (by omega), h, Nat.ofDigitChars_toDigits (by omega) (by omega)]

theorem decimal_ne_nil (n : Nat) : decimal n ≠ [] := by rw [decimal_eq]; exact Nat.toDigits_ne_nil

theorem candidate_asPy (E : Env) {base : Str} (hb : ∀ i, ¬ c!"r#" <+: base ++ if i > 0 then decimal i else []) (i : Nat) :
    (candidate E base i).asPy = base ++ if i > 0 then decimal i else [] := by
  rw [candidate, asPy_fromPy E (hb _)]

theorem candidate_inj (E : Env) {base : Str} (hb : ∀ i, ¬ c!"r#" <+: base ++ if i > 0 then decimal i else []) {i j : Nat}
    (h : candidate E base i = candidate E base j) : i = j := by
  have h' := congrArg Ident.asPy h
  rw [candidate_asPy E hb, candidate_asPy E hb] at h'
  have h' := List.append_cancel_left h'
  by_cases hi : i > 0 <;> by_cases hj : j > 0
  · rw [if_pos hi, if_pos hj] at h'; exact decimal_inj h'
  · rw [if_pos hi, if_neg hj] at h'; exact absurd h' (decimal_ne_nil i)
  · rw [if_neg hi, if_pos hj] at h'; exact absurd h'.symm (decimal_ne_nil j)
  · omega

theorem freshGo_some (E : Env) (base : Str) (used : Ident → Bool) (f k i : Nat) (hik : i ≤ k) (hk : k < i + f)
    (hfree : used (candidate E base k) = false) (hleast : ∀ j, i ≤ j → j < k → used (candidate E base j) = true) :
    freshGo E base used f i = .ok (candidate E base k) := by
  induction f generalizing i with
  | zero => omega
  | succ f ih =>
    rw [freshGo]
    by_cases h : i = k
    · subst h; rw [if_neg (by simp [hfree])]
    · rw [if_pos (hleast i (by omega) (by omega))]
      exact ih (i + 1) (by omega) (by omega) (fun j h1 h2 => hleast j (by omega) h2)

/-- Among the first `names.length + 1` candidates one is not in the list (pigeonhole). -/
theorem exists_free (E : Env) {base : Str} (hb : ∀ i, ¬ c!"r#" <+: base ++ if i > 0 then decimal i else []) (names : List Ident) :
    ∃ k, k ≤ names.length ∧ candidate E base k ∉ names := by
  by_contra hc
  simp only [not_exists, not_and, not_not] at hc
  have hnd : ((List.range (names.length + 1)).map (candidate E base)).Nodup :=
    List.nodup_range.map (fun i j h => candidate_inj E hb h)
  have hsub : (List.range (names.length + 1)).map (candidate E base) ⊆ names := by
    intro i hi
    obtain ⟨k, hk, rfl⟩ := List.mem_map.mp hi
    exact hc k (by have := List.mem_range.mp hk; omega)
  have := (hnd.subperm hsub).length_le
  simp at this
  omega

/-- The search finds the first candidate that is not in the list. -/
theorem fresh_eq (E : Env) {base : Str} (hb : ∀ i, ¬ c!"r#" <+: base ++ if i > 0 then decimal i else []) (names : List Ident) :
    ∃ k, fresh E base names = .ok (candidate E base k) ∧ candidate E base k ∉ names ∧
      ∀ j, j < k → candidate E base j ∈ names := by
  classical
  have hex : ∃ k, candidate E base k ∉ names := by
    obtain ⟨k, _, hk⟩ := exists_free E hb names; exact ⟨k, hk⟩
  obtain ⟨m, hm, hfree⟩ := exists_free E hb names
  have hle : Nat.find hex ≤ m := Nat.find_min' hex hfree
  refine ⟨Nat.find hex, ?_, Nat.find_spec hex, fun j hj => by simpa using Nat.find_min hex hj⟩
  apply freshGo_some _ _ _ _ _ _ (by omega) (by omega)
  · simpa using Nat.find_spec hex
  · intro j _ hj
    simpa using Nat.find_min hex hj

end Bindgen

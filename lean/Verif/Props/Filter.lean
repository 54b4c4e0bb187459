import Verif.Model.Config
import Verif.Lemmas.Path
/-!
# C08: the attribute filter
-/
namespace Bindgen
open Spec

/-- Names that generated functions may not have because pyo3 uses them. -/
def Spec.reserved : List Str := [c!"get_type", c!"obj", c!"py", c!"repr", c!"str"]

/-- What the configuration says about an attribute `name` defined in the Python module with the segments `mods`. -/
structure Spec.Allowed (cfg : Config) (name : Str) (mods : List Str) : Prop where
  notReserved : name ∉ reserved
  notBlocked : name ∉ cfg.blocklistNames
  notPrivate : cfg.includePrivate = true ∨ (¬ c!"_" <+: name ∧ ∀ m ∈ mods, ¬ c!"_" <+: m)
  notFuture : c!"__future__" ∉ mods
  notTyping : c!"typing" ∉ mods

/-- **C08**: the filter decides exactly `Allowed`, for every identifier and path. -/
theorem C08_filter_iff (cfg : Config) (i : Ident) (p : Path) :
    cfg.isAttrAllowed i p = true ↔ Allowed cfg i.asPy (p.segs.map Ident.asPy) := by
  have h1 : forbiddenFunctionNames.contains i.asPy = true ↔ i.asPy ∈ reserved := by
    simp [forbiddenFunctionNames, reserved]
  have h2 : cfg.blocklistNames.any (fun b => i.asPy = b) = true ↔ i.asPy ∈ cfg.blocklistNames := by
    simp
  have h3 : (p.segs.any (fun s => Str.startsWith s.asPy c!"_")) = true ↔ ∃ m ∈ p.segs.map Ident.asPy, c!"_" <+: m := by
    simp only [List.any_eq_true, Str.startsWith_iff, List.mem_map]
    constructor
    · rintro ⟨x, hx, h⟩; exact ⟨_, ⟨x, hx, rfl⟩, h⟩
    · rintro ⟨_, ⟨x, hx, rfl⟩, h⟩; exact ⟨x, hx, h⟩
  have h4 : ∀ t : Str, p.segs.any (fun s => s.asPy = t) = true ↔ t ∈ p.segs.map Ident.asPy := by
    intro t; simp
  unfold Config.isAttrAllowed
  constructor
  · intro h
    split at h
    · exact absurd h (by simp)
    · rename_i hn
      simp only [Bool.or_eq_true, Bool.and_eq_true, not_or, not_and, h1, h2, h3, h4, Bool.not_eq_true',
        Str.startsWith_iff] at hn
      obtain ⟨⟨⟨⟨a, b⟩, c⟩, d⟩, e⟩ := hn
      refine ⟨a, c, ?_, d, e⟩
      cases hp : cfg.includePrivate with
      | true => exact Or.inl rfl
      | false =>
        have := b hp
        exact Or.inr ⟨this.1, fun m hm hpre => this.2 ⟨m, hm, hpre⟩⟩
  · rintro ⟨a, c, b, d, e⟩
    rw [if_neg]
    simp only [Bool.or_eq_true, Bool.and_eq_true, not_or, not_and, h1, h2, h3, h4, Bool.not_eq_true',
        Str.startsWith_iff]
    refine ⟨⟨⟨⟨a, ?_⟩, c⟩, d⟩, e⟩
    intro hp
    rcases b with b | b
    · rw [b] at hp; exact absurd hp (by simp)
    · exact ⟨b.1, fun ⟨m, hm, hpre⟩ => b.2 m hm hpre⟩

example : Allowed {} c!"foo" [c!"pkg", c!"sub"] ∧ ¬ Allowed {} c!"foo" [c!"pkg", c!"_sub"] ∧
    ¬ Allowed {} c!"tests" [c!"pkg"] ∧ Allowed { includePrivate := true } c!"_foo" [c!"_pkg"] := by
  refine ⟨⟨by decide, by decide, Or.inr (by decide), by decide, by decide⟩, ?_, ?_,
    ⟨by decide, by decide, Or.inl rfl, by decide, by decide⟩⟩
  · rintro ⟨-, -, h, -, -⟩; revert h; decide
  · rintro ⟨-, h, -, -, -⟩; revert h; decide

/-- **C08**: the same in terms of the Python names the code starts from. -/
theorem C08_filter_python_names (E : Env) (cfg : Config) (name : Str) (mods : List Str)
    (hn : ¬ c!"r#" <+: name) (hm : ∀ s ∈ mods, PySegment s) (hne : mods ≠ []) :
    cfg.isAttrAllowed (Ident.fromPy E name) (Path.fromPy E (Str.join c!"." mods)) = true ↔
      Allowed cfg name mods := by
  rw [C08_filter_iff, asPy_fromPy E hn]
  have := fromPy_dotted E 0 hne hm
  simp only [dotted, List.replicate_zero, List.nil_append] at this
  rw [this]
  have hpy : (mods.map (Ident.fromPy E)).map Ident.asPy = mods := by
    rw [List.map_map]
    conv_rhs => rw [← List.map_id mods]
    apply List.map_congr_left
    intro s hs; simp [asPy_fromPy E (hm s hs).2.2.1]
  rw [hpy]

example : (∀ s ∈ [c!"pkg", c!"typing"], PySegment s) ∧ ¬ Allowed {} c!"foo" [c!"pkg", c!"typing"] := by
  refine ⟨?_, fun h => h.notTyping (by decide)⟩
  simp only [List.mem_cons, List.not_mem_nil, or_false]
  rintro s (rfl | rfl) <;> (unfold PySegment; decide)

/-- **C08**: with the default configuration, of all attributes of public modules only these are left out: the names pyo3
needs, `builtins` and the test packages, private names, and everything from `__future__` or `typing`. -/
theorem C08_default (E : Env) (name : Str) (mods : List Str) (hn : ¬ c!"r#" <+: name) (hm : ∀ s ∈ mods, PySegment s)
    (hne : mods ≠ []) :
    ({} : Config).isAttrAllowed (Ident.fromPy E name) (Path.fromPy E (Str.join c!"." mods)) = true ↔
      name ∉ [c!"get_type", c!"obj", c!"py", c!"repr", c!"str", c!"builtins", c!"testing", c!"tests", c!"test"] ∧
      name.head? ≠ some '_' ∧ (∀ m ∈ mods, m.head? ≠ some '_') ∧ c!"typing" ∉ mods := by
  rw [C08_filter_python_names E {} name mods hn hm hne]
  have hp : ∀ s : Str, c!"_" <+: s ↔ s.head? = some '_' := by
    intro s
    cases s with
    | nil => simp
    | cons c s => simp [List.cons_prefix_cons, eq_comm]
  constructor
  · rintro ⟨h1, h2, h3, -, h5⟩
    rcases h3 with h3 | ⟨h3, h4⟩
    · cases h3
    · refine ⟨?_, fun hc => h3 ((hp _).mpr hc), fun m hm hc => h4 m hm ((hp _).mpr hc), h5⟩
      intro hmem
      have : name ∈ reserved ++ [c!"builtins", c!"testing", c!"tests", c!"test"] := hmem
      rcases List.mem_append.mp this with h | h
      · exact h1 h
      · exact h2 h
  · rintro ⟨h1, h2, h3, h4⟩
    refine ⟨fun h => h1 (List.mem_append_left [c!"builtins", c!"testing", c!"tests", c!"test"] h),
      fun h => h1 (List.mem_append_right reserved h),
      Or.inr ⟨fun hc => h2 ((hp _).mp hc), fun m hm hc => h3 m hm ((hp _).mp hc)⟩, ?_, h4⟩
    intro h
    exact h3 _ h rfl

example : ({} : Config).isAttrAllowed (Ident.fromPy (.ascii true false) c!"test") (Path.fromPy (.ascii true false) c!"pkg.sub") = false ∧
    ({} : Config).isAttrAllowed (Ident.fromPy (.ascii true false) c!"tester") (Path.fromPy (.ascii true false) c!"pkg.sub") = true := by
  decide

end Bindgen

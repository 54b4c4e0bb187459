import Verif.Lemmas.Builds
import Verif.Lemmas.Only
import Verif.Props.Panics
import Verif.Props.Termination
/-! # C64: the build profile of the engine does not change the bindings -/
namespace Bindgen
open Spec

/-- **C64**: a whole run — requests in an interpreter that changes in between, then generation — does the same in the debug
profile and in the release profile, unless the debug build stops at an overflow check or a debug assertion. -/
theorem C64_builds (E : Env) (fuel : Nat) (cfg : Config) (steps : List (World × Request)) (W : World) :
    SameOrCheck (runLive E fuel cfg steps W) (runLive (releaseOf E) fuel cfg steps W) := same_runLive ..

/-- Bindings of the debug build are bindings of the release build. -/
theorem C64_bindings (E : Env) (fuel : Nat) (cfg : Config) (steps : List (World × Request)) (W : World) (items : List Item)
    (h : runLive E fuel cfg steps W = .ok items) : runLive (releaseOf E) fuel cfg steps W = .ok items := by
  rcases C64_builds E fuel cfg steps W with he | ⟨f, -, he⟩
  · rw [← he, h]
  · rw [h] at he; cases he

/-- An error of the debug build is the error of the release build. -/
theorem C64_errors (E : Env) (fuel : Nat) (cfg : Config) (steps : List (World × Request)) (W : World) (e : PyBindgenError)
    (h : runLive E fuel cfg steps W = .error (.err e)) : runLive (releaseOf E) fuel cfg steps W = .error (.err e) := by
  rcases C64_builds E fuel cfg steps W with he | ⟨f, hf, he⟩
  · rw [← he, h]
  · rw [h] at he; cases he; cases hf

/-- What the release build does the debug build does too, or it stops at a check: there is no third outcome. -/
theorem C64_converse (E : Env) (fuel : Nat) (cfg : Config) (steps : List (World × Request)) (W : World) (r : Res (List Item))
    (h : runLive (releaseOf E) fuel cfg steps W = r) : runLive E fuel cfg steps W = r ∨
      runLive E fuel cfg steps W = .error (.panic .overflow) ∨ runLive E fuel cfg steps W = .error (.panic .assertion) := by
  subst h
  rcases C64_builds E fuel cfg steps W with he | ⟨f, hf, he⟩
  · exact Or.inl he
  · cases hf
    · exact Or.inr (Or.inl he)
    · exact Or.inr (Or.inr he)

theorem only_runLive (E : Env) (fuel : Nat) (cfg : Config) (steps : List (World × Request)) (W : World) :
    Only (Checked E) (runLive E fuel cfg steps W) := by
  have hk : ∀ f, EngineFail True (E.debug = true) f → Checked E f := by
    intro f hf
    cases hf with
    | panic p _ h => exact h
    | _ => exact fun h => by cases h
  refine Only.bind (Only.foldRes fun c s _ => Only.mono (only_request (fun id => only_moduleParse trivial ..) _) hk) fun c _ => ?_
  unfold Codegen.generate
  refine only_ite (Only.error fun h => by cases h) ?_
  exact Only.mono (Only.bind (only_prepare _ _ _ _ fun _ _ => only_moduleParse trivial ..) fun _ _ => only_generateList ..) hk

/-- The release build never stops at an overflow check or a debug assertion. -/
theorem C64_release_unchecked (E : Env) (hE : E.debug = false) (fuel : Nat) (cfg : Config) (steps : List (World × Request))
    (W : World) : runLive E fuel cfg steps W ≠ .error (.panic .overflow) ∧ runLive E fuel cfg steps W ≠ .error (.panic .assertion) := by
  have h := only_runLive E fuel cfg steps W
  constructor
  · intro hc; have := h.out _ hc .overflow; rw [hE] at this; cases this
  · intro hc; have := h.out _ hc .assertion; rw [hE] at this; cases this

/-- The standard streams: a run of the debug build leaves `sys.stdout` and `sys.stderr` as the release build does and ends in
the same way, or it stops at a check. -/
theorem C64_streams (E : Env) (W : Sys → World) (fuel : Nat) (cfg : Config) (rs : List Request) (s : Sys) :
    runIo E W fuel cfg rs s = runIo (releaseOf E) W fuel cfg rs s ∨
      (runIo E W fuel cfg rs s).2 = .error (.panic .overflow) ∨ (runIo E W fuel cfg rs s).2 = .error (.panic .assertion) := by
  rcases ss_runIo E W fuel cfg rs s with he | ⟨f, hf, he⟩
  · exact Or.inl he
  · cases hf
    · exact Or.inr (Or.inl he)
    · exact Or.inr (Or.inr he)

/-! ## Front ends -/

theorem same_cliFold (E : Env) (W : World) (fuel : Nat) (c : Codegen) (ns : List Str) {c' : Codegen}
    (h : cliFold E W fuel c ns = some c') : cliFold (releaseOf E) W fuel c ns = some c' := by
  induction ns generalizing c with
  | nil => exact h
  | cons n ns ih =>
    simp only [cliFold] at h ⊢
    rcases same_moduleName E W fuel c n with he | ⟨f, -, he⟩
    · rw [← he]
      split at h
      · exact ih _ h
      · cases h
    · rw [he] at h; cases h

/-- The text that the command-line tool computes in the debug profile is the text that it computes in the release profile. -/
theorem C64_cli (E : Env) (W : World) (fuel : Nat) (O : Outside) (names : List Str) (text : Str)
    (h : cliBindings E W fuel O names = some text) : cliBindings (releaseOf E) W fuel O names = some text := by
  unfold cliBindings at h ⊢
  cases hf : cliFold E W fuel {} names with
  | none => rw [hf] at h; cases h
  | some c =>
    rw [hf] at h
    rw [same_cliFold E W fuel {} names hf]
    rcases same_codegenGenerate E W fuel c with he | ⟨f, -, he⟩
    · simp only [he] at h
      exact h
    · simp only [he] at h
      cases h

/-- The tokens of `import_python!` are the same in both profiles. -/
theorem C64_macro (E : Env) (W : World) (fuel : Nat) (name : Str) (ts : List Tok)
    (h : macroTokens E W fuel name = some ts) : macroTokens (releaseOf E) W fuel name = some ts := by
  unfold macroTokens at h ⊢
  rcases same_moduleName E W fuel {} name with he | ⟨f, -, he⟩
  · rw [← he]
    split at h
    · cases h
    · rename_i c hc
      rcases same_codegenGenerate E W fuel c with he | ⟨f, -, he⟩
      · simp only [he] at h
        exact h
      · simp only [he] at h
        cases h
  · rw [he] at h; cases h

/-! ## Examples -/

-- a run that succeeds in the debug profile
example : ∃ items, runLive exEnv 3 {} [(exWorld, .name c!"pkg"), (exWorld, .name c!"other")] exWorld = .ok items ∧ items ≠ [] := by
  have h : (runLive exEnv 3 {} [(exWorld, .name c!"pkg"), (exWorld, .name c!"other")] exWorld).map List.length = .ok 2 := by
    decide +kernel
  cases hr : runLive exEnv 3 {} [(exWorld, .name c!"pkg"), (exWorld, .name c!"other")] exWorld with
  | error e => rw [hr] at h; cases h
  | ok items => exact ⟨items, rfl, fun hn => by rw [hr, hn] at h; cases h⟩

example : exEnv.debug = true ∧ (releaseOf exEnv).debug = false := ⟨rfl, rfl⟩

-- what the front ends compute in the debug profile
example : (cliBindings exEnv exWorld 3 exOutside [c!"pkg", c!"other"]).isSome = true ∧ (macroTokens exEnv exWorld 3 c!"pkg").isSome = true :=
  ⟨by decide +kernel, by decide +kernel⟩

/-- **C64**: the profiles do differ: an annotation with brackets in both members of a union stops the debug build at an overflow
check, one with `::` at a debug assertion; the release build generates bindings. -/
theorem C64_profiles_differ (ann : Str) (site : PanicSite)
    (h : (ann, site) = (c!"list[tuple[int, str] | tuple[str, int]]", .overflow) ∨ (ann, site) = (c!"std::string", .assertion)) :
    exOutcome {} (.ascii true false) (exOneWorld [(c!"f", exAnnFn c!"pkg" ann)]) 3 c!"pkg" = .error (.panic site) ∧
    exOutcome {} (releaseOf (.ascii true false)) (exOneWorld [(c!"f", exAnnFn c!"pkg" ann)]) 3 c!"pkg" = .ok 1 := by
  rcases h with h | h <;> cases h <;> exact ⟨by decide +kernel, by decide +kernel⟩

end Bindgen

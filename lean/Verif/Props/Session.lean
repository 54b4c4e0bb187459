import Verif.Model.Session
import Verif.Props.Engine
/-!
# Whole runs with the standard streams: C46, C47
-/
namespace Bindgen
open Spec

/-! ## Specification -/

/-- The streams while output is suppressed. -/
def Spec.replaced (cfg : Config) (s : Sys) : Sys :=
  ⟨if cfg.suppressPythonStdout then some .sink else s.stdout, if cfg.suppressPythonStderr then some .sink else s.stderr⟩

/-- A step leaves the streams as they were, or it fails and leaves them replaced. -/
def Spec.RestoresOnSuccess {α : Type} (cfg : Config) (x : Step α) : Prop :=
  ∀ s, ∃ r, x s = (s, r) ∨ ((cfg.suppressPythonStdout || cfg.suppressPythonStderr) = true ∧
    ∃ e, x s = (replaced cfg s, .error e))

/-! ## Lemmas -/

theorem ros_look {α : Type} (cfg : Config) (f : Sys → Res α) : RestoresOnSuccess cfg (Step.look f) :=
  fun s => ⟨f s, Or.inl rfl⟩

theorem ros_bind {α β : Type} {cfg : Config} {x : Step α} {f : α → Step β} (hx : RestoresOnSuccess cfg x)
    (hf : ∀ a, RestoresOnSuccess cfg (f a)) : RestoresOnSuccess cfg (Step.bind x f) := by
  intro s
  obtain ⟨r, h | ⟨hs, e, h⟩⟩ := hx s
  · cases r with
    | ok a =>
      obtain ⟨r', h'⟩ := hf a s
      refine ⟨r', ?_⟩
      simp only [Step.bind, h]
      exact h'
    | error e => exact ⟨.error e, Or.inl (by simp only [Step.bind, h])⟩
  · exact ⟨.error e, Or.inr ⟨hs, e, by simp only [Step.bind, h]⟩⟩

theorem ros_fold {α β : Type} {cfg : Config} {f : α → β → Step α} (P : α → Prop)
    (hf : ∀ a b, P a → RestoresOnSuccess cfg (f a b)) (hP : ∀ a b s s' a', P a → f a b s = (s', .ok a') → P a') :
    ∀ (l : List β) (a : α), P a → RestoresOnSuccess cfg (Step.fold f a l) ∧
      ∀ s s' a', Step.fold f a l s = (s', .ok a') → P a'
  | [], a, ha => ⟨ros_look _ _, by intro s s' a' h; cases h; exact ha⟩
  | b :: l, a, ha => by
    have ih := ros_fold P hf hP l
    constructor
    · intro s
      obtain ⟨r, h | ⟨hs, e, h⟩⟩ := hf a b ha s
      · cases r with
        | ok a1 =>
          obtain ⟨r', h'⟩ := (ih a1 (hP a b s s a1 ha h)).1 s
          refine ⟨r', ?_⟩
          simp only [Step.fold, Step.bind, h]
          exact h'
        | error e => exact ⟨.error e, Or.inl (by simp only [Step.fold, Step.bind, h])⟩
      · exact ⟨.error e, Or.inr ⟨hs, e, by simp only [Step.fold, Step.bind, h]⟩⟩
    · intro s s' a' h
      simp only [Step.fold, Step.bind] at h
      cases hx : f a b s with
      | mk s1 r =>
        rw [hx] at h
        cases r with
        | ok a1 => exact (ih a1 (hP a b s s1 a1 ha hx)).2 s1 s' a' h
        | error e => cases h

theorem ros_suppressed {α : Type} (cfg : Config) (f : Sys → Res α) :
    RestoresOnSuccess cfg (withSuppressed cfg.suppressPythonStdout cfg.suppressPythonStderr (Step.look f)) := by
  intro s
  unfold withSuppressed
  split
  · exact ⟨_, Or.inl rfl⟩
  · rename_i hs
    have hs : (cfg.suppressPythonStdout || cfg.suppressPythonStderr) = true := by
      cases h1 : cfg.suppressPythonStdout <;> cases h2 : cfg.suppressPythonStderr <;> simp_all
    obtain ⟨so, se⟩ := s
    cases so with
    | none => exact ⟨_, Or.inl rfl⟩
    | some o =>
      cases se with
      | none => exact ⟨_, Or.inl rfl⟩
      | some e =>
        simp only [Step.look]
        cases hf : f ⟨if cfg.suppressPythonStdout then some .sink else some o,
            if cfg.suppressPythonStderr then some .sink else some e⟩ with
        | ok a =>
          refine ⟨.ok a, Or.inl ?_⟩
          cases cfg.suppressPythonStdout <;> cases cfg.suppressPythonStderr <;> rfl
        | error x => exact ⟨.error x, Or.inr ⟨hs, x, rfl⟩⟩

theorem ros_module (E : Env) (W : Sys → World) (fuel : Nat) (c : Codegen) (id : Nat) :
    RestoresOnSuccess c.cfg (c.moduleIo E W fuel id) :=
  ros_suppressed c.cfg (fun s => c.module E (W s) fuel id)

theorem ros_request (E : Env) (W : Sys → World) (fuel : Nat) (c : Codegen) (r : Request) :
    RestoresOnSuccess c.cfg (c.requestIo E W fuel r) := by
  cases r with
  | handle id => exact ros_module E W fuel c id
  | name n => exact ros_bind (ros_look _ _) (fun id => ros_module E W fuel c id)
  | source code n =>
    exact ros_bind (ros_look _ _) (fun id => ros_module E W fuel { c with embedded := c.embedded ++ [(n, code)] } id)

theorem suppressed_look {α : Type} {so se : Bool} {f : Sys → Res α} {s s' : Sys} {a : α}
    (h : withSuppressed so se (Step.look f) s = (s', .ok a)) : ∃ s1, f s1 = .ok a := by
  unfold withSuppressed at h
  split at h
  · exact ⟨s, (Prod.ext_iff.mp h).2⟩
  · split at h
    · simp only [Step.look] at h
      split at h
      · cases h
      · rename_i s2 a' heq
        cases h
        exact ⟨_, (Prod.ext_iff.mp heq).2⟩
    · cases h

theorem module_cfg {E : Env} {W : World} {fuel : Nat} {c c' : Codegen} {id : Nat} (h : c.module E W fuel id = .ok c') :
    c'.cfg = c.cfg := by
  unfold Codegen.module at h
  obtain ⟨m, -, h⟩ := Res.bind_ok h
  cases h
  rfl

theorem moduleIo_cfg {E : Env} {W : Sys → World} {fuel : Nat} {c c' : Codegen} {id : Nat} {s s' : Sys}
    (h : c.moduleIo E W fuel id s = (s', .ok c')) : c'.cfg = c.cfg := by
  obtain ⟨s1, h1⟩ := suppressed_look (f := fun s => c.module E (W s) fuel id) h
  exact module_cfg h1

theorem bind_step_ok {α β : Type} {x : Step α} {f : α → Step β} {s s' : Sys} {b : β}
    (h : Step.bind x f s = (s', .ok b)) : ∃ s1 a, x s = (s1, .ok a) ∧ f a s1 = (s', .ok b) := by
  simp only [Step.bind] at h
  cases hx : x s with
  | mk s1 r =>
    rw [hx] at h
    cases r with
    | ok a => exact ⟨s1, a, rfl, h⟩
    | error e => cases h

theorem requestIo_cfg {E : Env} {W : Sys → World} {fuel : Nat} {c c' : Codegen} {r : Request} {s s' : Sys}
    (h : c.requestIo E W fuel r s = (s', .ok c')) : c'.cfg = c.cfg := by
  cases r with
  | handle id => exact moduleIo_cfg h
  | name n =>
    obtain ⟨s1, id, -, h⟩ := bind_step_ok h
    exact moduleIo_cfg h
  | source code n =>
    obtain ⟨s1, id, -, h⟩ := bind_step_ok h
    have := moduleIo_cfg h
    exact this

theorem ros_depStep (E : Env) (cfg : Config) (W : Sys → World) (fuel : Nat) (st : List Str × List Module) (origin : Path) :
    RestoresOnSuccess cfg (depStepIo E cfg W fuel st origin) := by
  unfold depStepIo
  refine ros_bind (ros_look _ _) fun d => ?_
  split
  · exact ros_look _ _
  · refine ros_bind (ros_look _ _) fun _ => ?_
    split
    · exact ros_bind (ros_suppressed _ _) (fun _ => ros_look _ _)
    · exact ros_look _ _

theorem ros_generate (E : Env) (W : Sys → World) (fuel : Nat) (c : Codegen) :
    RestoresOnSuccess c.cfg (c.generateIo E W fuel) := by
  unfold Codegen.generateIo
  split
  · exact ros_look _ _
  · refine ros_bind ?_ (fun _ => ros_look _ _)
    split
    · exact ros_bind (ros_fold (fun _ => True) (fun st o _ => ros_depStep E c.cfg W fuel st o) (fun _ _ _ _ _ _ _ => trivial) _ _
        trivial).1 (fun _ => ros_look _ _)
    · exact ros_look _ _

theorem ros_run (E : Env) (W : Sys → World) (fuel : Nat) (cfg : Config) (rs : List Request) :
    RestoresOnSuccess cfg (runIo E W fuel cfg rs) := by
  unfold runIo
  have hfold := ros_fold (cfg := cfg) (f := fun (c : Codegen) r => c.requestIo E W fuel r) (fun c => c.cfg = cfg)
    (fun c r hc => hc ▸ ros_request E W fuel c r) (fun c r s s' c' hc h => (requestIo_cfg h).trans hc) rs (Codegen.new cfg) rfl
  intro s
  obtain ⟨r, h | ⟨hs, e, h⟩⟩ := hfold.1 s
  · cases r with
    | ok c =>
      have hc := hfold.2 s s c h
      obtain ⟨r', h'⟩ := ros_generate E W fuel c s
      refine ⟨r', ?_⟩
      simp only [Step.bind, h]
      rw [hc] at h'
      exact h'
    | error e => exact ⟨.error e, Or.inl (by simp only [Step.bind, h])⟩
  · exact ⟨.error e, Or.inr ⟨hs, e, by simp only [Step.bind, h]⟩⟩

/-! ## C46 -/

/-- A successful run — any requests, then generation, with or without dependencies — leaves the streams as they were. Missing:
runs that fail (`C46_run_counterexample`). -/
theorem C46_run_partial (E : Env) (W : Sys → World) (fuel : Nat) (cfg : Config) (rs : List Request) (s s' : Sys)
    (items : List Item) (h : runIo E W fuel cfg rs s = (s', .ok items)) : s' = s := by
  obtain ⟨r, h' | ⟨-, e, h'⟩⟩ := ros_run E W fuel cfg rs s
  · exact (Prod.ext_iff.mp (h.symm.trans h')).1
  · rw [h] at h'; cases (Prod.ext_iff.mp h').2

/-- A run that fails leaves the streams as they were, or leaves exactly the suppressed ones replaced. -/
theorem C46_run_streams (E : Env) (W : Sys → World) (fuel : Nat) (cfg : Config) (rs : List Request) (s s' : Sys)
    (r : Res (List Item)) (h : runIo E W fuel cfg rs s = (s', r)) :
    s' = s ∨ (cfg.suppressPythonStdout = true ∨ cfg.suppressPythonStderr = true) ∧ (∃ e, r = .error e) ∧
      s'.stdout = (if cfg.suppressPythonStdout then some .sink else s.stdout) ∧
      s'.stderr = (if cfg.suppressPythonStderr then some .sink else s.stderr) := by
  obtain ⟨r', h' | ⟨hs, e, h'⟩⟩ := ros_run E W fuel cfg rs s
  · exact Or.inl (Prod.ext_iff.mp (h.symm.trans h')).1
  · have := Prod.ext_iff.mp (h.symm.trans h')
    exact Or.inr ⟨by simpa using hs, ⟨e, this.2⟩, by rw [show s' = _ from this.1]; rfl, by rw [show s' = _ from this.1]; rfl⟩

/-- With both flags off no run touches the streams. -/
theorem C46_run_unsuppressed (E : Env) (W : Sys → World) (fuel : Nat) (cfg : Config) (rs : List Request) (s : Sys)
    (h1 : cfg.suppressPythonStdout = false) (h2 : cfg.suppressPythonStderr = false) :
    (runIo E W fuel cfg rs s).1 = s := by
  rcases C46_run_streams E W fuel cfg rs s _ _ rfl with h | ⟨h | h, -⟩
  · exact h
  · rw [h1] at h; cases h
  · rw [h2] at h; cases h

/-- A run with requests of all three kinds and with dependencies succeeds. -/
example : (runIo exEnv (fun _ => { exWorld with fromCode := fun _ _ => some 0 }) 3 { generateDependencies := true }
    [.handle 0, .name c!"other", .source c!"x = 1" c!"pkg"] ⟨some (.obj 1), some (.obj 2)⟩).2.toOption.isSome = true := by
  decide +kernel

/-- After a failed request of the default engine, Python code that prints raises, whatever it is; before, it did not. -/
theorem C46_run_counterexample : ∃ (W : World) (rs : List Request) (s' : Sys) (e : PyBindgenError),
    runIo exEnv (fun _ => W) 2 {} rs ⟨some (.obj 1), some (.obj 2)⟩ = (s', .error (.err e)) ∧
    printsOk ⟨some (.obj 1), some (.obj 2)⟩ 1 = true ∧ ∀ n, printsOk s' (n + 1) = false := by
  refine ⟨⟨[{ name := some c!"m", doc := none }], fun n => if n = c!"m" then some 0 else none, fun _ _ => none⟩, [.name c!"m"],
    ⟨some .sink, some .sink⟩, .pyError, rfl, rfl, fun n => ?_⟩
  cases h : printsOk ⟨some .sink, some .sink⟩ (n + 1) with
  | false => rfl
  | true => cases (C47_printing (n + 1) (some .sink)).mp h

/-! ## C47 -/

/-- With both streams present the step has this outcome, and leaves the streams alone if it succeeds. -/
def Agrees {α : Type} (x : Step α) (r : Res α) : Prop :=
  ∀ o e, (x ⟨some o, some e⟩).2 = r ∧ ((∃ a, r = .ok a) → (x ⟨some o, some e⟩).1 = ⟨some o, some e⟩)

theorem agrees_look {α : Type} {f : Sys → Res α} {r : Res α} (h : ∀ s, f s = r) : Agrees (Step.look f) r :=
  fun _ _ => ⟨h _, fun _ => rfl⟩

theorem agrees_bind {α β : Type} {x : Step α} {r : Res α} {f : α → Step β} {g : α → Res β} (hx : Agrees x r)
    (hf : ∀ a, Agrees (f a) (g a)) : Agrees (Step.bind x f) (r >>= g) := by
  intro o e
  obtain ⟨h1, h2⟩ := hx o e
  simp only [Step.bind]
  cases r with
  | ok a =>
    have : x ⟨some o, some e⟩ = (⟨some o, some e⟩, .ok a) := Prod.ext (h2 ⟨a, rfl⟩) h1
    rw [this]
    exact hf a o e
  | error err =>
    cases hxs : x ⟨some o, some e⟩ with
    | mk s1 r1 =>
      rw [hxs] at h1
      cases h1
      exact ⟨rfl, fun ⟨a, ha⟩ => nomatch ha⟩

theorem agrees_fold {α β : Type} {f : α → β → Step α} {g : α → β → Res α} (h : ∀ a b, Agrees (f a b) (g a b)) :
    ∀ (l : List β) (a : α), Agrees (Step.fold f a l) (foldRes g a l)
  | [], _ => agrees_look (fun _ => rfl)
  | b :: l, a => agrees_bind (h a b) (fun a' => agrees_fold h l a')

theorem agrees_suppressed {α : Type} (so se : Bool) {f : Sys → Res α} {r : Res α} (h : ∀ s, f s = r) :
    Agrees (withSuppressed so se (Step.look f)) r := by
  intro o e
  unfold withSuppressed
  split
  · exact ⟨h _, fun _ => rfl⟩
  · simp only [Step.look, h]
    cases r with
    | ok a => refine ⟨rfl, fun _ => ?_⟩; cases so <;> cases se <;> rfl
    | error err => exact ⟨rfl, fun ⟨a, ha⟩ => nomatch ha⟩

theorem agrees_module (E : Env) (W : Sys → World) (W0 : World) (hW : ∀ s, W s = W0) (fuel : Nat) (c : Codegen) (id : Nat) :
    Agrees (c.moduleIo E W fuel id) (c.module E W0 fuel id) :=
  agrees_suppressed _ _ (f := fun s => c.module E (W s) fuel id) (fun s => by rw [hW])

theorem agrees_request (E : Env) (W : Sys → World) (W0 : World) (hW : ∀ s, W s = W0) (fuel : Nat) (c : Codegen) (r : Request) :
    Agrees (c.requestIo E W fuel r) (c.request E W0 fuel r) := by
  cases r with
  | handle id => exact agrees_module E W W0 hW fuel c id
  | name n => exact agrees_bind (agrees_look (fun s => by rw [hW])) (fun id => agrees_module E W W0 hW fuel c id)
  | source code n => exact agrees_bind (agrees_look (fun s => by rw [hW])) (fun id => agrees_module E W W0 hW fuel _ id)

theorem depStep_eq (E : Env) (cfg : Config) (W : World) (fuel : Nat) (st : List Str × List Module) (origin : Path) :
    depStep E cfg W fuel st origin = (depLook W origin >>= fun d =>
      if st.1.contains d.2.2 then .ok st
      else checkDep E d.2.1 d.2.2 >>= fun _ => if cfg.isAttrAllowed (Ident.fromPy E d.2.2) (Path.fromPy E d.2.1.modPath) then
        Module.parse E cfg W fuel d.1 >>= fun parsed => .ok (st.1 ++ [d.2.2], st.2 ++ [parsed])
      else .ok (st.1 ++ [d.2.2], st.2)) := by
  unfold depStep depLook
  cases lastModule W origin with
  | error e => rfl
  | ok id =>
    cases h1 : Res.ofOption .unreachable (W.get? id) with
    | error e => simp only [Res.ok_bind, h1]; rfl
    | ok m =>
      cases h2 : Res.ofOption .unwrap m.name with
      | error e => simp only [Res.ok_bind, h1, h2]; rfl
      | ok name => simp only [Res.ok_bind, h1, h2]; rfl

theorem agrees_depStep (E : Env) (cfg : Config) (W : Sys → World) (W0 : World) (hW : ∀ s, W s = W0) (fuel : Nat)
    (st : List Str × List Module) (origin : Path) :
    Agrees (depStepIo E cfg W fuel st origin) (depStep E cfg W0 fuel st origin) := by
  rw [depStep_eq]
  unfold depStepIo
  refine agrees_bind (agrees_look (fun s => by rw [hW])) fun d => ?_
  split
  · exact agrees_look (fun _ => rfl)
  · refine agrees_bind (agrees_look fun _ => rfl) fun _ => ?_
    split
    · exact agrees_bind (agrees_suppressed _ _ (fun s => by rw [hW])) (fun _ => agrees_look (fun _ => rfl))
    · exact agrees_look (fun _ => rfl)

theorem agrees_dependencies (E : Env) (cfg : Config) (W : Sys → World) (W0 : World) (hW : ∀ s, W s = W0) (fuel : Nat)
    (mods : List Module) : Agrees (parseDependenciesIo E cfg W fuel mods) (parseDependencies E cfg W0 fuel mods) := by
  unfold parseDependenciesIo parseDependencies
  exact agrees_bind (agrees_fold (fun st o => agrees_depStep E cfg W W0 hW fuel st o) _ _) (fun _ => agrees_look (fun _ => rfl))

theorem agrees_generate (E : Env) (W : Sys → World) (W0 : World) (hW : ∀ s, W s = W0) (fuel : Nat) (c : Codegen) :
    Agrees (c.generateIo E W fuel) (c.generate E W0 fuel) := by
  unfold Codegen.generateIo Codegen.generate
  split
  · exact agrees_look (fun _ => rfl)
  · unfold Codegen.prepare
    cases hd : c.cfg.generateDependencies with
    | true =>
      simp only [ifOn, if_true, bind_assoc]
      refine agrees_bind (agrees_dependencies E c.cfg W W0 hW fuel c.modules) (fun mods => agrees_look (fun s => ?_))
      rw [hW]
      cases canonicalize E W0 mods <;> rfl
    | false =>
      simp only [ifOn, bind_assoc]
      refine agrees_bind (r := .ok c.modules) (agrees_look (fun _ => rfl)) (fun mods => agrees_look (fun s => ?_))
      rw [hW]
      cases canonicalize E W0 mods <;> rfl

/-- What remains of C47 for whole runs: if the interpreter answers the same whatever its streams are, a run with any settings of
suppression has the outcome of the engine without it. Missing: interpreters whose modules print (`C47_counterexample`). -/
theorem C47_run_partial (E : Env) (W : Sys → World) (W0 : World) (hW : ∀ s, W s = W0) (fuel : Nat) (cfg : Config)
    (rs : List Request) (o e : Stream) : (runIo E W fuel cfg rs ⟨some o, some e⟩).2 = run E W0 fuel cfg rs := by
  refine (agrees_bind (agrees_fold (fun c r => agrees_request E W W0 hW fuel c r) rs _)
    (fun c => agrees_generate E W W0 hW fuel c) o e).1

/-- Importing a requested module is not affected: it runs with the streams in place before, whatever is suppressed, so a module that
cannot be imported is reported as such and nothing has been touched. -/
theorem C47_import_unsuppressed (E : Env) (W : Sys → World) (fuel : Nat) (c : Codegen) (n : Str) (s : Sys)
    (h : (W s).importMod n = none) : c.moduleNameIo E W fuel n s = (s, .error (.err .pyError)) := by
  simp only [Codegen.moduleNameIo, Step.bind, Step.look, h]
  rfl

/-- If a standard stream is missing and one is to be suppressed, every request for an importable module fails. -/
theorem C47_missing_stream (E : Env) (W : Sys → World) (fuel : Nat) (c : Codegen) (n : Str) (s : Sys)
    (hs : c.cfg.suppressPythonStdout = true ∨ c.cfg.suppressPythonStderr = true) (hm : s.stdout = none ∨ s.stderr = none) :
    c.moduleNameIo E W fuel n s = (s, .error (.err .pyError)) := by
  cases h : (W s).importMod n with
  | none => exact C47_import_unsuppressed E W fuel c n s h
  | some id =>
    simp only [Codegen.moduleNameIo, Step.bind, Step.look, h]
    show c.moduleIo E W fuel id s = _
    have hc : (!c.cfg.suppressPythonStdout && !c.cfg.suppressPythonStderr) = false := by
      rcases hs with h | h <;> simp [h]
    unfold Codegen.moduleIo withSuppressed
    rw [hc]
    obtain ⟨a, b⟩ := s
    rcases hm with h | h
    · cases h; rfl
    · cases h; cases a <;> rfl

example : ({} : Codegen).cfg.suppressPythonStdout = true ∧ (⟨none, some (.obj 2)⟩ : Sys).stdout = none ∧
    ((fun _ => exWorld) (⟨none, some (.obj 2)⟩ : Sys)).importMod c!"pkg" ≠ none := ⟨rfl, rfl, by decide⟩

end Bindgen

import Verif.Lemmas.Only
import Verif.Lemmas.ExampleWorld
import Verif.Spec.Engine
/-!
# The engine from outside: C43, C44, C45, C46, C47, C55
-/
namespace Bindgen
open Spec

/-! ## C43 -/

/-- An engine without modules reports that there are none. -/
theorem C43_empty_is_error (E : Env) (W : World) (fuel : Nat) (c : Codegen) (h : c.modules = []) :
    c.generate E W fuel = .error (.err (.codegenError c!"There are no modules for which to generate bindings")) := by
  unfold Codegen.generate
  rw [h]
  rfl

example : (Codegen.new {}).modules = [] := rfl

/-- With a module, a failure is a Python exception, a name that is not a Rust identifier (two messages) or a panic: never
the error above. -/
theorem C43_otherwise_other_errors (E : Env) (W : World) (fuel : Nat) (c : Codegen) (h : c.modules ≠ []) (e : PyBindgenError)
    (he : c.generate E W fuel = .error (.err e)) :
    (e = .pyError ∨ e = .synError ∨ e = .codegenError c!"Failed to convert module name") ∧
      e ≠ .codegenError c!"There are no modules for which to generate bindings" := by
  have hs : c.modules.isEmpty = false := by cases hm : c.modules <;> simp_all
  have honly : Only (EngineFail True (E.debug = true)) (c.generate E W fuel) := by
    unfold Codegen.generate
    rw [hs]
    exact Only.bind (only_prepare _ _ _ _ fun _ _ => only_moduleParse trivial ..) fun _ _ => only_generateList ..
  have := honly.out _ he
  cases this with
  | py => exact ⟨Or.inl rfl, by decide⟩
  | syn => exact ⟨Or.inr (Or.inl rfl), by decide⟩
  | modName => exact ⟨Or.inr (Or.inr rfl), by decide⟩

example : ∃ c : Codegen, c.modules ≠ [] ∧
    c.generate exEnv exWorld 1 = .error (.err (.codegenError c!"Failed to convert module name")) :=
  ⟨{ modules := [{ name := Path.fromPy exEnv c!"1x" }] }, by simp, rfl⟩

/-! ## C44 -/

theorem requests_iff {σ β : Type} {step : σ → β → Res σ} {c : σ} {xs : List β} {r : Res σ} :
    Requests step c xs r ↔ foldRes step c xs = r := by
  constructor
  · intro h
    induction h with
    | done => rfl
    | next h _ ih => rw [foldRes, h]; exact ih
    | fail h => rw [foldRes, h]; rfl
  · rintro rfl
    induction xs generalizing c with
    | nil => exact .done c
    | cons x xs ih =>
      rw [foldRes]
      cases h : step c x with
      | ok c' => exact .next h ih
      | error e => exact .fail h

/-- `module_names` behaves like single requests by name. -/
theorem C44_names (E : Env) (W : World) (fuel : Nat) (c : Codegen) (names : List Str) (r : Res Codegen) :
    Requests (fun c n => c.moduleName E W fuel n) c names r ↔ c.moduleNames E W fuel names = r := requests_iff

/-- `modules` behaves like single requests. -/
theorem C44_modules (E : Env) (W : World) (fuel : Nat) (c : Codegen) (ids : List Nat) (r : Res Codegen) :
    Requests (fun c id => c.module E W fuel id) c ids r ↔ c.addModules E W fuel ids = r := requests_iff

/-- A successful batch has added, in order, what parsing the module behind each name gives, and changed nothing else. -/
theorem C44_names_added (E : Env) (W : World) (fuel : Nat) (c c' : Codegen) (names : List Str)
    (h : c.moduleNames E W fuel names = .ok c') :
    ∃ ms : List Module, c' = { c with modules := c.modules ++ ms } ∧ ms.length = names.length ∧
      ∀ p ∈ names.zip ms, ∃ id, W.importMod p.1 = some id ∧ Module.parse E c.cfg W fuel id = .ok p.2 := by
  induction names generalizing c with
  | nil => cases h; exact ⟨[], by simp, rfl, by simp⟩
  | cons n names ih =>
    unfold Codegen.moduleNames at h
    rw [foldRes] at h
    obtain ⟨c1, h1, h⟩ := Res.bind_ok h
    unfold Codegen.moduleName at h1
    obtain ⟨id, hid, h1⟩ := Res.bind_ok h1
    unfold Codegen.module at h1
    obtain ⟨m, hm, h1⟩ := Res.bind_ok h1
    cases h1
    obtain ⟨ms, h2, h3, h4⟩ := ih _ h
    refine ⟨m :: ms, ?_, by simp [h3], ?_⟩
    · rw [h2]; simp
    · intro p hp
      rw [List.zip_cons_cons] at hp
      rcases List.mem_cons.mp hp with rfl | hp
      · refine ⟨id, ?_, hm⟩
        cases hi : W.importMod n with
        | none => simp [hi, Res.orErr] at hid
        | some j => rw [hi] at hid; cases hid; rfl
      · exact h4 p hp

/-- The same for modules. -/
theorem C44_modules_added (E : Env) (W : World) (fuel : Nat) (c c' : Codegen) (ids : List Nat)
    (h : c.addModules E W fuel ids = .ok c') :
    ∃ ms : List Module, c' = { c with modules := c.modules ++ ms } ∧ ms.length = ids.length ∧
      ∀ p ∈ ids.zip ms, Module.parse E c.cfg W fuel p.1 = .ok p.2 := by
  induction ids generalizing c with
  | nil => cases h; exact ⟨[], by simp, rfl, by simp⟩
  | cons n names ih =>
    unfold Codegen.addModules at h
    rw [foldRes] at h
    obtain ⟨c1, h1, h⟩ := Res.bind_ok h
    unfold Codegen.module at h1
    obtain ⟨m, hm, h1⟩ := Res.bind_ok h1
    cases h1
    obtain ⟨ms, h2, h3, h4⟩ := ih _ h
    refine ⟨m :: ms, ?_, by simp [h3], ?_⟩
    · rw [h2]; simp
    · intro p hp
      rw [List.zip_cons_cons] at hp
      rcases List.mem_cons.mp hp with rfl | hp
      · exact hm
      · exact h4 p hp

example : ((Codegen.moduleNames exEnv exWorld 3 {} [c!"pkg", c!"other"]).map (fun c => c.modules.map Module.name)).toOption =
    some [Path.fromPy exEnv c!"pkg", Path.fromPy exEnv c!"other"] := by decide

example : (Codegen.moduleNames exEnv exWorld 3 {} [c!"pkg", c!"missing", c!"other"]) = .error (.err .pyError) := rfl

/-- The first failure is the result, whatever follows. -/
theorem C44_stops_at_first_failure (E : Env) (W : World) (fuel : Nat) (c c' : Codegen) (good rest : List Str) (bad : Str)
    (e : Fail) (hg : c.moduleNames E W fuel good = .ok c') (hb : c'.moduleName E W fuel bad = .error e) :
    c.moduleNames E W fuel (good ++ bad :: rest) = .error e := by
  induction good generalizing c with
  | nil =>
    cases hg
    unfold Codegen.moduleNames
    rw [List.nil_append, foldRes, hb]
    rfl
  | cons n good ih =>
    unfold Codegen.moduleNames at hg
    rw [foldRes] at hg
    obtain ⟨c1, h1, hg⟩ := Res.bind_ok hg
    unfold Codegen.moduleNames
    rw [List.cons_append, foldRes, h1]
    exact ih c1 hg

/-! ## C45 -/

/-- `std::fs::write` on success: the path has the content, other paths are as before. -/
def Spec.HonestWrite (O : Outside) : Prop :=
  ∀ fs path text fs', O.write fs path text = (fs', true) → ∀ q, fs' q = if q = path then some text else fs q

/-- If generation fails, no file changes and the failure is reported. -/
theorem C45_failed_generation (E : Env) (W : World) (fuel : Nat) (O : Outside) (c : Codegen) (path : Str) (fs : Files)
    (e : Fail) (h : c.generate E W fuel = .error e) : c.build E W fuel O path fs = (fs, .error e) := by
  unfold Codegen.build
  rw [h]

example : ∃ e, (Codegen.new {}).generate exEnv exWorld 1 = .error e := ⟨_, rfl⟩

/-- If `build` succeeds, generation did and the file has exactly the generated text; other files are unchanged. -/
theorem C45_success (E : Env) (W : World) (fuel : Nat) (O : Outside) (hO : HonestWrite O) (c : Codegen) (path : Str)
    (fs fs' : Files) (h : c.build E W fuel O path fs = (fs', .ok ())) :
    ∃ items, c.generate E W fuel = .ok items ∧ ∀ q, fs' q = if q = path then some (O.text (Item.toksList items)) else fs q := by
  unfold Codegen.build at h
  cases hg : c.generate E W fuel with
  | error e => rw [hg] at h; simp at h
  | ok items =>
    rw [hg] at h
    simp only at h
    refine ⟨items, rfl, ?_⟩
    cases hw : O.write fs path (O.text (Item.toksList items)) with
    | mk fs1 ok =>
      cases ok with
      | true => rw [hw] at h; cases h; exact hO _ _ _ _ hw
      | false => rw [hw] at h; simp at h

/-- Generation succeeds and the write does: `build` succeeds. -/
theorem C45_writes (E : Env) (W : World) (fuel : Nat) (O : Outside) (c : Codegen) (path : Str) (fs fs' : Files)
    (items : List Item) (h : c.generate E W fuel = .ok items) (ok : Bool)
    (hw : O.write fs path (O.text (Item.toksList items)) = (fs', ok)) :
    c.build E W fuel O path fs = (fs', if ok then .ok () else .error (.err .ioError)) := by
  unfold Codegen.build
  rw [h]
  simp only [hw]
  cases ok <;> rfl

/-- A file system that works. -/
def exOutside : Outside where
  write fs path text := (fun q => if q = path then some text else fs q, true)
  createDirAll fs _ := (fs, true)
  text ts := if ts.isEmpty then c!"" else c!"code"
  pretty ts := some (if ts.isEmpty then c!"" else c!"pretty")

example : HonestWrite exOutside := by intro fs path text fs' h; cases h; intro q; rfl

example : ∃ fs', (({ modules := [{ name := Path.fromPy exEnv c!"x" }] } : Codegen).build exEnv exWorld 1 exOutside c!"out"
    (fun _ => none)) = (fs', .ok ()) := ⟨_, rfl⟩

/-! ## C46 -/

/-- Suppression of one stream at least, both streams present: what the body changes besides is kept, the suppressed streams
are restored — if the body succeeds. -/
theorem C46_success_restores {α : Type} (so se : Bool) (f : Sys → Sys × Res α) (s s' : Sys) (a : α)
    (hf : ∀ s, (f s).1 = s) (h : withSuppressed so se f s = (s', .ok a)) : s' = s := by
  unfold withSuppressed at h
  split at h
  · rw [← hf s, h]
  · split at h
    · rename_i o e ho he
      simp only at h
      split at h
      · cases h
      · rename_i s2 b h2
        have h2' : s2 = (⟨if so then some .sink else s.stdout, if se then some .sink else s.stderr⟩ : Sys) := by
          have := hf ⟨if so then some .sink else s.stdout, if se then some .sink else s.stderr⟩
          rw [h2] at this
          exact this
        cases h
        subst h2'
        cases s with
        | mk so' se' =>
          simp only at ho he
          subst ho he
          cases so <;> cases se <;> simp
    · cases h

/-- Adding a module successfully leaves both streams as they were. -/
theorem C46_module_restores_partial (E : Env) (W : Sys → World) (fuel : Nat) (c c' : Codegen) (id : Nat) (s s' : Sys)
    (h : c.moduleIo E W fuel id s = (s', .ok c')) : s' = s :=
  C46_success_restores _ _ _ s s' c' (fun _ => rfl) h

/-- With both flags off nothing is touched, whether or not the module can be parsed. -/
theorem C46_no_suppression (E : Env) (W : Sys → World) (fuel : Nat) (c : Codegen) (id : Nat) (s : Sys)
    (h1 : c.cfg.suppressPythonStdout = false) (h2 : c.cfg.suppressPythonStderr = false) :
    c.moduleIo E W fuel id s = (s, c.module E (W s) fuel id) := by
  unfold Codegen.moduleIo withSuppressed
  rw [h1, h2]
  rfl

/-- Full characterisation of the failures: whenever parsing fails, the suppressed streams stay replaced. -/
theorem C46_failure_leaves_sink (E : Env) (W : Sys → World) (fuel : Nat) (c : Codegen) (id : Nat) (o e : Stream) (f : Fail)
    (hany : c.cfg.suppressPythonStdout || c.cfg.suppressPythonStderr = true)
    (h : c.module E (W ⟨if c.cfg.suppressPythonStdout then some .sink else some o,
      if c.cfg.suppressPythonStderr then some .sink else some e⟩) fuel id = .error f) :
    c.moduleIo E W fuel id ⟨some o, some e⟩ =
      (⟨if c.cfg.suppressPythonStdout then some .sink else some o,
        if c.cfg.suppressPythonStderr then some .sink else some e⟩, .error f) := by
  unfold Codegen.moduleIo withSuppressed
  rw [if_neg (by revert hany; cases c.cfg.suppressPythonStdout <;> cases c.cfg.suppressPythonStderr <;> simp)]
  simp only [h]

/-- C46 fails: with the default configuration a module that cannot be parsed leaves both streams replaced. -/
theorem C46_counterexample : ∃ (W : World) (id : Nat) (e : PyBindgenError),
    (Codegen.new {}).moduleIo exEnv (fun _ => W) 2 id ⟨some (.obj 1), some (.obj 2)⟩ =
      (⟨some .sink, some .sink⟩, .error (.err e)) :=
  ⟨{ mods := [{ name := some c!"m", doc := none }], importMod := fun _ => some 0 }, 0, .pyError, rfl⟩

example : ∃ c', (Codegen.new {}).moduleIo exEnv (fun _ => exWorld) 3 0 ⟨some (.obj 1), some (.obj 2)⟩ =
    (⟨some (.obj 1), some (.obj 2)⟩, .ok c') := ⟨_, rfl⟩

/-! ## C47 -/

/-- Code that does not print is not affected by the replacement, code that prints raises. -/
theorem C47_printing (n : Nat) (err : Option Stream) :
    printsOk ⟨some .sink, err⟩ n = true ↔ n = 0 := by
  cases n with
  | zero => simp [printsOk]
  | succ n => simp [printsOk, Stream.writeOk, sinkValue, SinkVal.methodOk]

/-- Without suppression it returns normally. -/
theorem C47_unsuppressed (n k : Nat) (err : Option Stream) : printsOk ⟨some (.obj k), err⟩ n = true := by
  induction n with
  | zero => rfl
  | succ n ih => rw [printsOk, ih]; rfl

/-- The replacement would work if it were called twice: a class, then an instance. -/
theorem C47_what_is_missing : sinkValue.methodOk c!"write" 1 = false ∧
    (∃ v, sinkValue.call = some v ∧ v.methodOk c!"write" 1 = false ∧
      ∃ w, v.call = some w ∧ w.methodOk c!"write" 1 = true ∧ w.methodOk c!"flush" 0 = true) :=
  ⟨rfl, _, rfl, rfl, _, rfl, rfl, rfl⟩

/-- A package whose submodule `sub` prints once when it is imported. -/
def exPrintingWorld (s : Sys) : World where
  mods := [{ name := some c!"pkg", isPackage := true, iterModules := some [c!"sub"] }, { name := some c!"pkg.sub" }]
  importMod n := if n = c!"pkg" then some 0 else if n = c!"pkg.sub" && printsOk s 1 then some 1 else none

/-- The names of the submodules of the modules of an engine. -/
def Spec.submoduleNames (r : Res Codegen) : Option (List Path) :=
  r.toOption.map (fun c => c.modules.flatMap (fun m => m.submodules.map Module.name))

/-- C47 fails: with suppression on, the default, a submodule that prints is left out of the bindings; with suppression off
it is there. -/
theorem C47_counterexample (k l : Nat) :
    submoduleNames ((Codegen.new {}).moduleIo exEnv exPrintingWorld 3 0 ⟨some (.obj k), some (.obj l)⟩).2 = some [] ∧
    submoduleNames ((Codegen.new { suppressPythonStdout := false, suppressPythonStderr := false }).moduleIo exEnv
      exPrintingWorld 3 0 ⟨some (.obj k), some (.obj l)⟩).2 = some [Path.fromPy exEnv c!"pkg.sub"] := ⟨rfl, rfl⟩

/-- What remains of C47: if the interpreter answers the same with and without suppression, so does the engine. -/
theorem C47_transparent_partial (E : Env) (W : Sys → World) (fuel : Nat) (c : Codegen) (id : Nat) (o e : Stream)
    (hW : ∀ s, W s = W ⟨some o, some e⟩) :
    (c.moduleIo E W fuel id ⟨some o, some e⟩).2 = c.module E (W ⟨some o, some e⟩) fuel id := by
  unfold Codegen.moduleIo withSuppressed
  split
  · rfl
  · simp only [hW]
    cases c.module E (W ⟨some o, some e⟩) fuel id <;> rfl

/-! ## C55 -/

theorem cliFold_eq (E : Env) (W : World) (fuel : Nat) (c : Codegen) (names : List Str) :
    cliFold E W fuel c names = (c.moduleNames E W fuel names).toOption := by
  induction names generalizing c with
  | nil => rfl
  | cons n names ih =>
    unfold cliFold Codegen.moduleNames
    rw [foldRes]
    cases h : c.moduleName E W fuel n with
    | ok c' => exact ih c'
    | error e => rfl

/-- The engine's output for these names with the default configuration. -/
def Spec.EngineOutput (E : Env) (W : World) (fuel : Nat) (names : List Str) (items : List Item) : Prop :=
  ∃ c, (Codegen.new {}).moduleNames E W fuel names = .ok c ∧ c.generate E W fuel = .ok items

theorem cliBindings_iff (E : Env) (W : World) (fuel : Nat) (O : Outside) (names : List Str) (text : Str) :
    cliBindings E W fuel O names = some text ↔ ∃ items, EngineOutput E W fuel names items ∧ O.pretty (Item.toksList items) = some text := by
  unfold cliBindings
  rw [cliFold_eq]
  constructor
  · intro h
    cases hc : ({} : Codegen).moduleNames E W fuel names with
    | error e => rw [hc] at h; cases h
    | ok c =>
      rw [hc] at h
      simp only [Except.toOption] at h
      cases hg : c.generate E W fuel with
      | error e => rw [hg] at h; cases h
      | ok items => rw [hg] at h; exact ⟨items, ⟨c, hc, hg⟩, h⟩
  · rintro ⟨items, ⟨c, hc, hg⟩, hp⟩
    have hc : ({} : Codegen).moduleNames E W fuel names = .ok c := hc
    rw [hc]
    simp only [Except.toOption]
    rw [hg]
    exact hp

/-- Without an output file the CLI prints exactly the formatted engine output, and touches no file. -/
theorem C55_cli_stdout (E : Env) (W : World) (fuel : Nat) (O : Outside) (names : List Str) (fs : Files) (text : Str) :
    cliMain E W fuel O names none fs = (fs, .printed text) ↔
      ∃ items, EngineOutput E W fuel names items ∧ O.pretty (Item.toksList items) = some text := by
  rw [← cliBindings_iff]
  unfold cliMain
  cases cliBindings E W fuel O names with
  | none => simp
  | some t => simp

/-- With an output file in an existing or created directory it writes exactly that text. -/
theorem C55_cli_file (E : Env) (W : World) (fuel : Nat) (O : Outside) (hO : HonestWrite O)
    (hdir : ∀ fs p, (O.createDirAll fs p).1 = fs) (names : List Str) (path : Str) (parent : Option Str) (fs fs' : Files)
    (h : cliMain E W fuel O names (some (path, parent)) fs = (fs', .wrote)) :
    ∃ items text, EngineOutput E W fuel names items ∧ O.pretty (Item.toksList items) = some text ∧
      ∀ q, fs' q = if q = path then some text else fs q := by
  unfold cliMain at h
  cases hb : cliBindings E W fuel O names with
  | none => rw [hb] at h; simp at h
  | some text =>
    rw [hb] at h
    obtain ⟨items, h1, h2⟩ := (cliBindings_iff E W fuel O names text).mp hb
    refine ⟨items, text, h1, h2, ?_⟩
    have key : ∀ fs1 : Files, ∀ ok : Bool, fs1 = fs →
        (if ok then match O.write fs1 path text with | (fs, true) => (fs, Exit.wrote) | (fs, false) => (fs, .panicked)
          else (fs1, .panicked)) = (fs', .wrote) → ∀ q, fs' q = if q = path then some text else fs q := by
      rintro fs1 ok rfl h
      cases ok with
      | false => simp at h
      | true =>
        simp only [if_true] at h
        cases hw : O.write fs1 path text with
        | mk fs2 ok2 =>
          rw [hw] at h
          cases ok2 with
          | false => simp at h
          | true => simp at h; subst h; exact hO _ _ _ _ hw
    cases parent with
    | none => exact key fs true rfl h
    | some p => exact key (O.createDirAll fs p).1 (O.createDirAll fs p).2 (hdir fs p) h

/-- Any engine error, and any output that is not valid Rust, aborts before a directory or file is touched. -/
theorem C55_cli_aborts (E : Env) (W : World) (fuel : Nat) (O : Outside) (names : List Str) (out : Option (Str × Option Str))
    (fs : Files) (h : ∀ items, EngineOutput E W fuel names items → O.pretty (Item.toksList items) = none) :
    cliMain E W fuel O names out fs = (fs, .panicked) := by
  have : cliBindings E W fuel O names = none := by
    cases hb : cliBindings E W fuel O names with
    | none => rfl
    | some t =>
      obtain ⟨items, h1, h2⟩ := (cliBindings_iff E W fuel O names t).mp hb
      rw [h items h1] at h2; cases h2
  unfold cliMain
  rw [this]

/-- The macro produces exactly the engine output for its name; otherwise it is a compile error. -/
theorem C55_macro (E : Env) (W : World) (fuel : Nat) (name : Str) (ts : List Tok) :
    macroTokens E W fuel name = some ts ↔ ∃ items, EngineOutput E W fuel [name] items ∧ ts = Item.toksList items := by
  unfold macroTokens EngineOutput Codegen.moduleNames
  have hf : ∀ c, foldRes (fun c n => Codegen.moduleName E W fuel c n) c [name] = c.moduleName E W fuel name := by
    intro c
    rw [foldRes]
    cases c.moduleName E W fuel name <;> rfl
  rw [hf]
  show _ ↔ ∃ items, (∃ c, ({} : Codegen).moduleName E W fuel name = .ok c ∧ _) ∧ _
  cases hc : ({} : Codegen).moduleName E W fuel name with
  | error e => simp
  | ok c =>
    simp only [Except.ok.injEq, exists_eq_left']
    cases c.generate E W fuel with
    | error e => simp
    | ok is => simp [eq_comm]

example : (macroTokens exEnv exWorld 3 c!"pkg").map List.isEmpty = some false := by decide

example : cliBindings exEnv exWorld 3 exOutside [c!"pkg", c!"other"] = some c!"pretty" := by decide +kernel

example : cliMain exEnv exWorld 3 exOutside [c!"pkg", c!"missing"] (some (c!"out", none)) (fun _ => none) =
    (fun _ => none, .panicked) := rfl

end Bindgen

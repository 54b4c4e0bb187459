import Verif.Lemmas.NoErr
import Verif.Props.Panics
import Verif.Props.Compile
import Verif.Props.Cli
/-! # C75: when the engine succeeds -/
namespace Bindgen
open Spec

theorem dropReceiver_mem {t : FnType} {ps qs : List Param} (h : dropReceiver t ps = .ok qs) : ∀ p ∈ qs, p ∈ ps := by
  unfold dropReceiver at h
  repeat' split at h
  all_goals first
    | (cases h; done)
    | (cases h; intro p hp; first | exact hp | exact List.mem_cons_of_mem _ hp)

/-- The parameters of a parsed function have names that are identifiers if those of the signature have. -/
theorem function_named {E : Env} {pf : PyFn} (hs : ∀ s, pf.sig = some s → ∀ p ∈ s.params, IsIdent E p.name) {n : Path} {t : FnType}
    {f : Function} (h : Function.parse E pf n t = .ok f) : NamedParams E f := by
  have hak : ∀ p ∈ [argsParam, kwargsParam], IsIdent E p.name.asPy := (argsKwargs_wf E).ident
  cases hsig : pf.sig with
  | none => unfold NamedParams; rw [(parse_nosig hsig h).2.2.1]; exact hak
  | some s =>
    obtain ⟨ps, typ2, ps2, hps, hsc, -, -, -, -, ps3, h3, hf⟩ := parse_sig hsig h
    obtain ⟨g, rfl, hg⟩ := parseParams_ok hps
    have h1 : ∀ p ∈ (s.params.map g).filter (fun p => p.name.rs ≠ c!"r#_"), IsIdent E p.name.asPy := by
      intro p hp
      obtain ⟨q, hq, rfl⟩ := List.mem_map.mp (List.mem_of_mem_filter hp)
      rw [(parseParam_ok (hg q hq)).1, asPy_ident (hs s hsig q hq)]
      exact hs s hsig q hq
    have h2 : ∀ p ∈ ps2, IsIdent E p.name.asPy := by
      rcases selfCheck_cases _ _ _ _ hsc with ⟨rfl, -⟩ | ⟨-, -, -, rfl⟩ | ⟨-, -, q, rest, hq, -, -, rfl⟩
      · exact h1
      · exact hak
      · intro p hp
        rcases List.mem_cons.mp hp with rfl | hp
        · exact isIdent_ascii E (Ident.fromRs c!"__unknown_self__").asPy (by decide) (by decide)
        · exact h1 p (hq ▸ List.mem_cons_of_mem _ hp)
    intro p hp
    rw [hf] at hp
    rcases replaceSelf_cases ps3 with ⟨h4, -⟩ | ⟨h4, -⟩
    · rw [h4] at hp
      exact h2 p (dropReceiver_mem h3 p hp)
    · rw [h4] at hp
      exact hak p hp

/-- What does not depend on the names under which submodules are merged. -/
def ItemNamed (E : Env) : SItem → Prop
  | .class c => (∀ f ∈ c.methods, NamedParams E f) ∧ ∀ p ∈ c.properties, NamedPath E p.name
  | .function f => NamedParams E f
  | _ => True

theorem class_named {E : Env} {cfg : Config} {pc : PyClass} {n : Path} {c : Class} (hq : QuietClass E pc)
    (h : Class.parse E cfg pc n = .ok c) : (∀ f ∈ c.methods, NamedParams E f) ∧ ∀ p ∈ c.properties, NamedPath E p.name := by
  obtain ⟨-, h2, h3, -⟩ := class_parse_exact h
  constructor
  · intro f hf
    obtain ⟨x, hxc, -, hx⟩ := (h2 f).mp hf
    exact function_named (hq.objs _ _ (mem_candidates_iff.mp hxc).2.1).params hx
  · intro p hp
    obtain ⟨x, hxc, -, hx⟩ := (h3 p).mp hp
    intro i hi
    have := path_name_last hi
    rw [(property_parse_name hx).1] at this
    simp only [Path.join, Path.ofIdent, List.getLast?_append, List.getLast?_singleton, Option.some_or, Option.some.injEq] at this
    obtain ⟨⟨s, hs, h4⟩, -⟩ := mem_candidates_iff.mp hxc
    exact ⟨s, hq.members s hs, this.symm.trans h4⟩

theorem parsed_itemNamed {E : Env} {cfg : Config} {W : World} (hQ : Quiet E W) {m : Module} (hm : Parsed E cfg W m) {x : SItem}
    (hx : Has m x) : ItemNamed E x := by
  obtain ⟨_, _, hm⟩ := hm
  refine parse_all (Q := ItemNamed E) ?_ (fun _ => trivial) ?_ hm x hx
  · intro x t hx
    cases x <;> exact hx
  · intro id pm name i a x hg hc hn
    obtain ⟨-, hc2, -⟩ := mem_candidates hc
    obtain ⟨ho, hcl⟩ := hQ.objs _ _ _ _ hg hc2
    cases hn with
    | import' o ho h1 h2 hv => trivial
    | class' c hc => exact class_named hcl hc
    | typeVar => trivial
    | function t f ht hf => exact function_named ho.params hf
    | property p hp => trivial

theorem prepared_moduleNamed {E : Env} {W : World} {fuel : Nat} {c : Codegen} {out : List Module} (hF : Faithful E W)
    (hT : Tame E c.cfg W fuel) (hQ : Quiet E W) (hp : ∀ m ∈ c.modules, Parsed E c.cfg W m) (h : c.prepare E W fuel = .ok out) {M : Module}
    (hM : InTree M out) : ModuleNamed E M := by
  have hi : ∀ x, Has M x → ItemNamed E x ∧ ((∃ i, x = .prelude i) ∨ SpelledPath E (itemName x)) := by
    intro x hx
    obtain ⟨m, h1, -, h3⟩ := prepared_has h hp hM hx
    exact ⟨parsed_itemNamed hQ h1 h3, (parsed_item hF hT h1 h3).imp_right fun h => h.1.spelled⟩
  have hx : ∀ x, Has M x → (∀ i, x ≠ .prelude i) → SpelledPath E (itemName x) := fun x hx hne =>
    (hi x hx).2.resolve_left fun ⟨i, he⟩ => hne i he
  refine ⟨?_, fun i h => hx (.import i) h (by simp), fun k h => ⟨hx (.class k) h (by simp), (hi (.class k) h).1.1, (hi (.class k) h).1.2⟩,
    fun t h => hx (.typeVar t) h (by simp), fun f h => (hi (.function f) h).1, fun p h => (hx (.property p) h (by simp)).named⟩
  obtain ⟨ns, hns⟩ := inTree_nodeAt hM
  obtain ⟨-, -, -, -, m, hm, hpre⟩ := prepared_named hF h hp hns
  intro i hi
  obtain ⟨t, h1, h2, h3⟩ := (parsed_path hF hT hm).2.1 i (hpre.subset (List.mem_of_getLast? (path_name_last hi)))
  exact ⟨t, h1.2, h2, h3⟩

theorem codegen_succeeds {E : Env} {W : World} {fuel : Nat} {c : Codegen} (hF : Faithful E W) (hT : Tame E c.cfg W fuel)
    (hQ : Quiet E W) (hp : ∀ m ∈ c.modules, Parsed E c.cfg W m) (hne : c.modules ≠ []) : ∃ items, c.generate E W fuel = .ok items := by
  refine noErr_ok (safe_codegen hF hT hp) ?_
  unfold Codegen.generate
  rw [if_neg (by simpa using hne)]
  exact Only.bind (noErr_prepare hQ ..) fun out h =>
    noErr_generateList _ _ _ _ _ fun _ hM => prepared_moduleNamed hF hT hQ hp h hM

theorem module_succeeds {E : Env} {W : World} {fuel : Nat} {c : Codegen} (hF : Faithful E W) (hT : Tame E c.cfg W fuel)
    (hQ : Quiet E W) {id : Nat} (h : W.get? id ≠ none) : ∃ c', c.module E W fuel id = .ok c' := by
  obtain ⟨m, hm⟩ := noErr_ok (safe_parse hF hT h) (noErr_moduleParse c.cfg hQ fuel id)
  exact ⟨_, by unfold Codegen.module; rw [hm]; rfl⟩

theorem moduleName_succeeds {E : Env} {W : World} {fuel : Nat} {c : Codegen} (hF : Faithful E W) (hT : Tame E c.cfg W fuel)
    (hQ : Quiet E W) {name : Str} (h : W.importMod name ≠ none) : ∃ c', c.moduleName E W fuel name = .ok c' := by
  obtain ⟨id, hid⟩ := Option.ne_none_iff_exists'.mp h
  obtain ⟨m, hg, -⟩ := hF.imported name id hid
  obtain ⟨c', hc'⟩ := module_succeeds (c := c) hF hT hQ (id := id) (by rw [hg]; nofun)
  exact ⟨c', by unfold Codegen.moduleName; rw [hid]; exact hc'⟩

theorem moduleName_grows {E : Env} {W : World} {fuel : Nat} {c c' : Codegen} {name : Str} (h : c.moduleName E W fuel name = .ok c') :
    c'.cfg = c.cfg ∧ c'.modules ≠ [] := by
  obtain ⟨id, -, h⟩ := Res.bind_ok h
  obtain ⟨m, -, h⟩ := Res.bind_ok h
  cases h
  exact ⟨rfl, by simp⟩

theorem moduleNames_succeeds {E : Env} {W : World} {fuel : Nat} {cfg : Config} (hF : Faithful E W) (hT : Tame E cfg W fuel)
    (hQ : Quiet E W) {names : List Str} (h : ∀ n ∈ names, W.importMod n ≠ none) {c : Codegen} (hc : c.cfg = cfg) :
    ∃ c', c.moduleNames E W fuel names = .ok c' ∧ (names ≠ [] → c'.modules ≠ []) := by
  induction names generalizing c with
  | nil => exact ⟨c, rfl, fun h => absurd rfl h⟩
  | cons n names ih =>
    obtain ⟨c1, h1⟩ := moduleName_succeeds (c := c) hF (hc ▸ hT) hQ (h n (by simp))
    obtain ⟨c2, h2, h3⟩ := ih (fun m hm => h m (by simp [hm])) ((moduleName_grows h1).1.trans hc)
    refine ⟨c2, ?_, fun _ => ?_⟩
    · show foldRes _ _ _ = _
      unfold foldRes
      rw [h1]
      exact h2
    · cases names with
      | nil => cases h2; exact (moduleName_grows h1).2
      | cons m names => exact h3 (by simp)

/-- **C75** (partial): on an interpreter that is faithful, tame and quiet, a module can be added exactly if it can be imported, and there are
bindings exactly if a module has been added. Missing for the full claim: other interpreters, for which adding a module or generating
the bindings may fail (the counterexamples below and those of **C51**). -/
theorem C75_succeeds_partial (E : Env) (W : World) (fuel : Nat) (cfg : Config) (hF : Faithful E W) (hT : Tame E cfg W fuel)
    (hQ : Quiet E W) (srcs : List (Str × Str)) (c : Codegen) (hc : Built E W fuel cfg srcs c) :
    (∀ id, (∃ c', c.module E W fuel id = .ok c') ↔ W.get? id ≠ none) ∧
    (∀ name, (∃ c', c.moduleName E W fuel name = .ok c') ↔ W.importMod name ≠ none) ∧
    (∀ names, (∃ c', c.moduleNames E W fuel names = .ok c') ↔ ∀ n ∈ names, W.importMod n ≠ none) ∧
    (∀ source name, (∃ c', c.moduleFromStr E W fuel source name = .ok c') ↔ ∃ id, W.fromCode source name = some id ∧ W.get? id ≠ none) ∧
    ((∃ items, c.generate E W fuel = .ok items) ↔ c.modules ≠ []) := by
  have b := built_ok hc
  have hp : ∀ {c c' : Codegen} {id : Nat}, c.module E W fuel id = .ok c' → W.get? id ≠ none := by
    intro c c' id h he
    obtain ⟨m, hm, -⟩ := Res.bind_ok h
    cases fuel with
    | zero => exact parse_zero hm
    | succ f =>
      obtain ⟨p⟩ := parse_parts hm
      rw [p.get] at he
      cases he
  refine ⟨fun id => ⟨fun ⟨c', h⟩ => hp h, fun h => module_succeeds hF (b.config ▸ hT) hQ h⟩,
    fun name => ⟨fun ⟨c', h⟩ => ?_, fun h => moduleName_succeeds hF (b.config ▸ hT) hQ h⟩,
    fun names => ⟨?_, fun h => ?_⟩, fun source name => ⟨fun ⟨c', h⟩ => ?_, fun ⟨id, hid, h⟩ => ?_⟩,
    ⟨fun ⟨items, h⟩ he => ?_, fun h => codegen_succeeds hF (b.config ▸ hT) hQ (b.config ▸ b.parsed) h⟩⟩
  · obtain ⟨id, hid, -⟩ := Res.bind_ok h
    rw [orErr_ok hid]
    nofun
  · rintro ⟨c', h⟩
    clear b hc
    induction names generalizing c with
    | nil => nofun
    | cons n names ih =>
      unfold Codegen.moduleNames foldRes at h
      obtain ⟨c1, h1, h⟩ := Res.bind_ok h
      intro m hm
      rcases List.mem_cons.mp hm with rfl | hm
      · obtain ⟨id, hid, -⟩ := Res.bind_ok h1
        rw [orErr_ok hid]
        nofun
      · exact ih c1 h m hm
  · obtain ⟨c', h1, -⟩ := moduleNames_succeeds hF hT hQ h b.config
    exact ⟨c', h1⟩
  · obtain ⟨id, hid, h⟩ := Res.bind_ok h
    exact ⟨id, orErr_ok hid, hp h⟩
  · unfold Codegen.moduleFromStr
    rw [hid]
    exact module_succeeds hF (b.config ▸ hT) hQ h
  · unfold Codegen.generate at h
    rw [he] at h
    cases h

/-- **C75** (partial): on an interpreter that is tidy, tame and quiet, with all kinds of items switched on, naming modules that can be
imported yields a Rust file that compiles as far as **C73** says. -/
theorem C75_compiles_partial (E : Env) (W : World) (fuel : Nat) (cfg : Config) (hW : TidyWorld E cfg W) (hT : Tame E cfg W fuel)
    (hQ : Quiet E W) (hE : Everything cfg) (names : List Str) (hne : names ≠ []) (hn : ∀ n ∈ names, W.importMod n ≠ none) :
    ∃ c items file, (Codegen.new cfg).moduleNames E W fuel names = .ok c ∧ c.generate E W fuel = .ok items ∧
      Parses (Item.toksList items) file ∧ Compiles file := by
  obtain ⟨c, h1, h2⟩ := moduleNames_succeeds (c := Codegen.new cfg) hW.faithful hT hQ hn rfl
  have hb : Built E W fuel cfg [] c := .moduleNames names .new h1
  have b := built_ok hb
  obtain ⟨items, h3⟩ := codegen_succeeds hW.faithful (b.config ▸ hT) hQ (b.config ▸ b.parsed) (h2 hne)
  obtain ⟨file, h4, h5⟩ := C73_compiles_partial E W fuel cfg hW hE [] c hb items h3
  exact ⟨c, items, file, h1, h3, h4, h5⟩

/-- **C75** (partial): on such an interpreter the macro, given the name of a module that can be imported, expands to a Rust file that compiles
as far as **C73** says; and the CLI, given the names of such modules, succeeds: it prints bindings, and with an output file whose directory
can be made and that can be written, it writes them. -/
theorem C75_frontends_partial (E : Env) (W : World) (fuel : Nat) (hW : TidyWorld E {} W) (hT : Tame E {} W fuel) (hQ : Quiet E W) :
    (∀ name, W.importMod name ≠ none → ∃ ts file, macroRun E W fuel [.str name] = some ts ∧ Parses ts file ∧ Compiles file) ∧
    ∀ (O : Outside), HonestParser O → ∀ argv names outs, CommandLine argv names outs → names ≠ [] → (∀ n ∈ names, W.importMod n ≠ none) →
      (outs = [] → ∀ fs, ∃ text, cliRun E W fuel O argv fs = (fs, some (.printed text))) ∧
      ∀ path, outs = [path] → (∀ fs d, (O.createDirAll fs d).2 = true) → (∀ fs text, (O.write fs path text).2 = true) →
        ∀ fs, ∃ fs', cliRun E W fuel O argv fs = (fs', some .wrote) := by
  have key : ∀ names, names ≠ [] → (∀ n ∈ names, W.importMod n ≠ none) →
      ∃ items file, EngineOutput E W fuel names items ∧ Parses (Item.toksList items) file ∧ Compiles file := by
    intro names hne hn
    obtain ⟨c, items, file, h1, h2, h3, h4⟩ := C75_compiles_partial E W fuel {} hW hT hQ ⟨rfl, rfl, rfl, rfl, rfl⟩ names hne hn
    exact ⟨items, file, ⟨c, h1, h2⟩, h3, h4⟩
  constructor
  · intro name hn
    obtain ⟨items, file, h1, h2, h3⟩ := key [name] (by simp) (by simpa using hn)
    exact ⟨_, file, (C70_macro E W fuel _ _).mpr ⟨name, items, rfl, h1, rfl⟩, h2, h3⟩
  · intro O hO argv names outs hcl hne hn
    obtain ⟨items, file, h1, h2, -⟩ := key names hne hn
    obtain ⟨text, ht⟩ := hO.1 _ _ h2
    constructor
    · rintro rfl fs
      exact ⟨text, (C70_stdout hcl hne E W fuel O fs text).mpr ⟨items, h1, ht⟩⟩
    · rintro path rfl hd hw fs
      cases hp : pathParent path with
      | none =>
        refine ⟨(O.write fs path text).1, (C70_file hcl hne E W fuel O fs _).mpr ⟨items, text, fs, h1, ht, ?_, Prod.ext rfl (hw fs text)⟩⟩
        rw [hp]
      | some d =>
        refine ⟨(O.write (O.createDirAll fs d).1 path text).1,
          (C70_file hcl hne E W fuel O fs _).mpr ⟨items, text, (O.createDirAll fs d).1, h1, ht, ?_, Prod.ext rfl (hw _ text)⟩⟩
        rw [hp]
        exact Prod.ext rfl (hd fs d)

/-! ## An interpreter that meets the hypotheses -/

def quietObjCheck (E : Env) (o : PyObj) : Bool := o.isFunction.isSome && o.isMethod.isSome && o.fn.doc.isSome &&
  (match o.fget with | none => true | some g => g.doc.isSome) && (match o.fset with | none => true | some f => f.doc.isSome) &&
  (match o.fn.sig with | none => true | some s => s.params.all fun p => isIdentText E p.name)

theorem quietObj_of_check {E : Env} {o : PyObj} (h : quietObjCheck E o = true) : QuietObj E o := by
  simp only [quietObjCheck, Bool.and_eq_true, Option.isSome_iff_ne_none] at h
  obtain ⟨⟨⟨⟨⟨h1, h2⟩, h3⟩, h4⟩, h5⟩, h6⟩ := h
  refine ⟨⟨h1, h2⟩, h3, fun g hg => ?_, fun f hf => ?_, fun s hs p hp => ?_⟩
  · simp only [hg] at h4
    exact Option.isSome_iff_ne_none.mp h4
  · simp only [hf] at h5
    exact Option.isSome_iff_ne_none.mp h5
  · rw [hs] at h6
    exact (isIdentText_iff E _).mp (List.all_eq_true.mp h6 p hp)

def quietClassCheck (E : Env) (c : PyClass) : Bool := c.doc.isSome && c.dir.all (isIdentText E) && c.attrs.all fun x => quietObjCheck E x.2

theorem quietClass_of_check {E : Env} {c : PyClass} (h : quietClassCheck E c = true) : QuietClass E c := by
  simp only [quietClassCheck, Bool.and_eq_true, Option.isSome_iff_ne_none, List.all_eq_true] at h
  exact ⟨h.1.1, fun s hs => (isIdentText_iff E s).mp (h.1.2 s hs), fun s o ho => quietObj_of_check (h.2 _ (lookup_mem ho))⟩

def quietCheck (E : Env) (W : World) : Bool := W.mods.all fun m => m.doc.isSome && (!m.isPackage || m.iterModules.isSome) &&
  m.attrs.all fun x => quietObjCheck E x.2.obj && quietClassCheck E x.2.cls

theorem quiet_of_check {E : Env} {W : World} (h : quietCheck E W = true) : Quiet E W := by
  have hm : ∀ {id m}, W.get? id = some m → _ := fun hg => List.all_eq_true.mp h _ (List.mem_of_getElem? hg)
  simp only [Bool.and_eq_true] at hm
  refine ⟨fun id m hg => Option.isSome_iff_ne_none.mp (hm hg).1.1, fun id m hg hp => ?_, fun id m s a hg ha => ?_⟩
  · have := (hm hg).1.2
    rw [hp] at this
    exact Option.isSome_iff_ne_none.mp this
  · have := List.all_eq_true.mp (hm hg).2 _ (lookup_mem ha)
    rw [Bool.and_eq_true] at this
    exact ⟨quietObj_of_check this.1, quietClass_of_check this.2⟩

/-- The hypotheses of `C75_succeeds_partial`, for an interpreter with a package, a class, a function that is imported from elsewhere and a
module that is generated because of it. -/
example : Faithful exEnv exWorld ∧ Tame exEnv { generateDependencies := true } exWorld 3 ∧ Quiet exEnv exWorld ∧
    exWorld.importMod c!"pkg" ≠ none ∧ exWorld.importMod c!"absent" = none :=
  ⟨exWorld_faithful, tame_of_check (by decide +kernel), quiet_of_check (by decide +kernel), by decide, by decide⟩

/-- The hypotheses of `C75_compiles_partial`. -/
example : TidyWorld exEnv {} exCompileWorld ∧ Tame exEnv {} exCompileWorld 3 ∧ Quiet exEnv exCompileWorld ∧ Everything {} ∧
    ∀ n ∈ [c!"pkg", c!"pkg.a"], exCompileWorld.importMod n ≠ none :=
  ⟨exCompileWorld_tidy, tame_of_check (by decide +kernel), quiet_of_check (by decide +kernel), ⟨rfl, rfl, rfl, rfl, rfl⟩, by decide⟩

/-- The hypotheses of `C75_frontends_partial`: a command line, and an outside world in which directories and files can be written. -/
example : CommandLine [c!"-m", c!"pkg", c!"-o", c!"out/b.rs"] [c!"pkg"] [c!"out/b.rs"] ∧ (∀ fs d, (exHonest.createDirAll fs d).2 = true) ∧
    (∀ fs text, (exHonest.write fs c!"out/b.rs" text).2 = true) ∧ exCompileWorld.importMod c!"pkg" ≠ none :=
  ⟨((C70_args _ _ (some c!"out/b.rs")).mp (by decide)).1, fun _ _ => rfl, fun _ _ => rfl, by decide⟩

/-! ## Errors -/

/-- The module `pkg` with one attribute. -/
def exQuietWorld (m : PyMod → PyMod) (s : Str) (a : PyAttr) : World where
  mods := [m { name := some c!"pkg", dir := [s], attrs := [(s, a)] }]
  importMod t := if t = c!"pkg" then some 0 else none

/-- A class `K` with a member. -/
def exMemberClass (s : Str) (o : PyObj) (doc : Option Str) : PyAttr where
  obj := exClsObj c!"pkg"
  cls := { dir := [s], attrs := [(s, o)], doc := doc }

/-- Everything about the interpreter is as required except that it is not quiet, and the bindings of `pkg` are this error. -/
def exErr (W : World) (e : PyBindgenError) : Prop :=
  Faithful exEnv W ∧ Tame exEnv {} W 3 ∧ exOutcome {} exEnv W 3 c!"pkg" = .error (.err e)

theorem exErr_of {m : PyMod → PyMod} {s : Str} {a : PyAttr} {e : PyBindgenError} (hn : (m { name := some c!"pkg", dir := [s], attrs := [(s, a)] }).name = some c!"pkg")
    (h1 : (exQuietWorld m s a).mods.all (moduleCheck exEnv (exQuietWorld m s a)) = true) (h2 : worldCheck exEnv {} (exQuietWorld m s a) 3 = true)
    (h3 : exOutcome {} exEnv (exQuietWorld m s a) 3 c!"pkg" = .error (.err e)) : exErr (exQuietWorld m s a) e := by
  refine ⟨faithful_of_check h1 fun s id h => ?_, tame_of_check h2, h3⟩
  simp only [exQuietWorld] at h
  split at h
  · cases h; subst_vars; exact ⟨_, rfl, hn⟩
  · cases h

/-- **C75** fails for a module whose docstring cannot be read, and for a package whose submodules cannot be listed. -/
theorem C75_module_counterexample : exErr (exQuietWorld (fun m => { m with doc := none }) c!"f" { obj := exFnObj c!"pkg" }) .pyError ∧
    exErr (exQuietWorld (fun m => { m with isPackage := true, iterModules := none }) c!"f" { obj := exFnObj c!"pkg" }) .pyError :=
  ⟨exErr_of rfl (by decide +kernel) (by decide +kernel) (by decide +kernel),
   exErr_of rfl (by decide +kernel) (by decide +kernel) (by decide +kernel)⟩

/-- **C75** fails for an attribute that cannot be asked whether it is a function, for a function whose docstring cannot be read, and for
a function with a parameter whose name is not an identifier. -/
theorem C75_attribute_counterexample : exErr (exQuietWorld id c!"f" { obj := { exFnObj c!"pkg" with isFunction := none } }) .pyError ∧
    exErr (exQuietWorld id c!"f" { obj := { exFnObj c!"pkg" with fn := ⟨none, none, none⟩ } }) .pyError ∧
    exErr (exQuietWorld id c!"f" { obj := { exFnObj c!"pkg" with
      fn := ⟨some c!"None", some ⟨[⟨c!"a-b", .positionalOrKeyword, none, false⟩], none⟩, none⟩ } }) .synError :=
  ⟨exErr_of rfl (by decide +kernel) (by decide +kernel) (by decide +kernel),
   exErr_of rfl (by decide +kernel) (by decide +kernel) (by decide +kernel),
   exErr_of rfl (by decide +kernel) (by decide +kernel) (by decide +kernel)⟩

/-- **C75** fails for a class whose docstring cannot be read, for a class with a property `a-b` (made with `setattr`), and for a property
whose getter has a docstring that cannot be read: a single attribute is enough to have no bindings at all. -/
theorem C75_class_counterexample : exErr (exQuietWorld id c!"K" (exMemberClass c!"x" exIntObj none)) .pyError ∧
    exErr (exQuietWorld id c!"K" (exMemberClass c!"a-b" exIntObj (some c!"None"))) .synError ∧
    exErr (exQuietWorld id c!"K" (exMemberClass c!"x" { exIntObj with fget := some ⟨none, none⟩ } (some c!"None"))) .pyError :=
  ⟨exErr_of rfl (by decide +kernel) (by decide +kernel) (by decide +kernel),
   exErr_of rfl (by decide +kernel) (by decide +kernel) (by decide +kernel),
   exErr_of rfl (by decide +kernel) (by decide +kernel) (by decide +kernel)⟩

end Bindgen

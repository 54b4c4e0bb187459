import Verif.Props.Parsed
import Verif.Props.Dispatch
/-!
# C40, C28: preludes
-/
namespace Bindgen
open Spec

/-! ## C40 -/

/-- The items define this name: as a struct, function, accessor, type alias or module. -/
def Spec.Defines (items : List Item) (e : Str) : Prop :=
  (∃ k : ClassItem, .class k ∈ items ∧ k.name = e) ∨ (∃ f : Fn, .func f ∈ items ∧ f.sig.name = e) ∨
    (∃ f : Fn, .prop f ∈ items ∧ f.sig.name = e) ∨ .typeAlias e ∈ items ∨
    ∃ (allow : Bool) (doc : Option Str) (inner : List Item), .mod allow doc e inner ∈ items

theorem anyName_true {i : Ident} {l : List Path} (h : anyName i l = .ok true) : ∃ p ∈ l, p.name = .ok i := by
  induction l with
  | nil => cases h
  | cons p l ih =>
    unfold anyName at h
    obtain ⟨n, hn, h⟩ := Res.bind_ok h
    split at h
    · rename_i he
      exact ⟨p, by simp, he ▸ hn⟩
    · obtain ⟨q, hq, h⟩ := ih h
      exact ⟨q, by simp [hq], h⟩

theorem preludeExports_mem {E : Env} {m : Module} {l : List Ident} {es : List Str} (h : m.preludeExports E l = .ok es) {e : Str}
    (he : e ∈ es) : ∃ i ∈ l, m.identExists i false = .ok true ∧ i.toSyn E = some e := by
  induction l generalizing es with
  | nil => cases h; cases he
  | cons i l ih =>
    unfold Module.preludeExports at h
    obtain ⟨b, hb, h⟩ := Res.bind_ok h
    split at h
    · rename_i hbt
      subst hbt
      obtain ⟨s, hs, h⟩ := Res.bind_ok h
      obtain ⟨r, hr, h⟩ := Res.bind_ok h
      cases h
      rcases List.mem_cons.mp he with rfl | he
      · refine ⟨i, by simp, hb, ?_⟩
        unfold Ident.trySyn at hs
        cases hi : i.toSyn E with
        | none => rw [hi] at hs; cases hs
        | some u => rw [hi] at hs; cases hs; rfl
      · obtain ⟨j, hj, h⟩ := ih hr he
        exact ⟨j, by simp [hj], h⟩
    · obtain ⟨j, hj, h⟩ := ih h he
      exact ⟨j, by simp [hj], h⟩

theorem content_class {E : Env} {cfg : Config} {imp : Str → Bool} {tops : List Module} {ts : List Path} {m : Module}
    {out : List Item} (p : ContentParts E cfg imp tops ts m out) (hc : cfg.generateClasses = true) {c : Class}
    (hm : c ∈ m.classes) {i : Ident} {e : Str} (hn : c.name.name = .ok i) (he : i.toSyn E = some e) :
    ∃ k : ClassItem, .class k ∈ out ∧ k.name = e := by
  have := p.classesOk
  rw [hc] at this
  obtain ⟨o, ho, hg⟩ := traverse_mem' this hm
  have hci : Class.ident E i = some e := by unfold Class.ident; rw [he]
  cases o with
  | none =>
    unfold Class.generate at hg
    rw [hn, Res.ok_bind, hci] at hg
    simp only at hg
    obtain ⟨_, -, hg⟩ := Res.bind_ok hg
    obtain ⟨_, -, hg⟩ := Res.bind_ok hg
    obtain ⟨_, -, hg⟩ := Res.bind_ok hg
    obtain ⟨_, -, hg⟩ := Res.bind_ok hg
    cases hg
  | some k =>
    refine ⟨k, ?_, ?_⟩
    · rw [p.content]
      simp only [List.mem_append, List.mem_map, List.mem_filterMap]
      exact Or.inl (Or.inl (Or.inr ⟨k, ⟨some k, ho, rfl⟩, rfl⟩))
    · obtain ⟨name, ident, -, -, -, h1, h2, -, -, -, -, h3, -⟩ := class_generate hg
      rw [hn] at h1
      cases h1
      rw [hci] at h2
      cases h2
      exact h3

theorem function_emitted {E : Env} {cfg : Config} {imp : Str → Bool} {taken : List Ident} {lt : LocalTypes} {f : Function}
    {r : FnImpl} {items : List Item} (hr : f.generate E cfg imp taken lt = .ok r) (hr2 : moduleFns r = .ok items)
    (hfree : Free f) {i : Ident} {e : Str} (hn : f.name.name = .ok i) (he : i.toSyn E = some e)
    (hres : i.asPy ∉ reservedFunctions) : ∃ fn : Fn, .func fn ∈ items ∧ fn.sig.name = e := by
  have hfi : Function.ident E i = some e := by
    unfold Function.ident
    rw [he]
    have : forbiddenFunctionNames.contains i.asPy = false := by simpa [forbiddenFunctionNames, reservedFunctions] using hres
    simp only [this, Bool.false_eq_true, if_false]
  unfold Function.generate at hr
  rw [hn, Res.ok_bind, hfi] at hr
  simp only at hr
  obtain ⟨idents, -, hr⟩ := Res.bind_ok hr
  obtain ⟨pres, -, hr⟩ := Res.bind_ok hr
  obtain ⟨types, -, hr⟩ := Res.bind_ok hr
  obtain ⟨ret, -, hr⟩ := Res.bind_ok hr
  obtain ⟨sig, hsig, hr⟩ := Res.bind_ok hr
  obtain ⟨obj?, hobj, hr⟩ := Res.bind_ok hr
  have hsig' : sig.recv = .py ∧ sig.name = e := by
    unfold Function.contract at hsig
    rcases hfree with hfree | hfree <;> (rw [hfree] at hsig; cases hsig; exact ⟨rfl, rfl⟩)
  have hobj' : ∃ o, obj? = some o := by
    unfold dispatcher at hobj
    rcases hfree with hfree | hfree <;>
      (rw [hfree] at hobj
       obtain ⟨_, -, hobj⟩ := Res.bind_ok hobj
       obtain ⟨_, -, hobj⟩ := Res.bind_ok hobj
       cases hobj
       exact ⟨_, rfl⟩)
  obtain ⟨o, rfl⟩ := hobj'
  simp only at hr
  obtain ⟨pos, -, hr⟩ := Res.bind_ok hr
  obtain ⟨kw, -, hr⟩ := Res.bind_ok hr
  have hns : ¬ sig.recv = Recv.self := by rw [hsig'.1]; decide
  simp only [hns, if_false] at hr
  cases hr
  cases hr2
  exact ⟨_, List.mem_map.mpr ⟨_, List.mem_singleton.mpr rfl, rfl⟩, hsig'.2⟩

theorem content_function {E : Env} {cfg : Config} {imp : Str → Bool} {tops : List Module} {ts : List Path} {m : Module}
    {out : List Item} (p : ContentParts E cfg imp tops ts m out) (hc : cfg.generateFunctions = true) {f : Function}
    (hm : f ∈ m.functions) (hfree : Free f) {i : Ident} {e : Str} (hn : f.name.name = .ok i) (he : i.toSyn E = some e)
    (hres : i.asPy ∉ reservedFunctions) : ∃ fn : Fn, .func fn ∈ out ∧ fn.sig.name = e := by
  have := p.functionsOk
  rw [hc] at this
  obtain ⟨l, hlm, hg⟩ := traverse_mem' this hm
  obtain ⟨r, hr1, hr2⟩ := Res.bind_ok hg
  obtain ⟨fn, hfn, h⟩ := function_emitted hr1 hr2 hfree hn he hres
  refine ⟨fn, ?_, h⟩
  rw [p.content]
  simp only [List.mem_append, List.mem_flatten]
  exact Or.inl (Or.inr ⟨l, hlm, hfn⟩)

theorem content_typeVar {E : Env} {cfg : Config} {imp : Str → Bool} {tops : List Module} {ts : List Path} {m : Module}
    {out : List Item} (p : ContentParts E cfg imp tops ts m out) (hc : cfg.generateTypeVars = true) {t : TypeVar}
    (hm : t ∈ m.typeVars) {i : Ident} {e : Str} (hn : t.name.name = .ok i) (he : i.toSyn E = some e) : .typeAlias e ∈ out := by
  have := p.typeVarsOk
  rw [hc] at this
  obtain ⟨it, hit, hg⟩ := traverse_mem' this hm
  unfold TypeVar.generate at hg
  rw [hn, Res.ok_bind, Ident.trySyn, he] at hg
  cases hg
  rw [p.content]
  simp only [List.mem_append]
  exact Or.inl (Or.inl (Or.inl (Or.inr hit)))

theorem content_property {E : Env} {cfg : Config} {imp : Str → Bool} {tops : List Module} {ts : List Path} {m : Module}
    {out : List Item} (p : ContentParts E cfg imp tops ts m out) (hc : cfg.generateProperties = true) {q : Property}
    (hm : q ∈ m.properties) {i : Ident} {e : Str} (hn : q.name.name = .ok i) (he : i.toSyn E = some e)
    (hres : i.asPy ∉ reservedFunctions) : (∃ fn : Fn, .prop fn ∈ out ∧ fn.sig.name = e) ∨ ∃ f ∈ m.functions, f.name.name = .ok i := by
  by_cases ht : i ∈ p.taken
  · obtain ⟨f, hf, hfn⟩ := traverse_mem p.takenOk ht
    exact Or.inr ⟨f, hf, hfn⟩
  · left
    have hnt : nameTaken p.taken i = false := by
      unfold nameTaken
      have : forbiddenFunctionNames.contains i.asPy = false := by simpa [forbiddenFunctionNames, reservedFunctions] using hres
      rw [this, Bool.or_false]
      simpa using ht
    have := p.propertiesOk
    rw [hc] at this
    obtain ⟨l, hlm, hg⟩ := traverse_mem' this hm
    obtain ⟨r, hr1, hr2⟩ := Res.bind_ok hg
    have ho : q.owner = .module := by
      cases ho : q.owner with
      | module => rfl
      | «class» => rw [ho] at hr2; cases hr2
    rw [ho] at hr2
    cases hr2
    obtain ⟨g, hgg, hr⟩ := accessors_of hr1
    have hmem : g ∈ r := by
      rcases hr with ⟨-, s, -, rfl⟩ | ⟨-, rfl⟩ <;> simp
    cases g with
    | none =>
      unfold Property.generateGetter at hgg
      rw [hn, Res.ok_bind] at hgg
      unfold getterIdent at hgg
      rw [he] at hgg
      simp only [hnt, Bool.false_eq_true, if_false, Res.ok_bind] at hgg
      obtain ⟨_, -, hgg⟩ := Res.bind_ok hgg
      obtain ⟨_, -, hgg⟩ := Res.bind_ok hgg
      cases hgg
    | some fn =>
      refine ⟨fn, ?_, ?_⟩
      · rw [p.content]
        simp only [List.mem_append, List.mem_flatten]
        exact Or.inr ⟨_, hlm, List.mem_map.mpr ⟨some fn, hmem, rfl⟩⟩
      · obtain ⟨name, ident, _, _, h1, h2, -, -, rfl⟩ := getter_fn hgg
        rw [hn] at h1
        cases h1
        unfold getterIdent at h2
        rw [he] at h2
        simp only [hnt, Bool.false_eq_true, if_false] at h2
        cases h2
        rfl

/-- Every name that a prelude exports is defined in the module around it. Missing: configurations that do not generate some kind
of item or do not traverse submodules (`C40_flags_counterexample`). -/
theorem C40_partial (E : Env) (W : World) (fuel : Nat) (cfg : Config) (srcs : List (Str × Str)) (c : Codegen)
    (items : List Item) (hb : Built E W fuel cfg srcs c) (h : c.generate E W fuel = .ok items)
    (hc : cfg.generateClasses = true) (hf : cfg.generateFunctions = true) (ht : cfg.generateTypeVars = true)
    (hp : cfg.generateProperties = true) (hs : cfg.traverseSubmodules = true)
    (allow : Bool) (doc : Option Str) (n : Str) (inner : List Item) (hx : Within (.mod allow doc n inner) items)
    (pn : Str) (es : List Str) (hpre : .prelude pn es ∈ inner) (e : Str) (he : e ∈ es) : Defines inner e := by
  have hbo := built_ok hb
  have hcfg := hbo.config
  subst hcfg
  obtain ⟨out, hprep, hfrom⟩ := generate_from h
  obtain ⟨M, hM, q, hin⟩ := from_mod (hfrom _ hx)
  obtain ⟨p⟩ := content_parts q.contentOk
  have hprec : .prelude pn es ∈ q.content := by
    rw [hin] at hpre
    simp only [List.mem_append] at hpre
    rcases hpre with (hpre | hpre) | hpre
    · unfold embedItems at hpre
      split at hpre <;> simp at hpre
    · exact hpre
    · have hmods := q.modsOk
      rw [hs] at hmods
      obtain ⟨s, -, hg⟩ := traverse_mem hmods hpre
      obtain ⟨q'⟩ := generate_parts hg
      exact absurd q'.item (by simp)
  have hsub : ∀ x ∈ q.content, x ∈ inner := fun x hx => by rw [hin]; simp [hx]
  cases content_from p hprec with
  | prelude _ _ _ hg =>
    obtain ⟨n', es', names, i', he', hes, -, -, -, -⟩ := generatePrelude_prelude hg
    cases he'
    obtain ⟨i, hi, hex, hsyn⟩ := preludeExports_mem hes he
    obtain ⟨path, hpath, hname⟩ := anyName_true hex
    obtain ⟨m, hm, hmn, hmx⟩ := prepared_has hprep hbo.parsed hM (x := .prelude i) hi
    obtain ⟨fu, id, hm⟩ := hm
    obtain ⟨_, pm, _, -, -, -, hall⟩ := C09_items E c.cfg W fu id m m hm (.top (by simp))
    obtain ⟨-, -, hal⟩ := hall _ hmx
    have hres : i.asPy ∉ reservedFunctions := hal.notReserved
    have hfun : ∀ f ∈ M.functions, f.name.name = .ok i → Defines inner e := by
      intro f hfm hfn
      obtain ⟨m', hm', -, hmf⟩ := prepared_has hprep hbo.parsed hM (x := .function f) hfm
      obtain ⟨fu', id', hm'⟩ := hm'
      obtain ⟨fn, h1, h2⟩ := content_function p hf hfm (C39_functions_free E c.cfg W fu' id' m' hm' f hmf) hfn hsyn hres
      exact Or.inr (Or.inl ⟨fn, hsub _ h1, h2⟩)
    unfold Module.immediateNames at hpath
    simp only [Bool.false_eq_true, if_false, List.nil_append, List.mem_append, List.mem_map] at hpath
    rcases hpath with (((⟨s, hsm, rfl⟩ | ⟨k, hk, rfl⟩) | ⟨f, hfm, rfl⟩) | ⟨t, htm, rfl⟩) | ⟨r, hr, rfl⟩
    · have hmods := q.modsOk
      rw [hs] at hmods
      obtain ⟨it, hit, hg⟩ := traverse_mem' hmods hsm
      obtain ⟨q'⟩ := generate_parts hg
      have hlast := path_name_last hname
      rw [q'.lastOk] at hlast
      have hid := q'.identOk
      rw [Option.some.inj hlast, hsyn] at hid
      have hid := Option.some.inj hid
      subst hid
      rw [q'.item] at hit
      exact Or.inr (Or.inr (Or.inr (Or.inr ⟨_, _, _, by rw [hin]; exact List.mem_append_right _ hit⟩)))
    · obtain ⟨ki, h1, h2⟩ := content_class p hc hk hname hsyn
      exact Or.inl ⟨ki, hsub _ h1, h2⟩
    · exact hfun f hfm hname
    · exact Or.inr (Or.inr (Or.inr (Or.inl (hsub _ (content_typeVar p ht htm hname hsyn)))))
    · rcases content_property p hp hr hname hsyn hres with ⟨fn, h1, h2⟩ | ⟨f, hfm, hfn⟩
      · exact Or.inr (Or.inr (Or.inl ⟨fn, hsub _ h1, h2⟩))
      · exact hfun f hfm hfn

/-- Exports of the preludes, and the names of classes and functions, of the top level modules. -/
def exPreludes (items : List Item) : List (List (List Str)) :=
  items.map fun (x : Item) => match x with
    | .mod _ _ _ inner => inner.map fun (y : Item) => match y with
      | .prelude _ es => es
      | .class k => [k.name]
      | .func f => [f.sig.name]
      | _ => []
    | _ => []

/-- `pkg` exports `f`. -/
example : ∃ c items, Built exEnv exWorld 5 {} [] c ∧ c.generate exEnv exWorld 5 = .ok items ∧
    exPreludes items = [[[c!"f"], [c!"C"], [c!"f"], [], [], []]] := built_run (names := [c!"pkg"]) (by decide +kernel)

/-- If functions are not generated, the prelude still exports the function `f`. -/
theorem C40_flags_counterexample :
    ((Codegen.new { generateFunctions := false }).moduleNames exEnv exWorld 5 [c!"pkg"] >>=
      fun c => c.generate exEnv exWorld 5).map exPreludes = .ok [[[c!"f"], [c!"C"], [], [], []]] := by decide +kernel

/-! ## C28 -/

/-- **C28**: the prelude module gets the first of the names `call`, `call1`, `call2`, … that nothing in the module has, whether
defined there or imported. -/
theorem C28_prelude (E : Env) (m : Module) (x : Item) (h : m.generatePrelude E = .ok (some x)) :
    ∃ i es, x = .prelude (helperName c!"call" i) es ∧
      (∀ p, p ∈ m.imports.map Import.target ∨ p ∈ m.submodules.map Module.name ∨ p ∈ m.classes.map Class.name ∨
        p ∈ m.functions.map Function.name ∨ p ∈ m.typeVars.map TypeVar.name ∨ p ∈ m.properties.map Property.name →
        p.segs.getLast? ≠ some (Ident.fromPy E (helperName c!"call" i))) ∧
      ∀ j < i, ∃ p ∈ m.immediateNames true, p.segs.getLast? = some (Ident.fromPy E (helperName c!"call" j)) := by
  obtain ⟨n, es, names, id, rfl, -, -, hnames, hfresh, hn⟩ := generatePrelude_prelude h
  obtain ⟨i, h1, h2, h3⟩ := C28_search E (newCall_isIdent E).2 names
  rw [hfresh] at h1
  cases h1
  rw [trySyn_plain (helper_isIdent E (newCall_isIdent E).2 i) (call_not_keyword i)] at hn
  cases hn
  refine ⟨i, es, rfl, ?_, ?_⟩
  · intro p hp hl
    have hmem : p ∈ m.immediateNames true := by
      unfold Module.immediateNames
      simp only [if_true, List.mem_append]
      tauto
    obtain ⟨k, hk, hkn⟩ := traverse_mem' hnames hmem
    rw [name_ok hl] at hkn
    cases hkn
    exact h2 hk
  · intro j hj
    obtain ⟨p, hp, hpn⟩ := traverse_mem hnames (h3 j hj)
    exact ⟨p, hp, path_name_last hpn⟩

/-- A module that defines `call` and imports something as `call1`. -/
def exCallModule : Module where
  name := ⟨false, [⟨c!"m"⟩]⟩
  prelude := [⟨c!"call"⟩]
  typeVars := [⟨⟨false, [⟨c!"m"⟩, ⟨c!"call"⟩]⟩⟩]
  imports := [Import.new ⟨false, [⟨c!"o"⟩, ⟨c!"x"⟩]⟩ ⟨false, [⟨c!"m"⟩, ⟨c!"call1"⟩]⟩]

example : (exCallModule.generatePrelude exEnv).map (fun (x : Option Item) => match x with
    | some (.prelude n es) => n :: es
    | _ => []) = .ok [c!"call2", c!"call"] := by decide

end Bindgen

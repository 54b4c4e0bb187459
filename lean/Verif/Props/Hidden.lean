import Verif.Props.Parsed
import Verif.Props.Restrict
import Verif.Lemmas.Deps
/-!
# Hidden attributes have no influence: C83
-/
namespace Bindgen
open Spec

/-! ## Specification -/

/-- No attribute of this name is allowed, wherever it comes from: the name is private, blocked or reserved. -/
def Spec.HiddenName (cfg : Config) (n : Str) : Prop := ∀ pkg, ¬ Allowed cfg n pkg

/-- The classes are the same, apart from the values of members with hidden names other than `__init__` and `__call__`, and
whether there are such members. -/
structure Spec.SameShownClass (cfg : Config) (c c' : PyClass) : Prop where
  rest : c' = { c with attrs := c'.attrs }
  shown : ∀ n, ¬ HiddenName cfg n ∨ n = c!"__init__" ∨ n = c!"__call__" → c'.getattr n = c.getattr n

/-- The attributes of modules are the same, apart from hidden members of classes. -/
structure Spec.SameShownAttr (cfg : Config) (a a' : PyAttr) : Prop where
  rest : a' = { a with cls := a'.cls }
  cls : SameShownClass cfg a.cls a'.cls

/-- The modules are the same, apart from the values of attributes with hidden names, whether there are such attributes, and
hidden members of classes. -/
structure Spec.SameShown (cfg : Config) (m m' : PyMod) : Prop where
  rest : m' = { m with attrs := m'.attrs }
  shown : ∀ n, ¬ HiddenName cfg n → (m.getattr n = none ∧ m'.getattr n = none) ∨
    ∃ a a', m.getattr n = some a ∧ m'.getattr n = some a' ∧ SameShownAttr cfg a a'

/-- The interpreters are the same, apart from hidden attributes of modules and hidden members of their classes. -/
structure Spec.SameShownWorld (cfg : Config) (W W' : World) : Prop where
  imports : W'.importMod = W.importMod
  sources : W'.fromCode = W.fromCode
  mods : ∀ id, (W.get? id = none ∧ W'.get? id = none) ∨
    ∃ m m', W.get? id = some m ∧ W'.get? id = some m' ∧ SameShown cfg m m'

/-! ## What is read of a module -/

theorem shown_of_allowed {cfg : Config} {i : Ident} {p : Path} (h : cfg.isAttrAllowed i p = true) : ¬ HiddenName cfg i.asPy :=
  fun hh => hh _ ((C08_filter_iff _ _ _).mp h)

section
variable {E : Env} {cfg : Config} {m m' : PyMod}

theorem release_checkPath (hE : E.debug = false) (l : List Str) : Path.checkPy E l = .ok () := by
  unfold Path.checkPy debugAssert
  simp [hE]

theorem hidden_class (hE : E.debug = false) {c c' : PyClass} (h : SameShownClass cfg c c') :
    Class.parse E cfg c' = Class.parse E cfg c := by
  have h1 : c'.dir = c.dir := by rw [h.rest]
  have h2 : c'.dirRaises = c.dirRaises := by rw [h.rest]
  have h3 : c'.doc = c.doc := by rw [h.rest]
  have h4 : Class.check E c' = Class.check E c := by
    unfold Class.check
    rw [h1, h2, release_checkPath hE, release_checkPath hE]
  have h5 : Class.candidates E cfg c' = Class.candidates E cfg c := by
    unfold Class.candidates
    rw [h1]
    congr 1
    funext i
    by_cases hi : ¬ HiddenName cfg i.asPy ∨ i.asPy = c!"__init__" ∨ i.asPy = c!"__call__"
    · rw [h.shown _ hi]
    · obtain ⟨hi, hs⟩ := not_or.mp hi
      have key : ∀ p, (cfg.isAttrAllowed i p || [c!"__init__", c!"__call__"].contains i.asPy) = false := fun p => by
        rw [Bool.or_eq_false_iff]
        constructor
        · cases hp : cfg.isAttrAllowed i p with
          | false => rfl
          | true => exact absurd (shown_of_allowed hp) hi
        · rw [← Bool.not_eq_true]
          intro hc
          exact hs (by simpa using hc)
      simp only [key]
      cases c.getattr i.asPy <;> cases c'.getattr i.asPy <;> rfl
  funext n
  unfold Class.parse
  rw [h3, h4, h5]

theorem hidden_attr (hE : E.debug = false) {a a' : PyAttr} (h : SameShownAttr cfg a a') (name : Path) (st : ParseState) (i : Ident) :
    moduleStep E cfg name st (i, a') = moduleStep E cfg name st (i, a) := by
  have h1 : a'.obj = a.obj := by rw [h.rest]
  have h2 : stepImport E cfg name st i a' = stepImport E cfg name st i a := by
    unfold stepImport
    rw [h1]
  unfold moduleStep
  simp only
  rw [h1, h2, hidden_class hE h.cls]

/-- Two folds over the results of partial functions whose results are treated alike. -/
theorem foldRes_filterMap {α β γ : Type} {f : α → γ → Res α} {k k' : β → Option γ} {l : List β}
    (h : ∀ b, (k b = none ∧ k' b = none) ∨ ∃ x x', k b = some x ∧ k' b = some x' ∧ ∀ a, f a x' = f a x) (a : α) :
    foldRes f a (l.filterMap k') = foldRes f a (l.filterMap k) := by
  induction l generalizing a with
  | nil => rfl
  | cons b l ih =>
    rcases h b with ⟨h1, h2⟩ | ⟨x, x', h1, h2, h3⟩
    · rw [List.filterMap_cons_none h1, List.filterMap_cons_none h2, ih]
    · rw [List.filterMap_cons_some h1, List.filterMap_cons_some h2, foldRes, foldRes, h3]
      congr 1
      funext c
      exact ih c

theorem hidden_candidates (hE : E.debug = false) (h : SameShown cfg m m') (name : Path) (st : ParseState) :
    foldRes (moduleStep E cfg name) st (moduleCandidates E cfg m') =
      foldRes (moduleStep E cfg name) st (moduleCandidates E cfg m) := by
  have hd : m'.dir = m.dir := by rw [h.rest]
  unfold moduleCandidates
  rw [hd]
  refine foldRes_filterMap (fun i => ?_) st
  by_cases hi : HiddenName cfg i.asPy
  · have key : ∀ p, cfg.isAttrAllowed i p = false := fun p => by
      cases hp : cfg.isAttrAllowed i p with
      | false => rfl
      | true => exact absurd hi (shown_of_allowed hp)
    left
    simp only [key]
    cases m.getattr i.asPy <;> cases m'.getattr i.asPy <;> exact ⟨rfl, rfl⟩
  · rcases h.shown _ hi with ⟨h1, h2⟩ | ⟨a, a', h1, h2, h3⟩
    · rw [h1, h2]
      exact Or.inl ⟨rfl, rfl⟩
    · rw [h1, h2]
      have ho : a'.obj = a.obj := by rw [h3.rest]
      simp only [ho]
      cases hc : cfg.isAttrAllowed i (Path.fromPy E a.obj.modPath) with
      | false => exact Or.inl ⟨rfl, rfl⟩
      | true => exact Or.inr ⟨(i, a), (i, a'), rfl, rfl, fun st => hidden_attr hE h3 name st i⟩

/-- What is read of an attribute with a name that is shown, apart from the members of a class. -/
theorem shown_read {α : Type} (h : SameShown cfg m m') {n : Str} (hn : ¬ HiddenName cfg n) (q : PyAttr → α)
    (hq : ∀ a c, q { a with cls := c } = q a) : (m'.getattr n).map q = (m.getattr n).map q := by
  rcases h.shown n hn with ⟨h1, h2⟩ | ⟨a, a', h1, h2, h3⟩
  · rw [h1, h2]
  · rw [h1, h2, h3.rest]
    exact congrArg some (hq _ _)

theorem hidden_prelude (h : SameShown cfg m m') (n : Path) : extractPrelude E cfg m' n = extractPrelude E cfg m n := by
  have h1 : indexIdents E m' = indexIdents E m := by rw [h.rest]; rfl
  have h2 : indexIsPublic E m' = indexIsPublic E m := by rw [h.rest]; rfl
  have hhid : ∀ i, HiddenName cfg i.asPy → cfg.isAttrAllowed i n = false := fun i hi => by
    cases hp : cfg.isAttrAllowed i n with
    | false => rfl
    | true => exact absurd hi (shown_of_allowed hp)
  unfold extractPrelude
  simp only [h1, h2]
  split
  · rfl
  · split
    · refine List.filter_congr fun i _ => ?_
      by_cases hi : HiddenName cfg i.asPy
      · rw [hhid i hi]
        cases m.getattr i.asPy <;> cases m'.getattr i.asPy <;> rfl
      · rcases h.shown _ hi with ⟨h1, h2⟩ | ⟨a, a', h1, h2, h3⟩ <;> rw [h1, h2]
    · rw [List.filter_filter, List.filter_filter]
      refine List.filter_congr fun i _ => ?_
      by_cases hi : HiddenName cfg i.asPy
      · rw [hhid i hi]
        cases m.getattr i.asPy <;> cases m'.getattr i.asPy <;> rfl
      · rcases h.shown _ hi with ⟨h1, h2⟩ | ⟨a, a', h1, h2, h3⟩
        · rw [h1, h2]
        · have ho : a'.obj = a.obj := by rw [h3.rest]
          rw [h1, h2]
          simp only [ho]

theorem hidden_checkPrelude (hE : E.debug = false) (h : SameShown cfg m m') (n : Path) :
    checkPrelude E cfg m' n = checkPrelude E cfg m n := by
  have h1 : m'.all = m.all := by rw [h.rest]
  have h2 : m'.dir = m.dir := by rw [h.rest]
  have h3 : m'.dirRaises = m.dirRaises := by rw [h.rest]
  have h4 : indexIsPublic E m' = indexIsPublic E m := by rw [h.rest]; rfl
  unfold checkPrelude
  rw [h1, h2, h3, h4, release_checkPath hE, release_checkPath hE]

theorem hidden_checkAttrs (hE : E.debug = false) (h : SameShown cfg m m') : checkAttrs E m' = checkAttrs E m := by
  have h2 : m'.dir = m.dir := by rw [h.rest]
  have h3 : m'.dirRaises = m.dirRaises := by rw [h.rest]
  unfold checkAttrs
  rw [h2, h3, release_checkPath hE, release_checkPath hE]

theorem hidden_subs (h : SameShown cfg m m') (n : Path) : extractSubmodules E cfg m' n = extractSubmodules E cfg m n := by
  rw [h.rest]; rfl

/-- The names of submodules are names from outside or names of attributes. -/
theorem step_subNames {name : Path} {st st' : ParseState} {x : Ident × PyAttr} (h : moduleStep E cfg name st x = .ok st') :
    ∀ i ∈ st'.subs, i ∈ st.subs ∨ i = x.1 := by
  unfold moduleStep at h
  obtain ⟨t, -, h⟩ := Res.bind_ok h
  cases t with
  | «import» =>
    simp only at h
    obtain ⟨_, -, h⟩ := Res.bind_ok h
    cases h
    intro i hi
    unfold stepImport at hi
    simp only at hi
    left
    split at hi
    · exact hi
    · split at hi
      · exact hi
      · split at hi <;> exact hi
  | module =>
    cases h
    intro i hi
    simpa using hi
  | «class» => obtain ⟨_, -, h⟩ := Res.bind_ok h; cases h; exact fun i hi => Or.inl hi
  | typeVar => cases h; exact fun i hi => Or.inl hi
  | function => obtain ⟨_, -, h⟩ := Res.bind_ok h; cases h; exact fun i hi => Or.inl hi
  | method => cases h; exact fun i hi => Or.inl hi
  | closure => obtain ⟨_, -, h⟩ := Res.bind_ok h; cases h; exact fun i hi => Or.inl hi
  | property => obtain ⟨_, -, h⟩ := Res.bind_ok h; cases h; exact fun i hi => Or.inl hi

end

/-- Two folds with functions that agree on the elements of the list. -/
theorem foldRes_same {α β : Type} {f g : α → β → Res α} {l : List β} (h : ∀ a, ∀ b ∈ l, f a b = g a b) (a : α) :
    foldRes f a l = foldRes g a l := by
  induction l generalizing a with
  | nil => rfl
  | cons b l ih =>
    rw [foldRes, foldRes, h a b List.mem_cons_self]
    congr 1
    funext c
    exact ih (fun a b hb => h a b (List.mem_cons_of_mem _ hb)) c

theorem bind_same {α β : Type} {r : Res α} {f g : α → Res β} (h : ∀ a, r = .ok a → f a = g a) : (r >>= f) = (r >>= g) := by
  cases r with
  | ok a => exact h a rfl
  | error e => simp only [error_bind]

section
variable {E : Env} {cfg : Config} {W W' : World}

theorem hidden_parse (hE : E.debug = false) (hW : SameShownWorld cfg W W') (fuel id : Nat) :
    Module.parse E cfg W' fuel id = Module.parse E cfg W fuel id := by
  induction fuel generalizing id with
  | zero => rfl
  | succ fuel ih =>
    rw [Module.parse, Module.parse]
    rcases hW.mods id with ⟨h1, h2⟩ | ⟨m, m', h1, h2, h⟩
    · rw [h1, h2]
      exact bind_same fun m hm => by cases hm
    · rw [h1, h2]
      show (Except.ok m' >>= _) = (Except.ok m >>= _)
      rw [Res.ok_bind, Res.ok_bind]
      have e1 : m'.name = m.name := by rw [h.rest]
      have e2 : m'.isPackage = m.isPackage := by rw [h.rest]
      have e3 : m'.doc = m.doc := by rw [h.rest]
      simp only [e1, e2, e3, hidden_candidates hE h, hidden_prelude h, hidden_checkPrelude hE h, hidden_checkAttrs hE h, hidden_subs h]
      refine bind_same fun n _ => bind_same fun _ _ => bind_same fun _ _ => bind_same fun subs hs => bind_same fun _ _ =>
        bind_same fun st hst => ?_
      have hsubs : ∀ i ∈ st.subs, ¬ HiddenName cfg i.asPy := by
        refine foldRes_invariant (P := fun (st : ParseState) => ∀ i ∈ st.subs, ¬ HiddenName cfg i.asPy) ?_ ?_ hst
        · intro i hi
          rcases ifOn_ok hs with ⟨-, hs⟩ | ⟨-, hs⟩
          · unfold extractSubmodules at hs
            obtain ⟨_, -, hs⟩ := Res.bind_ok hs
            obtain ⟨_, -, hs⟩ := Res.bind_ok hs
            cases hs
            exact shown_of_allowed (List.mem_filter.mp hi).2
          · rw [hs] at hi; cases hi
        · intro a ha x hx b hb i hi
          rcases step_subNames hb i hi with hi | rfl
          · exact ha i hi
          · obtain ⟨j, -, hj⟩ := List.mem_filterMap.mp hx
            cases hg : m.getattr j.asPy with
            | none => rw [hg] at hj; cases hj
            | some a =>
              rw [hg] at hj
              simp only at hj
              split at hj
              · rename_i hc
                cases hj
                exact shown_of_allowed hc
              · cases hj
      have hfold : foldRes (submoduleStep W' m' (Path.fromPy E n) (Module.parse E cfg W' fuel)) (st, []) (E.setOrder st.subs) =
          foldRes (submoduleStep W m (Path.fromPy E n) (Module.parse E cfg W fuel)) (st, []) (E.setOrder st.subs) := by
        refine foldRes_same (fun acc i hi => ?_) _
        have hi : ¬ HiddenName cfg i.asPy := hsubs i ((E.set_mem _ _).mp hi)
        have hrec : Module.parse E cfg W' fuel = Module.parse E cfg W fuel := funext ih
        have hmod : (m'.getattr i.asPy).bind (fun a => a.mod) = (m.getattr i.asPy).bind (fun a => a.mod) := by
          have := congrArg (fun o => o.bind (fun x => x)) (shown_read h hi (fun a => a.mod) (fun _ _ => rfl))
          simpa [Option.bind_map, Function.comp_def] using this
        unfold submoduleStep submoduleId
        rw [hW.imports, hmod, hrec]
      rw [hfold]

theorem hidden_walk (hW : SameShownWorld cfg W W') (l : List Ident) (hl : ∀ i ∈ l, ¬ HiddenName cfg i.asPy) (id : Nat) :
    walkModules W' id l = walkModules W id l := by
  induction l generalizing id with
  | nil => rfl
  | cons i l ih =>
    have key : (W'.get? id).bind (fun m => (m.getattr i.asPy).bind (fun a => a.mod)) =
        (W.get? id).bind (fun m => (m.getattr i.asPy).bind (fun a => a.mod)) := by
      rcases hW.mods id with ⟨h1, h2⟩ | ⟨m, m', h1, h2, h⟩
      · rw [h1, h2]
      · have := congrArg (fun o => o.bind (fun x => x)) (shown_read h (hl i List.mem_cons_self) (fun a => a.mod) (fun _ _ => rfl))
        rw [h1, h2, Option.bind_some, Option.bind_some]
        simpa [Option.bind_map, Function.comp_def] using this
    rw [walkModules, walkModules, key]
    split
    · exact ih (fun j hj => hl j (List.mem_cons_of_mem _ hj)) _
    · rfl

theorem hidden_deps (hE : E.debug = false) (hW : SameShownWorld cfg W W') (fuel : Nat) {mods : List Module}
    (hm : ∀ m ∈ mods, Parsed E cfg W m) :
    parseDependencies E cfg W' fuel mods = parseDependencies E cfg W fuel mods := by
  unfold parseDependencies
  simp only
  rw [foldRes_same (f := depStep E cfg W' fuel) (g := depStep E cfg W fuel)]
  intro st o ho
  obtain ⟨i, hi, rfl⟩ := List.mem_map.mp (mem_unique.mp ho)
  obtain ⟨⟨M, hM, hi⟩, -⟩ := externalImportsList_mem.mp hi
  have hsegs : ∀ s ∈ i.origin.segs, ¬ HiddenName cfg s.asPy := by
    intro s hs hh
    obtain ⟨a, b, hab⟩ := List.append_of_mem hs
    obtain ⟨root, hr, hMr⟩ : ∃ root ∈ mods, InTree M [root] := by
      cases hM with
      | top h => exact ⟨M, h, .top (by simp)⟩
      | sub h h' => exact ⟨_, h, .sub (by simp) h'⟩
    obtain ⟨f, id, hp⟩ := hm root hr
    exact hh _ (C09_origins E cfg W f id root M hp hMr i hi a s b hab)
  unfold depStep lastModule
  rw [hW.imports]
  have hwalk : ∀ id, walkModules W' id (i.origin.segs.drop 1) = walkModules W id (i.origin.segs.drop 1) := fun id =>
    hidden_walk hW _ (fun s hs => hsegs s (List.mem_of_mem_drop hs)) id
  simp only [hwalk]
  refine bind_same fun id _ => ?_
  rcases hW.mods id with ⟨h1, h2⟩ | ⟨m, m', h1, h2, h⟩
  · rw [h1, h2]
    exact bind_same fun m hm => by cases hm
  · rw [h1, h2]
    show (Except.ok m' >>= _) = (Except.ok m >>= _)
    rw [Res.ok_bind, Res.ok_bind]
    have e1 : m'.name = m.name := by rw [h.rest]
    have e2 : m'.modPath = m.modPath := by rw [h.rest]
    have e3 : ∀ n, checkDep E m' n = checkDep E m n := by intro n; unfold checkDep; rw [e2]
    simp only [e1, e2, e3, hidden_parse hE hW]

theorem hidden_empty (hW : SameShownWorld cfg W W') (p : Path) : Module.empty W' p = Module.empty W p := by
  unfold Module.empty
  rw [hW.imports]
  refine bind_same fun id _ => ?_
  rcases hW.mods id with ⟨h1, h2⟩ | ⟨m, m', h1, h2, h⟩
  · rw [h1, h2]
  · rw [h1, h2]
    show (Except.ok m' >>= _) = (Except.ok m >>= _)
    rw [Res.ok_bind, Res.ok_bind]
    have e3 : m'.doc = m.doc := by rw [h.rest]
    rw [e3]

theorem hidden_canonicalize (hW : SameShownWorld cfg W W') (mods : List Module) : canonicalize E W' mods = canonicalize E W mods := by
  have : Module.wrap W' = Module.wrap W := by
    funext m
    unfold Module.wrap
    simp only [hidden_empty hW]
  unfold canonicalize
  rw [this]

end

theorem hidden_generate {E : Env} {W W' : World} {fuel : Nat} {c : Codegen} (hE : E.debug = false) (hW : SameShownWorld c.cfg W W')
    (hm : ∀ m ∈ c.modules, Parsed E c.cfg W m) : c.generate E W' fuel = c.generate E W fuel := by
  have hp : c.prepare E W' fuel = c.prepare E W fuel := by
    unfold Codegen.prepare
    rw [hidden_deps hE hW fuel hm]
    simp only [hidden_canonicalize hW]
  have hi : W'.importable = W.importable := by
    funext n
    unfold World.importable
    rw [hW.imports]
  unfold Codegen.generate
  rw [hp, hi]

theorem hidden_request {E : Env} {W W' : World} {fuel : Nat} {c : Codegen} (hE : E.debug = false) (hW : SameShownWorld c.cfg W W')
    (r : Request) : c.request E W' fuel r = c.request E W fuel r := by
  have key : ∀ (c : Codegen), SameShownWorld c.cfg W W' → ∀ id, c.module E W' fuel id = c.module E W fuel id := by
    intro c hW id
    unfold Codegen.module
    rw [hidden_parse hE hW]
  cases r with
  | handle id => exact key c hW id
  | name n =>
    show c.moduleName E W' fuel n = c.moduleName E W fuel n
    unfold Codegen.moduleName
    rw [hW.imports]
    exact bind_same fun id _ => key c hW id
  | source code n =>
    show c.moduleFromStr E W' fuel code n = c.moduleFromStr E W fuel code n
    unfold Codegen.moduleFromStr
    rw [hW.sources]
    exact bind_same fun id _ => key { c with embedded := c.embedded ++ [(n, code)] } hW id

theorem request_parsed {E : Env} {W : World} {fuel : Nat} {c d : Codegen} {r : Request} (h : c.request E W fuel r = .ok d)
    (hm : ∀ m ∈ c.modules, Parsed E c.cfg W m) : d.cfg = c.cfg ∧ ∀ m ∈ d.modules, Parsed E d.cfg W m := by
  have key : ∀ (c d : Codegen) id, c.module E W fuel id = .ok d → (∀ m ∈ c.modules, Parsed E c.cfg W m) →
      d.cfg = c.cfg ∧ ∀ m ∈ d.modules, Parsed E d.cfg W m := by
    intro c d id h hm
    obtain ⟨M, h1, h⟩ := Res.bind_ok h
    cases h
    refine ⟨rfl, fun m hmem => ?_⟩
    rcases List.mem_append.mp hmem with hmem | hmem
    · exact hm m hmem
    · rw [List.mem_singleton] at hmem
      subst hmem
      exact ⟨_, _, h1⟩
  cases r with
  | handle id => exact key c d id h hm
  | name n => obtain ⟨id, -, h⟩ := Res.bind_ok h; exact key c d id h hm
  | source code n => obtain ⟨id, -, h⟩ := Res.bind_ok h; exact key { c with embedded := c.embedded ++ [(n, code)] } d id h hm

theorem hidden_requests {E : Env} {W W' : World} {fuel : Nat} (hE : E.debug = false) (rs : List Request) {c : Codegen}
    (hW : SameShownWorld c.cfg W W') (hm : ∀ m ∈ c.modules, Parsed E c.cfg W m) :
    (foldRes (fun c r => c.request E W' fuel r) c rs >>= fun c => c.generate E W' fuel) =
      (foldRes (fun c r => c.request E W fuel r) c rs >>= fun c => c.generate E W fuel) := by
  induction rs generalizing c with
  | nil => exact hidden_generate hE hW hm
  | cons r rs ih =>
    rw [foldRes, foldRes, hidden_request hE hW]
    cases hr : c.request E W fuel r with
    | error e => simp only [error_bind]
    | ok d =>
      obtain ⟨h1, h2⟩ := request_parsed hr hm
      rw [Res.ok_bind, Res.ok_bind]
      exact ih (h1 ▸ hW) h2

/-- Equal attributes differ in no shown member. -/
theorem shown_of_eq {cfg : Config} {o o' : Option PyAttr} (h : o' = o) :
    (o = none ∧ o' = none) ∨ ∃ a a', o = some a ∧ o' = some a' ∧ SameShownAttr cfg a a' := by
  subst h
  cases o' with
  | none => exact Or.inl ⟨rfl, rfl⟩
  | some a => exact Or.inr ⟨a, a, rfl, rfl, rfl, rfl, fun _ _ => rfl⟩

/-- The hidden names: those that are reserved, blocked, or private if private names are not included. -/
theorem C83_names (cfg : Config) (n : Str) :
    HiddenName cfg n ↔ n ∈ reserved ∨ n ∈ cfg.blocklistNames ∨ (cfg.includePrivate = false ∧ c!"_" <+: n) := by
  constructor
  · intro h
    by_cases h1 : n ∈ reserved
    · exact Or.inl h1
    · by_cases h2 : n ∈ cfg.blocklistNames
      · exact Or.inr (Or.inl h2)
      · refine Or.inr (Or.inr ?_)
        by_cases h3 : cfg.includePrivate = true
        · exact absurd ⟨h1, h2, Or.inl h3, by simp, by simp⟩ (h [])
        · refine ⟨by simpa using h3, ?_⟩
          by_cases h4 : c!"_" <+: n
          · exact h4
          · exact absurd ⟨h1, h2, Or.inr ⟨h4, by simp⟩, by simp, by simp⟩ (h [])
  · rintro (h | h | ⟨h, h'⟩) pkg ha
    · exact ha.notReserved h
    · exact ha.notBlocked h
    · rcases ha.notPrivate with h1 | h1
      · rw [h] at h1; cases h1
      · exact h1.1 h'

/-- What the values of attributes and members of classes with hidden names are, and whether there are any, has no influence on a run: neither on the
bindings nor on its success. (Release profile; in a debug build the `__module__` of every attribute is checked, hidden or
not.) -/
theorem C83_hidden (E : Env) (W W' : World) (fuel : Nat) (cfg : Config) (rs : List Request) (hE : E.debug = false)
    (hW : SameShownWorld cfg W W') : run E W' fuel cfg rs = run E W fuel cfg rs :=
  hidden_requests hE rs (c := Codegen.new cfg) hW (by intro m hm; cases hm)

/-- The interpreter `exWorld` with `pkg._hidden` replaced by an integer and with a new attribute `pkg._more`. -/
def exHiddenWorld : World :=
  { exWorld with mods := exWorld.mods.map fun m =>
      if m.name = some c!"pkg" then
        { m with attrs := (c!"_hidden", { obj := exIntObj }) :: (c!"_more", { obj := exIntObj }) :: m.attrs }
      else m }

example : SameShownWorld {} exWorld exHiddenWorld where
  imports := rfl
  sources := rfl
  mods id := by
    match id with
    | 0 =>
      refine Or.inr ⟨exPkg, _, rfl, rfl, rfl, fun n hn => ?_⟩
      rw [C83_names] at hn
      have h1 : (n == c!"_hidden") = false := by
        rw [beq_eq_false_iff_ne]
        rintro rfl
        exact hn (Or.inr (Or.inr ⟨rfl, by decide⟩))
      have h2 : (n == c!"_more") = false := by
        rw [beq_eq_false_iff_ne]
        rintro rfl
        exact hn (Or.inr (Or.inr ⟨rfl, by decide⟩))
      refine shown_of_eq ?_
      show List.lookup n ((c!"_hidden", _) :: (c!"_more", _) :: exPkg.attrs) = List.lookup n exPkg.attrs
      rw [List.lookup_cons, h1, List.lookup_cons, h2]
    | 1 => exact Or.inr ⟨exSub, _, rfl, rfl, rfl, fun _ _ => shown_of_eq rfl⟩
    | 2 => exact Or.inr ⟨exOther, _, rfl, rfl, rfl, fun _ _ => shown_of_eq rfl⟩
    | n + 3 => exact Or.inl ⟨rfl, rfl⟩

example : (run (.ascii false false) exWorld 5 {} [.name c!"pkg"]).map exKinds =
      .ok [(1, 0), (3, 0), (4, 1), (5, 0), (5, 0), (8, 0)] ∧
    (run (.ascii false false) exHiddenWorld 5 {} [.name c!"pkg"]).map exKinds =
      .ok [(1, 0), (3, 0), (4, 1), (5, 0), (5, 0), (8, 0)] := by decide +kernel

/-- A class with a private member, and the same class with another value for it. -/
example : SameShownClass {} { dir := [c!"_secret", c!"size"], attrs := [(c!"_secret", exFnObj c!"pkg"), (c!"size", exIntObj)] }
    { dir := [c!"_secret", c!"size"], attrs := [(c!"_secret", exIntObj), (c!"size", exIntObj)] } where
  rest := rfl
  shown n hn := by
    have h1 : (n == c!"_secret") = false := by
      rw [beq_eq_false_iff_ne]
      rintro rfl
      rw [C83_names] at hn
      revert hn
      decide
    show List.lookup n ((c!"_secret", _) :: [(c!"size", exIntObj)]) = List.lookup n ((c!"_secret", _) :: [(c!"size", exIntObj)])
    simp only [List.lookup_cons, h1]

/-- The interpreter `exWorld` with another `__module__` of the private function `pkg._hidden`. -/
def exOddWorld : World :=
  { exWorld with mods := exWorld.mods.map fun m =>
      if m.name = some c!"pkg" then { m with attrs := (c!"_hidden", { obj := { exIntObj with modPath := c!"a::b" } }) :: m.attrs }
      else m }

/-- In a debug build, a hidden attribute can stop the run: the check of its `__module__` comes before the filter. -/
theorem C83_debug_counterexample : (run exEnv exOddWorld 5 {} [.name c!"pkg"]).map exKinds = .error (.panic .assertion) ∧
    (run exEnv exWorld 5 {} [.name c!"pkg"]).map exKinds = .ok [(1, 0), (3, 0), (4, 1), (5, 0), (5, 0), (8, 0)] := by decide +kernel

end Bindgen

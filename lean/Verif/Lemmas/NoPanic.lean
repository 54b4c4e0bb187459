import Verif.Spec.Tame
import Verif.Lemmas.Only
import Verif.Props.WorldScopes
import Verif.Props.TypeNames
/-! # Computations that do not panic -/
namespace Bindgen
open Spec

/-- Not a panic. -/
def IsErr (f : Fail) : Prop := ∃ e, f = .err e

/-- No panic. -/
abbrev Safe {α : Type} (r : Res α) : Prop := Only IsErr r

theorem Safe.not_panics {α : Type} {r : Res α} (h : Safe r) : ¬ Res.Panics r := by
  rintro ⟨p, hp⟩
  obtain ⟨e, he⟩ := h.out _ hp
  cases he

theorem safe_orErr {α : Type} {e : PyBindgenError} {o : Option α} : Safe (Res.orErr e o) := Only.orErr fun _ => ⟨_, rfl⟩

theorem safe_ofOption {α : Type} {p : PanicSite} {o : Option α} (h : o ≠ none) : Safe (Res.ofOption p o) :=
  Only.ofOption fun he => absurd he h

theorem safe_of_ok {α : Type} {r : Res α} (h : ∃ a, r = .ok a) : Safe r := by
  obtain ⟨a, rfl⟩ := h
  exact Only.ok _

theorem Safe.foldRes_inv {α β : Type} {f : α → β → Res α} {P : α → Prop} {l : List β} {a : α} (ha : P a)
    (hs : ∀ a, P a → ∀ b ∈ l, Safe (f a b)) (hf : ∀ a, P a → ∀ b ∈ l, ∀ a', f a b = .ok a' → P a') : Safe (foldRes f a l) := by
  induction l generalizing a with
  | nil => exact Only.ok _
  | cons b l ih =>
    unfold Bindgen.foldRes
    exact Only.bind (hs a ha b (by simp)) fun c hc =>
      ih (hf a ha b (by simp) c hc) (fun a ha b hb => hs a ha b (by simp [hb])) fun a ha b hb => hf a ha b (by simp [hb])

theorem safe_trySyn (E : Env) (i : Ident) : Safe (i.trySyn E) := safe_orErr

theorem safe_name {p : Path} (h : p.segs ≠ []) : Safe p.name :=
  safe_ofOption (by simpa [Path.name?] using h)

theorem safe_readDoc (d : Option Str) : Safe (readDoc d) := Only.bind safe_orErr fun _ _ => Only.pure _

/-! ## Parsing -/

theorem safe_readAnn {E : Env} {a : Option PyAnn} (h : ∀ x, a = some x → Readable E x) : Safe (readAnn E a) := by
  cases a with
  | none => exact Only.ok _
  | some a => exact safe_of_ok (h a rfl).read

theorem safe_ownType {E : Env} {o : PyObj} (h : Readable E (.cls o.typeBases o.typeRepr)) : Safe (ownType E o) := by
  have h := h.read
  rw [fromAnn] at h
  exact safe_of_ok h

theorem orErr_some {α : Type} {e : PyBindgenError} {o : Option α} {a : α} (h : Res.orErr e o = .ok a) : o = some a := by
  cases o with
  | none => cases h
  | some b => cases h; rfl

theorem safe_identCheck {E : Env} {l : List Str} (h : E.debug = true → [] ∉ l) : Safe (Ident.checkPy E l) :=
  safe_of_ok ⟨(), (identCheck_ok E l).mpr h⟩

theorem safe_pathCheck {E : Env} {l : List Str} (h : ∀ s ∈ l, NoColons E s) : Safe (Path.checkPy E l) :=
  safe_of_ok ⟨(), (pathCheck_ok E l).mpr fun hd s hs => h s hs hd⟩

theorem safe_pathCheck_one {E : Env} {s : Str} (h : NoColons E s) : Safe (Path.checkPy E [s]) :=
  safe_pathCheck (by simpa using h)

theorem safe_checkDir {E : Env} {r : Bool} {l : List Str} (hr : r = false) (h : E.debug = true → [] ∉ l) : Safe (checkDir E r l) := by
  subst hr
  exact safe_identCheck h

theorem safe_parseParam {E : Env} {p : PyParam} (h : ∀ x, p.ann = some x → Readable E x) (hn : E.debug = true → p.name ≠ []) :
    Safe (parseParam E p) := by
  unfold parseParam
  refine Only.bind (safe_identCheck fun hd hm => hn hd (List.mem_singleton.mp hm).symm) fun _ _ => ?_
  dsimp only
  split
  · exact Only.bind (Only.ok _) fun _ _ => Only.pure _
  · exact Only.bind (Only.ok _) fun _ _ => Only.pure _
  · exact Only.bind (safe_readAnn h) fun _ _ => Only.pure _

theorem parseParam_name {E : Env} {p : PyParam} {q : Param} (h : parseParam E p = .ok q) : q.name = Ident.fromPy E p.name := by
  unfold parseParam at h
  obtain ⟨_, -, h⟩ := Res.bind_ok h
  dsimp only at h
  split at h
  · obtain ⟨t, -, h⟩ := Res.bind_ok h
    exact congrArg Param.name (Except.ok.inj h).symm
  · obtain ⟨t, -, h⟩ := Res.bind_ok h
    exact congrArg Param.name (Except.ok.inj h).symm
  · obtain ⟨t, -, h⟩ := Res.bind_ok h
    exact congrArg Param.name (Except.ok.inj h).symm

theorem rs_underscore {E : Env} {s : Str} (h : (Ident.fromPy E s).rs = c!"r#_") : s = c!"_" ∨ s = c!"r#_" := by
  unfold Ident.fromPy Ident.pyToRs at h
  simp only at h
  split at h
  · exact Or.inr h
  · exact Or.inl (List.append_cancel_left h)

theorem safe_dropReceiver {n : Path} {t : FnType} {ps : List Param} (h : t.isConstructor = true ∨ t.isCallable = true → ps ≠ []) :
    Safe (dropReceiver (noParamHack n t ps) ps) := by
  cases ps with
  | cons p ps =>
    unfold dropReceiver
    split
    · exact Only.ok _
    · exact Only.ok _
    · exact Only.ok _
    · exact Only.ok _
  | nil =>
    match t with
    | .method c .constructor => exact absurd rfl (h (Or.inl rfl))
    | .method c .callable => exact absurd rfl (h (Or.inr rfl))
    | .method c .instanceMethod => exact Only.ok _
    | .method c .classMethod => exact Only.ok _
    | .method c .staticMethod => exact Only.ok _
    | .method c .unknown => exact Only.ok _
    | .function => exact Only.ok _
    | .closure => exact Only.ok _

theorem selfCheck_special {t : FnType} {dk : Option DictKind} {ps : List Param}
    (h : (selfCheck (inferMethod t dk) ps).1.isConstructor = true ∨ (selfCheck (inferMethod t dk) ps).1.isCallable = true) :
    (t.isConstructor = true ∨ t.isCallable = true) ∧ (selfCheck (inferMethod t dk) ps).2 = ps := by
  match t with
  | .method c .constructor => exact ⟨Or.inl rfl, rfl⟩
  | .method c .callable => exact ⟨Or.inr rfl, rfl⟩
  | .method c .instanceMethod => exact absurd h (by simp [inferMethod, selfCheck, FnType.isConstructor, FnType.isCallable])
  | .method c .classMethod =>
    refine absurd h ?_
    simp only [inferMethod, selfCheck]
    split <;> simp [FnType.isConstructor, FnType.isCallable]
  | .method c .staticMethod =>
    refine absurd h ?_
    simp only [inferMethod, selfCheck]
    split <;> simp [FnType.isConstructor, FnType.isCallable]
  | .method c .unknown =>
    refine absurd h ?_
    rcases dk with _ | _ | _ | _ <;> simp only [inferMethod, selfCheck] <;> (try split) <;>
      simp [FnType.isConstructor, FnType.isCallable]
  | .function =>
    refine absurd h ?_
    simp only [inferMethod, selfCheck]
    repeat' split
    all_goals simp [FnType.isConstructor, FnType.isCallable]
  | .closure =>
    refine absurd h ?_
    simp only [inferMethod, selfCheck]
    repeat' split
    all_goals simp [FnType.isConstructor, FnType.isCallable]

theorem safe_functionParse {E : Env} {f : PyFn} {n : Path} {t : FnType} (hs : ∀ s, f.sig = some s → TameSig E s)
    (hc : t.isConstructor = true ∨ t.isCallable = true → ∀ sg, f.sig = some sg →
      ∃ p ∈ sg.params, p.name ≠ c!"_" ∧ p.name ≠ c!"r#_") : Safe (Function.parse E f n t) := by
  unfold Function.parse
  refine Only.bind (safe_readDoc _) fun _ _ => ?_
  split
  · exact Only.pure _
  · rename_i s hsig
    refine Only.bind (Only.traverse fun p hp => safe_parseParam (fun a ha => (hs s hsig).params p hp a ha)
      fun hd => (hs s hsig).names hd p hp) fun ps hps =>
      Only.bind (safe_readAnn fun a ha => (hs s hsig).ret a ha) fun _ _ => Only.bind ?_ fun _ _ => Only.pure _
    generalize hl : ps.filter (fun p => p.name.rs ≠ c!"r#_") = l
    have hne : t.isConstructor = true ∨ t.isCallable = true → l ≠ [] := by
      intro ht
      obtain ⟨p, hp, h1, h2⟩ := hc ht s hsig
      obtain ⟨q, hq, hpq⟩ := traverse_mem' hps hp
      have : q ∈ l := by
        rw [← hl, List.mem_filter]
        refine ⟨hq, ?_⟩
        rw [parseParam_name hpq]
        simpa using fun he => (rs_underscore he).elim h1 h2
      exact List.ne_nil_of_mem this
    refine safe_dropReceiver fun ht => ?_
    obtain ⟨h1, h2⟩ := selfCheck_special ht
    exact fun he => hne h1 (h2.symm.trans he)

theorem safe_parseGetter {E : Env} {o : PyObj} (h : TameObj E o) : Safe (parseGetter E o) := by
  unfold parseGetter
  split
  · rename_i g hg
    dsimp only
    split
    · rename_i r hr
      exact Only.bind (safe_readAnn fun x hx => h.getter g x hg (hx ▸ hr)) fun _ _ => Only.bind (safe_readDoc _) fun _ _ => Only.pure _
    · exact Only.bind (safe_ownType h.own) fun _ _ => Only.bind (safe_readDoc _) fun _ _ => Only.pure _
  · exact Only.bind (safe_ownType h.own) fun _ _ => Only.pure _

theorem safe_parseSetter {E : Env} {o : PyObj} (h : TameObj E o) (d : Option Str) : Safe (parseSetter E o d) := by
  unfold parseSetter
  split
  · rename_i s hs
    dsimp only
    split
    · rename_i ps hps
      obtain ⟨r, v, rest, rfl, hv⟩ := h.setter s ps hs hps
      refine Only.bind (safe_ofOption (by simp)) fun x hx => ?_
      have : x = v := by simpa [Res.ofOption] using hx.symm
      subst this
      exact Only.bind (safe_readAnn hv) fun _ _ => Only.bind (safe_readDoc _) fun _ _ => Only.pure _
    · exact Only.bind (Only.ok _) fun _ _ => Only.bind (safe_readDoc _) fun _ _ => Only.pure _
  · exact Only.ok _

theorem safe_propertyParse {E : Env} {o : PyObj} (h : TameObj E o) (n : Path) (w : Owner) : Safe (Property.parse E o n w) := by
  unfold Property.parse
  split
  · exact Only.bind (safe_ownType h.own) fun _ _ => Only.pure _
  · exact Only.bind (safe_parseGetter h) fun _ _ => Only.bind (safe_parseSetter h _) fun _ _ => Only.pure _

theorem safe_determine {E : Env} {o : PyObj} (h : TameObj E o) (a w : Path) (b : Bool) : Safe (determine E o a w b) :=
  Only.bind (safe_of_ok ⟨(), (checkType_ok E o).mpr fun hd => ⟨h.typed hd, h.texts.1 hd⟩⟩) fun _ _ => Only.bind safe_orErr fun _ _ => Only.bind safe_orErr fun _ _ => Only.pure _

theorem safe_classParse {E : Env} (cfg : Config) {c : PyClass} (h : TameClass E c) (n : Path) : Safe (Class.parse E cfg c n) := by
  unfold Class.parse
  refine Only.bind ?_ fun _ _ => ?_
  · unfold Class.check
    refine Only.bind (safe_checkDir h.listed.1 h.listed.2) fun _ _ => safe_pathCheck fun s hs => ?_
    obtain ⟨o, ho, rfl⟩ := List.mem_map.mp hs
    obtain ⟨i, -, hi⟩ := List.mem_filterMap.mp ho
    exact (h.objs _ _ hi).texts.2.1
  refine Only.bind (Only.foldRes fun a m hm => ?_) fun _ _ => Only.bind (safe_readDoc _) fun _ _ => Only.pure _
  have hg : c.getattr m.1.asPy = some m.2 := by
    unfold Class.candidates at hm
    obtain ⟨i, -, hi⟩ := List.mem_filterMap.mp hm
    split at hi
    · cases hi
    · rename_i o ho
      split at hi
      · cases hi; exact ho
      · cases hi
  have ho := h.objs _ _ hg
  have hf : Safe (Function.parse E m.2.fn (n.join (Path.ofIdent m.1)) (.method n (methodTypeOf m.1))) := by
    refine safe_functionParse ho.sig fun ht sg hsg => h.special _ _ _ hg ?_ hsg
    unfold methodTypeOf at ht
    split at ht
    · exact Or.inl ‹_›
    · split at ht
      · exact Or.inr ‹_›
      · rcases ht with ht | ht <;> cases ht
  unfold Class.step
  refine Only.bind (safe_determine ho ..) fun v _ => ?_
  split
  · exact Only.bind hf fun _ _ => Only.pure _
  · exact Only.bind hf fun _ _ => Only.pure _
  · exact Only.bind (safe_propertyParse ho ..) fun _ _ => Only.pure _
  · exact Only.pure _

theorem safe_moduleStep {E : Env} (cfg : Config) (n : Path) (st : ParseState) {m : Ident × PyAttr} (ho : TameObj E m.2.obj)
    (hc : TameClass E m.2.cls) (hi : ':' ∉ m.1.asPy) : Safe (moduleStep E cfg n st m) := by
  have hf : ∀ {t : FnType}, t = .function ∨ t = .closure → Safe (Function.parse E m.2.obj.fn (n.join (Path.ofIdent m.1)) t) :=
    fun ht => safe_functionParse ho.sig fun h => by rcases ht with rfl | rfl <;> rcases h with h | h <;> cases h
  unfold moduleStep
  refine Only.bind (safe_determine ho ..) fun v _ => ?_
  split
  · refine Only.bind (safe_pathCheck_one ?_) fun _ _ => Only.pure _
    cases hn : m.2.obj.dunderName with
    | none => exact fun _ => noColons_of_colon hi
    | some n => exact ho.texts.2.2 n hn
  · exact Only.pure _
  · exact Only.bind (safe_classParse cfg hc _) fun _ _ => Only.pure _
  · exact Only.pure _
  · exact Only.bind (hf (Or.inl rfl)) fun _ _ => Only.pure _
  · exact Only.pure _
  · exact Only.bind (hf (Or.inr rfl)) fun _ _ => Only.pure _
  · exact Only.bind (safe_propertyParse ho ..) fun _ _ => Only.pure _

theorem safe_okOrDrop {α : Type} {r : Res α} (h : Safe r) : Safe (okOrDrop r) := by
  unfold okOrDrop
  split
  · exact Only.ok _
  · exact Only.ok _
  · obtain ⟨e, he⟩ := h.out _ rfl
    cases he


theorem safe_moduleParse {E : Env} {cfg : Config} {W : World} {top : Nat} (hF : Faithful E W) (hT : Tame E cfg W top) :
    ∀ (fuel id : Nat) (n : Str), Called W id n → top < (Str.splitChar '.' n).length + fuel →
      Safe (Module.parse E cfg W fuel id) := by
  intro fuel
  induction fuel with
  | zero =>
    intro id n hc hd
    have := hT.depth id n hc
    omega
  | succ fuel ih =>
    intro id n ⟨pm, hg, hn⟩ hd
    obtain ⟨segs, h1, h2, h3, -⟩ := faithful_name hF hg hn
    have hsplit := Str.splitChar_join h1 fun s hs => (h2 s hs).1.2.1
    have hdeep : ∀ t id', PyIdent E t → Called W id' (n ++ '.' :: t) → Safe (Module.parse E cfg W fuel id') := by
      intro t id' ht hc
      refine ih id' _ hc ?_
      rw [h3, ← join_snoc _ _ h1, Str.splitChar_join (by simp) fun s hs => ?_]
      · rw [h3, hsplit] at hd
        simp only [List.length_append, List.length_cons, List.length_nil]
        omega
      · rcases mem_snoc.mp hs with hs | rfl
        · exact (h2 s hs).1.2.1
        · exact ht.1.2.1
    unfold Module.parse
    rw [hg]
    refine Only.bind (Only.ok _) fun m hm => ?_
    cases Except.ok.inj hm
    rw [hn]
    refine Only.bind (Only.ok _) fun nm hnm => ?_
    cases Except.ok.inj hnm
    have hdir : E.debug = true → [] ∉ pm.dir := fun _ hm => (hF.attrs _ _ hg _ hm).1.1 rfl
    have hpaths : ∀ {l : List Ident} {s : Str}, s ∈ (l.filterMap (fun i => pm.getattr i.asPy)).map (fun a => a.obj.modPath) →
        NoColons E s := by
      intro l s hs
      obtain ⟨a, ha, rfl⟩ := List.mem_map.mp hs
      obtain ⟨i, -, hi⟩ := List.mem_filterMap.mp ha
      exact (hT.objs _ _ _ _ hg hi).1.texts.2.1
    refine Only.bind (safe_pathCheck_one fun _ => noColons_of_colon (h3 ▸ idents_colon fun s hs => (h2 s hs).2)) fun _ _ =>
      Only.bind (only_ifOn ?_) fun _ _ => ?_
    · unfold checkPrelude
      refine Only.bind (safe_identCheck fun hd hm => ?_) fun _ _ => Only.bind (safe_checkDir (hT.listed _ _ hg).1 hdir) fun _ _ =>
        only_ite (Only.ok _) (safe_pathCheck fun s hs => hpaths hs)
      cases ha : pm.all with
      | none => rw [ha] at hm; cases hm
      | some l => rw [ha] at hm; exact (hT.listed _ _ hg).2.2 hd l ha hm
    refine Only.bind (only_ifOn (Only.bind safe_orErr fun l hl => Only.bind (safe_identCheck fun _ hm =>
      (hF.listed _ _ _ hg (orErr_some hl) _ hm).1.1 rfl) fun _ _ => Only.pure _)) fun subs hsubs =>
      Only.bind (Only.bind (safe_checkDir (hT.listed _ _ hg).1 hdir) fun _ _ => safe_pathCheck fun s hs => hpaths hs) fun _ _ =>
      Only.bind ?_ fun st hst =>
      Only.bind (only_ifOn ?_) fun _ _ => Only.bind (safe_readDoc _) fun _ _ => Only.pure _
    · refine Only.foldRes fun st x hx => ?_
      obtain ⟨hx1, hx2, -⟩ := mem_candidates hx
      obtain ⟨ho, hc⟩ := hT.objs _ _ _ _ hg hx2
      refine safe_moduleStep cfg _ st ho hc ?_
      obtain ⟨s, hs, he⟩ := List.mem_map.mp hx1
      have := (hF.attrs _ _ hg s hs).2
      rw [← he, asPy_ident this]
      exact isIdent_colon this
    · refine Only.foldRes fun acc i hi => ?_
      have hi := (E.set_mem _ _).mp hi
      obtain ⟨t, ht, rfl, htext, hload⟩ := faithful_called hF hg hn hsubs hst hi
      unfold submoduleStep
      simp only
      split
      · split
        · exact Only.ok _
        · rename_i id' hid'
          have hc := hF.imported _ _ hid'
          have : Called W id' (n ++ '.' :: t) := by rw [← htext]; exact hc
          refine Only.bind (safe_okOrDrop (hdeep t id' ht this)) fun o _ => ?_
          split <;> exact Only.pure _
      · split
        · exact Only.ok _
        · rename_i id' hid'
          exact Only.bind (hdeep t id' ht (hload id' hid')) fun _ _ => Only.pure _

/-! ## Dependencies -/

theorem determine_import {E : Env} {o : PyObj} {p q : Path} {b : Bool} (h : determine E o p q b = .ok .import) :
    o.isModule = true ∨ o.isClass = true ∨ o.isFunction = some true ∨ o.isMethod = some true := by
  unfold determine at h
  obtain ⟨_, -, h⟩ := Res.bind_ok h
  obtain ⟨f, hf, h⟩ := Res.bind_ok h
  obtain ⟨g, hg, h⟩ := Res.bind_ok h
  have hf : o.isFunction = some f := by
    cases hx : o.isFunction with
    | none => rw [hx] at hf; cases hf
    | some x => rw [hx] at hf; cases hf; rfl
  have hg : o.isMethod = some g := by
    cases hx : o.isMethod with
    | none => rw [hx] at hg; cases hg
    | some x => rw [hx] at hg; cases hg; rfl
  have h := Except.ok.inj h
  split at h
  · rename_i hi
    simp only [Bool.and_eq_true, Bool.or_eq_true] at hi
    rcases hi.2.2 with ((h1 | h1) | h1) | h1
    · exact Or.inl h1
    · exact Or.inr (Or.inl h1)
    · exact Or.inr (Or.inr (Or.inl (by rw [hf, h1])))
    · exact Or.inr (Or.inr (Or.inr (by rw [hg, h1])))
  · repeat' split at h
    all_goals cases h

/-- The first segment of a path, read from its text. -/
theorem fromPy_head {E : Env} {s x : Str} (hx : PyIdent E x) (h : Str.beforeChar '.' s = x) :
    ∃ rest, (Path.fromPy E s).segs = Ident.fromPy E x :: rest := by
  subst h
  have hne : s ≠ [] := by
    rintro rfl
    exact hx.1.1 rfl
  have hdots : s.takeWhile (· == '.') = [] := by
    cases s with
    | nil => rfl
    | cons c s =>
      have : c ≠ '.' := by
        rintro rfl
        exact hx.1.1 (by simp [Str.beforeChar])
      simp [this]
  have hs : ∃ rest, Str.splitChar '.' s = Str.beforeChar '.' s :: rest := by
    clear hx hne hdots
    induction s with
    | nil => exact ⟨[], rfl⟩
    | cons c s ih =>
      by_cases hc : c = '.'
      · subst hc
        exact ⟨Str.splitChar '.' s, by rw [Str.splitChar_cons_sep]; simp [Str.beforeChar]⟩
      · obtain ⟨rest, hr⟩ := ih
        rw [Str.splitChar_cons_ne hc, hr]
        exact ⟨rest, by simp [Str.beforeChar, hc, Str.consHead]⟩
  obtain ⟨rest, hr⟩ := hs
  unfold Path.fromPy
  rw [if_neg hne, hdots, hr]
  simp only [List.length_nil, List.replicate_zero, List.nil_append]
  rw [List.filter_cons_of_pos (by simpa using hx.1.1)]
  exact ⟨_, rfl⟩

theorem importMod_ident {E : Env} {W : World} (hF : Faithful E W) {s : Str} {id : Nat} (hd : '.' ∉ s) (h : W.importMod s = some id) :
    PyIdent E s := by
  obtain ⟨m, hg, hn⟩ := hF.imported s id h
  obtain ⟨segs, h1, h2, h3⟩ := hF.names id m s hg hn
  match segs, h1 with
  | [x], _ => rw [h3]; exact h2 x (by simp)
  | x :: y :: l, _ =>
    rw [h3, Str.join_cons_cons] at hd
    exact absurd (by simp) hd

/-- The roots of the imports of parsed modules can be imported. -/
theorem parsed_roots {E : Env} {cfg : Config} {W : World} {top : Nat} (hF : Faithful E W) (hT : Tame E cfg W top)
    (hd : cfg.generateDependencies = true) {m : Module} (hm : Parsed E cfg W m) {i : Import} (hi : i ∈ m.imports) :
    ∃ x rest id, i.origin.segs = Ident.fromPy E x :: rest ∧ PyIdent E x ∧ W.importMod x = some id := by
  obtain ⟨_, _, hm⟩ := hm
  refine parse_all (Q := fun y => ∀ i, y = .import i →
    ∃ x rest id, i.origin.segs = Ident.fromPy E x :: rest ∧ PyIdent E x ∧ W.importMod x = some id) ?_ ?_ ?_ hm (.import i) hi i rfl
  · intro x t hx i hi
    cases x with
    | «import» j => cases hi; exact hx j rfl
    | _ => cases hi
  · intro i j hj
    cases hj
  · intro id pm name i a x hg hc hn j hj
    subst hj
    cases hn with
    | import' o ho h1 h2 hv =>
      obtain ⟨c1, c2, -⟩ := mem_candidates hc
      obtain ⟨s, hs, rfl⟩ := List.mem_map.mp c1
      have hps := hF.attrs _ _ hg s hs
      simp only [asPy_ident hps.2] at c2 ho
      have := hT.origins hd _ _ _ _ hg hs c2 (determine_import hv)
      obtain ⟨id', hid'⟩ := Option.ne_none_iff_exists'.mp this
      unfold originRoot at hid'
      have hx := importMod_ident hF (fun hc => by simpa using List.mem_takeWhile_imp hc) hid'
      simp only [Import.new, ho]
      split at hid'
      · rename_i he
        rw [if_pos he] at hx
        obtain ⟨rest, hr⟩ := fromPy_head hx rfl
        exact ⟨_, rest, id', by rw [Path.join, he, hr]; rfl, hx, hid'⟩
      · rename_i he
        rw [if_neg he] at hx
        obtain ⟨rest, hr⟩ := fromPy_head hx rfl
        exact ⟨_, rest ++ _, id', by rw [Path.join, hr]; rfl, hx, hid'⟩

theorem walkModules_get {E : Env} {cfg : Config} {W : World} {top : Nat} (hT : Tame E cfg W top) (l : List Ident) (id : Nat)
    (h : W.get? id ≠ none) : W.get? (walkModules W id l) ≠ none := by
  induction l generalizing id with
  | nil => exact h
  | cons i l ih =>
    unfold walkModules
    split
    · rename_i id' hid'
      refine ih id' ?_
      obtain ⟨m, hm, h1⟩ := Option.bind_eq_some_iff.mp hid'
      obtain ⟨a, ha, h2⟩ := Option.bind_eq_some_iff.mp h1
      exact hT.handles _ _ _ _ _ hm ha h2
    · exact h

theorem splitChar_pos (c : Char) (s : Str) : 0 < (Str.splitChar c s).length :=
  List.length_pos_iff.mpr (Str.splitChar_ne_nil c s)

theorem safe_parse {E : Env} {cfg : Config} {W : World} {fuel : Nat} (hF : Faithful E W) (hT : Tame E cfg W fuel) {id : Nat}
    (h : W.get? id ≠ none) : Safe (Module.parse E cfg W fuel id) := by
  obtain ⟨m, hm⟩ := Option.ne_none_iff_exists'.mp h
  obtain ⟨n, hn⟩ := Option.ne_none_iff_exists'.mp (hT.named _ _ hm)
  refine safe_moduleParse hF hT fuel id n ⟨m, hm, hn⟩ ?_
  have := splitChar_pos '.' n
  omega

theorem safe_dependencies {E : Env} {cfg : Config} {W : World} {fuel : Nat} (hF : Faithful E W) (hT : Tame E cfg W fuel)
    (hd : cfg.generateDependencies = true) {l : List Module} (hl : ∀ m ∈ l, Parsed E cfg W m) :
    Safe (parseDependencies E cfg W fuel l) := by
  unfold parseDependencies
  refine Only.bind (Only.foldRes fun st o ho => ?_) fun _ _ => Only.pure _
  obtain ⟨i, hi, rfl⟩ := List.mem_map.mp (mem_unique.mp ho)
  obtain ⟨⟨m, hm, hi⟩, -⟩ := externalImportsList_mem.mp hi
  obtain ⟨k, hk, hmk⟩ := inTree_mem hm
  obtain ⟨x, rest, id, h1, h2, h3⟩ := parsed_roots hF hT hd (parsed_inTree (hl k hk) hmk) hi
  have hid : ∃ id, lastModule W i.origin = .ok id ∧ W.get? id ≠ none := by
    have hx : Path.toPy ⟨i.origin.leadingColon, [Ident.fromPy E x]⟩ = x := by
      have := faithful_toPy E (segs := [x]) (by simp) (by simpa using h2)
      simpa [Path.toPy, Str.join] using this
    refine ⟨walkModules W id (i.origin.segs.drop 1), ?_, walkModules_get hT _ _ ?_⟩
    · unfold lastModule Path.root
      rw [h1]
      simp only
      rw [Res.ofOption, Res.ok_bind, hx, h3]
      rfl
    · obtain ⟨pm, hg, -⟩ := hF.imported _ _ h3
      rw [hg]; simp
  obtain ⟨id', hid', hg⟩ := hid
  obtain ⟨pm, hpm⟩ := Option.ne_none_iff_exists'.mp hg
  unfold depStep
  rw [hid', Res.ok_bind, hpm]
  refine Only.bind (Only.ok _) fun m hm => ?_
  cases Except.ok.inj hm
  refine Only.bind (safe_ofOption (hT.named _ _ hpm)) fun nm hnm => ?_
  have hnm : pm.name = some nm := by
    cases hx : pm.name with
    | none => rw [hx] at hnm; cases hnm
    | some x => rw [hx] at hnm; cases hnm; rfl
  refine only_ite (Only.pure _) (Only.bind (Only.bind (safe_identCheck fun _ hm => ?_) fun _ _ =>
    safe_pathCheck_one (hT.listed _ _ hpm).2.1) fun _ _ => only_ite (Only.bind (safe_parse hF hT hg) fun _ _ => Only.pure _) (Only.pure _))
  obtain ⟨segs, g1, g2, g3, -⟩ := faithful_name hF hpm hnm
  cases List.mem_singleton.mp hm
  match segs, g1 with
  | [a], _ => exact (g2 a (by simp)).1.1 g3.symm
  | a :: b :: l, _ =>
    rw [Str.join_cons_cons] at g3
    exact absurd g3.symm (by simp)

/-! ## Packages -/

theorem safe_wrap {E : Env} {cfg : Config} {W : World} {fuel : Nat} (hF : Faithful E W) (hT : Tame E cfg W fuel) {m : Module}
    (hm : Parsed E cfg W m) : Safe (m.wrap W) := by
  obtain ⟨f, id, hm⟩ := hm
  cases f with
  | zero => exact absurd hm parse_zero
  | succ f =>
    obtain ⟨p⟩ := parse_parts hm
    obtain ⟨segs, h1, h2, h3, h4⟩ := faithful_name hF p.get p.pmName
    have hn : m.name = ⟨false, segs.map (Ident.fromPy E)⟩ := p.name.trans h4
    unfold Module.wrap
    refine only_ite (Only.foldRes fun pkg i hi => ?_) (Only.ok _)
    have hi : i + 1 < segs.length := by
      have := List.mem_range.mp (List.mem_reverse.mp hi)
      rw [hn] at this
      simp only [List.length_map] at this
      omega
    have htext : (Path.ofSegs (m.name.segs.take (i + 1))).toPy = Str.join c!"." (segs.take (i + 1)) := by
      rw [hn, ← List.map_take]
      exact faithful_toPy E (fun he => by rcases List.take_eq_nil_iff.mp he with h | h <;> [omega; exact h1 h])
        fun s hs => h2 s (List.mem_of_mem_take hs)
    have hpre : (Str.join c!"." (segs.take (i + 1)) ++ c!".") <+: p.nm := by
      rw [h3]
      have hne : segs.take (i + 1) ≠ [] := fun he => by
        rcases List.take_eq_nil_iff.mp he with h | h <;> [omega; exact h1 h]
      rw [← List.take_append_drop (i + 1) segs, join_append _ (by simpa [List.take_append_drop] using hne)]
      rw [List.take_append_drop]
      cases hdr : segs.drop (i + 1) with
      | nil =>
        have := congrArg List.length hdr
        simp only [List.length_drop, List.length_nil] at this
        omega
      | cons y l =>
        rw [Str.join_cons_cons]
        exact ⟨_, rfl⟩
    obtain ⟨id', pm', g1, g2, g3⟩ := hT.packages id p.nm _ ⟨p.pm, p.get, p.pmName⟩ hpre
    obtain ⟨d, hd⟩ := Option.ne_none_iff_exists'.mp g3
    refine Only.bind ?_ fun _ _ => Only.pure _
    have : ∃ M, Module.empty W (Path.ofSegs (m.name.segs.take (i + 1))) = .ok M := by
      unfold Module.empty
      rw [htext, g1, Res.orErr, Res.ok_bind, g2, Res.ofOption, Res.ok_bind, readDoc, hd]
      exact ⟨_, rfl⟩
    obtain ⟨M, hM⟩ := this
    rw [hM]
    exact Only.ok _

/-- Preparing the modules does not panic. -/
theorem safe_prepare {E : Env} {W : World} {fuel : Nat} {c : Codegen} (hF : Faithful E W) (hT : Tame E c.cfg W fuel)
    (hp : ∀ m ∈ c.modules, Parsed E c.cfg W m) : Safe (c.prepare E W fuel) := by
  unfold Codegen.prepare
  refine Only.bind ?_ fun mods hmods => Only.bind (Only.bind (Only.traverse fun m hm => ?_) fun _ _ => Only.pure _) fun _ _ => Only.pure _
  · unfold ifOn
    split
    · exact safe_dependencies hF hT (by assumption) hp
    · exact Only.ok _
  · exact safe_wrap hF hT (withDeps_parsed hp hmods m hm)

end Bindgen

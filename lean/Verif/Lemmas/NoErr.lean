import Verif.Spec.Quiet
import Verif.Lemmas.NoPanicGen
/-! # Computations that do not report errors -/
namespace Bindgen
open Spec

/-- Not an error that is reported. -/
def IsPanic (f : Fail) : Prop := ∃ p, f = .panic p

/-- No error is reported. -/
abbrev NoErr {α : Type} (r : Res α) : Prop := Only IsPanic r

theorem noErr_ofOption {α : Type} {p : PanicSite} {o : Option α} : NoErr (Res.ofOption p o) := Only.ofOption fun _ => ⟨_, rfl⟩

theorem noErr_orErr {α : Type} {e : PyBindgenError} {o : Option α} (h : o ≠ none) : NoErr (Res.orErr e o) :=
  Only.orErr fun he => absurd he h

theorem noErr_of_ok {α : Type} {r : Res α} (h : ∃ a, r = .ok a) : NoErr r := by
  obtain ⟨a, rfl⟩ := h
  exact Only.ok _

/-- What neither panics nor reports an error returns a value. -/
theorem noErr_ok {α : Type} {r : Res α} (h1 : Safe r) (h2 : NoErr r) : ∃ a, r = .ok a := by
  cases r with
  | ok a => exact ⟨a, rfl⟩
  | error f =>
    obtain ⟨e, he⟩ := h1.out f rfl
    obtain ⟨p, hp⟩ := h2.out f rfl
    rw [he] at hp
    cases hp

theorem noErr_calm {α : Type} {r : Res α} (h : Calm r) : NoErr r := h.only fun _ _ => ⟨_, rfl⟩

theorem noErr_name (p : Path) : NoErr p.name := noErr_ofOption

theorem noErr_debugAssert (E : Env) (b : Bool) : NoErr (debugAssert E b) := by
  unfold debugAssert
  split
  · exact Only.error ⟨_, rfl⟩
  · exact Only.ok _

theorem noErr_identCheck (E : Env) (l : List Str) : NoErr (Ident.checkPy E l) := noErr_debugAssert ..

theorem noErr_pathCheck (E : Env) (l : List Str) : NoErr (Path.checkPy E l) := noErr_debugAssert ..

theorem noErr_checkDir (E : Env) (r : Bool) (l : List Str) : NoErr (checkDir E r l) := by
  unfold checkDir
  split
  · exact Only.error ⟨_, rfl⟩
  · exact noErr_identCheck ..

theorem noErr_readDoc {d : Option Str} (h : d ≠ none) : NoErr (readDoc d) := Only.bind (noErr_orErr h) fun _ _ => Only.pure _

/-! ## Parsing -/

theorem noErr_readAnn (E : Env) (a : Option PyAnn) : NoErr (readAnn E a) := by
  cases a with
  | none => exact Only.ok _
  | some a => exact noErr_calm (fromAnn_calm E a)

theorem noErr_ownType (E : Env) (o : PyObj) : NoErr (ownType E o) := by
  have := noErr_calm (fromAnn_calm E (.cls o.typeBases o.typeRepr))
  rw [fromAnn] at this
  exact this

theorem noErr_parseParam (E : Env) (p : PyParam) : NoErr (parseParam E p) := by
  unfold parseParam
  refine Only.bind (noErr_identCheck ..) fun _ _ => ?_
  dsimp only
  split
  · exact Only.bind (Only.ok _) fun _ _ => Only.pure _
  · exact Only.bind (Only.ok _) fun _ _ => Only.pure _
  · exact Only.bind (noErr_readAnn ..) fun _ _ => Only.pure _

theorem noErr_dropReceiver (t : FnType) (ps : List Param) : NoErr (dropReceiver t ps) := by
  unfold dropReceiver
  split
  · split
    · exact Only.error ⟨_, rfl⟩
    · exact Only.ok _
  · split
    · exact Only.error ⟨_, rfl⟩
    · exact Only.ok _
  · split
    · exact Only.error ⟨_, rfl⟩
    · exact Only.ok _
  · exact Only.ok _

theorem noErr_functionParse (E : Env) {f : PyFn} (hd : f.doc ≠ none) (n : Path) (t : FnType) : NoErr (Function.parse E f n t) := by
  unfold Function.parse
  refine Only.bind (noErr_readDoc hd) fun _ _ => ?_
  split
  · exact Only.pure _
  · exact Only.bind (Only.traverse fun _ _ => noErr_parseParam ..) fun _ _ => Only.bind (noErr_readAnn ..) fun _ _ =>
      Only.bind (noErr_dropReceiver ..) fun _ _ => Only.pure _

theorem noErr_parseGetter {E : Env} {o : PyObj} (h : QuietObj E o) : NoErr (parseGetter E o) := by
  unfold parseGetter
  split
  · rename_i g hg
    dsimp only
    split
    · exact Only.bind (noErr_readAnn ..) fun _ _ => Only.bind (noErr_readDoc (h.getter g hg)) fun _ _ => Only.pure _
    · exact Only.bind (noErr_ownType ..) fun _ _ => Only.bind (noErr_readDoc (h.getter g hg)) fun _ _ => Only.pure _
  · exact Only.bind (noErr_ownType ..) fun _ _ => Only.pure _

theorem noErr_parseSetter {E : Env} {o : PyObj} (h : QuietObj E o) (d : Option Str) : NoErr (parseSetter E o d) := by
  unfold parseSetter
  split
  · rename_i s hs
    dsimp only
    split
    · exact Only.bind noErr_ofOption fun _ _ => Only.bind (noErr_readAnn ..) fun _ _ =>
        Only.bind (noErr_readDoc (h.setter s hs)) fun _ _ => Only.pure _
    · exact Only.bind (Only.ok _) fun _ _ => Only.bind (noErr_readDoc (h.setter s hs)) fun _ _ => Only.pure _
  · exact Only.ok _

theorem noErr_propertyParse {E : Env} {o : PyObj} (h : QuietObj E o) (n : Path) (w : Owner) : NoErr (Property.parse E o n w) := by
  unfold Property.parse
  split
  · exact Only.bind (noErr_ownType ..) fun _ _ => Only.pure _
  · exact Only.bind (noErr_parseGetter h) fun _ _ => Only.bind (noErr_parseSetter h _) fun _ _ => Only.pure _

theorem noErr_determine {E : Env} {o : PyObj} (h : QuietObj E o) (a w : Path) (b : Bool) : NoErr (determine E o a w b) :=
  Only.bind (Only.bind (noErr_identCheck ..) fun _ _ => noErr_pathCheck ..) fun _ _ =>
    Only.bind (noErr_orErr h.kind.1) fun _ _ => Only.bind (noErr_orErr h.kind.2) fun _ _ => Only.pure _

theorem noErr_classParse {E : Env} (cfg : Config) {c : PyClass} (h : QuietClass E c) (n : Path) : NoErr (Class.parse E cfg c n) := by
  unfold Class.parse
  refine Only.bind (Only.bind (noErr_checkDir ..) fun _ _ => noErr_pathCheck ..) fun _ _ =>
    Only.bind (Only.foldRes fun a m hm => ?_) fun _ _ => Only.bind (noErr_readDoc h.doc) fun _ _ => Only.pure _
  have ho := h.objs _ _ (mem_candidates_iff.mp hm).2.1
  unfold Class.step
  refine Only.bind (noErr_determine ho ..) fun v _ => ?_
  split
  · exact Only.bind (noErr_functionParse _ ho.doc ..) fun _ _ => Only.pure _
  · exact Only.bind (noErr_functionParse _ ho.doc ..) fun _ _ => Only.pure _
  · exact Only.bind (noErr_propertyParse ho ..) fun _ _ => Only.pure _
  · exact Only.pure _

theorem noErr_moduleStep {E : Env} (cfg : Config) (n : Path) (st : ParseState) {m : Ident × PyAttr} (ho : QuietObj E m.2.obj)
    (hc : QuietClass E m.2.cls) : NoErr (moduleStep E cfg n st m) := by
  unfold moduleStep
  refine Only.bind (noErr_determine ho ..) fun v _ => ?_
  split
  · exact Only.bind (noErr_pathCheck ..) fun _ _ => Only.pure _
  · exact Only.pure _
  · exact Only.bind (noErr_classParse cfg hc _) fun _ _ => Only.pure _
  · exact Only.pure _
  · exact Only.bind (noErr_functionParse _ ho.doc ..) fun _ _ => Only.pure _
  · exact Only.pure _
  · exact Only.bind (noErr_functionParse _ ho.doc ..) fun _ _ => Only.pure _
  · exact Only.bind (noErr_propertyParse ho ..) fun _ _ => Only.pure _

theorem noErr_okOrDrop {α : Type} (r : Res α) : NoErr (okOrDrop r) := by
  unfold okOrDrop
  split
  · exact Only.ok _
  · exact Only.ok _
  · exact Only.error ⟨_, rfl⟩

theorem noErr_moduleParse {E : Env} {W : World} (cfg : Config) (hQ : Quiet E W) :
    ∀ fuel id : Nat, NoErr (Module.parse E cfg W fuel id) := by
  intro fuel
  induction fuel with
  | zero => exact fun _ => Only.error ⟨_, rfl⟩
  | succ fuel ih =>
    intro id
    unfold Module.parse
    refine Only.bind noErr_ofOption fun m hm => ?_
    have hg : W.get? id = some m := by
      cases hx : W.get? id with
      | none => rw [hx] at hm; cases hm
      | some x => rw [hx] at hm; cases hm; rfl
    refine Only.bind noErr_ofOption fun n _ => Only.bind (noErr_pathCheck ..) fun _ _ => Only.bind (only_ifOn ?_) fun _ _ =>
      Only.bind ?_ fun _ _ => Only.bind (Only.bind (noErr_checkDir ..) fun _ _ => noErr_pathCheck ..) fun _ _ =>
      Only.bind (Only.foldRes fun st x hx => ?_) fun _ _ => Only.bind (only_ifOn (Only.foldRes fun acc i _ => ?_)) fun _ _ =>
      Only.bind (noErr_readDoc (hQ.docs _ _ hg)) fun _ _ => Only.pure _
    · unfold checkPrelude
      exact Only.bind (noErr_identCheck ..) fun _ _ => Only.bind (noErr_checkDir ..) fun _ _ => only_ite (Only.ok _) (noErr_pathCheck ..)
    · unfold ifOn
      split
      · exact Only.bind (noErr_orErr (hQ.submodules _ _ hg (by assumption))) fun _ _ => Only.bind (noErr_identCheck ..) fun _ _ => Only.pure _
      · exact Only.ok _
    · obtain ⟨-, hx2, -⟩ := mem_candidates hx
      obtain ⟨ho, hc⟩ := hQ.objs _ _ _ _ hg hx2
      exact noErr_moduleStep cfg _ st ho hc
    · unfold submoduleStep
      simp only
      split
      · split
        · exact Only.ok _
        · refine Only.bind (noErr_okOrDrop _) fun o _ => ?_
          split <;> exact Only.pure _
      · split
        · exact Only.ok _
        · exact Only.bind (ih _) fun _ _ => Only.pure _

/-! ## Preparing the modules -/

theorem noErr_dependencies {E : Env} {W : World} (cfg : Config) (hQ : Quiet E W) (fuel : Nat) (l : List Module) :
    NoErr (parseDependencies E cfg W fuel l) := by
  unfold parseDependencies
  refine Only.bind (Only.foldRes fun st o ho => ?_) fun _ _ => Only.pure _
  unfold depStep
  refine Only.bind ?_ fun _ _ => Only.bind noErr_ofOption fun _ _ => Only.bind noErr_ofOption fun _ _ => only_ite (Only.pure _)
    (Only.bind (Only.bind (noErr_identCheck ..) fun _ _ => noErr_pathCheck ..) fun _ _ =>
      only_ite (Only.bind (noErr_moduleParse cfg hQ ..) fun _ _ => Only.pure _) (Only.pure _))
  unfold lastModule
  exact Only.bind noErr_ofOption fun _ _ => Only.bind noErr_ofOption fun _ _ => Only.pure _

theorem noErr_orUnreachable {α : Type} (r : Res α) : NoErr (orUnreachable r) := by
  cases r with
  | ok a => exact Only.ok _
  | error f =>
    cases f with
    | err e => exact Only.error ⟨_, rfl⟩
    | panic p => exact Only.error ⟨_, rfl⟩

theorem noErr_wrap (W : World) (m : Module) : NoErr (m.wrap W) := by
  unfold Module.wrap
  exact only_ite (Only.foldRes fun _ _ _ => Only.bind (noErr_orUnreachable _) fun _ _ => Only.pure _) (Only.ok _)

theorem noErr_prepare {E : Env} {W : World} (hQ : Quiet E W) (fuel : Nat) (c : Codegen) : NoErr (c.prepare E W fuel) := by
  unfold Codegen.prepare
  exact Only.bind (only_ifOn (noErr_dependencies _ hQ ..)) fun _ _ =>
    Only.bind (Only.bind (Only.traverse fun _ _ => noErr_wrap ..) fun _ _ => Only.pure _) fun _ _ => Only.pure _

/-! ## Generation -/

theorem noErr_mapType {E : Env} (lt : LocalTypes) (s : Str) : NoErr (mapType E lt s) := by
  unfold mapType
  split
  · exact Only.ok _
  · refine Only.bind (noErr_pathCheck ..) fun _ _ => ?_
    split
    · split
      · exact Only.ok _
      · exact Only.error ⟨_, rfl⟩
    · exact Only.ok _

mutual
theorem noErr_intoRs {E : Env} (lt : LocalTypes) (t : PyTy) : NoErr (intoRs E lt t) := by
  cases t with
  | other s => simp only [intoRs]; exact noErr_mapType ..
  | optional t => simp only [intoRs]; exact Only.bind (noErr_intoRs lt t) fun _ _ => Only.pure _
  | dict k v =>
    simp only [intoRs]
    refine Only.bind (noErr_intoRs lt v) fun _ _ => ?_
    split
    · exact Only.bind (noErr_intoRs lt k) fun _ _ => Only.pure _
    · exact Only.pure _
  | frozenSet t =>
    simp only [intoRs]
    split
    · exact Only.bind (noErr_intoRs lt t) fun _ _ => Only.pure _
    · exact Only.ok _
  | set t =>
    simp only [intoRs]
    split
    · exact Only.bind (noErr_intoRs lt t) fun _ _ => Only.pure _
    · exact Only.ok _
  | list t => simp only [intoRs]; exact Only.bind (noErr_intoRs lt t) fun _ _ => Only.pure _
  | tuple ts =>
    match ts with
    | [] => simp only [intoRs]; exact Only.ok _
    | [_] => simp only [intoRs]; exact Only.ok _
    | [t, u] =>
      simp only [intoRs]
      split
      · exact Only.bind (noErr_intoRs lt t) fun _ _ => Only.pure _
      · exact Only.bind (noErr_intoRs lt t) fun _ _ => Only.bind (noErr_intoRs lt u) fun _ _ => Only.pure _
    | t :: u :: w :: ts =>
      simp only [intoRs]
      exact Only.bind (noErr_intoRs lt t) fun _ _ => Only.bind (noErr_intoRs lt u) fun _ _ => Only.bind (noErr_intoRs lt w) fun _ _ =>
        Only.bind (noErr_intoRsList lt ts) fun _ _ => Only.pure _
  | _ => simp only [intoRs]; exact Only.ok _
theorem noErr_intoRsList {E : Env} (lt : LocalTypes) (ts : List PyTy) : NoErr (intoRsList E lt ts) := by
  match ts with
  | [] => simp only [intoRsList]; exact Only.ok _
  | t :: ts =>
    simp only [intoRsList]
    exact Only.bind (noErr_intoRs lt t) fun _ _ => Only.bind (noErr_intoRsList lt ts) fun _ _ => Only.pure _
end

theorem noErr_owned {E : Env} (lt : LocalTypes) (t : PyTy) : NoErr (intoRsOwned E lt t) :=
  Only.bind (noErr_intoRs ..) fun _ _ => Only.pure _

theorem noErr_borrowed {E : Env} (lt : LocalTypes) (t : PyTy) : NoErr (intoRsBorrowed E lt t) :=
  Only.bind (noErr_intoRs ..) fun _ _ => Only.pure _

theorem noErr_dictConv {E : Env} (lt : LocalTypes) (k v : PyTy) : NoErr (dictNeedsConversion E lt k v) := by
  unfold dictNeedsConversion
  split
  · exact Only.ok _
  · exact Only.bind (noErr_intoRs ..) fun _ _ => Only.pure _

theorem noErr_preprocess {E : Env} (lt : LocalTypes) (t : PyTy) : NoErr (preprocess E lt t) := by
  cases t with
  | other n =>
    simp only [preprocess]
    split
    · exact Only.ok _
    · exact Only.bind (noErr_pathCheck ..) fun _ _ => Only.pure _
  | dict k v => exact Only.bind (noErr_dictConv ..) fun _ _ => Only.pure _
  | optional t =>
    cases t with
    | dict k v => exact Only.bind (noErr_dictConv ..) fun _ _ => Only.pure _
    | _ => exact Only.ok _
  | _ => exact Only.ok _

theorem noErr_importQuote (imp : Str → Bool) (p : Path) : NoErr (p.importQuote imp) := by
  unfold Path.importQuote
  split
  · exact Only.error ⟨_, rfl⟩
  · exact Only.ok _

theorem noErr_dispatcher (imp : Str → Bool) (n : Path) (t : FnType) : NoErr (dispatcher imp n t) := by
  have hq : NoErr (do return some (← (← Res.ofOption .unreachable n.parent).importQuote imp)) :=
    Only.bind noErr_ofOption fun _ _ => Only.bind (noErr_importQuote ..) fun _ _ => Only.pure _
  cases t with
  | method c m =>
    cases m <;> simp only [dispatcher] <;> first
      | exact Only.ok _
      | exact Only.bind (noErr_importQuote ..) fun _ _ => Only.pure _
  | _ => exact hq

/-- The name that the search finds can be spelled. -/
theorem noErr_fresh {E : Env} {b : Str} (hb : IsIdent E b) (hk : ∀ i, helperName b i ∉ unspellable) (l : List Ident) :
    NoErr (do (← fresh E b l).trySyn E) := by
  obtain ⟨i, hi, -⟩ := C28_search E hb l
  rw [hi]
  refine noErr_orErr ?_
  rw [toSyn_ident (helper_isIdent E hb i), if_neg (hk i)]
  split <;> nofun

theorem helper_spelled {b : Str} (hb : ∃ r, b = 'c' :: 'a' :: r ∨ b = 'n' :: r) (i : Nat) : helperName b i ∉ unspellable := by
  obtain ⟨r, rfl | rfl⟩ := hb <;> simp [helperName, unspellable]

theorem noErr_contract (E : Env) (t : FnType) (i : Str) (tk : List Ident) (ps : List (Str × RsTy)) (r : RsTy) :
    NoErr (Function.contract E t i tk ps r) := by
  have key : ∀ {b : Str} {g : Str → Res Sig}, isIdentText (Env.ascii true false) b = true → (∀ c ∈ b, c.toNat < 128) →
      (∃ r, b = 'c' :: 'a' :: r ∨ b = 'n' :: r) → (∀ s, NoErr (g s)) → NoErr (do g (← (← fresh E b tk).trySyn E)) := by
    intro b g h1 h2 h3 h4
    have := Only.bind (noErr_fresh (isIdent_ascii E b h1 h2) (helper_spelled h3) tk) fun s _ => h4 s
    simpa only [bind_assoc] using this
  unfold Function.contract
  split
  · exact Only.ok _
  · exact key (by decide) (by decide) ⟨_, Or.inl rfl⟩ fun _ => Only.pure _
  · exact key (by decide) (by decide) ⟨_, Or.inr rfl⟩ fun _ => Only.pure _
  · exact Only.ok _

/-- The parameters have names that are identifiers. -/
def NamedParams (E : Env) (f : Function) : Prop := ∀ p ∈ f.params, IsIdent E p.name.asPy

theorem noErr_paramIdent {E : Env} {p : Param} (h : IsIdent E p.name.asPy) : NoErr (paramIdent E p) :=
  noErr_of_ok ⟨_, paramIdent_eq h⟩

theorem noErr_functionGenerate {E : Env} (cfg : Config) (imp : Str → Bool) (tk : List Ident) (lt : LocalTypes)
    {f : Function} (hf : NamedParams E f) : NoErr (Function.generate E cfg imp tk lt f) := by
  unfold Function.generate
  refine Only.bind (noErr_name _) fun n _ => ?_
  split
  · exact Only.pure _
  · refine Only.bind (Only.traverse fun p hp => noErr_paramIdent (hf p hp)) fun _ _ =>
      Only.bind (Only.traverse fun p hp => noErr_preprocess ..) fun _ _ =>
      Only.bind (Only.traverse fun p hp => noErr_borrowed ..) fun _ _ =>
      Only.bind (noErr_owned ..) fun _ _ => Only.bind (noErr_contract ..) fun _ _ =>
      Only.bind (noErr_dispatcher ..) fun d _ => ?_
    split
    · exact Only.pure _
    · exact Only.bind (Only.bind (Only.traverse fun p hp => noErr_paramIdent (hf p (List.mem_of_mem_filter hp))) fun _ _ => Only.pure _) fun _ _ =>
        Only.bind (Only.bind (Only.traverse fun p hp => noErr_paramIdent (hf p (List.mem_of_mem_filter hp))) fun _ _ => Only.pure _) fun _ _ =>
        Only.pure _

/-- The last segment of the path is the name of a Python identifier. -/
def NamedPath (E : Env) (p : Path) : Prop := ∀ i, p.name = .ok i → ∃ t, IsIdent E t ∧ i = Ident.fromPy E t

theorem noErr_prefixed {E : Env} {pre s : Str} (hs : IsIdent E s) (hp : pre = c!"get_" ∨ pre = c!"set_") :
    NoErr ((Ident.fromPy E (pre ++ s)).trySyn E) := by
  have hcont : ∀ x ∈ s, E.xidContinue x = true := by
    obtain ⟨c, cs, rfl, h1, h2⟩ := hs
    intro x hx
    rcases List.mem_cons.mp hx with rfl | hx
    · rcases h1 with rfl | h1
      · rw [E.xidContinue_ascii _ (by decide)]; decide
      · exact E.start_continue _ h1
    · exact h2 x hx
  have hpre : IsIdent E pre := by rcases hp with rfl | rfl <;> exact isIdent_ascii E _ (by decide) (by decide)
  refine noErr_orErr ?_
  rw [toSyn_ident (isIdent_append hpre hcont), if_neg (by rcases hp with rfl | rfl <;> simp [unspellable])]
  split <;> nofun

theorem noErr_getterIdent {E : Env} (tk : List Ident) {s : Str} (hs : IsIdent E s) : NoErr (getterIdent E tk (Ident.fromPy E s)) := by
  have h : NoErr (getterFallback E tk (Ident.fromPy E s)) := by
    unfold getterFallback
    simp only
    split
    · exact Only.ok _
    · rw [asPy_ident hs]
      exact Only.bind (noErr_prefixed hs (Or.inl rfl)) fun _ _ => Only.pure _
  unfold getterIdent
  split
  · split
    · exact h
    · exact Only.ok _
  · exact h

theorem noErr_setterIdent {E : Env} (tk : List Ident) {s : Str} (hs : IsIdent E s) : NoErr (setterIdent E tk (Ident.fromPy E s)) := by
  unfold setterIdent
  simp only
  split
  · exact Only.ok _
  · rw [asPy_ident hs]
    exact Only.bind (noErr_prefixed hs (Or.inr rfl)) fun _ _ => Only.pure _

theorem noErr_target (imp : Str → Bool) (p : Property) : NoErr (p.target imp) := by
  unfold Property.target
  split
  · exact Only.bind noErr_ofOption fun _ _ => noErr_importQuote ..
  · exact Only.ok _

theorem noErr_propertyGenerate {E : Env} (cfg : Config) (imp : Str → Bool) (tk : List Ident) (lt : LocalTypes)
    {p : Property} (hp : NamedPath E p.name) : NoErr (Property.generate E cfg imp tk lt p) := by
  unfold Property.generate
  refine Only.bind ?_ fun _ _ => ?_
  · unfold Property.generateGetter
    refine Only.bind (noErr_name _) fun n hn => ?_
    obtain ⟨t, ht, rfl⟩ := hp n hn
    refine Only.bind (noErr_getterIdent _ ht) fun o _ => ?_
    split
    · exact Only.pure _
    · exact Only.bind (noErr_owned ..) fun _ _ => Only.bind (noErr_target ..) fun _ _ => Only.pure _
  · split
    · refine Only.bind ?_ fun _ _ => Only.pure _
      unfold Property.generateSetter
      refine Only.bind (noErr_name _) fun n hn => ?_
      obtain ⟨t, ht, rfl⟩ := hp n hn
      refine Only.bind (noErr_setterIdent _ ht) fun o _ => ?_
      split
      · exact Only.pure _
      · exact Only.bind (noErr_preprocess ..) fun _ _ => Only.bind (noErr_borrowed ..) fun _ _ =>
          Only.bind (noErr_target ..) fun _ _ => Only.pure _
    · exact Only.pure _

/-- The last segment of the path can be spelled. -/
def SpelledPath (E : Env) (p : Path) : Prop := ∀ i, p.name = .ok i → ∃ t, IsIdent E t ∧ t ∉ unspellable ∧ i = Ident.fromPy E t

theorem SpelledPath.named {E : Env} {p : Path} (h : SpelledPath E p) : NamedPath E p := fun i hi => by
  obtain ⟨t, h1, -, h2⟩ := h i hi
  exact ⟨t, h1, h2⟩

theorem SpelledPath.syn {E : Env} {p : Path} (h : SpelledPath E p) {i : Ident} (hi : p.name = .ok i) : i.toSyn E ≠ none := by
  obtain ⟨t, h1, h2, rfl⟩ := h i hi
  rw [toSyn_ident h1, if_neg h2]
  split <;> nofun

theorem TypePath.spelled {E : Env} {p : Path} (h : TypePath E p) : SpelledPath E p := fun i hi => by
  obtain ⟨t, h1, h2, h3⟩ := h.2.1 i (List.mem_of_getLast? (path_name_last hi))
  exact ⟨t, h1.2, h2, h3⟩

/-- The parts of a class can be spelled. -/
structure ClassNamed (E : Env) (c : Class) : Prop where
  name : SpelledPath E c.name
  methods : ∀ f ∈ c.methods, NamedParams E f
  properties : ∀ p ∈ c.properties, NamedPath E p.name

theorem noErr_trait {E : Env} {t i : Str} (ht : IsIdent E t) (hu : t ∉ unspellable) (h : Class.ident E (Ident.fromPy E t) = some i) :
    NoErr ((Ident.fromPy E (i ++ c!"Methods")).trySyn E) := by
  have hm : IsIdent E (t ++ c!"Methods") := isIdent_append ht (by
    intro x hx
    rw [E.xidContinue_ascii x ((by decide : ∀ x ∈ c!"Methods", x.toNat < 128) x hx)]
    revert x
    decide)
  have hlen : ∀ l : List Str, (∀ s ∈ l, s.length < 7) → t ++ c!"Methods" ∉ l := by
    intro l hl hmem
    have := hl _ hmem
    simp at this
    omega
  have hmu : t ++ c!"Methods" ∉ unspellable := hlen _ (by decide)
  refine noErr_orErr ?_
  have hi : i = t ∨ i = c!"r#" ++ t := by
    unfold Class.ident at h
    rw [toSyn_ident ht, if_neg hu] at h
    by_cases hk : t ∈ keywords
    · rw [if_pos hk] at h
      exact Or.inr (Option.some.inj h).symm
    · rw [if_neg hk] at h
      exact Or.inl (Option.some.inj h).symm
  rcases hi with rfl | rfl
  · rw [toSyn_ident hm, if_neg hmu]
    split <;> nofun
  · have hr : synIdent E (c!"r#" ++ (t ++ c!"Methods")) = some (c!"r#" ++ (t ++ c!"Methods")) := by
      rw [synIdent_raw hm, if_neg (by simpa using hlen rawReserved (by decide))]
    rw [List.append_assoc, Ident.toSyn, Ident.fromPy, Ident.pyToRs, hr, Option.isSome_some, if_pos rfl, hr]
    nofun

theorem noErr_classGenerate {E : Env} (cfg : Config) (imp : Str → Bool) (lt : LocalTypes) {c : Class}
    (hc : ClassNamed E c) : NoErr (Class.generate E cfg imp lt c) := by
  unfold Class.generate
  refine Only.bind (noErr_name _) fun n hn => ?_
  obtain ⟨t, h1, h2, rfl⟩ := hc.name n hn
  split
  · exact Only.pure _
  · rename_i hid
    exact Only.bind (Only.traverse fun f hf => noErr_name _) fun _ _ =>
      Only.bind (Only.traverse fun f hf => noErr_functionGenerate cfg imp _ lt (hc.methods f hf)) fun _ _ =>
      Only.bind (Only.traverse fun p hp => noErr_propertyGenerate cfg imp _ lt (hc.properties p hp)) fun _ _ =>
      Only.bind (noErr_trait h1 h2 hid) fun _ _ => Only.pure _

theorem noErr_relativeTo (a b : Path) (f : Bool) : NoErr (a.relativeTo b f) := by
  unfold Path.relativeTo
  simp only
  split
  · split
    · exact Only.bind (noErr_name _) fun _ _ => Only.pure _
    · exact Only.pure _
  · split
    · exact Only.bind (noErr_name _) fun _ _ => Only.pure _
    · exact Only.pure _

theorem noErr_importGenerate {E : Env} {i : Import} (h : SpelledPath E i.target) : NoErr (i.generate E) := by
  unfold Import.generate
  refine only_ite (Only.ok _) (only_ite (Only.ok _) (Only.bind (noErr_relativeTo ..) fun _ _ => only_ite
    (Only.bind (noErr_name _) fun _ _ => Only.bind (noErr_name _) fun t ht => only_ite (Only.pure _) ?_) (Only.pure _)))
  exact Only.bind (noErr_orErr (h.syn ht)) fun _ _ => Only.pure _

theorem noErr_typeVarGenerate {E : Env} {t : TypeVar} (h : SpelledPath E t.name) : NoErr (t.generate E) :=
  Only.bind (noErr_name _) fun _ ht => Only.bind (noErr_orErr (h.syn ht)) fun _ _ => Only.pure _

theorem noErr_importedPath (E : Env) (i : Import) (p : Path) : NoErr (importedPath E i p) := by
  unfold importedPath
  split
  · refine Only.bind (noErr_pathCheck ..) fun _ _ => ?_
    split
    · exact Only.error ⟨_, rfl⟩
    · exact Only.bind (noErr_name _) fun _ _ => Only.pure _
  · exact Only.bind (noErr_name _) fun _ _ => Only.pure _

theorem noErr_localTypes (E : Env) (ts : List Path) (n : Path) (is : List Import) : NoErr (Module.localTypes E ts n is) :=
  Only.bind (Only.traverse fun _ _ => Only.bind (noErr_relativeTo ..) fun _ _ => Only.pure _) fun _ _ =>
    Only.bind (Only.traverse fun _ _ => Only.traverse fun _ _ => Only.bind (noErr_importedPath ..) fun _ _ =>
      Only.bind (noErr_relativeTo ..) fun _ _ => Only.pure _) fun _ _ => Only.pure _

/-- Everything that a module defines can be spelled. -/
structure ModuleNamed (E : Env) (m : Module) : Prop where
  name : SpelledPath E m.name
  imports : ∀ i ∈ m.imports, SpelledPath E i.target
  classes : ∀ c ∈ m.classes, ClassNamed E c
  typeVars : ∀ t ∈ m.typeVars, SpelledPath E t.name
  functions : ∀ f ∈ m.functions, NamedParams E f
  properties : ∀ p ∈ m.properties, NamedPath E p.name

theorem noErr_moduleFns (r : FnImpl) : NoErr (moduleFns r) := by
  cases r with
  | func fns => exact Only.ok _
  | method a b => exact Only.error ⟨_, rfl⟩

theorem noErr_moduleProps (o : Owner) (l : List (Option Fn)) : NoErr (moduleProps o l) := by
  cases o with
  | module => exact Only.ok _
  | «class» => exact Only.error ⟨_, rfl⟩

theorem noErr_content {E : Env} (cfg : Config) (imp : Str → Bool) (tops : List Module) (ts : List Path)
    {m : Module} (h : ModuleNamed E m) : NoErr (m.content E cfg imp tops ts) := by
  unfold Module.content
  exact Only.bind (Only.traverse fun f hf => noErr_name _) fun _ _ =>
    Only.bind (noErr_localTypes ..) fun lt hlt =>
    Only.bind (only_ifOn (Only.traverse fun i hi => noErr_importGenerate (h.imports i (List.mem_of_mem_filter hi)))) fun _ _ =>
    Only.bind (only_ifOn (noErr_okOrDrop _)) fun _ _ =>
    Only.bind (only_ifOn (Only.traverse fun t ht => noErr_typeVarGenerate (h.typeVars t ht))) fun _ _ =>
    Only.bind (only_ifOn (Only.traverse fun c hc => noErr_classGenerate cfg imp lt (h.classes c hc))) fun _ _ =>
    Only.bind (only_ifOn (Only.traverse fun f hf => Only.bind (noErr_functionGenerate cfg imp _ lt (h.functions f hf)) fun _ _ =>
      noErr_moduleFns _)) fun _ _ =>
    Only.bind (only_ifOn (Only.traverse fun p hp => Only.bind (noErr_propertyGenerate cfg imp _ lt (h.properties p hp)) fun _ _ =>
      noErr_moduleProps ..)) fun _ _ => Only.pure _

mutual
theorem noErr_generate {E : Env} (cfg : Config) (imp : Str → Bool) (tops : List Module) (ts : List Path) (m : Module)
    (h : ∀ x, InTree x [m] → ModuleNamed E x) : NoErr (Module.generate E cfg imp tops ts m) := by
  match m with
  | ⟨name, prelude, imports, subs, cs, tvs, fs, ps, doc, pkg, src⟩ =>
    simp only [Module.generate]
    have hm := h _ (.top (List.mem_singleton.mpr rfl))
    exact Only.bind (noErr_content cfg imp tops ts hm) fun _ _ =>
      Only.bind (only_ifOn (noErr_generateList cfg imp tops ts subs fun x hx => h x (.sub (List.mem_singleton.mpr rfl) hx))) fun _ _ =>
      Only.bind (noErr_name _) fun _ hn => Only.bind (noErr_orErr (hm.name.syn hn)) fun _ _ => Only.pure _
theorem noErr_generateList {E : Env} (cfg : Config) (imp : Str → Bool) (tops : List Module) (ts : List Path) (l : List Module)
    (h : ∀ x, InTree x l → ModuleNamed E x) : NoErr (Module.generateList E cfg imp tops ts l) := by
  match l with
  | [] => simp only [Module.generateList]; exact Only.ok _
  | m :: l =>
    simp only [Module.generateList]
    exact Only.bind (noErr_generate cfg imp tops ts m fun x hx => h x (inTree_mono (by simp) hx)) fun _ _ =>
      Only.bind (noErr_generateList cfg imp tops ts l fun x hx => h x (inTree_mono (fun y hy => by simp [hy]) hx)) fun _ _ => Only.pure _
end

end Bindgen

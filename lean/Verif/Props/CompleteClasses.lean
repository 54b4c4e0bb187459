import Verif.Props.Complete
import Verif.Props.Classes
import Verif.Props.Panics
/-!
# C69 for classes and type variables
-/
namespace Bindgen
open Spec

/-- The name of the Rust type for a Python class: five names cannot be spelled, they have `s_` in front. -/
def Spec.rustClass (s : Str) : Str := if s ∈ unspellable then c!"s_" ++ s else s

theorem class_ident {E : Env} {n : Str} (hid : IsIdent E n) :
    ∃ t, Class.ident E (Ident.fromPy E n) = some t ∧ unraw t = rustClass n := by
  unfold rustClass
  by_cases hs : n ∈ unspellable
  · have hf : IsIdent E (c!"s_" ++ n) := isIdent_prefix (isIdent_ascii E _ (by decide) (by decide)) hid
    have hnu : c!"s_" ++ n ∉ unspellable := by simp [unspellable]
    obtain ⟨t, ht, hu⟩ := spelled hf hnu
    refine ⟨t, ?_, by rw [if_pos hs]; exact hu⟩
    have hsan : sanitize E c!"s_" (Ident.fromPy E n) = Ident.fromPy E (c!"s_" ++ n) := by
      unfold sanitize
      rw [asPy_ident hid]
      congr 2
      conv_rhs => rw [← List.map_id n]
      refine List.map_congr_left fun x hx => ?_
      have hx : x.toNat < 128 ∧ (asciiLetter x || asciiDigit x) = true ∨ x = '_' := by
        simp only [unspellable, List.mem_cons, List.not_mem_nil, or_false] at hs
        revert x hx
        rcases hs with rfl | rfl | rfl | rfl | rfl <;> decide
      rcases hx with ⟨h1, h2⟩ | rfl
      · rw [E.alnum_ascii x h1, h2]; rfl
      · split <;> rfl
    unfold Class.ident
    rw [toSyn_ident hid, if_pos hs]
    simp only
    rw [hsan, ht]
  · obtain ⟨t, ht, hu⟩ := spelled hid hs
    refine ⟨t, ?_, by rw [if_neg hs]; exact hu⟩
    unfold Class.ident
    rw [ht]

theorem content_classItem {E : Env} {cfg : Config} {imp : Str → Bool} {tops : List Module} {ts : List Path} {m : Module}
    {out : List Item} (h : m.content E cfg imp tops ts = .ok out) (hc : cfg.generateClasses = true) {c : Class}
    (hcm : c ∈ m.classes) {n : Str} (hid : IsIdent E n) (hl : c.name.segs.getLast? = some (Ident.fromPy E n)) :
    ∃ lt k, c.generate E cfg imp lt = .ok (some k) ∧ .class k ∈ out ∧ unraw k.name = rustClass n := by
  obtain ⟨p⟩ := content_parts h
  have := p.classesOk
  rw [hc] at this
  obtain ⟨o, ho, hg⟩ := traverse_mem' this hcm
  obtain ⟨t, hci, hu⟩ := class_ident hid
  cases o with
  | none =>
    unfold Class.generate at hg
    rw [name_ok hl, Res.ok_bind, hci] at hg
    simp only at hg
    obtain ⟨_, -, hg⟩ := Res.bind_ok hg
    obtain ⟨_, -, hg⟩ := Res.bind_ok hg
    obtain ⟨_, -, hg⟩ := Res.bind_ok hg
    obtain ⟨_, -, hg⟩ := Res.bind_ok hg
    cases hg
  | some k =>
    refine ⟨_, k, hg, ?_, ?_⟩
    · rw [p.content]
      simp only [List.mem_append, List.mem_map, List.mem_filterMap]
      exact Or.inl (Or.inl (Or.inr ⟨k, ⟨some k, ho, rfl⟩, rfl⟩))
    · obtain ⟨name, ident, -, -, -, h1, h2, -, -, -, -, h3, h4, -⟩ := class_generate hg
      rw [name_ok hl] at h1
      cases h1
      rw [hci] at h2
      cases h2
      exact h3 ▸ hu

theorem determine_member {E : Env} {o : PyObj} {p q : Path} {v : Variant} (ho : PlainVariable o)
    (h : determine E o p q false = .ok v) : v = .property := by
  obtain ⟨⟨h1, h2, h3, h4, h5⟩, segs, k2, k3, k4, k5⟩ := ho
  have hr : (Path.fromPy E o.typeModule).toPy = o.typeModule := DottedName.roundtrip E (Or.inr ⟨segs, k2, k3, k4⟩)
  unfold determine at h
  obtain ⟨_, -, h⟩ := Res.bind_ok h
  obtain ⟨f, hf, h⟩ := Res.bind_ok h
  obtain ⟨g, hg, h⟩ := Res.bind_ok h
  have hf : f = false := by
    cases hx : o.isFunction with
    | none => rw [hx] at hf; cases hf
    | some x => rw [hx] at hf h4; cases hf; simpa using h4
  have hg : g = false := by
    cases hx : o.isMethod with
    | none => rw [hx] at hg; cases hg
    | some x => rw [hx] at hg h5; cases hg; simpa using h5
  subst hf hg
  simp only [h1, h2, h3, hr, Res.pure_eq, Except.ok.injEq] at h
  rw [← h]
  have e1 : o.typeModule ≠ c!"functools" := fun hx => k5 (by rw [hx]; simp)
  have e2 : o.typeModule ≠ c!"typing" := fun hx => k5 (by rw [hx]; simp)
  have e3 : o.typeModule ≠ c!"types" := fun hx => k5 (by rw [hx]; simp)
  simp [e1, e2, e3]

/-- The kinds of methods that a signature leads to. -/
theorem method_kinds {E : Env} {name c : Path} {pf : PyFn} {sg : PySig}
    (hs : pf.sig = some sg) (hne : pf.dictKind = some .other → ∃ p ∈ sg.params, IsIdent E p.name ∧ p.name ≠ c!"_") {f : Function}
    (hp : Function.parse E pf name (.method c .unknown) = .ok f) :
    (f.typ = .method c .instanceMethod ∨ f.typ = .method c .classMethod ∨ f.typ = .method c .staticMethod) ∧
      (sg.params = [] → f.typ ≠ .method c .instanceMethod) := by
  obtain ⟨ps, typ2, ps2, hps, hsc, -, htyp, -⟩ := parse_sig hs hp
  have hnil : sg.params = [] → ps.filter (fun p => p.name.rs ≠ c!"r#_") = [] := by
    intro h
    rw [h] at hps
    cases hps
    rfl
  have hemp : pf.dictKind = some .other → (ps.filter (fun p => p.name.rs ≠ c!"r#_")).isEmpty = false := by
    intro hd
    obtain ⟨p, hpm, hpi, hpn⟩ := hne hd
    obtain ⟨g, rfl, hgo⟩ := parseParams_ok hps
    have hk : (g p).name.rs ≠ c!"r#_" := by
      intro hx
      rw [(parseParam_ok (hgo p hpm)).1] at hx
      exact hpn ((fromPy_rs_iff hpi (k := c!"_") (by decide)).mp hx)
    have : g p ∈ (sg.params.map g).filter (fun p => p.name.rs ≠ c!"r#_") :=
      List.mem_filter.mpr ⟨List.mem_map_of_mem hpm, by simpa using hk⟩
    cases hl : (sg.params.map g).filter (fun p => p.name.rs ≠ c!"r#_") with
    | nil => rw [hl] at this; cases this
    | cons a l => rfl
  generalize ps.filter (fun p => p.name.rs ≠ c!"r#_") = us at hsc hemp hnil
  have hself : ∀ k, k = MethodType.classMethod ∨ k = .staticMethod →
      inferMethod (.method c .unknown) pf.dictKind = .method c k →
      (f.typ = .method c .instanceMethod ∧ us ≠ []) ∨ f.typ = .method c k := by
    intro k hk hi
    rw [hi] at hsc
    have hsc : (if firstIsSelf us then ((.method c .instanceMethod, us) : FnType × List Param)
        else (.method c k, us)) = (typ2, ps2) := by
      rcases hk with rfl | rfl <;> exact hsc
    split at hsc
    · rename_i hfs
      cases hsc
      left
      rw [htyp]
      cases ps2 with
      | nil => cases hfs
      | cons a l => exact ⟨rfl, by simp⟩
    · cases hsc
      right
      rw [htyp]
      rcases hk with rfl | rfl <;> rfl
  cases hd : pf.dictKind with
  | none => rcases hself .staticMethod (Or.inr rfl) (by rw [hd]; rfl) with ⟨h, h'⟩ | h <;> simp [h]; exact fun e => absurd (hnil e) h'
  | some d =>
    cases d with
    | classMethod => rcases hself .classMethod (Or.inl rfl) (by rw [hd]; rfl) with ⟨h, h'⟩ | h <;> simp [h]; exact fun e => absurd (hnil e) h'
    | staticMethod => rcases hself .staticMethod (Or.inr rfl) (by rw [hd]; rfl) with ⟨h, h'⟩ | h <;> simp [h]; exact fun e => absurd (hnil e) h'
    | other =>
      have h : f.typ = .method c .instanceMethod := by
        rw [hd] at hsc
        have hsc : ((.method c .instanceMethod, us) : FnType × List Param) = (typ2, ps2) := hsc
        cases hsc
        rw [htyp]
        unfold noParamHack
        simp only [hemp hd, Bool.false_eq_true, if_false]
      refine ⟨Or.inl h, fun e => ?_⟩
      have := hemp hd
      rw [hnil e] at this
      cases this

/-- The name of a constructor or call operator, if no method has it. -/
theorem fresh_first {E : Env} {base : Str} (hb : base = c!"new" ∨ base = c!"call") {taken : List Ident} {j : Ident} {i : Str}
    (h : fresh E base taken = .ok j) (hi : j.trySyn E = .ok i) (hn : Ident.fromPy E base ∉ taken) : unraw i = base := by
  obtain ⟨k, hk, -, hlt⟩ := fresh_eq E (base := base) (by intro i; rcases hb with rfl | rfl <;> simp) taken
  have hc : candidate E base 0 = Ident.fromPy E base := by simp [candidate]
  have h0 : k = 0 := by
    by_contra hne
    exact hn (hc ▸ hlt 0 (Nat.pos_of_ne_zero hne))
  rw [h0, h, hc] at hk
  cases hk
  have hid : IsIdent E base := by rcases hb with rfl | rfl <;> exact isIdent_ascii E _ (by decide) (by decide)
  obtain ⟨t, ht, hu⟩ := spelled hid (by rcases hb with rfl | rfl <;> decide)
  unfold Ident.trySyn at hi
  rw [ht] at hi
  cases hi
  exact hu

/-- Whether methods of this kind are called on an object. -/
def onObject : MethodType → Bool
  | .instanceMethod | .callable => true
  | _ => false

/-- What is emitted for a method of a known kind. -/
theorem method_emitted {E : Env} {cfg : Config} {imp : Str → Bool} {lt : LocalTypes} {taken : List Ident} {cls : List Str} {n : Str}
    (hcne : cls ≠ []) (hc : ∀ s ∈ cls, PySegment s) (hn : PyIdent E n) (hr : n ∉ reservedFunctions) {pf : PyFn} {k0 k : MethodType} {f : Function}
    (hp : Function.parse E pf (Path.fromPy E (Str.join c!"." (cls ++ [n]))) (.method (Path.fromPy E (Str.join c!"." cls)) k0) = .ok f)
    (hty : f.typ = .method (Path.fromPy E (Str.join c!"." cls)) k) (hk : k ≠ .unknown)
    {r : FnImpl} (hg : f.generate E cfg imp taken lt = .ok r) :
    ∃ fn, r = (if onObject k then .method [fn.sig] [fn] else .func [fn]) ∧
      (k = .constructor → fn.sig.ret = .selfBound ∧ (Ident.fromPy E c!"new" ∉ taken → unraw fn.sig.name = c!"new")) ∧
      (k = .callable → Ident.fromPy E c!"call" ∉ taken → unraw fn.sig.name = c!"call") ∧
      (k ≠ .constructor → k ≠ .callable → unraw fn.sig.name = rustFunction n) ∧
      ForwardsTo E (if onObject k then .self else .py) (fun o => if onObject k then o = .self else Refers imp cls o)
        (if k = .constructor ∨ k = .callable then none else some n) (hasReceiver f.typ) pf fn := by
  have hname := function_parse_name hp
  obtain ⟨t, hfi, hu⟩ := function_ident hn.2 hr
  have hnm : f.name.name = .ok (Ident.fromPy E n) := by rw [hname]; exact (parent_fromPy E hcne hc hn.1).2
  obtain ⟨fn, hfn⟩ := generate_emits hg hnm hfi (by
    intro c hx
    rw [hty] at hx
    cases hx
    exact hk rfl)
  obtain ⟨obj, meth, pos, kw, hb, htar⟩ := C27_dispatch hg hfn hcne hc hn.1 hcne hc hname (by
    intro c k hx
    rw [hty] at hx
    cases hx
    rfl)
  have hT : (fun o => if onObject k then o = .self else Refers imp cls o) obj ∧ meth = if k = .constructor ∨ k = .callable then none else some n := by
    have hd := generate_dispatch hg hfn (.inl ⟨_, _, _, hb⟩)
    rw [hty] at htar hd
    have key : ∀ {x : Res (Option Obj)}, (do return some (← Path.importQuote imp (Path.fromPy E (Str.join c!"." cls)))) = x → x = .ok (some obj) →
        Refers imp cls obj := by
      rintro x rfl hx
      obtain ⟨o, ho, hx⟩ := Res.bind_ok hx
      cases hx
      exact quote_refers E hcne hc ho
    cases k <;> first | exact htar | exact ⟨key rfl hd, htar.2⟩ | exact absurd rfl hk
  have hfw := forwards_to hp hg hfn hb (T := fun o => if onObject k then o = .self else Refers imp cls o) hT.1
  obtain ⟨name, ident, idents, pres, types, ret, sig, obj', pos', kw', e1, e2, -, -, -, -, e5, -, -, -, e6, e7⟩ := generate_fn hg hfn
  rw [hnm] at e1
  cases e1
  rw [hfi] at e2
  cases e2
  have hsg : fn.sig = sig := by rw [e6]
  rw [hT.2, hsg] at hfw
  rw [hty] at e5
  refine ⟨fn, ?_, ?_, ?_, ?_, ?_⟩
  · rw [e7, hsg]
    unfold Function.contract at e5
    cases k
    case unknown => exact absurd rfl hk
    case callable =>
      obtain ⟨_, -, e5⟩ := Res.bind_ok e5
      obtain ⟨_, -, e5⟩ := Res.bind_ok e5
      cases e5; rfl
    case constructor =>
      obtain ⟨_, -, e5⟩ := Res.bind_ok e5
      obtain ⟨_, -, e5⟩ := Res.bind_ok e5
      cases e5; rfl
    all_goals (cases e5; rfl)
  · rintro rfl
    unfold Function.contract at e5
    obtain ⟨j, h1, e5⟩ := Res.bind_ok e5
    obtain ⟨i, h2, e5⟩ := Res.bind_ok e5
    cases e5
    rw [hsg]
    exact ⟨rfl, fresh_first (Or.inl rfl) h1 h2⟩
  · rintro rfl
    unfold Function.contract at e5
    obtain ⟨j, h1, e5⟩ := Res.bind_ok e5
    obtain ⟨i, h2, e5⟩ := Res.bind_ok e5
    cases e5
    rw [hsg]
    exact fresh_first (Or.inr rfl) h1 h2
  · intro h1 h2
    rw [hsg, ← hu]
    unfold Function.contract at e5
    cases k
    case callable => exact absurd rfl h2
    case constructor => exact absurd rfl h1
    all_goals (cases e5; rfl)
  · have hrecv : sig.recv = if onObject k then .self else .py := by
      unfold Function.contract at e5
      cases k
      case unknown => exact absurd rfl hk
      case callable =>
        obtain ⟨_, -, e5⟩ := Res.bind_ok e5
        obtain ⟨_, -, e5⟩ := Res.bind_ok e5
        cases e5; rfl
      case constructor =>
        obtain ⟨_, -, e5⟩ := Res.bind_ok e5
        obtain ⟨_, -, e5⟩ := Res.bind_ok e5
        cases e5; rfl
      all_goals (cases e5; rfl)
    rwa [hrecv] at hfw

/-- The name of a method of a parsed class is that of a routine. -/
theorem class_taken {E : Env} {cfg : Config} {pc : PyClass} {name : Path} {c : Class} (h : Class.parse E cfg pc name = .ok c)
    {taken : List Ident} (ht : c.methodIdents = .ok taken) {i : Ident} (hi : i ∈ taken) :
    ∃ o, (i, o) ∈ Class.candidates E cfg pc ∧ Routine o := by
  obtain ⟨m, hm, hn⟩ := traverse_mem ht hi
  obtain ⟨-, h1, -⟩ := class_parse_exact h
  obtain ⟨⟨j, o⟩, hx, hR, hp⟩ := (h1 m).mp hm
  obtain ⟨g1, -⟩ := parse_special hp
  rw [g1, Path.name, Path.name?, last_join] at hn
  cases hn
  exact ⟨o, hx, hR⟩

theorem plain_not_routine {o : PyObj} (h : PlainVariable o) : ¬ Routine o := by
  obtain ⟨⟨h1, h2, h3, h4, h5⟩, -⟩ := h
  unfold Routine
  simp [h1, h2, h3, h4, h5]

theorem member_determined {E : Env} {cfg : Config} {pc : PyClass} {name : Path} {c : Class} (h : Class.parse E cfg pc name = .ok c)
    {i : Ident} {o : PyObj} (hx : (i, o) ∈ Class.candidates E cfg pc) :
    ∃ v, determine E o (Path.fromPy E o.modPath) name false = .ok v := by
  unfold Class.parse at h
  obtain ⟨_, -, h⟩ := Res.bind_ok h
  obtain ⟨_, h1, -⟩ := Res.bind_ok h
  obtain ⟨_, _, _, _, -, -, h2, -⟩ := foldRes_at h1 hx
  unfold Class.step at h2
  obtain ⟨v, hv, -⟩ := Res.bind_ok h2
  exact ⟨v, hv⟩

theorem member_parsed {E : Env} {cfg : Config} {pc : PyClass} {name : Path} {c : Class} (h : Class.parse E cfg pc name = .ok c)
    {i : Ident} {o : PyObj} (hx : (i, o) ∈ Class.candidates E cfg pc) (hv : PlainVariable o) :
    ∃ p, Property.parse E o (name.join (Path.ofIdent i)) .class = .ok p := by
  unfold Class.parse at h
  obtain ⟨_, -, h⟩ := Res.bind_ok h
  obtain ⟨_, h1, -⟩ := Res.bind_ok h
  obtain ⟨_, _, _, _, -, -, h2, -⟩ := foldRes_at h1 hx
  unfold Class.step at h2
  obtain ⟨v, hv', h2⟩ := Res.bind_ok h2
  obtain rfl := determine_member hv hv'
  obtain ⟨p, hp, -⟩ := Res.bind_ok h2
  exact ⟨p, hp⟩

/-- The type that is found for an attribute of a class: what the getter of a property is annotated to return, otherwise the type of the
attribute itself. -/
def Spec.MemberType (E : Env) (o : PyObj) (ty : PyTy) : Prop :=
  match o.fget.bind (fun g => g.ret) with
  | some t => readAnn E t = .ok ty
  | none => ownType E o = .ok ty

/-- The method is called on an object: the class has a plain function under its name, or the first parameter is called `self`. -/
def Spec.OnObject (pf : PyFn) (sg : PySig) : Prop := pf.dictKind = some .other ∨ sg.params.head?.map PyParam.name = some c!"self"

/-- What is generated for a Python class: an associated function that calls the class, if it has a routine `__init__`; a method that calls the
object, if it has `__call__`; for every other routine the configuration keeps, whose signature the interpreter gives, a method that calls it on
the object, or an associated function that calls it on the class; for every other attribute a method that reads it, and if it is a property
with a setter, one that writes it. All of them pass on their arguments. -/
structure Spec.ClassBinds (E : Env) (cfg : Config) (imp : Str → Bool) (cls : List Str) (pc : PyClass) (k : ClassItem) : Prop where
  object : k.objName = Str.join c!"." cls
  new : c!"__init__" ∈ pc.dir → ∀ o, pc.getattr c!"__init__" = some o → Routine o →
    ∃ fn ∈ k.inherent, fn.sig.ret = .selfBound ∧ (¬ HasRoutine pc c!"new" → unraw fn.sig.name = c!"new") ∧
      ForwardsTo E .py (Refers imp cls) none true o.fn fn
  call : c!"__call__" ∈ pc.dir → ∀ o, pc.getattr c!"__call__" = some o → Routine o →
    ∃ fn ∈ k.traitImpls, (¬ HasRoutine pc c!"call" → unraw fn.sig.name = c!"call") ∧ ForwardsTo E .self (· = .self) none true o.fn fn
  methods : ∀ n ∈ pc.dir, n ≠ c!"__init__" → n ≠ c!"__call__" → ∀ o, pc.getattr n = some o →
    Kept E cfg n o → Routine o → ∀ sg, o.fn.sig = some sg →
    (o.fn.dictKind = some .other → ∃ p ∈ sg.params, IsIdent E p.name ∧ p.name ≠ c!"_") →
    ∃ fn, unraw fn.sig.name = rustFunction n ∧
      ((fn ∈ k.traitImpls ∧ ForwardsTo E .self (· = .self) (some n) true o.fn fn ∧
          (GoodSig E sg.params → (∀ p ∈ sg.params, p.name ≠ c!"_") → OnObject o.fn sg)) ∨
        (fn ∈ k.inherent ∧ ForwardsTo E .py (Refers imp cls) (some n) false o.fn fn ∧
          (GoodSig E sg.params → (∀ p ∈ sg.params, p.name ≠ c!"_") → ¬ OnObject o.fn sg)))
  getters : ∀ n ∈ pc.dir, n ∉ unspellable → (n = c!"new" → ¬ HasRoutine pc c!"__init__") → (n = c!"call" → ¬ HasRoutine pc c!"__call__") →
    ∀ o, pc.getattr n = some o → Kept E cfg n o → PlainVariable o →
    ∃ fn ∈ k.traitImpls, unraw fn.sig.name = n ∧ ReadsFrom E .self (· = .self) n (MemberType E o) fn
  fallbacks : ∀ n ∈ pc.dir, n ≠ c!"type" → ¬ HasRoutine pc (c!"get_" ++ n) → ∀ o, pc.getattr n = some o → Kept E cfg n o → PlainVariable o →
    ∃ fn ∈ k.traitImpls, (unraw fn.sig.name = n ∨ unraw fn.sig.name = c!"get_" ++ n) ∧ ReadsFrom E .self (· = .self) n (MemberType E o) fn
  setters : ∀ n ∈ pc.dir, ∀ o, pc.getattr n = some o → Kept E cfg n o → PlainVariable o → o.fset.isSome = true →
    ¬ HasRoutine pc (c!"set_" ++ n) →
    ∃ fn ∈ k.traitImpls, unraw fn.sig.name = c!"set_" ++ n ∧ ∃ ty, MemberType E o ty ∧ WritesTo E .self (· = .self) n ty fn

theorem member_type {E : Env} {o : PyObj} {name : Path} {p : Property} (h : Property.parse E o name .class = .ok p) : MemberType E o p.ann := by
  unfold Property.parse at h
  obtain ⟨⟨ann, doc⟩, hg, h⟩ := Res.bind_ok h
  simp only at h
  obtain ⟨⟨mutable, setterAnn, doc', setterDoc⟩, hs, h⟩ := Res.bind_ok h
  cases h
  unfold parseGetter at hg
  unfold MemberType
  cases hf : o.fget with
  | none =>
    rw [hf] at hg
    obtain ⟨_, h1, hg⟩ := Res.bind_ok hg
    cases hg
    exact h1
  | some g =>
    rw [hf] at hg
    cases hr : g.ret with
    | none =>
      simp only [hr] at hg
      obtain ⟨_, h1, hg⟩ := Res.bind_ok hg
      obtain ⟨_, -, hg⟩ := Res.bind_ok hg
      cases hg
      simp only [hr, Option.bind_some]
      exact h1
    | some t =>
      simp only [hr] at hg
      obtain ⟨_, h1, hg⟩ := Res.bind_ok hg
      obtain ⟨_, -, hg⟩ := Res.bind_ok hg
      cases hg
      simp only [hr, Option.bind_some]
      exact h1

theorem member_type_unique {E : Env} {o : PyObj} {t u : PyTy} (h1 : MemberType E o t) (h2 : MemberType E o u) : t = u := by
  unfold MemberType at h1 h2
  cases hx : o.fget.bind (fun g => g.ret) with
  | some a => rw [hx] at h1 h2; simp only at h1 h2; rw [h1] at h2; cases h2; rfl
  | none => rw [hx] at h1 h2; simp only at h1 h2; rw [h1] at h2; cases h2; rfl

theorem class_binds {E : Env} {cfg : Config} {imp : Str → Bool} {lt : LocalTypes} {pc : PyClass} {cls : List Str} {c : Class}
    {k : ClassItem} (hcne : cls ≠ []) (hc : ∀ s ∈ cls, PySegment s) (hd : ∀ s ∈ pc.dir, PyIdent E s)
    (h : Class.parse E cfg pc (Path.fromPy E (Str.join c!"." cls)) = .ok c) (hg : c.generate E cfg imp lt = .ok (some k)) :
    ClassBinds E cfg imp cls pc k := by
  obtain ⟨p0, p1, p2, p3⟩ := class_parse_exact h
  obtain ⟨name, ident, taken, impls, props, -, -, ht, hi, hp, -, -, hobj, hparts, -⟩ := class_generate hg
  have k1 := congrArg ClassParts.inherent hparts
  have k2 := congrArg ClassParts.traitImpls hparts
  simp only at k1 k2
  have hfull : ∀ n, PyIdent E n → (Path.fromPy E (Str.join c!"." cls)).join (Path.ofIdent (Ident.fromPy E n)) =
      Path.fromPy E (Str.join c!"." (cls ++ [n])) := by
    intro n hn
    rw [fromPy_join E hcne hc, fromPy_join E (by simp) fun x hx => ?_]
    · simp [Path.join, Path.ofIdent]
    · rcases mem_snoc.mp hx with hx | rfl
      · exact hc x hx
      · exact hn.1
  have hcand : ∀ n ∈ pc.dir, ∀ o, pc.getattr n = some o → Kept E cfg n o → (Ident.fromPy E n, o) ∈ Class.candidates E cfg pc := by
    intro n hn o ho hk
    exact mem_candidates_iff.mpr ⟨⟨n, hn, rfl⟩, by rw [asPy_ident (hd n hn).2]; exact ho, Or.inl hk⟩
  have hprop : ∀ n ∈ pc.dir, ∀ o, pc.getattr n = some o → Kept E cfg n o → PlainVariable o →
      ∃ p l, Property.parse E o (Path.fromPy E (Str.join c!"." (cls ++ [n]))) .class = .ok p ∧
        p.generate E cfg imp (taken ++ c.extraIdents E) lt = .ok l ∧ ∀ fn, some fn ∈ l → fn ∈ k.traitImpls := by
    intro n hn o ho hk hv
    have hx := hcand n hn o ho hk
    obtain ⟨p, hpp⟩ := member_parsed h hx hv
    rw [hfull n (hd n hn)] at hpp
    have hpm : p ∈ c.properties := by
      refine (p2 p).mpr ⟨_, hx, ?_, ?_⟩
      · obtain ⟨v, hv'⟩ := member_determined h hx
        rw [hv', determine_member hv hv']
      · rw [hfull n (hd n hn)]; exact hpp
    obtain ⟨l, hl, hgen⟩ := traverse_mem' hp hpm
    refine ⟨p, l, hpp, hgen, ?_⟩
    intro fn hfn
    rw [k2, traitImpls_mem]
    refine Or.inr ⟨_, _, List.mem_append_right _ (List.mem_map.mpr ⟨l, hl, rfl⟩), ?_⟩
    exact List.mem_filterMap.mpr ⟨some fn, hfn, rfl⟩
  have hmethod : ∀ n ∈ pc.dir, n ∉ reservedFunctions → ∀ o, (Ident.fromPy E n, o) ∈ Class.candidates E cfg pc → Routine o →
      ∃ f r, Function.parse E o.fn (Path.fromPy E (Str.join c!"." (cls ++ [n])))
        (.method (Path.fromPy E (Str.join c!"." cls)) (methodTypeOf (Ident.fromPy E n))) = .ok f ∧
        f.generate E cfg imp taken lt = .ok r ∧
        (∀ fn, r = .func [fn] → fn ∈ k.inherent) ∧ (∀ fn, r = .method [fn.sig] [fn] → fn ∈ k.traitImpls) := by
    intro n hn hr o hx hR
    obtain ⟨f, hf⟩ := p3 _ hx hR
    have hfm := (p1 f).mpr ⟨_, hx, hR, hf⟩
    obtain ⟨r, hr', hgen⟩ := traverse_mem' hi hfm
    simp only at hf
    rw [hfull n (hd n hn)] at hf
    refine ⟨f, r, hf, hgen, ?_, ?_⟩
    · rintro fn rfl
      rw [k1, inherent_mem]
      exact Or.inr ⟨_, List.mem_append_left _ hr', by simp⟩
    · rintro fn rfl
      rw [k2, traitImpls_mem]
      exact Or.inr ⟨_, _, List.mem_append_left _ hr', by simp⟩
  have htaken : ∀ n, IsIdent E n → Ident.fromPy E n ∈ taken → HasRoutine pc n := by
    intro n hid hx
    obtain ⟨o', hx', hR⟩ := class_taken h ht hx
    obtain ⟨⟨s, hs, he⟩, hget, -⟩ := mem_candidates_iff.mp hx'
    have hse : s = n := by rw [← asPy_ident (hd s hs).2, ← he, asPy_ident hid]
    rw [asPy_ident hid] at hget
    exact ⟨hse ▸ hs, o', hget, hR⟩
  have hextra : ∀ n, (n = c!"new" → ¬ HasRoutine pc c!"__init__") → (n = c!"call" → ¬ HasRoutine pc c!"__call__") → ¬ c!"r#" <+: n →
      Ident.fromPy E n ∉ c.extraIdents E := by
    intro n h1 h2 h3 hx
    have horig := fun m (hm : m ∈ c.methods) => method_origin (fun s hs => (hd s hs).1.2.2.1) h hm
    unfold Class.extraIdents at hx
    rcases List.mem_append.mp hx with hx | hx
    · split at hx
      · rename_i hany
        obtain ⟨m, hm, hcon⟩ := List.any_eq_true.mp hany
        obtain ⟨s, hs, -, -, t1, t2, t3⟩ := horig m hm
        have hsi : s = c!"__init__" := by
          by_contra hne
          by_cases hne2 : s = c!"__call__"
          · rw [t2 hne2] at hcon; cases hcon
          · unfold FnType.isConstructor at hcon
            split at hcon
            · rename_i heq; exact (t3 hne hne2 _).1 heq
            · cases hcon
        refine h1 ?_ (hsi ▸ hs)
        rw [← asPy_fromPy E h3, List.mem_singleton.mp hx, asPy_fromPy E (by decide)]
      · cases hx
    · split at hx
      · rename_i hany
        obtain ⟨m, hm, hcon⟩ := List.any_eq_true.mp hany
        obtain ⟨s, hs, -, -, t1, t2, t3⟩ := horig m hm
        have hsi : s = c!"__call__" := by
          by_contra hne
          by_cases hne2 : s = c!"__init__"
          · rw [t1 hne2] at hcon; cases hcon
          · unfold FnType.isCallable at hcon
            split at hcon
            · rename_i heq; exact (t3 hne2 hne _).2 heq
            · cases hcon
        refine h2 ?_ (hsi ▸ hs)
        rw [← asPy_fromPy E h3, List.mem_singleton.mp hx, asPy_fromPy E (by decide)]
      · cases hx
  -- a getter of a legal name is emitted
  have hread : ∀ n ∈ pc.dir, ∀ o, pc.getattr n = some o → Kept E cfg n o → PlainVariable o → ∀ t,
      getterIdent E (taken ++ c.extraIdents E) (Ident.fromPy E n) = .ok (some t) →
      ∃ fn ∈ k.traitImpls, fn.sig.name = t ∧ ReadsFrom E .self (· = .self) n (MemberType E o) fn := by
    intro n hn o ho hk hv t hgi
    obtain ⟨p, l, hpp, hgen, hout⟩ := hprop n hn o ho hk hv
    obtain ⟨q1, q2, -⟩ := C32_class hpp
    have hnm : p.name.name = .ok (Ident.fromPy E n) := by rw [q1]; exact (parent_fromPy E hcne hc (hd n hn).1).2
    obtain ⟨g, hgg, hl⟩ := accessors_of hgen
    have hgl : g ∈ l := by rcases hl with ⟨-, s, -, rfl⟩ | ⟨-, rfl⟩ <;> simp
    cases g with
    | none =>
      unfold Property.generateGetter at hgg
      rw [hnm, Res.ok_bind, hgi, Res.ok_bind] at hgg
      simp only at hgg
      obtain ⟨_, -, hgg⟩ := Res.bind_ok hgg
      obtain ⟨_, -, hgg⟩ := Res.bind_ok hgg
      cases hgg
    | some fn =>
      obtain ⟨name', ident', ty, obj, e1, e2, -, e4, hfe⟩ := getter_fn hgg
      rw [hnm] at e1
      cases e1
      rw [hgi] at e2
      cases e2
      have hb : fn.body = .getattr obj n := by rw [hfe]; exact congrArg (Body.getattr obj) (asPy_ident (hd n hn).2)
      obtain ⟨-, this⟩ := accessor_reads hcne hc (hd n hn).1 hgen hgl q1 hb
      rw [q2] at this
      have this := reads_mono this (D' := MemberType E o) fun ty hty => member_type_unique hty (member_type hpp)
      exact ⟨fn, hout _ hgl, by rw [hfe], this⟩
  have hplain : ∀ n ∈ pc.dir, n ∉ unspellable → (n = c!"new" → ¬ HasRoutine pc c!"__init__") → (n = c!"call" → ¬ HasRoutine pc c!"__call__") →
      ∀ o, pc.getattr n = some o → Kept E cfg n o → PlainVariable o →
      ∃ fn ∈ k.traitImpls, unraw fn.sig.name = n ∧ ReadsFrom E .self (· = .self) n (MemberType E o) fn := by
    intro n hn hu n1 n2 o ho hk hv
    have hr := kept_unreserved (hd n hn).2 hk
    obtain ⟨t, ht', hut⟩ := spelled (hd n hn).2 hu
    have hnt : Ident.fromPy E n ∉ taken ++ c.extraIdents E := by
      intro hx
      rcases List.mem_append.mp hx with hx | hx
      · obtain ⟨-, o', ho', hR⟩ := htaken n (hd n hn).2 hx
        rw [ho] at ho'
        cases ho'
        exact plain_not_routine hv hR
      · exact hextra n n1 n2 (hd n hn).1.2.2.1 hx
    have hgi : getterIdent E (taken ++ c.extraIdents E) (Ident.fromPy E n) = .ok (some t) := by
      unfold getterIdent
      rw [ht']
      simp only [nameTaken_false (hd n hn).2 hnt hr, Bool.false_eq_true, if_false]
    obtain ⟨fn, e1, e2, e3⟩ := hread n hn o ho hk hv t hgi
    exact ⟨fn, e1, e2 ▸ hut, e3⟩
  have hsp : ∀ n, n = c!"__init__" ∨ n = c!"__call__" → n ∉ reservedFunctions := by
    rintro n (rfl | rfl) <;> decide
  refine ⟨?_, ?_, ?_, ?_, hplain, ?_, ?_⟩
  · rw [hobj, p0]
    exact DottedName.roundtrip E (Or.inr ⟨cls, hcne, hc, rfl⟩)
  · intro hn o ho hR
    have hx : (Ident.fromPy E c!"__init__", o) ∈ Class.candidates E cfg pc :=
      mem_candidates_iff.mpr ⟨⟨_, hn, rfl⟩, by rw [asPy_ident (hd _ hn).2]; exact ho, Or.inr (Or.inl (asPy_ident (hd _ hn).2))⟩
    obtain ⟨f, r, hf, hgen, i1, i2⟩ := hmethod _ hn (hsp _ (Or.inl rfl)) o hx hR
    have hmt : methodTypeOf (Ident.fromPy E c!"__init__") = .constructor := by
      unfold methodTypeOf
      rw [asPy_ident (hd _ hn).2, if_pos rfl]
    rw [hmt] at hf
    have hty := (parse_special hf).2.1 (Or.inl rfl)
    obtain ⟨fn, e1, e2, -, -, e5⟩ := method_emitted hcne hc (hd _ hn) (hsp _ (Or.inl rfl)) hf hty (by simp) hgen
    rw [hty] at e5
    exact ⟨fn, i1 _ e1, (e2 rfl).1, fun hno => (e2 rfl).2 (fun hx => hno (htaken _ (isIdent_ascii E _ (by decide) (by decide)) hx)), e5⟩
  · intro hn o ho hR
    have hx : (Ident.fromPy E c!"__call__", o) ∈ Class.candidates E cfg pc :=
      mem_candidates_iff.mpr ⟨⟨_, hn, rfl⟩, by rw [asPy_ident (hd _ hn).2]; exact ho, Or.inr (Or.inr (asPy_ident (hd _ hn).2))⟩
    obtain ⟨f, r, hf, hgen, i1, i2⟩ := hmethod _ hn (hsp _ (Or.inr rfl)) o hx hR
    have hmt : methodTypeOf (Ident.fromPy E c!"__call__") = .callable := by
      unfold methodTypeOf
      rw [asPy_ident (hd _ hn).2, if_neg (by decide), if_pos rfl]
    rw [hmt] at hf
    have hty := (parse_special hf).2.1 (Or.inr rfl)
    obtain ⟨fn, e1, -, e3, -, e5⟩ := method_emitted hcne hc (hd _ hn) (hsp _ (Or.inr rfl)) hf hty (by simp) hgen
    rw [hty] at e5
    exact ⟨fn, i2 _ e1, fun hno => e3 rfl (fun hx => hno (htaken _ (isIdent_ascii E _ (by decide) (by decide)) hx)), e5⟩
  · intro n hn n1 n2 o ho hk hR sg hsg hne
    have hr := kept_unreserved (hd n hn).2 hk
    obtain ⟨f, r, hf, hgen, i1, i2⟩ := hmethod n hn hr o (hcand n hn o ho hk) hR
    have hmt : methodTypeOf (Ident.fromPy E n) = .unknown := by
      unfold methodTypeOf
      rw [asPy_ident (hd n hn).2, if_neg n1, if_neg n2]
    rw [hmt] at hf
    obtain ⟨hkinds, hempty⟩ := method_kinds hsg hne hf
    -- the kind of the method
    have hiff : GoodSig E sg.params → (∀ p ∈ sg.params, p.name ≠ c!"_") →
        (f.typ = .method (Path.fromPy E (Str.join c!"." cls)) .instanceMethod ↔ OnObject o.fn sg) := by
      intro hgs hus
      unfold OnObject
      cases hps : sg.params with
      | nil =>
        refine ⟨fun hx => absurd hx (hempty hps), ?_⟩
        rintro (hx | hx)
        · obtain ⟨p, hp, -⟩ := hne hx
          rw [hps] at hp; cases hp
        · cases hx
      | cons q rest =>
        obtain ⟨kd, hkd, a1, a2, a3⟩ := C27_kind_partial hsg hgs hf ⟨q, by simp [hps], hus q (by simp [hps])⟩
        have hhead : (usedParams sg.params).head?.map Prod.fst = some q.name := by
          unfold usedParams
          rw [hps, List.map_cons, List.filter_cons_of_pos (by simpa using hus q (by simp [hps]))]
          rfl
        rw [hhead] at a1 a2 a3
        simp only [List.head?_cons, Option.map_some]
        constructor
        · intro hx
          by_contra hno
          push Not at hno
          rw [hkd] at hx
          cases hx
          cases hd' : o.fn.dictKind with
          | none => cases a3 hno.2 (Or.inr hd')
          | some d =>
            cases d with
            | classMethod => cases a2 hno.2 hd'
            | staticMethod => cases a3 hno.2 (Or.inl hd')
            | other => exact hno.1 hd'
        · intro hx
          rw [hkd, a1 hx.symm]
    rcases hkinds with hty | hty | hty
    · obtain ⟨fn, e1, -, -, e4, e5⟩ := method_emitted hcne hc (hd n hn) hr hf hty (by simp) hgen
      refine ⟨fn, e4 (by simp) (by simp), Or.inl ⟨i2 _ e1, ?_, fun a b => (hiff a b).mp hty⟩⟩
      rw [hty] at e5
      exact e5
    · obtain ⟨fn, e1, -, -, e4, e5⟩ := method_emitted hcne hc (hd n hn) hr hf hty (by simp) hgen
      refine ⟨fn, e4 (by simp) (by simp), Or.inr ⟨i1 _ e1, ?_, fun a b hx => ?_⟩⟩
      · rw [hty] at e5
        exact e5
      · rw [← hiff a b, hty] at hx
        cases hx
    · obtain ⟨fn, e1, -, -, e4, e5⟩ := method_emitted hcne hc (hd n hn) hr hf hty (by simp) hgen
      refine ⟨fn, e4 (by simp) (by simp), Or.inr ⟨i1 _ e1, ?_, fun a b hx => ?_⟩⟩
      · rw [hty] at e5
        exact e5
      · rw [← hiff a b, hty] at hx
        cases hx
  · intro n hn htype hno o ho hk hv
    have hr := kept_unreserved (hd n hn).2 hk
    have hsi : IsIdent E (c!"get_" ++ n) := isIdent_prefix (getSet_isIdent E).1 (hd n hn).2
    obtain ⟨t', ht', hut'⟩ := spelled hsi (not_unspellable_get n)
    have hnt : Ident.fromPy E (c!"get_" ++ n) ∉ taken ++ c.extraIdents E := by
      intro hx
      rcases List.mem_append.mp hx with hx | hx
      · exact hno (htaken _ hsi hx)
      · exact hextra (c!"get_" ++ n) (by simp) (by simp) (by simp [List.prefix_cons_iff]) hx
    have hres : c!"get_" ++ n ∉ reservedFunctions := by
      simp only [reservedFunctions, List.mem_cons, List.not_mem_nil, or_false]
      rintro (hx | hx | hx | hx | hx)
      · exact htype (List.append_cancel_left (as := c!"get_") hx)
      all_goals simp at hx
    have hfb : getterFallback E (taken ++ c.extraIdents E) (Ident.fromPy E n) = .ok (some t') := by
      unfold getterFallback
      rw [asPy_ident (hd n hn).2]
      simp only
      rw [nameTaken_false hsi hnt hres, Ident.trySyn, ht']
      rfl
    have hgi : ∃ t, getterIdent E (taken ++ c.extraIdents E) (Ident.fromPy E n) = .ok (some t) ∧ (unraw t = n ∨ unraw t = c!"get_" ++ n) := by
      unfold getterIdent
      by_cases hu : n ∈ unspellable
      · rw [toSyn_ident (hd n hn).2, if_pos hu]
        exact ⟨t', hfb, Or.inr hut'⟩
      · obtain ⟨t, ht1, hut⟩ := spelled (hd n hn).2 hu
        rw [ht1]
        simp only
        split
        · exact ⟨t', hfb, Or.inr hut'⟩
        · exact ⟨t, rfl, Or.inl hut⟩
    obtain ⟨t, hgi, hor⟩ := hgi
    obtain ⟨fn, e1, e2, e3⟩ := hread n hn o ho hk hv t hgi
    exact ⟨fn, e1, e2 ▸ hor, e3⟩
  · intro n hn o ho hk hv hset hno
    obtain ⟨p, l, hpp, hgen, hout⟩ := hprop n hn o ho hk hv
    obtain ⟨q1, q2, q3, -⟩ := C32_class hpp
    have hsi : IsIdent E (c!"set_" ++ n) := isIdent_prefix (getSet_isIdent E).2 (hd n hn).2
    obtain ⟨t, ht', hut⟩ := spelled hsi (not_unspellable_set n)
    have hnt : Ident.fromPy E (c!"set_" ++ n) ∉ taken ++ c.extraIdents E := by
      intro hx
      rcases List.mem_append.mp hx with hx | hx
      · exact hno (htaken _ hsi hx)
      · exact hextra (c!"set_" ++ n) (by simp) (by simp) (by simp [List.prefix_cons_iff]) hx
    have hnm : p.name.name = .ok (Ident.fromPy E n) := by rw [q1]; exact (parent_fromPy E hcne hc (hd n hn).1).2
    have hgi : setterIdent E (taken ++ c.extraIdents E) (Ident.fromPy E n) = .ok (some t) := by
      unfold setterIdent
      rw [asPy_ident (hd n hn).2]
      simp only
      rw [nameTaken_false hsi hnt (by simp [reservedFunctions]), Ident.trySyn, ht']
      rfl
    obtain ⟨g, -, hl⟩ := accessors_of hgen
    rcases hl with ⟨-, s, hs, rfl⟩ | ⟨hmut, -⟩
    · cases s with
      | none =>
        unfold Property.generateSetter at hs
        rw [hnm, Res.ok_bind, hgi, Res.ok_bind] at hs
        simp only at hs
        obtain ⟨_, -, hs⟩ := Res.bind_ok hs
        obtain ⟨_, -, hs⟩ := Res.bind_ok hs
        obtain ⟨_, -, hs⟩ := Res.bind_ok hs
        cases hs
      | some fn =>
        obtain ⟨name', ident', _, ty, obj, e1, e2, -, -, e4, hfe⟩ := setter_fn hs
        rw [hnm] at e1
        cases e1
        rw [hgi] at e2
        cases e2
        have hmem : some fn ∈ [g, some fn] := List.mem_cons_of_mem _ (List.mem_singleton.mpr rfl)
        have hb : fn.body = .setattr obj n c!"p_value" := by
          rw [hfe]; exact congrArg (fun x => Body.setattr obj x c!"p_value") (asPy_ident (hd n hn).2)
        have hw := (accessor_writes hcne hc (hd n hn).1 hgen hmem q1 hb).2
        rw [q2] at hw
        exact ⟨fn, hout _ hmem, by rw [hfe]; exact hut, p.ann, member_type hpp, hw⟩
    · rw [q3.mpr hset] at hmut
      cases hmut

/-- Every class that the module defines and the configuration keeps has its Rust type in the nested modules that spell the name of the Python
module, with bindings for its members.

Missing: routines of the class whose signature the interpreter does not give, which have no binding (`C69_method_counterexample`); accessors
beside a method of their name; without traversal, modules in packages. -/
theorem C69_classes_partial (E : Env) (W : World) (fuel : Nat) (c c1 : Codegen) (names : List Str) (items : List Item)
    (h1 : c.moduleNames E W fuel names = .ok c1) (h2 : c1.generate E W fuel = .ok items)
    (id : Nat) (hr : Reached E c.cfg W names id) (pm : PyMod) (segs : List Str)
    (hp : W.get? id = some pm) (hname : pm.name = some (Str.join c!"." segs)) (hne : segs ≠ [])
    (hs : ∀ s ∈ segs, PyIdent E s) (ht : c.cfg.traverseSubmodules = true ∨ segs.length = 1) (hc : c.cfg.generateClasses = true) :
    ∃ idents content, ModChain items idents content ∧ idents.map unraw = segs ∧
      ∀ s ∈ pm.dir, PyIdent E s → ∀ a, pm.getattr s = some a → Kept E c.cfg s a.obj → OwnClass (Str.join c!"." segs) a.obj →
        (∀ x ∈ a.cls.dir, PyIdent E x) →
        ∃ k, .class k ∈ content ∧ unraw k.name = rustClass s ∧ ClassBinds E c.cfg W.importable (segs ++ [s]) a.cls k := by
  obtain ⟨m, idents, content, out, M, ts, own, hm, hmn, g1, g2, -, -, -, g6, g7, g8, -⟩ := reached_content h1 h2 hr hp hname hne hs ht
  refine ⟨idents, content, g1, g2, ?_⟩
  intro s hsd hsi a ha hk ho hd
  obtain ⟨-, -, k3, -⟩ := C69_parsed E c.cfg W fuel id m hm pm _ hp hname s hsi.2 hsd a ha hk
  obtain ⟨cl, hcl, hpc⟩ := k3 ho
  have hseg : ∀ x ∈ segs ++ [s], PySegment x := by
    intro x hx
    rcases mem_snoc.mp hx with hx | rfl
    · exact (hs x hx).1
    · exact hsi.1
  have hfull : m.name.join (Path.ofIdent (Ident.fromPy E s)) = Path.fromPy E (Str.join c!"." (segs ++ [s])) := by
    rw [fromPy_join E (by simp) hseg, hmn]
    simp [Path.join, Path.ofIdent]
  rw [hfull] at hpc
  obtain ⟨lt, k, e1, e2, e3⟩ := content_classItem g7 hc (g6 (.class cl) hcl) hsi.2 (by
    rw [class_parse_name hpc, fromPy_join E (by simp) hseg]; simp)
  exact ⟨k, g8 _ e2, e3, class_binds (by simp) hseg hd hpc e1⟩

/-- Every value of `typing` or `types` that the configuration keeps has a type of its name. Missing: the five names that cannot be spelled,
on which the code panics (C51); without traversal, modules in packages. -/
theorem C69_typeVars_partial (E : Env) (W : World) (fuel : Nat) (c c1 : Codegen) (names : List Str) (items : List Item)
    (h1 : c.moduleNames E W fuel names = .ok c1) (h2 : c1.generate E W fuel = .ok items)
    (id : Nat) (hr : Reached E c.cfg W names id) (pm : PyMod) (segs : List Str)
    (hp : W.get? id = some pm) (hname : pm.name = some (Str.join c!"." segs)) (hne : segs ≠ [])
    (hs : ∀ s ∈ segs, PyIdent E s) (ht : c.cfg.traverseSubmodules = true ∨ segs.length = 1) (hc : c.cfg.generateTypeVars = true) :
    ∃ idents content, ModChain items idents content ∧ idents.map unraw = segs ∧
      ∀ s ∈ pm.dir, IsIdent E s → s ∉ unspellable → ∀ a, pm.getattr s = some a → Kept E c.cfg s a.obj → TypingValue a.obj →
        ∃ i, .typeAlias i ∈ content ∧ unraw i = s := by
  obtain ⟨m, idents, content, out, M, ts, own, hm, hmn, g1, g2, -, -, -, g6, g7, g8, -⟩ := reached_content h1 h2 hr hp hname hne hs ht
  refine ⟨idents, content, g1, g2, ?_⟩
  intro s hsd hsi hsu a ha hk ho
  obtain ⟨-, -, -, k4, -⟩ := C69_parsed E c.cfg W fuel id m hm pm _ hp hname s hsi hsd a ha hk
  obtain ⟨i, e1, e2⟩ := (content_emits g7).typeVars hc _ (g6 (.typeVar _) (k4 ho)) s hsi hsu (by simp [Path.join, Path.ofIdent])
  exact ⟨i, g8 _ e1, e2⟩

/-! ## Examples -/

theorem run_names {E : Env} {W : World} {fuel : Nat} {cfg : Config} {names : List Str}
    (h : ((Codegen.new cfg).moduleNames E W fuel names >>= fun c => c.generate E W fuel).map (fun _ => ()) = .ok ()) :
    ∃ c1 items, (Codegen.new cfg).moduleNames E W fuel names = .ok c1 ∧ c1.generate E W fuel = .ok items := by
  cases h1 : (Codegen.new cfg).moduleNames E W fuel names with
  | error e => rw [h1] at h; cases h
  | ok c =>
    rw [h1, Res.ok_bind] at h
    cases h2 : c.generate E W fuel with
    | error e => rw [h2] at h; cases h
    | ok items => exact ⟨c, items, rfl, h2⟩

theorem exPkg_ident : ∀ s ∈ [c!"pkg"], PyIdent exEnv s := by
  intro s hs
  rw [List.mem_singleton.mp hs]
  exact ⟨by unfold PySegment; decide, isIdent_ascii _ _ (by decide) (by decide)⟩

/-- The hypotheses of `C69_functions_partial`, `C69_variables_partial` and `C69_classes_partial` on the package `pkg`: the bindings of its function
`f`, its value `VALUE` and its class `C`. -/
example : ∃ c1 items, (Codegen.new {}).moduleNames exEnv exWorld 5 [c!"pkg"] = .ok c1 ∧ c1.generate exEnv exWorld 5 = .ok items ∧
    (∃ idents content, ModChain items idents content ∧ idents.map unraw = [c!"pkg"] ∧
      ∃ fn, .func fn ∈ content ∧ unraw fn.sig.name = c!"f" ∧ Forwards exEnv exWorld.importable [c!"pkg"] c!"f" (exFnObj c!"pkg").fn fn) ∧
    (∃ idents content, ModChain items idents content ∧ idents.map unraw = [c!"pkg"] ∧
      (∃ fn, .prop fn ∈ content ∧ unraw fn.sig.name = c!"VALUE" ∧ Reads exEnv exWorld.importable [c!"pkg"] c!"VALUE" exIntObj fn) ∧
      ∃ fn, .prop fn ∈ content ∧ unraw fn.sig.name = c!"set_VALUE" ∧ Writes exEnv exWorld.importable [c!"pkg"] c!"VALUE" .long fn) ∧
    (∃ idents content, ModChain items idents content ∧ idents.map unraw = [c!"pkg"] ∧
      ∃ k, .class k ∈ content ∧ unraw k.name = c!"C" ∧ ClassBinds exEnv {} exWorld.importable [c!"pkg", c!"C"] {} k) := by
  obtain ⟨c1, items, h1, h2⟩ := run_names (E := exEnv) (W := exWorld) (fuel := 5) (cfg := {}) (names := [c!"pkg"]) (by decide +kernel)
  refine ⟨c1, items, h1, h2, ?_, ?_, ?_⟩
  · obtain ⟨idents, content, g1, g2, g3⟩ := C69_functions_partial exEnv exWorld 5 _ c1 _ items h1 h2 0 (.request (List.mem_singleton.mpr rfl) rfl) exPkg [c!"pkg"] rfl rfl
      (by simp) exPkg_ident (Or.inl rfl) rfl
    obtain ⟨fn, e1, e2, e3⟩ := g3 c!"f" (by decide) ⟨by unfold PySegment; decide, isIdent_ascii _ _ (by decide) (by decide)⟩ _ rfl
      (by unfold Kept; decide +kernel) (Or.inl ⟨rfl, rfl, Or.inr rfl, Or.inl rfl⟩)
    exact ⟨idents, content, g1, g2, fn, e1, e2, e3⟩
  · obtain ⟨idents, content, g1, g2, g3⟩ := C69_variables_partial exEnv exWorld exWorld_faithful exWorld_unique 5 {} [] _ c1 _ items .new h1 h2
      0 (.request (List.mem_singleton.mpr rfl) rfl) exPkg [c!"pkg"] rfl rfl (by simp) exPkg_ident (Or.inl rfl) rfl
    obtain ⟨e1, -, e3⟩ := g3 c!"VALUE" (by decide) _ rfl (by unfold Kept; decide +kernel)
      ⟨⟨rfl, rfl, rfl, by decide, by decide⟩, [c!"builtins"], by simp, by
        intro x hx; rw [List.mem_singleton.mp hx]; unfold PySegment; decide, by decide, by decide⟩
    obtain ⟨fn, ty, f1, f2, f3, f4⟩ := e3 (Or.inl fun h => absurd h (by decide))
    have hty : ty = .long := by
      have : ownType exEnv exIntObj = .ok .long := by decide +kernel
      rw [show ownType exEnv exIntObj = .ok ty from f3] at this
      exact Except.ok.inj this
    exact ⟨idents, content, g1, g2, e1 (by decide), fn, f1, f2, hty ▸ f4⟩
  · obtain ⟨idents, content, g1, g2, g3⟩ := C69_classes_partial exEnv exWorld 5 _ c1 _ items h1 h2 0 (.request (List.mem_singleton.mpr rfl) rfl) exPkg [c!"pkg"] rfl rfl
      (by simp) exPkg_ident (Or.inl rfl) rfl
    obtain ⟨k, e1, e2, e3⟩ := g3 c!"C" (by decide) ⟨by unfold PySegment; decide, isIdent_ascii _ _ (by decide) (by decide)⟩ _ rfl
      (by unfold Kept; decide +kernel) ⟨rfl, rfl, rfl⟩ (fun x hx => nomatch hx)
    exact ⟨idents, content, g1, g2, k, e1, e2, e3⟩

theorem exSub_ident : ∀ s ∈ [c!"pkg", c!"sub"], PyIdent exEnv s := by
  intro s hs
  simp only [List.mem_cons, List.not_mem_nil, or_false] at hs
  rcases hs with rfl | rfl <;> exact ⟨by unfold PySegment; decide, isIdent_ascii _ _ (by decide) (by decide)⟩

/-- A request for `pkg` reaches `pkg.sub`. -/
theorem exSub_reached : Reached exEnv {} exWorld [c!"pkg"] 1 :=
  ⟨c!"pkg", by simp, 0, rfl, .sub 0 1 exPkg [c!"pkg"] [c!"sub"] c!"sub" .self rfl rfl rfl (by simp) exPkg_ident rfl rfl (by simp)
    (exSub_ident _ (by simp)) (by
      have h := (C08_filter_iff {} (Ident.fromPy exEnv c!"sub") (Path.fromPy exEnv c!"pkg")).mp (by decide +kernel)
      exact h) (fun a ha => by
      have h : exPkg.getattr c!"sub" = none := rfl
      rw [h] at ha
      cases ha) rfl ⟨exSub, rfl, rfl⟩⟩

/-- The hypotheses for a submodule that is not requested itself: the bindings of the function `g` and the class `D` of `pkg.sub`. -/
example : ∃ c1 items, (Codegen.new {}).moduleNames exEnv exWorld 5 [c!"pkg"] = .ok c1 ∧ c1.generate exEnv exWorld 5 = .ok items ∧
    (∃ idents content, ModChain items idents content ∧ idents.map unraw = [c!"pkg", c!"sub"] ∧
      ∃ fn, .func fn ∈ content ∧ unraw fn.sig.name = c!"g" ∧ Forwards exEnv exWorld.importable [c!"pkg", c!"sub"] c!"g" (exFnObj c!"pkg.sub").fn fn) ∧
    (∃ idents content, ModChain items idents content ∧ idents.map unraw = [c!"pkg", c!"sub"] ∧
      ∃ k, .class k ∈ content ∧ unraw k.name = c!"D" ∧ ClassBinds exEnv {} exWorld.importable [c!"pkg", c!"sub", c!"D"] {} k) := by
  obtain ⟨c1, items, h1, h2⟩ := run_names (E := exEnv) (W := exWorld) (fuel := 5) (cfg := {}) (names := [c!"pkg"]) (by decide +kernel)
  refine ⟨c1, items, h1, h2, ?_, ?_⟩
  · obtain ⟨idents, content, g1, g2, g3⟩ := C69_functions_partial exEnv exWorld 5 _ c1 _ items h1 h2 1 exSub_reached exSub
      [c!"pkg", c!"sub"] rfl rfl (by simp) exSub_ident (Or.inl rfl) rfl
    obtain ⟨fn, e1, e2, e3⟩ := g3 c!"g" (by decide) ⟨by unfold PySegment; decide, isIdent_ascii _ _ (by decide) (by decide)⟩ _ rfl
      (by unfold Kept; decide +kernel) (Or.inl ⟨rfl, rfl, Or.inr rfl, Or.inl rfl⟩)
    exact ⟨idents, content, g1, g2, fn, e1, e2, e3⟩
  · obtain ⟨idents, content, g1, g2, g3⟩ := C69_classes_partial exEnv exWorld 5 _ c1 _ items h1 h2 1 exSub_reached exSub
      [c!"pkg", c!"sub"] rfl rfl (by simp) exSub_ident (Or.inl rfl) rfl
    obtain ⟨k, e1, e2, e3⟩ := g3 c!"D" (by decide) ⟨by unfold PySegment; decide, isIdent_ascii _ _ (by decide) (by decide)⟩ _ rfl
      (by unfold Kept; decide +kernel) ⟨rfl, rfl, rfl⟩ (fun x hx => nomatch hx)
    exact ⟨idents, content, g1, g2, k, e1, e2, e3⟩

/-- The parameters `self` and `x`. -/
def exMethodSig : PySig := ⟨[⟨c!"self", .positionalOrKeyword, none, false⟩, ⟨c!"x", .positionalOrKeyword, some (.cls [.long] c!"<class 'int'>"), false⟩], none⟩

/-- A class with a constructor, a call operator, a method `run`, a static method `make`, a property `size` with a setter and an attribute `kind`. -/
def exFullClass : PyClass where
  dir := [c!"__init__", c!"__call__", c!"run", c!"make", c!"size", c!"kind"]
  attrs := [(c!"__init__", { exFnObj c!"pkg" with fn := ⟨some c!"None", some exMethodSig, some .other⟩ }),
    (c!"__call__", { exFnObj c!"pkg" with fn := ⟨some c!"None", some exMethodSig, some .other⟩ }),
    (c!"run", { exFnObj c!"pkg" with fn := ⟨some c!"None", some exMethodSig, some .other⟩ }),
    (c!"make", { exFnObj c!"pkg" with fn := { (exFnObj c!"pkg").fn with dictKind := some .staticMethod } }),
    (c!"size", { exIntObj with typeName := c!"property", fget := some ⟨none, some c!"None"⟩, fset := some ⟨none, some c!"None"⟩ }),
    (c!"kind", exIntObj)]

theorem exFull_ident : ∀ x ∈ exFullClass.dir, PyIdent exEnv x := by
  simp only [exFullClass, List.forall_mem_cons]
  refine ⟨?_, ?_, ?_, ?_, ?_, ?_, fun _ h => (nomatch h)⟩ <;>
    exact ⟨by unfold PySegment; decide, isIdent_ascii _ _ (by decide) (by decide)⟩

/-- The methods it has. -/
example : (Class.parse exEnv {} exFullClass (Path.fromPy exEnv c!"pkg.K") >>= fun c =>
      c.generate exEnv {} (fun s => s = c!"pkg") []).map (fun k => k.map fun (k : ClassItem) =>
        (k.inherent.map (fun f => (f.sig.name)), k.traitImpls.map (fun f => (f.sig.name)))) =
      .ok (some ([c!"new", c!"make"], [c!"call", c!"run", c!"size", c!"set_size", c!"kind"])) := by decide +kernel

theorem exMethodSig_plain : PlainSig exEnv true exMethodSig.params where
  good := ⟨by constructor <;> decide, by
    simp only [exMethodSig, List.forall_mem_cons]
    exact ⟨isIdent_ascii _ _ (by decide) (by decide), isIdent_ascii _ _ (by decide) (by decide), fun _ h => (nomatch h)⟩⟩
  names := by decide
  self := by decide
  receiver := fun _ => ⟨_, _, rfl, Or.inr rfl⟩

/-- Its members are covered by `ClassBinds`: the constructor and the method `run` take one argument and pass it as `x`. -/
example (c : Class) (k : ClassItem) (h : Class.parse exEnv {} exFullClass (Path.fromPy exEnv (Str.join c!"." [c!"pkg", c!"K"])) = .ok c)
    (hg : c.generate exEnv {} (fun s => s = c!"pkg") [] = .ok (some k)) :
    (∃ fn ∈ k.inherent, unraw fn.sig.name = c!"new" ∧ CallsWith exEnv .py (Refers (fun s => s = c!"pkg") [c!"pkg", c!"K"]) none true exMethodSig.params fn) ∧
    (∃ fn ∈ k.traitImpls, unraw fn.sig.name = c!"call" ∧ CallsWith exEnv .self (· = .self) none true exMethodSig.params fn) ∧
    (∃ fn ∈ k.traitImpls, unraw fn.sig.name = c!"run" ∧ CallsWith exEnv .self (· = .self) (some c!"run") true exMethodSig.params fn) ∧
    (∃ fn ∈ k.traitImpls, unraw fn.sig.name = c!"kind" ∧ ReadsFrom exEnv .self (· = .self) c!"kind" (MemberType exEnv exIntObj) fn) ∧
    (∃ fn ∈ k.traitImpls, unraw fn.sig.name = c!"set_size" ∧ ∃ ty, WritesTo exEnv .self (· = .self) c!"size" ty fn) := by
  have hb := class_binds (by simp) (by
    intro s hs
    simp only [List.mem_cons, List.not_mem_nil, or_false] at hs
    rcases hs with rfl | rfl <;> (unfold PySegment; decide)) exFull_ident h hg
  have hno : ∀ n, n ∉ exFullClass.dir → ¬ HasRoutine exFullClass n := fun n hn hx => hn hx.1
  have hR : ∀ fn, Routine { exFnObj c!"pkg" with fn := fn } := fun fn => ⟨rfl, rfl, Or.inr (Or.inl rfl)⟩
  have hI : PlainVariable exIntObj :=
    ⟨⟨rfl, rfl, rfl, by decide, by decide⟩, [c!"builtins"], by simp, by
        intro x hx; rw [List.mem_singleton.mp hx]; unfold PySegment; decide, by decide, by decide⟩
  refine ⟨?_, ?_, ?_, ?_, ?_⟩
  · obtain ⟨fn, e1, -, e3, e4⟩ := hb.new (by decide) _ rfl (hR _)
    exact ⟨fn, e1, e3 (hno _ (by decide)), e4.binds _ rfl exMethodSig_plain⟩
  · obtain ⟨fn, e1, e3, e4⟩ := hb.call (by decide) _ rfl (hR _)
    exact ⟨fn, e1, e3 (hno _ (by decide)), e4.binds _ rfl exMethodSig_plain⟩
  · obtain ⟨fn, e1, ⟨e2, e3, -⟩ | ⟨-, -, e4⟩⟩ := hb.methods c!"run" (by decide) (by decide) (by decide) _ rfl (by unfold Kept; decide +kernel) (hR _) _ rfl
      (fun _ => ⟨_, List.mem_cons_self .., isIdent_ascii _ _ (by decide) (by decide), by decide⟩)
    · exact ⟨fn, e2, e1, e3.binds _ rfl exMethodSig_plain⟩
    · exact absurd (Or.inl rfl) (e4 exMethodSig_plain.good exMethodSig_plain.names)
  · exact hb.getters c!"kind" (by decide) (by decide) (fun h => by cases h) (fun h => by cases h) _ rfl (by unfold Kept; decide +kernel) hI
  · obtain ⟨fn, e1, e2, ty, -, e4⟩ := hb.setters c!"size" (by decide) _ rfl (by unfold Kept; decide +kernel) hI rfl (hno _ (by decide))
    exact ⟨fn, e1, e2, ty, e4⟩

/-- A module with a type variable. -/
def exTypingWorld : World where
  mods := [
    { name := some c!"conf", dir := [c!"T"],
      attrs := [(c!"T", { obj := { typeName := c!"TypeVar", typeModule := c!"typing", repr := c!"~T" } })] }]
  importMod s := if s = c!"conf" then some 0 else none

/-- The hypotheses of `C69_typeVars_partial`. -/
example : ∃ c1 items, (Codegen.new {}).moduleNames exEnv exTypingWorld 5 [c!"conf"] = .ok c1 ∧ c1.generate exEnv exTypingWorld 5 = .ok items ∧
    ∃ idents content, ModChain items idents content ∧ idents.map unraw = [c!"conf"] ∧ ∃ i, .typeAlias i ∈ content ∧ unraw i = c!"T" := by
  obtain ⟨c1, items, h1, h2⟩ := run_names (E := exEnv) (W := exTypingWorld) (fuel := 5) (cfg := {}) (names := [c!"conf"]) (by decide +kernel)
  obtain ⟨idents, content, g1, g2, g3⟩ := C69_typeVars_partial exEnv exTypingWorld 5 _ c1 _ items h1 h2 0 (.request (List.mem_singleton.mpr rfl) rfl) _ [c!"conf"] rfl rfl
    (by simp) (by
      intro s hs
      rw [List.mem_singleton.mp hs]
      exact ⟨by unfold PySegment; decide, isIdent_ascii _ _ (by decide) (by decide)⟩) (Or.inl rfl) rfl
  exact ⟨c1, items, h1, h2, idents, content, g1, g2, g3 c!"T" (by decide) (isIdent_ascii _ _ (by decide) (by decide)) (by decide) _ rfl
    (by unfold Kept; decide +kernel) ⟨⟨rfl, rfl, rfl, by decide, by decide⟩, Or.inl rfl⟩⟩

/-- A class of which the interpreter gives no signatures, as for classes written in C. -/
def exOpaque : PyClass where
  dir := [c!"run"]
  attrs := [(c!"run", { exFnObj c!"pkg" with fn := ⟨some c!"None", none, some .other⟩ })]

/-- **C69** fails for the methods of a class whose signature the interpreter does not give: the Rust type has no method `run`. (A function
of a module has a binding that passes on all arguments.) -/
theorem C69_method_counterexample :
    HasRoutine exOpaque c!"run" ∧
    (Class.parse exEnv {} exOpaque (Path.fromPy exEnv c!"pkg.K") >>= fun c =>
      c.generate exEnv {} (fun s => s = c!"pkg") []).map (fun k => k.map fun (k : ClassItem) =>
        (k.inherent.map (fun f => (f.sig.name)), k.traitImpls.map (fun f => (f.sig.name)))) = .ok (some ([], [])) := by
  refine ⟨⟨by decide, _, rfl, ?_⟩, by decide +kernel⟩
  unfold Routine
  decide

/-- A module with a bound method as an attribute, as `random` has `choice`. -/
def exBoundWorld : World where
  mods := [
    { name := some c!"conf", dir := [c!"choice"],
      attrs := [(c!"choice", { obj := { exFnObj c!"conf" with typeName := c!"method", isFunction := some false, isMethod := some true } })] }]
  importMod s := if s = c!"conf" then some 0 else none

/-- **C69** fails for bound methods: the module that is generated for `conf` is empty. -/
theorem C69_bound_counterexample :
    ((Codegen.new {}).moduleNames exEnv exBoundWorld 5 [c!"conf"] >>= fun c => c.generate exEnv exBoundWorld 5).map (exNamesAt [c!"conf"]) =
      .ok [([], [])] := by decide +kernel

end Bindgen

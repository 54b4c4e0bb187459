import Verif.Props.Arrival
import Verif.Lemmas.ParseComplete
import Verif.Spec.Kinds
import Verif.Props.Reached
import Verif.Props.Runtime
import Verif.Props.RoundTrip
/-!
# C69: every definition of a requested module has its binding
-/
namespace Bindgen
open Spec

/-! ## Classification -/

theorem determine_facts {E : Env} {o : PyObj} {p q : Path} {v : Variant} (h : determine E o p q true = .ok v) :
    ∃ f g, o.isFunction = some f ∧ o.isMethod = some g := by
  unfold determine at h
  obtain ⟨_, -, h⟩ := Res.bind_ok h
  obtain ⟨f, hf, h⟩ := Res.bind_ok h
  obtain ⟨g, hg, h⟩ := Res.bind_ok h
  refine ⟨f, g, ?_, ?_⟩
  · cases hx : o.isFunction with
    | none => rw [hx] at hf; cases hf
    | some x => rw [hx] at hf; cases hf; rfl
  · cases hx : o.isMethod with
    | none => rw [hx] at hg; cases hg
    | some x => rw [hx] at hg; cases hg; rfl

theorem determine_ownRoutine {E : Env} {o : PyObj} {nm : Str} {v : Variant} (ho : OwnRoutine nm o)
    (h : determine E o (Path.fromPy E o.modPath) (Path.fromPy E nm) true = .ok v) : v = .function := by
  obtain ⟨f, g, hf, hg⟩ := determine_facts h
  unfold determine at h
  obtain ⟨_, -, h⟩ := Res.bind_ok h
  obtain ⟨h1, h2, h3, h4⟩ := ho
  rw [hf, hg] at h h4
  rw [hf] at h3
  simp only [Res.orErr, Res.ok_bind, h1, h2, Bool.false_or, Res.pure_eq, Except.ok.injEq] at h
  rcases h4 with h4 | ⟨h4, h5⟩ | h4
  · rw [h4] at h
    have hor : (o.isCFunction || f) = true := by simpa using h3
    simpa [hor] using h.symm
  · have h4 := Option.some.inj h4
    have h5 := Option.some.inj h5
    subst h4 h5
    have hor : o.isCFunction = true := by simpa using h3
    simpa [hor] using h.symm
  · rw [(containsSub_iff _ _).mpr h4] at h
    have hor : (o.isCFunction || f) = true := by simpa using h3
    simpa [hor] using h.symm

theorem determine_ownClass {E : Env} {o : PyObj} {nm : Str} {v : Variant} (ho : OwnClass nm o)
    (h : determine E o (Path.fromPy E o.modPath) (Path.fromPy E nm) true = .ok v) : v = .class := by
  obtain ⟨f, g, hf, hg⟩ := determine_facts h
  unfold determine at h
  obtain ⟨_, -, h⟩ := Res.bind_ok h
  obtain ⟨h1, h2, h3⟩ := ho
  rw [hf, hg] at h
  simp only [Res.orErr, Res.ok_bind, h1, h2, h3, Res.pure_eq, Except.ok.injEq] at h
  simpa using h.symm

theorem determine_rest {E : Env} {o : PyObj} {p q : Path} {v : Variant} (ho : Variable o)
    (h : determine E o p q true = .ok v) :
    v = if (Path.fromPy E o.typeModule).toPy = c!"functools" ∧ (Ident.fromPy E o.typeName).asPy = c!"partial" then .closure
      else if (Path.fromPy E o.typeModule).toPy = c!"typing" ∨ (Path.fromPy E o.typeModule).toPy = c!"types" then .typeVar
      else .property := by
  obtain ⟨f, g, hf, hg⟩ := determine_facts h
  unfold determine at h
  obtain ⟨_, -, h⟩ := Res.bind_ok h
  obtain ⟨h1, h2, h3, h4, h5⟩ := ho
  rw [hf] at h4
  rw [hg] at h5
  have h4 : f = false := by simpa using h4
  have h5 : g = false := by simpa using h5
  subst h4 h5
  rw [hf, hg] at h
  simp only [Res.orErr, Res.ok_bind, h1, h2, h3, Res.pure_eq, Except.ok.injEq] at h
  rw [← h]
  simp [Bool.and_eq_true]

theorem determine_plain {E : Env} {o : PyObj} {p q : Path} {v : Variant} (ho : PlainVariable o)
    (h : determine E o p q true = .ok v) : v = .property := by
  obtain ⟨h1, segs, h2, h3, h4, h5⟩ := ho
  have hr : (Path.fromPy E o.typeModule).toPy = o.typeModule := DottedName.roundtrip E (Or.inr ⟨segs, h2, h3, h4⟩)
  rw [determine_rest h1 h, hr, if_neg fun hx => h5 (by rw [hx.1]; simp), if_neg fun hx => h5 (by rcases hx with hx | hx <;> rw [hx] <;> simp)]

theorem determine_typing {E : Env} {o : PyObj} {p q : Path} {v : Variant} (ho : TypingValue o)
    (h : determine E o p q true = .ok v) : v = .typeVar := by
  obtain ⟨h1, h2⟩ := ho
  have hr : (Path.fromPy E o.typeModule).toPy = o.typeModule := by
    refine DottedName.roundtrip E (Or.inr ⟨[o.typeModule], by simp, ?_, by simp [Str.join]⟩)
    intro x hx
    rw [List.mem_singleton.mp hx]
    rcases h2 with h2 | h2 <;> rw [h2] <;> (unfold PySegment; decide)
  rw [determine_rest h1 h, hr, if_neg fun hx => by rcases h2 with h2 | h2 <;> rw [h2] at hx <;> exact absurd hx.1 (by decide), if_pos h2]

theorem determine_partial {E : Env} {o : PyObj} {p q : Path} {v : Variant} (ho : PartialValue o)
    (h : determine E o p q true = .ok v) : v = .closure := by
  obtain ⟨h1, h2, h3⟩ := ho
  have hr : (Path.fromPy E o.typeModule).toPy = o.typeModule := by
    refine DottedName.roundtrip E (Or.inr ⟨[o.typeModule], by simp, ?_, by simp [Str.join]⟩)
    intro x hx
    rw [List.mem_singleton.mp hx, h2]
    unfold PySegment
    decide
  rw [determine_rest h1 h, hr, h2, h3, asPy_fromPy E (by decide), if_pos ⟨rfl, rfl⟩]

/-! ## Parsed modules -/

/-- The configuration never keeps the names that are left out of the bindings. -/
theorem kept_unreserved {E : Env} {cfg : Config} {s : Str} {o : PyObj} (hid : IsIdent E s) (hk : Kept E cfg s o) :
    s ∉ reservedFunctions := by
  intro hs
  unfold Kept Config.isAttrAllowed at hk
  rw [asPy_ident hid] at hk
  have : s ∈ forbiddenFunctionNames := by simpa [forbiddenFunctionNames, reservedFunctions] using hs
  simp [this] at hk

/-- **C69** (parsing): every attribute of a module that the configuration keeps becomes an item of that name, of the kind that the value
has: functions and values of `functools.partial` become functions, classes classes, values of `typing` type variables, and all other
values properties that can be written. -/
theorem C69_parsed (E : Env) (cfg : Config) (W : World) (fuel id : Nat) (m : Module) (h : Module.parse E cfg W fuel id = .ok m)
    (pm : PyMod) (nm : Str) (hget : W.get? id = some pm) (hname : pm.name = some nm) (s : Str) (hid : IsIdent E s) (hs : s ∈ pm.dir)
    (a : PyAttr) (ha : pm.getattr s = some a) (hk : Kept E cfg s a.obj) :
    (OwnRoutine nm a.obj → ∃ f ∈ m.functions, Function.parse E a.obj.fn (m.name.join (Path.ofIdent (Ident.fromPy E s))) .function = .ok f) ∧
    (PartialValue a.obj → ∃ f ∈ m.functions, Function.parse E a.obj.fn (m.name.join (Path.ofIdent (Ident.fromPy E s))) .closure = .ok f) ∧
    (OwnClass nm a.obj → ∃ c ∈ m.classes, Class.parse E cfg a.cls (m.name.join (Path.ofIdent (Ident.fromPy E s))) = .ok c) ∧
    (TypingValue a.obj → ⟨m.name.join (Path.ofIdent (Ident.fromPy E s))⟩ ∈ m.typeVars) ∧
    (PlainVariable a.obj → ∃ p ∈ m.properties, Property.parse E a.obj (m.name.join (Path.ofIdent (Ident.fromPy E s))) .module = .ok p) := by
  cases fuel with
  | zero => exact absurd h parse_zero
  | succ fuel =>
    obtain ⟨q⟩ := parse_parts h
    have hq := q.get
    rw [hget] at hq
    cases hq
    have hn := q.pmName
    rw [hname] at hn
    cases hn
    obtain ⟨st, st1, h1, h2⟩ := parts_step q (mem_moduleCandidates hid hs ha hk)
    unfold moduleStep at h1
    obtain ⟨v, hv, h1⟩ := Res.bind_ok h1
    simp only at hv
    rw [q.name] at hv
    refine ⟨fun ho => ?_, fun ho => ?_, fun ho => ?_, fun ho => ?_, fun ho => ?_⟩
    · obtain rfl := determine_ownRoutine ho hv
      obtain ⟨f, hf, h1⟩ := Res.bind_ok h1
      cases h1
      exact ⟨f, h2 (.function f) (mem_snoc.mpr (Or.inr rfl)), hf⟩
    · obtain rfl := determine_partial ho hv
      obtain ⟨f, hf, h1⟩ := Res.bind_ok h1
      cases h1
      exact ⟨f, h2 (.function f) (mem_snoc.mpr (Or.inr rfl)), hf⟩
    · obtain rfl := determine_ownClass ho hv
      obtain ⟨f, hf, h1⟩ := Res.bind_ok h1
      cases h1
      exact ⟨f, h2 (.class f) (mem_snoc.mpr (Or.inr rfl)), hf⟩
    · obtain rfl := determine_typing ho hv
      cases h1
      exact h2 (.typeVar _) (mem_snoc.mpr (Or.inr rfl))
    · obtain rfl := determine_plain ho hv
      obtain ⟨f, hf, h1⟩ := Res.bind_ok h1
      cases h1
      exact ⟨f, h2 (.property f) (mem_snoc.mpr (Or.inr rfl)), hf⟩

/-! ## Functions -/

/-- The Rust name of the function for the Python function `s`: the five names that Rust cannot spell get a prefix. -/
def Spec.rustFunction (s : Str) : Str := if s ∈ unspellable then c!"f_" ++ s else s

theorem function_ident {E : Env} {n : Str} (hid : IsIdent E n) (hr : n ∉ reservedFunctions) :
    ∃ t, Function.ident E (Ident.fromPy E n) = some t ∧ unraw t = rustFunction n := by
  unfold rustFunction
  by_cases hs : n ∈ unspellable
  · have hf : IsIdent E (c!"f_" ++ n) := isIdent_prefix (isIdent_ascii E _ (by decide) (by decide)) hid
    have hnu : c!"f_" ++ n ∉ unspellable := by simp [unspellable]
    obtain ⟨t, ht, hu⟩ := spelled hf hnu
    refine ⟨t, ?_, by rw [if_pos hs]; exact hu⟩
    have hsan : sanitize E c!"f_" (Ident.fromPy E n) = Ident.fromPy E (c!"f_" ++ n) := by
      unfold sanitize
      rw [asPy_ident hid]
      congr 2
      conv_rhs => rw [← List.map_id n]
      refine List.map_congr_left fun x hx => ?_
      have hx : x.toNat < 128 ∧ (asciiLetter x || asciiDigit x) = true ∨ x = '_' := by
        simp only [unspellable, List.mem_cons, List.not_mem_nil, or_false] at hs
        revert x hx
        rcases hs with rfl | rfl | rfl | rfl | rfl <;> decide
      rcases hx with ⟨h1, h2⟩ | rfl
      · rw [E.alnum_ascii x h1, h2]; rfl
      · split <;> rfl
    unfold Function.ident
    rw [toSyn_ident hid, if_pos hs]
    simp only
    rw [hsan, ht]
  · obtain ⟨t, ht, hu⟩ := spelled hid hs
    refine ⟨t, ?_, by rw [if_neg hs]; exact hu⟩
    unfold Function.ident
    rw [ht, asPy_ident hid]
    have : forbiddenFunctionNames.contains n = false := by simpa [forbiddenFunctionNames, reservedFunctions] using hr
    simp only [this, Bool.false_eq_true, if_false]

/-- A function of a module gives one Rust function of its name. -/
theorem function_func {E : Env} {cfg : Config} {imp : Str → Bool} {taken : List Ident} {lt : LocalTypes} {f : Function} {r : FnImpl}
    (h : f.generate E cfg imp taken lt = .ok r) (hfree : Free f) {n : Str} (hid : IsIdent E n)
    (hr : n ∉ reservedFunctions) (hl : f.name.segs.getLast? = some (Ident.fromPy E n)) :
    ∃ fn, r = .func [fn] ∧ unraw fn.sig.name = rustFunction n := by
  obtain ⟨t, hfi, hu⟩ := function_ident hid hr
  unfold Function.generate at h
  rw [name_ok hl, Res.ok_bind, hfi] at h
  simp only at h
  obtain ⟨idents, -, h⟩ := Res.bind_ok h
  obtain ⟨pres, -, h⟩ := Res.bind_ok h
  obtain ⟨types, -, h⟩ := Res.bind_ok h
  obtain ⟨ret, -, h⟩ := Res.bind_ok h
  obtain ⟨sig, hsig, h⟩ := Res.bind_ok h
  obtain ⟨obj?, hobj, h⟩ := Res.bind_ok h
  have hsig' : sig.recv = .py ∧ sig.name = t := by
    unfold Function.contract at hsig
    rcases hfree with hfree | hfree <;> (rw [hfree] at hsig; cases hsig; exact ⟨rfl, rfl⟩)
  have hobj' : ∃ o, obj? = some o := by
    unfold dispatcher at hobj
    rcases hfree with hfree | hfree <;>
      (rw [hfree] at hobj
       obtain ⟨_, -, hobj⟩ := Res.bind_ok hobj
       obtain ⟨_, -, hobj⟩ := Res.bind_ok hobj
       cases hobj
       exact ⟨_, rfl⟩)
  obtain ⟨o, rfl⟩ := hobj'
  simp only at h
  obtain ⟨pos, -, h⟩ := Res.bind_ok h
  obtain ⟨kw, -, h⟩ := Res.bind_ok h
  rw [hsig'.1] at h
  cases h
  refine ⟨_, rfl, ?_⟩
  simp only [hsig'.2]
  exact hu

theorem content_generates {E : Env} {cfg : Config} {imp : Str → Bool} {tops : List Module} {ts : List Path} {m : Module}
    {out : List Item} (h : m.content E cfg imp tops ts = .ok out) (hc : cfg.generateFunctions = true) {f : Function}
    (hf : f ∈ m.functions) (hfree : Free f) {n : Str} (hid : IsIdent E n)
    (hr : n ∉ reservedFunctions) (hl : f.name.segs.getLast? = some (Ident.fromPy E n)) :
    ∃ taken lt fn, f.generate E cfg imp taken lt = .ok (.func [fn]) ∧ .func fn ∈ out ∧ unraw fn.sig.name = rustFunction n := by
  obtain ⟨p⟩ := content_parts h
  have hp := p.functionsOk
  rw [hc] at hp
  obtain ⟨l, hlm, hg⟩ := traverse_mem' hp hf
  obtain ⟨r, hr1, hr2⟩ := Res.bind_ok hg
  obtain ⟨fn, rfl, hu⟩ := function_func hr1 hfree hid hr hl
  cases hr2
  refine ⟨_, _, fn, hr1, ?_, hu⟩
  rw [p.content]
  simp only [List.mem_append, List.mem_flatten]
  exact Or.inl (Or.inr ⟨_, hlm, by simp⟩)

/-- The parameters of a callable that are left to the caller: all, or all but the receiver. -/
def Spec.callerParams (bound : Bool) (ps : List PyParam) : List PyParam := if bound then ps.tail else ps

/-- A signature without the names the code replaces: no parameter is called `_`, none that is left to the caller is called `self`; and a
receiver is positional. -/
structure Spec.PlainSig (E : Env) (bound : Bool) (ps : List PyParam) : Prop where
  good : GoodSig E ps
  names : ∀ p ∈ ps, p.name ≠ c!"_"
  self : ∀ p ∈ callerParams bound ps, p.name ≠ c!"self"
  receiver : bound = true → ∃ p rest, ps = p :: rest ∧ (p.kind = .positionalOnly ∨ p.kind = .positionalOrKeyword)

/-- The Rust function, called on an object (`tok` is `.self`) or with the token (`.py`), takes one argument for each parameter of the
callable that is left to the caller. Whatever it is given, it calls an object of `T`, or its attribute `meth`, and by the rules of Python every
parameter gets what arrives for the argument in its place (`Spec.arrival`: the argument itself, but `{}` for `None` as an optional dictionary of
pyo3), and a receiver whatever object the callable is bound to. The conditions are those of C25: the arguments have the types of the Rust
parameters, and the keys of `**kwargs` are not names of parameters. -/
structure Spec.CallsWith (E : Env) (tok : Recv) (T : Obj → Prop) (meth : Option Str) (bound : Bool) (ps : List PyParam) (fn : Fn) : Prop where
  arity : fn.sig.params.length = (callerParams bound ps).length
  binds : ∀ recv args, args.length = (callerParams bound ps).length → (∀ e ∈ fn.sig.params.zip args, Admits e.1.2 e.2) →
    (∀ e ∈ (callerParams bound ps).zip args, e.1.kind = .varKeyword → ∀ d, e.2 = .dict d → ∀ k ∈ d.map Prod.fst, k ∉ keywordNames ps) →
    ∃ obj pos kw, Makes fn.tree tok args (some (.call obj meth pos kw)) ∧ T obj ∧
      Spec.bind ps ((if bound then [recv] else []) ++ pos) kw =
        some (List.zipWith (fun p v => (p.name, boundTo p.kind v)) ps ((if bound then [recv] else []) ++ arrivals fn.sig.params args))

/-- The Rust function calls an object of `T`, or its attribute `meth`, and passes on positional and keyword arguments. -/
def Spec.PassesOn (tok : Recv) (T : Obj → Prop) (meth : Option Str) (fn : Fn) : Prop :=
  fn.sig.params.length = 2 ∧ ∀ l d, ∃ obj kw, Makes fn.tree tok [.tuple l, .dict d] (some (.call obj meth l kw)) ∧ T obj ∧
    ∀ k, kw.lookup k = d.lookup k

/-- The Rust function calls an object of `T`, or its attribute `meth`, whatever it is given. If the callable `pf` has a signature, then it takes
one argument for each parameter that is left to the caller, and the call binds every parameter to the argument in its place; otherwise it takes and
passes on positional and keyword arguments. Whatever Rust value is given for a parameter whose annotation is read as a tight type, what
arrives has this type; for every value of a passable type a Rust value can be given that arrives as an equal one; and a result of the type
that the annotation of the result is read as can be extracted. -/
structure Spec.ForwardsTo (E : Env) (tok : Recv) (T : Obj → Prop) (meth : Option Str) (bound : Bool) (pf : PyFn) (fn : Fn) : Prop where
  target : ∀ args r, Makes fn.tree tok args (some r) → ∃ obj pos kw, r = .call obj meth pos kw ∧ T obj
  binds : ∀ sg, pf.sig = some sg → PlainSig E bound sg.params → CallsWith E tok T meth bound sg.params fn
  builtin : pf.sig = none → PassesOn tok T meth fn
  typed : ∀ sg, pf.sig = some sg → PlainSig E bound sg.params → ∀ e ∈ (callerParams bound sg.params).zip fn.sig.params,
    e.1.kind ≠ .varPositional → e.1.kind ≠ .varKeyword → ∀ t, readAnn E e.1.ann = .ok t →
    (Tight (NumpyArray E) t → ∀ v, Passed e.2.2 v → HasTy (NumpyArray E) t v) ∧
    (Passable t → ∀ v, HasTy (NumpyArray E) t v → ∃ w, Equals v w ∧ Passed e.2.2 w)
  returns : ∀ sg, pf.sig = some sg → ∀ t, readAnn E sg.ret = .ok t → ∀ ty, fn.sig.ret = .ty ty →
    ∀ v, HasTy (NumpyArray E) t v → Extracts v ty
  returnsAny : pf.sig = none → ∀ ty, fn.sig.ret = .ty ty → ∀ v, Extracts v ty

/-- The Rust function calls the attribute `s` of the module `segs`, a function that is not bound to anything; `imp` are the modules that can be imported. -/
def Spec.Forwards (E : Env) (imp : Str → Bool) (segs : List Str) (s : Str) (pf : PyFn) (fn : Fn) : Prop :=
  ForwardsTo E .py (Refers imp segs) (some s) false pf fn

/-- The parameters of a callable, if none is called `_` and none that is left to the caller `self`. -/
theorem parse_plain {E : Env} {pf : PyFn} {name : Path} {typ : FnType} {f : Function} {sg : PySig}
    (hs : pf.sig = some sg) (h : Function.parse E pf name typ = .ok f) (hg : GoodSig E sg.params) (hn : ∀ p ∈ sg.params, p.name ≠ c!"_")
    (hself : ∀ p ∈ callerParams (hasReceiver f.typ) sg.params, p.name ≠ c!"self") :
    ∃ g : PyParam → Param, f.params = (callerParams (hasReceiver f.typ) sg.params).map g ∧ ∀ p ∈ sg.params, parseParam E p = .ok (g p) := by
  obtain ⟨ps, typ2, ps2, hps, hsc, -, htyp, -, -, ps3, h3, hf⟩ := parse_sig hs h
  have hus := parseParams_rs hps hg.ident (k := c!"_") (by decide)
  have hsf := parseParams_rs hps hg.ident (k := c!"self") (by decide)
  obtain ⟨g, rfl, hgp⟩ := parseParams_ok hps
  have hfil : (sg.params.map g).filter (fun p => p.name.rs ≠ c!"r#_") = sg.params.map g := by
    rw [List.filter_eq_self]
    intro q hq
    obtain ⟨p, hp, rfl⟩ := List.mem_map.mp hq
    have : (g p).name.asPy = p.name := by rw [(parseParam_ok (hgp p hp)).1, asPy_ident (hg.ident p hp)]
    simpa using fun hx => hn p hp (this ▸ (hus _ hq).mp hx)
  rw [hfil] at hsc
  have hns : ∀ p ∈ callerParams (hasReceiver f.typ) sg.params, (g p).name.rs ≠ c!"r#self" := by
    intro p hp hx
    have hpm : p ∈ sg.params := by
      unfold callerParams at hp
      split at hp
      · exact List.mem_of_mem_tail hp
      · exact hp
    have : (g p).name.asPy = p.name := by rw [(parseParam_ok (hgp p hpm)).1, asPy_ident (hg.ident p hpm)]
    exact hself p hp (this ▸ (hsf _ (List.mem_map_of_mem hpm)).mp hx)
  have hfree : isFree (inferMethod typ pf.dictKind) = true → typ2 = inferMethod typ pf.dictKind → hasReceiver f.typ = false := by
    intro h1 h2
    rw [htyp, h2]
    cases hi : inferMethod typ pf.dictKind with
    | method c k => rw [hi] at h1; cases h1
    | _ => rfl
  have h2 : ps2 = sg.params.map g := by
    rcases selfCheck_cases _ _ _ _ hsc with ⟨h1, -⟩ | ⟨e1, e2, h1, -⟩ | ⟨e1, e2, p, rest, h1, h2, -⟩
    · exact h1
    · rw [hfree e2 e1] at hns
      unfold firstIsSelf at h1
      cases hl : sg.params with
      | nil => rw [hl] at h1; simp at h1
      | cons q r =>
        rw [hl] at h1
        exact absurd (by simpa using h1) (hns q (by simp [callerParams, hl]))
    · rw [hfree e2 e1] at hns
      cases hl : sg.params with
      | nil => rw [hl] at h1; simp at h1
      | cons q r =>
        rw [hl] at h1
        simp only [List.map_cons, List.cons.injEq] at h1
        exact absurd (h1.1 ▸ h2) (hns q (by simp [callerParams, hl]))
  subst h2
  have h4 := dropReceiver_ok h3
  have h5 : ps3 = (callerParams (hasReceiver f.typ) sg.params).map g := by
    rw [h4]
    unfold callerParams
    split <;> simp
  refine ⟨g, ?_, hgp⟩
  rw [hf, h5]
  rcases replaceSelf_cases ((callerParams (hasReceiver f.typ) sg.params).map g) with ⟨h6, -⟩ | ⟨-, q, hq, h6⟩
  · exact h6
  · obtain ⟨p, hp, rfl⟩ := List.mem_map.mp hq
    exact absurd h6 (hns p hp)

theorem mem_zipWith {α β γ : Type} {f : α → β → γ} {l : List α} {l' : List β} {c : γ} (h : c ∈ List.zipWith f l l') :
    ∃ e ∈ l.zip l', c = f e.1 e.2 := by
  rw [← List.map_uncurry_zip_eq_zipWith] at h
  obtain ⟨e, he, rfl⟩ := List.mem_map.mp h
  exact ⟨e, he, rfl⟩

theorem makes_run {fn : Fn} (hs : fn.Sane) {args : List PyVal} {r : Option Request} : Makes fn.tree fn.sig.recv args r ↔ run fn args = r := by
  unfold Makes
  rw [eval_fn hs args]
  constructor
  · intro h
    cases hr : run fn args with
    | none => rw [hr] at h; cases r with | none => rfl | some => cases h
    | some x => rw [hr] at h; cases r with | none => cases h | some y => cases h; rfl
  · rintro rfl; rfl

theorem run_target {fn : Fn} {obj : Obj} {meth : Option Str} {pos : Option Pos} {kw : Option Kw} (hb : fn.body = .call obj meth pos kw)
    {args : List PyVal} {r : Request} (h : run fn args = some r) : ∃ pos kw, r = .call obj meth pos kw := by
  rw [run, hb] at h
  split at h
  · cases h
  · split at h
    · cases h
    · simp only [Option.bind_eq_bind, Option.bind_eq_some_iff] at h
      obtain ⟨x, -, y, -, h⟩ := h
      cases h
      exact ⟨x, y, rfl⟩

theorem generated_arity {E : Env} {cfg : Config} {imp : Str → Bool} {taken : List Ident} {lt : LocalTypes} {f : Function} {r : FnImpl}
    (hg : f.generate E cfg imp taken lt = .ok r) {fn : Fn} (hfn : fn ∈ fnsOf r) : fn.sig.params.length = f.params.length := by
  obtain ⟨name, ident, idents, pres, types, ret, sig, obj, pos, kw, -, -, h1, h2, h3, -, h5, h6, h7, h8, rfl, -⟩ := generate_fn hg hfn
  have l1 := Res.traverse_length h1
  have l2 := Res.traverse_length h3
  rw [contract_params h5]
  simp [l1, l2]

/-- A function that is generated for a callable with a signature calls it with its arguments. -/
theorem calls_with {E : Env} {cfg : Config} {imp : Str → Bool} {taken : List Ident} {lt : LocalTypes} {pf : PyFn} {name : Path} {typ : FnType}
    {f : Function} {sg : PySig} (hsg : pf.sig = some sg) (hp : Function.parse E pf name typ = .ok f) {r : FnImpl}
    (hg : f.generate E cfg imp taken lt = .ok r) {fn : Fn} (hfn : fn ∈ fnsOf r) (hs : PlainSig E (hasReceiver f.typ) sg.params)
    {obj : Obj} {meth : Option Str} {pos : Option Pos} {kw : Option Kw} (hb : fn.body = .call obj meth pos kw) {T : Obj → Prop} (hT : T obj) :
    CallsWith E fn.sig.recv T meth (hasReceiver f.typ) sg.params fn := by
  have hsane := function_sane hg hfn
  have har := generated_arity hg hfn
  obtain ⟨g, h1, h2⟩ := parse_plain hsg hp hs.good hs.names hs.self
  have hsub : ∀ p ∈ callerParams (hasReceiver f.typ) sg.params, p ∈ sg.params := by
    intro p hp
    unfold callerParams at hp
    split at hp
    · exact List.mem_of_mem_tail hp
    · exact hp
  refine ⟨by rw [har, h1, List.length_map], ?_⟩
  intro recv args hlen hadm hkeys
  have hsup : supplied f.params args =
      List.zipWith (fun p v => (⟨p.kind, p.name, v⟩ : Arg)) (callerParams (hasReceiver f.typ) sg.params) args := by
    unfold supplied
    rw [h1, List.zipWith_map_left, ← List.map_uncurry_zip_eq_zipWith, ← List.map_uncurry_zip_eq_zipWith]
    refine List.map_congr_left fun e he => ?_
    have hm := hsub _ (List.of_mem_zip he).1
    obtain ⟨g1, g2, -⟩ := parseParam_ok (h2 _ hm)
    simp only [Function.uncurry, g1, g2, asPy_ident (hs.good.ident _ hm)]
  obtain ⟨obj', meth', x, y, hrun, hbind⟩ := C25_arrivals_partial (args := args) recv hsg hs.good hp hg hfn hs.names
    (by
      intro hx
      obtain ⟨p, hp, hx⟩ := List.mem_map.mp hx
      exact hs.self p hp hx) hs.receiver (by rw [hlen, har, h1, List.length_map]) hadm
    (by
      intro k hk
      rw [hsup] at hk
      unfold starStarVals at hk
      obtain ⟨x, hx, rfl⟩ := List.mem_map.mp hk
      obtain ⟨a, ha, hx⟩ := List.mem_flatMap.mp hx
      obtain ⟨e, he, rfl⟩ := mem_zipWith ha
      simp only at hx
      split at hx
      · rename_i hkind
        cases hv : e.2 with
        | dict d =>
          rw [hv] at hx
          exact hkeys e he hkind d hv x.1 (List.mem_map_of_mem hx)
        | _ => rw [hv] at hx; cases hx
      · cases hx)
  obtain ⟨x', y', he⟩ := run_target hb hrun
  cases he
  exact ⟨obj, x, y, (makes_run hsane).mpr hrun, hT, hbind⟩

/-- A function that is generated for a callable without a signature passes its arguments on. -/
theorem passes_on {E : Env} {cfg : Config} {imp : Str → Bool} {taken : List Ident} {lt : LocalTypes} {pf : PyFn} {name : Path} {typ : FnType}
    {f : Function} (hsg : pf.sig = none) (hp : Function.parse E pf name typ = .ok f) {r : FnImpl}
    (hg : f.generate E cfg imp taken lt = .ok r) {fn : Fn} (hfn : fn ∈ fnsOf r)
    {obj : Obj} {meth : Option Str} {pos : Option Pos} {kw : Option Kw} (hb : fn.body = .call obj meth pos kw) {T : Obj → Prop} (hT : T obj) :
    PassesOn fn.sig.recv T meth fn := by
  have hsane := function_sane hg hfn
  have har := generated_arity hg hfn
  obtain ⟨-, h1, h2, -⟩ := parse_nosig hsg hp
  have hl : fn.sig.params.length = 2 := by rw [har, h2]; rfl
  refine ⟨hl, fun l d => ?_⟩
  obtain ⟨obj', meth', y, hrun, hlook, -⟩ := C24_forwarding_partial (args := [.tuple l, .dict d]) (h2 ▸ argsKwargs_wf E) hg hfn (by rw [hl]; rfl)
    (by
      obtain ⟨name, ident, idents, pres, types, ret, sig, obj, pos, kw, -, -, g1, -, g3, -, g5, -, -, -, rfl, -⟩ := generate_fn hg hfn
      rw [h2] at g1 g3
      obtain ⟨i1, -, g1⟩ := Res.bind_ok g1
      obtain ⟨is, e1, g1⟩ := Res.bind_ok g1
      obtain ⟨i2, -, e1⟩ := Res.bind_ok e1
      cases e1
      cases g1
      cases g3
      have hps : sig.params = [(i1, .implIntoPy c!"PyTuple"), (i2, .option (.bound c!"PyDict"))] := contract_params g5
      intro e he
      rw [hps] at he
      simp only [List.zip_cons_cons, List.mem_cons] at he
      rcases he with rfl | rfl | he
      · exact fun _ => ⟨l, rfl⟩
      · exact fun _ => Or.inr ⟨d, rfl⟩
      · cases he)
    (by
      intro e he
      rw [h2] at he
      simp only [List.zip_cons_cons, List.mem_cons] at he
      rcases he with rfl | rfl | he
      · intro _ hx; cases hx
      · intro _ hx; cases hx
      · cases he)
  obtain ⟨x', y', he⟩ := run_target hb hrun
  cases he
  have hp : positionalVals (supplied f.params [.tuple l, .dict d]) ++ starVals (supplied f.params [.tuple l, .dict d]) = l := by
    rw [h2]; simp [supplied, positionalVals, starVals, argsParam, kwargsParam, elems]
  rw [hp] at hrun
  refine ⟨obj, y, (makes_run hsane).mpr hrun, hT, fun k => ?_⟩
  rw [hlook k, h2]
  simp [supplied, keywordVals, starStarVals, argsParam, kwargsParam, entries]

theorem contract_ret_ty {E : Env} {typ : FnType} {ident : Str} {taken : List Ident} {params : List (Str × RsTy)}
    {ret : RsTy} {sig : Sig} (h : Function.contract E typ ident taken params ret = .ok sig) {ty : RsTy} (ht : sig.ret = .ty ty) : ty = ret := by
  unfold Function.contract at h
  split at h
  · cases h; cases ht; rfl
  · obtain ⟨i, -, h⟩ := Res.bind_ok h
    obtain ⟨j, -, h⟩ := Res.bind_ok h
    cases h; cases ht; rfl
  · obtain ⟨i, -, h⟩ := Res.bind_ok h
    obtain ⟨j, -, h⟩ := Res.bind_ok h
    cases h; cases ht
  · cases h; cases ht; rfl

/-- **C78**, **C79** (functions, partial): what arrives for a parameter has the type its annotation is read as, if this is tight, and every value of the type
can be passed, if it is passable. -/
theorem C78_parameters_partial {E : Env} {cfg : Config} {imp : Str → Bool} {taken : List Ident} {lt : LocalTypes} {pf : PyFn} {name : Path} {typ : FnType}
    {f : Function} {sg : PySig} (hsg : pf.sig = some sg) (hp : Function.parse E pf name typ = .ok f) {r : FnImpl}
    (hg : f.generate E cfg imp taken lt = .ok r) {fn : Fn} (hfn : fn ∈ fnsOf r) (hpl : PlainSig E (hasReceiver f.typ) sg.params) :
    ∀ e ∈ (callerParams (hasReceiver f.typ) sg.params).zip fn.sig.params,
      e.1.kind ≠ .varPositional → e.1.kind ≠ .varKeyword → ∀ t, readAnn E e.1.ann = .ok t →
      (Tight (NumpyArray E) t → ∀ v, Passed e.2.2 v → HasTy (NumpyArray E) t v) ∧
      (Passable t → ∀ v, HasTy (NumpyArray E) t v → ∃ w, Equals v w ∧ Passed e.2.2 w) := by
  obtain ⟨g, hps, hgp⟩ := parse_plain hsg hp hpl.good hpl.names hpl.self
  obtain ⟨_, _, idents, pres, types, ret, sig, _, _, _, -, -, hi, -, ht, -, hc, -, -, -, rfl, -⟩ := generate_fn hg hfn
  rintro ⟨p, i, ty⟩ he hk1 hk2 t hr
  simp only [contract_params hc] at he hk1 hk2 hr ⊢
  have hpm : p ∈ sg.params := by
    have := (List.of_mem_zip he).1
    unfold callerParams at this
    split at this
    · exact List.mem_of_mem_tail this
    · exact this
  obtain ⟨n, hn⟩ := List.mem_iff_getElem?.mp he
  obtain ⟨hn1, hn2⟩ := List.getElem?_zip_eq_some.mp hn
  obtain ⟨-, hn3⟩ := List.getElem?_zip_eq_some.mp hn2
  have hb := traverse_zip ht (g p, ty) (List.mem_iff_getElem?.mpr ⟨n, List.getElem?_zip_eq_some.mpr ⟨by
    rw [hps, List.getElem?_map]; simp only at hn1; rw [hn1]; rfl, hn3⟩⟩)
  have ha := (parseParam_ok (hgp p hpm)).2.2.2.2.2 hk1 hk2
  rw [hr] at ha
  have ha : t = (g p).ann := by injection ha
  simp only [← ha] at hb
  unfold intoRsBorrowed at hb
  obtain ⟨⟨o, b⟩, h1, h2⟩ := Res.bind_ok hb
  cases h2
  exact ⟨fun hti v hv => C78_arguments_partial E lt t o b h1 hti v (Or.inr hv), fun hpa v hv => (C79_passable_partial E lt t o b h1 hpa v hv).2⟩

theorem forwards_to {E : Env} {cfg : Config} {imp : Str → Bool} {taken : List Ident} {lt : LocalTypes} {pf : PyFn} {name : Path} {typ : FnType}
    {f : Function} (hp : Function.parse E pf name typ = .ok f) {r : FnImpl}
    (hg : f.generate E cfg imp taken lt = .ok r) {fn : Fn} (hfn : fn ∈ fnsOf r)
    {obj : Obj} {meth : Option Str} {pos : Option Pos} {kw : Option Kw} (hb : fn.body = .call obj meth pos kw) {T : Obj → Prop} (hT : T obj) :
    ForwardsTo E fn.sig.recv T meth (hasReceiver f.typ) pf fn := by
  constructor
  · intro args r h
    obtain ⟨x, y, rfl⟩ := run_target hb ((makes_run (function_sane hg hfn)).mp h)
    exact ⟨obj, x, y, rfl, hT⟩
  · intro sg hsg hplain
    exact calls_with hsg hp hg hfn hplain hb hT
  · intro hsg
    exact passes_on hsg hp hg hfn hb hT
  · intro sg hsg hpl
    exact C78_parameters_partial hsg hp hg hfn hpl
  · intro sg hsg t hr ty hty v hv
    obtain ⟨_, _, _, -, -, -, -, h1, -⟩ := parse_sig hsg hp
    rw [hr] at h1
    have h1 : t = f.ret := by injection h1
    obtain ⟨_, _, _, _, _, ret, sig, _, _, _, -, -, -, -, -, h2, hc, -, -, -, rfl, -⟩ := generate_fn hg hfn
    obtain rfl := contract_ret_ty hc hty
    obtain ⟨b, h3⟩ := intoRsOwned_ok h2
    exact C21_extract_partial E lt t v _ b (h1 ▸ h3) hv
  · intro hsg ty hty v
    obtain ⟨-, -, -, h1, -⟩ := parse_nosig hsg hp
    obtain ⟨_, _, _, _, _, ret, sig, _, _, _, -, -, -, -, -, h2, hc, -, -, -, rfl, -⟩ := generate_fn hg hfn
    obtain rfl := contract_ret_ty hc hty
    rw [h1] at h2
    obtain ⟨b, h3⟩ := intoRsOwned_ok h2
    exact C21_extract_partial E lt .unknown v _ b h3 (.unknown _)

theorem forwards_of {E : Env} {cfg : Config} {imp : Str → Bool} {taken : List Ident} {lt : LocalTypes} {segs : List Str} {s : Str}
    (hne : segs ≠ []) (hseg : ∀ s ∈ segs, PySegment s) (hs : PySegment s) {pf : PyFn} {typ : FnType} (ht : typ = .function ∨ typ = .closure)
    {f : Function} (hp : Function.parse E pf (Path.fromPy E (Str.join c!"." (segs ++ [s]))) typ = .ok f) {fn : Fn}
    (hg : f.generate E cfg imp taken lt = .ok (.func [fn])) : Forwards E imp segs s pf fn := by
  have hfn : fn ∈ fnsOf (.func [fn]) := by simp [fnsOf]
  have hfree := parse_free ht hp
  obtain ⟨obj, meth, pos, kw, hbody, htar⟩ := C27_dispatch hg hfn hne hseg hs hne hseg (function_parse_name hp) (by
    intro c k hc
    rcases hfree with hf | hf <;> rw [hf] at hc <;> cases hc)
  have htar : Denotes obj segs ∧ meth = some s := by rcases hfree with hf | hf <;> rw [hf] at htar <;> exact htar
  obtain ⟨-, rfl⟩ := htar
  have hden : Refers imp segs obj := by
    have hd := generate_dispatch hg hfn (.inl ⟨_, _, _, hbody⟩)
    obtain ⟨hpar, -⟩ := parent_fromPy E hne hseg hs
    rw [function_parse_name hp] at hd
    rcases hfree with hf | hf <;> rw [hf] at hd <;> simp only [dispatcher, hpar, Res.ofOption, Res.ok_bind] at hd <;>
      (obtain ⟨o, ho, hd⟩ := Res.bind_ok hd; cases hd; exact quote_refers E hne hseg ho)
  have hrecv : hasReceiver f.typ = false := by rcases hfree with hf | hf <;> rw [hf] <;> rfl
  have hpy : fn.sig.recv = .py := by
    obtain ⟨name, ident, idents, pres, types, ret, sig, obj, pos, kw, -, -, h1, h2, h3, -, h5, h6, h7, h8, rfl, -⟩ := generate_fn hg hfn
    unfold Function.contract at h5
    rcases hfree with hf | hf <;> rw [hf] at h5 <;> cases h5 <;> rfl
  have := forwards_to hp hg hfn hbody (T := Refers imp segs) hden
  rwa [hpy, hrecv] at this

/-- **C69** (functions, partial): every function of a module that a request reaches and that the configuration keeps has a Rust function of its name in
the nested modules that spell the name of the module, and this function forwards to it. Missing: bound methods (`C69_bound_counterexample`), and the case that submodules are not traversed and the name of the module is dotted
(`C39_no_traversal_counterexample`). -/
theorem C69_functions_partial (E : Env) (W : World) (fuel : Nat) (c c1 : Codegen) (names : List Str) (items : List Item)
    (h1 : c.moduleNames E W fuel names = .ok c1) (h2 : c1.generate E W fuel = .ok items)
    (id : Nat) (hr : Reached E c.cfg W names id) (pm : PyMod) (segs : List Str)
    (hp : W.get? id = some pm) (hname : pm.name = some (Str.join c!"." segs)) (hne : segs ≠ [])
    (hs : ∀ s ∈ segs, PyIdent E s) (ht : c.cfg.traverseSubmodules = true ∨ segs.length = 1) (hc : c.cfg.generateFunctions = true) :
    ∃ idents content, ModChain items idents content ∧ idents.map unraw = segs ∧
      ∀ s ∈ pm.dir, PyIdent E s → ∀ a, pm.getattr s = some a → Kept E c.cfg s a.obj →
        OwnRoutine (Str.join c!"." segs) a.obj ∨ PartialValue a.obj →
        ∃ fn, .func fn ∈ content ∧ unraw fn.sig.name = rustFunction s ∧ Forwards E W.importable segs s a.obj.fn fn := by
  obtain ⟨m, idents, content, out, M, ts, own, hm, hmn, g1, g2, -, -, -, g6, g7, g8, -⟩ := reached_content h1 h2 hr hp hname hne hs ht
  refine ⟨idents, content, g1, g2, ?_⟩
  intro s hsd hsi a ha hk ho
  have hsr := kept_unreserved hsi.2 hk
  obtain ⟨k1, k2, -⟩ := C69_parsed E c.cfg W fuel id m hm pm _ hp hname s hsi.2 hsd a ha hk
  have hfull : m.name.join (Path.ofIdent (Ident.fromPy E s)) = Path.fromPy E (Str.join c!"." (segs ++ [s])) := by
    rw [fromPy_join E (by simp) fun x hx => ?_, hmn]
    · simp [Path.join, Path.ofIdent]
    · rcases mem_snoc.mp hx with hx | rfl
      · exact (hs x hx).1
      · exact hsi.1
  have key : ∀ typ, (typ = .function ∨ typ = .closure) → ∀ f ∈ m.functions,
      Function.parse E a.obj.fn (m.name.join (Path.ofIdent (Ident.fromPy E s))) typ = .ok f →
      ∃ fn, .func fn ∈ content ∧ unraw fn.sig.name = rustFunction s ∧ Forwards E W.importable segs s a.obj.fn fn := by
    intro typ htyp f hf hpf
    obtain ⟨taken, lt, fn, e1, e2, e3⟩ := content_generates g7 hc (g6 (.function f) hf) (parse_free htyp hpf) hsi.2 hsr (by
      rw [function_parse_name hpf]; simp [Path.join, Path.ofIdent])
    refine ⟨fn, g8 _ e2, e3, ?_⟩
    rw [hfull] at hpf
    exact forwards_of hne (fun s h => (hs s h).1) hsi.1 htyp hpf e1
  rcases ho with ho | ho
  · obtain ⟨f, hf, hpf⟩ := k1 ho
    exact key _ (Or.inl rfl) f hf hpf
  · obtain ⟨f, hf, hpf⟩ := k2 ho
    exact key _ (Or.inr rfl) f hf hpf

/-! ## Variables -/

/-- The Rust function takes no argument besides the object or token and reads the attribute `s` of an object of `T`. Values of the type of the
attribute, the one with `D`, can be extracted. -/
def Spec.ReadsFrom (E : Env) (tok : Recv) (T : Obj → Prop) (s : Str) (D : PyTy → Prop) (fn : Fn) : Prop :=
  (∃ obj, T obj ∧ Makes fn.tree tok [] (some (.get obj s))) ∧
  ∃ rt, fn.sig.ret = .ty rt ∧ ∀ ty, D ty → ∀ v, HasTy (NumpyArray E) ty v → Extracts v rt

/-- The Rust function takes an argument and assigns what arrives for it to the attribute `s` of an object of `T`, which had a value of type `ty`.
If the type is tight, what arrives has it; if it is passable, all its values can be
assigned. -/
def Spec.WritesTo (E : Env) (tok : Recv) (T : Obj → Prop) (s : Str) (ty : PyTy) (fn : Fn) : Prop :=
  ∃ obj t, fn.sig.params = [(c!"p_value", t)] ∧ T obj ∧ (Tight (NumpyArray E) ty → ∀ v, Passed t v → HasTy (NumpyArray E) ty v) ∧
    (Passable ty → ∀ v, HasTy (NumpyArray E) ty v → ∃ w, Equals v w ∧ Passed t w) ∧
    ∀ v, Admits t v → Makes fn.tree tok [v] (some (.set obj s (arrival t v)))

/-- The Rust function reads the attribute `s`, which is the object `o`, of the module `segs`. -/
def Spec.Reads (E : Env) (imp : Str → Bool) (segs : List Str) (s : Str) (o : PyObj) (fn : Fn) : Prop :=
  ReadsFrom E .py (Refers imp segs) s (fun ty => ownType E o = .ok ty) fn

/-- The Rust function assigns its argument to the attribute `s` of the module `segs`. -/
def Spec.Writes (E : Env) (imp : Str → Bool) (segs : List Str) (s : Str) (ty : PyTy) (fn : Fn) : Prop := WritesTo E .py (Refers imp segs) s ty fn

theorem prop_source {E : Env} {cfg : Config} {imp : Str → Bool} {tops : List Module} {ts : List Path} {M : Module} {own : List Item}
    (h : M.content E cfg imp tops ts = .ok own) {fn : Fn} (hfn : .prop fn ∈ own) :
    ∃ p ∈ M.properties, p.owner = .module ∧ ∃ l taken lt, p.generate E cfg imp taken lt = .ok l ∧ some fn ∈ l := by
  obtain ⟨q⟩ := content_parts h
  cases content_from q hfn with
  | property p l _ _ hp ho hg hl => exact ⟨p, hp, ho, l, _, _, hg, hl⟩

/-- What the accessors of an attribute operate on: an expression for the module, or `self`. -/
def OwnerRefers (imp : Str → Bool) (o : Owner) (mods : List Str) (obj : Obj) : Prop :=
  match o with
  | .module => Refers imp mods obj
  | .class => obj = .self

theorem target_refers {E : Env} {imp : Str → Bool} {p : Property} {obj : Obj} {mods : List Str} {n : Str}
    (hmne : mods ≠ []) (hm : ∀ s ∈ mods, PySegment s) (hn : PySegment n)
    (hname : p.name = Path.fromPy E (Str.join c!"." (mods ++ [n]))) (h : p.target imp = .ok obj) : OwnerRefers imp p.owner mods obj := by
  unfold Property.target at h
  obtain ⟨h1, -⟩ := parent_fromPy E hmne hm hn
  cases ho : p.owner with
  | module =>
    rw [ho] at h
    simp only at h
    rw [hname, h1] at h
    exact quote_refers E hmne hm h
  | «class» =>
    rw [ho] at h
    cases h
    rfl

theorem accessor_reads {E : Env} {cfg : Config} {imp : Str → Bool} {taken : List Ident} {lt : LocalTypes} {segs : List Str} {s s' : Str}
    (hne : segs ≠ []) (hseg : ∀ s ∈ segs, PySegment s) (hs : PySegment s') {p : Property} {l : List (Option Fn)} {fn : Fn} {o : Obj}
    (hg : p.generate E cfg imp taken lt = .ok l) (hfn : some fn ∈ l)
    (hn : p.name = Path.fromPy E (Str.join c!"." (segs ++ [s']))) (hb : fn.body = .getattr o s) :
    s' = s ∧ ReadsFrom E p.owner.recv (OwnerRefers imp p.owner segs) s (· = p.ann) fn := by
  have hsane := property_sane hg hfn
  obtain ⟨g, h1, h2⟩ := accessors_of hg
  have hgn : p.generateGetter E cfg imp taken lt = .ok (some fn) := by
    rcases h2 with ⟨-, st, h3, rfl⟩ | ⟨-, rfl⟩
    · simp only [List.mem_cons, List.not_mem_nil, or_false] at hfn
      rcases hfn with rfl | rfl
      · exact h1
      · obtain ⟨_, _, _, _, _, _, _, _, _, _, rfl⟩ := setter_fn h3
        cases hb
    · rw [List.mem_singleton] at hfn
      rw [hfn]; exact h1
  obtain ⟨obj, h3, h4⟩ := C30_getter hne hseg hs hn hgn
  obtain ⟨_, _, ty, _, _, _, hty, ht, rfl⟩ := getter_fn hgn
  simp only [Body.getattr.injEq] at hb
  have hm := (makes_run hsane).mpr h4
  have : s' = s := by
    rw [run_eq] at h4
    simp [Body.request, runPre] at h4
    rw [← hb.2]
    exact h4.2.symm
  refine ⟨this, ?_⟩
  rw [← this]
  refine ⟨⟨obj, ?_, hm⟩, ty, rfl, ?_⟩
  · rw [run_eq] at h4
    simp [Body.request, runPre] at h4
    rw [← h4.1]
    exact target_refers hne hseg hs hn ht
  · rintro _ rfl v hv
    obtain ⟨b, hb'⟩ := intoRsOwned_ok hty
    exact C21_extract_partial E lt _ v _ b hb' hv

theorem reads_mono {E : Env} {tok : Recv} {T : Obj → Prop} {s : Str} {D D' : PyTy → Prop} {fn : Fn} (h : ReadsFrom E tok T s D fn)
    (hd : ∀ ty, D' ty → D ty) : ReadsFrom E tok T s D' fn := by
  obtain ⟨h1, rt, h2, h3⟩ := h
  exact ⟨h1, rt, h2, fun ty hty => h3 ty (hd ty hty)⟩

theorem reads_of {E : Env} {cfg : Config} {imp : Str → Bool} {taken : List Ident} {lt : LocalTypes} {segs : List Str} {s s' : Str}
    (hne : segs ≠ []) (hseg : ∀ s ∈ segs, PySegment s) (hs : PySegment s') {p : Property} {l : List (Option Fn)} {fn : Fn} {o : Obj}
    (hg : p.generate E cfg imp taken lt = .ok l) (hfn : some fn ∈ l) (ho : p.owner = .module)
    (hn : p.name = Path.fromPy E (Str.join c!"." (segs ++ [s']))) (hb : fn.body = .getattr o s) :
    s' = s ∧ ReadsFrom E .py (Refers imp segs) s (· = p.ann) fn := by
  have := accessor_reads hne hseg hs hg hfn hn hb
  rw [ho] at this
  exact this

theorem accessor_writes {E : Env} {cfg : Config} {imp : Str → Bool} {taken : List Ident} {lt : LocalTypes} {segs : List Str} {s s' v : Str}
    (hne : segs ≠ []) (hseg : ∀ s ∈ segs, PySegment s) (hs : PySegment s') {p : Property} {l : List (Option Fn)} {fn : Fn} {o : Obj}
    (hg : p.generate E cfg imp taken lt = .ok l) (hfn : some fn ∈ l)
    (hn : p.name = Path.fromPy E (Str.join c!"." (segs ++ [s']))) (hb : fn.body = .setattr o s v) : s' = s ∧ WritesTo E p.owner.recv (OwnerRefers imp p.owner segs) s p.ann fn := by
  have hsane := property_sane hg hfn
  obtain ⟨g, h1, h2⟩ := accessors_of hg
  have hgn : p.generateSetter E cfg imp taken lt = .ok (some fn) := by
    rcases h2 with ⟨-, st, h3, rfl⟩ | ⟨-, rfl⟩
    · simp only [List.mem_cons, List.not_mem_nil, or_false] at hfn
      rcases hfn with rfl | rfl
      · obtain ⟨_, _, _, _, _, _, _, _, rfl⟩ := getter_fn h1
        cases hb
      · exact h3
    · rw [List.mem_singleton] at hfn
      rw [← hfn] at h1
      obtain ⟨_, _, _, _, _, _, _, _, rfl⟩ := getter_fn h1
      cases hb
  have hgn' := hgn
  obtain ⟨name, _, _, ty, obj, k1, _, _, hbt, k2, hfe⟩ := setter_fn hgn
  have hden := target_refers hne hseg hs hn k2
  rw [hn, (parent_fromPy E hne hseg hs).2] at k1
  cases k1
  rw [asPy_fromPy E hs.2.2.1] at hfe
  have hss : s' = s := by rw [hfe] at hb; injection hb
  refine ⟨hss, obj, ty, by rw [hfe], hden, fun hti v hv => ?_, fun hpa v hv => ?_, fun v hv => ?_⟩
  · unfold intoRsBorrowed at hbt
    obtain ⟨⟨o, b⟩, b1, b2⟩ := Res.bind_ok hbt
    cases b2
    exact C78_arguments_partial E lt _ o b b1 hti v (Or.inr hv)
  · unfold intoRsBorrowed at hbt
    obtain ⟨⟨o, b⟩, b1, b2⟩ := Res.bind_ok hbt
    cases b2
    exact (C79_passable_partial E lt _ o b b1 hpa v hv).2
  obtain ⟨obj', ty', h3, h6, h7⟩ := C30_setter hne hseg hs hn hgn'
  have h8 : ty' = ty := by rw [hfe] at h6; cases h6; rfl
  rw [h8] at h7
  have h4 := (h7 v hv).1
  have h5 : obj' = obj := by
    rw [run_eq, hfe] at h4
    split at h4
    · cases h4
    · simp only [Option.bind_eq_some_iff, Body.request] at h4
      obtain ⟨e, -, h4⟩ := h4
      cases hv' : List.lookup c!"p_value" e with
      | none => rw [hv'] at h4; cases h4
      | some w => rw [hv'] at h4; cases h4; rfl
  rw [h5, hss] at h4
  have hm := (makes_run hsane).mpr h4
  have hr : fn.sig.recv = p.owner.recv := by rw [hfe]
  rwa [hr] at hm

theorem writes_of {E : Env} {cfg : Config} {imp : Str → Bool} {taken : List Ident} {lt : LocalTypes} {segs : List Str} {s s' v : Str}
    (hne : segs ≠ []) (hseg : ∀ s ∈ segs, PySegment s) (hs : PySegment s') {p : Property} {l : List (Option Fn)} {fn : Fn} {o : Obj}
    (hg : p.generate E cfg imp taken lt = .ok l) (hfn : some fn ∈ l) (ho : p.owner = .module)
    (hn : p.name = Path.fromPy E (Str.join c!"." (segs ++ [s']))) (hb : fn.body = .setattr o s v) : s' = s ∧ Writes E imp segs s p.ann fn := by
  have := accessor_writes hne hseg hs hg hfn hn hb
  rw [ho] at this
  exact this

/-- An accessor of a module property is left out exactly if its name is one that Rust cannot spell or a function of the module has that
name. -/
theorem accessor_missing_iff {E : Env} {cfg : Config} {imp : Str → Bool} {taken : List Ident} {lt : LocalTypes} {p : Property}
    {l : List (Option Fn)} (h : p.generate E cfg imp taken lt = .ok l) {n : Str} (hid : IsIdent E n)
    (hn : p.name.segs.getLast? = some (Ident.fromPy E n)) :
    none ∈ l ↔ ((n ∈ unspellable ∨ n ∈ reservedFunctions ∨ Ident.fromPy E n ∈ taken) ∧
        (n = c!"type" ∨ Ident.fromPy E (c!"get_" ++ n) ∈ taken)) ∨
      (p.isMutable = true ∧ Ident.fromPy E (c!"set_" ++ n) ∈ taken) := by
  have hget : IsIdent E (c!"get_" ++ n) := isIdent_prefix (getSet_isIdent E).1 hid
  have hset : IsIdent E (c!"set_" ++ n) := isIdent_prefix (getSet_isIdent E).2 hid
  have htn : ∀ x, IsIdent E x → (nameTaken taken (Ident.fromPy E x) = true ↔ x ∈ reservedFunctions ∨ Ident.fromPy E x ∈ taken) := by
    intro x hx
    unfold nameTaken
    rw [Bool.or_eq_true, asPy_ident hx]
    simp only [List.contains_iff_mem, forbiddenFunctionNames, reservedFunctions]
    exact or_comm
  have hgr : c!"get_" ++ n ∈ reservedFunctions ↔ n = c!"type" := by simp [reservedFunctions]
  have hsr : c!"set_" ++ n ∉ reservedFunctions := by simp [reservedFunctions]
  have hfall : ∀ o, getterFallback E taken (Ident.fromPy E n) = .ok o →
      (o = none ↔ n = c!"type" ∨ Ident.fromPy E (c!"get_" ++ n) ∈ taken) := by
    intro o hf
    unfold getterFallback at hf
    simp only [asPy_ident hid] at hf
    rw [← hgr, ← htn _ hget]
    split at hf
    · rename_i h1
      cases hf
      exact ⟨fun _ => h1, fun _ => rfl⟩
    · rename_i h1
      obtain ⟨_, -, hf⟩ := Res.bind_ok hf
      cases hf
      exact ⟨fun h => (nomatch h), fun h => absurd h h1⟩
  obtain ⟨g, hg, h⟩ := accessors_of h
  have hgn : g = none ↔ ((n ∈ unspellable ∨ n ∈ reservedFunctions ∨ Ident.fromPy E n ∈ taken) ∧
        (n = c!"type" ∨ Ident.fromPy E (c!"get_" ++ n) ∈ taken)) := by
    unfold Property.generateGetter at hg
    rw [name_ok hn, Res.ok_bind] at hg
    obtain ⟨o, ho, hg⟩ := Res.bind_ok hg
    have hgo : g = none ↔ o = none := by
      cases o with
      | some i =>
        simp only at hg
        obtain ⟨_, -, hg⟩ := Res.bind_ok hg
        obtain ⟨_, -, hg⟩ := Res.bind_ok hg
        cases hg
        simp
      | none => cases hg; simp
    rw [hgo]
    unfold getterIdent at ho
    rw [toSyn_ident hid] at ho
    by_cases hu : n ∈ unspellable
    · rw [if_pos hu] at ho
      rw [hfall o ho]
      simp [hu]
    · rw [if_neg hu] at ho
      split at ho
      · split at ho
        · rename_i h1
          rw [hfall o ho]
          simp [(htn _ hid).mp h1]
        · rename_i h1
          cases ho
          rw [htn _ hid] at h1
          simp [hu, h1]
      · rename_i h1
        split at h1 <;> cases h1
  rcases h with ⟨hm, s, hs, rfl⟩ | ⟨hm, rfl⟩
  · have hsn : s = none ↔ Ident.fromPy E (c!"set_" ++ n) ∈ taken := by
      unfold Property.generateSetter at hs
      rw [name_ok hn, Res.ok_bind] at hs
      obtain ⟨o, ho, hs⟩ := Res.bind_ok hs
      have hgo : s = none ↔ o = none := by
        cases o with
        | some i =>
          simp only at hs
          obtain ⟨_, -, hs⟩ := Res.bind_ok hs
          obtain ⟨_, -, hs⟩ := Res.bind_ok hs
          obtain ⟨_, -, hs⟩ := Res.bind_ok hs
          cases hs
          simp
        | none => cases hs; simp
      rw [hgo]
      unfold setterIdent at ho
      simp only [asPy_ident hid] at ho
      have := htn _ hset
      split at ho
      · rename_i h1
        cases ho
        exact ⟨fun _ => (this.mp h1).resolve_left hsr, fun _ => rfl⟩
      · rename_i h1
        obtain ⟨_, -, ho⟩ := Res.bind_ok ho
        cases ho
        exact ⟨fun h => (nomatch h), fun h => absurd (this.mpr (Or.inr h)) h1⟩
    simp only [List.mem_cons, List.not_mem_nil, or_false, hm, true_and]
    rw [← hgn, ← hsn]
    simp only [eq_comm]
  · simp only [List.mem_singleton, hm, Bool.false_eq_true, false_and, or_false]
    rw [← hgn, eq_comm]

theorem within_chain {x : Item} {items content : List Item} {idents : List Str} (h : ModChain items idents content) (hx : x ∈ content) :
    Within x items := by
  induction h with
  | here h => exact .sub h (.top hx)
  | nested h _ ih => exact .sub h (ih hx)

/-- A variable beside a function of the name of its accessor leaves a `pub` behind. -/
theorem stray_own {E : Env} {cfg : Config} {imp : Str → Bool} {tops : List Module} {ts : List Path} {M : Module} {own : List Item}
    (h : M.content E cfg imp tops ts = .ok own) (hc : cfg.generateProperties = true) {p : Property} (hp : p ∈ M.properties)
    (howner : p.owner = .module) (hmut : p.isMutable = true) {s : Str} (hsi : IsIdent E s)
    (hlast : p.name.segs.getLast? = some (Ident.fromPy E s)) {t : Str}
    (hst : t = c!"set_" ++ s ∨ (t = c!"get_" ++ s ∧ s ∈ unspellable)) {f : Function} (hf : f ∈ M.functions)
    (hfl : f.name.segs.getLast? = some (Ident.fromPy E t)) : .strayPub ∈ own := by
  obtain ⟨q⟩ := content_parts h
  have htk : Ident.fromPy E t ∈ q.taken := by
    obtain ⟨i, hi, hi'⟩ := traverse_mem' q.takenOk hf
    rw [name_ok hfl] at hi'
    cases hi'
    exact hi
  have hq := q.propertiesOk
  rw [hc] at hq
  obtain ⟨l, hl, hg⟩ := traverse_mem' hq hp
  obtain ⟨r, hr, hg⟩ := Res.bind_ok hg
  rw [howner] at hg
  cases hg
  have hnone : none ∈ r := by
    refine (accessor_missing_iff hr hsi hlast).mpr ?_
    rcases hst with rfl | ⟨rfl, hu⟩
    · exact Or.inr ⟨hmut, htk⟩
    · exact Or.inl ⟨Or.inl hu, Or.inr htk⟩
  rw [q.content]
  simp only [List.mem_append, List.mem_flatten]
  exact Or.inr ⟨_, hl, List.mem_map.mpr ⟨none, hnone, rfl⟩⟩

/-- If the module has a kept attribute of that name, then it is not a function. -/
def Spec.NoFunction (E : Env) (cfg : Config) (nm : Str) (pm : PyMod) (x : Str) : Prop :=
  x ∈ pm.dir → ∀ b, pm.getattr x = some b → Kept E cfg x b.obj → PlainVariable b.obj ∨ TypingValue b.obj ∨ OwnClass nm b.obj

theorem no_function {E : Env} {cfg : Config} {W : World} {fuel id : Nat} {m : Module} (h : Module.parse E cfg W fuel id = .ok m)
    {pm : PyMod} {nm : Str} (hget : W.get? id = some pm) (hname : pm.name = some nm) (hids : ∀ s ∈ pm.dir, IsIdent E s) {x : Str}
    (hid : IsIdent E x) (hx : NoFunction E cfg nm pm x) :
    ¬ ∃ f ∈ m.functions, f.name.segs.getLast? = some (Ident.fromPy E x) := by
  rintro ⟨f, hf, hl⟩
  have hnd := (parse_itemNames h).1
  have hfn : f.name ∈ m.itemNames := by simp only [Module.itemNames, List.mem_append]; exact Or.inl (Or.inr (List.mem_map_of_mem hf))
  have hfull : f.name = m.name.join (Path.ofIdent (Ident.fromPy E x)) ∧ x ∈ pm.dir ∧
      ∃ a, pm.getattr x = some a ∧ Kept E cfg x a.obj := by
    cases fuel with
    | zero => exact absurd h parse_zero
    | succ fuel =>
      obtain ⟨p⟩ := parse_parts h
      have hpm := p.get
      rw [hget] at hpm
      cases hpm
      obtain ⟨y, hy, he⟩ := parts_itemNames p _ hfn
      obtain ⟨k1, k2, k3⟩ := mem_candidates hy
      rw [he] at hl
      have hyx : y.1 = Ident.fromPy E x := by simpa [fullName, Path.join, Path.ofIdent] using hl
      obtain ⟨s, hs, hsy⟩ := List.mem_map.mp k1
      have hsx : s = x := by rw [← asPy_ident (hids s hs), hsy, hyx, asPy_ident hid]
      subst hsx
      rw [hyx] at he k2 k3
      rw [asPy_ident hid] at k2
      exact ⟨by rw [he], hs, y.2, k2, k3⟩
  obtain ⟨he, hxd, a, ha, hk⟩ := hfull
  obtain ⟨-, -, k3, k4, k5⟩ := C69_parsed E cfg W fuel id m h pm nm hget hname x hid hxd a ha hk
  simp only [Module.itemNames, List.nodup_append, List.mem_append, List.mem_map] at hnd
  rcases hx hxd a ha hk with ho | ho | ho
  · obtain ⟨p, hp, hpp⟩ := k5 ho
    exact hnd.2.2 f.name (Or.inr ⟨f, hf, rfl⟩) p.name ⟨p, hp, rfl⟩ (by rw [(property_parse_name hpp).1, he])
  · exact hnd.1.2.2 _ (Or.inr ⟨_, k4 ho, rfl⟩) f.name ⟨f, hf, rfl⟩ he.symm
  · obtain ⟨c, hc, hcc⟩ := k3 ho
    exact hnd.1.2.2 c.name (Or.inl (Or.inr ⟨c, hc, rfl⟩)) f.name ⟨f, hf, rfl⟩ (by rw [class_parse_name hcc, he])

/-- Every variable that the configuration keeps has an accessor that reads it, called like the variable, or with `get_` in front; and one that
assigns to it, called with `set_` in front. Both are in the nested modules that spell the name of the Python module.

The accessor is there if no function has its name, or if the output is a Rust file at all, without a stray `pub` (C65).

Missing: variables beside a function of the name of the accessor, for which there is no accessor, only a stray `pub` (`C52_stray`); without traversal, modules in
packages. -/
theorem C69_variables_partial (E : Env) (W : World) (hF : Faithful E W) (hu : UniqueNames W) (fuel : Nat) (cfg : Config)
    (srcs : List (Str × Str)) (c c1 : Codegen) (names : List Str) (items : List Item)
    (hb : Built E W fuel cfg srcs c) (h1 : c.moduleNames E W fuel names = .ok c1) (h2 : c1.generate E W fuel = .ok items)
    (id : Nat) (hr : Reached E cfg W names id) (pm : PyMod) (segs : List Str)
    (hp : W.get? id = some pm) (hname : pm.name = some (Str.join c!"." segs)) (hne : segs ≠ [])
    (hs : ∀ s ∈ segs, PyIdent E s) (ht : cfg.traverseSubmodules = true ∨ segs.length = 1) (hc : cfg.generateProperties = true) :
    ∃ idents content, ModChain items idents content ∧ idents.map unraw = segs ∧
      ∀ s ∈ pm.dir, ∀ a, pm.getattr s = some a → Kept E cfg s a.obj → PlainVariable a.obj →
        (s ∉ unspellable → ∃ fn, .prop fn ∈ content ∧ unraw fn.sig.name = s ∧ Reads E W.importable segs s a.obj fn) ∧
        (NoFunction E cfg (Str.join c!"." segs) pm (c!"get_" ++ s) ∨ ¬ Within .strayPub items →
          ∃ fn, .prop fn ∈ content ∧ (unraw fn.sig.name = s ∨ unraw fn.sig.name = c!"get_" ++ s) ∧ Reads E W.importable segs s a.obj fn) ∧
        (NoFunction E cfg (Str.join c!"." segs) pm (c!"set_" ++ s) ∨ ¬ Within .strayPub items →
          ∃ fn ty, .prop fn ∈ content ∧ unraw fn.sig.name = c!"set_" ++ s ∧ ownType E a.obj = .ok ty ∧ Writes E W.importable segs s ty fn) := by
  have hcfg := (built_ok hb).config
  subst hcfg
  obtain ⟨m, idents, content, out, M, ts, own, hm, hmn, g1, g2, g3, g4, g5, g6, g7, g8, g9⟩ :=
    reached_content h1 h2 hr hp hname hne hs ht
  have hb1 := built_ok (Built.moduleNames names hb h1)
  have hids := fun s h => hF.attrs id pm hp s h
  have hback : ∀ x, Has M x → Has m x := by
    intro x hx
    obtain ⟨m', k1, k2, k3⟩ := prepared_has g3 (by rw [g9]; exact hb1.parsed) g4 hx
    rw [g9] at k1
    rwa [parsed_same (faithful_ordinary hF) hu k1 ⟨fuel, id, hm⟩ (k2.trans g5)] at k3
  have hnofn : ∀ x, IsIdent E x → NoFunction E c.cfg (Str.join c!"." segs) pm x →
      ¬ ∃ f ∈ M.functions, f.name.segs.getLast? = some (Ident.fromPy E x) := by
    rintro x hx hno ⟨f, hf, hl⟩
    exact no_function hm hp hname (fun s h => (hids s h).2) hx hno ⟨f, hback (.function f) hf, hl⟩
  have hacc := content_accessors g7 hc
  refine ⟨idents, content, g1, g2, ?_⟩
  intro s hsd a ha hk hv
  have hsi := hids s hsd
  obtain ⟨-, -, -, -, k5⟩ := C69_parsed E c.cfg W fuel id m hm pm _ hp hname s hsi.2 hsd a ha hk
  obtain ⟨p, hpm, hpp⟩ := k5 hv
  have hlast : p.name.segs.getLast? = some (Ident.fromPy E s) := by
    rw [(property_parse_name hpp).1]; simp [Path.join, Path.ofIdent]
  have hfull : ∀ s, PySegment s → m.name.join (Path.ofIdent (Ident.fromPy E s)) = Path.fromPy E (Str.join c!"." (segs ++ [s])) := by
    intro s hs'
    rw [fromPy_join E (by simp) fun x hx => ?_, hmn]
    · simp [Path.join, Path.ofIdent]
    · rcases mem_snoc.mp hx with hx | rfl
      · exact (hs x hx).1
      · exact hs'
  have hpo : p.owner = .module ∧ p.isMutable = true := by
    have hpp := hpp
    unfold Property.parse at hpp
    obtain ⟨ty, hty, hpp⟩ := Res.bind_ok hpp
    cases hpp
    exact ⟨rfl, rfl⟩
  have hnofn' : ∀ t, IsIdent E t → (t = c!"set_" ++ s ∨ (t = c!"get_" ++ s ∧ s ∈ unspellable)) →
      NoFunction E c.cfg (Str.join c!"." segs) pm t ∨ ¬ Within .strayPub items →
      ¬ ∃ f ∈ M.functions, f.name.segs.getLast? = some (Ident.fromPy E t) := by
    rintro t hti hst (hno | hno)
    · exact hnofn t hti hno
    · rintro ⟨f, hf, hl⟩
      exact hno (within_chain g1 (g8 _ (stray_own g7 hc (g6 (.property p) hpm) hpo.1 hpo.2 hsi.2 hlast hst hf hl)))
  have hprop : ∀ {fn}, .prop fn ∈ own → ∃ p ∈ m.properties, ∃ s' l taken lt, PySegment s' ∧ p.owner = .module ∧
      p.name = Path.fromPy E (Str.join c!"." (segs ++ [s'])) ∧
      p.generate E c.cfg W.importable taken lt = .ok l ∧ some fn ∈ l := by
    intro fn hfn
    obtain ⟨p', hp', ho, l, taken, lt, hg, hl⟩ := prop_source g7 hfn
    have hp' := hback (.property p') hp'
    refine ⟨p', hp', ?_⟩
    have hmem : p'.name ∈ m.itemNames := by
      simp only [Module.itemNames, List.mem_append]; exact Or.inr (List.mem_map_of_mem hp')
    cases fuel with
    | zero => exact absurd hm parse_zero
    | succ fuel =>
      obtain ⟨q⟩ := parse_parts hm
      have hqp := q.get
      rw [hp] at hqp
      cases hqp
      obtain ⟨y, hy, he⟩ := parts_itemNames q _ hmem
      obtain ⟨s', hs', hsy⟩ := List.mem_map.mp (mem_candidates hy).1
      refine ⟨s', l, taken, lt, (hids s' hs').1, ho, ?_, hg, hl⟩
      rw [he, ← hsy, ← hfull s' (hids s' hs').1]
  have hsame : ∀ p' ∈ m.properties, ∀ s', PySegment s' → p'.name = Path.fromPy E (Str.join c!"." (segs ++ [s'])) → s' = s → p' = p := by
    rintro p' hp' s' f1 f3 rfl
    have hnd := (parse_itemNames hm).1
    simp only [Module.itemNames, List.nodup_append] at hnd
    refine List.inj_on_of_nodup_map hnd.2.1 hp' hpm ?_
    rw [f3, (property_parse_name hpp).1, hfull _ f1]
  have hreads : ∀ {fn o}, .prop fn ∈ own → fn.body = .getattr o s → Reads E W.importable segs s a.obj fn := by
    intro fn o hfn hbody
    obtain ⟨p', hp', s', l, taken, lt, e1, e2, e3, e4, e5⟩ := hprop hfn
    obtain ⟨rfl, hrd⟩ := reads_of hne (fun s h => (hs s h).1) e1 e4 e5 e2 e3 hbody
    refine reads_mono hrd fun ty hty => ?_
    rw [hsame p' hp' _ e1 e3 rfl]
    have hpp' := hpp
    unfold Property.parse at hpp'
    obtain ⟨ty', hty', hpp'⟩ := Res.bind_ok hpp'
    rw [hty] at hty'
    cases hty'
    cases hpp'
    rfl
  have hgetter : s ∉ unspellable → ∃ fn, .prop fn ∈ content ∧ unraw fn.sig.name = s ∧ Reads E W.importable segs s a.obj fn := by
    intro hsu
    obtain ⟨fn, o, e1, e2, e3⟩ := hacc.getter p (g6 (.property p) hpm) s hsi.2 hsu (kept_unreserved hsi.2 hk) hlast
      (hnofn s hsi.2 fun _ b hb' _ => by rw [ha] at hb'; cases hb'; exact Or.inl hv)
    exact ⟨fn, g8 _ e1, e2, hreads e1 e3⟩
  refine ⟨?_, ?_, ?_⟩
  · exact hgetter
  · intro hno
    by_cases hsu : s ∉ unspellable
    · obtain ⟨fn, e1, e2, e3⟩ := hgetter hsu
      exact ⟨fn, e1, Or.inl e2, e3⟩
    have hsu := Classical.not_not.mp hsu
    have hst : s ≠ c!"type" := by rintro rfl; revert hsu; decide
    obtain ⟨fn, o, e1, e2, e3⟩ := hacc.fallback p (g6 (.property p) hpm) s hsi.2 hst hlast
      (hnofn' _ (isIdent_prefix (getSet_isIdent E).1 hsi.2) (Or.inr ⟨rfl, hsu⟩) hno)
    exact ⟨fn, g8 _ e1, e2, hreads e1 e3⟩
  · intro hno
    have hpp' := hpp
    unfold Property.parse at hpp'
    obtain ⟨ty, hty, hpp'⟩ := Res.bind_ok hpp'
    have hmut : p.isMutable = true := by cases hpp'; rfl
    have hann : p.ann = ty := by cases hpp'; rfl
    obtain ⟨fn, o, v, e1, e2, e3⟩ := hacc.setter p (g6 (.property p) hpm) hmut s hsi.2 hlast
      (hnofn' _ (isIdent_prefix (getSet_isIdent E).2 hsi.2) (Or.inl rfl) hno)
    obtain ⟨p', hp', s', l, taken, lt, f1, f2, f3, f4, f5⟩ := hprop e1
    obtain ⟨rfl, hw⟩ := writes_of hne (fun s h => (hs s h).1) f1 f4 f5 f2 f3 e3
    rw [hsame p' hp' _ f1 f3 rfl, hann] at hw
    exact ⟨fn, ty, g8 _ e1, e2, hty, hw⟩

end Bindgen

import Verif.Props.Dispatch
import Verif.Model.Class
/-!
# Accessors and classes: C29, C30, C31, C32, C33, C56
-/
namespace Bindgen
open Spec

/-! ## Names of accessors -/

theorem isIdent_prefix {E : Env} {pre s : Str} (hp : IsIdent E pre) (h : IsIdent E s) : IsIdent E (pre ++ s) := by
  obtain ⟨c, cs, rfl, h1, h2⟩ := hp
  refine ⟨c, cs ++ s, rfl, h1, ?_⟩
  intro x hx
  rcases List.mem_append.mp hx with hx | hx
  · exact h2 x hx
  · exact h.continue x hx

theorem getSet_isIdent (E : Env) : IsIdent E c!"get_" ∧ IsIdent E c!"set_" :=
  ⟨isIdent_ascii E _ (by decide) (by decide), isIdent_ascii E _ (by decide) (by decide)⟩

theorem trySyn_ok {E : Env} {i : Ident} {s : Str} (h : i.trySyn E = .ok s) : i.toSyn E = some s := by
  unfold Ident.trySyn at h
  cases hs : i.toSyn E with
  | none => rw [hs] at h; cases h
  | some t => rw [hs] at h; cases h; rfl

/-- The emitted name of an identifier is the identifier, maybe with `r#`. -/
theorem toSyn_unraw {E : Env} {s t : Str} (h : IsIdent E s) (ht : (Ident.fromPy E s).toSyn E = some t) : unraw t = s := by
  rw [toSyn_ident h] at ht
  split at ht
  · cases ht
  · split at ht
    · cases ht; exact (unraw_ident h).2
    · cases ht; exact (unraw_ident h).1

/-- The Python-side names an accessor of `m` may be given. -/
def Spec.accessorName (m x : Str) : Prop := x = m ∨ x = c!"get_" ++ m ∨ x = c!"set_" ++ m

theorem getterIdent_name {E : Env} {taken : List Ident} {m t : Str} (hm : IsIdent E m)
    (h : getterIdent E taken (Ident.fromPy E m) = .ok (some t)) :
    ∃ x, (x = m ∨ x = c!"get_" ++ m) ∧ IsIdent E x ∧ nameTaken taken (Ident.fromPy E x) = false ∧
      (Ident.fromPy E x).toSyn E = some t := by
  have hfb : ∀ {t}, getterFallback E taken (Ident.fromPy E m) = .ok (some t) →
      ∃ x, (x = m ∨ x = c!"get_" ++ m) ∧ IsIdent E x ∧ nameTaken taken (Ident.fromPy E x) = false ∧
        (Ident.fromPy E x).toSyn E = some t := by
    intro t h
    unfold getterFallback at h
    rw [asPy_ident hm] at h
    simp only at h
    split at h
    · cases h
    · rename_i hn
      obtain ⟨s, hs, h⟩ := Res.bind_ok h
      cases h
      exact ⟨_, Or.inr rfl, isIdent_prefix (getSet_isIdent E).1 hm, by simpa using hn, trySyn_ok hs⟩
  unfold getterIdent at h
  split at h
  · rename_i i hi
    split at h
    · exact hfb h
    · rename_i hn
      cases h
      exact ⟨m, Or.inl rfl, hm, by simpa using hn, hi⟩
  · exact hfb h

theorem setterIdent_name {E : Env} {taken : List Ident} {m t : Str} (hm : IsIdent E m)
    (h : setterIdent E taken (Ident.fromPy E m) = .ok (some t)) :
    IsIdent E (c!"set_" ++ m) ∧ nameTaken taken (Ident.fromPy E (c!"set_" ++ m)) = false ∧
      (Ident.fromPy E (c!"set_" ++ m)).toSyn E = some t := by
  unfold setterIdent at h
  rw [asPy_ident hm] at h
  simp only at h
  split at h
  · cases h
  · rename_i hn
    obtain ⟨s, hs, h⟩ := Res.bind_ok h
    cases h
    exact ⟨isIdent_prefix (getSet_isIdent E).2 hm, by simpa using hn, trySyn_ok hs⟩

/-- Decomposition of a getter. -/
theorem getter_fn {E : Env} {cfg : Config} {importable : Str → Bool} {taken : List Ident} {lt : LocalTypes}
    {p : Property} {fn : Fn} (h : p.generateGetter E cfg importable taken lt = .ok (some fn)) :
    ∃ name ident ty obj, p.name.name = .ok name ∧ getterIdent E taken name = .ok (some ident) ∧
      intoRsOwned E lt p.ann = .ok ty ∧ p.target importable = .ok obj ∧
      fn = ⟨docAttr cfg p.doc, ⟨false, ident, p.owner.recv, [], .ty ty⟩, false, [], .getattr obj name.asPy⟩ := by
  unfold Property.generateGetter at h
  obtain ⟨name, hname, h⟩ := Res.bind_ok h
  obtain ⟨i?, hi, h⟩ := Res.bind_ok h
  cases i? with
  | none => cases h
  | some ident =>
    simp only at h
    obtain ⟨ty, hty, h⟩ := Res.bind_ok h
    obtain ⟨obj, hobj, h⟩ := Res.bind_ok h
    cases h
    exact ⟨name, ident, ty, obj, hname, hi, hty, hobj, rfl⟩

/-- Decomposition of a setter. -/
theorem setter_fn {E : Env} {cfg : Config} {importable : Str → Bool} {taken : List Ident} {lt : LocalTypes}
    {p : Property} {fn : Fn} (h : p.generateSetter E cfg importable taken lt = .ok (some fn)) :
    ∃ name ident pre ty obj, p.name.name = .ok name ∧ setterIdent E taken name = .ok (some ident) ∧
      preprocess E lt p.ann = .ok pre ∧ intoRsBorrowed E lt p.ann = .ok ty ∧ p.target importable = .ok obj ∧
      fn = ⟨docAttr cfg p.setterDoc, ⟨false, ident, p.owner.recv, [(c!"p_value", ty)], .unit⟩,
        p.owner = .class, [(c!"p_value", pre)], .setattr obj name.asPy c!"p_value"⟩ := by
  unfold Property.generateSetter at h
  obtain ⟨name, hname, h⟩ := Res.bind_ok h
  obtain ⟨i?, hi, h⟩ := Res.bind_ok h
  cases i? with
  | none => cases h
  | some ident =>
    simp only at h
    obtain ⟨pre, hpre, h⟩ := Res.bind_ok h
    obtain ⟨ty, hty, h⟩ := Res.bind_ok h
    obtain ⟨obj, hobj, h⟩ := Res.bind_ok h
    cases h
    exact ⟨name, ident, pre, ty, obj, hname, hi, hpre, hty, hobj, rfl⟩

/-- What `Property.generate` emits: a getter, and a setter if the property is mutable. -/
theorem accessors_of {E : Env} {cfg : Config} {importable : Str → Bool} {taken : List Ident} {lt : LocalTypes}
    {p : Property} {l : List (Option Fn)} (h : p.generate E cfg importable taken lt = .ok l) :
    ∃ g, p.generateGetter E cfg importable taken lt = .ok g ∧
      ((p.isMutable = true ∧ ∃ s, p.generateSetter E cfg importable taken lt = .ok s ∧ l = [g, s]) ∨
        (p.isMutable = false ∧ l = [g])) := by
  unfold Property.generate at h
  obtain ⟨g, hg, h⟩ := Res.bind_ok h
  refine ⟨g, hg, ?_⟩
  split at h
  · rename_i hm
    obtain ⟨s, hs, h⟩ := Res.bind_ok h
    cases h
    exact Or.inl ⟨hm, s, hs, rfl⟩
  · rename_i hm
    cases h
    exact Or.inr ⟨by simpa using hm, rfl⟩

/-- Names of accessors. -/
theorem accessor_name {E : Env} {cfg : Config} {importable : Str → Bool} {taken : List Ident} {lt : LocalTypes}
    {p : Property} {l : List (Option Fn)} {fn : Fn} {m : Str} (h : p.generate E cfg importable taken lt = .ok l)
    (hfn : some fn ∈ l) (hn : p.name.name = .ok (Ident.fromPy E m)) (hm : IsIdent E m) :
    ∃ x, accessorName m x ∧ IsIdent E x ∧ nameTaken taken (Ident.fromPy E x) = false ∧
      (Ident.fromPy E x).toSyn E = some fn.sig.name := by
  obtain ⟨g, hg, h⟩ := accessors_of h
  have hget : some fn = g → ∃ x, accessorName m x ∧ IsIdent E x ∧ nameTaken taken (Ident.fromPy E x) = false ∧
      (Ident.fromPy E x).toSyn E = some fn.sig.name := by
    rintro rfl
    obtain ⟨name, ident, ty, obj, h1, h2, h3, h4, h5⟩ := getter_fn hg
    rw [hn] at h1; cases h1
    obtain ⟨x, hx, hr⟩ := getterIdent_name hm h2
    rw [h5]
    exact ⟨x, by rcases hx with hx | hx; exacts [Or.inl hx, Or.inr (Or.inl hx)], hr⟩
  rcases h with ⟨-, s, hs, rfl⟩ | ⟨-, rfl⟩
  · rcases List.mem_cons.mp hfn with hfn | hfn
    · exact hget hfn
    · rw [List.mem_singleton] at hfn
      rw [← hfn] at hs
      obtain ⟨name, ident, pre, ty, obj, h1, h2, h3, h4, h5, h6⟩ := setter_fn hs
      rw [hn] at h1; cases h1
      rw [h6]
      exact ⟨_, Or.inr (Or.inr rfl), setterIdent_name hm h2⟩
  · exact hget (List.mem_singleton.mp hfn)

/-! ## C29 -/

/-- **C29** (accessors): no accessor has a reserved name. Missing: attributes whose names are not Python identifiers
(`C29_accessor_space_counterexample`). -/
theorem C29_accessors_partial {E : Env} {cfg : Config} {importable : Str → Bool} {taken : List Ident} {lt : LocalTypes}
    {p : Property} {l : List (Option Fn)} {fn : Fn} {m : Str} (h : p.generate E cfg importable taken lt = .ok l)
    (hfn : some fn ∈ l) (hn : p.name.name = .ok (Ident.fromPy E m)) (hm : IsIdent E m) :
    unraw fn.sig.name ∉ reservedFunctions := by
  obtain ⟨x, -, hx, ht, hs⟩ := accessor_name h hfn hn hm
  rw [toSyn_unraw hx hs]
  intro hc
  unfold nameTaken at ht
  rw [asPy_ident hx] at ht
  rw [Bool.or_eq_false_iff] at ht
  have h2 := ht.2
  rw [Bool.eq_false_iff] at h2
  apply h2
  simpa [forbiddenFunctionNames, reservedFunctions] using hc

/-- A property of module `m` (sample). -/
def exProp (s : Str) (o : Owner) (mutable : Bool) : Property := ⟨exName s, o, mutable, .long, .long, none, none⟩

/-- The names emitted for a sample property. -/
def exNames (s : Str) (taken : List Ident) : Res (List (Option Str)) :=
  ((exProp s .module true).generate (Env.ascii true false) {} (fun s => s = c!"m") taken []).map
    (fun l => l.map (fun f => f.map (fun f => f.sig.name)))

-- a property `repr` is read by `get_repr`, a property `type` by `r#type`, or by nothing if that is taken
example : (exNames c!"m.repr" [], exNames c!"m.type" [], exNames c!"m.type" [Ident.fromPy (Env.ascii true false) c!"type"]) =
    (.ok [some c!"get_repr", some c!"set_repr"], .ok [some c!"r#type", some c!"set_type"], .ok [none, some c!"set_type"]) := by
  decide

/-- **C29** fails for names with white space around: the read-only property ` py` is read by `py`. -/
theorem C29_accessor_space_counterexample :
    ((exProp c!"m.C. py" .class false).generate (Env.ascii true false) {} (fun s => s = c!"m") [] []).map
      (fun l => l.map (fun f => f.map (fun f => f.sig.name))) = .ok [some c!"py"] := by decide

/-! ## C30 -/

/-- What the accessors of an attribute should operate on: the module, or `self`. -/
def Spec.AttrOwner (o : Owner) (mods : List Str) (obj : Obj) : Prop :=
  match o with
  | .module => Denotes obj mods
  | .class => obj = .self

theorem target_owner {E : Env} {importable : Str → Bool} {p : Property} {obj : Obj} {mods : List Str} {n : Str}
    (hmne : mods ≠ []) (hm : ∀ s ∈ mods, PySegment s) (hn : PySegment n)
    (hname : p.name = Path.fromPy E (Str.join c!"." (mods ++ [n]))) (h : p.target importable = .ok obj) :
    AttrOwner p.owner mods obj := by
  unfold Property.target at h
  obtain ⟨h1, -⟩ := parent_fromPy E hmne hm hn
  cases ho : p.owner with
  | module =>
    rw [ho] at h
    simp only at h
    rw [hname, h1] at h
    exact quote_denotes E importable hmne hm h
  | «class» =>
    rw [ho] at h
    cases h
    rfl

/-- **C30** (getters): a getter takes no arguments and reads the attribute of the property's Python name, from the module
or from `self`. -/
theorem C30_getter {E : Env} {cfg : Config} {importable : Str → Bool} {taken : List Ident} {lt : LocalTypes}
    {p : Property} {fn : Fn} {mods : List Str} {n : Str} (hmne : mods ≠ []) (hm : ∀ s ∈ mods, PySegment s)
    (hn : PySegment n) (hname : p.name = Path.fromPy E (Str.join c!"." (mods ++ [n])))
    (h : p.generateGetter E cfg importable taken lt = .ok (some fn)) :
    ∃ obj, AttrOwner p.owner mods obj ∧ run fn [] = some (.get obj n) := by
  obtain ⟨name, ident, ty, obj, h1, h2, h3, h4, rfl⟩ := getter_fn h
  rw [hname, (parent_fromPy E hmne hm hn).2] at h1
  cases h1
  refine ⟨obj, target_owner hmne hm hn hname h4, ?_⟩
  rw [asPy_fromPy E hn.2.2.1]
  rfl

/-- **C30** (setters): a setter takes one argument and writes it to the attribute of the property's Python name, on the
module or on `self`; `None` for an optional dictionary is the exception found in C24. -/
theorem C30_setter_partial {E : Env} {cfg : Config} {importable : Str → Bool} {taken : List Ident} {lt : LocalTypes}
    {p : Property} {fn : Fn} {mods : List Str} {n : Str} {v : PyVal} (hmne : mods ≠ []) (hm : ∀ s ∈ mods, PySegment s)
    (hn : PySegment n) (hname : p.name = Path.fromPy E (Str.join c!"." (mods ++ [n])))
    (h : p.generateSetter E cfg importable taken lt = .ok (some fn))
    (hv : ∀ a ∈ fn.sig.params, Admits a.2 v) (hnd : v = .none → ∀ k w, p.ann ≠ .optional (.dict k w)) :
    ∃ obj, AttrOwner p.owner mods obj ∧ run fn [v] = some (.set obj n v) := by
  obtain ⟨name, ident, pre, ty, obj, h1, h2, h3, h4, h5, rfl⟩ := setter_fn h
  rw [hname, (parent_fromPy E hmne hm hn).2] at h1
  cases h1
  refine ⟨obj, target_owner hmne hm hn hname h5, ?_⟩
  rw [asPy_fromPy E hn.2.2.1]
  have hc := conv_ok h3 h4 (hv (c!"p_value", ty) (by simp)) hnd
  simp [run, runPre, List.lookup, hc]

/-- What is missing from `C30_setter_partial`: assigning `None` to an attribute annotated `Optional[dict]` stores `{}`. -/
theorem C30_none_counterexample :
    ∃ (p : Property) (fn : Fn), p.generateSetter (Env.ascii true false) {} (fun s => s = c!"m") [] [] = .ok (some fn) ∧
      (∀ a ∈ fn.sig.params, Admits a.2 .none) ∧
      run fn [.none] = some (.set (.import c!"m") c!"x" (.dict [])) :=
  ⟨⟨exName c!"m.x", .module, true, .optional (.dict .unknown .unknown), .unknown, none, none⟩, _, rfl,
    by intro a ha; cases List.mem_singleton.mp ha; exact fun _ => Or.inl rfl, rfl⟩

/-- **C30**: setters are emitted only for mutable properties: an immutable one gets at most a getter. -/
theorem C30_immutable {E : Env} {cfg : Config} {importable : Str → Bool} {taken : List Ident} {lt : LocalTypes}
    {p : Property} {l : List (Option Fn)} (h : p.generate E cfg importable taken lt = .ok l)
    (hmut : p.isMutable = false) {fn : Fn} (hfn : some fn ∈ l) (v : PyVal) (obj : Obj) (n : Str) :
    run fn [v] ≠ some (.set obj n v) ∧ fn.sig.params = [] := by
  obtain ⟨g, hg, h⟩ := accessors_of h
  rcases h with ⟨h, -⟩ | ⟨-, rfl⟩
  · rw [hmut] at h; cases h
  · rw [List.mem_singleton] at hfn
    rw [← hfn] at hg
    obtain ⟨name, ident, ty, obj, h1, h2, h3, h4, rfl⟩ := getter_fn hg
    exact ⟨by simp [run], rfl⟩

-- the accessors of `m.x`
example : ∃ fn, (exProp c!"m.x" .module true).generateGetter (Env.ascii true false) {} (fun s => s = c!"m") [] [] =
    .ok (some fn) ∧ run fn [] = some (.get (.import c!"m") c!"x") := ⟨_, rfl, rfl⟩

example : ∃ fn, (exProp c!"m.C.x" .class true).generateSetter (Env.ascii true false) {} (fun s => s = c!"m") [] [] =
    .ok (some fn) ∧ run fn [.atom 7] = some (.set .self c!"x" (.atom 7)) := ⟨_, rfl, rfl⟩

/-! ## C31 -/

/-- The function is emitted under its own name. -/
def Spec.ownName : FnType → Bool
  | .method _ .constructor | .method _ .callable => false
  | _ => true

theorem contract_own {E : Env} {typ : FnType} {ident : Str} {taken : List Ident} {params : List (Str × RsTy)}
    {ret : RsTy} {sig : Sig} (h : Function.contract E typ ident taken params ret = .ok sig) (ho : ownName typ = true) :
    sig.name = ident := by
  unfold Function.contract at h
  split at h
  · cases h; rfl
  · cases ho
  · cases ho
  · cases h; rfl

/-- The emitted name of a function with a spellable identifier for a name. -/
theorem function_name {E : Env} {cfg : Config} {importable : Str → Bool} {taken : List Ident} {lt : LocalTypes}
    {f : Function} {r : FnImpl} {fn : Fn} {n : Str} (h : f.generate E cfg importable taken lt = .ok r)
    (hfn : fn ∈ fnsOf r) (hn : f.name.name = .ok (Ident.fromPy E n)) (hid : IsIdent E n) (hs : n ∉ unspellable)
    (ho : ownName f.typ = true) : (Ident.fromPy E n).toSyn E = some fn.sig.name := by
  obtain ⟨name, ident, _, _, _, ret, sig, _, _, _, h0, h1, _, _, _, _, h5, _, _, _, rfl, _⟩ := generate_fn h hfn
  rw [hn] at h0
  cases h0
  simp only
  rw [contract_own h5 ho]
  unfold Function.ident at h1
  split at h1
  · rename_i i hi
    split at h1
    · cases h1
    · cases h1; exact hi
  · rename_i hi
    rw [toSyn_ident hid, if_neg hs] at hi
    split at hi <;> cases hi

/-- **C31**: no accessor has the name of a function (or method) of its scope that is emitted under its own name. Missing:
sanitised function names (`C31_sanitized_counterexample`) and call operators renamed to `call1`
(`C31_call_counterexample`). -/
theorem C31_no_clash_partial {E : Env} {cfg : Config} {importable : Str → Bool} {taken taken' : List Ident} {lt : LocalTypes}
    {f : Function} {r : FnImpl} {fn acc : Fn} {p : Property} {l : List (Option Fn)} {n m : Str}
    (hf : f.generate E cfg importable taken lt = .ok r) (hfn : fn ∈ fnsOf r)
    (hp : p.generate E cfg importable taken' lt = .ok l) (hacc : some acc ∈ l)
    (hn : f.name.name = .ok (Ident.fromPy E n)) (hid : IsIdent E n) (hs : n ∉ unspellable) (ho : ownName f.typ = true)
    (hpn : p.name.name = .ok (Ident.fromPy E m)) (hm : IsIdent E m)
    (hin : Ident.fromPy E n ∈ taken') : unraw acc.sig.name ≠ unraw fn.sig.name := by
  obtain ⟨x, -, hx, ht, hsx⟩ := accessor_name hp hacc hpn hm
  have hfname := function_name hf hfn hn hid hs ho
  rw [toSyn_unraw hx hsx, toSyn_unraw hid hfname]
  rintro rfl
  unfold nameTaken at ht
  rw [Bool.or_eq_false_iff] at ht
  have := ht.1
  rw [Bool.eq_false_iff] at this
  exact this (by simpa using hin)

/-- **C31** (call operators): no accessor of a class clashes with its call operator if no method is called `call`. -/
theorem C31_call {E : Env} {cfg : Config} {importable : Str → Bool} {lt : LocalTypes} {c : Class} {taken : List Ident}
    {f : Function} {r : FnImpl} {fn acc : Fn} {p : Property} {l : List (Option Fn)} {m : Str} {cp : Path}
    (htaken : c.methodIdents = .ok taken) (hfc : f ∈ c.methods) (ht : f.typ = .method cp .callable)
    (hf : f.generate E cfg importable taken lt = .ok r) (hfn : fn ∈ fnsOf r)
    (hp : p.generate E cfg importable (taken ++ c.extraIdents E) lt = .ok l) (hacc : some acc ∈ l)
    (hno : ∀ g ∈ c.methods, g.name.name ≠ .ok (Ident.fromPy E c!"call"))
    (hpn : p.name.name = .ok (Ident.fromPy E m)) (hm : IsIdent E m) : unraw acc.sig.name ≠ unraw fn.sig.name := by
  obtain ⟨x, -, hx, htk, hsx⟩ := accessor_name hp hacc hpn hm
  obtain ⟨i, h1, h2, h3⟩ := C28_helper_names hf hfn (Or.inr ⟨ht, rfl⟩)
  have hi : i = 0 := by
    rcases Nat.eq_zero_or_pos i with h | h
    · exact h
    · obtain ⟨g, hg, hgn⟩ := traverse_mem htaken (h3 0 h)
      exact absurd hgn (hno g hg)
  subst hi
  rw [toSyn_unraw hx hsx, h1, (unraw_ident (helper_isIdent E (newCall_isIdent E).2 0)).1]
  rintro rfl
  unfold nameTaken at htk
  rw [Bool.or_eq_false_iff] at htk
  have := htk.1
  rw [Bool.eq_false_iff] at this
  apply this
  have hany : (c.methods.any fun m => m.typ.isCallable) = true := by
    rw [List.any_eq_true]
    exact ⟨f, hfc, by rw [ht]; rfl⟩
  simp only [List.contains_iff_mem, List.mem_append, Class.extraIdents]
  right; right
  rw [if_pos hany]
  simp [helperName]

/-- What is missing from `C31_no_clash_partial`: a function `crate` becomes `f_crate`, like a property `f_crate`. -/
theorem C31_sanitized_counterexample :
    ((⟨exName c!"m.crate", .function, [], .unknown, none⟩ : Function).generate (Env.ascii true false) {}
      (fun s => s = c!"m") [Ident.fromPy (Env.ascii true false) c!"crate"] []).map (fun r => (fnsOf r).map (fun f => f.sig.name)) =
      .ok [c!"f_crate"] ∧
    exNames c!"m.f_crate" [Ident.fromPy (Env.ascii true false) c!"crate"] = .ok [some c!"f_crate", some c!"set_f_crate"] := by
  decide

/-- A class with a method `call`, a `__call__` operator and a property `call1`. -/
def exCallClass : Class :=
  ⟨exName c!"m.C", [⟨exName c!"m.C.call", .method (exName c!"m.C") .instanceMethod, [], .unknown, none⟩,
    ⟨exName c!"m.C.__call__", .method (exName c!"m.C") .callable, [], .unknown, none⟩],
    [exProp c!"m.C.call1" .class false], none⟩

/-- What is missing from `C31_call`: with a method `call`, the call operator becomes `call1`, like a property `call1`. -/
theorem C31_call_counterexample :
    (exCallClass.generate (Env.ascii true false) {} (fun s => s = c!"m") []).map
      (fun c => c.map (fun c => c.traitSigs.map Sig.name)) = .ok (some [c!"call", c!"call1", c!"call1"]) := by decide

-- the hypotheses of `C31_no_clash_partial`: function `f` and property `f`
example : exNames c!"m.f" [Ident.fromPy (Env.ascii true false) c!"f"] = .ok [some c!"get_f", some c!"set_f"] := by decide

/-! ## C32 -/

/-- **C32** (modules): a module attribute is mutable, its setter has the type of its getter, and it has no docs. -/
theorem C32_module {E : Env} {o : PyObj} {name : Path} {p : Property} (h : Property.parse E o name .module = .ok p) :
    p.name = name ∧ p.owner = .module ∧ p.isMutable = true ∧ p.setterAnn = p.ann ∧ p.doc = none ∧ p.setterDoc = none ∧
      ownType E o = .ok p.ann := by
  unfold Property.parse at h
  obtain ⟨a, ha, h⟩ := Res.bind_ok h
  cases h
  exact ⟨rfl, rfl, rfl, rfl, rfl, rfl, ha⟩

/-- The docstring of a Python object, absent if empty or `None`. -/
def Spec.ownDoc (d : Option Str) : Option Str := d.filter (fun s => s ≠ [] ∧ s ≠ c!"None")

theorem readDoc_ok {d : Option Str} {r : Option Str} (h : readDoc d = .ok r) : r = ownDoc d := by
  unfold readDoc at h
  cases d with
  | none => cases h
  | some s =>
    have := Except.ok.inj h
    rw [← this]
    unfold docFilter ownDoc
    by_cases h1 : s = []
    · simp [h1, Option.filter]
    · by_cases h2 : s = c!"None"
      · simp [h2, Option.filter]
      · simp [h1, h2, Option.filter]

theorem parseGetter_ok {E : Env} {o : PyObj} {r : PyTy × Option Str} (h : parseGetter E o = .ok r) :
    r.2 = (o.fget.bind (fun g => ownDoc g.doc)) ∧
      (∀ g, o.fget = some g → ∀ t, g.ret = some t → readAnn E t = .ok r.1) ∧
      ((o.fget = none ∨ ∃ g, o.fget = some g ∧ g.ret = none) → ownType E o = .ok r.1) := by
  unfold parseGetter at h
  cases hg : o.fget with
  | none =>
    rw [hg] at h
    simp only at h
    obtain ⟨t, ht, h⟩ := Res.bind_ok h
    cases h
    exact ⟨rfl, by simp, fun _ => ht⟩
  | some g =>
    rw [hg] at h
    simp only at h
    cases hr : g.ret with
    | none =>
      rw [hr] at h
      simp only at h
      obtain ⟨t, ht, h⟩ := Res.bind_ok h
      obtain ⟨d, hd, h⟩ := Res.bind_ok h
      cases h
      refine ⟨readDoc_ok hd, ?_, fun _ => ht⟩
      intro g' hg' t' ht'
      cases hg'
      rw [hr] at ht'
      cases ht'
    | some t' =>
      rw [hr] at h
      simp only at h
      obtain ⟨t, ht, h⟩ := Res.bind_ok h
      obtain ⟨d, hd, h⟩ := Res.bind_ok h
      cases h
      refine ⟨readDoc_ok hd, ?_, ?_⟩
      · intro g' hg' t'' ht''
        cases hg'
        rw [hr] at ht''
        cases ht''
        exact ht
      · rintro (h | ⟨g', hg', hr'⟩)
        · cases h
        · cases hg'
          rw [hr] at hr'
          cases hr'

theorem parseSetter_ok {E : Env} {o : PyObj} {doc : Option Str} {r : Bool × PyTy × Option Str × Option Str}
    (h : parseSetter E o doc = .ok r) :
    r.1 = o.fset.isSome ∧
      (∀ s, o.fset = some s → r.2.2.1 = doc.or (ownDoc s.doc) ∧ r.2.2.2 = (ownDoc s.doc).or doc ∧
        (∀ ps, s.params = some ps → ∃ a, ps[1]? = some a ∧ readAnn E a = .ok r.2.1) ∧
        (s.params = none → r.2.1 = .unknown)) ∧
      (o.fset = none → r = (false, .unknown, doc, none)) := by
  unfold parseSetter at h
  cases hs : o.fset with
  | none =>
    rw [hs] at h
    cases h
    exact ⟨rfl, by simp, fun _ => rfl⟩
  | some s =>
    rw [hs] at h
    simp only at h
    have key : ∀ (t : PyTy), (readDoc s.doc >>= fun setterDoc => (pure
        (if doc.isNone = true then (true, t, setterDoc, setterDoc)
        else if setterDoc.isNone = true then (true, t, doc, doc) else (true, t, doc, setterDoc)) : Res _)) = .ok r →
        r.1 = true ∧ r.2.1 = t ∧ r.2.2.1 = doc.or (ownDoc s.doc) ∧ r.2.2.2 = (ownDoc s.doc).or doc := by
      intro t h
      obtain ⟨d, hd, h⟩ := Res.bind_ok h
      have hd' := readDoc_ok hd
      subst hd'
      have := Except.ok.inj h
      subst this
      cases hdoc : doc with
      | none => simp
      | some x =>
        cases hsd : ownDoc s.doc with
        | none => simp
        | some y => simp
    cases hp : s.params with
    | none =>
      rw [hp] at h
      simp only at h
      obtain ⟨t, ht, h⟩ := Res.bind_ok h
      cases ht
      obtain ⟨k1, k2, k3, k4⟩ := key _ h
      refine ⟨k1, ?_, by simp⟩
      intro s' hs'
      cases hs'
      exact ⟨k3, k4, by rw [hp]; simp, fun _ => k2⟩
    | some ps =>
      rw [hp] at h
      simp only at h
      obtain ⟨a, ha, h⟩ := Res.bind_ok h
      obtain ⟨t, ht, h⟩ := Res.bind_ok h
      obtain ⟨k1, k2, k3, k4⟩ := key _ h
      refine ⟨k1, ?_, by simp⟩
      intro s' hs'
      cases hs'
      refine ⟨k3, k4, ?_, by rw [hp]; simp⟩
      intro ps' hps'
      rw [hp] at hps'
      cases hps'
      refine ⟨a, ?_, by rw [k2]; exact ht⟩
      unfold Res.ofOption at ha
      split at ha
      · rename_i heq; cases ha; exact heq
      · cases ha

/-- **C32** (classes): a class property is mutable iff it has a setter that is not `None`; an accessor is documented by
its own docstring or, if that is missing, by the other's. -/
theorem C32_class {E : Env} {o : PyObj} {name : Path} {p : Property} (h : Property.parse E o name .class = .ok p) :
    p.name = name ∧ p.owner = .class ∧ (p.isMutable = true ↔ o.fset.isSome = true) ∧
    (let getterDoc := o.fget.bind (fun g => ownDoc g.doc)
     let setterDoc := o.fset.bind (fun s => ownDoc s.doc)
     p.doc = getterDoc.or setterDoc ∧ (p.isMutable = true → p.setterDoc = setterDoc.or getterDoc)) ∧
    (∀ g, o.fget = some g → ∀ t, g.ret = some t → readAnn E t = .ok p.ann) ∧
    (∀ s ps, o.fset = some s → s.params = some ps → ∃ a, ps[1]? = some a ∧ readAnn E a = .ok p.setterAnn) := by
  unfold Property.parse at h
  obtain ⟨⟨ann, doc⟩, hg, h⟩ := Res.bind_ok h
  simp only at h
  obtain ⟨⟨mutable, setterAnn, doc', setterDoc⟩, hs, h⟩ := Res.bind_ok h
  cases h
  obtain ⟨g1, g2, g3⟩ := parseGetter_ok hg
  obtain ⟨s1, s2, s3⟩ := parseSetter_ok hs
  simp only at g1 g2 g3 s1 s2 s3
  refine ⟨rfl, rfl, by simp [s1], ?_, g2, ?_⟩
  · cases hf : o.fset with
    | none =>
      have := s3 hf
      simp only [Prod.mk.injEq] at this
      simp [this, g1]
    | some s =>
      obtain ⟨a, b, -, -⟩ := s2 s hf
      simp [a, b, g1]
  · intro s ps hf hp
    exact (s2 s hf).2.2.1 ps hp

-- a property with a documented getter and an undocumented setter
example : (Property.parse (Env.ascii true false)
    { fget := some ⟨some none, some c!"the x"⟩, fset := some ⟨some [none, none], some c!"None"⟩ } (exName c!"m.C.x") .class).map
      (fun p => (p.isMutable, p.doc, p.setterDoc)) = .ok (true, some c!"the x", some c!"the x") := by decide

/-- The setter's own annotation is read but never used: both accessors are generated with the getter's type. So the
setter of a property annotated `def x(self, v: str)` with `def x(self) -> int` takes an integer. -/
theorem C32_setter_type_ignored (E : Env) (cfg : Config) (importable : Str → Bool) (taken : List Ident) (lt : LocalTypes)
    (p : Property) (t : PyTy) :
    ({ p with setterAnn := t } : Property).generate E cfg importable taken lt = p.generate E cfg importable taken lt := rfl

/-! ## C33 -/

/-- An implementation whose trait signatures are those of its functions. -/
def Matched : FnImpl → Prop
  | .func fns => ∀ f ∈ fns, f.sig.pub = true ∧ f.sig.recv = .py
  | .method sigs fns => sigs = fns.map Fn.sig ∧ ∀ f ∈ fns, f.sig.pub = false ∧ f.sig.recv = .self

theorem contract_recv {E : Env} {typ : FnType} {ident : Str} {taken : List Ident} {params : List (Str × RsTy)}
    {ret : RsTy} {sig : Sig} (h : Function.contract E typ ident taken params ret = .ok sig) :
    (sig.pub = false ∧ sig.recv = .self) ∨ (sig.pub = true ∧ sig.recv = .py) := by
  unfold Function.contract at h
  split at h
  · cases h; exact Or.inl ⟨rfl, rfl⟩
  · obtain ⟨_, _, h⟩ := Res.bind_ok h
    obtain ⟨_, _, h⟩ := Res.bind_ok h
    cases h; exact Or.inl ⟨rfl, rfl⟩
  · obtain ⟨_, _, h⟩ := Res.bind_ok h
    obtain ⟨_, _, h⟩ := Res.bind_ok h
    cases h; exact Or.inr ⟨rfl, rfl⟩
  · cases h; exact Or.inr ⟨rfl, rfl⟩

theorem function_matched {E : Env} {cfg : Config} {importable : Str → Bool} {taken : List Ident} {lt : LocalTypes}
    {f : Function} {r : FnImpl} (h : f.generate E cfg importable taken lt = .ok r) : Matched r := by
  unfold Function.generate at h
  obtain ⟨name, -, h⟩ := Res.bind_ok h
  split at h
  · cases h; intro f hf; cases hf
  · obtain ⟨_, -, h⟩ := Res.bind_ok h
    obtain ⟨_, -, h⟩ := Res.bind_ok h
    obtain ⟨_, -, h⟩ := Res.bind_ok h
    obtain ⟨_, -, h⟩ := Res.bind_ok h
    obtain ⟨sig, hsig, h⟩ := Res.bind_ok h
    obtain ⟨o, -, h⟩ := Res.bind_ok h
    cases o with
    | none => cases h; exact ⟨rfl, by simp⟩
    | some obj =>
      simp only at h
      obtain ⟨_, -, h⟩ := Res.bind_ok h
      obtain ⟨_, -, h⟩ := Res.bind_ok h
      have hr := Except.ok.inj h
      rcases contract_recv hsig with ⟨h1, h2⟩ | ⟨h1, h2⟩
      · rw [if_pos (by simp [h2])] at hr
        rw [← hr]
        exact ⟨rfl, by simp [h1, h2]⟩
      · rw [if_neg (by simp [h2])] at hr
        rw [← hr]
        intro f hf
        rw [List.mem_singleton] at hf
        rw [hf]
        exact ⟨h1, h2⟩

theorem accessor_sig {E : Env} {cfg : Config} {importable : Str → Bool} {taken : List Ident} {lt : LocalTypes}
    {p : Property} {l : List (Option Fn)} {fn : Fn} (h : p.generate E cfg importable taken lt = .ok l)
    (hfn : some fn ∈ l) : fn.sig.pub = false ∧ fn.sig.recv = p.owner.recv := by
  obtain ⟨g, hg, h⟩ := accessors_of h
  have hget : some fn = g → fn.sig.pub = false ∧ fn.sig.recv = p.owner.recv := by
    rintro rfl
    obtain ⟨_, _, _, _, -, -, -, -, rfl⟩ := getter_fn hg
    exact ⟨rfl, rfl⟩
  rcases h with ⟨-, s, hs, rfl⟩ | ⟨-, rfl⟩
  · rcases List.mem_cons.mp hfn with hfn | hfn
    · exact hget hfn
    · rw [List.mem_singleton] at hfn
      rw [← hfn] at hs
      obtain ⟨_, _, _, _, _, -, -, -, -, -, rfl⟩ := setter_fn hs
      exact ⟨rfl, rfl⟩
  · exact hget (List.mem_singleton.mp hfn)

/-- Invariant of the three token streams. -/
def ClassParts.Good (a : ClassParts) : Prop :=
  a.traitSigs = a.traitImpls.map Fn.sig ∧ (∀ f ∈ a.traitImpls, f.sig.pub = false ∧ f.sig.recv = .self) ∧
    ∀ f ∈ a.inherent, f.sig.pub = true ∧ f.sig.recv = .py

theorem ClassParts.good_foldl {l : List FnImpl} (h : ∀ r ∈ l, Matched r) (a : ClassParts) (ha : a.Good) :
    (l.foldl ClassParts.add a).Good := by
  induction l generalizing a with
  | nil => exact ha
  | cons r l ih =>
    refine ih (fun x hx => h x (by simp [hx])) _ ?_
    have hr := h r (by simp)
    obtain ⟨h1, h2, h3⟩ := ha
    cases r with
    | func fns =>
      refine ⟨h1, h2, ?_⟩
      intro f hf
      rcases List.mem_append.mp hf with hf | hf
      · exact h3 f hf
      · exact hr f hf
    | method sigs fns =>
      obtain ⟨hr1, hr2⟩ := hr
      refine ⟨by simp [ClassParts.add, h1, hr1], ?_, h3⟩
      intro f hf
      rcases List.mem_append.mp hf with hf | hf
      · exact h2 f hf
      · exact hr2 f hf

/-- Decomposition of a generated class. -/
theorem class_generate {E : Env} {cfg : Config} {importable : Str → Bool} {lt : LocalTypes} {c : Class} {item : ClassItem}
    (h : c.generate E cfg importable lt = .ok (some item)) :
    ∃ name ident taken impls props, c.name.name = .ok name ∧ Class.ident E name = some ident ∧
      c.methodIdents = .ok taken ∧ Res.traverse (Function.generate E cfg importable taken lt) c.methods = .ok impls ∧
      Res.traverse (Property.generate E cfg importable (taken ++ c.extraIdents E) lt) c.properties = .ok props ∧
      item.doc = docAttr cfg c.doc ∧ item.name = ident ∧ item.objName = c.name.toPy ∧
      (⟨item.inherent, item.traitSigs, item.traitImpls⟩ : ClassParts) =
        (impls ++ props.map propImpl).foldl ClassParts.add ⟨[], [], []⟩ ∧
      (Ident.fromPy E (ident ++ c!"Methods")).toSyn E = some item.traitName := by
  unfold Class.generate at h
  obtain ⟨name, hname, h⟩ := Res.bind_ok h
  split at h
  · cases h
  · rename_i ident hident
    obtain ⟨taken, htaken, h⟩ := Res.bind_ok h
    obtain ⟨impls, himpls, h⟩ := Res.bind_ok h
    simp only at h
    obtain ⟨props, hprops, h⟩ := Res.bind_ok h
    obtain ⟨t, ht, h⟩ := Res.bind_ok h
    cases h
    exact ⟨name, ident, taken, impls, props, hname, hident, htaken, himpls, hprops, rfl, rfl, rfl, rfl, trySyn_ok ht⟩

/-- Class members that are properties have the owner `Class`. -/
def Class.WfOwners (c : Class) : Prop := ∀ p ∈ c.properties, p.owner = .class

/-- **C33**: the trait of a class declares exactly the methods that its implementation defines: the same signatures in the
same order. All of them take `&self` and none has a visibility (which a trait must not have); the associated functions of
the struct are public and take no `self`. -/
theorem C33_trait_impl {E : Env} {cfg : Config} {importable : Str → Bool} {lt : LocalTypes} {c : Class} {item : ClassItem}
    (h : c.generate E cfg importable lt = .ok (some item)) (hw : c.WfOwners) :
    item.traitSigs = item.traitImpls.map Fn.sig ∧
    (∀ s ∈ item.traitSigs, s.pub = false ∧ s.recv = .self) ∧
    (∀ f ∈ item.inherent, f.sig.pub = true ∧ f.sig.recv = .py) := by
  obtain ⟨name, ident, taken, impls, props, -, -, -, himpls, hprops, -, -, -, hparts, -⟩ := class_generate h
  have hgood : (⟨item.inherent, item.traitSigs, item.traitImpls⟩ : ClassParts).Good := by
    rw [hparts]
    apply ClassParts.good_foldl _ _ ⟨rfl, by simp, by simp⟩
    intro r hr
    rcases List.mem_append.mp hr with hr | hr
    · obtain ⟨f, -, hf⟩ := traverse_mem himpls hr
      exact function_matched hf
    · obtain ⟨l, hl, rfl⟩ := List.mem_map.mp hr
      obtain ⟨p, hp, hpl⟩ := traverse_mem hprops hl
      refine ⟨rfl, ?_⟩
      intro f hf
      have hf : some f ∈ l := by simpa using hf
      have := accessor_sig hpl hf
      rw [hw p hp] at this
      exact this
  obtain ⟨h1, h2, h3⟩ := hgood
  refine ⟨h1, ?_, h3⟩
  intro s hs
  simp only at h1
  rw [h1] at hs
  obtain ⟨f, hf, rfl⟩ := List.mem_map.mp hs
  exact h2 f hf

theorem classStep_owners {E : Env} {name : Path} {acc r : List Function × List Property} {m : Ident × PyObj}
    (h : Class.step E name acc m = .ok r) (ha : ∀ p ∈ acc.2, p.owner = .class) : ∀ p ∈ r.2, p.owner = .class := by
  unfold Class.step at h
  simp only at h
  obtain ⟨v, -, h⟩ := Res.bind_ok h
  cases v <;> simp only at h
  case function | method =>
    obtain ⟨f, -, h⟩ := Res.bind_ok h
    cases h
    exact ha
  case property =>
    obtain ⟨p, hp, h⟩ := Res.bind_ok h
    cases h
    intro q hq
    rcases List.mem_append.mp hq with hq | hq
    · exact ha q hq
    · rw [List.mem_singleton.mp hq]
      exact (C32_class hp).2.1
  all_goals (cases h; exact ha)

theorem foldRes_inv {α β : Type} {f : α → β → Res α} {P : α → Prop} (l : List β)
    (hstep : ∀ a b c, b ∈ l → P a → f a b = .ok c → P c) {a r : α} (h : foldRes f a l = .ok r) (ha : P a) : P r := by
  induction l generalizing a with
  | nil => cases h; exact ha
  | cons b l ih =>
    rw [foldRes] at h
    obtain ⟨c, hc, h⟩ := Res.bind_ok h
    exact ih (fun a b' c hb => hstep a b' c (by simp [hb])) h (hstep a b c (by simp) ha hc)

/-- Parsed classes meet the hypothesis of `C33_trait_impl`. -/
theorem C33_owners {E : Env} {cfg : Config} {o : PyClass} {name : Path} {c : Class}
    (h : Class.parse E cfg o name = .ok c) : c.WfOwners := by
  unfold Class.parse at h
  obtain ⟨_, -, h⟩ := Res.bind_ok h
  obtain ⟨⟨ms, ps⟩, hf, h⟩ := Res.bind_ok h
  simp only at h
  obtain ⟨d, -, h⟩ := Res.bind_ok h
  cases h
  exact foldRes_inv (P := fun a => ∀ p ∈ a.2, p.owner = .class) _ (fun a b c _ ha hc => classStep_owners hc ha) hf
    (by simp)

-- a class with a method, a call operator and a property
example : ∃ item, exCallClass.generate (Env.ascii true false) {} (fun s => s = c!"m") [] = .ok (some item) ∧
    exCallClass.WfOwners ∧ item.traitSigs.length = 3 :=
  ⟨_, rfl, by intro p hp; rw [List.mem_singleton.mp hp]; rfl, rfl⟩

/-! ## C56: classes -/

/-- **C56** (classes): what is emitted for a class name, any text: its legal Rust spelling if there is one, else `s_` plus
the name with everything but letters and digits replaced, if that is legal, else nothing. -/
theorem C56_class_name (E : Env) (n : Ident) :
    Class.ident E n = (n.toSyn E).or ((Ident.fromPy E (sanitized E c!"s_" n.asPy)).toSyn E) := by
  unfold Class.ident
  rw [sanitize_eq]
  cases n.toSyn E <;> simp

/-- **C56** (classes): the struct and the trait of an emitted class have legal names. -/
theorem C56_class_legal {E : Env} {cfg : Config} {importable : Str → Bool} {lt : LocalTypes} {c : Class} {item : ClassItem}
    (h : c.generate E cfg importable lt = .ok (some item)) : RustIdent E item.name ∧ RustIdent E item.traitName := by
  obtain ⟨name, ident, -, -, -, -, hident, -, -, -, -, rfl, -, -, ht⟩ := class_generate h
  refine ⟨?_, synIdent_legal ht⟩
  unfold Class.ident at hident
  split at hident
  · cases hident; exact synIdent_legal (by assumption)
  · exact synIdent_legal hident

-- a class called `Self`
example : (Class.ident (Env.ascii true false) (Ident.fromPy (Env.ascii true false) c!"Self"),
    Class.ident (Env.ascii true false) (Ident.fromPy (Env.ascii true false) c!"type")) =
      (some c!"s_Self", some c!"r#type") := by decide

end Bindgen

import Verif.Props.Functions
/-!
# Dispatch and names of functions: C27, C28, C29, C56
-/
namespace Bindgen
open Spec

/-! ## C27 -/

/-- The object expression stands for this dotted Python name: import a prefix, then read the other segments. -/
def Spec.Denotes (o : Obj) (segs : List Str) : Prop :=
  ∃ pkg, objPackage o = some pkg ∧ Str.join c!"." (pkg :: objAttrs o) = Str.join c!"." segs

/-- What an emitted function should be called on, and under which name. -/
def Spec.Target (typ : FnType) (mods cls : List Str) (name : Str) (obj : Obj) (meth : Option Str) : Prop :=
  match typ with
  | .function | .closure => Denotes obj mods ∧ meth = some name
  | .method _ .classMethod | .method _ .staticMethod => Denotes obj cls ∧ meth = some name
  | .method _ .constructor => Denotes obj cls ∧ meth = none
  | .method _ .instanceMethod => obj = .self ∧ meth = some name
  | .method _ .callable => obj = .self ∧ meth = none
  | .method _ .unknown => False

theorem fromPy_join (E : Env) {segs : List Str} (hne : segs ≠ []) (h : ∀ s ∈ segs, PySegment s) :
    Path.fromPy E (Str.join c!"." segs) = ⟨false, segs.map (Ident.fromPy E)⟩ := by
  have := fromPy_dotted E 0 hne h
  simpa [dotted] using this

theorem parent_fromPy (E : Env) {mods : List Str} {n : Str} (hne : mods ≠ []) (hm : ∀ s ∈ mods, PySegment s)
    (hn : PySegment n) :
    (Path.fromPy E (Str.join c!"." (mods ++ [n]))).parent = some (Path.fromPy E (Str.join c!"." mods)) ∧
      (Path.fromPy E (Str.join c!"." (mods ++ [n]))).name = .ok (Ident.fromPy E n) := by
  have hall : ∀ s ∈ mods ++ [n], PySegment s := by
    intro s hs
    rcases List.mem_append.mp hs with hs | hs
    · exact hm s hs
    · rw [List.mem_singleton.mp hs]; exact hn
  have hlen : 0 < mods.length := List.length_pos_iff.mpr hne
  rw [fromPy_join E (by simp) hall, fromPy_join E hne hm]
  constructor
  · rw [Path.parent]
    rw [if_pos (by simp; omega)]
    simp
  · simp [Path.name, Path.name?, Res.ofOption]

theorem quote_denotes (E : Env) (imp : Str → Bool) {segs : List Str} (hne : segs ≠ []) (h : ∀ s ∈ segs, PySegment s)
    {o : Obj} (ho : Path.importQuote imp (Path.fromPy E (Str.join c!"." segs)) = .ok o) : Denotes o segs := by
  obtain ⟨o', pkg, ho', h1, h2⟩ := C07_python_path E imp segs hne h
  rw [ho] at ho'
  cases ho'
  exact ⟨pkg, h1, h2⟩

/-- **C27**: an emitted function calls what it stands for: a module function its module, a class or static method its
class, an instance method `self`, each under its Python name; a constructor calls the class, a call operator `self`. -/
theorem C27_dispatch {E : Env} {cfg : Config} {importable : Str → Bool} {taken : List Ident} {lt : LocalTypes}
    {f : Function} {r : FnImpl} {fn : Fn} (h : f.generate E cfg importable taken lt = .ok r) (hfn : fn ∈ fnsOf r)
    {mods cls : List Str} {n : Str} (hmne : mods ≠ []) (hm : ∀ s ∈ mods, PySegment s) (hn : PySegment n)
    (hcne : cls ≠ []) (hc : ∀ s ∈ cls, PySegment s)
    (hname : f.name = Path.fromPy E (Str.join c!"." (mods ++ [n])))
    (hcls : ∀ c k, f.typ = .method c k → c = Path.fromPy E (Str.join c!"." cls)) :
    ∃ obj meth pos kw, fn.body = .call obj meth pos kw ∧ Target f.typ mods cls n obj meth := by
  obtain ⟨name, _, _, _, _, _, sig, obj, pos, kw, h0, _, _, _, _, _, _, h6, _, _, rfl, _⟩ := generate_fn h hfn
  obtain ⟨hpar, hnm⟩ := parent_fromPy E hmne hm hn
  rw [hname, hnm] at h0
  have hpy : (Ident.fromPy E n).asPy = n := asPy_fromPy E hn.2.2.1
  have h0 : name = Ident.fromPy E n := (Except.ok.inj h0).symm
  refine ⟨obj, _, _, kw, rfl, ?_⟩
  rw [hname] at h6
  cases ht : f.typ with
  | function =>
    rw [ht] at h6
    unfold dispatcher at h6
    rw [hpar] at h6
    obtain ⟨p, hp, h6⟩ := Res.bind_ok h6
    cases hp
    obtain ⟨o, ho, h6⟩ := Res.bind_ok h6
    cases h6
    exact ⟨quote_denotes E importable hmne hm ho, by rw [h0, hpy]⟩
  | closure =>
    rw [ht] at h6
    unfold dispatcher at h6
    rw [hpar] at h6
    obtain ⟨p, hp, h6⟩ := Res.bind_ok h6
    cases hp
    obtain ⟨o, ho, h6⟩ := Res.bind_ok h6
    cases h6
    exact ⟨quote_denotes E importable hmne hm ho, by rw [h0, hpy]⟩
  | method c k =>
    have hce := hcls c k ht
    rw [ht] at h6
    cases k
    case instanceMethod => cases h6; exact ⟨rfl, by rw [h0, hpy]⟩
    case callable => cases h6; exact ⟨rfl, rfl⟩
    case unknown => cases h6
    all_goals
      unfold dispatcher at h6
      obtain ⟨o, ho, h6⟩ := Res.bind_ok h6
      cases h6
      rw [hce] at ho
      first
        | exact ⟨quote_denotes E importable hcne hc ho, rfl⟩
        | exact ⟨quote_denotes E importable hcne hc ho, by rw [h0, hpy]⟩

-- a static method `m.C.f`
example : ∃ r fn, (⟨exName c!"m.C.f", .method (exName c!"m.C") .staticMethod, [], .unknown, none⟩ : Function).generate
    (Env.ascii true false) {} (fun s => s = c!"m") [] [] = .ok r ∧ fnsOf r = [fn] ∧
      fn.body = .call (.getattr (.import c!"m") c!"C") (some c!"f") none none :=
  ⟨.func [⟨none, ⟨true, c!"f", .py, [], .ty (.bound c!"PyAny")⟩, false, [],
    .call (.getattr (.import c!"m") c!"C") (some c!"f") none none⟩], _, by decide, rfl, rfl⟩

/-- **C27** (partial): the kind of a method of class `c` follows the entry in the class dictionary, except that a first
parameter called `self` makes an instance method; the class path stays `c`.
Missing: methods without (used) parameters (`C27_no_parameters_counterexample`). -/
theorem C27_kind_partial {E : Env} {pf : PyFn} {name c : Path} {f : Function} {s : PySig} (hs : pf.sig = some s)
    (hg : GoodSig E s.params) (h : Function.parse E pf name (.method c .unknown) = .ok f)
    (hne : ∃ p ∈ s.params, p.name ≠ c!"_") :
    ∃ k, f.typ = .method c k ∧
      (((usedParams s.params).head?.map Prod.fst = some c!"self" ∨ pf.dictKind = some .other) → k = .instanceMethod) ∧
      ((usedParams s.params).head?.map Prod.fst ≠ some c!"self" → pf.dictKind = some .classMethod → k = .classMethod) ∧
      ((usedParams s.params).head?.map Prod.fst ≠ some c!"self" → pf.dictKind = some .staticMethod ∨ pf.dictKind = none →
        k = .staticMethod) := by
  obtain ⟨ps, typ2, ps2, hps, hsc, -, htyp, -⟩ := parse_sig hs h
  have hused := used_eq hg hps
  have hself : ∀ q ∈ ps.filter (fun p => p.name.rs ≠ c!"r#_"), q.name.rs = c!"r#self" ↔ q.name.asPy = c!"self" :=
    fun q hq => parseParams_rs hps hg.ident (k := c!"self") (by decide) q (List.mem_of_mem_filter hq)
  have hnonempty : ps.filter (fun p => p.name.rs ≠ c!"r#_") ≠ [] := by
    intro hnil
    rw [hnil] at hused
    obtain ⟨p, hp, hpn⟩ := hne
    have : (p.name, p.kind) ∈ usedParams s.params :=
      List.mem_filter.mpr ⟨List.mem_map.mpr ⟨p, hp, rfl⟩, by simpa using hpn⟩
    rw [← hused] at this
    simp [nk] at this
  generalize ps.filter (fun p => p.name.rs ≠ c!"r#_") = us at *
  cases us with
  | nil => exact absurd rfl hnonempty
  | cons q us =>
    have hfirst : firstIsSelf (q :: us) = true ↔ (usedParams s.params).head?.map Prod.fst = some c!"self" := by
      rw [← hused]
      simp only [firstIsSelf, nk, List.map_cons, List.head?_cons, Option.map_some, Option.some.injEq, decide_eq_true_eq]
      exact hself q (by simp)
    rw [← hfirst, ne_eq, ← hfirst]
    rcases hdk : pf.dictKind with _ | dk
    · rw [hdk] at hsc
      simp only [inferMethod, selfCheck] at hsc
      cases hf : firstIsSelf (q :: us) <;> rw [hf] at hsc <;> cases hsc <;> rw [htyp] <;> exact ⟨_, rfl, by simp⟩
    · cases dk <;> rw [hdk] at hsc <;> simp only [inferMethod, selfCheck] at hsc
      · cases hf : firstIsSelf (q :: us) <;> rw [hf] at hsc <;> cases hsc <;> rw [htyp] <;> exact ⟨_, rfl, by simp⟩
      · cases hf : firstIsSelf (q :: us) <;> rw [hf] at hsc <;> cases hsc <;> rw [htyp] <;> exact ⟨_, rfl, by simp⟩
      · cases hsc
        rw [htyp]
        exact ⟨_, rfl, by simp⟩

/-- An instance method without parameters becomes a static method of a class path that is its own name: it is called as
`C.f.f()`. -/
theorem C27_no_parameters_counterexample :
    ∃ f fn, Function.parse (Env.ascii true false) (exFn [exParam c!"_"] (some .other)) (exName c!"m.C.f")
        (.method (exName c!"m.C") .unknown) = .ok f ∧
      f.generate (Env.ascii true false) {} (fun s => s = c!"m") [] [] = .ok (.func [fn]) ∧
      fn.body = .call (.getattr (.getattr (.import c!"m") c!"C") c!"f") (some c!"f") none none :=
  ⟨⟨exName c!"m.C.f", .method (exName c!"m.C.f") .staticMethod, [], .unknown, none⟩,
    ⟨none, ⟨true, c!"f", .py, [], .ty (.bound c!"PyAny")⟩, false, [],
      .call (.getattr (.getattr (.import c!"m") c!"C") c!"f") (some c!"f") none none⟩, by decide, by decide, rfl⟩

/-- A method without a signature (a builtin) keeps an unknown kind and is not generated. -/
theorem C27_no_signature_counterexample :
    ∃ f, Function.parse (Env.ascii true false) ⟨some c!"None", none, some .other⟩ (exName c!"m.C.f")
        (.method (exName c!"m.C") .unknown) = .ok f ∧
      f.generate (Env.ascii true false) {} (fun s => s = c!"m") [] [] = .ok (.method [] []) :=
  ⟨⟨exName c!"m.C.f", .method (exName c!"m.C") .unknown, [argsParam, kwargsParam], .unknown, none⟩, by decide, by decide⟩

/-! ## C28 -/

/-- The `i`-th candidate for a helper name: `base`, `base1`, `base2`, … -/
def Spec.helperName (base : Str) (i : Nat) : Str := base ++ if i = 0 then [] else Nat.toDigits 10 i

theorem candidate_helper (E : Env) (base : Str) (i : Nat) : candidate E base i = Ident.fromPy E (helperName base i) := by
  rw [candidate, helperName, decimal_eq]
  congr 2
  by_cases h : i = 0
  · subst h; rfl
  · rw [if_pos (by omega), if_neg h]

theorem digits_continue (E : Env) (n : Nat) : ∀ c ∈ Nat.toDigits 10 n, E.xidContinue c = true := by
  intro c hc
  have hd : c.isDigit = true := Nat.isDigit_of_mem_toDigits (by omega) (by omega) hc
  rw [Char.isDigit_iff_toNat] at hd
  have h0 : '0'.toNat = 48 := rfl
  have h9 : '9'.toNat = 57 := rfl
  rw [E.xidContinue_ascii _ (by omega)]
  simp only [asciiDigit, Bool.or_eq_true, Bool.and_eq_true, decide_eq_true_eq]
  left; right
  exact ⟨hd.1, hd.2⟩

theorem helper_isIdent (E : Env) {base : Str} (hb : IsIdent E base) (i : Nat) : IsIdent E (helperName base i) := by
  obtain ⟨c, cs, rfl, h1, h2⟩ := hb
  refine ⟨c, cs ++ _, rfl, h1, ?_⟩
  intro x hx
  rcases List.mem_append.mp hx with hx | hx
  · exact h2 x hx
  · split at hx
    · cases hx
    · exact digits_continue E i x hx

/-- **C28**: for any names already there, the search for a name starting with an identifier `base` finds one: it is the
first of `base`, `base1`, `base2`, … that is not there. -/
theorem C28_search (E : Env) {base : Str} (hb : IsIdent E base) (names : List Ident) :
    ∃ i, fresh E base names = .ok (Ident.fromPy E (helperName base i)) ∧
      Ident.fromPy E (helperName base i) ∉ names ∧ ∀ j < i, Ident.fromPy E (helperName base j) ∈ names := by
  have hraw : ∀ i, ¬ c!"r#" <+: base ++ if i > 0 then decimal i else [] := by
    intro i
    have := (helper_isIdent E hb i).not_raw
    rw [helperName] at this
    rw [decimal_eq]
    by_cases h : i = 0
    · subst h; simpa using this
    · rw [if_neg h] at this
      rw [if_pos (by omega)]; exact this
  obtain ⟨k, h1, h2, h3⟩ := fresh_eq E hraw names
  rw [candidate_helper] at h1 h2
  exact ⟨k, h1, h2, fun j hj => by rw [← candidate_helper]; exact h3 j hj⟩

/-- `new` and `call` are identifiers. -/
theorem newCall_isIdent (E : Env) : IsIdent E c!"new" ∧ IsIdent E c!"call" :=
  ⟨isIdent_ascii E _ (by decide) (by decide), isIdent_ascii E _ (by decide) (by decide)⟩

theorem new_not_keyword (i : Nat) : helperName c!"new" i ∉ rustKeywords := by
  simp [helperName, rustKeywords]

theorem call_not_keyword (i : Nat) : helperName c!"call" i ∉ rustKeywords := by
  simp [helperName, rustKeywords]

/-- **C28**: an emitted constructor is called `new` and an emitted call operator `call`, or the first of `new1`, … or
`call1`, … that is not the name of a method; there always is one. -/
theorem C28_helper_names {E : Env} {cfg : Config} {importable : Str → Bool} {taken : List Ident} {lt : LocalTypes}
    {f : Function} {r : FnImpl} {fn : Fn} (h : f.generate E cfg importable taken lt = .ok r) (hfn : fn ∈ fnsOf r)
    {c : Path} {base : Str} (ht : (f.typ = .method c .constructor ∧ base = c!"new") ∨ (f.typ = .method c .callable ∧ base = c!"call")) :
    ∃ i, fn.sig.name = helperName base i ∧ Ident.fromPy E (helperName base i) ∉ taken ∧
      ∀ j < i, Ident.fromPy E (helperName base j) ∈ taken := by
  obtain ⟨_, ident, _, _, _, ret, sig, _, _, _, _, _, _, _, _, _, h5, _, _, _, rfl, _⟩ := generate_fn h hfn
  rcases ht with ⟨ht, rfl⟩ | ⟨ht, rfl⟩
  · obtain ⟨i, h1, h2, h3⟩ := C28_search E (newCall_isIdent E).1 taken
    rw [ht] at h5
    unfold Function.contract at h5
    simp only at h5
    rw [h1, Res.ok_bind, trySyn_plain (helper_isIdent E (newCall_isIdent E).1 i) (new_not_keyword i), Res.ok_bind] at h5
    cases h5
    exact ⟨i, rfl, h2, h3⟩
  · obtain ⟨i, h1, h2, h3⟩ := C28_search E (newCall_isIdent E).2 taken
    rw [ht] at h5
    unfold Function.contract at h5
    simp only at h5
    rw [h1, Res.ok_bind, trySyn_plain (helper_isIdent E (newCall_isIdent E).2 i) (call_not_keyword i), Res.ok_bind] at h5
    cases h5
    exact ⟨i, rfl, h2, h3⟩

-- a class that already has `new` and `new1`
example : ((⟨exName c!"m.C.__init__", .method (exName c!"m.C") .constructor, [], .unknown, none⟩ : Function).generate
    (Env.ascii true false) {} (fun s => s = c!"m") [⟨c!"new"⟩, ⟨c!"new1"⟩, ⟨c!"new3"⟩] []).map
      (fun r => (fnsOf r).map (fun fn => fn.sig.name)) = .ok [c!"new2"] := by decide

/-! ## C29 and C56: names of functions -/

/-- Names that pyo3 methods of generated code rely on. -/
def Spec.reservedFunctions : List Str := [c!"get_type", c!"obj", c!"py", c!"repr", c!"str"]

theorem toSyn_ident {E : Env} {s : Str} (h : IsIdent E s) :
    (Ident.fromPy E s).toSyn E = if s ∈ unspellable then none else if s ∈ keywords then some (c!"r#" ++ s) else some s := by
  by_cases hk : s ∈ rustKeywords
  · rw [Ident.toSyn, fromPy_reserved h hk, synIdent_raw h, if_pos ((keywords_iff s).mpr hk)]
    by_cases hr : s ∈ rawReserved
    · rw [if_pos (by simpa using hr), if_pos ((unspellable_iff s).mpr hr)]
    · rw [if_neg (by simpa using hr), if_neg (fun hc => hr ((unspellable_iff s).mp hc))]
  · have hr : s ∉ unspellable := by
      intro hc
      have : s ∈ rawReserved := (unspellable_iff s).mp hc
      apply hk
      simp only [rawReserved, List.mem_cons, List.not_mem_nil, or_false] at this
      rcases this with rfl | rfl | rfl | rfl | rfl <;> decide
    rw [Ident.toSyn, fromPy_plain h hk, synIdent_plain h hk, if_neg hr, if_neg (fun hc => hk ((keywords_iff s).mp hc))]

theorem unraw_ident {E : Env} {s : Str} (h : IsIdent E s) : unraw s = s ∧ unraw (c!"r#" ++ s) = s := by
  refine ⟨?_, rfl⟩
  unfold unraw
  split
  · exact absurd h.no_hash (by simp)
  · rfl

/-- The replacement name of an illegal identifier. -/
def Spec.sanitized (E : Env) (pre name : Str) : Str := pre ++ name.map (fun c => if E.alnum c then c else '_')

theorem sanitize_eq (E : Env) (pre : Str) (name : Ident) : sanitize E pre name = Ident.fromPy E (sanitized E pre name.asPy) := rfl

theorem synIdent_head {E : Env} {c : Char} {s t : Str} (hc : c ≠ 'r') (hw : lexWs c = false)
    (h : synIdent E (c :: s) = some t) : ∃ t', t = c :: t' := by
  have htrim : ∃ t', Bindgen.lexTrim (c :: s) = c :: t' := by
    rw [Bindgen.lexTrim, List.dropWhile_cons_of_neg (by simp [hw])]
    rw [List.reverse_cons]
    generalize s.reverse = r
    induction r with
    | nil => exact ⟨[], by simp [List.dropWhile_cons_of_neg, hw]⟩
    | cons x r ih =>
      by_cases hx : lexWs x = true
      · rw [List.cons_append, List.dropWhile_cons_of_pos hx]; exact ih
      · rw [List.cons_append, List.dropWhile_cons_of_neg hx]
        exact ⟨(x :: r).reverse, by simp⟩
  obtain ⟨t', ht'⟩ := htrim
  rw [synIdent, ht'] at h
  unfold synIdentTok at h
  split at h
  · rename_i heq; cases heq; exact absurd rfl hc
  · split at h
    · cases h; exact ⟨t', rfl⟩
    · cases h

theorem toSyn_prefix {E : Env} {c : Char} {s t : Str} (hc : c ≠ 'r') (hw : lexWs c = false)
    (h : (Ident.fromPy E (c :: s)).toSyn E = some t) : ∃ t', unraw t = c :: t' := by
  rw [Ident.toSyn, Ident.fromPy, Ident.pyToRs] at h
  split at h
  · obtain ⟨t', rfl⟩ := synIdent_head hc hw h
    refine ⟨t', ?_⟩
    unfold unraw
    split
    · rename_i heq; cases heq; exact absurd rfl hc
    · rfl
  · -- the raw spelling
    rename_i hn
    rw [synIdent] at h
    have hns : lexWs 'r' = false := by decide
    -- the trimmed text still starts with `r#c`
    have : ∃ t', Bindgen.lexTrim (c!"r#" ++ c :: s) = c!"r#" ++ c :: t' := by
      rw [Bindgen.lexTrim, List.cons_append, List.dropWhile_cons_of_neg (by simp [hns])]
      rw [show (['#'] ++ c :: s) = '#' :: c :: s from rfl]
      simp only [List.reverse_cons, List.append_assoc]
      generalize s.reverse = r
      induction r with
      | nil => exact ⟨[], by simp [List.dropWhile_cons_of_neg, hw]⟩
      | cons x r ih =>
        by_cases hx : lexWs x = true
        · rw [List.cons_append, List.dropWhile_cons_of_pos hx]; exact ih
        · rw [List.cons_append, List.dropWhile_cons_of_neg hx]
          exact ⟨(x :: r).reverse, by simp⟩
    obtain ⟨t', ht'⟩ := this
    rw [ht'] at h
    simp only [synIdentTok, List.cons_append, List.nil_append] at h
    split at h
    · cases h; exact ⟨t', rfl⟩
    · cases h

/-- The name of an emitted function that is neither a constructor nor a call operator. -/
theorem contract_name {E : Env} {typ : FnType} {ident : Str} {taken : List Ident} {params : List (Str × RsTy)}
    {ret : RsTy} {sig : Sig} (h : Function.contract E typ ident taken params ret = .ok sig) :
    sig.name = ident ∨ ∃ i, sig.name = helperName c!"new" i ∨ sig.name = helperName c!"call" i := by
  unfold Function.contract at h
  split at h
  · cases h; exact Or.inl rfl
  · obtain ⟨i, h1, h2, h3⟩ := C28_search E (newCall_isIdent E).2 taken
    rw [h1, Res.ok_bind, trySyn_plain (helper_isIdent E (newCall_isIdent E).2 i) (call_not_keyword i), Res.ok_bind] at h
    cases h
    exact Or.inr ⟨i, Or.inr rfl⟩
  · obtain ⟨i, h1, h2, h3⟩ := C28_search E (newCall_isIdent E).1 taken
    rw [h1, Res.ok_bind, trySyn_plain (helper_isIdent E (newCall_isIdent E).1 i) (new_not_keyword i), Res.ok_bind] at h
    cases h
    exact Or.inr ⟨i, Or.inl rfl⟩
  · cases h; exact Or.inl rfl

/-- **C29** (functions and methods): no emitted function has a reserved name. Missing: attributes whose names are not Python
identifiers (`C29_space_counterexample`). -/
theorem C29_functions_partial {E : Env} {cfg : Config} {importable : Str → Bool} {taken : List Ident} {lt : LocalTypes}
    {f : Function} {r : FnImpl} {fn : Fn} {n : Str} (h : f.generate E cfg importable taken lt = .ok r)
    (hfn : fn ∈ fnsOf r) (hn : f.name.name = .ok (Ident.fromPy E n)) (hid : IsIdent E n) :
    unraw fn.sig.name ∉ reservedFunctions := by
  obtain ⟨name, ident, _, _, _, ret, sig, _, _, _, h0, h1, _, _, _, _, h5, _, _, _, rfl, _⟩ := generate_fn h hfn
  rw [hn] at h0
  cases h0
  simp only
  rcases contract_name h5 with hs | ⟨i, hs | hs⟩
  · rw [hs]
    unfold Function.ident at h1
    split at h1
    · rename_i i hi
      split at h1
      · cases h1
      · rename_i hforb
        cases h1
        rw [asPy_ident hid] at hforb
        have hne : n ∉ reservedFunctions := by
          simpa [forbiddenFunctionNames, reservedFunctions] using hforb
        rw [toSyn_ident hid] at hi
        split at hi
        · cases hi
        · split at hi
          · cases hi; rw [(unraw_ident hid).2]; exact hne
          · cases hi; rw [(unraw_ident hid).1]; exact hne
    · obtain ⟨t', ht'⟩ := toSyn_prefix (c := 'f') (by decide) (by decide) h1
      rw [ht']
      simp [reservedFunctions]
  · rw [hs]
    have : unraw (helperName c!"new" i) = helperName c!"new" i := (unraw_ident (helper_isIdent E (newCall_isIdent E).1 i)).1
    rw [this]; simp [reservedFunctions, helperName]
  · rw [hs]
    have : unraw (helperName c!"call" i) = helperName c!"call" i := (unraw_ident (helper_isIdent E (newCall_isIdent E).2 i)).1
    rw [this]; simp [reservedFunctions, helperName]

-- functions named `str` and `repr` are left out
example : ([c!"m.str", c!"m.f"].map (fun s => (⟨exName s, .function, [], .unknown, none⟩ : Function).generate
    (Env.ascii true false) {} (fun s => s = c!"m") [] [])).map
      (fun r => r.map (fun r => (fnsOf r).map (fun fn => fn.sig.name))) = [.ok [], .ok [c!"f"]] := by decide

/-- **C29** fails for names with white space around, which `setattr` allows: the function ` py` is emitted as `py`. -/
theorem C29_space_counterexample :
    ((⟨exName c!"m. py", .function, [], .unknown, none⟩ : Function).generate
      (Env.ascii true false) {} (fun s => s = c!"m") [] []).map (fun r => (fnsOf r).map (fun fn => fn.sig.name)) =
      .ok [c!"py"] := by decide

/-- **C56** (functions): what is emitted for a function name `n`, any text: its legal Rust spelling if there is one (and it is
not reserved), else `f_` plus the name with everything but letters and digits replaced, if that is legal, else nothing. -/
theorem C56_function_name (E : Env) (n : Ident) :
    Function.ident E n =
      match n.toSyn E, (Ident.fromPy E (sanitized E c!"f_" n.asPy)).toSyn E with
      | some i, _ => if n.asPy ∈ reservedFunctions then none else some i
      | none, some i => some i
      | none, none => none := by
  unfold Function.ident
  rw [sanitize_eq]
  cases n.toSyn E with
  | none => cases (Ident.fromPy E (sanitized E c!"f_" n.asPy)).toSyn E <;> rfl
  | some i =>
    simp only
    by_cases hr : n.asPy ∈ reservedFunctions
    · rw [if_pos hr, if_pos (by simpa [forbiddenFunctionNames, reservedFunctions] using hr)]
    · rw [if_neg hr, if_neg (by simpa [forbiddenFunctionNames, reservedFunctions] using hr)]

/-- **C56**: every emitted function name is a legal Rust identifier. -/
theorem C56_function_legal {E : Env} {cfg : Config} {importable : Str → Bool} {taken : List Ident} {lt : LocalTypes}
    {f : Function} {r : FnImpl} {fn : Fn} (h : f.generate E cfg importable taken lt = .ok r) (hfn : fn ∈ fnsOf r) :
    RustIdent E fn.sig.name ∧ ∀ p ∈ fn.sig.params, RustIdent E p.1 := by
  obtain ⟨name, ident, idents, _, types, ret, sig, _, _, _, h0, h1, h2, _, _, _, h5, _, _, _, rfl, _⟩ := generate_fn h hfn
  constructor
  · simp only
    rcases contract_name h5 with hs | ⟨i, hs | hs⟩
    · rw [hs]
      unfold Function.ident at h1
      split at h1
      · rename_i i hi
        split at h1
        · cases h1
        · cases h1; exact synIdent_legal hi
      · exact synIdent_legal h1
    · rw [hs]
      exact Or.inl ⟨helper_isIdent E (newCall_isIdent E).1 i, fun hc => new_not_keyword i ((keywords_iff _).mp hc)⟩
    · rw [hs]
      exact Or.inl ⟨helper_isIdent E (newCall_isIdent E).2 i, fun hc => call_not_keyword i ((keywords_iff _).mp hc)⟩
  · intro p hp
    simp only at hp
    rw [contract_params h5] at hp
    have := (List.of_mem_zip hp).1
    obtain ⟨a, _, ha⟩ := traverse_mem h2 this
    unfold paramIdent Ident.trySyn at ha
    cases hs : (Ident.fromPy E (c!"p_" ++ a.name.asPy)).toSyn E with
    | none => rw [hs] at ha; cases ha
    | some i => rw [hs] at ha; cases ha; exact synIdent_legal hs

-- `<lambda>` and `crate`
example : (Function.ident (Env.ascii true false) (Ident.fromPy (Env.ascii true false) c!"<lambda>"),
    Function.ident (Env.ascii true false) (Ident.fromPy (Env.ascii true false) c!"crate")) =
      (some c!"f__lambda_", some c!"f_crate") := by decide

end Bindgen

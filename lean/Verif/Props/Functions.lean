import Verif.Lemmas.Parse
import Verif.Lemmas.Fresh
import Verif.Lemmas.Bind
import Verif.Props.Paths
/-!
# Functions: C24, C25, C26, C27, C28, C29, C56
-/
namespace Bindgen
open Spec

/-! ## C26: which parameters survive -/

/-- Name and kind of the parameters that are used: those not named `_`. -/
def Spec.usedParams (ps : List PyParam) : List (Str × ParamKind) :=
  (ps.map (fun p => (p.name, p.kind))).filter (fun p => p.1 ≠ c!"_")

/-- The used parameters after the receiver. -/
def Spec.afterReceiver (typ : FnType) (ps : List PyParam) : List (Str × ParamKind) :=
  if hasReceiver typ then (usedParams ps).tail else usedParams ps

/-- A signature as `inspect.signature` gives it: distinct identifiers, at most one `*args` and `**kwargs`. -/
structure Spec.GoodSig (E : Env) (ps : List PyParam) : Prop where
  wf : WfSig ps
  ident : ∀ p ∈ ps, IsIdent E p.name

theorem nk_tail (ps : List Param) : nk ps.tail = (nk ps).tail := by simp [nk]

theorem used_eq {E : Env} {ps : List PyParam} {qs : List Param} (hg : GoodSig E ps)
    (h : Res.traverse (parseParam E) ps = .ok qs) :
    nk (qs.filter (fun p => p.name.rs ≠ c!"r#_")) = usedParams ps := by
  have h1 := (parseParams_wf h hg.ident hg.wf.names hg.wf.oneStar hg.wf.oneStarStar).2
  have h2 := parseParams_rs h hg.ident (k := c!"_") (by decide)
  rw [usedParams, ← h1, List.filter_map, nk]
  congr 1
  apply List.filter_congr
  intro q hq
  simp only [Function.comp_apply, ne_eq, decide_not, Bool.not_eq_eq_eq_not, Bool.not_not]
  rw [decide_eq_decide]
  exact h2 q hq

/-- The parse steps on the parameters, summarised. -/
theorem parse_params {E : Env} {pf : PyFn} {name : Path} {typ : FnType} {f : Function} {s : PySig}
    (hs : pf.sig = some s) (hg : GoodSig E s.params) (h : Function.parse E pf name typ = .ok f) :
    (nk f.params = afterReceiver f.typ s.params ∧ (∀ p ∈ f.params, p.name.asPy ≠ c!"self") ∧
        (c!"self" ∉ (afterReceiver f.typ s.params).map Prod.fst) ∧ WfParams E f.params) ∨
      (f.params = [argsParam, kwargsParam] ∧ c!"self" ∈ (afterReceiver f.typ s.params).map Prod.fst) ∨
      (isFree f.typ = true ∧ ∃ k rest, afterReceiver f.typ s.params = (c!"self", k) :: rest ∧ k.isPositional = true ∧
        nk f.params = (c!"__unknown_self__", k) :: rest ∧ (∀ p ∈ f.params, p.name.asPy ≠ c!"self") ∧
        (c!"__unknown_self__" ∉ s.params.map PyParam.name → WfParams E f.params)) := by
  obtain ⟨ps, typ2, ps2, hps, hsc, -, htyp, -, -, ps3, h3, hf⟩ := parse_sig hs h
  have hused := used_eq hg hps
  have hwf := ((parseParams_wf hps hg.ident hg.wf.names hg.wf.oneStar hg.wf.oneStarStar).1).sublist
    (List.filter_sublist (p := fun p => p.name.rs ≠ c!"r#_"))
  have hself : ∀ q ∈ ps.filter (fun p => p.name.rs ≠ c!"r#_"), q.name.rs = c!"r#self" ↔ q.name.asPy = c!"self" :=
    fun q hq => parseParams_rs hps hg.ident (k := c!"self") (by decide) q (List.mem_of_mem_filter hq)
  have hunk : c!"__unknown_self__" ∉ s.params.map PyParam.name →
      ∀ q ∈ ps.filter (fun p => p.name.rs ≠ c!"r#_"), q.name.asPy ≠ c!"__unknown_self__" := by
    intro hn q hq hc
    have : (q.name.asPy, q.kind) ∈ usedParams s.params := by rw [← hused]; exact List.mem_map.mpr ⟨q, hq, rfl⟩
    rw [usedParams] at this
    obtain ⟨p, hp, hpq⟩ := List.mem_map.mp (List.mem_of_mem_filter this)
    have hpn : p.name = q.name.asPy := congrArg Prod.fst hpq
    exact hn (List.mem_map.mpr ⟨p, hp, by rw [hpn, hc]⟩)
  generalize ps.filter (fun p => p.name.rs ≠ c!"r#_") = us at *
  have h3' := dropReceiver_ok h3
  rcases selfCheck_cases _ _ _ _ hsc with ⟨rfl, hfree⟩ | ⟨ht, hfree, hfirst, rfl⟩ | ⟨ht, hfree, p, rest, rfl, hp, hk, rfl⟩
  · -- parameters untouched
    have hnk : nk ps3 = afterReceiver f.typ s.params := by
      rw [h3', afterReceiver]
      split
      · rw [nk_tail, hused]
      · exact hused
    have hsub : ps3.Sublist ps2 := by
      rw [h3']; split
      · exact List.tail_sublist _
      · exact List.Sublist.refl _
    rcases replaceSelf_cases ps3 with ⟨hr, hno⟩ | ⟨hr, q, hq, hqs⟩
    · left
      rw [hf, hr]
      have hno' : ∀ p ∈ ps3, p.name.asPy ≠ c!"self" := fun p hp hc => hno p hp ((hself p (hsub.subset hp)).mpr hc)
      refine ⟨hnk, hno', ?_, hwf.sublist hsub⟩
      rw [← hnk]
      intro hm
      rw [nk, List.map_map] at hm
      obtain ⟨p, hp, hc⟩ := List.mem_map.mp hm
      exact hno' p hp hc
    · right; left
      refine ⟨by rw [hf, hr], ?_⟩
      rw [← hnk, nk, List.map_map]
      exact List.mem_map.mpr ⟨q, hq, (hself q (hsub.subset hq)).mp hqs⟩
  · -- a free function whose first parameter `self` is not positional
    right; left
    have hft : f.typ = typ2 := by rw [htyp, noParamHack_free _ _ _ (by rw [ht]; exact hfree)]
    have hnr : hasReceiver f.typ = false := noReceiver_of_free (by rw [hft, ht]; exact hfree)
    rw [hnr] at h3'
    simp only [Bool.false_eq_true, if_false] at h3'
    refine ⟨by rw [hf, h3']; decide, ?_⟩
    rw [afterReceiver, hnr, ← hused]
    cases us with
    | nil => simp [firstIsSelf] at hfirst
    | cons q us =>
      have hq : q.name.rs = c!"r#self" := by simpa [firstIsSelf] using hfirst
      simp [nk, (hself q (by simp)).mp hq]
  · -- a free function whose first parameter is called `self`
    right; right
    have hft : f.typ = typ2 := by rw [htyp, noParamHack_free _ _ _ (by rw [ht]; exact hfree)]
    have hfree' : isFree f.typ = true := by rw [hft, ht]; exact hfree
    have hnr : hasReceiver f.typ = false := noReceiver_of_free hfree'
    rw [hnr] at h3'
    simp only [Bool.false_eq_true, if_false] at h3'
    have hps : p.name.asPy = c!"self" := (hself p (by simp)).mp hp
    have hnames := hwf.names
    simp only [List.map_cons, List.nodup_cons] at hnames
    have hrest : ∀ q ∈ rest, q.name.asPy ≠ c!"self" := by
      intro q hq hc
      exact hnames.1 (List.mem_map.mpr ⟨q, hq, by rw [hc, hps]⟩)
    have hno : ∀ q ∈ ps3, q.name.asPy ≠ c!"self" := by
      rw [h3']
      intro q hq
      rcases List.mem_cons.mp hq with rfl | hq
      · exact (by decide : (Ident.fromRs c!"__unknown_self__").asPy ≠ c!"self")
      · exact hrest q hq
    have hno' : ∀ q ∈ ps3, q.name.rs ≠ c!"r#self" := by
      rw [h3']
      intro q hq
      rcases List.mem_cons.mp hq with rfl | hq
      · exact (by decide : (Ident.fromRs c!"__unknown_self__").rs ≠ c!"r#self")
      · exact fun hc => hrest q hq ((hself q (by simp [hq])).mp hc)
    have hfp : f.params = ps3 := by
      rcases replaceSelf_cases ps3 with ⟨hr, -⟩ | ⟨-, q, hq, hqs⟩
      · rw [hf, hr]
      · exact absurd hqs (hno' q hq)
    refine ⟨hfree', p.kind, nk rest, ?_, hk, ?_, ?_, ?_⟩
    · rw [afterReceiver, hnr, ← hused]; simp [nk, hps]
    · rw [hfp, h3']; rfl
    · rw [hfp]; exact hno
    · intro hn
      rw [hfp, h3']
      have hk1 : p.kind ≠ .varPositional := by rintro hc; rw [hc] at hk; cases hk
      have hk2 : p.kind ≠ .varKeyword := by rintro hc; rw [hc] at hk; cases hk
      refine ⟨?_, ?_, ?_, ?_, ?_, ?_⟩
      · intro q hq
        rcases List.mem_cons.mp hq with rfl | hq
        · exact isIdent_ascii E c!"__unknown_self__" (by decide) (by decide)
        · exact hwf.ident q (by simp [hq])
      · simp only [List.map_cons, List.nodup_cons]
        refine ⟨?_, hnames.2⟩
        intro hm
        obtain ⟨q, hq, hc⟩ := List.mem_map.mp hm
        exact hunk hn q (by simp [hq]) hc
      · have := hwf.oneStar
        rw [List.filter_cons_of_neg (by simpa using hk1)] at this ⊢
        exact this
      · have := hwf.oneStarStar
        rw [List.filter_cons_of_neg (by simpa using hk2)] at this ⊢
        exact this
      · intro q hq hkq
        rcases List.mem_cons.mp hq with rfl | hq
        · exact absurd hkq hk1
        · exact hwf.star q (by simp [hq]) hkq
      · intro q hq hkq
        rcases List.mem_cons.mp hq with rfl | hq
        · exact absurd hkq hk2
        · exact hwf.starStar q (by simp [hq]) hkq

/-- **C26** (partial): the parameters kept are exactly the Python parameters, minus the first one for instance methods,
constructors and call operators, minus those named `_`; order and kinds are kept.
Missing: a receiver named `_` (`C26_receiver_counterexample`); the replacement of parameter lists that still mention
`self` is in `C26_self_replaced`. -/
theorem C26_parameters_partial {E : Env} {pf : PyFn} {name : Path} {typ : FnType} {f : Function} {s : PySig}
    (hs : pf.sig = some s) (hg : GoodSig E s.params) (h : Function.parse E pf name typ = .ok f)
    (hrecv : ∀ p, s.params.head? = some p → p.name ≠ c!"_")
    (hself : c!"self" ∉ ((if hasReceiver f.typ then s.params.tail else s.params).map PyParam.name)) :
    nk f.params = ((if hasReceiver f.typ then s.params.tail else s.params).map (fun p => (p.name, p.kind))).filter
      (fun p => p.1 ≠ c!"_") := by
  have hafter : afterReceiver f.typ s.params =
      ((if hasReceiver f.typ then s.params.tail else s.params).map (fun p => (p.name, p.kind))).filter
        (fun p => p.1 ≠ c!"_") := by
    rw [afterReceiver, usedParams]
    split
    · cases hp : s.params with
      | nil => rfl
      | cons p rest =>
        rw [List.map_cons, List.filter_cons_of_pos (by simpa using hrecv p (by rw [hp]; rfl))]; rfl
    · rfl
  have hself' : c!"self" ∉ (afterReceiver f.typ s.params).map Prod.fst := by
    rw [hafter]
    intro hm
    obtain ⟨e, he, hes⟩ := List.mem_map.mp hm
    obtain ⟨p, hp, rfl⟩ := List.mem_map.mp (List.mem_of_mem_filter he)
    exact hself (List.mem_map.mpr ⟨p, hp, hes⟩)
  rcases parse_params hs hg h with ⟨h1, -⟩ | ⟨-, h2⟩ | ⟨-, k, rest, h2, -⟩
  · rw [h1, hafter]
  · exact absurd h2 hself'
  · rw [h2] at hself'; simp at hself'

/-- **C26**: parameter lists in which `self` is left over. A free function with a first positional parameter `self` keeps
it under another name; every other such list becomes `*args, **kwargs`. -/
theorem C26_self_replaced {E : Env} {pf : PyFn} {name : Path} {typ : FnType} {f : Function} {s : PySig}
    (hs : pf.sig = some s) (hg : GoodSig E s.params) (h : Function.parse E pf name typ = .ok f)
    (hself : c!"self" ∈ (afterReceiver f.typ s.params).map Prod.fst) :
    nk f.params = [(c!"args", .varPositional), (c!"kwargs", .varKeyword)] ∨
      isFree f.typ = true ∧ ∃ k rest, afterReceiver f.typ s.params = (c!"self", k) :: rest ∧
        (k = .positionalOnly ∨ k = .positionalOrKeyword) ∧ nk f.params = (c!"__unknown_self__", k) :: rest := by
  rcases parse_params hs hg h with ⟨-, -, h2, -⟩ | ⟨h1, -⟩ | ⟨hf, k, rest, h2, hk, h3, -⟩
  · exact absurd hself h2
  · left; rw [h1]; decide
  · right
    refine ⟨hf, k, rest, h2, ?_, h3⟩
    cases k <;> simp_all [ParamKind.isPositional]

/-- **C26**: no parsed function has a parameter called `self`. -/
theorem C26_no_self {E : Env} {pf : PyFn} {name : Path} {typ : FnType} {f : Function}
    (hg : ∀ s, pf.sig = some s → GoodSig E s.params) (h : Function.parse E pf name typ = .ok f) :
    ∀ p ∈ f.params, p.name.asPy ≠ c!"self" := by
  cases hs : pf.sig with
  | none => rw [(parse_nosig hs h).2.2.1]; decide
  | some s =>
    rcases parse_params hs (hg s hs) h with ⟨-, h2, -⟩ | ⟨h1, -⟩ | ⟨-, k, rest, -, -, -, h2, -⟩
    · exact h2
    · rw [h1]; decide
    · exact h2

/-- **C26**: the parameters of a parsed function are well-formed: distinct identifiers, at most one `*args` and one
`**kwargs`, which have the types that are forwarded. -/
theorem C26_wellformed {E : Env} {pf : PyFn} {name : Path} {typ : FnType} {f : Function}
    (hg : ∀ s, pf.sig = some s → GoodSig E s.params ∧ c!"__unknown_self__" ∉ s.params.map PyParam.name)
    (h : Function.parse E pf name typ = .ok f) : WfParams E f.params := by
  cases hs : pf.sig with
  | none => rw [(parse_nosig hs h).2.2.1]; exact argsKwargs_wf E
  | some s =>
    rcases parse_params hs (hg s hs).1 h with ⟨-, -, -, h2⟩ | ⟨h1, -⟩ | ⟨-, k, rest, -, -, -, -, h2⟩
    · exact h2
    · rw [h1]; exact argsKwargs_wf E
    · exact h2 (hg s hs).2

/-- **C26**: the Rust parameters of a generated function are `p_` plus the Python names, in order, and distinct. -/
theorem C26_distinct {E : Env} {cfg : Config} {importable : Str → Bool} {taken : List Ident} {lt : LocalTypes}
    {f : Function} {r : FnImpl} (hwf : WfParams E f.params) (h : f.generate E cfg importable taken lt = .ok r)
    {fn : Fn} (hfn : fn ∈ fnsOf r) :
    fn.sig.params.map Prod.fst = f.params.map (fun p => c!"p_" ++ p.name.asPy) ∧ (fn.sig.params.map Prod.fst).Nodup := by
  obtain ⟨_, _, idents, _, types, _, sig, _, _, _, _, _, h1, _, h3, _, h5, _, _, _, rfl, _⟩ := generate_fn h hfn
  rw [traverse_paramIdent hwf.ident] at h1
  cases h1
  have : sig.params.map Prod.fst = f.params.map pvar := by
    rw [contract_params h5, List.map_fst_zip]
    rw [Res.traverse_length h3, List.length_map]
  refine ⟨this, ?_⟩
  simp only
  rw [this]; exact hwf.pvars

/-- Methods used as examples. -/
def exFn (params : List PyParam) (dk : Option DictKind := none) : PyFn := ⟨some c!"None", some ⟨params, none⟩, dk⟩

/-- A positional-or-keyword parameter. -/
def exParam (name : Str) (kind : ParamKind := .positionalOrKeyword) : PyParam := ⟨name, kind, none, false⟩

/-- A path of the example package. -/
def exName (s : Str) : Path := Path.fromPy (Env.ascii true false) s

-- a method `def f(self, x, *, k)` satisfies the hypotheses and keeps `x` and `k`
example : GoodSig (Env.ascii true false) [exParam c!"self", exParam c!"x", exParam c!"k" .keywordOnly] where
  wf := ⟨by decide, by decide, by decide, by decide⟩
  ident := by
    intro p hp
    simp only [List.mem_cons, List.not_mem_nil, or_false] at hp
    rcases hp with rfl | rfl | rfl <;> exact isIdent_ascii _ _ (by decide) (by decide)

example : (Function.parse (Env.ascii true false)
    (exFn [exParam c!"self", exParam c!"x", exParam c!"k" .keywordOnly] (some .other)) (exName c!"m.C.f")
      (.method (exName c!"m.C") .unknown)).map (fun f => nk f.params) =
    .ok [(c!"x", .positionalOrKeyword), (c!"k", .keywordOnly)] := by decide

/-- A receiver called `_` is removed as an unused parameter; then the next parameter is removed as the receiver:
`def f(_, x)` loses `x`. -/
theorem C26_receiver_counterexample :
    (Function.parse (Env.ascii true false) (exFn [exParam c!"_", exParam c!"x"] (some .other)) (exName c!"m.C.f")
      (.method (exName c!"m.C") .unknown)).map (fun f => (f.typ, nk f.params)) =
    .ok (.method (exName c!"m.C") .instanceMethod, []) := by decide

/-- Renaming `self` can clash with an existing name: `def f(self, __unknown_self__)` has two equal Rust parameters. -/
theorem C26_distinct_counterexample :
    (Function.parse (Env.ascii true false) (exFn [exParam c!"self", exParam c!"__unknown_self__"]) (exName c!"m.f")
      .function).map (fun f => nk f.params) =
    .ok [(c!"__unknown_self__", .positionalOrKeyword), (c!"__unknown_self__", .positionalOrKeyword)] := by decide

/-! ## C24: forwarding -/

theorem zipWith_map_slots (M : List Slot) :
    supplied (M.map Slot.p) (M.map Slot.arg) = M.map (fun e => ⟨e.p.kind, e.p.name.asPy, e.arg⟩) := by
  induction M with
  | nil => rfl
  | cons e M ih =>
    rw [supplied] at ih ⊢
    rw [List.map_cons, List.map_cons, List.zipWith_cons_cons, ih]; rfl

/-- The request made by an emitted function, in terms of the supplied values. -/
theorem run_generated {E : Env} {cfg : Config} {importable : Str → Bool} {taken : List Ident} {lt : LocalTypes}
    {f : Function} {r : FnImpl} (hwf : WfParams E f.params) (h : f.generate E cfg importable taken lt = .ok r)
    {fn : Fn} (hfn : fn ∈ fnsOf r) {args : List PyVal} (hlen : args.length = fn.sig.params.length)
    (hadm : ∀ e ∈ fn.sig.params.zip args, Admits e.1.2 e.2)
    (hnone : ∀ e ∈ f.params.zip args, e.1.kind ≠ .varKeyword → e.2 = .none → ∀ k w, e.1.ann ≠ .optional (.dict k w)) :
    ∃ obj meth pos kw, fn.body = .call obj meth pos kw ∧ args.length = f.params.length ∧
      run fn args = some (.call obj meth
        (positionalVals (supplied f.params args) ++ starVals (supplied f.params args))
        ((keywordVals (supplied f.params args)).foldl (fun d kv => setItem d kv.1 kv.2)
          (starStarVals (supplied f.params args)))) := by
  obtain ⟨name, _, idents, pres, types, _, sig, obj, pos, kw, _, _, h1, h2, h3, _, h5, _, hpos, hkw, hfe, _⟩ := generate_fn h hfn
  have hsig : fn.sig = sig := by rw [hfe]
  rw [hsig] at hlen hadm
  rw [traverse_paramIdent hwf.ident] at h1
  cases h1
  have hsp := contract_params h5
  have htl := Res.traverse_length h3
  have hlen' : args.length = f.params.length := by
    rw [hlen, hsp, List.length_zip, List.length_map, htl]; simp
  obtain ⟨g, rfl, hg⟩ := traverse_map h2
  obtain ⟨τ, rfl, hτ⟩ := traverse_map h3
  have hadm' : ∀ e ∈ f.params.zip args, Admits (τ e.1) e.2 := by
    intro e he
    have : ((pvar e.1, τ e.1), e.2) ∈ sig.params.zip args := by
      rw [hsp, zip_map_pair, List.zip_map_left]
      exact List.mem_map.mpr ⟨e, he, rfl⟩
    exact hadm _ this
  have hmem : ∀ e ∈ f.params.zip args, e.1 ∈ f.params := fun e he => (List.of_mem_zip he).1
  obtain ⟨M, hM1, hM2, hM3⟩ := exists_slots g (fun p v => passed p.kind v) f.params args hlen'.symm (by
    intro e he
    by_cases hk : e.1.kind = .varKeyword
    · have hann := hwf.starStar e.1 (hmem e he) hk
      have hp := hg e.1 (hmem e he)
      have ht := hτ e.1 (hmem e he)
      rw [hann] at hp ht
      rw [hk]
      exact (conv_kwargs hp ht (hadm' e he)).1
    · rw [conv_ok (hg e.1 (hmem e he)) (hτ e.1 (hmem e he)) (hadm' e he) (hnone e he hk)]
      cases hkk : e.1.kind <;> first | rfl | exact absurd hkk hk)
  refine ⟨obj, _, _, kw, by rw [hfe], hlen', ?_⟩
  have hout : ∀ e ∈ M, e.p.kind ≠ .varKeyword → e.out = e.arg := by
    intro e he hk
    rw [(hM3 e he).2.1]
    cases hkk : e.p.kind <;> first | rfl | exact absurd hkk hk
  have hrun := run_spec (M := M) (fn := fn)
    (by rw [hM1]; exact hwf)
    (by
      rw [hsig, hsp, List.map_fst_zip (by simp), ← hM1, List.map_map]; rfl)
    (by
      rw [hfe]
      simp only
      rw [zip_map_pair, ← hM1, List.map_map]
      apply List.map_congr_left
      intro e he
      simp [(hM3 e he).1])
    (by rw [hM1]; exact hpos) (by rw [hM1]; exact hkw) (by rw [hfe])
    (by
      intro e he hk
      have hz := (hM3 e he).2.2
      have hann := hwf.star e.p (hmem _ hz) hk
      have ht := hτ e.p (hmem _ hz)
      rw [hann] at ht
      have hty : τ e.p = .implIntoPy c!"PyTuple" := by
        have e2 : intoRsBorrowed E lt (.tuple [.unknown]) = .ok (.implIntoPy c!"PyTuple") := rfl
        rw [e2] at ht; exact (Except.ok.inj ht).symm
      have ha := hadm' _ hz
      simp only [hty] at ha
      rw [hout e he (by rw [hk]; decide)]
      exact ha rfl)
    (by
      intro e he hk
      have hz := (hM3 e he).2.2
      have hann := hwf.starStar e.p (hmem _ hz) hk
      have ht := hτ e.p (hmem _ hz)
      have hp := hg e.p (hmem _ hz)
      rw [hann] at ht hp
      rw [(hM3 e he).2.1, hk]
      exact (conv_kwargs hp ht (hadm' _ hz)).2)
  rw [hM2] at hrun
  rw [hrun, ← hM1, ← hM2, zipWith_map_slots]
  congr 2
  · congr 1
    · rw [positionalVals, List.filter_map, List.map_map]
      have hf : (fun e : Slot => e.p.kind.isPositional) =
          ((fun a : Arg => decide (a.kind = .positionalOnly) || decide (a.kind = .positionalOrKeyword)) ∘
            fun e : Slot => (⟨e.p.kind, e.p.name.asPy, e.arg⟩ : Arg)) := by
        funext e
        simp only [Function.comp_apply]
        cases e.p.kind <;> rfl
      rw [hf]
      apply List.map_congr_left
      intro e he
      have he' := List.mem_filter.mp he
      refine hout e he'.1 (fun hk => ?_)
      have := he'.2
      simp [hk] at this
    · rw [starVals, List.flatMap_map]
      apply List.flatMap_congr
      intro e he
      simp only
      split
      · rename_i hk; rw [hout e he (by rw [hk]; decide)]
      · rfl
  · congr 1
    · rw [starStarVals, List.flatMap_map]
      apply List.flatMap_congr
      intro e he
      simp only
      split
      · rename_i hk
        rw [(hM3 e he).2.1, hk]
        cases e.arg <;> rfl
      · rfl
    · rw [keywordVals, List.filter_map, List.map_map]
      apply List.map_congr_left
      intro e he
      have he' := List.mem_filter.mp he
      have hk : e.p.kind = .keywordOnly := by simpa using he'.2
      simp only [Function.comp_apply]
      rw [hout e he'.1 (by rw [hk]; decide)]

/-- **C24** (partial): running an emitted function makes one call. Its positional arguments are the values of the positional
parameters in order followed by the elements of `*args`; under every keyword it passes the value of the keyword-only
parameter of that name, or else the entry of `**kwargs`.
Missing: `None` for a parameter annotated `Optional[dict]` (`C24_none_counterexample`). -/
theorem C24_forwarding_partial {E : Env} {cfg : Config} {importable : Str → Bool} {taken : List Ident} {lt : LocalTypes}
    {f : Function} {r : FnImpl} (hwf : WfParams E f.params) (h : f.generate E cfg importable taken lt = .ok r)
    {fn : Fn} (hfn : fn ∈ fnsOf r) {args : List PyVal} (hlen : args.length = fn.sig.params.length)
    (hadm : ∀ e ∈ fn.sig.params.zip args, Admits e.1.2 e.2)
    (hnone : ∀ e ∈ f.params.zip args, e.1.kind ≠ .varKeyword → e.2 = .none → ∀ k w, e.1.ann ≠ .optional (.dict k w)) :
    ∃ obj meth kw, run fn args = some (.call obj meth
        (positionalVals (supplied f.params args) ++ starVals (supplied f.params args)) kw) ∧
      (∀ k, kw.lookup k = ((keywordVals (supplied f.params args)).lookup k).or
        ((starStarVals (supplied f.params args)).lookup k)) ∧
      (((starStarVals (supplied f.params args)).map Prod.fst).Nodup → (kw.map Prod.fst).Nodup) := by
  obtain ⟨obj, meth, _, _, _, hl, hrun⟩ := run_generated hwf h hfn hlen hadm hnone
  have hnames : ((supplied f.params args).map Arg.name).Nodup := by
    have : (supplied f.params args).map Arg.name = f.params.map (fun p => p.name.asPy) := by
      rw [supplied, List.map_zipWith]
      simp only
      clear h hfn hlen hadm hnone hrun
      revert hl
      generalize f.params = ps
      intro hl
      induction ps generalizing args with
      | nil => rfl
      | cons p ps ih =>
        cases args with
        | nil => simp at hl
        | cons a args => simp [ih (by simpa using hl)]
    rw [this]; exact hwf.names
  exact ⟨obj, meth, _, hrun, foldl_setItem_lookup _ _ (keywordVals_keys_nodup hnames), foldl_setItem_nodup _ _⟩

/-- Example: the parsed function `def f(a, *args, k, **kwargs)` of module `m`. -/
def exForward : Function :=
  ⟨exName c!"m.f", .function,
    [⟨⟨c!"a"⟩, .positionalOrKeyword, .unknown, false⟩, argsParam, ⟨⟨c!"k"⟩, .keywordOnly, .unknown, false⟩, kwargsParam],
    .unknown, none⟩

/-- What is generated for it. -/
def exForwardFn : Fn :=
  ⟨none, ⟨true, c!"f", .py, [(c!"p_a", .implIntoPy c!"PyAny"), (c!"p_args", .implIntoPy c!"PyTuple"),
      (c!"p_k", .implIntoPy c!"PyAny"), (c!"p_kwargs", .option (.bound c!"PyDict"))], .ty (.bound c!"PyAny")⟩, false,
    [(c!"p_a", .intoAny), (c!"p_args", .intoTuple), (c!"p_k", .intoAny), (c!"p_kwargs", .optDict)],
    .call (.import c!"m") (some c!"f") (some (.tupleVar [c!"p_a"] c!"p_args"))
      (some (.varSet c!"p_kwargs" [(c!"k", c!"p_k")]))⟩

example : exForward.generate (Env.ascii true false) {} (fun _ => true) [] [] = .ok (.func [exForwardFn]) := by decide

-- the hypotheses of C24 hold for it and `f(1, 2, 3, k=4, z=5)`
example : WfParams (Env.ascii true false) exForward.params where
  ident p hp := by
    simp only [exForward, List.mem_cons, List.not_mem_nil, or_false] at hp
    rcases hp with rfl | rfl | rfl | rfl <;>
      exact isIdent_ascii _ _ (by decide) (by decide)
  names := by decide
  oneStar := by decide
  oneStarStar := by decide
  star := by decide
  starStar := by decide

example : ∀ e ∈ exForwardFn.sig.params.zip
    [.atom 1, .tuple [.atom 2, .atom 3], .atom 4, .dict [(c!"z", .atom 5)]], Admits e.1.2 e.2 := by
  intro e he
  simp only [exForwardFn, List.zip_cons_cons, List.zip_nil_right, List.mem_cons, List.not_mem_nil, or_false] at he
  rcases he with rfl | rfl | rfl | rfl <;> simp [Admits]

example : run exForwardFn [.atom 1, .tuple [.atom 2, .atom 3], .atom 4, .dict [(c!"z", .atom 5)]] =
    some (.call (.import c!"m") (some c!"f") [.atom 1, .atom 2, .atom 3] [(c!"z", .atom 5), (c!"k", .atom 4)]) := rfl

/-- A parameter annotated `Optional[dict]` that is given `None` arrives in Python as `{}`. -/
theorem C24_none_counterexample :
    ∃ (f : Function) (fn : Fn) (obj : Obj),
      f.params = [⟨⟨c!"a"⟩, .positionalOrKeyword, .optional (.dict .string .any), false⟩] ∧
      f.generate (Env.ascii true false) {} (fun _ => true) [] [] = .ok (.func [fn]) ∧
      (∀ e ∈ fn.sig.params.zip [PyVal.none], Admits e.1.2 e.2) ∧
      run fn [.none] = some (.call obj (some c!"f") [.dict []] []) := by
  refine ⟨⟨exName c!"m.f", .function, _, .unknown, none⟩, ⟨none, ⟨true, c!"f", .py,
      [(c!"p_a", .option (.bound c!"PyDict"))], .ty (.bound c!"PyAny")⟩, false, [(c!"p_a", .optDict)],
      .call (.import c!"m") (some c!"f") (some (.tuple [c!"p_a"])) none⟩, .import c!"m", rfl, rfl, ?_, rfl⟩
  intro e he
  simp only [List.zip_cons_cons, List.zip_nil_right, List.mem_singleton] at he
  subst he
  simp [Admits]

/-! ## C25: Python binds what was supplied -/

theorem positionalVals_cons {a : Arg} (h : a.kind = .positionalOnly ∨ a.kind = .positionalOrKeyword) (A : List Arg) :
    positionalVals (a :: A) = a.val :: positionalVals A := by
  rw [positionalVals, List.filter_cons_of_pos (by simpa using h)]; rfl

theorem other_cons {a : Arg} (h : a.kind = .positionalOnly ∨ a.kind = .positionalOrKeyword) (A : List Arg) :
    starVals (a :: A) = starVals A ∧ keywordVals (a :: A) = keywordVals A ∧ starStarVals (a :: A) = starStarVals A := by
  have h1 : a.kind ≠ .varPositional := by rcases h with h | h <;> rw [h] <;> decide
  have h2 : a.kind ≠ .varKeyword := by rcases h with h | h <;> rw [h] <;> decide
  have h3 : a.kind ≠ .keywordOnly := by rcases h with h | h <;> rw [h] <;> decide
  refine ⟨?_, ?_, ?_⟩
  · simp [starVals, h1]
  · simp [keywordVals, h3]
  · simp [starStarVals, h2]

theorem supplied_nk {ps : List Param} {args : List PyVal} (h : args.length = ps.length) :
    (supplied ps args).map (fun a => (a.name, a.kind)) = nk ps := by
  induction ps generalizing args with
  | nil => rfl
  | cons p ps ih =>
    cases args with
    | nil => simp at h
    | cons a args =>
      rw [supplied, List.zipWith_cons_cons, List.map_cons]
      rw [nk, List.map_cons, ← nk, ← ih (by simpa using h)]; rfl

theorem supplied_bound {ps : List PyParam} {qs : List Param} {args : List PyVal} (h : args.length = qs.length)
    (hq : ps.map (fun p => (p.name, p.kind)) = nk qs) :
    (supplied qs args).map (fun a => (a.name, boundTo a.kind a.val)) =
      List.zipWith (fun p v => (p.name, boundTo p.kind v)) ps args := by
  induction qs generalizing args ps with
  | nil => cases ps with
    | nil => rfl
    | cons => simp [nk] at hq
  | cons q qs ih =>
    cases args with
    | nil => simp at h
    | cons a args =>
      cases ps with
      | nil => simp [nk] at hq
      | cons p ps =>
        rw [nk, List.map_cons, List.map_cons, List.cons.injEq, ← nk, Prod.mk.injEq] at hq
        rw [supplied, List.zipWith_cons_cons, List.map_cons, List.zipWith_cons_cons, ← supplied,
          ih (by simpa using h) hq.2, hq.1.1, hq.1.2]

/-- The parameters of a function that is parsed from a signature without parameters named `_` or `self`. -/
theorem params_plain {E : Env} {pf : PyFn} {name : Path} {typ : FnType} {f : Function} {s : PySig} (hs : pf.sig = some s) (hg : GoodSig E s.params)
    (hp : Function.parse E pf name typ = .ok f) (hus : ∀ p ∈ s.params, p.name ≠ c!"_")
    (hself : c!"self" ∉ ((if hasReceiver f.typ then s.params.tail else s.params).map PyParam.name)) :
    nk f.params = (if hasReceiver f.typ then s.params.tail else s.params).map (fun p => (p.name, p.kind)) ∧ WfParams E f.params := by
  have hnk : nk f.params = (if hasReceiver f.typ then s.params.tail else s.params).map (fun p => (p.name, p.kind)) := by
    rw [C26_parameters_partial hs hg hp (fun p hp => hus p (List.mem_of_mem_head? hp)) hself]
    apply List.filter_eq_self.mpr
    intro e he
    obtain ⟨p, hp, rfl⟩ := List.mem_map.mp he
    have : p ∈ s.params := by
      split at hp
      · exact List.mem_of_mem_tail hp
      · exact hp
    simpa using hus p this
  have hwf : WfParams E f.params := by
    have hself' : c!"self" ∉ (nk f.params).map Prod.fst := by
      rw [hnk, List.map_map]; exact hself
    rcases parse_params hs hg hp with ⟨-, -, -, h2⟩ | ⟨h1, -⟩ | ⟨-, k, rest, h2, -, h3, -⟩
    · exact h2
    · rw [h1]; exact argsKwargs_wf E
    · exfalso
      have hh : usedParams s.params = s.params.map (fun p => (p.name, p.kind)) := by
        apply List.filter_eq_self.mpr
        intro e he
        obtain ⟨p, hp, rfl⟩ := List.mem_map.mp he
        simpa using hus p hp
      have : afterReceiver f.typ s.params = nk f.params := by
        rw [hnk, afterReceiver, hh]
        split <;> simp
      rw [← this, h2] at hself'
      simp at hself'
  exact ⟨hnk, hwf⟩

/-- Python binds the values of all parameters, passed in this way, to the parameters. -/
theorem bind_supplied {E : Env} {f : Function} {s : PySig} {args : List PyVal} (recv : PyVal) (hg : GoodSig E s.params) (hwf : WfParams E f.params)
    (hnk : nk f.params = (if hasReceiver f.typ then s.params.tail else s.params).map (fun p => (p.name, p.kind)))
    (hrecv : hasReceiver f.typ = true → ∃ p ps, s.params = p :: ps ∧ (p.kind = .positionalOnly ∨ p.kind = .positionalOrKeyword))
    (hl : args.length = f.params.length) (hkeys : ∀ k ∈ (starStarVals (supplied f.params args)).map Prod.fst, k ∉ keywordNames s.params) :
    Spec.bind s.params ((if hasReceiver f.typ then [recv] else []) ++
        (positionalVals (supplied f.params args) ++ starVals (supplied f.params args)))
      ((keywordVals (supplied f.params args)).foldl (fun d kv => setItem d kv.1 kv.2) (starStarVals (supplied f.params args))) =
      some (List.zipWith (fun p v => (p.name, boundTo p.kind v)) s.params ((if hasReceiver f.typ then [recv] else []) ++ args)) := by
  have hknd : ((supplied f.params args).map Arg.name).Nodup := by
    have := congrArg (List.map Prod.fst) (supplied_nk hl)
    rw [List.map_map] at this
    rw [show (supplied f.params args).map Arg.name = (supplied f.params args).map (Prod.fst ∘ fun a => (a.name, a.kind)) from rfl,
      this, nk, List.map_map]
    exact hwf.names
  have hkwn : ∀ k ∈ (keywordVals (supplied f.params args)).map Prod.fst, k ∈ keywordNames s.params := by
    intro k hk
    rw [keywordVals, List.map_map] at hk
    obtain ⟨a, ha, rfl⟩ := List.mem_map.mp hk
    have ha := List.mem_filter.mp ha
    have hm : (a.name, a.kind) ∈ nk f.params := by
      rw [← supplied_nk hl]; exact List.mem_map.mpr ⟨a, ha.1, rfl⟩
    rw [hnk] at hm
    obtain ⟨p, hp, hpe⟩ := List.mem_map.mp hm
    have hpm : p ∈ s.params := by
      split at hp
      · exact List.mem_of_mem_tail hp
      · exact hp
    rw [Prod.mk.injEq] at hpe
    refine List.mem_map.mpr ⟨p, List.mem_filter.mpr ⟨hpm, ?_⟩, hpe.1⟩
    have hka : a.kind = .keywordOnly := by simpa using ha.2
    simp [hpe.2, hka]
  rw [foldl_setItem_append _ _ (keywordVals_keys_nodup hknd) (fun k hk hc => hkeys k hc (hkwn k hk))]
  cases hr : hasReceiver f.typ with
  | false =>
    rw [hr] at hnk
    simp only [Bool.false_eq_true, if_false, List.nil_append] at hnk ⊢
    rw [bind_spec (by rw [supplied_nk hl, hnk]) hg.wf.names hg.wf.oneStar hg.wf.oneStarStar hkeys,
      supplied_bound hl hnk.symm]
  | true =>
    obtain ⟨p, ps, hps, hk⟩ := hrecv hr
    rw [hr] at hnk
    simp only [if_true, hps, List.tail_cons] at hnk
    simp only [if_true, List.cons_append, List.nil_append]
    have hc := positionalVals_cons (a := ⟨p.kind, p.name, recv⟩) hk (supplied f.params args)
    obtain ⟨o1, o2, o3⟩ := other_cons (a := ⟨p.kind, p.name, recv⟩) hk (supplied f.params args)
    have hb := bind_spec (ps := s.params) (A := ⟨p.kind, p.name, recv⟩ :: supplied f.params args)
      (by rw [hps, List.map_cons, List.map_cons, supplied_nk hl, hnk])
      hg.wf.names hg.wf.oneStar hg.wf.oneStarStar (by rw [o3]; exact hkeys)
    rw [hc, o1, o2, o3, List.cons_append] at hb
    rw [hb, List.map_cons, supplied_bound hl hnk.symm, hps, List.zipWith_cons_cons]

/-- **C25** (partial): for a Python callable with signature `s`, the call made by the emitted function is accepted by
Python's argument binding, and every Python parameter is bound to the value supplied for it (the receiver to `recv`).
Conditions on the signature: no parameter named `_`, no parameter left over that is called `self`, the receiver is
positional. Conditions on the arguments: they have the Rust types of the signature, `**kwargs` has distinct keys none of
which is the name of another keyword parameter.
Missing: `None` for `Optional[dict]` parameters, and parameters named `_` (`C25_underscore_counterexample`). -/
theorem C25_binding_partial {E : Env} {cfg : Config} {importable : Str → Bool} {taken : List Ident} {lt : LocalTypes}
    {pf : PyFn} {name : Path} {typ : FnType} {f : Function} {s : PySig} {r : FnImpl} {fn : Fn} {args : List PyVal}
    (recv : PyVal) (hs : pf.sig = some s) (hg : GoodSig E s.params)
    (hp : Function.parse E pf name typ = .ok f) (h : f.generate E cfg importable taken lt = .ok r) (hfn : fn ∈ fnsOf r)
    (hus : ∀ p ∈ s.params, p.name ≠ c!"_")
    (hself : c!"self" ∉ ((if hasReceiver f.typ then s.params.tail else s.params).map PyParam.name))
    (hrecv : hasReceiver f.typ = true → ∃ p ps, s.params = p :: ps ∧ (p.kind = .positionalOnly ∨ p.kind = .positionalOrKeyword))
    (hlen : args.length = fn.sig.params.length) (hadm : ∀ e ∈ fn.sig.params.zip args, Admits e.1.2 e.2)
    (hnone : ∀ e ∈ f.params.zip args, e.1.kind ≠ .varKeyword → e.2 = .none → ∀ k w, e.1.ann ≠ .optional (.dict k w))
    (hkeys : ∀ k ∈ (starStarVals (supplied f.params args)).map Prod.fst, k ∉ keywordNames s.params) :
    ∃ obj meth pos kw, run fn args = some (.call obj meth pos kw) ∧
      Spec.bind s.params ((if hasReceiver f.typ then [recv] else []) ++ pos) kw =
        some (List.zipWith (fun p v => (p.name, boundTo p.kind v)) s.params
          ((if hasReceiver f.typ then [recv] else []) ++ args)) := by
  obtain ⟨hnk, hwf⟩ := params_plain hs hg hp hus hself
  obtain ⟨obj, meth, _, _, _, hl, hrun⟩ := run_generated hwf h hfn hlen hadm hnone
  exact ⟨obj, meth, _, _, hrun, bind_supplied recv hg hwf hnk hrecv hl hkeys⟩

-- the example of C24 comes from a Python signature that meets the conditions of C25
example : (Function.parse (Env.ascii true false) (exFn [exParam c!"a", exParam c!"args" .varPositional,
    exParam c!"k" .keywordOnly, exParam c!"kwargs" .varKeyword]) (exName c!"m.f") .function) = .ok exForward := by decide

example : GoodSig (Env.ascii true false) [exParam c!"a", exParam c!"args" .varPositional,
    exParam c!"k" .keywordOnly, exParam c!"kwargs" .varKeyword] where
  wf := ⟨by decide, by decide, by decide, by decide⟩
  ident := by
    intro p hp
    simp only [List.mem_cons, List.not_mem_nil, or_false] at hp
    rcases hp with rfl | rfl | rfl | rfl <;> exact isIdent_ascii _ _ (by decide) (by decide)

example : Spec.bind [exParam c!"a", exParam c!"args" .varPositional, exParam c!"k" .keywordOnly,
      exParam c!"kwargs" .varKeyword] [.atom 1, .atom 2, .atom 3] [(c!"z", .atom 5), (c!"k", .atom 4)] =
    some [(c!"a", .val (.atom 1)), (c!"args", .rest [.atom 2, .atom 3]), (c!"k", .val (.atom 4)),
      (c!"kwargs", .kwrest [(c!"z", .atom 5)])] := rfl

/-- Dropping a parameter named `_` shifts the positional arguments: for `def f(_, x=None)` the value supplied for `x`
arrives as `_`. -/
theorem C25_underscore_counterexample :
    ∃ (s : PySig) (f : Function) (fn : Fn) (obj : Obj), s.params = [exParam c!"_", ⟨c!"x", .positionalOrKeyword, none, true⟩] ∧
      Function.parse (Env.ascii true false) ⟨some c!"None", some s, none⟩ (exName c!"m.f") .function = .ok f ∧
      f.generate (Env.ascii true false) {} (fun _ => true) [] [] = .ok (.func [fn]) ∧
      fn.sig.params.map Prod.fst = [c!"p_x"] ∧
      run fn [.atom 1] = some (.call obj (some c!"f") [.atom 1] []) ∧
      Spec.bind s.params [.atom 1] [] = some [(c!"_", .val (.atom 1)), (c!"x", .default)] := by
  refine ⟨⟨[exParam c!"_", ⟨c!"x", .positionalOrKeyword, none, true⟩], none⟩,
    ⟨exName c!"m.f", .function, [⟨⟨c!"x"⟩, .positionalOrKeyword, .unknown, true⟩], .unknown, none⟩,
    ⟨none, ⟨true, c!"f", .py, [(c!"p_x", .implIntoPy c!"PyAny")], .ty (.bound c!"PyAny")⟩, false, [(c!"p_x", .intoAny)],
      .call (.import c!"m") (some c!"f") (some (.tuple [c!"p_x"])) none⟩, .import c!"m", rfl, ?_, ?_, rfl, rfl, rfl⟩
  · decide
  · decide

end Bindgen

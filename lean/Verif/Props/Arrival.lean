import Verif.Props.Functions
import Verif.Props.Accessors
import Verif.Props.RustTypes
/-!
# What arrives in Python for the arguments of a function: C19, C24, C25, C30
-/
namespace Bindgen
open Spec

/-- What arrives in Python for a value that is supplied for a parameter of this Rust type: the value itself, but `{}` for a `None` that is supplied
for an optional dictionary of pyo3. -/
def Spec.arrival : RsTy → PyVal → PyVal
  | .option (.bound t), .none => if t = c!"PyDict" then .dict [] else .none
  | _, v => v

/-- What arrives for the arguments of a function. -/
def Spec.arrivals (ps : List (Str × RsTy)) (args : List PyVal) : List PyVal := List.zipWith (fun p v => arrival p.2 v) ps args

theorem arrival_none (v : PyVal) : arrival (.option (.bound c!"PyDict")) v = passed .varKeyword v := by
  cases v <;> rfl

theorem arrival_same {t : RsTy} {v : PyVal} (h : t = .option (.bound c!"PyDict") → v ≠ .none) : arrival t v = v := by
  unfold arrival
  split
  · rename_i n
    split
    · rename_i hn; exact absurd rfl (h (by rw [hn]))
    · rfl
  · rfl

theorem arrival_iff (t : RsTy) (v : PyVal) : arrival t v = v ↔ (t = .option (.bound c!"PyDict") → v ≠ .none) := by
  refine ⟨?_, arrival_same⟩
  rintro h rfl rfl
  cases h

/-- Only dictionaries that are not hash maps have the type `Bound<PyDict>`. -/
theorem intoRs_pyDict {E : Env} {lt : LocalTypes} {t : PyTy} {o b : RsTy} (h : intoRs E lt t = .ok (o, b)) (ho : o = .bound c!"PyDict") :
    ∃ k w, t = .dict k w := by
  subst ho
  cases t with
  | dict k w => exact ⟨k, w, rfl⟩
  | other n =>
    rw [intoRs, mapType] at h
    split at h
    · cases h
    · obtain ⟨_, -, h⟩ := Res.bind_ok h
      split at h
      · split at h <;> cases h
      · cases h
  | optional t =>
    rw [intoRs] at h
    obtain ⟨_, -, h⟩ := Res.bind_ok h
    cases h
  | list t =>
    rw [intoRs] at h
    obtain ⟨_, -, h⟩ := Res.bind_ok h
    cases h
  | frozenSet t =>
    rw [intoRs] at h
    split at h
    · obtain ⟨_, -, h⟩ := Res.bind_ok h
      cases h
    · cases h
  | set t =>
    rw [intoRs] at h
    split at h
    · obtain ⟨_, -, h⟩ := Res.bind_ok h
      cases h
    · cases h
  | tuple ts =>
    match ts with
    | [] => rw [intoRs] at h; cases h
    | [_] => rw [intoRs] at h; cases h
    | [t, u] =>
      rw [intoRs] at h
      split at h
      · obtain ⟨_, -, h⟩ := Res.bind_ok h
        cases h
      · obtain ⟨_, -, h⟩ := Res.bind_ok h
        obtain ⟨_, -, h⟩ := Res.bind_ok h
        cases h
    | t :: u :: w :: ts =>
      rw [intoRs] at h
      obtain ⟨_, -, h⟩ := Res.bind_ok h
      obtain ⟨_, -, h⟩ := Res.bind_ok h
      obtain ⟨_, -, h⟩ := Res.bind_ok h
      obtain ⟨_, -, h⟩ := Res.bind_ok h
      cases h
  | _ => rw [intoRs] at h; cases h

theorem borrowed_optDict {E : Env} {lt : LocalTypes} {t : PyTy} (h : intoRsBorrowed E lt t = .ok (.option (.bound c!"PyDict"))) :
    ∃ k w, t = .optional (.dict k w) := by
  unfold intoRsBorrowed at h
  obtain ⟨⟨o, b⟩, h1, hb⟩ := Res.bind_ok h
  cases hb
  cases t with
  | optional t =>
    rw [intoRs] at h1
    obtain ⟨⟨o', b'⟩, h2, h1⟩ := Res.bind_ok h1
    injection h1 with h1
    injection h1 with h3 h4
    injection h4 with h4
    obtain ⟨k, w, rfl⟩ := intoRs_pyDict h2 h4
    exact ⟨k, w, rfl⟩
  | other n =>
    rw [intoRs, mapType] at h1
    split at h1
    · cases h1
    · obtain ⟨_, -, h1⟩ := Res.bind_ok h1
      split at h1
      · split at h1 <;> cases h1
      · cases h1
  | dict k w =>
    rw [intoRs] at h1
    obtain ⟨_, -, h1⟩ := Res.bind_ok h1
    split at h1
    · obtain ⟨_, -, h1⟩ := Res.bind_ok h1
      cases h1
    · cases h1
  | list t =>
    rw [intoRs] at h1
    obtain ⟨_, -, h1⟩ := Res.bind_ok h1
    cases h1
  | frozenSet t =>
    rw [intoRs] at h1
    split at h1
    · obtain ⟨_, -, h1⟩ := Res.bind_ok h1
      cases h1
    · cases h1
  | set t =>
    rw [intoRs] at h1
    split at h1
    · obtain ⟨_, -, h1⟩ := Res.bind_ok h1
      cases h1
    · cases h1
  | tuple ts =>
    match ts with
    | [] => rw [intoRs] at h1; cases h1
    | [_] => rw [intoRs] at h1; cases h1
    | [t, u] =>
      rw [intoRs] at h1
      split at h1
      · obtain ⟨_, -, h1⟩ := Res.bind_ok h1
        cases h1
      · obtain ⟨_, -, h1⟩ := Res.bind_ok h1
        obtain ⟨_, -, h1⟩ := Res.bind_ok h1
        cases h1
    | t :: u :: w :: ts =>
      rw [intoRs] at h1
      obtain ⟨_, -, h1⟩ := Res.bind_ok h1
      obtain ⟨_, -, h1⟩ := Res.bind_ok h1
      obtain ⟨_, -, h1⟩ := Res.bind_ok h1
      obtain ⟨_, -, h1⟩ := Res.bind_ok h1
      cases h1
  | _ => rw [intoRs] at h1; cases h1

/-- What a conversion statement makes of the value of its parameter. -/
theorem conv_arrival {E : Env} {lt : LocalTypes} {t : PyTy} {pre : Pre} {ty : RsTy} {v : PyVal}
    (hp : preprocess E lt t = .ok pre) (ht : intoRsBorrowed E lt t = .ok ty) (ha : Admits ty v) : conv pre v = some (arrival ty v) := by
  by_cases hd : v = .none → ∀ k w, t ≠ .optional (.dict k w)
  · rw [arrival_same, conv_ok hp ht ha hd]
    rintro rfl hv
    obtain ⟨k, w, rfl⟩ := borrowed_optDict ht
    exact hd hv k w rfl
  · simp only [Classical.not_imp, Classical.not_forall, not_not] at hd
    obtain ⟨rfl, k, w, rfl⟩ := hd
    rw [preprocess] at hp
    obtain ⟨c, hc, hp⟩ := Res.bind_ok hp
    unfold intoRsBorrowed at ht
    obtain ⟨⟨o, b⟩, h1, hb⟩ := Res.bind_ok ht
    cases hb
    rw [intoRs] at h1
    obtain ⟨⟨o', b'⟩, h2, h1⟩ := Res.bind_ok h1
    injection h1 with h1
    injection h1 with h3 h4
    subst h4
    rw [intoRs] at h2
    obtain ⟨v', hv', h2⟩ := Res.bind_ok h2
    unfold dictNeedsConversion at hc
    rw [hv'] at hc
    cases hh : (k.isHashable && !v'.1.mentionsPyAny) with
    | true =>
      rw [hh] at h2
      obtain ⟨k', -, h2⟩ := Res.bind_ok h2
      injection h2 with h2
      injection h2 with h2 h2'
      subst h2
      rw [Bool.and_eq_true, Bool.not_eq_true'] at hh
      rw [hh.1] at hc
      simp only [Bool.not_true, Bool.false_eq_true, if_false] at hc
      have : v'.1.mentionsPyAny = c := Except.ok.inj hc
      rw [hh.2] at this
      subst this
      cases hp
      rfl
    | false =>
      rw [hh] at h2
      injection h2 with h2
      injection h2 with h2 h2'
      subst h2
      have : c = true := by
        cases hk : k.isHashable with
        | false => rw [hk] at hc; exact (Except.ok.inj hc).symm
        | true =>
          rw [hk] at hc hh
          simp only [Bool.not_true, Bool.false_eq_true, if_false] at hc
          have : v'.1.mentionsPyAny = c := Except.ok.inj hc
          rw [this] at hh
          simpa using hh
      subst this
      cases hp
      rfl

theorem supplied_slots (M : List Slot) :
    supplied (M.map Slot.p) (M.map Slot.out) = M.map (fun e => ⟨e.p.kind, e.p.name.asPy, e.out⟩) := by
  induction M with
  | nil => rfl
  | cons e M ih =>
    rw [supplied] at ih ⊢
    rw [List.map_cons, List.map_cons, List.zipWith_cons_cons, ih]; rfl

theorem arrivals_slots (τ : Param → RsTy) (M : List Slot) (hM : ∀ e ∈ M, e.out = arrival (τ e.p) e.arg) :
    arrivals (((M.map Slot.p).map pvar).zip ((M.map Slot.p).map τ)) (M.map Slot.arg) = M.map Slot.out := by
  induction M with
  | nil => rfl
  | cons e M ih =>
    have := ih (fun e he => hM e (List.mem_cons_of_mem _ he))
    unfold arrivals at this ⊢
    simp only [List.map_cons, List.zip_cons_cons, List.zipWith_cons_cons]
    rw [this, ← hM e (by simp)]

/-- The request made by an emitted function, in terms of what arrives for the arguments. -/
theorem run_arrived {E : Env} {cfg : Config} {importable : Str → Bool} {taken : List Ident} {lt : LocalTypes}
    {f : Function} {r : FnImpl} (hwf : WfParams E f.params) (h : f.generate E cfg importable taken lt = .ok r)
    {fn : Fn} (hfn : fn ∈ fnsOf r) {args : List PyVal} (hlen : args.length = fn.sig.params.length)
    (hadm : ∀ e ∈ fn.sig.params.zip args, Admits e.1.2 e.2) :
    ∃ obj meth, args.length = f.params.length ∧
      (∀ e ∈ f.params.zip fn.sig.params, (e.1.kind = .varPositional → e.2.2 = .implIntoPy c!"PyTuple") ∧
        (e.1.kind = .varKeyword → e.2.2 = .option (.bound c!"PyDict"))) ∧
      run fn args = some (.call obj meth
        (positionalVals (supplied f.params (arrivals fn.sig.params args)) ++ starVals (supplied f.params (arrivals fn.sig.params args)))
        ((keywordVals (supplied f.params (arrivals fn.sig.params args))).foldl (fun d kv => setItem d kv.1 kv.2)
          (starStarVals (supplied f.params (arrivals fn.sig.params args))))) := by
  obtain ⟨name, _, idents, pres, types, _, sig, obj, pos, kw, _, _, h1, h2, h3, _, h5, _, hpos, hkw, hfe, _⟩ := generate_fn h hfn
  have hsig : fn.sig = sig := by rw [hfe]
  rw [hsig] at hlen hadm ⊢
  rw [traverse_paramIdent hwf.ident] at h1
  cases h1
  have hsp := contract_params h5
  have htl := Res.traverse_length h3
  have hlen' : args.length = f.params.length := by
    rw [hlen, hsp, List.length_zip, List.length_map, htl]; simp
  obtain ⟨g, rfl, hg⟩ := traverse_map h2
  obtain ⟨τ, rfl, hτ⟩ := traverse_map h3
  have hadm' : ∀ e ∈ f.params.zip args, Admits (τ e.1) e.2 := by
    intro e he
    have : ((pvar e.1, τ e.1), e.2) ∈ sig.params.zip args := by
      rw [hsp, zip_map_pair, List.zip_map_left]
      exact List.mem_map.mpr ⟨e, he, rfl⟩
    exact hadm _ this
  have hmem : ∀ e ∈ f.params.zip args, e.1 ∈ f.params := fun e he => (List.of_mem_zip he).1
  have htup : ∀ p ∈ f.params, p.kind = .varPositional → τ p = .implIntoPy c!"PyTuple" := by
    intro p hp hk
    have ht := hτ p hp
    rw [hwf.star p hp hk] at ht
    have e2 : intoRsBorrowed E lt (.tuple [.unknown]) = .ok (.implIntoPy c!"PyTuple") := rfl
    rw [e2] at ht; exact (Except.ok.inj ht).symm
  have hdic : ∀ p ∈ f.params, p.kind = .varKeyword → τ p = .option (.bound c!"PyDict") := by
    intro p hp hk
    have ht := hτ p hp
    rw [hwf.starStar p hp hk] at ht
    have e2 : intoRsBorrowed E lt (.optional (.dict .unknown .unknown)) = .ok (.option (.bound c!"PyDict")) := rfl
    rw [e2] at ht; exact (Except.ok.inj ht).symm
  obtain ⟨M, hM1, hM2, hM3⟩ := exists_slots g (fun p v => arrival (τ p) v) f.params args hlen'.symm
    (fun e he => conv_arrival (hg e.1 (hmem e he)) (hτ e.1 (hmem e he)) (hadm' e he))
  have hty : ∀ e ∈ f.params.zip sig.params, (e.1.kind = .varPositional → e.2.2 = .implIntoPy c!"PyTuple") ∧
      (e.1.kind = .varKeyword → e.2.2 = .option (.bound c!"PyDict")) := by
    intro e he
    have hz : f.params.zip sig.params = f.params.map (fun p => (p, pvar p, τ p)) := by
      rw [hsp, zip_map_pair]
      conv => lhs; rw [← List.map_id f.params, List.map_map, zip_map_pair]
      rfl
    rw [hz] at he
    obtain ⟨p, hp, rfl⟩ := List.mem_map.mp he
    exact ⟨htup p hp, hdic p hp⟩
  obtain ⟨meth, hbody⟩ : ∃ meth, fn.body = .call obj meth (if kw.isSome && pos.isNone then some .unit else pos) kw := ⟨_, by rw [hfe]⟩
  have hrun := run_spec (M := M) (fn := fn)
    (by rw [hM1]; exact hwf)
    (by
      rw [hsig, hsp, List.map_fst_zip (by simp), ← hM1, List.map_map]; rfl)
    (by
      rw [hfe]
      simp only
      rw [zip_map_pair, ← hM1, List.map_map]
      apply List.map_congr_left
      intro e he
      simp [(hM3 e he).1])
    (by rw [hM1]; exact hpos) (by rw [hM1]; exact hkw) hbody
    (by
      intro e he hk
      have hz := (hM3 e he).2.2
      have ha := hadm' _ hz
      have hty := htup e.p (hmem _ hz) hk
      simp only [hty] at ha
      rw [(hM3 e he).2.1, hty]
      obtain ⟨l, hl⟩ := ha rfl
      exact ⟨l, hl⟩)
    (by
      intro e he hk
      have hz := (hM3 e he).2.2
      have ha := hadm' _ hz
      have hty := hdic e.p (hmem _ hz) hk
      simp only [hty] at ha
      rw [(hM3 e he).2.1, hty]
      rcases ha rfl with ha | ⟨d, ha⟩ <;> rw [ha]
      · exact ⟨_, rfl⟩
      · exact ⟨_, rfl⟩)
  have hA : supplied f.params (arrivals sig.params args) = M.map (fun e => ⟨e.p.kind, e.p.name.asPy, e.out⟩) := by
    rw [hsp, ← supplied_slots, ← arrivals_slots τ M (fun e he => (hM3 e he).2.1), hM1, hM2]
  rw [hM2] at hrun
  refine ⟨obj, meth, hlen', hty, hrun.trans ?_⟩
  rw [hA]
  congr 2
  · congr 1
    · rw [positionalVals, List.filter_map, List.map_map]
      have hf : (fun e : Slot => e.p.kind.isPositional) =
          ((fun a : Arg => decide (a.kind = .positionalOnly) || decide (a.kind = .positionalOrKeyword)) ∘
            fun e : Slot => (⟨e.p.kind, e.p.name.asPy, e.out⟩ : Arg)) := by
        funext e
        simp only [Function.comp_apply]
        cases e.p.kind <;> rfl
      rw [hf]
      rfl
    · rw [starVals, List.flatMap_map]
  · congr 1
    · rw [starStarVals, List.flatMap_map]
    · rw [keywordVals, List.filter_map, List.map_map]
      rfl

theorem arrivals_length {ps : List (Str × RsTy)} {args : List PyVal} (h : args.length = ps.length) : (arrivals ps args).length = args.length := by
  unfold arrivals; simp [h]

theorem supplied_names {ps : List Param} {args : List PyVal} (h : args.length = ps.length) :
    (supplied ps args).map Arg.name = ps.map (fun p => p.name.asPy) := by
  have := congrArg (List.map Prod.fst) (supplied_nk h)
  rw [List.map_map, nk, List.map_map] at this
  exact this

/-- **C24**: running an emitted function makes one call. Its positional arguments are what arrives for the positional parameters in order followed by
the elements of `*args`; under every keyword it passes what arrives for the keyword-only parameter of that name, or else the entry of `**kwargs`.
Everything that is supplied arrives, except that `None` for a parameter of the type `Option<Bound<PyDict>>` arrives as `{}`. -/
theorem C24_forwarding {E : Env} {cfg : Config} {importable : Str → Bool} {taken : List Ident} {lt : LocalTypes}
    {f : Function} {r : FnImpl} (hwf : WfParams E f.params) (h : f.generate E cfg importable taken lt = .ok r)
    {fn : Fn} (hfn : fn ∈ fnsOf r) {args : List PyVal} (hlen : args.length = fn.sig.params.length)
    (hadm : ∀ e ∈ fn.sig.params.zip args, Admits e.1.2 e.2) :
    ∃ obj meth kw, run fn args = some (.call obj meth
        (positionalVals (supplied f.params (arrivals fn.sig.params args)) ++ starVals (supplied f.params (arrivals fn.sig.params args))) kw) ∧
      (∀ k, kw.lookup k = ((keywordVals (supplied f.params (arrivals fn.sig.params args))).lookup k).or
        ((starStarVals (supplied f.params (arrivals fn.sig.params args))).lookup k)) ∧
      (((starStarVals (supplied f.params (arrivals fn.sig.params args))).map Prod.fst).Nodup → (kw.map Prod.fst).Nodup) := by
  obtain ⟨obj, meth, hl, -, hrun⟩ := run_arrived hwf h hfn hlen hadm
  have hnames : ((supplied f.params (arrivals fn.sig.params args)).map Arg.name).Nodup := by
    rw [supplied_names (by rw [arrivals_length hlen, hl])]; exact hwf.names
  exact ⟨obj, meth, _, hrun, foldl_setItem_lookup _ _ (keywordVals_keys_nodup hnames), foldl_setItem_nodup _ _⟩

theorem positionalVals_skip {a : Arg} (h : ¬ (a.kind = .positionalOnly ∨ a.kind = .positionalOrKeyword)) (A : List Arg) :
    positionalVals (a :: A) = positionalVals A := by
  rw [positionalVals, List.filter_cons_of_neg (by simpa using h)]; rfl

theorem positionals_inj {ps : List Param} {qs : List (Str × RsTy)} {args : List PyVal} (hq : qs.length = ps.length) (hl : args.length = ps.length)
    {x y : List PyVal} (h : positionalVals (supplied ps (arrivals qs args)) ++ x = positionalVals (supplied ps args) ++ y) :
    ∀ e ∈ ps.zip (qs.zip args), (e.1.kind = .positionalOnly ∨ e.1.kind = .positionalOrKeyword) → arrival e.2.1.2 e.2.2 = e.2.2 := by
  induction ps generalizing qs args with
  | nil => intro e he; cases he
  | cons p ps ih =>
    cases args with
    | nil => simp at hl
    | cons a args =>
      cases qs with
      | nil => simp at hq
      | cons q qs =>
        have hc : ∀ v l, supplied (p :: ps) (v :: l) = ⟨p.kind, p.name.asPy, v⟩ :: supplied ps l := fun _ _ => rfl
        have ha : arrivals (q :: qs) (a :: args) = arrival q.2 a :: arrivals qs args := rfl
        rw [ha, hc, hc] at h
        intro e he hk
        rw [List.zip_cons_cons, List.zip_cons_cons] at he
        by_cases hp : p.kind = .positionalOnly ∨ p.kind = .positionalOrKeyword
        · rw [positionalVals_cons hp, positionalVals_cons hp, List.cons_append, List.cons_append] at h
          injection h with h1 h2
          rcases List.mem_cons.mp he with rfl | he
          · exact h1
          · exact ih (by simpa using hq) (by simpa using hl) h2 e he hk
        · rw [positionalVals_skip hp, positionalVals_skip hp] at h
          rcases List.mem_cons.mp he with rfl | he
          · exact absurd hk hp
          · exact ih (by simpa using hq) (by simpa using hl) h e he hk

theorem lookup_keyword {A : List Arg} (hnd : (A.map Arg.name).Nodup) {a : Arg} (ha : a ∈ A) (hk : a.kind = .keywordOnly) :
    (keywordVals A).lookup a.name = some a.val := by
  induction A with
  | nil => cases ha
  | cons b A ih =>
    rw [List.map_cons, List.nodup_cons] at hnd
    rcases List.mem_cons.mp ha with rfl | ha'
    · rw [keywordVals, List.filter_cons_of_pos (by simpa using hk)]
      simp
    · have hne : a.name ≠ b.name := fun h => hnd.1 (h ▸ List.mem_map_of_mem ha')
      have := ih hnd.2 ha'
      rw [keywordVals] at this ⊢
      by_cases hb : b.kind = .keywordOnly
      · rw [List.filter_cons_of_pos (by simpa using hb), List.map_cons, List.lookup_cons]
        rw [show (a.name == b.name) = false from by simpa using hne]
        exact this
      · rw [List.filter_cons_of_neg (by simpa using hb)]; exact this

theorem mem_supplied {ps : List Param} {qs : List (Str × RsTy)} {args : List PyVal} (e : Param × (Str × RsTy) × PyVal) (he : e ∈ ps.zip (qs.zip args)) :
    (⟨e.1.kind, e.1.name.asPy, e.2.2⟩ : Arg) ∈ supplied ps args ∧
      (⟨e.1.kind, e.1.name.asPy, arrival e.2.1.2 e.2.2⟩ : Arg) ∈ supplied ps (arrivals qs args) := by
  induction ps generalizing qs args with
  | nil => cases he
  | cons p ps ih =>
    cases args with
    | nil => rw [List.zip_nil_right, List.zip_nil_right] at he; cases he
    | cons a args =>
      cases qs with
      | nil => rw [List.zip_nil_left, List.zip_nil_right] at he; cases he
      | cons q qs =>
        rw [List.zip_cons_cons, List.zip_cons_cons] at he
        rcases List.mem_cons.mp he with rfl | he
        · exact ⟨List.mem_cons_self, List.mem_cons_self⟩
        · have := ih he
          exact ⟨List.mem_cons_of_mem _ this.1, List.mem_cons_of_mem _ this.2⟩

theorem arrivals_nop {ps : List Param} {qs : List (Str × RsTy)} {args : List PyVal} (hq : qs.length = ps.length) (hl : args.length = ps.length)
    (hstar : ∀ e ∈ ps.zip qs, (e.1.kind = .varPositional → e.2.2 = .implIntoPy c!"PyTuple") ∧
      (e.1.kind = .varKeyword → e.2.2 = .option (.bound c!"PyDict")))
    (h : ∀ e ∈ ps.zip (qs.zip args), e.1.kind ≠ .varKeyword → arrival e.2.1.2 e.2.2 = e.2.2) :
    positionalVals (supplied ps (arrivals qs args)) = positionalVals (supplied ps args) ∧
    keywordVals (supplied ps (arrivals qs args)) = keywordVals (supplied ps args) := by
  induction ps generalizing qs args with
  | nil => exact ⟨rfl, rfl⟩
  | cons p ps ih =>
    cases args with
    | nil => simp at hl
    | cons a args =>
      cases qs with
      | nil => simp at hq
      | cons q qs =>
        have hc : ∀ v l, supplied (p :: ps) (v :: l) = ⟨p.kind, p.name.asPy, v⟩ :: supplied ps l := fun _ _ => rfl
        have ha : arrivals (q :: qs) (a :: args) = arrival q.2 a :: arrivals qs args := rfl
        rw [List.zip_cons_cons, List.zip_cons_cons] at h
        rw [List.zip_cons_cons] at hstar
        obtain ⟨i1, i2⟩ := ih (by simpa using hq) (by simpa using hl) (fun e he => hstar e (List.mem_cons_of_mem _ he))
          (fun e he => h e (List.mem_cons_of_mem _ he))
        rw [ha, hc, hc]
        have hp := h _ List.mem_cons_self
        simp only at hp
        unfold positionalVals at i1 ⊢
        unfold keywordVals at i2 ⊢
        simp only [List.filter_cons]
        cases hk : p.kind <;> simp_all

/-- `*args` and `**kwargs` arrive as supplied. -/
theorem arrivals_stars {ps : List Param} {qs : List (Str × RsTy)} {args : List PyVal} (hq : qs.length = ps.length) (hl : args.length = ps.length)
    (hstar : ∀ e ∈ ps.zip qs, (e.1.kind = .varPositional → e.2.2 = .implIntoPy c!"PyTuple") ∧
      (e.1.kind = .varKeyword → e.2.2 = .option (.bound c!"PyDict"))) :
    starVals (supplied ps (arrivals qs args)) = starVals (supplied ps args) ∧
    starStarVals (supplied ps (arrivals qs args)) = starStarVals (supplied ps args) := by
  induction ps generalizing qs args with
  | nil => exact ⟨rfl, rfl⟩
  | cons p ps ih =>
    cases args with
    | nil => simp at hl
    | cons a args =>
      cases qs with
      | nil => simp at hq
      | cons q qs =>
        have hc : ∀ v l, supplied (p :: ps) (v :: l) = ⟨p.kind, p.name.asPy, v⟩ :: supplied ps l := fun _ _ => rfl
        have ha : arrivals (q :: qs) (a :: args) = arrival q.2 a :: arrivals qs args := rfl
        rw [List.zip_cons_cons] at hstar
        obtain ⟨i1, i2⟩ := ih (by simpa using hq) (by simpa using hl) (fun e he => hstar e (List.mem_cons_of_mem _ he))
        obtain ⟨s1, s2⟩ := hstar _ List.mem_cons_self
        simp only at s1 s2
        rw [ha, hc, hc]
        unfold starVals at i1 ⊢
        unfold starStarVals at i2 ⊢
        simp only [List.flatMap_cons]
        rw [i1, i2]
        refine ⟨?_, ?_⟩
        · congr 1
          split
          · rename_i hk; rw [s1 hk]; rfl
          · rfl
        · congr 1
          split
          · rename_i hk; rw [s2 hk, arrival_none]; cases a <;> rfl
          · rfl

/-- **C24** (exactly when): everything that is supplied arrives if and only if no `None` is supplied for a parameter of the type
`Option<Bound<PyDict>>` other than `**kwargs`. -/
theorem C24_exact {E : Env} {cfg : Config} {importable : Str → Bool} {taken : List Ident} {lt : LocalTypes}
    {f : Function} {r : FnImpl} (hwf : WfParams E f.params) (h : f.generate E cfg importable taken lt = .ok r)
    {fn : Fn} (hfn : fn ∈ fnsOf r) {args : List PyVal} (hlen : args.length = fn.sig.params.length)
    (hadm : ∀ e ∈ fn.sig.params.zip args, Admits e.1.2 e.2) :
    (∃ obj meth kw, run fn args = some (.call obj meth
        (positionalVals (supplied f.params args) ++ starVals (supplied f.params args)) kw) ∧
      ∀ k, kw.lookup k = ((keywordVals (supplied f.params args)).lookup k).or ((starStarVals (supplied f.params args)).lookup k)) ↔
    ∀ e ∈ f.params.zip (fn.sig.params.zip args), e.1.kind ≠ .varKeyword → e.2.1.2 = .option (.bound c!"PyDict") → e.2.2 ≠ .none := by
  obtain ⟨obj, meth, hl, hstar, hrun⟩ := run_arrived hwf h hfn hlen hadm
  have hq : fn.sig.params.length = f.params.length := by rw [← hlen, hl]
  have hnd : ((supplied f.params (arrivals fn.sig.params args)).map Arg.name).Nodup := by
    rw [supplied_names (by rw [arrivals_length hlen, hl])]; exact hwf.names
  have hnd' : ((supplied f.params args).map Arg.name).Nodup := by rw [supplied_names hl]; exact hwf.names
  obtain ⟨e3, e4⟩ := arrivals_stars hq hl hstar
  constructor
  · rintro ⟨obj', meth', kw, hrun', hkw⟩
    rw [hrun] at hrun'
    injection hrun' with hrun'
    injection hrun' with _ _ hpos hkw'
    intro e he hk
    rw [← arrival_iff]
    have hs := hstar (e.1, e.2.1) (by
      have hm := List.mem_map_of_mem (f := Prod.map id Prod.fst) he
      rw [← List.zip_map_right, List.map_fst_zip (by omega)] at hm
      exact hm)
    cases hkk : e.1.kind with
    | positionalOnly => exact positionals_inj hq hl hpos e he (.inl hkk)
    | positionalOrKeyword => exact positionals_inj hq hl hpos e he (.inr hkk)
    | varKeyword => exact absurd hkk hk
    | varPositional => rw [hs.1 hkk]; rfl
    | keywordOnly =>
      obtain ⟨m1, m2⟩ := mem_supplied e he
      have k1 := lookup_keyword hnd' m1 hkk
      have k2 := lookup_keyword hnd m2 hkk
      have := hkw e.1.name.asPy
      rw [← hkw', foldl_setItem_lookup _ _ (keywordVals_keys_nodup hnd)] at this
      simp only at k1 k2
      rw [k1, k2] at this
      simpa using this
  · intro hn
    obtain ⟨e1, e2⟩ := arrivals_nop hq hl hstar (fun e he hk => arrival_same (hn e he hk))
    rw [e1, e2, e3, e4] at hrun
    exact ⟨obj, meth, _, hrun, foldl_setItem_lookup _ _ (keywordVals_keys_nodup hnd')⟩

/-- **C25** (partial, all arguments): Python accepts every call that an emitted function makes, and binds every parameter to what arrives for it.
Missing: parameters named `_` and left over parameters `self`, as in `C25_binding_partial`. -/
theorem C25_arrivals_partial {E : Env} {cfg : Config} {importable : Str → Bool} {taken : List Ident} {lt : LocalTypes}
    {pf : PyFn} {name : Path} {typ : FnType} {f : Function} {s : PySig} {r : FnImpl} {fn : Fn} {args : List PyVal}
    (recv : PyVal) (hs : pf.sig = some s) (hg : GoodSig E s.params)
    (hp : Function.parse E pf name typ = .ok f) (h : f.generate E cfg importable taken lt = .ok r) (hfn : fn ∈ fnsOf r)
    (hus : ∀ p ∈ s.params, p.name ≠ c!"_")
    (hself : c!"self" ∉ ((if hasReceiver f.typ then s.params.tail else s.params).map PyParam.name))
    (hrecv : hasReceiver f.typ = true → ∃ p ps, s.params = p :: ps ∧ (p.kind = .positionalOnly ∨ p.kind = .positionalOrKeyword))
    (hlen : args.length = fn.sig.params.length) (hadm : ∀ e ∈ fn.sig.params.zip args, Admits e.1.2 e.2)
    (hkeys : ∀ k ∈ (starStarVals (supplied f.params args)).map Prod.fst, k ∉ keywordNames s.params) :
    ∃ obj meth pos kw, run fn args = some (.call obj meth pos kw) ∧
      Spec.bind s.params ((if hasReceiver f.typ then [recv] else []) ++ pos) kw =
        some (List.zipWith (fun p v => (p.name, boundTo p.kind v)) s.params
          ((if hasReceiver f.typ then [recv] else []) ++ arrivals fn.sig.params args)) := by
  obtain ⟨hnk, hwf⟩ := params_plain hs hg hp hus hself
  obtain ⟨obj, meth, hl, hstar, hrun⟩ := run_arrived hwf h hfn hlen hadm
  have hq : fn.sig.params.length = f.params.length := by rw [← hlen, hl]
  refine ⟨obj, meth, _, _, hrun, bind_supplied recv hg hwf hnk hrecv (by rw [arrivals_length hlen, hl]) ?_⟩
  rw [(arrivals_stars hq hl hstar).2]
  exact hkeys

/-- **C30**: a setter stores what arrives for the value in the attribute of the Python name: the value itself, but `{}` for a `None` that is supplied
for a parameter of the type `Option<Bound<PyDict>>`. -/
theorem C30_setter {E : Env} {cfg : Config} {importable : Str → Bool} {taken : List Ident} {lt : LocalTypes}
    {p : Property} {fn : Fn} {mods : List Str} {n : Str} (hmne : mods ≠ []) (hm : ∀ s ∈ mods, PySegment s)
    (hn : PySegment n) (hname : p.name = Path.fromPy E (Str.join c!"." (mods ++ [n])))
    (h : p.generateSetter E cfg importable taken lt = .ok (some fn)) :
    ∃ obj t, AttrOwner p.owner mods obj ∧ fn.sig.params = [(c!"p_value", t)] ∧ ∀ v, Admits t v →
      run fn [v] = some (.set obj n (arrival t v)) ∧
      (run fn [v] = some (.set obj n v) ↔ (t = .option (.bound c!"PyDict") → v ≠ .none)) := by
  obtain ⟨name, ident, pre, ty, obj, h1, h2, h3, h4, h5, rfl⟩ := setter_fn h
  rw [hname, (parent_fromPy E hmne hm hn).2] at h1
  cases h1
  refine ⟨obj, ty, target_owner hmne hm hn hname h5, rfl, fun v hv => ?_⟩
  rw [asPy_fromPy E hn.2.2.1]
  have hc := conv_arrival h3 h4 hv
  refine ⟨by simp [run, runPre, List.lookup, hc], ?_⟩
  rw [← arrival_iff]
  simp [run, runPre, List.lookup, hc]

/-! ## Examples -/

/-- `def f(a: dict | None, b: dict[str, int] | None, **kwargs)`: nothing is said of the entries of `a`. -/
def exOptional : Function :=
  ⟨exName c!"m.f", .function, [⟨⟨c!"a"⟩, .positionalOrKeyword, .optional (.dict .unknown .unknown), false⟩,
    ⟨⟨c!"b"⟩, .positionalOrKeyword, .optional (.dict .string .long), false⟩, kwargsParam], .unknown, none⟩

/-- What is generated for it. -/
def exOptionalFn : Fn :=
  ⟨none, ⟨true, c!"f", .py, [(c!"p_a", .option (.bound c!"PyDict")), (c!"p_b", .option (.hashMap .string .i64)),
      (c!"p_kwargs", .option (.bound c!"PyDict"))], .ty (.bound c!"PyAny")⟩, false,
    [(c!"p_a", .optDict), (c!"p_b", .none), (c!"p_kwargs", .optDict)],
    .call (.import c!"m") (some c!"f") (some (.tuple [c!"p_a", c!"p_b"])) (some (.var c!"p_kwargs"))⟩

example : exOptional.generate (Env.ascii true false) {} (fun _ => true) [] [] = .ok (.func [exOptionalFn]) := by decide

example : WfParams (Env.ascii true false) exOptional.params where
  ident p hp := by
    simp only [exOptional, List.mem_cons, List.not_mem_nil, or_false] at hp
    rcases hp with rfl | rfl | rfl <;> exact isIdent_ascii _ _ (by decide) (by decide)
  names := by decide
  oneStar := by decide
  oneStarStar := by decide
  star := by decide
  starStar := by decide

/-- All arguments may be `None`. -/
theorem exOptional_admits : ∀ e ∈ exOptionalFn.sig.params.zip [PyVal.none, .none, .none], Admits e.1.2 e.2 := by
  intro e he
  simp only [exOptionalFn, List.zip_cons_cons, List.zip_nil_right, List.mem_cons, List.not_mem_nil, or_false] at he
  rcases he with rfl | rfl | rfl <;> simp [Admits]

-- `f(None, None)` becomes `f({}, None)`: for `b`, which is a hash map in Rust, `None` arrives
example : arrivals exOptionalFn.sig.params [.none, .none, .none] = [.dict [], .none, .dict []] := rfl
example : run exOptionalFn [.none, .none, .none] = some (.call (.import c!"m") (some c!"f") [.dict [], .none] []) := rfl

-- the condition of `C24_exact` holds for `f({}, None)` and fails for `f(None, None)`
example : ∀ e ∈ exOptional.params.zip (exOptionalFn.sig.params.zip [PyVal.dict [], .none, .none]),
    e.1.kind ≠ .varKeyword → e.2.1.2 = .option (.bound c!"PyDict") → e.2.2 ≠ .none := by
  intro e he
  simp only [exOptional, exOptionalFn, List.zip_cons_cons, List.zip_nil_right, List.mem_cons, List.not_mem_nil, or_false] at he
  rcases he with rfl | rfl | rfl
  · intro _ _ h; cases h
  · intro _ h; cases h
  · intro h; exact absurd rfl h

example : ¬ ∀ e ∈ exOptional.params.zip (exOptionalFn.sig.params.zip [PyVal.none, .none, .none]),
    e.1.kind ≠ .varKeyword → e.2.1.2 = .option (.bound c!"PyDict") → e.2.2 ≠ .none := by
  intro h
  exact h _ List.mem_cons_self (by decide) rfl rfl

-- setters of an attribute of the type `dict | None` and of one of the type `dict[str, int] | None`
example : ∃ fn, Property.generateSetter (Env.ascii true false) {} (fun s => s = c!"m") [] []
      ⟨exName c!"m.x", .module, true, .optional (.dict .unknown .unknown), .unknown, none, none⟩ = .ok (some fn) ∧
    run fn [.none] = some (.set (.import c!"m") c!"x" (.dict [])) := ⟨_, rfl, rfl⟩
example : ∃ fn, Property.generateSetter (Env.ascii true false) {} (fun s => s = c!"m") [] []
      ⟨exName c!"m.x", .module, true, .optional (.dict .string .long), .unknown, none, none⟩ = .ok (some fn) ∧
    run fn [.none] = some (.set (.import c!"m") c!"x" .none) := ⟨_, rfl, rfl⟩

/-! ## C19: the conversion statement -/

/-- A name and the name in front of its bracket are both names of generated classes, or both not; or the name is one of an array. -/
def Spec.SameClass (E : Env) (lt : LocalTypes) (n : Str) : Prop :=
  isNdarray E n = true ∨
    (lt.get (Path.fromPy E n)).isSome = (lt.get (Path.fromPy E (Str.beforeChar '[' n))).isSome

/-- **C19** (exactly when): the conversion that is emitted for a parameter is the one its type needs if and only if the type is not
`Option<Bound<PyDict>>`, and a name with a bracket is the name of a generated class if the name in front of the bracket is. -/
theorem C19_exact (E : Env) (lt : LocalTypes) (t : PyTy) (o b : RsTy) (h : intoRs E lt t = .ok (o, b)) (p : Pre) (hp : preprocess E lt t = .ok p) :
    p = conversionFor b ↔ b ≠ .option (.bound c!"PyDict") ∧ ∀ n, t = .other n → SameClass E lt n := by
  by_cases hn : ∃ n, t = .other n
  · obtain ⟨n, rfl⟩ := hn
    simp only [PyTy.other.injEq, forall_eq']
    rw [intoRs, mapType] at h
    rw [preprocess] at hp
    unfold SameClass
    split at h
    · rename_i hnd
      rw [if_pos hnd] at hp
      cases h; cases hp
      simp [hnd, conversionFor]
    · rename_i hnd
      rw [if_neg hnd] at hp
      obtain ⟨_, -, hp⟩ := Res.bind_ok hp
      obtain ⟨_, -, h⟩ := Res.bind_ok h
      cases hp
      simp only [Bool.not_eq_true] at hnd
      cases hg : lt.get (Path.fromPy E (Str.beforeChar '[' n)) with
      | none =>
        rw [hg] at h
        cases h
        cases hl : lt.get (Path.fromPy E n) <;> simp [hnd, conversionFor]
      | some rel =>
        rw [hg] at h
        simp only at h
        split at h
        · cases h
          cases hl : lt.get (Path.fromPy E n) <;> simp [hnd, conversionFor]
        · cases h
  · have hn' : ∀ n, t ≠ .other n := fun n hc => hn ⟨n, hc⟩
    have hb : intoRsBorrowed E lt t = .ok b := by unfold intoRsBorrowed; rw [h]; rfl
    have hc := C19_conversion_partial E lt t o b h (fun n hc => absurd hc (hn' n))
    by_cases ho : ∃ k v, t = .optional (.dict k v)
    · obtain ⟨k, v, rfl⟩ := ho
      obtain ⟨i, hi⟩ : ∃ i, b = .option i := by
        rw [intoRs] at h
        obtain ⟨i, -, h⟩ := Res.bind_ok h
        cases h
        exact ⟨_, rfl⟩
      have hadm : Admits b .none := by
        subst hi
        unfold Admits
        split
        · rename_i hx; cases hx
        · rename_i hx; cases hx
        · exact fun _ => .inl rfl
        · trivial
      have ha := conv_arrival hp hb hadm
      have hcf : conversionFor b = .none := by rw [hi]; rfl
      have hcl : (b ≠ .option (.bound c!"PyDict") ∧ ∀ n, PyTy.optional (.dict k v) = .other n → SameClass E lt n) ↔ arrival b .none = .none := by
        rw [arrival_iff]
        refine ⟨fun hx hy => absurd hy hx.1, fun hx => ⟨fun hy => hx hy rfl, fun n hc => absurd hc (hn' n)⟩⟩
      rw [hcf, hcl]
      rw [preprocess] at hp
      obtain ⟨c, -, hp⟩ := Res.bind_ok hp
      cases hp
      cases c
      · simp only [Bool.false_eq_true, if_false, conv, Option.some.injEq] at ha ⊢
        simp [← ha]
      · simp only [if_true, conv, Option.some.injEq] at ha ⊢
        simp [← ha]
    · have ho' : ∀ k v, t ≠ .optional (.dict k v) := fun k v hc => ho ⟨k, v, hc⟩
      rw [hc ho'] at hp
      cases hp
      simp only [true_iff]
      refine ⟨?_, fun n hc => absurd hc (hn' n)⟩
      rintro rfl
      obtain ⟨k, w, hk⟩ := borrowed_optDict hb
      exact ho' k w hk

-- `dict[str, int] | None` and `C` meet the condition, `dict | None` and `C[int]` do not, where `C` is a generated class
example : intoRs (Env.ascii true false) [] (.optional (.dict .string .long)) = .ok (.option (.hashMap .string .i64), .option (.hashMap .string .i64)) ∧
    preprocess (Env.ascii true false) [] (.optional (.dict .string .long)) = .ok .none := by decide

/-- One generated class, `m.C`. -/
def exOneClass : LocalTypes := [(Path.fromPy (Env.ascii true false) c!"m.C", Path.fromRs c!"C")]

example : SameClass (Env.ascii true false) exOneClass c!"m.C" := .inr (by decide)
example : SameClass (Env.ascii true false) exOneClass c!"m.D[int]" := .inr (by decide)
example : ¬ SameClass (Env.ascii true false) exOneClass c!"m.C[int]" := by unfold SameClass; decide

end Bindgen

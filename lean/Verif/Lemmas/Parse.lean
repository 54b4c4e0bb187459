import Verif.Lemmas.Function
/-! # Lemmas about parsed functions -/
namespace Bindgen
open Spec

theorem Spec.IsIdent.not_raw {E : Env} {s : Str} (h : IsIdent E s) : ¬ c!"r#" <+: s := by
  rintro ⟨r, rfl⟩
  exact h.no_hash (by simp)

theorem asPy_ident {E : Env} {s : Str} (h : IsIdent E s) : (Ident.fromPy E s).asPy = s := asPy_fromPy E h.not_raw

theorem fromPy_reserved {E : Env} {s : Str} (h : IsIdent E s) (hk : s ∈ rustKeywords) :
    (Ident.fromPy E s).rs = c!"r#" ++ s := by
  have : synIdent E s = none := by rw [synIdent_of_isIdent h, if_pos (by simpa using hk)]
  rw [Ident.fromPy, Ident.pyToRs, this]; rfl

/-- A Python name is spelled `r#k` exactly if it is the keyword `k`. -/
theorem fromPy_rs_iff {E : Env} {s k : Str} (h : IsIdent E s) (hk : k ∈ rustKeywords) :
    (Ident.fromPy E s).rs = c!"r#" ++ k ↔ s = k := by
  constructor
  · intro hr
    have h1 : (Ident.fromPy E s).asPy = k := by
      rw [Ident.asPy, hr, Ident.rsAsPy, Str.stripPrefix_append]; rfl
    rw [asPy_ident h] at h1; exact h1
  · rintro rfl; exact fromPy_reserved h hk

theorem isIdent_ascii (E : Env) (s : Str) (h : isIdentText (Env.ascii true false) s = true)
    (ha : ∀ c ∈ s, c.toNat < 128) : IsIdent E s := by
  rw [isIdentText_iff] at h
  obtain ⟨c, cs, rfl, h1, h2⟩ := h
  refine ⟨c, cs, rfl, ?_, ?_⟩
  · rcases h1 with h1 | h1
    · exact Or.inl h1
    · refine Or.inr ?_
      rw [E.xidStart_ascii _ (ha c (by simp))]; exact h1
  · intro x hx
    rw [E.xidContinue_ascii _ (ha x (by simp [hx]))]; exact h2 x hx

theorem Spec.WfParams.sublist {E : Env} {ps qs : List Param} (h : WfParams E ps) (hs : qs.Sublist ps) : WfParams E qs where
  ident p hp := h.ident p (hs.subset hp)
  names := h.names.sublist (hs.map _)
  oneStar := Nat.le_trans (hs.filter _).length_le h.oneStar
  oneStarStar := Nat.le_trans (hs.filter _).length_le h.oneStarStar
  star p hp := h.star p (hs.subset hp)
  starStar p hp := h.starStar p (hs.subset hp)

theorem argsKwargs_wf (E : Env) : WfParams E [argsParam, kwargsParam] where
  ident p hp := by
    simp only [List.mem_cons, List.not_mem_nil, or_false] at hp
    rcases hp with rfl | rfl
    · exact isIdent_ascii E c!"args" (by decide) (by decide)
    · exact isIdent_ascii E c!"kwargs" (by decide) (by decide)
  names := by decide
  oneStar := by decide
  oneStarStar := by decide
  star p hp hk := by
    simp only [List.mem_cons, List.not_mem_nil, or_false] at hp
    rcases hp with rfl | rfl
    · rfl
    · cases hk
  starStar p hp hk := by
    simp only [List.mem_cons, List.not_mem_nil, or_false] at hp
    rcases hp with rfl | rfl
    · cases hk
    · rfl

/-- One parsed parameter. -/
theorem parseParam_ok {E : Env} {p : PyParam} {q : Param} (h : parseParam E p = .ok q) :
    q.name = Ident.fromPy E p.name ∧ q.kind = p.kind ∧ q.hasDefault = p.hasDefault ∧
      (p.kind = .varPositional → q.ann = .tuple [.unknown]) ∧
      (p.kind = .varKeyword → q.ann = .optional (.dict .unknown .unknown)) ∧
      (p.kind ≠ .varPositional → p.kind ≠ .varKeyword → readAnn E p.ann = .ok q.ann) := by
  obtain ⟨n, k, a, d⟩ := p
  obtain ⟨_, -, h⟩ := Res.bind_ok h
  cases k
  case varPositional => cases h; simp
  case varKeyword => cases h; simp
  all_goals
    obtain ⟨ann, ha, h⟩ := Res.bind_ok h
    cases h
    exact ⟨rfl, rfl, rfl, by simp, by simp, fun _ _ => ha⟩

instance : Inhabited Param := ⟨argsParam⟩

/-- Parsed parameters are the Python parameters, one by one. -/
theorem parseParams_ok {E : Env} {ps : List PyParam} {qs : List Param} (h : Res.traverse (parseParam E) ps = .ok qs) :
    ∃ g, qs = ps.map g ∧ ∀ p ∈ ps, parseParam E p = .ok (g p) := traverse_map h

theorem parseParams_wf {E : Env} {ps : List PyParam} {qs : List Param} (h : Res.traverse (parseParam E) ps = .ok qs)
    (hid : ∀ p ∈ ps, IsIdent E p.name) (hnd : (ps.map PyParam.name).Nodup)
    (h1 : (ps.filter (fun p => p.kind = .varPositional)).length ≤ 1)
    (h2 : (ps.filter (fun p => p.kind = .varKeyword)).length ≤ 1) :
    WfParams E qs ∧ qs.map (fun q => (q.name.asPy, q.kind)) = ps.map (fun p => (p.name, p.kind)) := by
  obtain ⟨g, rfl, hg⟩ := parseParams_ok h
  have hk : ∀ p ∈ ps, (g p).kind = p.kind := fun p hp => (parseParam_ok (hg p hp)).2.1
  have hn : ∀ p ∈ ps, (g p).name.asPy = p.name := fun p hp => by
    rw [(parseParam_ok (hg p hp)).1, asPy_ident (hid p hp)]
  have hfil : ∀ k, ((ps.map g).filter (fun p => decide (p.kind = k))).length =
      (ps.filter (fun p => decide (p.kind = k))).length := by
    intro k
    rw [List.filter_map, List.length_map]
    congr 1
    apply List.filter_congr
    intro p hp
    simp [hk p hp]
  refine ⟨⟨?_, ?_, ?_, ?_, ?_, ?_⟩, ?_⟩
  · intro q hq
    obtain ⟨p, hp, rfl⟩ := List.mem_map.mp hq
    rw [hn p hp]; exact hid p hp
  · rw [List.map_map]
    rw [show (ps.map ((fun p => p.name.asPy) ∘ g)) = ps.map PyParam.name from
      List.map_congr_left (fun p hp => hn p hp)]
    exact hnd
  · rw [hfil]; exact h1
  · rw [hfil]; exact h2
  · intro q hq hkq
    obtain ⟨p, hp, rfl⟩ := List.mem_map.mp hq
    exact (parseParam_ok (hg p hp)).2.2.2.1 (by rw [← hk p hp]; exact hkq)
  · intro q hq hkq
    obtain ⟨p, hp, rfl⟩ := List.mem_map.mp hq
    exact (parseParam_ok (hg p hp)).2.2.2.2.1 (by rw [← hk p hp]; exact hkq)
  · rw [List.map_map]
    apply List.map_congr_left
    intro p hp
    simp [hk p hp, hn p hp]

/-- The parts of a successful parse with a signature. -/
theorem parse_sig {E : Env} {pf : PyFn} {name : Path} {typ : FnType} {f : Function} {s : PySig}
    (hs : pf.sig = some s) (h : Function.parse E pf name typ = .ok f) :
    ∃ ps typ2 ps2, Res.traverse (parseParam E) s.params = .ok ps ∧
      selfCheck (inferMethod typ pf.dictKind) (ps.filter (fun p => p.name.rs ≠ c!"r#_")) = (typ2, ps2) ∧
      f.name = name ∧ f.typ = noParamHack name typ2 ps2 ∧
      readAnn E s.ret = .ok f.ret ∧ readDoc pf.doc = .ok f.doc ∧
      ∃ ps3, dropReceiver f.typ ps2 = .ok ps3 ∧ f.params = replaceSelf ps3 := by
  unfold Function.parse at h
  obtain ⟨doc, hdoc, h⟩ := Res.bind_ok h
  rw [hs] at h
  simp only at h
  obtain ⟨ps, hps, h⟩ := Res.bind_ok h
  obtain ⟨ret, hret, h⟩ := Res.bind_ok h
  obtain ⟨ps3, h3, h⟩ := Res.bind_ok h
  cases h
  exact ⟨ps, _, _, hps, rfl, rfl, rfl, hret, hdoc, ps3, h3, rfl⟩

/-- Without a signature everything is forwarded. -/
theorem parse_nosig {E : Env} {pf : PyFn} {name : Path} {typ : FnType} {f : Function}
    (hs : pf.sig = none) (h : Function.parse E pf name typ = .ok f) :
    f.name = name ∧ f.typ = typ ∧ f.params = [argsParam, kwargsParam] ∧ f.ret = .unknown ∧ readDoc pf.doc = .ok f.doc := by
  unfold Function.parse at h
  obtain ⟨doc, hdoc, h⟩ := Res.bind_ok h
  rw [hs] at h
  cases h
  exact ⟨rfl, rfl, rfl, rfl, hdoc⟩

theorem parseParams_rs {E : Env} {ps : List PyParam} {qs : List Param} (h : Res.traverse (parseParam E) ps = .ok qs)
    (hid : ∀ p ∈ ps, IsIdent E p.name) {k : Str} (hk : k ∈ rustKeywords) :
    ∀ q ∈ qs, q.name.rs = c!"r#" ++ k ↔ q.name.asPy = k := by
  obtain ⟨g, rfl, hg⟩ := parseParams_ok h
  intro q hq
  obtain ⟨p, hp, rfl⟩ := List.mem_map.mp hq
  rw [(parseParam_ok (hg p hp)).1, fromPy_rs_iff (hid p hp) hk, asPy_ident (hid p hp)]

theorem dropReceiver_ok {typ : FnType} {ps qs : List Param} (h : dropReceiver typ ps = .ok qs) :
    qs = if hasReceiver typ then ps.tail else ps := by
  cases typ with
  | function => cases h; rfl
  | closure => cases h; rfl
  | method c m => cases m <;> cases ps <;> cases h <;> rfl

/-- What `selfCheck` does to parameters: only a free function whose first parameter is called `self` is affected. -/
theorem selfCheck_cases (typ : FnType) (ps : List Param) (typ2 : FnType) (ps2 : List Param)
    (h : selfCheck typ ps = (typ2, ps2)) :
    (ps2 = ps ∧ (isFree typ = true → firstIsSelf ps = false)) ∨
    (typ2 = typ ∧ isFree typ = true ∧ firstIsSelf ps = true ∧ ps2 = [argsParam, kwargsParam]) ∨
    (typ2 = typ ∧ isFree typ = true ∧ ∃ p rest, ps = p :: rest ∧ p.name.rs = c!"r#self" ∧ p.kind.isPositional = true ∧
      ps2 = { p with name := Ident.fromRs c!"__unknown_self__", ann := .unknown } :: rest) := by
  cases typ with
  | method c m =>
    left
    refine ⟨?_, fun h => by cases h⟩
    cases m <;> simp only [selfCheck] at h <;> first | (cases h; rfl) | (split at h <;> cases h <;> rfl)
  | function =>
    unfold selfCheck at h
    simp only at h
    cases ps with
    | nil => cases h; exact Or.inl ⟨rfl, fun _ => rfl⟩
    | cons p rest =>
      simp only at h
      by_cases h1 : p.name.rs = c!"r#self"
      · rw [if_pos h1] at h
        by_cases h2 : (p.kind = .positionalOnly || p.kind = .positionalOrKeyword) = true
        · rw [if_pos h2] at h
          cases h
          refine Or.inr (Or.inr ⟨rfl, rfl, p, rest, rfl, h1, ?_, rfl⟩)
          cases hk : p.kind <;> simp_all [ParamKind.isPositional]
        · rw [if_neg h2] at h
          cases h
          exact Or.inr (Or.inl ⟨rfl, rfl, by simp [firstIsSelf, h1], rfl⟩)
      · rw [if_neg h1] at h
        cases h
        exact Or.inl ⟨rfl, fun _ => by simp [firstIsSelf, h1]⟩
  | closure =>
    unfold selfCheck at h
    simp only at h
    cases ps with
    | nil => cases h; exact Or.inl ⟨rfl, fun _ => rfl⟩
    | cons p rest =>
      simp only at h
      by_cases h1 : p.name.rs = c!"r#self"
      · rw [if_pos h1] at h
        by_cases h2 : (p.kind = .positionalOnly || p.kind = .positionalOrKeyword) = true
        · rw [if_pos h2] at h
          cases h
          refine Or.inr (Or.inr ⟨rfl, rfl, p, rest, rfl, h1, ?_, rfl⟩)
          cases hk : p.kind <;> simp_all [ParamKind.isPositional]
        · rw [if_neg h2] at h
          cases h
          exact Or.inr (Or.inl ⟨rfl, rfl, by simp [firstIsSelf, h1], rfl⟩)
      · rw [if_neg h1] at h
        cases h
        exact Or.inl ⟨rfl, fun _ => by simp [firstIsSelf, h1]⟩

theorem inferMethod_free (typ : FnType) (dk : Option DictKind) : isFree (inferMethod typ dk) = isFree typ := by
  cases typ with
  | method c m => cases m <;> simp [inferMethod]; rcases dk with _ | (_ | _ | _) <;> rfl
  | _ => rfl

theorem noParamHack_free (name : Path) (typ : FnType) (ps : List Param) :
    isFree typ = true → noParamHack name typ ps = typ := by
  cases typ <;> simp [isFree, noParamHack]

theorem noReceiver_of_free {typ : FnType} (h : isFree typ = true) : hasReceiver typ = false := by
  cases typ <;> simp_all [isFree, hasReceiver]

theorem replaceSelf_cases (ps : List Param) :
    (replaceSelf ps = ps ∧ ∀ p ∈ ps, p.name.rs ≠ c!"r#self") ∨
      (replaceSelf ps = [argsParam, kwargsParam] ∧ ∃ p ∈ ps, p.name.rs = c!"r#self") := by
  unfold replaceSelf
  split
  · rename_i h
    right
    rw [List.any_eq_true] at h
    obtain ⟨p, hp, h⟩ := h
    exact ⟨rfl, p, hp, by simpa using h⟩
  · rename_i h
    left
    refine ⟨rfl, fun p hp hc => h ?_⟩
    rw [List.any_eq_true]
    exact ⟨p, hp, by simpa using hc⟩

end Bindgen

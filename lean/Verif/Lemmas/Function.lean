import Mathlib.Tactic.Common
import Mathlib.Data.List.Nodup
import Verif.Lemmas.Ident
import Verif.Lemmas.Res
import Verif.Model.Function
import Verif.Spec.Call
/-! # Lemmas about functions -/
namespace Bindgen
open Spec

theorem synIdent_plain {E : Env} {s : Str} (h : IsIdent E s) (hk : s ∉ rustKeywords) : synIdent E s = some s := by
  rw [synIdent_of_isIdent h, if_neg (by simpa using hk)]

theorem fromPy_plain {E : Env} {s : Str} (h : IsIdent E s) (hk : s ∉ rustKeywords) : Ident.fromPy E s = ⟨s⟩ := by
  rw [Ident.fromPy, Ident.pyToRs, synIdent_plain h hk]; rfl

theorem trySyn_plain {E : Env} {s : Str} (h : IsIdent E s) (hk : s ∉ rustKeywords) :
    (Ident.fromPy E s).trySyn E = .ok s := by
  rw [fromPy_plain h hk, Ident.trySyn, Ident.toSyn, synIdent_plain h hk]; rfl

/-- The variable of a parameter. -/
def pvar (p : Param) : Str := c!"p_" ++ p.name.asPy

theorem isIdent_p {E : Env} {s : Str} (h : IsIdent E s) : IsIdent E (c!"p_" ++ s) := by
  refine ⟨'p', '_' :: s, rfl, Or.inr ?_, ?_⟩
  · rw [E.xidStart_ascii _ (by decide)]; decide
  · intro x hx
    rcases List.mem_cons.mp hx with rfl | hx
    · rw [E.xidContinue_ascii _ (by decide)]; decide
    · exact h.continue x hx

theorem p_not_keyword (s : Str) : c!"p_" ++ s ∉ rustKeywords := by
  simp [rustKeywords]

theorem paramIdent_eq {E : Env} {p : Param} (h : IsIdent E p.name.asPy) : paramIdent E p = .ok (pvar p) :=
  trySyn_plain (isIdent_p h) (p_not_keyword _)

theorem paramToSyn_eq {E : Env} {p : Param} (h : IsIdent E p.name.asPy) :
    (Ident.fromPy E (c!"p_" ++ p.name.asPy)).toSyn E = some (pvar p) := by
  rw [fromPy_plain (isIdent_p h) (p_not_keyword _), Ident.toSyn, synIdent_plain (isIdent_p h) (p_not_keyword _)]; rfl

theorem pvar_inj {p q : Param} (h : pvar p = pvar q) : p.name.asPy = q.name.asPy := List.append_cancel_left h

/-- The parts of a successfully generated function. -/
theorem generate_fn {E : Env} {cfg : Config} {importable : Str → Bool} {taken : List Ident} {lt : LocalTypes}
    {f : Function} {r : FnImpl} (h : f.generate E cfg importable taken lt = .ok r) {fn : Fn} (hfn : fn ∈ fnsOf r) :
    ∃ name ident idents pres types ret sig obj pos kw, f.name.name = .ok name ∧ Function.ident E name = some ident ∧
      Res.traverse (paramIdent E) f.params = .ok idents ∧
      Res.traverse (fun p => preprocess E lt p.ann) f.params = .ok pres ∧
      Res.traverse (fun p => intoRsBorrowed E lt p.ann) f.params = .ok types ∧
      intoRsOwned E lt f.ret = .ok ret ∧
      Function.contract E f.typ ident taken (idents.zip types) ret = .ok sig ∧
      dispatcher importable f.name f.typ = .ok (some obj) ∧
      positionalArgs E f.params = .ok pos ∧ keywordArgs E f.params = .ok kw ∧
      fn = ⟨docAttr cfg f.doc, sig, sig.recv = .self, idents.zip pres,
        .call obj (match f.typ with
          | .method _ .constructor | .method _ .callable => none
          | _ => some name.asPy) (if kw.isSome && pos.isNone then some .unit else pos) kw⟩ ∧
      r = if sig.recv = .self then .method [sig] [fn] else .func [fn] := by
  unfold Function.generate at h
  obtain ⟨name, hname, h⟩ := Res.bind_ok h
  split at h
  · cases h; simp [fnsOf] at hfn
  · rename_i ident hident
    obtain ⟨idents, h1, h⟩ := Res.bind_ok h
    obtain ⟨pres, h2, h⟩ := Res.bind_ok h
    obtain ⟨types, h3, h⟩ := Res.bind_ok h
    obtain ⟨ret, h4, h⟩ := Res.bind_ok h
    obtain ⟨sig, h5, h⟩ := Res.bind_ok h
    obtain ⟨obj?, h6, h⟩ := Res.bind_ok h
    cases obj? with
    | none => cases h; simp [fnsOf] at hfn
    | some obj =>
      obtain ⟨pos, h7, h⟩ := Res.bind_ok h
      obtain ⟨kw, h8, h⟩ := Res.bind_ok h
      refine ⟨name, ident, idents, pres, types, ret, sig, obj, pos, kw, hname, hident, h1, h2, h3, h4, h5, h6, h7, h8, ?_⟩
      by_cases hs : sig.recv = .self
      · simp only [hs, decide_true, if_true] at h ⊢
        cases h
        simp only [fnsOf, List.mem_singleton] at hfn
        exact ⟨hfn, by rw [hfn]⟩
      · simp only [hs, decide_false, if_false] at h ⊢
        cases h
        simp only [fnsOf, List.mem_singleton] at hfn
        exact ⟨hfn, by rw [hfn]⟩

theorem contract_params {E : Env} {typ : FnType} {ident : Str} {taken : List Ident} {params : List (Str × RsTy)}
    {ret : RsTy} {sig : Sig} (h : Function.contract E typ ident taken params ret = .ok sig) : sig.params = params := by
  unfold Function.contract at h
  split at h
  · cases h; rfl
  · obtain ⟨i, -, h⟩ := Res.bind_ok h
    obtain ⟨j, -, h⟩ := Res.bind_ok h
    cases h; rfl
  · obtain ⟨i, -, h⟩ := Res.bind_ok h
    obtain ⟨j, -, h⟩ := Res.bind_ok h
    cases h; rfl
  · cases h; rfl

theorem Spec.WfParams.pvars {E : Env} {ps : List Param} (h : WfParams E ps) : (ps.map pvar).Nodup := by
  have := h.names.map (f := fun s => c!"p_" ++ s) (fun a b hab => List.append_cancel_left hab)
  rwa [List.map_map] at this

theorem traverse_paramIdent {E : Env} {ps : List Param} (h : ∀ p ∈ ps, IsIdent E p.name.asPy) :
    Res.traverse (paramIdent E) ps = .ok (ps.map pvar) :=
  Res.traverse_ok (fun p hp => paramIdent_eq (h p hp))

theorem positionalArgs_eq {E : Env} {ps : List Param} (h : ∀ p ∈ ps, IsIdent E p.name.asPy) :
    positionalArgs E ps = .ok (match ps.find? (fun p => p.kind = .varPositional) with
      | some q => some (if (ps.filter (fun p => p.kind.isPositional)).isEmpty then .var (pvar q)
          else .tupleVar ((ps.filter (fun p => p.kind.isPositional)).map pvar) (pvar q))
      | none => if (ps.filter (fun p => p.kind.isPositional)).isEmpty then none
          else some (.tuple ((ps.filter (fun p => p.kind.isPositional)).map pvar))) := by
  unfold positionalArgs
  rw [traverse_paramIdent (fun p hp => h p (List.mem_of_mem_filter hp)), Res.ok_bind]
  simp only [List.isEmpty_map]
  cases hq : ps.find? (fun p => p.kind = .varPositional) with
  | none => rfl
  | some q =>
    simp only [Option.bind_some]
    rw [paramToSyn_eq (h q (List.mem_of_find?_eq_some hq))]; rfl

theorem zip_map_pair {α β γ : Type} (f : α → β) (g : α → γ) (l : List α) :
    (l.map f).zip (l.map g) = l.map (fun a => (f a, g a)) := by
  induction l with
  | nil => rfl
  | cons a l ih => simp [ih]

theorem keywordArgs_eq {E : Env} {ps : List Param} (h : ∀ p ∈ ps, IsIdent E p.name.asPy) :
    keywordArgs E ps = .ok (match ps.find? (fun p => p.kind = .varKeyword) with
      | some q => some (if (ps.filter (fun p => p.kind = .keywordOnly)).isEmpty then .var (pvar q)
          else .varSet (pvar q) ((ps.filter (fun p => p.kind = .keywordOnly)).map (fun p => (p.name.asPy, pvar p))))
      | none => if (ps.filter (fun p => p.kind = .keywordOnly)).isEmpty then none
          else some (.freshSet ((ps.filter (fun p => p.kind = .keywordOnly)).map (fun p => (p.name.asPy, pvar p))))) := by
  unfold keywordArgs
  dsimp only
  rw [traverse_paramIdent (fun p hp => h p (List.mem_of_mem_filter hp)), Res.ok_bind]
  simp only [List.isEmpty_map, zip_map_pair]
  cases hq : ps.find? (fun p => p.kind = .varKeyword) with
  | none => rfl
  | some q =>
    simp only [Option.bind_some]
    rw [paramToSyn_eq (h q (List.mem_of_find?_eq_some hq))]; rfl

/-! ## Running -/

/-- Parameters with the values of their arguments, and the value after the conversion. -/
structure Slot where
  p : Param
  pre : Pre
  arg : PyVal
  out : PyVal
  conv : conv pre arg = some out

theorem lookup_cons_ne {x y : Str} {v : PyVal} {vs : Vars} (h : y ≠ x) : List.lookup y ((x, v) :: vs) = vs.lookup y := by
  rw [List.lookup_cons, show (y == x) = false from by simpa using h]

theorem lookup_cons_eq {x : Str} {v : PyVal} {vs : Vars} : List.lookup x ((x, v) :: vs) = some v := by
  rw [List.lookup_cons, beq_self_eq_true]

theorem runPre_spec (M : List Slot) (hnd : (M.map (fun e => pvar e.p)).Nodup) (vs : Vars)
    (hvs : ∀ e ∈ M, vs.lookup (pvar e.p) = some e.arg) :
    ∃ vs', runPre vs (M.map (fun e => (pvar e.p, e.pre))) = some vs' ∧
      (∀ e ∈ M, vs'.lookup (pvar e.p) = some e.out) ∧
      ∀ y, y ∉ M.map (fun e => pvar e.p) → vs'.lookup y = vs.lookup y := by
  induction M generalizing vs with
  | nil => exact ⟨vs, rfl, by simp, fun _ _ => rfl⟩
  | cons e M ih =>
    rw [List.map_cons, List.nodup_cons] at hnd
    have hne : ∀ e' ∈ M, pvar e'.p ≠ pvar e.p := fun e' he' hc =>
      hnd.1 (List.mem_map.mpr ⟨e', he', hc⟩)
    obtain ⟨vs', h1, h2, h3⟩ := ih hnd.2 ((pvar e.p, e.out) :: vs) (fun e' he' => by
      rw [lookup_cons_ne (hne e' he')]; exact hvs e' (by simp [he']))
    refine ⟨vs', ?_, ?_, ?_⟩
    · rw [List.map_cons, runPre, hvs e (by simp), Option.bind_some, e.conv]; exact h1
    · intro e' he'
      rcases List.mem_cons.mp he' with rfl | he'
      · rw [h3 _ hnd.1, lookup_cons_eq]
      · exact h2 e' he'
    · intro y hy
      rw [List.map_cons, List.mem_cons, not_or] at hy
      rw [h3 y hy.2, lookup_cons_ne hy.1]

theorem lookup_zip (M : List Slot) (hnd : (M.map (fun e => pvar e.p)).Nodup) :
    ∀ e ∈ M, ((M.map (fun e => pvar e.p)).zip (M.map Slot.arg)).lookup (pvar e.p) = some e.arg := by
  induction M with
  | nil => simp
  | cons e M ih =>
    rw [List.map_cons, List.nodup_cons] at hnd
    intro e' he'
    rw [List.map_cons, List.map_cons, List.zip_cons_cons]
    rcases List.mem_cons.mp he' with rfl | he'
    · exact lookup_cons_eq
    · rw [lookup_cons_ne (fun hc => hnd.1 (List.mem_map.mpr ⟨e', he', hc⟩))]; exact ih hnd.2 e' he'

theorem vals_spec {vs : Vars} {M : List Slot} (h : ∀ e ∈ M, vs.lookup (pvar e.p) = some e.out) :
    vals vs (M.map (fun e => pvar e.p)) = some (M.map Slot.out) := by
  induction M with
  | nil => rfl
  | cons e M ih =>
    rw [List.map_cons, vals, h e (by simp), ih (fun e' he' => h e' (by simp [he']))]; rfl

theorem setItems_spec {vs : Vars} {M : List Slot} (h : ∀ e ∈ M, vs.lookup (pvar e.p) = some e.out)
    (d : List (Str × PyVal)) :
    setItems vs d (M.map (fun e => (e.p.name.asPy, pvar e.p))) =
      some ((M.map (fun e => (e.p.name.asPy, e.out))).foldl (fun d kv => setItem d kv.1 kv.2) d) := by
  induction M generalizing d with
  | nil => rfl
  | cons e M ih =>
    rw [List.map_cons, setItems, h e (by simp)]
    exact ih (fun e' he' => h e' (by simp [he'])) _

theorem lookup_setItem (d : List (Str × PyVal)) (k k' : Str) (v : PyVal) :
    (setItem d k v).lookup k' = if k' = k then some v else d.lookup k' := by
  induction d with
  | nil =>
    rw [setItem]
    by_cases h : k' = k
    · subst h; rw [lookup_cons_eq, if_pos rfl]
    · rw [lookup_cons_ne h, if_neg h]
  | cons e d ih =>
    obtain ⟨a, b⟩ := e
    rw [setItem]
    by_cases ha : a = k
    · subst ha
      rw [if_pos rfl]
      by_cases h : k' = a
      · subst h; rw [lookup_cons_eq, if_pos rfl]
      · rw [lookup_cons_ne h, if_neg h, lookup_cons_ne h]
    · rw [if_neg ha]
      by_cases h : k' = a
      · subst h; rw [lookup_cons_eq, if_neg ha, lookup_cons_eq]
      · rw [lookup_cons_ne h, ih, lookup_cons_ne h]

theorem keys_setItem (d : List (Str × PyVal)) (k : Str) (v : PyVal) :
    (setItem d k v).map Prod.fst = if k ∈ d.map Prod.fst then d.map Prod.fst else d.map Prod.fst ++ [k] := by
  induction d with
  | nil => rfl
  | cons e d ih =>
    obtain ⟨a, b⟩ := e
    rw [setItem]
    by_cases ha : a = k
    · subst ha; simp
    · rw [if_neg ha, List.map_cons, ih]
      have : (k ∈ List.map Prod.fst ((a, b) :: d)) ↔ k ∈ d.map Prod.fst := by
        simp [Ne.symm ha]
      by_cases hk : k ∈ d.map Prod.fst
      · rw [if_pos hk, if_pos (this.mpr hk)]; rfl
      · rw [if_neg hk, if_neg (fun h => hk (this.mp h))]; rfl

theorem setItem_new {d : List (Str × PyVal)} {k : Str} (v : PyVal) (h : k ∉ d.map Prod.fst) :
    setItem d k v = d ++ [(k, v)] := by
  induction d with
  | nil => rfl
  | cons e d ih =>
    obtain ⟨a, b⟩ := e
    simp only [List.map_cons, List.mem_cons, not_or] at h
    rw [setItem, if_neg (Ne.symm h.1), ih h.2]; rfl

theorem foldl_setItem_lookup (kvs d : List (Str × PyVal)) (hnd : (kvs.map Prod.fst).Nodup) (k : Str) :
    (kvs.foldl (fun d kv => setItem d kv.1 kv.2) d).lookup k = (kvs.lookup k).or (d.lookup k) := by
  induction kvs generalizing d with
  | nil => simp
  | cons e kvs ih =>
    obtain ⟨a, b⟩ := e
    simp only [List.map_cons, List.nodup_cons] at hnd
    rw [List.foldl_cons, ih _ hnd.2, lookup_setItem]
    by_cases h : k = a
    · subst h
      have : kvs.lookup k = none := by
        rw [List.lookup_eq_none_iff]
        intro e he
        have : k ≠ e.1 := fun hc => hnd.1 (List.mem_map.mpr ⟨e, he, hc.symm⟩)
        simpa using this
      rw [this, if_pos rfl, lookup_cons_eq]; rfl
    · rw [if_neg h, lookup_cons_ne h]

theorem foldl_setItem_nodup (kvs d : List (Str × PyVal)) (h : (d.map Prod.fst).Nodup) :
    ((kvs.foldl (fun d kv => setItem d kv.1 kv.2) d).map Prod.fst).Nodup := by
  induction kvs generalizing d with
  | nil => exact h
  | cons e kvs ih =>
    apply ih
    rw [keys_setItem]
    split
    · exact h
    · rename_i hk
      rw [List.nodup_append]
      refine ⟨h, by simp, ?_⟩
      intro a ha b hb
      simp only [List.mem_singleton] at hb
      subst hb
      exact fun hc => hk (hc ▸ ha)

theorem foldl_setItem_append (kvs d : List (Str × PyVal)) (hnd : (kvs.map Prod.fst).Nodup)
    (hd : ∀ k ∈ kvs.map Prod.fst, k ∉ d.map Prod.fst) :
    kvs.foldl (fun d kv => setItem d kv.1 kv.2) d = d ++ kvs := by
  induction kvs generalizing d with
  | nil => simp
  | cons e kvs ih =>
    obtain ⟨a, b⟩ := e
    simp only [List.map_cons, List.nodup_cons] at hnd
    rw [List.foldl_cons, setItem_new _ (hd a (by simp)), ih _ hnd.2]
    · simp
    · intro k hk
      simp only [List.map_append, List.map_cons, List.map_nil, List.mem_append, List.mem_singleton, not_or]
      exact ⟨hd k (by simp only [List.map_cons, List.mem_cons]; exact Or.inr hk), fun hc => hnd.1 (hc ▸ hk)⟩

theorem flatMap_one {α β : Type} (c : α → Bool) (g : α → List β) (l : List α) (h : (l.filter c).length ≤ 1) :
    l.flatMap (fun e => if c e = true then g e else []) = match l.find? c with
      | some e => g e
      | none => [] := by
  induction l with
  | nil => rfl
  | cons a l ih =>
    rw [List.flatMap_cons, List.find?_cons]
    by_cases ha : c a = true
    · rw [if_pos ha, ha]
      rw [List.filter_cons_of_pos ha, List.length_cons] at h
      have hnil : l.filter c = [] := List.length_eq_zero_iff.mp (by omega)
      have hfind : l.find? c = none := by
        rw [List.find?_eq_none]
        intro x hx hc
        have : x ∈ l.filter c := List.mem_filter.mpr ⟨hx, hc⟩
        rw [hnil] at this; simp at this
      rw [ih (by rw [hnil]; simp), hfind]; simp
    · have hf : c a = false := by simpa using ha
      rw [if_neg ha, hf]
      rw [List.filter_cons_of_neg ha] at h
      simpa using ih h

/-- What a parameter is rebound to: `None` for `**kwargs` is no keyword arguments. -/
def passed : ParamKind → PyVal → PyVal
  | .varKeyword, .none => .dict []
  | _, v => v

theorem exists_slots (g : Param → Pre) (out : Param → PyVal → PyVal) (ps : List Param) (args : List PyVal)
    (hlen : ps.length = args.length) (h : ∀ e ∈ ps.zip args, conv (g e.1) e.2 = some (out e.1 e.2)) :
    ∃ M : List Slot, M.map Slot.p = ps ∧ M.map Slot.arg = args ∧
      ∀ e ∈ M, e.pre = g e.p ∧ e.out = out e.p e.arg ∧ (e.p, e.arg) ∈ ps.zip args := by
  induction ps generalizing args with
  | nil =>
    cases args with
    | nil => exact ⟨[], rfl, rfl, by simp⟩
    | cons => simp at hlen
  | cons p ps ih =>
    cases args with
    | nil => simp at hlen
    | cons v args =>
      obtain ⟨M, h1, h2, h3⟩ := ih args (by simpa using hlen) (fun e he => h e (by simp [he]))
      refine ⟨⟨p, g p, v, out p v, h (p, v) (by simp)⟩ :: M, by simp [h1], by simp [h2], ?_⟩
      intro e he
      rcases List.mem_cons.mp he with rfl | he
      · exact ⟨rfl, rfl, by simp⟩
      · obtain ⟨a, b, c⟩ := h3 e he
        exact ⟨a, b, by rw [List.zip_cons_cons]; exact List.mem_cons_of_mem _ c⟩

/-- A conversion leaves an admitted value alone (the exception is `None` for an optional dictionary). -/
theorem conv_ok {E : Env} {lt : LocalTypes} {t : PyTy} {pre : Pre} {ty : RsTy} {v : PyVal}
    (hp : preprocess E lt t = .ok pre) (ht : intoRsBorrowed E lt t = .ok ty) (ha : Admits ty v)
    (hd : v = .none → ∀ k w, t ≠ .optional (.dict k w)) : conv pre v = some v := by
  obtain ⟨o, ht⟩ : ∃ o, intoRs E lt t = .ok (o, ty) := by
    unfold intoRsBorrowed at ht
    obtain ⟨ob, h1, hb⟩ := Res.bind_ok ht
    cases hb
    exact ⟨ob.1, h1⟩
  rename_i ht0
  clear ht0
  unfold preprocess at hp
  split at hp
  · rename_i k w
    obtain ⟨c, hc, hp⟩ := Res.bind_ok hp
    cases hp
    cases c
    · simp [conv]
    · unfold intoRs at ht
      obtain ⟨v', hv', ht⟩ := Res.bind_ok ht
      unfold dictNeedsConversion at hc
      rw [hv'] at hc
      have hcond : (k.isHashable && !v'.1.mentionsPyAny) = false := by
        cases hk : k.isHashable with
        | false => rfl
        | true =>
          rw [hk] at hc
          simp only [Bool.not_true, Bool.false_eq_true, if_false] at hc
          have : v'.1.mentionsPyAny = true := Except.ok.inj hc
          rw [this]; rfl
      rw [hcond] at ht
      cases ht
      obtain ⟨d, rfl⟩ := ha
      rfl
  · rename_i ts
    cases hp
    split
    · rename_i hl
      match ts, hl with
      | [], _ =>
        unfold intoRs at ht; cases ht
        obtain ⟨l, rfl⟩ := ha rfl; rfl
      | [_], _ =>
        unfold intoRs at ht; cases ht
        obtain ⟨l, rfl⟩ := ha rfl; rfl
      | _ :: _ :: _, hl => simp at hl; omega
    · simp [conv]
  · cases hp; simp [conv]
  · cases hp; simp [conv]
  · cases hp; simp [conv]
  · cases hp; simp [conv]
  · cases hp; simp [conv]
  · cases hp; simp [conv]
  · split at hp
    · cases hp; simp [conv]
    · obtain ⟨_, -, hp⟩ := Res.bind_ok hp
      cases hp
      split <;> simp [conv]
  · rename_i k w
    have hv : v ≠ .none := fun h => hd h k w rfl
    obtain ⟨c, hc, hp⟩ := Res.bind_ok hp
    cases hp
    cases c
    · simp [conv]
    · unfold intoRs at ht
      obtain ⟨i, hi, ht⟩ := Res.bind_ok ht
      cases ht
      unfold intoRs at hi
      obtain ⟨v', hv', hi⟩ := Res.bind_ok hi
      unfold dictNeedsConversion at hc
      rw [hv'] at hc
      have hcond : (k.isHashable && !v'.1.mentionsPyAny) = false := by
        cases hk : k.isHashable with
        | false => rfl
        | true =>
          rw [hk] at hc
          simp only [Bool.not_true, Bool.false_eq_true, if_false] at hc
          have : v'.1.mentionsPyAny = true := Except.ok.inj hc
          rw [this]; rfl
      rw [hcond] at hi
      cases hi
      rcases ha rfl with h | ⟨d, rfl⟩
      · exact absurd h hv
      · rfl
  · cases hp; simp [conv]

theorem conv_kwargs {E : Env} {lt : LocalTypes} {pre : Pre} {ty : RsTy} {v : PyVal}
    (hp : preprocess E lt (.optional (.dict .unknown .unknown)) = .ok pre)
    (ht : intoRsBorrowed E lt (.optional (.dict .unknown .unknown)) = .ok ty) (ha : Admits ty v) :
    conv pre v = some (passed .varKeyword v) ∧ ∃ d, passed .varKeyword v = .dict d := by
  have e1 : preprocess E lt (.optional (.dict .unknown .unknown)) = .ok .optDict := rfl
  have e2 : intoRsBorrowed E lt (.optional (.dict .unknown .unknown)) = .ok (.option (.bound c!"PyDict")) := rfl
  rw [e1] at hp; rw [e2] at ht
  cases hp; cases ht
  rcases ha rfl with rfl | ⟨d, rfl⟩
  · exact ⟨rfl, _, rfl⟩
  · exact ⟨rfl, _, rfl⟩

theorem traverse_map {α β : Type} [Inhabited β] {f : α → Res β} {l : List α} {r : List β}
    (h : Res.traverse f l = .ok r) : ∃ g : α → β, r = l.map g ∧ ∀ a ∈ l, f a = .ok (g a) := by
  refine ⟨fun a => match f a with | .ok b => b | .error _ => default, ?_⟩
  induction l generalizing r with
  | nil => cases h; simp
  | cons a l ih =>
    rw [Res.traverse] at h
    obtain ⟨y, hy, h⟩ := Res.bind_ok h
    obtain ⟨ys, hys, h⟩ := Res.bind_ok h
    cases h
    obtain ⟨h1, h2⟩ := ih hys
    refine ⟨by simp [hy, h1], ?_⟩
    intro x hx
    rcases List.mem_cons.mp hx with rfl | hx
    · simp [hy]
    · exact h2 x hx

instance : Inhabited Pre := ⟨.none⟩
instance : Inhabited RsTy := ⟨.bool⟩

/-- What the emitted body of a function with well-formed parameters asks for. -/
theorem run_spec {E : Env} {M : List Slot} (hwf : WfParams E (M.map Slot.p)) {fn : Fn} {obj : Obj} {meth : Option Str}
    {pos : Option Pos} {kw : Option Kw}
    (hps : fn.sig.params.map Prod.fst = M.map (fun e => pvar e.p)) (hpre : fn.pre = M.map (fun e => (pvar e.p, e.pre)))
    (hpos : positionalArgs E (M.map Slot.p) = .ok pos) (hkw : keywordArgs E (M.map Slot.p) = .ok kw)
    (hbody : fn.body = .call obj meth (if kw.isSome && pos.isNone then some .unit else pos) kw)
    (hstar : ∀ e ∈ M, e.p.kind = .varPositional → ∃ l, e.out = .tuple l)
    (hdict : ∀ e ∈ M, e.p.kind = .varKeyword → ∃ d, e.out = .dict d) :
    run fn (M.map Slot.arg) = some (.call obj meth
      ((M.filter (fun e => e.p.kind.isPositional)).map Slot.out ++
        M.flatMap (fun e => if e.p.kind = .varPositional then (elems e.out).getD [] else []))
      (((M.filter (fun e => e.p.kind = .keywordOnly)).map (fun e => (e.p.name.asPy, e.out))).foldl
        (fun d kv => setItem d kv.1 kv.2)
        (M.flatMap (fun e => if e.p.kind = .varKeyword then (entries e.out).getD [] else [])))) := by
  have hnd : (M.map (fun e => pvar e.p)).Nodup := by
    have := hwf.pvars
    rwa [List.map_map] at this
  have hlen : (M.map Slot.arg).length = fn.sig.params.length := by
    have := congrArg List.length hps
    simp only [List.length_map] at this ⊢
    exact this.symm
  obtain ⟨vs, h1, h2, -⟩ := runPre_spec M hnd _ (lookup_zip M hnd)
  unfold run
  rw [if_neg (by simp [hlen]), hps, hpre, h1]
  simp only [hbody]
  have hP : evalPos vs (if kw.isSome && pos.isNone then some .unit else pos) =
      some ((M.filter (fun e => e.p.kind.isPositional)).map Slot.out ++
        M.flatMap (fun e => if e.p.kind = .varPositional then (elems e.out).getD [] else [])) := by
    have hone := flatMap_one (fun e : Slot => decide (e.p.kind = .varPositional)) (fun e => (elems e.out).getD []) M (by
      have := hwf.oneStar
      rw [List.filter_map, List.length_map] at this
      exact this)
    simp only [decide_eq_true_eq] at hone
    rw [hone]
    rw [positionalArgs_eq hwf.ident, List.find?_map, List.filter_map] at hpos
    simp only [Function.comp_def, List.isEmpty_map, List.map_map] at hpos
    have hv := vals_spec (vs := vs) (M := M.filter (fun e => e.p.kind.isPositional)) (fun e he => h2 e (List.mem_of_mem_filter he))
    cases hf : M.find? (fun e => decide (e.p.kind = .varPositional)) with
    | none =>
      rw [hf] at hpos
      simp only [Option.map_none] at hpos
      by_cases hemp : (M.filter (fun e => e.p.kind.isPositional)).isEmpty = true
      · rw [if_pos hemp] at hpos
        cases hpos
        rw [List.isEmpty_iff] at hemp
        rw [hemp]
        cases kw <;> rfl
      · rw [if_neg hemp] at hpos
        cases hpos
        simp only [Option.isNone_some, Bool.and_false, Bool.false_eq_true, if_false, evalPos, List.append_nil]
        exact hv
    | some q =>
      rw [hf] at hpos
      simp only [Option.map_some] at hpos
      have hq := List.mem_of_find?_eq_some hf
      have hqk : q.p.kind = .varPositional := by simpa using List.find?_some hf
      obtain ⟨l, hl⟩ := hstar q hq hqk
      by_cases hemp : (M.filter (fun e => e.p.kind.isPositional)).isEmpty = true
      · rw [if_pos hemp] at hpos
        cases hpos
        rw [List.isEmpty_iff] at hemp
        rw [hemp]
        simp [evalPos, h2 q hq, hl, elems]
      · rw [if_neg hemp] at hpos
        cases hpos
        simp only [Option.isNone_some, Bool.and_false, Bool.false_eq_true, if_false, evalPos]
        rw [hv, h2 q hq, hl]; rfl
  have hK : evalKw vs kw = some (((M.filter (fun e => e.p.kind = .keywordOnly)).map (fun e => (e.p.name.asPy, e.out))).foldl
        (fun d kv => setItem d kv.1 kv.2)
        (M.flatMap (fun e => if e.p.kind = .varKeyword then (entries e.out).getD [] else []))) := by
    have hone := flatMap_one (fun e : Slot => decide (e.p.kind = .varKeyword)) (fun e => (entries e.out).getD []) M (by
      have := hwf.oneStarStar
      rw [List.filter_map, List.length_map] at this
      exact this)
    simp only [decide_eq_true_eq] at hone
    rw [hone]
    rw [keywordArgs_eq hwf.ident, List.find?_map, List.filter_map] at hkw
    simp only [Function.comp_def, List.isEmpty_map, List.map_map] at hkw
    have hv := setItems_spec (vs := vs) (M := M.filter (fun e => e.p.kind = .keywordOnly)) (fun e he => h2 e (List.mem_of_mem_filter he))
    cases hf : M.find? (fun e => decide (e.p.kind = .varKeyword)) with
    | none =>
      rw [hf] at hkw
      simp only [Option.map_none] at hkw
      by_cases hemp : (M.filter (fun e => decide (e.p.kind = .keywordOnly))).isEmpty = true
      · rw [if_pos hemp] at hkw
        cases hkw
        rw [List.isEmpty_iff] at hemp
        rw [hemp]; rfl
      · rw [if_neg hemp] at hkw
        cases hkw
        exact hv []
    | some q =>
      rw [hf] at hkw
      simp only [Option.map_some] at hkw
      have hq := List.mem_of_find?_eq_some hf
      have hqk : q.p.kind = .varKeyword := by simpa using List.find?_some hf
      obtain ⟨l, hl⟩ := hdict q hq hqk
      by_cases hemp : (M.filter (fun e => decide (e.p.kind = .keywordOnly))).isEmpty = true
      · rw [if_pos hemp] at hkw
        cases hkw
        rw [List.isEmpty_iff] at hemp
        rw [hemp]
        simp [evalKw, h2 q hq, hl, entries]
      · rw [if_neg hemp] at hkw
        cases hkw
        simp only [evalKw]
        rw [h2 q hq, hl]
        exact hv l
  rw [hP, hK]; rfl

end Bindgen

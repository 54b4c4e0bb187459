import Verif.Lemmas.Eval
import Verif.Lemmas.Legal
/-!
# Lemmas: the generated functions can be evaluated
-/
namespace Bindgen
open Spec

theorem lexTrim_p (n : Str) : ∃ m, lexTrim (c!"p_" ++ n) = c!"p_" ++ m ∧ lexTrim (c!"r#" ++ (c!"p_" ++ n)) = c!"r#" ++ (c!"p_" ++ m) := by
  refine ⟨(n.reverse.dropWhile lexWs).reverse, ?_, ?_⟩
  all_goals
    simp only [lexTrim, List.cons_append, List.nil_append]
    rw [List.dropWhile_cons_of_neg (by decide)]
    simp only [List.reverse_cons, List.append_assoc, List.cons_append, List.nil_append]
    induction n.reverse with
    | nil => rfl
    | cons c l ih =>
      rw [List.cons_append, List.dropWhile_cons, List.dropWhile_cons]
      split
      · exact ih
      · simp

theorem synP {E : Env} {n s : Str} (h : (Ident.fromPy E (c!"p_" ++ n)).toSyn E = some s) : IsParam s := by
  obtain ⟨m, h1, h2⟩ := lexTrim_p n
  have key : synIdent E (c!"p_" ++ n) = some s ∨ (synIdent E (c!"p_" ++ n)).isSome = false ∧ synIdent E (c!"r#" ++ (c!"p_" ++ n)) = some s := by
    simp only [Ident.fromPy, Ident.toSyn, Ident.pyToRs] at h
    split at h
    · exact .inl h
    · rename_i hn; exact .inr ⟨by simpa using hn, h⟩
  rcases key with h | ⟨hn, h⟩
  · rw [synIdent, h1] at h
    obtain ⟨rfl, -⟩ := synIdentTok_ok h
    exact ⟨m, rfl⟩
  · rw [synIdent, h1] at hn
    rw [synIdent, h2] at h
    exfalso
    have hk : rustKeywords.contains (c!"p_" ++ m) = false := by simpa using p_not_keyword m
    have e1 : synIdentTok E (c!"p_" ++ m) = if isIdentText E (c!"p_" ++ m) && !rustKeywords.contains (c!"p_" ++ m) then some (c!"p_" ++ m) else none := rfl
    have e2 : synIdentTok E (c!"r#" ++ (c!"p_" ++ m)) = if isIdentText E (c!"p_" ++ m) && !rawReserved.contains (c!"p_" ++ m) then some (c!"r#" ++ (c!"p_" ++ m)) else none := rfl
    rw [e1, hk] at hn
    rw [e2] at h
    cases hi : isIdentText E (c!"p_" ++ m) with
    | false => rw [hi] at h; simp at h
    | true => rw [hi] at hn; simp at hn

theorem paramIdent_isParam {E : Env} {p : Param} {s : Str} (h : paramIdent E p = .ok s) : IsParam s := by
  unfold paramIdent Ident.trySyn at h
  cases hs : (Ident.fromPy E (c!"p_" ++ p.name.asPy)).toSyn E with
  | none => rw [hs] at h; cases h
  | some t => rw [hs] at h; cases h; exact synP hs

theorem positional_vars {E : Env} {ps : List Param} {r : Option Pos} (h : positionalArgs E ps = .ok r) :
    ∀ p ∈ r, ∀ x ∈ p.vars, ∃ q ∈ ps, paramIdent E q = .ok x := by
  obtain ⟨xs, hxs, h⟩ := Res.bind_ok h
  have hid : ∀ x ∈ xs, ∃ q ∈ ps, paramIdent E q = .ok x := by
    intro x hx
    obtain ⟨p, hp, hx⟩ := traverse_mem hxs hx
    exact ⟨p, (List.mem_filter.1 hp).1, hx⟩
  cases h
  split
  · rename_i x hx
    have hx : ∃ q ∈ ps, paramIdent E q = .ok x := by
      rw [Option.bind_eq_some_iff] at hx
      obtain ⟨q, hm, hq⟩ := hx
      exact ⟨q, List.mem_of_find?_eq_some hm, by unfold paramIdent Ident.trySyn; rw [hq]; rfl⟩
    rintro p hp
    cases hp
    split
    · intro z hz; simp only [Pos.vars, List.mem_singleton] at hz; exact hz ▸ hx
    · intro z hz
      rcases List.mem_cons.1 hz with rfl | hz
      · exact hx
      · exact hid z hz
  · split
    · rintro p hp; cases hp
    · rintro p hp; cases hp; exact hid

theorem keyword_vars {E : Env} {ps : List Param} {r : Option Kw} (h : keywordArgs E ps = .ok r) :
    ∀ p ∈ r, ∀ x ∈ p.vars, ∃ q ∈ ps, paramIdent E q = .ok x := by
  obtain ⟨xs, hxs, h⟩ := Res.bind_ok h
  have hid : ∀ x ∈ xs, ∃ q ∈ ps, paramIdent E q = .ok x := by
    intro x hx
    obtain ⟨p, hp, hx⟩ := traverse_mem hxs hx
    exact ⟨p, (List.mem_filter.1 hp).1, hx⟩
  have hit : ∀ x ∈ (((ps.filter (fun p => p.kind = .keywordOnly)).map (fun p => p.name.asPy)).zip xs).map Prod.snd,
      ∃ q ∈ ps, paramIdent E q = .ok x := by
    intro x hx
    obtain ⟨kx, hk, rfl⟩ := List.mem_map.1 hx
    exact hid _ (List.of_mem_zip hk).2
  cases h
  split
  · rename_i x hx
    have hx : ∃ q ∈ ps, paramIdent E q = .ok x := by
      rw [Option.bind_eq_some_iff] at hx
      obtain ⟨q, hm, hq⟩ := hx
      exact ⟨q, List.mem_of_find?_eq_some hm, by unfold paramIdent Ident.trySyn; rw [hq]; rfl⟩
    rintro p hp
    cases hp
    split
    · intro z hz; simp only [Kw.vars, List.mem_singleton] at hz; exact hz ▸ hx
    · intro z hz
      rcases List.mem_cons.1 hz with rfl | hz
      · exact hx
      · exact hit z hz
  · split
    · rintro p hp; cases hp
    · rintro p hp; cases hp; exact hit

theorem importQuote_imported {imp : Str → Bool} {p : Path} {o : Obj} (h : p.importQuote imp = .ok o) : o.imported := by
  have fold : ∀ (l : List Str) (o : Obj), o.imported → (l.foldl Obj.getattr o).imported := by
    intro l
    induction l with
    | nil => exact fun _ h => h
    | cons s l ih => exact fun o h => ih _ h
  unfold Path.importQuote at h
  split at h
  · cases h
  · cases h; exact fold _ _ trivial

theorem contract_dispatch {E : Env} {typ : FnType} {ident : Str} {taken : List Ident} {params : List (Str × RsTy)} {ret : RsTy} {s : Sig}
    {imp : Str → Bool} {name : Path} {obj : Obj} (h : Function.contract E typ ident taken params ret = .ok s)
    (hd : dispatcher imp name typ = .ok (some obj)) :
    s.params = params ∧ ((s.recv = .py ∧ obj.imported) ∨ (s.recv = .self ∧ obj = .self)) := by
  cases typ with
  | function =>
    cases h
    obtain ⟨p, -, hd⟩ := Res.bind_ok hd
    obtain ⟨o, ho, hd⟩ := Res.bind_ok hd
    cases hd
    exact ⟨rfl, .inl ⟨rfl, importQuote_imported ho⟩⟩
  | closure =>
    cases h
    obtain ⟨p, -, hd⟩ := Res.bind_ok hd
    obtain ⟨o, ho, hd⟩ := Res.bind_ok hd
    cases hd
    exact ⟨rfl, .inl ⟨rfl, importQuote_imported ho⟩⟩
  | method c k =>
    cases k with
    | instanceMethod => cases h; cases hd; exact ⟨rfl, .inr ⟨rfl, rfl⟩⟩
    | callable =>
      obtain ⟨j, -, h⟩ := Res.bind_ok h
      obtain ⟨k, hk, h⟩ := Res.bind_ok h
      cases h; cases hd; exact ⟨rfl, .inr ⟨rfl, rfl⟩⟩
    | constructor =>
      obtain ⟨j, -, h⟩ := Res.bind_ok h
      obtain ⟨k, hk, h⟩ := Res.bind_ok h
      obtain ⟨o, ho, hd⟩ := Res.bind_ok hd
      cases h; cases hd; exact ⟨rfl, .inl ⟨rfl, importQuote_imported ho⟩⟩
    | unknown => cases hd
    | _ =>
      obtain ⟨o, ho, hd⟩ := Res.bind_ok hd
      cases h; cases hd; exact ⟨rfl, .inl ⟨rfl, importQuote_imported ho⟩⟩

theorem function_sane {E : Env} {cfg : Config} {imp : Str → Bool} {taken : List Ident} {lt : LocalTypes} {f : Function} {r : FnImpl}
    (h : f.generate E cfg imp taken lt = .ok r) {fn : Fn} (hfn : fn ∈ fnsOf r) : fn.Sane := by
  obtain ⟨name, ident, idents, pres, types, ret, sig, obj, pos, kw, -, -, h1, h2, h3, -, h5, h6, h7, h8, rfl, -⟩ := generate_fn h hfn
  obtain ⟨hp, hr⟩ := contract_dispatch h5 h6
  have hids : ∀ x ∈ idents, IsParam x := by
    intro x hx
    obtain ⟨p, -, hp⟩ := traverse_mem h1 hx
    exact paramIdent_isParam hp
  have hpv := positional_vars h7
  have hkv := keyword_vars h8
  refine ⟨?_, ?_, ?_, ?_⟩
  · rintro p hpm
    simp only [hp] at hpm
    exact hids _ (List.of_mem_zip hpm).1
  · rintro p hpm
    simp only [hp]
    rw [List.map_fst_zip (by rw [Res.traverse_length h3, Res.traverse_length h1])]
    exact (List.of_mem_zip hpm).1
  · intro x hx
    have hin : (∃ q ∈ f.params, paramIdent E q = .ok x) → x ∈ sig.params.map Prod.fst := by
      rintro ⟨q, hq, hx⟩
      rw [hp, List.map_fst_zip (by rw [Res.traverse_length h3, Res.traverse_length h1])]
      obtain ⟨y, hy, he⟩ := traverse_mem' h1 hq
      rw [hx] at he
      cases he
      exact hy
    simp only [Body.vars, List.mem_append] at hx
    rcases hx with hx | hx
    · split at hx
      · simp [Pos.vars] at hx
      · cases pos with
        | none => simp at hx
        | some p => exact hin (hpv p rfl x hx)
    · cases kw with
      | none => simp at hx
      | some k => exact hin (hkv k rfl x hx)
  · rcases hr with ⟨hr, ho⟩ | ⟨hr, ho⟩
    · exact .inl ⟨hr, by simp [hr], ho⟩
    · exact .inr ⟨hr, ho, .inl (by simp [hr])⟩

theorem target_imported {imp : Str → Bool} {p : Property} {o : Obj} (h : p.target imp = .ok o) :
    (p.owner = .module ∧ o.imported) ∨ (p.owner = .class ∧ o = .self) := by
  unfold Property.target at h
  split at h
  · rename_i ho
    obtain ⟨q, -, h⟩ := Res.bind_ok h
    exact .inl ⟨ho, importQuote_imported h⟩
  · rename_i ho; cases h; exact .inr ⟨ho, rfl⟩

theorem isParam_value : IsParam c!"p_value" := ⟨_, rfl⟩

theorem getter_sane {E : Env} {cfg : Config} {imp : Str → Bool} {taken : List Ident} {lt : LocalTypes} {p : Property} {f : Fn}
    (h : p.generateGetter E cfg imp taken lt = .ok (some f)) : f.Sane := by
  unfold Property.generateGetter at h
  obtain ⟨name, -, h⟩ := Res.bind_ok h
  obtain ⟨o, ho, h⟩ := Res.bind_ok h
  cases o with
  | none => cases h
  | some ident =>
    obtain ⟨ty, h1, h⟩ := Res.bind_ok h
    obtain ⟨obj, hobj, h⟩ := Res.bind_ok h
    cases h
    refine ⟨fun _ h => (nomatch h), fun _ h => (nomatch h), fun _ h => (nomatch h), ?_⟩
    rcases target_imported hobj with ⟨ho, hi⟩ | ⟨ho, rfl⟩
    · exact .inl ⟨by simp only [ho]; rfl, rfl, hi⟩
    · exact .inr ⟨by simp only [ho]; rfl, rfl, .inr ⟨rfl, rfl, _, rfl⟩⟩

theorem setter_sane {E : Env} {cfg : Config} {imp : Str → Bool} {taken : List Ident} {lt : LocalTypes} {p : Property} {f : Fn}
    (h : p.generateSetter E cfg imp taken lt = .ok (some f)) : f.Sane := by
  unfold Property.generateSetter at h
  obtain ⟨name, -, h⟩ := Res.bind_ok h
  obtain ⟨o, ho, h⟩ := Res.bind_ok h
  cases o with
  | none => cases h
  | some ident =>
    obtain ⟨pre, -, h⟩ := Res.bind_ok h
    obtain ⟨ty, h1, h⟩ := Res.bind_ok h
    obtain ⟨obj, hobj, h⟩ := Res.bind_ok h
    cases h
    refine ⟨fun q hq => ?_, fun q hq => ?_, fun x hx => ?_, ?_⟩
    · rw [List.mem_singleton] at hq; subst hq; exact isParam_value
    · rw [List.mem_singleton] at hq; subst hq; exact List.mem_singleton.2 rfl
    · simp only [Body.vars, List.mem_singleton] at hx; subst hx; exact List.mem_singleton.2 rfl
    · rcases target_imported hobj with ⟨ho, hi⟩ | ⟨ho, rfl⟩
      · exact .inl ⟨by simp only [ho]; rfl, by simp [ho], hi⟩
      · exact .inr ⟨by simp only [ho]; rfl, rfl, .inl (by simp [ho])⟩

theorem property_sane {E : Env} {cfg : Config} {imp : Str → Bool} {taken : List Ident} {lt : LocalTypes} {p : Property} {l : List (Option Fn)}
    (h : p.generate E cfg imp taken lt = .ok l) {f : Fn} (hf : some f ∈ l) : f.Sane := by
  unfold Property.generate at h
  obtain ⟨g, hg, h⟩ := Res.bind_ok h
  split at h
  · obtain ⟨s, hs, h⟩ := Res.bind_ok h
    cases h
    simp only [List.mem_cons, List.not_mem_nil, or_false] at hf
    rcases hf with rfl | rfl
    · exact getter_sane hg
    · exact setter_sane hs
  · cases h
    rw [List.mem_singleton] at hf
    subst hf
    exact getter_sane hg

theorem parts_fold_sane : ∀ {l : List FnImpl} {a : ClassParts}, (∀ f, f ∈ a.inherent ∨ f ∈ a.traitImpls → f.Sane) →
    (∀ i ∈ l, ∀ f ∈ fnsOf i, f.Sane) →
    ∀ f, f ∈ (l.foldl ClassParts.add a).inherent ∨ f ∈ (l.foldl ClassParts.add a).traitImpls → f.Sane
  | [], _, ha, _ => ha
  | i :: l, a, ha, h => by
    refine parts_fold_sane (l := l) ?_ (fun j hj => h j (by simp [hj]))
    have hi := h i (by simp)
    cases i with
    | func fns =>
      rintro f (hf | hf)
      · rcases List.mem_append.mp hf with hf | hf
        · exact ha f (.inl hf)
        · exact hi f hf
      · exact ha f (.inr hf)
    | method sigs fns =>
      rintro f (hf | hf)
      · exact ha f (.inl hf)
      · rcases List.mem_append.mp hf with hf | hf
        · exact ha f (.inr hf)
        · exact hi f hf

theorem class_sane {E : Env} {cfg : Config} {imp : Str → Bool} {lt : LocalTypes} {c : Class} {k : ClassItem}
    (h : c.generate E cfg imp lt = .ok (some k)) {f : Fn} (hf : f ∈ k.inherent ∨ f ∈ k.traitImpls) : f.Sane := by
  unfold Class.generate at h
  obtain ⟨name, -, h⟩ := Res.bind_ok h
  split at h
  · cases h
  · obtain ⟨taken, -, h⟩ := Res.bind_ok h
    obtain ⟨impls, h1, h⟩ := Res.bind_ok h
    obtain ⟨props, h2, h⟩ := Res.bind_ok h
    obtain ⟨t, ht, h⟩ := Res.bind_ok h
    cases h
    refine parts_fold_sane (l := impls ++ props.map propImpl) (a := ⟨[], [], []⟩) ?_ ?_ f hf
    · rintro f (h | h) <;> cases h
    · intro i hi g hg
      rcases List.mem_append.mp hi with hi | hi
      · obtain ⟨m, -, hm⟩ := traverse_mem h1 hi
        exact function_sane hm hg
      · obtain ⟨l, hl, rfl⟩ := List.mem_map.mp hi
        obtain ⟨p, -, hp⟩ := traverse_mem h2 hl
        have hg : g ∈ l.filterMap id := hg
        rw [List.mem_filterMap] at hg
        obtain ⟨o, ho, rfl⟩ := hg
        exact property_sane hp ho

end Bindgen

import Verif.Lemmas.Path
/-!
# C03, C04, C05, C07: paths
-/
namespace Bindgen
open Spec

/-- **C03**: parsing and printing an ordinary dotted Python name, with any number of leading dots, gives the
same text. -/
theorem C03_python_roundtrip_partial (E : Env) (dots : Nat) (segs : List Str) (hne : segs ≠ [])
    (h : ∀ s ∈ segs, PySegment s) : (Path.fromPy E (dotted dots segs)).toPy = dotted dots segs :=
  toPy_fromPy E dots hne h

example : (∀ s ∈ [c!"pkg", c!"struct", c!"_x"], PySegment s) ∧
    dotted 2 [c!"pkg", c!"struct", c!"_x"] = c!"..pkg.struct._x" := by
  refine ⟨?_, by decide⟩
  simp only [List.mem_cons, List.not_mem_nil, or_false]
  rintro s (rfl | rfl | rfl) <;> (unfold PySegment; decide)

/-- A segment of any dotted Python name: not empty, no dot, not spelled `r#…`. -/
def Spec.AnySegment (s : Str) : Prop := s ≠ [] ∧ '.' ∉ s ∧ ¬ c!"r#" <+: s

/-- **C03**, exactly: the text survives iff no segment is called `super`. -/
theorem C03_roundtrip_iff (E : Env) (dots : Nat) (segs : List Str) (hne : segs ≠ []) (h : ∀ s ∈ segs, AnySegment s) :
    (Path.fromPy E (dotted dots segs)).toPy = dotted dots segs ↔ c!"super" ∉ segs := by
  constructor
  · intro he hs
    rw [fromPy_dotted' E dots hne fun s hs => ⟨(h s hs).1, (h s hs).2.1⟩, Path.toPy] at he
    have hd : dotted dots segs = Str.join c!"." (List.replicate dots [] ++ segs) := by
      rw [Str.join_replicate_nil _ _ hne, dotted]
      congr 1
      induction dots with
      | zero => rfl
      | succ n ih => simp [List.replicate_succ]
    rw [hd] at he
    have h1 : ∀ s ∈ List.replicate dots [] ++ segs, '.' ∉ s := by
      intro s hs
      rcases List.mem_append.mp hs with hs | hs
      · rw [List.eq_of_mem_replicate hs]; simp
      · exact (h s hs).2.1
    have hl : ((List.replicate dots (Ident.fromRs c!"super") ++ segs.map (Ident.fromPy E)).map Ident.asPy).map
        (fun s => if s = c!"super" then [] else s) =
        List.replicate dots [] ++ segs.map (fun s => if s = c!"super" then [] else s) := by
      simp only [List.map_append, List.map_replicate, List.map_map, superIdent_asPy, if_true]
      congr 1
      refine List.map_congr_left fun s hs => ?_
      simp only [Function.comp, asPy_fromPy E (h s hs).2.2]
    rw [hl] at he
    have h2 : ∀ s ∈ List.replicate dots [] ++ segs.map (fun s => if s = c!"super" then [] else s), '.' ∉ s := by
      intro s hs
      rcases List.mem_append.mp hs with hs | hs
      · rw [List.eq_of_mem_replicate hs]; simp
      · obtain ⟨x, hx, rfl⟩ := List.mem_map.mp hs
        split
        · simp
        · exact (h x hx).2.1
    have e := congrArg (Str.splitChar '.') he
    rw [Str.splitChar_join (by simp [hne]) h2, Str.splitChar_join (by simp [hne]) h1, List.append_cancel_left_eq] at e
    have e2 : segs.map (fun s => if s = c!"super" then [] else s) = segs.map id := by rw [e, List.map_id]
    have e3 := List.map_inj_left.mp e2 c!"super" hs
    simp at e3
  · intro hs
    refine toPy_fromPy E dots hne fun s hm => ⟨(h s hm).1, (h s hm).2.1, (h s hm).2.2, ?_⟩
    rintro rfl
    exact hs hm

/-- **C03**: one Rust segment per Python segment, one `super` per leading dot, in order. -/
theorem C03_segments (E : Env) (dots : Nat) (segs : List Str) (hne : segs ≠ [])
    (h : ∀ s ∈ segs, AnySegment s) :
    ((Path.fromPy E (dotted dots segs)).segs.map Ident.asPy) =
      List.replicate dots c!"super" ++ segs := by
  rw [fromPy_dotted' E dots hne fun s hs => ⟨(h s hs).1, (h s hs).2.1⟩]
  simp only [List.map_append, List.map_replicate, superIdent_asPy, List.map_map]
  congr 1
  rw [List.map_congr_left (g := id), List.map_id]
  intro s hs
  simp [asPy_fromPy E (h s hs).2.2]

/-- **C03**: distinct dotted names become distinct paths, even with segments called `super`. -/
theorem C03_injective (E : Env) (m n : Nat) (a b : List Str) (ha : a ≠ []) (hb : b ≠ [])
    (h : ∀ s ∈ a, AnySegment s) (h' : ∀ s ∈ b, AnySegment s)
    (he : Path.fromPy E (dotted m a) = Path.fromPy E (dotted n b)) : m = n ∧ a = b := by
  have hs := C03_segments E m a ha h
  have hs' := C03_segments E n b hb h'
  rw [fromPy_dotted' E m ha fun s hs => ⟨(h s hs).1, (h s hs).2.1⟩,
    fromPy_dotted' E n hb fun s hs => ⟨(h' s hs).1, (h' s hs).2.1⟩] at he
  injection he with _ he
  have hmn : m = n := by
    clear hs hs' ha hb h h'
    induction m generalizing n with
    | zero =>
      cases n with
      | zero => rfl
      | succ n =>
        cases a with
        | nil => simp [List.replicate_succ] at he
        | cons x a =>
          simp only [List.replicate_zero, List.nil_append, List.map_cons, List.replicate_succ, List.cons_append,
            List.cons.injEq] at he
          exact absurd (Or.inr (Or.inl (congrArg Ident.rs he.1))) (fromPy_not_path E x)
    | succ m ih =>
      cases n with
      | zero =>
        cases b with
        | nil => simp [List.replicate_succ] at he
        | cons x b =>
          simp only [List.replicate_zero, List.nil_append, List.map_cons, List.replicate_succ, List.cons_append,
            List.cons.injEq] at he
          exact absurd (Or.inr (Or.inl (congrArg Ident.rs he.1.symm))) (fromPy_not_path E x)
      | succ n =>
        simp only [List.replicate_succ, List.cons_append, List.cons.injEq, true_and] at he
        rw [ih n he]
  subst hmn
  refine ⟨rfl, ?_⟩
  rw [List.append_cancel_left_eq] at he
  have e := congrArg (List.map Ident.asPy) he
  have key : ∀ l : List Str, (∀ s ∈ l, AnySegment s) → (l.map (Ident.fromPy E)).map Ident.asPy = l := by
    intro l hl
    rw [List.map_map, List.map_congr_left (g := id), List.map_id]
    intro s hs
    exact asPy_fromPy E (hl s hs).2.2
  rwa [key a h, key b h'] at e

example : (∀ s ∈ [c!"a", c!"super", c!"struct"], AnySegment s) ∧ dotted 1 [c!"a", c!"super", c!"struct"] = c!".a.super.struct" ∧
    Path.fromPy (.ascii true false) c!"a.b" ≠ Path.fromPy (.ascii true false) c!".a.b" := by
  refine ⟨?_, by decide, by decide⟩
  simp only [List.mem_cons, List.not_mem_nil, or_false]
  rintro s (rfl | rfl | rfl) <;> (unfold Spec.AnySegment; decide)

/-- **C03**: the Rust spelling of a path survives printing and parsing, for segments without colons. -/
theorem C03_rust_roundtrip (p : Path) (hne : p.segs ≠ [])
    (h : ∀ i ∈ p.segs, i.rs ≠ [] ∧ ':' ∉ i.rs) : Path.fromRs p.toRs = p := by
  have hsplit : ∀ (a : Str), ':' ∉ a → ∀ s, Str.splitColons (a ++ ':' :: ':' :: s) = a :: Str.splitColons s := by
    intro a ha s
    induction a with
    | nil => simp [Str.splitColons]
    | cons c a ih =>
      simp only [List.mem_cons, not_or] at ha
      have : Str.splitColons (c :: (a ++ ':' :: ':' :: s)) = Str.consHead c (Str.splitColons (a ++ ':' :: ':' :: s)) := by
        rw [Str.splitColons]
        rintro cs rfl
        exact absurd rfl ha.1
      rw [List.cons_append, this, ih ha.2]; rfl
  have hsplit1 : ∀ (a : Str), ':' ∉ a → Str.splitColons a = [a] := by
    intro a ha
    induction a with
    | nil => simp [Str.splitColons]
    | cons c a ih =>
      simp only [List.mem_cons, not_or] at ha
      have : Str.splitColons (c :: a) = Str.consHead c (Str.splitColons a) := by
        rw [Str.splitColons]
        rintro cs rfl
        exact absurd rfl ha.1
      rw [this, ih ha.2]; rfl
  have hjoin : ∀ l : List Str, l ≠ [] → (∀ s ∈ l, ':' ∉ s) → Str.splitColons (Str.join c!"::" l) = l := by
    intro l hl hs
    induction l with
    | nil => exact absurd rfl hl
    | cons a l ih =>
      cases l with
      | nil => simpa [Str.join] using hsplit1 a (hs a (by simp))
      | cons b l =>
        have : Str.join c!"::" (a :: b :: l) = a ++ ':' :: ':' :: Str.join c!"::" (b :: l) := by simp [Str.join]
        rw [this, hsplit a (hs a (by simp)), ih (by simp) (fun s h => hs s (by simp [h]))]
  obtain ⟨lc, segs⟩ := p
  simp only at hne h
  have hm : ∀ s ∈ segs.map Ident.rs, s ≠ [] ∧ ':' ∉ s := by
    intro s hs
    obtain ⟨i, hi, rfl⟩ := List.mem_map.mp hs
    exact h i hi
  have hf : (segs.map Ident.rs).filter (· ≠ []) = segs.map Ident.rs := by
    rw [List.filter_eq_self]; intro s hs; simpa using (hm s hs).1
  have hback : (segs.map Ident.rs).map Ident.fromRs = segs := by
    rw [List.map_map]
    conv_rhs => rw [← List.map_id segs]
    rfl
  have hmne : segs.map Ident.rs ≠ [] := by simpa using hne
  cases lc with
  | false =>
    have e : Path.toRs ⟨false, segs⟩ = Str.join c!"::" (segs.map Ident.rs) := by simp [Path.toRs]
    have hs := hjoin _ hmne (fun s hs => (hm s hs).2)
    rw [e, Path.fromRs]
    rw [if_neg]
    · rw [hs, hf, hback]
      congr 1
      rw [Bool.eq_false_iff, ne_eq, Str.startsWith_iff]
      rintro ⟨t, ht⟩
      cases segs with
      | nil => exact absurd rfl hne
      | cons i segs =>
        have hi := hm i.rs (by simp)
        have : ∃ u, Str.join c!"::" ((i :: segs).map Ident.rs) = i.rs ++ u := by
          cases segs with
          | nil => exact ⟨[], by simp [Str.join]⟩
          | cons j segs => exact ⟨c!"::" ++ Str.join c!"::" ((j :: segs).map Ident.rs), by simp [Str.join]⟩
        obtain ⟨u, hu⟩ := this
        rw [hu] at ht
        cases hrs : i.rs with
        | nil => exact hi.1 hrs
        | cons c r =>
          rw [hrs] at ht hi
          simp only [List.cons_append, List.cons.injEq] at ht
          rw [← ht.1] at hi
          exact hi.2 (by simp)
    · intro h0
      rw [h0] at hs
      simp only [Str.splitColons] at hs
      rw [← hs] at hm
      exact (hm [] (by simp)).1 rfl
  | true =>
    have e : Path.toRs ⟨true, segs⟩ = ':' :: ':' :: Str.join c!"::" (segs.map Ident.rs) := by
      simp only [Path.toRs, if_true, List.replicate_one, List.cons_append, List.nil_append]
      rw [Str.join_cons_of_ne_nil _ _ hmne]
      rfl
    rw [e, Path.fromRs, if_neg (by simp)]
    simp only [Str.splitColons, hjoin _ hmne (fun s hs => (hm s hs).2)]
    rw [List.filter_cons_of_neg (by simp), hf, hback]
    congr 1

example : let p : Path := ⟨true, [⟨c!"pkg"⟩, ⟨c!"r#struct"⟩]⟩
    p.segs ≠ [] ∧ (∀ i ∈ p.segs, i.rs ≠ [] ∧ ':' ∉ i.rs) ∧ p.toRs = c!"::pkg::r#struct" := by decide

/-- **C03**, hypotheses are needed: a segment called `super` is lost, and so are paths made of dots only. -/
theorem C03_super_counterexample :
    (Path.fromPy (.ascii true false) c!"a.super.b").toPy = c!"a..b" ∧
    (Path.fromPy (.ascii true false) c!"..").toPy = c!"." ∧
    Path.fromPy (.ascii true false) c!"a.super.b" ≠ Path.fromPy (.ascii true false) c!"a.b" := by decide

/-! ## C04 -/

/-- **C04**: the order on paths is a total preorder given by the printed Python path. -/
theorem C04_total_order (a b c : Path) :
    Path.le a a = true ∧ (Path.le a b = true ∨ Path.le b a = true) ∧
    (Path.le a b = true → Path.le b c = true → Path.le a c = true) ∧
    ((Path.le a b = true ∧ Path.le b a = true) ↔ a.toPy = b.toPy) := by
  refine ⟨Str.le_refl _, Str.le_total _ _, Str.le_trans, ?_⟩
  constructor
  · rintro ⟨h, h'⟩; exact Str.le_antisymm h h'
  · intro h; unfold Path.le; rw [h]; exact ⟨Str.le_refl _, Str.le_refl _⟩

/-- **C04**: two ordinary module paths compare equal exactly when they are the same path. -/
theorem C04_equal_iff (E : Env) (m n : Nat) (a b : List Str) (ha : a ≠ []) (hb : b ≠ [])
    (h : ∀ s ∈ a, PySegment s) (h' : ∀ s ∈ b, PySegment s) :
    (Path.le (Path.fromPy E (dotted m a)) (Path.fromPy E (dotted n b)) = true ∧
      Path.le (Path.fromPy E (dotted n b)) (Path.fromPy E (dotted m a)) = true) ↔
    Path.fromPy E (dotted m a) = Path.fromPy E (dotted n b) := by
  rw [(C04_total_order _ _ (Path.fromPy E [])).2.2.2]
  constructor
  · intro he
    rw [toPy_fromPy E m ha h, toPy_fromPy E n hb h'] at he
    rw [he]
  · intro he; rw [he]

example : Path.le (Path.fromPy (.ascii true false) c!"a.b") (Path.fromPy (.ascii true false) c!"a.c") = true ∧
    Path.le (Path.fromPy (.ascii true false) c!"a.c") (Path.fromPy (.ascii true false) c!"a.b") = false := by decide

/-- **C04**: in every sorted list of paths, everything between two paths that print the same prints the same:
duplicates are adjacent. -/
theorem C04_sorted_groups (l : List Path) (hs : l.Pairwise (fun a b => Path.le a b = true))
    (i j k : Nat) (hij : i ≤ j) (hjk : j ≤ k) (hk : k < l.length)
    (he : (l[i]'(by omega)).toPy = l[k].toPy) : (l[j]'(by omega)).toPy = l[k].toPy := by
  have le_of : ∀ x y (hx : x < l.length) (hy : y < l.length), x ≤ y → Path.le l[x] l[y] = true := by
    intro x y hx hy hxy
    rcases Nat.lt_or_ge x y with h | h
    · exact List.pairwise_iff_getElem.mp hs x y hx hy h
    · have : x = y := by omega
      subst this; exact Str.le_refl _
  have h1 := le_of i j (by omega) (by omega) hij
  have h2 := le_of j k (by omega) hk hjk
  apply Str.le_antisymm h2
  unfold Path.le at h1
  rwa [he] at h1

/-- **C04**: sorting any list of paths with the code's comparison produces such a list. -/
theorem C04_sort_groups (l : List Path) (i j k : Nat) (hij : i ≤ j) (hjk : j ≤ k)
    (hk : k < (sortBy Path.le l).length)
    (he : ((sortBy Path.le l)[i]'(by omega)).toPy = (sortBy Path.le l)[k].toPy) :
    ((sortBy Path.le l)[j]'(by omega)).toPy = (sortBy Path.le l)[k].toPy := by
  refine C04_sorted_groups _ ?_ i j k hij hjk hk he
  exact sortBy_pairwise Path.le (fun a b c h h' => Str.le_trans (s := a.toPy) h h') (fun a b => Str.le_total a.toPy b.toPy) l

example : (sortBy Path.le ([c!"b", c!"a", c!"b"].map (Path.fromPy (.ascii true false)))).map Path.toPy
    = [c!"a", c!"b", c!"b"] := by decide

/-! ## C05 -/

theorem resolveNames_append (cur l : List Str)
    (h : ∀ s ∈ l, ¬ (s = c!"self" ∨ s = c!"super" ∨ s = c!"Self" ∨ s = c!"crate")) :
    resolveNames cur l = some (cur ++ l) := by
  induction l generalizing cur with
  | nil => simp [resolveNames]
  | cons s l ih =>
    rw [resolveNames, if_neg (h s (by simp)), ih _ (fun t ht => h t (by simp [ht]))]
    simp

theorem resolveSupers_names (cur l : List Str)
    (h : ∀ s ∈ l, ¬ (s = c!"self" ∨ s = c!"super" ∨ s = c!"Self" ∨ s = c!"crate")) :
    resolveSupers cur l = some (cur ++ l) := by
  cases l with
  | nil => simp [resolveSupers]
  | cons s l =>
    have hs := h s (by simp)
    rw [not_or, not_or] at hs
    rw [resolveSupers, if_neg hs.2.1, resolveNames_append _ _ h]

theorem resolveSupers_supers (n : Nat) (cur l : List Str) (hn : n ≤ cur.length) :
    resolveSupers cur (List.replicate n c!"super" ++ l) = resolveSupers (cur.take (cur.length - n)) l := by
  induction n generalizing cur with
  | zero => simp
  | succ n ih =>
    rw [List.replicate_succ, List.cons_append, resolveSupers, if_pos rfl,
      if_neg (by intro h; rw [h] at hn; simp at hn), ih _ (by simp; omega)]
    congr 1
    rw [List.dropLast_eq_take, List.take_take]
    congr 1
    simp; omega

/-- Ordinary Rust names: none of the path keywords. -/
def Plain (p : Path) : Prop :=
  ∀ i ∈ p.segs, ¬ (i.rs = c!"self" ∨ i.rs = c!"super" ∨ i.rs = c!"Self" ∨ i.rs = c!"crate")

/-- **C05**: for every module `M` and every non-empty target `T`, the generated relative path exists, and resolving it by
the rules of Rust in module `M` gives `T` without leaving the root of the tree — in both modes. -/
theorem C05_relative_resolves (M T : Path) (full : Bool) (hM : M.leadingColon = false)
    (hT : T.leadingColon = false) (hne : T.segs ≠ []) (hp : Plain T) :
    ∃ p, Path.relativeTo M T full = .ok p ∧ p.leadingColon = false ∧
      resolve (M.segs.map Ident.rs) (p.segs.map Ident.rs) = some (T.segs.map Ident.rs) := by
  obtain ⟨n, hn⟩ : ∃ n, T.name? = some n := by
    have := List.getLast?_eq_some_getLast hne
    exact ⟨_, this⟩
  have hTlast : T.segs = T.segs.dropLast ++ [n] := by
    have h1 := List.getLast?_eq_some_getLast hne
    rw [Path.name?, h1, Option.some.injEq] at hn
    rw [← hn, List.dropLast_concat_getLast]
  have hplain : ∀ s ∈ T.segs.map Ident.rs,
      ¬ (s = c!"self" ∨ s = c!"super" ∨ s = c!"Self" ∨ s = c!"crate") := by
    intro s hs; obtain ⟨i, hi, rfl⟩ := List.mem_map.mp hs; exact hp i hi
  have hnn : n.rs ∈ T.segs.map Ident.rs := by
    rw [hTlast]; simp
  have hname : T.name = .ok n := by simp [Path.name, hn, Res.ofOption]
  have hs1 : c!"super" ≠ c!"self" := by decide
  by_cases heq : M = T
  · subst heq
    cases full with
    | true =>
      refine ⟨⟨false, [Ident.fromRs c!"super", n]⟩, by simp [Path.relativeTo, hname, bind, Except.bind, pure, Except.pure], rfl, ?_⟩
      simp only [List.map_cons, List.map_nil, Ident.fromRs, resolve]
      rw [if_neg hs1, resolveSupers, if_pos rfl, if_neg (by simpa using hne),
        resolveSupers_names _ _ (by intro s hs; simp only [List.mem_singleton] at hs; subst hs; exact hplain _ hnn)]
      conv_rhs => rw [hTlast]
      simp [List.map_dropLast]
    | false =>
      exact ⟨⟨false, [Ident.fromRs c!"self"]⟩, by simp [Path.relativeTo, pure, Except.pure], rfl, by simp [resolve, resolveSupers, Ident.fromRs]⟩
  · have hsegs : M.segs ≠ T.segs := by
      
      intro h; apply heq
      obtain ⟨m1, m2⟩ := M
      obtain ⟨t1, t2⟩ := T
      simp only at hM hT h
      rw [hM, hT, h]
    have hk := commonPrefixLen_le_left M.segs T.segs
    have hk' := commonPrefixLen_le_right M.segs T.segs
    have htake := commonPrefixLen_take M.segs T.segs
    generalize hkd : Path.commonPrefixLen M.segs T.segs = k at hk hk' htake
    have hdrop : ∀ s ∈ (T.segs.drop k).map Ident.rs,
        ¬ (s = c!"self" ∨ s = c!"super" ∨ s = c!"Self" ∨ s = c!"crate") := by
      intro s hs; apply hplain
      obtain ⟨i, hi, rfl⟩ := List.mem_map.mp hs
      exact List.mem_map.mpr ⟨i, List.mem_of_mem_drop hi, rfl⟩
    have hT2 : (M.segs.take k).map Ident.rs ++ (T.segs.drop k).map Ident.rs = T.segs.map Ident.rs := by
      rw [htake, ← List.map_append, List.take_append_drop]
    have hlast : ∀ l : List Ident, T.segs.drop k ≠ [] →
        ((l ++ T.segs.drop k).getLast?.map Ident.rs) ≠ some c!"super" := by
      intro l hd
      rw [List.getLast?_append, List.getLast?_eq_some_getLast hd, Option.some_or, Option.map_some]
      intro h
      have hmem : (T.segs.drop k).getLast hd ∈ T.segs := List.mem_of_mem_drop (List.getLast_mem hd)
      have := hp _ hmem
      simp only [Option.some.injEq] at h
      exact this (Or.inr (Or.inl h))
    by_cases hlt : k < M.segs.length
    · -- climb with `super`
      have hrel : Path.relativeSegs M T full =
          List.replicate (M.segs.length - k) (Ident.fromRs c!"super") ++ T.segs.drop k := by
        simp [Path.relativeSegs, hkd, hlt]
      have hres : resolve (M.segs.map Ident.rs)
          ((List.replicate (M.segs.length - k) (Ident.fromRs c!"super") ++ T.segs.drop k).map Ident.rs) =
          some (T.segs.map Ident.rs) := by
        obtain ⟨d, hd⟩ : ∃ d, M.segs.length - k = d + 1 := ⟨M.segs.length - k - 1, by omega⟩
        have hform : (List.replicate (M.segs.length - k) (Ident.fromRs c!"super") ++ T.segs.drop k).map Ident.rs
            = List.replicate (M.segs.length - k) c!"super" ++ (T.segs.drop k).map Ident.rs := by
          simp [Ident.fromRs]
        rw [hform]
        have : resolve (M.segs.map Ident.rs) (List.replicate (M.segs.length - k) c!"super" ++ (T.segs.drop k).map Ident.rs)
            = resolveSupers (M.segs.map Ident.rs) (List.replicate (M.segs.length - k) c!"super" ++ (T.segs.drop k).map Ident.rs) := by
          rw [hd, List.replicate_succ, List.cons_append, resolve, if_neg hs1]
        rw [this, resolveSupers_supers _ _ _ (by simp), resolveSupers_names _ _ hdrop]
        congr 1
        rw [← hT2, List.length_map, ← List.map_take]
        congr 3
        omega
      by_cases hdn : T.segs.drop k = []
      · cases full with
        | false =>
          refine ⟨⟨false, _⟩, ?_, rfl, hres⟩
          simp [Path.relativeTo, heq, hrel, pure, Except.pure]
        | true =>
          refine ⟨⟨false, (List.replicate (M.segs.length - k) (Ident.fromRs c!"super") ++ T.segs.drop k) ++ [Ident.fromRs c!"super", n]⟩, ?_, rfl, ?_⟩
          · have hl : ((List.replicate (M.segs.length - k) (Ident.fromRs c!"super")).getLast?.map Ident.rs) = some c!"super" := by
              rw [List.getLast?_replicate, if_neg (by omega)]; rfl
            simp only [Path.relativeTo, heq, if_false, hrel, hdn, List.append_nil, hl, Bool.true_and, decide_true, if_true, hname]
            rfl
          · obtain ⟨d, hd⟩ : ∃ d, M.segs.length - k = d + 1 := ⟨M.segs.length - k - 1, by omega⟩
            have hTl : T.segs.length = k := by
              have := congrArg List.length hdn; simp at this; omega
            have hT3 : M.segs.take k = T.segs := by rw [htake, ← hTl, List.take_length]
            have hkpos : 0 < k := by
              rw [← hTl]; exact List.length_pos_iff.mpr hne
            have hform : ((List.replicate (M.segs.length - k) (Ident.fromRs c!"super") ++ T.segs.drop k) ++ [Ident.fromRs c!"super", n]).map Ident.rs
                = List.replicate (M.segs.length - k + 1) c!"super" ++ [n.rs] := by
              simp [hdn, Ident.fromRs, List.replicate_succ', List.append_assoc]
            simp only
            rw [hform]
            have : resolve (M.segs.map Ident.rs) (List.replicate (M.segs.length - k + 1) c!"super" ++ [n.rs])
                = resolveSupers (M.segs.map Ident.rs) (List.replicate (M.segs.length - k + 1) c!"super" ++ [n.rs]) := by
              rw [List.replicate_succ, List.cons_append, resolve, if_neg hs1]
            rw [this, resolveSupers_supers _ _ _ (by simp; omega), resolveSupers_names _ _ (by
              intro s hs; simp only [List.mem_singleton] at hs; subst hs; exact hplain _ hnn)]
            congr 1
            rw [List.length_map, ← List.map_take]
            have e1 : M.segs.take (M.segs.length - (M.segs.length - k + 1)) = T.segs.dropLast := by
              rw [List.dropLast_eq_take, ← hT3, List.take_take, List.length_take]
              congr 1
              omega
            rw [e1]
            conv_rhs => rw [hTlast]
            simp
      · refine ⟨⟨false, _⟩, ?_, rfl, hres⟩
        have := hlast (List.replicate (M.segs.length - k) (Ident.fromRs c!"super")) hdn
        simp only [Path.relativeTo, heq, if_false, hrel, this, decide_false, Bool.and_false, Bool.false_eq_true]
        rfl
    · have hkM : k = M.segs.length := by omega
      have hdn : T.segs.drop k ≠ [] := by
        intro h0
        apply hsegs
        have hl : T.segs.length ≤ k := by simpa using h0
        have := htake
        rw [hkM, List.take_length] at this
        rw [this, List.take_of_length_le (by omega)]
      have hres0 : resolveSupers (M.segs.map Ident.rs) ((T.segs.drop k).map Ident.rs) = some (T.segs.map Ident.rs) := by
        rw [resolveSupers_names _ _ hdrop, ← hT2, hkM, List.take_length]
      cases full with
      | true =>
        have hrel : Path.relativeSegs M T true = Ident.fromRs c!"self" :: T.segs.drop k := by
          simp [Path.relativeSegs, hkd, hkM]
        have := hlast [Ident.fromRs c!"self"] hdn
        refine ⟨⟨false, Ident.fromRs c!"self" :: T.segs.drop k⟩, ?_, rfl, ?_⟩
        · simp only [List.cons_append, List.nil_append] at this
          simp [Path.relativeTo, heq, hrel, this, pure, Except.pure]
        · simp only [List.map_cons, Ident.fromRs, resolve, if_true]
          exact hres0
      | false =>
        have hrel : Path.relativeSegs M T false = T.segs.drop k := by
          simp [Path.relativeSegs, hkd, hkM]
        refine ⟨⟨false, T.segs.drop k⟩, by simp [Path.relativeTo, heq, hrel, pure, Except.pure], rfl, ?_⟩
        simp only
        cases hdk : T.segs.drop k with
        | nil => exact absurd hdk hdn
        | cons i r =>
          rw [hdk] at hres0 hdrop
          have hi := hdrop i.rs (by simp)
          rw [not_or] at hi
          simp only [List.map_cons] at hres0 ⊢
          rw [resolve, if_neg hi.1]
          exact hres0

example : let M : Path := ⟨false, [⟨c!"a"⟩, ⟨c!"b"⟩, ⟨c!"c"⟩]⟩
    let T : Path := ⟨false, [⟨c!"a"⟩, ⟨c!"x"⟩]⟩
    Plain T ∧ Path.relativeTo M T true = .ok ⟨false, [⟨c!"super"⟩, ⟨c!"super"⟩, ⟨c!"x"⟩]⟩ := by
  refine ⟨?_, by decide⟩
  unfold Plain; decide

/-- **C05** in terms of Python names: any two absolute dotted names meet the hypotheses. -/
theorem C05_python (E : Env) (m t : List Str) (full : Bool) (hm : ∀ s ∈ m, s ≠ [] ∧ '.' ∉ s) (hne : t ≠ [])
    (ht : ∀ s ∈ t, s ≠ [] ∧ '.' ∉ s) :
    ∃ p, Path.relativeTo (Path.fromPy E (Str.join c!"." m)) (Path.fromPy E (Str.join c!"." t)) full = .ok p ∧
      resolve (m.map fun s => (Ident.fromPy E s).rs) (p.segs.map Ident.rs) = some (t.map fun s => (Ident.fromPy E s).rs) := by
  have hT := fromPy_dotted' E 0 hne ht
  simp only [dotted, List.replicate_zero, List.nil_append] at hT
  have hM : Path.fromPy E (Str.join c!"." m) = ⟨false, m.map (Ident.fromPy E)⟩ := by
    by_cases h0 : m = []
    · subst h0; rfl
    · have := fromPy_dotted' E 0 h0 hm
      simpa [dotted] using this
  rw [hT, hM]
  obtain ⟨p, h1, -, h2⟩ := C05_relative_resolves ⟨false, m.map (Ident.fromPy E)⟩ ⟨false, t.map (Ident.fromPy E)⟩ full rfl rfl
    (by simpa using hne) (fun i hi => by
      obtain ⟨s, -, rfl⟩ := List.mem_map.mp hi
      exact fromPy_not_path E s)
  refine ⟨p, h1, ?_⟩
  simpa [List.map_map, Function.comp_def] using h2

example : (∀ s ∈ [c!"pkg", c!"type"], s ≠ [] ∧ '.' ∉ s) ∧
    Path.relativeTo (Path.fromPy (.ascii true false) c!"pkg.sub") (Path.fromPy (.ascii true false) c!"pkg.type") true =
      .ok ⟨false, [⟨c!"super"⟩, ⟨c!"r#type"⟩]⟩ := by decide

/-- **C05**, `T` must not be empty: relative to the root, the disambiguated path panics. -/
theorem C05_empty_target_panics :
    (Path.relativeTo ⟨false, [⟨c!"a"⟩]⟩ Path.empty true) = .error (.panic .unwrap) := by decide

/-! ## C07 -/

/-- The package imported by an expression. -/
def Spec.objPackage : Obj → Option Str
  | .self => none
  | .import p => some p
  | .getattr o _ => Spec.objPackage o

/-- The attributes read by an expression, outermost last. -/
def Spec.objAttrs : Obj → List Str
  | .self => []
  | .import _ => []
  | .getattr o n => Spec.objAttrs o ++ [n]

theorem objPackage_foldl (l : List Str) (o : Obj) : objPackage (l.foldl Obj.getattr o) = objPackage o := by
  induction l generalizing o with
  | nil => rfl
  | cons a l ih => simp [ih, objPackage]

theorem objAttrs_foldl (l : List Str) (o : Obj) : objAttrs (l.foldl Obj.getattr o) = objAttrs o ++ l := by
  induction l generalizing o with
  | nil => simp
  | cons a l ih => simp [ih, objAttrs]

theorem lastPackage_some {imp : Str → Bool} {segs : List Ident} {n i : Nat}
    (h : Path.lastPackage imp segs n = some i) :
    1 ≤ i ∧ i ≤ n ∧ imp (Path.toPy (Path.ofSegs (segs.take i))) = true ∧
      ∀ j, i < j → j ≤ n → imp (Path.toPy (Path.ofSegs (segs.take j))) = false := by
  induction n with
  | zero => simp [Path.lastPackage] at h
  | succ n ih =>
    simp only [Path.lastPackage] at h
    split at h
    · rename_i hi
      simp only [Option.some.injEq] at h
      subst h
      exact ⟨by omega, Nat.le_refl _, hi, fun j h1 h2 => by omega⟩
    · rename_i hi
      obtain ⟨h1, h2, h3, h4⟩ := ih h
      refine ⟨h1, by omega, h3, fun j hj1 hj2 => ?_⟩
      rcases Nat.lt_or_ge n j with hj | hj
      · have : j = n + 1 := by omega
        subst this; simpa using hi
      · exact h4 j hj1 hj

theorem lastPackage_none {imp : Str → Bool} {segs : List Ident} {n : Nat}
    (h : Path.lastPackage imp segs n = none) :
    ∀ j, 1 ≤ j → j ≤ n → imp (Path.toPy (Path.ofSegs (segs.take j))) = false := by
  induction n with
  | zero => intro j h1 h2; omega
  | succ n ih =>
    simp only [Path.lastPackage] at h
    split at h
    · simp at h
    · rename_i hi
      intro j h1 h2
      rcases Nat.lt_or_ge n j with hj | hj
      · have : j = n + 1 := by omega
        subst this; simpa using hi
      · exact ih h j h1 hj

/-- **C07**: the import expression of a non-empty path imports the Python name of its first `i` segments and reads the
remaining segments as attributes, in order; `i` is the largest importable *proper* prefix, or 1 when there is none. -/
theorem C07_import_walks_path (imp : Str → Bool) (p : Path) (hne : p.segs ≠ []) (hc : p.leadingColon = false) :
    ∃ o i, Path.importQuote imp p = .ok o ∧ 1 ≤ i ∧ i ≤ p.segs.length ∧
      objPackage o = some (Path.toPy ⟨false, p.segs.take i⟩) ∧
      objAttrs o = (p.segs.drop i).map Ident.asPy ∧
      (∀ j, i < j → j < p.segs.length → imp (Path.toPy ⟨false, p.segs.take j⟩) = false) ∧
      (i < p.segs.length ∧ imp (Path.toPy ⟨false, p.segs.take i⟩) = true ∨
        i = 1 ∧ ∀ j, 1 ≤ j → j < p.segs.length → imp (Path.toPy ⟨false, p.segs.take j⟩) = false) := by
  obtain ⟨lc, segs⟩ := p
  simp only at hne hc
  subst hc
  cases segs with
  | nil => exact absurd rfl hne
  | cons a segs =>
    simp only [Path.importQuote, Path.root]
    cases hl : Path.lastPackage imp (a :: segs) ((a :: segs).length - 1) with
    | some i =>
      obtain ⟨h1, h2, h3, h4⟩ := lastPackage_some hl
      refine ⟨_, i, rfl, h1, by simp at h2 ⊢; omega, ?_, ?_, ?_, Or.inl ⟨by simp at h2 ⊢; omega, h3⟩⟩
      · rw [objPackage_foldl]; rfl
      · rw [objAttrs_foldl]; simp [objAttrs]
      · intro j hj1 hj2; exact h4 j hj1 (by simp at hj2 ⊢; omega)
    | none =>
      have h0 := lastPackage_none hl
      refine ⟨_, 1, rfl, Nat.le_refl _, by simp, ?_, ?_, ?_, Or.inr ⟨rfl, ?_⟩⟩
      · rw [objPackage_foldl]; rfl
      · rw [objAttrs_foldl]; simp [objAttrs]
      · intro j hj1 hj2; exact h0 j (by omega) (by simp at hj2 ⊢; omega)
      · intro j hj1 hj2; exact h0 j hj1 (by simp at hj2 ⊢; omega)

/-- **C07**: package and attributes together are exactly the Python path. -/
theorem C07_python_path (E : Env) (imp : Str → Bool) (segs : List Str) (hne : segs ≠ [])
    (h : ∀ s ∈ segs, PySegment s) :
    ∃ o pkg, Path.importQuote imp (Path.fromPy E (Str.join c!"." segs)) = .ok o ∧
      objPackage o = some pkg ∧ Str.join c!"." (pkg :: objAttrs o) = Str.join c!"." segs := by
  have hp : Path.fromPy E (Str.join c!"." segs) = ⟨false, segs.map (Ident.fromPy E)⟩ := by
    have := fromPy_dotted E 0 hne h
    simpa [dotted] using this
  obtain ⟨o, i, ho, h1, h2, h3, h4, -⟩ := C07_import_walks_path imp (Path.fromPy E (Str.join c!"." segs))
    (by rw [hp]; simpa using hne) (by rw [hp])
  rw [hp] at h2 h3 h4
  simp only [List.length_map] at h2
  have hpy : ∀ l : List Str, (∀ s ∈ l, PySegment s) → (l.map (Ident.fromPy E)).map Ident.asPy = l := by
    intro l hl
    rw [List.map_map]
    conv_rhs => rw [← List.map_id l]
    apply List.map_congr_left
    intro s hs; simp [asPy_fromPy E (hl s hs).2.2.1]
  refine ⟨o, _, ho, h3, ?_⟩
  rw [h4]
  simp only [← List.map_take, ← List.map_drop]
  rw [hpy _ (fun s hs => h s (List.mem_of_mem_drop hs))]
  have ht : Path.toPy ⟨false, (segs.take i).map (Ident.fromPy E)⟩ = Str.join c!"." (segs.take i) := by
    have hs := toPy_segs E 0 (segs := segs.take i) (fun s hs => h s (List.mem_of_mem_take hs))
    simp only [List.replicate_zero, List.nil_append] at hs
    simp only [Path.toPy, hs]
  rw [ht]
  have happ : ∀ (a b : List Str), a ≠ [] → Str.join c!"." (Str.join c!"." a :: b) = Str.join c!"." (a ++ b) := by
    intro a b ha
    induction a with
    | nil => exact absurd rfl ha
    | cons x a ih =>
      cases a with
      | nil => rfl
      | cons y a =>
        have ih := ih (by simp)
        cases b with
        | nil => simp [Str.join]
        | cons z b =>
          simp only [List.cons_append] at ih ⊢
          rw [Str.join_cons_cons c!"." x y (a ++ z :: b), ← ih, Str.join_cons_cons, Str.join_cons_cons, Str.join_cons_cons]
          simp only [List.append_assoc]
  rw [happ _ _ (by
    intro h0
    have := congrArg List.length h0
    simp at this
    rcases this with rfl | h'
    · omega
    · exact hne (List.length_eq_zero_iff.mp (by simp [h']))), List.take_append_drop]

example : Path.importQuote (fun s => s = c!"a" || s = c!"a.b" || s = c!"a.b.c")
    (Path.fromPy (.ascii true false) c!"a.b.c") = .ok (.getattr (.import c!"a.b") c!"c") := by decide

/-- **C07**: for the empty path there is nothing to import and the code panics. -/
theorem C07_empty_panics (imp : Str → Bool) : Path.importQuote imp Path.empty = .error (.panic .unreachable) := rfl

end Bindgen

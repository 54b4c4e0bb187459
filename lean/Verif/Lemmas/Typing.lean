import Mathlib.Tactic.Common
import Verif.Lemmas.Str
import Verif.Lemmas.Text
import Verif.Lemmas.Res
/-! # Lemmas about annotation strings -/
namespace Bindgen

/-! ## Separator repair -/

theorem usizeSub_calm (E : Env) (n : Int) (m : Nat) : Calm (usizeSub E n m) := by
  unfold usizeSub
  split
  · exact Calm.panic (by decide)
  · exact Calm.ok _

theorem usizeSub_ok {E : Env} {n : Int} {m : Nat} {r : Int} (h : usizeSub E n m = .ok r) : r = n - m := by
  unfold usizeSub at h
  split at h
  · cases h
  · cases h; rfl

theorem repairScan_calm (E : Env) (n : Int) (l : List Str) : Calm (repairScan E n l) := by
  induction l generalizing n with
  | nil => exact Calm.ok _
  | cons y ys ih =>
    unfold repairScan
    refine Calm.bind (usizeSub_calm ..) (fun m _ => ?_)
    split
    · exact Calm.ok _
    · exact Calm.bind (ih m) (fun _ _ => Calm.ok _)

theorem repairScan_bounds {E : Env} {n : Int} {l : List Str} {k : Nat} (h : repairScan E n l = .ok (some k)) :
    1 ≤ k ∧ k ≤ l.length := by
  induction l generalizing n k with
  | nil => cases h
  | cons y ys ih =>
    unfold repairScan at h
    obtain ⟨m, -, h⟩ := Res.bind_ok h
    split at h
    · cases h; simp
    · obtain ⟨r, hr, h⟩ := Res.bind_ok h
      cases r with
      | none => cases h
      | some j =>
        cases h
        have := ih hr
        simp only [List.length_cons]
        omega

theorem repairGo_calm (E : Env) (sep : Char) (fuel : Nat) (l : List Str) (h : l.length < fuel) :
    Calm (repairGo E sep fuel l) := by
  induction fuel generalizing l with
  | zero => omega
  | succ fuel ih =>
    match l with
    | [] => exact Calm.ok _
    | [x] => exact Calm.ok _
    | x :: y :: ys =>
      simp only [List.length_cons] at h
      unfold repairGo
      refine Calm.bind (usizeSub_calm ..) (fun n _ => ?_)
      split
      · exact Calm.bind (ih _ (by simp only [List.length_cons]; omega)) (fun _ _ => Calm.ok _)
      · refine Calm.bind (repairScan_calm ..) (fun k hk => ?_)
        cases k with
        | none => exact Calm.bind (ih _ (by simp only [List.length_cons]; omega)) (fun _ _ => Calm.ok _)
        | some k =>
          have hb := repairScan_bounds hk
          simp only
          split
          · apply ih
            simp only [List.length_cons, List.length_drop] at hb ⊢
            omega
          · exact Calm.ok _

theorem repair_calm (E : Env) (sep : Char) (l : List Str) : Calm (repair E sep l) := by
  unfold repair
  split
  · exact Calm.panic (by decide)
  · exact repairGo_calm E sep _ l (by omega)

/-- `join` of a list with a first group. -/
theorem join_append (sep : Str) {a : List Str} (ha : a ≠ []) (b : List Str) :
    Str.join sep (a ++ b) = Str.join sep (Str.join sep a :: b) := by
  induction a with
  | nil => exact absurd rfl ha
  | cons x a ih =>
    cases a with
    | nil => rfl
    | cons y a =>
      have := ih (by simp)
      simp only [List.cons_append] at this ⊢
      rw [Str.join_cons_cons, this]
      cases b with
      | nil => simp [Str.join]
      | cons z b => simp [Str.join]

theorem join_eq_flatMap (sep : Char) (x : Str) (l : List Str) :
    Str.join [sep] (x :: l) = x ++ l.flatMap (fun e => sep :: e) := by
  induction l generalizing x with
  | nil => simp [Str.join]
  | cons y l ih =>
    rw [Str.join_cons_cons, ih]
    simp

/-- The result of the repair is the input, grouped, with each group joined by the separator. -/
theorem repairGo_groups {E : Env} {sep : Char} {fuel : Nat} {l r : List Str}
    (h : repairGo E sep fuel l = .ok r) :
    ∃ gs : List (List Str), gs.flatten = l ∧ (∀ g ∈ gs, g ≠ []) ∧ r = gs.map (Str.join [sep]) := by
  induction fuel generalizing l r with
  | zero => cases h
  | succ fuel ih =>
    match l with
    | [] => cases h; exact ⟨[], rfl, by simp, rfl⟩
    | [x] => cases h; exact ⟨[[x]], rfl, by simp, rfl⟩
    | x :: y :: ys =>
      have keep : ∀ r', repairGo E sep fuel (y :: ys) = .ok r' → r = x :: r' →
          ∃ gs : List (List Str), gs.flatten = x :: y :: ys ∧ (∀ g ∈ gs, g ≠ []) ∧ r = gs.map (Str.join [sep]) := by
        intro r' h' he
        obtain ⟨gs, h1, h2, h3⟩ := ih h'
        refine ⟨[x] :: gs, by simp [h1], ?_, by rw [he, h3]; rfl⟩
        intro g hg
        rcases List.mem_cons.mp hg with rfl | hg
        · simp
        · exact h2 g hg
      unfold repairGo at h
      obtain ⟨n, -, h⟩ := Res.bind_ok h
      split at h
      · obtain ⟨r', h', h⟩ := Res.bind_ok h
        cases h
        exact keep r' h' rfl
      · obtain ⟨k, hk, h⟩ := Res.bind_ok h
        cases k with
        | none =>
          obtain ⟨r', h', h⟩ := Res.bind_ok h
          cases h
          exact keep r' h' rfl
        | some k =>
          simp only at h
          have hm : x ++ ((y :: ys).take k).flatMap (fun e => sep :: e) = Str.join [sep] (x :: (y :: ys).take k) :=
            (join_eq_flatMap sep x _).symm
          rw [hm] at h
          split at h
          · obtain ⟨gs, h1, h2, h3⟩ := ih h
            match gs with
            | [] => simp at h1
            | [] :: gs => exact absurd rfl (h2 [] (by simp))
            | (m :: g) :: gs =>
              simp only [List.flatten_cons, List.cons_append, List.cons.injEq] at h1
              refine ⟨(x :: (y :: ys).take k ++ g) :: gs, ?_, ?_, ?_⟩
              · have h12 : g ++ gs.flatten = (y :: ys).drop k := h1.2
                simp only [List.flatten_cons, List.cons_append, List.append_assoc]
                rw [h12, List.take_append_drop]
              · intro g' hg'
                rcases List.mem_cons.mp hg' with rfl | hg'
                · simp
                · exact h2 g' (by simp [hg'])
              · rw [h3, List.map_cons, List.map_cons, join_append _ (by simp), h1.1]
          · cases h
            refine ⟨(x :: (y :: ys).take k) :: ((y :: ys).drop k).map (fun e => [e]), ?_, ?_, ?_⟩
            · have : ∀ l : List Str, (l.map (fun e => [e])).flatten = l := by
                intro l; induction l with
                | nil => rfl
                | cons a l ih => simp [ih]
              rw [List.flatten_cons, this, List.cons_append, List.take_append_drop]
            · intro g hg
              rcases List.mem_cons.mp hg with rfl | hg
              · simp
              · obtain ⟨e, -, rfl⟩ := List.mem_map.mp hg
                simp
            · rw [List.map_cons, List.map_map]
              congr 1
              have : ∀ l : List Str, l = l.map (Str.join [sep] ∘ fun e => [e]) := by
                intro l; induction l with
                | nil => rfl
                | cons a l ih => rw [List.map_cons, ← ih]; rfl
              exact this _

theorem repair_groups {E : Env} {sep : Char} {l r : List Str} (h : repair E sep l = .ok r) :
    ∃ gs : List (List Str), gs.flatten = l ∧ (∀ g ∈ gs, g ≠ []) ∧ r = gs.map (Str.join [sep]) := by
  unfold repair at h
  split at h
  · cases h
  · exact repairGo_groups h

theorem join_groups (sep : Str) {gs : List (List Str)} (h : ∀ g ∈ gs, g ≠ []) :
    Str.join sep (gs.map (Str.join sep)) = Str.join sep gs.flatten := by
  induction gs with
  | nil => rfl
  | cons g gs ih =>
    have ih' := ih (fun g' hg' => h g' (by simp [hg']))
    rw [List.flatten_cons, join_append _ (h g (by simp)), List.map_cons]
    cases gs with
    | nil => rfl
    | cons g' gs =>
      rw [List.map_cons, Str.join_cons_cons, ← List.map_cons, ih']
      have hne : (g' :: gs).flatten ≠ [] := by
        have := h g' (by simp)
        cases g' with
        | nil => exact absurd rfl this
        | cons a g' => simp
      rw [Str.join_cons_of_ne_nil _ _ hne]

theorem length_le_join (sep : Str) {l : List Str} {x : Str} (h : x ∈ l) : x.length ≤ (Str.join sep l).length := by
  induction l with
  | nil => simp at h
  | cons a l ih =>
    cases l with
    | nil =>
      simp only [List.mem_singleton] at h
      subst h
      exact Nat.le_refl _
    | cons b l =>
      rw [Str.join_cons_cons]
      simp only [List.length_append]
      rcases List.mem_cons.mp h with rfl | h
      · omega
      · have := ih h; omega

/-- Joining trimmed pieces with any separator is not longer than joining the pieces. -/
theorem join_trim_length (a b : Char) (l : List Str) :
    (Str.join [a] (l.map Str.trim)).length ≤ (Str.join [b] l).length := by
  induction l with
  | nil => exact Nat.le_refl _
  | cons x l ih =>
    have hx := (trim_sublist x).length_le
    cases l with
    | nil => exact hx
    | cons y l =>
      rw [List.map_cons, List.map_cons, Str.join_cons_cons, Str.join_cons_cons, ← List.map_cons]
      simp only [List.length_append]
      simp only [List.length_cons, List.length_nil]
      omega

/-- Pieces of a repaired split are not longer than the text. -/
theorem repair_piece_length {E : Env} {a b : Char} {s : Str} {r : List Str}
    (h : repair E a ((Str.splitChar b s).map Str.trim) = .ok r) {x : Str} (hx : x ∈ r) : x.length ≤ s.length := by
  obtain ⟨gs, h1, h2, h3⟩ := repair_groups h
  have e1 : Str.join [a] r = Str.join [a] ((Str.splitChar b s).map Str.trim) := by
    rw [h3, join_groups _ h2, h1]
  have := length_le_join [a] hx
  rw [e1] at this
  have h4 := join_trim_length a b (Str.splitChar b s)
  rw [Str.join_splitChar] at h4
  omega

theorem mem_join {sep : Char} {l : List Str} {c : Char} (h : c ∈ Str.join [sep] l) : c = sep ∨ ∃ x ∈ l, c ∈ x := by
  induction l with
  | nil => simp [Str.join] at h
  | cons a l ih =>
    cases l with
    | nil => exact Or.inr ⟨a, by simp, h⟩
    | cons b l =>
      rw [Str.join_cons_cons] at h
      simp only [List.mem_append, List.mem_singleton] at h
      rcases h with (h | h) | h
      · exact Or.inr ⟨a, by simp, h⟩
      · exact Or.inl h
      · rcases ih h with h | ⟨x, hx, hc⟩
        · exact Or.inl h
        · exact Or.inr ⟨x, by simp [hx], hc⟩

/-- Pieces of a repaired split contain no new characters except the separator put in, and not the
character split at. -/
theorem repair_piece_mem {E : Env} {a b : Char} {s : Str} {r : List Str}
    (h : repair E a ((Str.splitChar b s).map Str.trim) = .ok r) {x : Str} (hx : x ∈ r) {c : Char} (hc : c ∈ x) :
    c = a ∨ (c ≠ b ∧ c ∈ s) := by
  obtain ⟨gs, h1, h2, h3⟩ := repair_groups h
  rw [h3] at hx
  obtain ⟨g, hg, rfl⟩ := List.mem_map.mp hx
  rcases mem_join hc with h | ⟨y, hy, hcy⟩
  · exact Or.inl h
  · right
    have : y ∈ (Str.splitChar b s).map Str.trim := by
      rw [← h1]; exact List.mem_flatten.mpr ⟨g, hg, hy⟩
    obtain ⟨p, hp, rfl⟩ := List.mem_map.mp this
    have hcp := (trim_sublist p).subset hcy
    refine ⟨fun e => ?_, ?_⟩
    · subst e; exact Str.not_mem_of_mem_splitChar hp hcp
    · rw [← Str.join_splitChar b s]
      generalize Str.splitChar b s = L at hp
      clear this h1
      induction L with
      | nil => simp at hp
      | cons q L ih =>
        cases L with
        | nil => simp only [List.mem_singleton] at hp; subst hp; exact hcp
        | cons q' L =>
          rw [Str.join_cons_cons]
          simp only [List.mem_append]
          rcases List.mem_cons.mp hp with rfl | hp
          · exact Or.inl (Or.inl hcp)
          · exact Or.inr (ih hp)

/-! ## One step of `from_str` -/

/-- The text a bracketed arm works on. -/
def wrapArm (E : Env) (f : Str → Res PyTy) (w : Wrap) (i : Str) : Res PyTy :=
  match w with
  | .dict => do
    let parts ← splitArgs E i
    let ts ← Res.traverse f parts
    let k ← index ts 0
    let v ← index ts 1
    return .dict k v
  | .frozenSet => do return .frozenSet (← f i)
  | .list => do return .list (← f i)
  | .set => do return .set (← f i)
  | .tuple => do
    let parts ← splitArgs E i
    let ts ← Res.traverse f parts
    return .tuple ts
  | .callable => do
    let parts ← splitArgs E i
    let ts ← Res.traverse f parts
    mkFunction ts
  | .inner => f i

/-- Body of `fromStrGo` with the recursive call as a parameter. -/
def fromStrStep (E : Env) (f : Str → Res PyTy) (s : Str) : Res PyTy :=
  match primTable.lookup s with
  | some t => .ok t
  | .none =>
  if s.count '|' = 1 && Str.countNone s = 1 then
    match ((Str.splitChar '|' s).map Str.trim).find? (fun x => x ≠ c!"None") with
    | .none => .error (.panic .unreachable)
    | some x => do
      let t ← f x
      return .optional t
  else if s.contains '|' then do
    let parts ← repair E ',' ((Str.splitChar '|' s).map Str.trim)
    let ts ← Res.traverse f parts
    return .union ts
  else
  match nameTable.lookup s with
  | some t => .ok t
  | .none =>
  match matchWrap s wrapTable with
  | some (w, inner) => do
    let i ← inner
    wrapArm E f w i
  | .none =>
  match matchPrefix s prefixTable with
  | some r => f r
  | .none =>
  if forbiddenTypeNames.contains s then .ok .any else .ok (.other s)

theorem fromStrGo_succ (E : Env) (n : Nat) (s : Str) :
    fromStrGo E (n + 1) s = fromStrStep E (fromStrGo E n) s := by
  rw [fromStrGo, fromStrStep]
  rfl

theorem matchWrap_some {s : Str} {l : List (Str × Str × Wrap)} {w : Wrap} {i : Res Str}
    (h : matchWrap s l = some (w, i)) :
    ∃ pre suf, (pre, suf, w) ∈ l ∧ pre <+: s ∧ suf <:+ s ∧ i = stripBoth pre suf s := by
  induction l with
  | nil => cases h
  | cons e l ih =>
    obtain ⟨pre, suf, w'⟩ := e
    unfold matchWrap at h
    split at h
    · rename_i hc
      simp only [Bool.and_eq_true, Str.startsWith_iff, Str.endsWith_iff] at hc
      cases h
      exact ⟨pre, suf, by simp, hc.1, hc.2, rfl⟩
    · obtain ⟨pre', suf', h1, h2⟩ := ih h
      exact ⟨pre', suf', by simp [h1], h2⟩

theorem stripBoth_ok {pre suf s i : Str} : stripBoth pre suf s = .ok i ↔ s = pre ++ i ++ suf := by
  unfold stripBoth
  constructor
  · intro h
    cases h1 : Str.stripPrefix pre s with
    | none => rw [h1] at h; cases h
    | some r =>
      rw [h1] at h
      rw [Str.stripPrefix_eq_some] at h1
      cases h2 : Str.stripSuffix suf r with
      | none => simp [h2, Res.ofOption] at h
      | some q =>
        simp only [Option.bind_some, h2, Res.ofOption] at h
        cases h
        rw [Str.stripSuffix_eq_some] at h2
        rw [h1, h2, List.append_assoc]
  · rintro rfl
    rw [List.append_assoc, Str.stripPrefix_append]
    simp only [Option.bind_some]
    rw [Str.stripSuffix_eq_some.mpr rfl]
    rfl

theorem matchPrefix_some {s r : Str} {l : List Str} (h : matchPrefix s l = some r) : ∃ p ∈ l, s = p ++ r := by
  induction l with
  | nil => cases h
  | cons p l ih =>
    unfold matchPrefix at h
    split at h
    · rename_i r' hr
      cases h
      exact ⟨p, by simp, Str.stripPrefix_eq_some.mp hr⟩
    · obtain ⟨p', h1, h2⟩ := ih h
      exact ⟨p', by simp [h1], h2⟩

/-- The texts that the interpretation of `s` goes on to interpret. -/
inductive Child (E : Env) (s : Str) : Str → Prop
  | opt (x : Str) : '|' ∈ s → x ∈ (Str.splitChar '|' s).map Str.trim → Child E s x
  | union (r : List Str) (x : Str) : '|' ∈ s →
      repair E ',' ((Str.splitChar '|' s).map Str.trim) = .ok r → x ∈ r → Child E s x
  | wrap (pre suf : Str) (w : Wrap) (i : Str) : '|' ∉ s → (pre, suf, w) ∈ wrapTable → s = pre ++ i ++ suf → Child E s i
  | args (pre suf : Str) (w : Wrap) (i : Str) (r : List Str) (x : Str) : '|' ∉ s → (pre, suf, w) ∈ wrapTable →
      s = pre ++ i ++ suf → splitArgs E i = .ok r → x ∈ r → Child E s x
  | pre (p x : Str) : '|' ∉ s → p ∈ prefixTable → s = p ++ x → Child E s x

theorem fromStrStep_congr {E : Env} {f g : Str → Res PyTy} {s : Str} (h : ∀ x, Child E s x → f x = g x) :
    fromStrStep E f s = fromStrStep E g s := by
  unfold fromStrStep
  split
  · rfl
  split
  · rename_i hc
    have hb : '|' ∈ s := by
      simp only [Bool.and_eq_true, decide_eq_true_eq] at hc
      exact List.count_pos_iff.mp (by omega)
    split
    · rfl
    · rename_i x hx
      rw [h x (Child.opt x hb (List.mem_of_find?_eq_some hx))]
  split
  · rename_i hb
    have hb : '|' ∈ s := by simpa using hb
    cases hr : repair E ',' ((Str.splitChar '|' s).map Str.trim) with
    | error e => rfl
    | ok r =>
      simp only [Res.ok_bind]
      rw [Res.traverse_congr (fun x hx => h x (Child.union r x hb hr hx))]
  rename_i hb
  have hb : '|' ∉ s := by simpa using hb
  split
  · rfl
  split
  · rename_i w inner hw
    obtain ⟨pre, suf, hmem, -, -, rfl⟩ := matchWrap_some hw
    cases hi : stripBoth pre suf s with
    | error e => rfl
    | ok i =>
      simp only [Res.ok_bind]
      rw [stripBoth_ok] at hi
      have h1 : f i = g i := h i (Child.wrap pre suf w i hb hmem hi)
      have h2 : ∀ r, splitArgs E i = .ok r → Res.traverse f r = Res.traverse g r := fun r hr =>
        Res.traverse_congr (fun x hx => h x (Child.args pre suf w i r x hb hmem hi hr hx))
      unfold wrapArm
      split <;> first
        | rw [h1]
        | (cases hr : splitArgs E i with
            | error e => rfl
            | ok r => simp only [Res.ok_bind]; rw [h2 r hr])
  split
  · rename_i r hr
    obtain ⟨p, hp, hs⟩ := matchPrefix_some hr
    exact h r (Child.pre p r hb hp hs)
  · rfl

/-- Size that drops along `Child`. -/
def annSize (s : Str) : Nat := s.length + (if '|' ∈ s then 1 else 0)

theorem length_splitChar_lt {sep : Char} {s p : Str} (hs : sep ∈ s) (h : p ∈ Str.splitChar sep s) :
    p.length < s.length := by
  induction s generalizing p with
  | nil => simp at hs
  | cons c s ih =>
    by_cases hc : c = sep
    · subst hc
      rw [Str.splitChar_cons_sep] at h
      rcases List.mem_cons.mp h with rfl | h
      · simp
      · by_cases hs' : c ∈ s
        · have := ih hs' h; simp only [List.length_cons]; omega
        · rw [Str.splitChar_of_not_mem hs', List.mem_singleton] at h
          subst h; simp
    · have hs' : sep ∈ s := by
        rcases List.mem_cons.mp hs with h' | h'
        · exact absurd h'.symm hc
        · exact h'
      rw [Str.splitChar_cons_ne hc] at h
      cases hq : Str.splitChar sep s with
      | nil => exact absurd hq (Str.splitChar_ne_nil _ _)
      | cons q qs =>
        rw [hq] at h ih
        simp only [Str.consHead] at h
        rcases List.mem_cons.mp h with rfl | h
        · have := ih hs' (p := q) (by simp)
          simp only [List.length_cons]; omega
        · have := ih hs' (p := p) (by simp [h])
          simp only [List.length_cons]; omega

theorem wrapTable_len : ∀ e ∈ wrapTable, 1 ≤ e.1.length + e.2.1.length ∧ 4 ≤ e.1.length := by decide

theorem Child.size_lt {E : Env} {s x : Str} (h : Child E s x) : annSize x < annSize s := by
  cases h with
  | opt x hb hx =>
    obtain ⟨p, hp, rfl⟩ := List.mem_map.mp hx
    have h1 := length_splitChar_lt hb hp
    have h2 := (trim_sublist p).length_le
    unfold annSize
    split <;> omega
  | union r x hb hr hx =>
    have h1 := repair_piece_length hr hx
    have h2 : '|' ∉ x := by
      intro hm
      rcases repair_piece_mem hr hx hm with h | h
      · exact absurd h (by decide)
      · exact h.1 rfl
    unfold annSize
    rw [if_neg h2, if_pos hb]; omega
  | wrap pre suf w i hb hmem hs =>
    have := wrapTable_len _ hmem
    have hi : '|' ∉ x := fun hm => hb (by rw [hs]; simp [hm])
    unfold annSize
    rw [if_neg hi, if_neg hb, hs]
    simp only [List.length_append]
    simp only at this
    omega
  | args pre suf w i r x hb hmem hs hr hx =>
    have := wrapTable_len _ hmem
    have hl := repair_piece_length hr hx
    have hi : '|' ∉ x := by
      intro hm
      rcases repair_piece_mem hr hx hm with h | h
      · exact absurd h (by decide)
      · exact hb (by rw [hs]; simp [h.2])
    unfold annSize
    rw [if_neg hi, if_neg hb, hs]
    simp only [List.length_append]
    simp only at this
    omega
  | pre p x hb hp hs =>
    have hp' : 1 ≤ p.length := by
      have : ∀ p ∈ prefixTable, 1 ≤ p.length := by decide
      exact this p hp
    have hi : '|' ∉ x := fun hm => hb (by rw [hs]; simp [hm])
    unfold annSize
    rw [if_neg hi, if_neg hb, hs]
    simp only [List.length_append]
    omega

theorem fromStrGo_fuel (E : Env) : ∀ (n m : Nat) (s : Str), annSize s < n → annSize s < m →
    fromStrGo E n s = fromStrGo E m s := by
  intro n
  induction n with
  | zero => intro m s h; omega
  | succ n ih =>
    intro m s hn hm
    cases m with
    | zero => omega
    | succ m =>
      rw [fromStrGo_succ, fromStrGo_succ]
      apply fromStrStep_congr
      intro x hx
      have := hx.size_lt
      exact ih m x (by omega) (by omega)

theorem annSize_lt (s : Str) : annSize s < s.length + 2 := by
  unfold annSize; split <;> omega

/-- `fromStr` satisfies its own recursion equation: no fuel left in sight. -/
theorem fromStr_unfold (E : Env) (s : Str) : fromStr E s = fromStrStep E (fromStr E) s := by
  unfold fromStr
  rw [fromStrGo_succ]
  apply fromStrStep_congr
  intro x hx
  have h1 := hx.size_lt
  have h2 := annSize_lt s
  exact fromStrGo_fuel E _ _ x (by omega) (annSize_lt x)

theorem index_calm {α : Type} (l : List α) (i : Nat) : Calm (index l i) := by
  unfold index Res.ofOption
  split
  · exact Calm.ok _
  · exact Calm.panic (by decide)

theorem mkFunction_calm (ts : List PyTy) : Calm (mkFunction ts) := by
  unfold mkFunction
  split
  · exact Calm.panic (by decide)
  · exact Calm.ok _

theorem stripBoth_calm (pre suf s : Str) : Calm (stripBoth pre suf s) := by
  unfold stripBoth Res.ofOption
  split
  · exact Calm.ok _
  · exact Calm.panic (by decide)

theorem wrapArm_calm {E : Env} {f : Str → Res PyTy} {w : Wrap} {i : Str} (h1 : Calm (f i))
    (h2 : ∀ r, splitArgs E i = .ok r → ∀ x ∈ r, Calm (f x)) : Calm (wrapArm E f w i) := by
  have h3 : Calm (splitArgs E i) := repair_calm ..
  unfold wrapArm
  split
  · exact h3.bind (fun r hr => (Calm.traverse (h2 r hr)).bind (fun ts _ => (index_calm ts 0).bind
      (fun _ _ => (index_calm ts 1).bind (fun _ _ => Calm.ok _))))
  · exact h1.bind (fun _ _ => Calm.ok _)
  · exact h1.bind (fun _ _ => Calm.ok _)
  · exact h1.bind (fun _ _ => Calm.ok _)
  · exact h3.bind (fun r hr => (Calm.traverse (h2 r hr)).bind (fun ts _ => Calm.ok _))
  · exact h3.bind (fun r hr => (Calm.traverse (h2 r hr)).bind (fun ts _ => mkFunction_calm ts))
  · exact h1

theorem fromStrStep_calm {E : Env} {f : Str → Res PyTy} {s : Str} (h : ∀ x, Child E s x → Calm (f x)) :
    Calm (fromStrStep E f s) := by
  unfold fromStrStep
  split
  · exact Calm.ok _
  split
  · rename_i hc
    have hb : '|' ∈ s := by
      simp only [Bool.and_eq_true, decide_eq_true_eq] at hc
      exact List.count_pos_iff.mp (by omega)
    split
    · exact Calm.panic (by decide)
    · rename_i x hx
      exact (h x (Child.opt x hb (List.mem_of_find?_eq_some hx))).bind (fun _ _ => Calm.ok _)
  split
  · rename_i hb
    have hb : '|' ∈ s := by simpa using hb
    exact (repair_calm ..).bind (fun r hr => (Calm.traverse (fun x hx => h x (Child.union r x hb hr hx))).bind
      (fun _ _ => Calm.ok _))
  rename_i hb
  have hb : '|' ∉ s := by simpa using hb
  split
  · exact Calm.ok _
  split
  · rename_i w inner hw
    obtain ⟨pre, suf, hmem, -, -, rfl⟩ := matchWrap_some hw
    refine (stripBoth_calm ..).bind (fun i hi => ?_)
    rw [stripBoth_ok] at hi
    exact wrapArm_calm (h i (Child.wrap pre suf w i hb hmem hi))
      (fun r hr x hx => h x (Child.args pre suf w i r x hb hmem hi hr hx))
  split
  · rename_i r hr
    obtain ⟨p, hp, hs⟩ := matchPrefix_some hr
    exact h r (Child.pre p r hb hp hs)
  split
  · exact Calm.ok _
  · exact Calm.ok _

theorem fromStr_calm (E : Env) (s : Str) : Calm (fromStr E s) := by
  have : ∀ n s, annSize s < n → Calm (fromStr E s) := by
    intro n
    induction n with
    | zero => intro s h; omega
    | succ n ih =>
      intro s h
      rw [fromStr_unfold]
      exact fromStrStep_calm (fun x hx => ih x (by have := hx.size_lt; omega))
  exact this _ s (Nat.lt_succ_self _)

end Bindgen

import Verif.Lemmas.Typing
import Verif.Spec.Annot
/-! # Lemmas: the comma repair on the text of well-formed annotations -/
namespace Bindgen
open Spec

/-! ## Bracket depth -/

/-- Opening minus closing brackets. -/
def net (s : Str) : Int := (s.count '[' : Int) - (s.count ']' : Int)

theorem net_append (s t : Str) : net (s ++ t) = net s + net t := by
  unfold net; rw [List.count_append, List.count_append]; push_cast; omega

theorem net_eq_zero_of_not_mem {s : Str} (h1 : '[' ∉ s) (h2 : ']' ∉ s) : net s = 0 := by
  unfold net
  rw [List.count_eq_zero.mpr h1, List.count_eq_zero.mpr h2]; rfl

/-- Depth of a list of pieces. -/
def netSum : List Str → Int
  | [] => 0
  | s :: l => net s + netSum l

theorem netSum_append (l m : List Str) : netSum (l ++ m) = netSum l + netSum m := by
  induction l with
  | nil => simp [netSum]
  | cons a l ih => simp only [List.cons_append, netSum, ih]; omega

theorem net_join (l : List Str) : net (Str.join [','] l) = netSum l := by
  induction l with
  | nil => rfl
  | cons a l ih =>
    cases l with
    | nil => simp [Str.join, netSum]
    | cons b l =>
      rw [Str.join_cons_cons, net_append, net_append, ih]
      have : net [','] = 0 := by decide
      rw [this]
      simp only [netSum]; omega

/-- A maximal group of pieces that belong together: depth positive inside, zero at the end. -/
structure Block (g : List Str) : Prop where
  ne : g ≠ []
  total : netSum g = 0
  inner : ∀ k, 0 < k → k < g.length → 0 < netSum (g.take k)

/-- What the repair makes of a list of blocks. -/
def repairBlocks : List (List Str) → List Str
  | [] => []
  | g :: gs =>
    if g.length = 1 ∨ g.length - 1 < gs.flatten.length then Str.join [','] g :: repairBlocks gs
    else Str.join [','] g :: gs.flatten

theorem repairBlocks_cons (g : List Str) (gs : List (List Str)) : repairBlocks (g :: gs) =
    if g.length = 1 ∨ g.length - 1 < gs.flatten.length then Str.join [','] g :: repairBlocks gs
    else Str.join [','] g :: gs.flatten := rfl

theorem usizeSub_of_le {E : Env} {n : Int} {m : Nat} (h : (m : Int) ≤ n) : usizeSub E n m = .ok (n - m) := by
  unfold usizeSub
  rw [if_neg]
  simp only [Bool.and_eq_true, decide_eq_true_eq]
  omega

/-- Scanning from inside a block finds its end. -/
theorem repairScan_block {E : Env} : ∀ (n : Int) (g rest : List Str), g ≠ [] → n + netSum g = 0 →
    (∀ k, 0 < k → k < g.length → 0 < n + netSum (g.take k)) →
    repairScan E n (g ++ rest) = .ok (some g.length) := by
  intro n g
  induction g generalizing n with
  | nil => intro _ h; exact absurd rfl h
  | cons x g ih =>
    intro rest _ ht hin
    rw [List.cons_append]
    unfold repairScan
    have hx : n + netSum ([x]) = n + (x.count '[' : Int) - (x.count ']' : Int) := by
      simp only [netSum, net]; omega
    have hnn : (x.count ']' : Int) ≤ n + (x.count '[' : Int) := by
      by_cases hg : g = []
      · subst hg; rw [hx] at ht; omega
      · have := hin 1 (by omega) (by
          simp only [List.length_cons]
          have := List.length_pos_iff.mpr hg
          omega)
        simp only [List.take_succ_cons, List.take_zero] at this
        rw [hx] at this; omega
    rw [usizeSub_of_le hnn, Res.ok_bind]
    by_cases hg : g = []
    · subst hg
      rw [hx] at ht
      rw [if_pos (by omega)]
      rfl
    · have hpos := hin 1 (by omega) (by
          simp only [List.length_cons]
          have := List.length_pos_iff.mpr hg
          omega)
      simp only [List.take_succ_cons, List.take_zero] at hpos
      rw [hx] at hpos
      rw [if_neg (by omega)]
      rw [ih (n + (x.count '[' : Int) - (x.count ']' : Int)) rest hg]
      · rfl
      · simp only [netSum, net] at ht; omega
      · intro k hk hkl
        have := hin (k + 1) (by omega) (by simp only [List.length_cons]; omega)
        simp only [List.take_succ_cons, netSum, net] at this
        omega

theorem net_le (x : Str) (h : 0 ≤ net x) : (x.count ']' : Int) ≤ (x.count '[' : Int) := by
  unfold net at h; omega

theorem repairGo_blocks (E : Env) : ∀ (fuel : Nat) (gs : List (List Str)), (∀ g ∈ gs, Block g) →
    gs.flatten.length < fuel → repairGo E ',' fuel gs.flatten = .ok (repairBlocks gs) := by
  intro fuel
  induction fuel with
  | zero => intro gs _ h; omega
  | succ fuel ih =>
    intro gs hgs hf
    cases gs with
    | nil => rfl
    | cons g gs =>
      have hg := hgs g (by simp)
      have hgs' : ∀ g' ∈ gs, Block g' := fun g' h => hgs g' (by simp [h])
      match g, hg with
      | [], hg => exact absurd rfl hg.ne
      | [x], hg =>
        have hx : net x = 0 := by have := hg.total; simpa [netSum] using this
        simp only [List.flatten_cons, List.cons_append, List.nil_append, repairBlocks, List.length_singleton, true_or,
          if_true]
        simp only [List.flatten_cons, List.length_append, List.length_singleton] at hf
        cases hr : gs.flatten with
        | nil =>
          have : gs = [] := by
            cases gs with
            | nil => rfl
            | cons g' gs' =>
              have := (hgs' g' (by simp)).ne
              simp only [List.flatten_cons, List.append_eq_nil_iff] at hr
              exact absurd hr.1 this
          subst this
          rfl
        | cons y ys =>
          unfold repairGo
          rw [usizeSub_of_le (net_le x (by omega)), Res.ok_bind, if_pos (by unfold net at hx; omega), ← hr,
            ih gs hgs' (by omega)]
          rfl
      | x :: y :: g, hg =>
        have hxpos : 0 < net x := by
          have := hg.inner 1 (by omega) (by simp)
          simpa [netSum] using this
        have hflat : ((x :: y :: g) :: gs).flatten = x :: y :: (g ++ gs.flatten) := by simp
        rw [hflat]
        rw [hflat] at hf
        unfold repairGo
        rw [usizeSub_of_le (net_le x (by omega)), Res.ok_bind, if_neg (by unfold net at hxpos; omega)]
        have hscan : repairScan E ((x.count '[' : Int) - (x.count ']' : Int)) (y :: (g ++ gs.flatten)) =
            .ok (some (y :: g).length) := by
          have := repairScan_block (E := E) (net x) (y :: g) gs.flatten (by simp)
            (by have := hg.total; simpa [netSum] using this)
            (by
              intro k hk hkl
              have := hg.inner (k + 1) (by omega) (by simp only [List.length_cons] at hkl ⊢; omega)
              simpa [netSum] using this)
          simpa [net] using this
        rw [hscan, Res.ok_bind]
        simp only
        have htake : (y :: (g ++ gs.flatten)).take (y :: g).length = y :: g := by
          rw [← List.cons_append]; exact List.take_left
        have hdrop : (y :: (g ++ gs.flatten)).drop (y :: g).length = gs.flatten := by
          rw [← List.cons_append]; exact List.drop_left
        rw [htake, hdrop, ← join_eq_flatMap]
        unfold repairBlocks
        have hlen : (x :: y :: g).length - 1 = (y :: g).length := by simp
        rw [hlen]
        by_cases hk : (y :: g).length < gs.flatten.length
        · rw [if_pos hk, if_pos (Or.inr hk)]
          have hm : net (Str.join [','] (x :: y :: g)) = 0 := by rw [net_join]; exact hg.total
          have hb : Block [Str.join [','] (x :: y :: g)] := by
            refine ⟨by simp, by simpa [netSum] using hm, ?_⟩
            intro k h1 h2
            simp at h2
            omega
          have := ih ([Str.join [','] (x :: y :: g)] :: gs)
            (by
              intro g' hg'
              rcases List.mem_cons.mp hg' with rfl | hg'
              · exact hb
              · exact hgs' g' hg')
            (by simp only [List.flatten_cons, List.length_append, List.length_cons, List.length_nil] at hf ⊢; omega)
          simp only [List.flatten_cons, List.cons_append, List.nil_append, repairBlocks, List.length_singleton,
            true_or, if_true] at this
          rw [this]
          rfl
        · rw [if_neg hk, if_neg (by simp only [List.length_cons] at hk ⊢; omega)]
          rfl

theorem repair_blocks (E : Env) {gs : List (List Str)} (hne : gs ≠ []) (h : ∀ g ∈ gs, Block g) :
    repair E ',' gs.flatten = .ok (repairBlocks gs) := by
  unfold repair
  have : gs.flatten ≠ [] := by
    cases gs with
    | nil => exact absurd rfl hne
    | cons g gs =>
      have := (h g (by simp)).ne
      simp only [List.flatten_cons, ne_eq, List.append_eq_nil_iff, not_and]
      intro h'; exact absurd h' this
  rw [if_neg this]
  exact repairGo_blocks E _ gs h (by omega)

theorem flatten_singletons {gs : List (List Str)} (h : ∀ g ∈ gs, g.length = 1) :
    gs.flatten = gs.map (Str.join [',']) := by
  induction gs with
  | nil => rfl
  | cons g gs ih =>
    have hg := h g (by simp)
    match g, hg with
    | [x], _ => rw [List.flatten_cons, ih (fun g' hg' => h g' (by simp [hg']))]; rfl

theorem flatten_length (gs : List (List Str)) : gs.flatten.length = (gs.map List.length).sum := by
  rw [List.length_flatten]

theorem length_le_flatten {l : List (List Str)} (h : ∀ g ∈ l, g ≠ []) : l.length ≤ l.flatten.length := by
  induction l with
  | nil => simp
  | cons a l ih =>
    have := List.length_pos_iff.mpr (h a (by simp))
    have := ih (fun x hx => h x (by simp [hx]))
    simp only [List.length_cons, List.flatten_cons, List.length_append]
    omega

theorem singletons_of_length {gs : List (List Str)} (hne : ∀ g ∈ gs, g ≠ []) (hl : gs.flatten.length = gs.length) :
    ∀ g ∈ gs, g.length = 1 := by
  induction gs with
  | nil => simp
  | cons g' gs ih =>
    have h2 := length_le_flatten (fun x hx => hne x (by simp [hx]) : ∀ g ∈ gs, g ≠ [])
    have h3 := List.length_pos_iff.mpr (hne g' (by simp))
    simp only [List.flatten_cons, List.length_append, List.length_cons] at hl
    intro g'' hg''
    rcases List.mem_cons.mp hg'' with rfl | hg''
    · omega
    · exact ih (fun x hx => hne x (by simp [hx])) (by omega) g'' hg''

/-- The repair restores the groups iff the list of comma counts is separable. -/
theorem repairBlocks_eq_iff {gs : List (List Str)} (hne : ∀ g ∈ gs, g ≠ []) :
    repairBlocks gs = gs.map (Str.join [',']) ↔ Spec.separable (gs.map (fun g => g.length - 1)) = true := by
  induction gs with
  | nil => simp [repairBlocks, Spec.separable]
  | cons g gs ih =>
    have ih := ih (fun g' hg' => hne g' (by simp [hg']))
    have hg := List.length_pos_iff.mpr (hne g (by simp))
    have hsum : ((gs.map (fun g => g.length - 1)).map (· + 1)).sum = gs.flatten.length := by
      rw [flatten_length, List.map_map]
      congr 1
      apply List.map_congr_left
      intro g' hg'
      have := List.length_pos_iff.mpr (hne g' (by simp [hg']))
      simp only [Function.comp]
      omega
    have hall : (gs.map (fun g => g.length - 1)).all (· == 0) = true ↔ ∀ g' ∈ gs, g'.length = 1 := by
      simp only [List.all_map, List.all_eq_true, Function.comp, beq_iff_eq]
      constructor
      · intro h g' hg'
        have := h g' hg'
        have := List.length_pos_iff.mpr (hne g' (by simp [hg']))
        omega
      · intro h g' hg'
        have := h g' hg'
        omega
    simp only [List.map_cons, Spec.separable, Bool.and_eq_true, Bool.or_eq_true, beq_iff_eq, decide_eq_true_eq, hsum,
      hall, ← ih]
    rw [repairBlocks_cons]
    by_cases hc : g.length = 1 ∨ g.length - 1 < gs.flatten.length
    · rw [if_pos hc]
      constructor
      · intro h
        simp only [List.cons.injEq, true_and] at h
        refine ⟨?_, h⟩
        rcases hc with hc | hc
        · exact Or.inl (Or.inl (by omega))
        · exact Or.inl (Or.inr hc)
      · rintro ⟨-, h⟩
        rw [h]
    · rw [if_neg hc]
      have hc' : ¬ (g.length - 1 = 0 ∨ g.length - 1 < gs.flatten.length) := by omega
      constructor
      · intro h
        simp only [List.cons.injEq, true_and] at h
        have hs : ∀ g' ∈ gs, g'.length = 1 := by
          have hl : gs.flatten.length = gs.length := by rw [h, List.length_map]
          exact singletons_of_length (fun g' hg' => hne g' (by simp [hg'])) hl
        refine ⟨Or.inr hs, ?_⟩
        have : ∀ l : List (List Str), (∀ g ∈ l, g.length = 1) → repairBlocks l = l.map (Str.join [',']) := by
          intro l
          induction l with
          | nil => intro _; rfl
          | cons a l ih =>
            intro h
            rw [repairBlocks_cons, if_pos (Or.inl (h a (by simp))), ih (fun x hx => h x (by simp [hx]))]
            rfl
        exact this gs hs
      · rintro ⟨h, -⟩
        rcases h with h | h
        · exact absurd h hc'
        · rw [flatten_singletons h]

/-! ## Texts -/

/-- Split at commas and trim: the input of the repair. -/
def pieces (s : Str) : List Str := (Str.splitChar ',' s).map Str.trim

/-- White space is a space after a comma. -/
def SpaceRule (a b : Char) : Prop := Str.isWs b = true → a = ','

/-- White space only after commas, and not at the beginning. -/
def Tidy (s : Str) : Prop := ('x' :: s).IsChain SpaceRule

theorem Tidy.append {s t : Str} (hs : Tidy s) (ht : Tidy t) : Tidy (s ++ t) := by
  unfold Tidy at *
  rw [← List.cons_append, List.isChain_append]
  rw [List.isChain_cons] at ht
  refine ⟨hs, ht.2, ?_⟩
  intro x hx y hy hw
  exact absurd (ht.1 y hy hw) (by decide)

theorem Tidy.of_noWs {s : Str} (h : ∀ c ∈ s, Str.isWs c = false) : Tidy s := by
  unfold Tidy
  have : ∀ (a : Char) (s : Str), (∀ c ∈ s, Str.isWs c = false) → (a :: s).IsChain SpaceRule := by
    intro a s
    induction s generalizing a with
    | nil => intro _; exact List.isChain_singleton _
    | cons c s ih =>
      intro h
      rw [List.isChain_cons_cons]
      refine ⟨fun hw => ?_, ih c (fun d hd => h d (by simp [hd]))⟩
      rw [h c (by simp)] at hw
      simp at hw
  exact this 'x' s h

theorem Tidy.comma : Tidy c!", " := by
  unfold Tidy
  simp only [List.isChain_cons_cons, List.isChain_singleton, and_true, SpaceRule]
  exact ⟨fun h => absurd h (by decide), fun _ => trivial⟩

theorem trim_of_tail {p : Str} (h : ∀ c ∈ p.tail, Str.isWs c = false) :
    Str.trim p = p.filter (fun c => !Str.isWs c) := by
  have key : ∀ q : Str, (∀ c ∈ q, Str.isWs c = false) → Str.trim q = q := by
    intro q hq
    have h1 : Str.trimStart q = q := by
      unfold Str.trimStart
      cases q with
      | nil => rfl
      | cons a q => rw [List.dropWhile_cons_of_neg (by simp [hq a (by simp)])]
    unfold Str.trim
    rw [h1]
    unfold Str.trimEnd
    have : q.reverse.dropWhile Str.isWs = q.reverse := by
      cases hr : q.reverse with
      | nil => rfl
      | cons a r =>
        have ha : a ∈ q := by rw [← List.mem_reverse, hr]; simp
        rw [List.dropWhile_cons_of_neg (by simp [hq a ha])]
    rw [this, List.reverse_reverse]
  have hf : ∀ q : Str, (∀ c ∈ q, Str.isWs c = false) → q.filter (fun c => !Str.isWs c) = q := by
    intro q hq
    rw [List.filter_eq_self]
    intro c hc; simp [hq c hc]
  cases p with
  | nil => rfl
  | cons a p =>
    simp only [List.tail_cons] at h
    cases ha : Str.isWs a with
    | true =>
      rw [List.filter_cons_of_neg (by simp [ha]), hf p h]
      have : Str.trim (a :: p) = Str.trim p := by
        unfold Str.trim Str.trimStart
        rw [List.dropWhile_cons_of_pos ha]
      rw [this, key p h]
    | false =>
      have hall : ∀ c ∈ a :: p, Str.isWs c = false := by
        intro c hc
        rcases List.mem_cons.mp hc with rfl | hc
        · exact ha
        · exact h c hc
      rw [key _ hall, hf _ hall]

theorem chain_pieces_tail : ∀ (s : Str) (a : Char), (a :: s).IsChain SpaceRule →
    ∀ p ∈ Str.splitChar ',' s, ∀ c ∈ p.tail, Str.isWs c = false := by
  -- also: the first piece has no white space at all when `a` is no comma
  have key : ∀ (s : Str) (a : Char), (a :: s).IsChain SpaceRule →
      ∃ p ps, Str.splitChar ',' s = p :: ps ∧ (∀ c ∈ p.tail, Str.isWs c = false) ∧
        (a ≠ ',' → ∀ c ∈ p, Str.isWs c = false) ∧ (∀ q ∈ ps, ∀ c ∈ q.tail, Str.isWs c = false) := by
    intro s
    induction s with
    | nil => intro a _; exact ⟨[], [], rfl, by simp, by simp, by simp⟩
    | cons x s ih =>
      intro a h
      rw [List.isChain_cons_cons] at h
      obtain ⟨p, ps, he, h1, h2, h3⟩ := ih x h.2
      by_cases hx : x = ','
      · subst hx
        rw [Str.splitChar_cons_sep, he]
        refine ⟨[], p :: ps, rfl, by simp, by simp, ?_⟩
        intro q hq
        rcases List.mem_cons.mp hq with rfl | hq
        · exact h1
        · exact h3 q hq
      · rw [Str.splitChar_cons_ne hx, he]
        refine ⟨x :: p, ps, rfl, ?_, ?_, h3⟩
        · exact h2 hx
        · intro ha c hc
          rcases List.mem_cons.mp hc with rfl | hc
          · by_contra hw
            exact ha (h.1 (by simpa using hw))
          · exact h2 hx c hc
  intro s a h p hp
  obtain ⟨q, qs, he, h1, -, h3⟩ := key s a h
  rw [he] at hp
  rcases List.mem_cons.mp hp with rfl | hp
  · exact h1
  · exact h3 p hp

theorem splitChar_filter (P : Char → Bool) (hP : P ',' = true) (s : Str) :
    Str.splitChar ',' (s.filter P) = (Str.splitChar ',' s).map (List.filter P) := by
  induction s with
  | nil => rfl
  | cons c s ih =>
    by_cases hc : c = ','
    · subst hc
      rw [List.filter_cons_of_pos hP, Str.splitChar_cons_sep, Str.splitChar_cons_sep, ih]
      rfl
    · rw [Str.splitChar_cons_ne hc]
      cases hp : Str.splitChar ',' s with
      | nil => exact absurd hp (Str.splitChar_ne_nil _ _)
      | cons p ps =>
        rw [hp] at ih
        simp only [Str.consHead, List.map_cons]
        cases hPc : P c with
        | true =>
          rw [List.filter_cons_of_pos hPc, Str.splitChar_cons_ne hc, ih, List.filter_cons_of_pos hPc]
          rfl
        | false =>
          rw [List.filter_cons_of_neg (by simp [hPc]), ih, List.filter_cons_of_neg (by simp [hPc])]
          rfl

/-- Splitting a tidy text and trimming is splitting the text without white space. -/
theorem pieces_tidy {s : Str} (h : Tidy s) :
    pieces s = Str.splitChar ',' (s.filter (fun c => !Str.isWs c)) := by
  unfold pieces
  rw [splitChar_filter _ (by decide)]
  apply List.map_congr_left
  intro p hp
  exact trim_of_tail (chain_pieces_tail s 'x' h p hp)

/-! ## Depth at commas -/

/-- Balanced, and every comma is at depth at least `d`. -/
def Deep (d : Int) (s : Str) : Prop := net s = 0 ∧ ∀ u v, s = u ++ ',' :: v → d ≤ net u

theorem Deep.of_noComma {s : Str} {d : Int} (h : ',' ∉ s) (hn : net s = 0) : Deep d s :=
  ⟨hn, fun u v e => absurd (by rw [e]; simp) h⟩

theorem Deep.mono {s : Str} {d e : Int} (h : Deep d s) (he : e ≤ d) : Deep e s :=
  ⟨h.1, fun u v hs => by have := h.2 u v hs; omega⟩

theorem split_at_comma {s t u v : Str} (h : s ++ t = u ++ ',' :: v) :
    (∃ v', s = u ++ ',' :: v') ∨ (∃ u', u = s ++ u' ∧ t = u' ++ ',' :: v) := by
  rw [List.append_eq_append_iff] at h
  rcases h with ⟨a, h1, h2⟩ | ⟨a, h1, h2⟩
  · exact Or.inr ⟨a, h1, h2⟩
  · cases a with
    | nil =>
      simp only [List.append_nil, List.nil_append] at h1 h2
      exact Or.inr ⟨[], by simp [h1], by simp [h2]⟩
    | cons x a =>
      simp only [List.cons_append, List.cons.injEq] at h2
      exact Or.inl ⟨a, by rw [h1, h2.1]⟩

theorem Deep.append {s t : Str} {d : Int} (hs : Deep d s) (ht : Deep d t) : Deep d (s ++ t) := by
  refine ⟨by rw [net_append, hs.1, ht.1]; rfl, ?_⟩
  intro u v h
  rcases split_at_comma h with ⟨v', h'⟩ | ⟨u', h1, h2⟩
  · exact hs.2 u v' h'
  · rw [h1, net_append, hs.1]
    have := ht.2 u' v h2
    omega

theorem Deep.comma : Deep 0 c!"," := by
  refine ⟨by decide, ?_⟩
  intro u v h
  cases u with
  | nil => exact Int.le_refl _
  | cons a u => simp at h

/-- Putting brackets around raises the depth. -/
theorem Deep.bracket {pre s : Str} (hp : ',' ∉ pre) (hp1 : '[' ∉ pre) (hp2 : ']' ∉ pre) (hs : Deep 0 s) :
    Deep 1 (pre ++ c!"[" ++ s ++ c!"]") := by
  have hpre : net (pre ++ c!"[") = 1 := by
    rw [net_append, net_eq_zero_of_not_mem hp1 hp2]; rfl
  refine ⟨by rw [net_append, net_append, hpre, hs.1]; rfl, ?_⟩
  intro u v h
  rcases split_at_comma h with ⟨v', h'⟩ | ⟨u', h1, h2⟩
  · rcases split_at_comma h' with ⟨v'', h''⟩ | ⟨u', h1, h2⟩
    · exfalso
      have : ',' ∈ pre ++ c!"[" := by rw [h'']; simp
      simp only [List.mem_append, List.mem_singleton] at this
      rcases this with h | h
      · exact hp h
      · exact absurd h (by decide)
    · rw [h1, net_append, hpre]
      have := hs.2 u' v' h2
      omega
  · exfalso
    have : ',' ∈ c!"]" := by rw [h2]; simp
    exact absurd this (by decide)

/-- The comma-separated pieces of a text whose commas are all inside brackets form one block. -/
theorem block_of_deep {s : Str} (h : Deep 1 s) : Block (Str.splitChar ',' s) := by
  refine ⟨Str.splitChar_ne_nil _ _, ?_, ?_⟩
  · rw [← net_join, Str.join_splitChar]; exact h.1
  · intro k hk hkl
    have hsplit : s = Str.join [','] ((Str.splitChar ',' s).take k) ++ ',' ::
        Str.join [','] ((Str.splitChar ',' s).drop k) := by
      conv_lhs => rw [← Str.join_splitChar ',' s]
      generalize Str.splitChar ',' s = L at hkl
      have h1 : L.take k ≠ [] := by
        intro e
        have := congrArg List.length e
        simp only [List.length_take, List.length_nil] at this
        omega
      have h2 : L.drop k ≠ [] := by
        intro e
        have := congrArg List.length e
        simp only [List.length_drop, List.length_nil] at this
        omega
      conv_lhs => rw [← List.take_append_drop k L]
      rw [join_append _ h1, Str.join_cons_of_ne_nil _ _ h2]
      simp
    have := h.2 _ _ hsplit
    rw [net_join] at this
    omega

/-! ## The text of an annotation -/

/-- The two separators that occur: as printed by Python, and after a repair. -/
def IsSep (sep : Str) : Prop := sep = c!", " ∨ sep = c!","

theorem IsSep.tidy {sep : Str} (h : IsSep sep) : Tidy sep := by
  rcases h with rfl | rfl
  · exact Tidy.comma
  · exact Tidy.of_noWs (by decide)

theorem IsSep.filter {sep : Str} (h : IsSep sep) : sep.filter (fun c => !Str.isWs c) = c!"," := by
  rcases h with rfl | rfl <;> decide

/-- Characters of the fixed parts of annotations. -/
def fixedText (s : Str) : Prop := ∀ c ∈ s, c ≠ ',' ∧ c ≠ '|' ∧ Str.isWs c = false

theorem Spec.Unary.fixed (g : Unary) : fixedText g.text ∧ '[' ∉ g.text ∧ ']' ∉ g.text := by
  unfold fixedText; cases g <;> decide
theorem Spec.Multi.fixed (g : Multi) : fixedText g.text ∧ '[' ∉ g.text ∧ ']' ∉ g.text := by
  unfold fixedText; cases g <;> decide
theorem Spec.Pkg.fixed (g : Pkg) : fixedText g.text ∧ '[' ∉ g.text ∧ ']' ∉ g.text := by
  unfold fixedText; cases g <;> decide

theorem fixedText.tidy {s : Str} (h : fixedText s) : Tidy s := Tidy.of_noWs (fun c hc => (h c hc).2.2)
theorem fixedText.filter {s : Str} (h : fixedText s) : s.filter (fun c => !Str.isWs c) = s := by
  rw [List.filter_eq_self]; intro c hc; simp [(h c hc).2.2]
theorem fixedText.noComma {s : Str} (h : fixedText s) : ',' ∉ s := fun hc => (h _ hc).1 rfl
theorem fixedText.noBar {s : Str} (h : fixedText s) : '|' ∉ s := fun hc => (h _ hc).2.1 rfl

theorem fixed_open : fixedText c!"[" := by unfold fixedText; decide
theorem fixed_close : fixedText c!"]" := by unfold fixedText; decide
theorem fixed_dict : fixedText c!"dict[" := by unfold fixedText; decide

theorem Spec.IsName.fixed {s : Str} (h : IsName s) : fixedText s :=
  fun c hc => ⟨(h.2.1 c hc).2.2.1, (h.2.1 c hc).2.2.2.1, (h.2.1 c hc).2.2.2.2⟩

mutual
theorem show_tidy {sep : Str} (hs : IsSep sep) : ∀ a : Ann, a.Valid → Tidy (a.show sep)
  | .name s, h => by
    rw [Ann.Valid] at h; rw [Ann.show]; exact h.fixed.tidy
  | .unary g a, h => by
    rw [Ann.Valid] at h; rw [Ann.show]
    exact ((g.fixed.1.tidy.append fixed_open.tidy).append (show_tidy hs a h)).append fixed_close.tidy
  | .dict k v, h => by
    rw [Ann.Valid] at h; rw [Ann.show]
    exact (fixed_dict.tidy.append (((show_tidy hs k h.1).append hs.tidy).append (show_tidy hs v h.2))).append
      fixed_close.tidy
  | .multi g a as, h => by
    rw [Ann.Valid] at h; rw [Ann.show]
    exact ((g.fixed.1.tidy.append fixed_open.tidy).append
      ((show_tidy hs a h.1).append (showTail_tidy hs as h.2))).append fixed_close.tidy
  | .qualified p a, h => by
    rw [Ann.Valid] at h; rw [Ann.show]
    exact p.fixed.1.tidy.append (show_tidy hs a h.1)
theorem showTail_tidy {sep : Str} (hs : IsSep sep) : ∀ as : List Ann, Ann.ValidList as → Tidy (Ann.showTail sep as)
  | [], _ => by rw [Ann.showTail]; exact List.isChain_singleton _
  | a :: as, h => by
    rw [Ann.ValidList] at h; rw [Ann.showTail]
    exact (hs.tidy.append (show_tidy hs a h.1)).append (showTail_tidy hs as h.2)
end

mutual
theorem show_filter {sep : Str} (hs : IsSep sep) :
    ∀ a : Ann, a.Valid → (a.show sep).filter (fun c => !Str.isWs c) = a.show c!","
  | .name s, h => by
    rw [Ann.Valid] at h; rw [Ann.show, Ann.show]; exact h.fixed.filter
  | .unary g a, h => by
    rw [Ann.Valid] at h; rw [Ann.show, Ann.show]
    rw [List.filter_append, List.filter_append, List.filter_append, g.fixed.1.filter, fixed_open.filter,
      fixed_close.filter, show_filter hs a h]
  | .dict k v, h => by
    rw [Ann.Valid] at h; rw [Ann.show, Ann.show]
    simp only [List.filter_append]
    rw [fixed_dict.filter, fixed_close.filter, show_filter hs k h.1, show_filter hs v h.2, hs.filter]
  | .multi g a as, h => by
    rw [Ann.Valid] at h; rw [Ann.show, Ann.show]
    rw [List.filter_append, List.filter_append, List.filter_append, List.filter_append, g.fixed.1.filter,
      fixed_open.filter, fixed_close.filter, show_filter hs a h.1, showTail_filter hs as h.2]
  | .qualified p a, h => by
    rw [Ann.Valid] at h; rw [Ann.show, Ann.show, List.filter_append, p.fixed.1.filter, show_filter hs a h.1]
theorem showTail_filter {sep : Str} (hs : IsSep sep) :
    ∀ as : List Ann, Ann.ValidList as → (Ann.showTail sep as).filter (fun c => !Str.isWs c) = Ann.showTail c!"," as
  | [], _ => by rw [Ann.showTail, Ann.showTail]; rfl
  | a :: as, h => by
    rw [Ann.ValidList] at h; rw [Ann.showTail, Ann.showTail, List.filter_append, List.filter_append, hs.filter,
      show_filter hs a h.1, showTail_filter hs as h.2]
end

mutual
theorem show_noBar {sep : Str} (hs : IsSep sep) : ∀ a : Ann, a.Valid → '|' ∉ a.show sep
  | .name s, h => by
    rw [Ann.Valid] at h; rw [Ann.show]; exact h.fixed.noBar
  | .unary g a, h => by
    rw [Ann.Valid] at h; rw [Ann.show]
    simp only [List.mem_append, not_or]
    exact ⟨⟨⟨g.fixed.1.noBar, fixed_open.noBar⟩, show_noBar hs a h⟩, fixed_close.noBar⟩
  | .dict k v, h => by
    rw [Ann.Valid] at h; rw [Ann.show]
    rw [List.mem_append, List.mem_append, List.mem_append, List.mem_append]
    simp only [not_or]
    exact ⟨⟨fixed_dict.noBar, ⟨show_noBar hs k h.1, by rcases hs with rfl | rfl <;> decide⟩, show_noBar hs v h.2⟩,
      fixed_close.noBar⟩
  | .multi g a as, h => by
    rw [Ann.Valid] at h; rw [Ann.show]
    simp only [List.mem_append, not_or]
    exact ⟨⟨⟨g.fixed.1.noBar, fixed_open.noBar⟩, show_noBar hs a h.1, showTail_noBar hs as h.2⟩, fixed_close.noBar⟩
  | .qualified p a, h => by
    rw [Ann.Valid] at h; rw [Ann.show]
    simp only [List.mem_append, not_or]
    exact ⟨p.fixed.1.noBar, show_noBar hs a h.1⟩
theorem showTail_noBar {sep : Str} (hs : IsSep sep) : ∀ as : List Ann, Ann.ValidList as → '|' ∉ Ann.showTail sep as
  | [], _ => by rw [Ann.showTail]; simp
  | a :: as, h => by
    rw [Ann.ValidList] at h; rw [Ann.showTail]
    simp only [List.mem_append, not_or]
    exact ⟨⟨by rcases hs with rfl | rfl <;> decide, show_noBar hs a h.1⟩, showTail_noBar hs as h.2⟩
end

mutual
theorem show_deep : ∀ a : Ann, a.Valid → Deep 1 (a.show c!",")
  | .name s, h => by
    rw [Ann.Valid] at h; rw [Ann.show]
    exact Deep.of_noComma h.fixed.noComma
      (net_eq_zero_of_not_mem (fun hc => (h.2.1 _ hc).1 rfl) (fun hc => (h.2.1 _ hc).2.1 rfl))
  | .unary g a, h => by
    rw [Ann.Valid] at h; rw [Ann.show]
    exact Deep.bracket g.fixed.1.noComma g.fixed.2.1 g.fixed.2.2 ((show_deep a h).mono (by decide))
  | .dict k v, h => by
    rw [Ann.Valid] at h; rw [Ann.show]
    exact Deep.bracket (pre := c!"dict") (by decide) (by decide) (by decide)
      ((((show_deep k h.1).mono (by decide)).append Deep.comma).append ((show_deep v h.2).mono (by decide)))
  | .multi g a as, h => by
    rw [Ann.Valid] at h; rw [Ann.show]
    exact Deep.bracket g.fixed.1.noComma g.fixed.2.1 g.fixed.2.2
      (((show_deep a h.1).mono (by decide)).append (showTail_deep as h.2))
  | .qualified p a, h => by
    rw [Ann.Valid] at h; rw [Ann.show]
    exact (Deep.of_noComma p.fixed.1.noComma (net_eq_zero_of_not_mem p.fixed.2.1 p.fixed.2.2)).append (show_deep a h.1)
theorem showTail_deep : ∀ as : List Ann, Ann.ValidList as → Deep 0 (Ann.showTail c!"," as)
  | [], _ => by rw [Ann.showTail]; exact Deep.of_noComma (by simp) rfl
  | a :: as, h => by
    rw [Ann.ValidList] at h; rw [Ann.showTail]
    exact (Deep.comma.append ((show_deep a h.1).mono (by decide))).append (showTail_deep as h.2)
end

mutual
theorem show_commas : ∀ a : Ann, a.Valid → (a.show c!",").count ',' = a.commas
  | .name s, h => by
    rw [Ann.Valid] at h; rw [Ann.show, Ann.commas]
    exact List.count_eq_zero.mpr h.fixed.noComma
  | .unary g a, h => by
    rw [Ann.Valid] at h; rw [Ann.show, Ann.commas]
    rw [List.count_append, List.count_append, List.count_append, show_commas a h,
      List.count_eq_zero.mpr g.fixed.1.noComma, List.count_eq_zero.mpr fixed_open.noComma,
      List.count_eq_zero.mpr fixed_close.noComma]
    omega
  | .dict k v, h => by
    rw [Ann.Valid] at h; rw [Ann.show, Ann.commas]
    have h1 : (c!",").count ',' = 1 := rfl
    rw [List.count_append, List.count_append, List.count_append, List.count_append, show_commas k h.1,
      show_commas v h.2, List.count_eq_zero.mpr fixed_dict.noComma, List.count_eq_zero.mpr fixed_close.noComma, h1]
    omega
  | .multi g a as, h => by
    rw [Ann.Valid] at h; rw [Ann.show, Ann.commas]
    rw [List.count_append, List.count_append, List.count_append, List.count_append, show_commas a h.1,
      showTail_commas as h.2, List.count_eq_zero.mpr g.fixed.1.noComma, List.count_eq_zero.mpr fixed_open.noComma,
      List.count_eq_zero.mpr fixed_close.noComma]
    omega
  | .qualified p a, h => by
    rw [Ann.Valid] at h; rw [Ann.show, Ann.commas]
    rw [List.count_append, show_commas a h.1, List.count_eq_zero.mpr p.fixed.1.noComma]
    omega
theorem showTail_commas : ∀ as : List Ann, Ann.ValidList as → (Ann.showTail c!"," as).count ',' = Ann.commasTail as
  | [], _ => by rw [Ann.showTail, Ann.commasTail]; rfl
  | a :: as, h => by
    rw [Ann.ValidList] at h; rw [Ann.showTail, Ann.commasTail]
    have h1 : (c!",").count ',' = 1 := rfl
    rw [List.count_append, List.count_append, show_commas a h.1, showTail_commas as h.2, h1]
end

theorem splitChar_length (sep : Char) (s : Str) : (Str.splitChar sep s).length = s.count sep + 1 := by
  induction s with
  | nil => rfl
  | cons c s ih =>
    by_cases hc : c = sep
    · subst hc; rw [Str.splitChar_cons_sep, List.length_cons, ih, List.count_cons_self]
    · rw [Str.splitChar_cons_ne hc, List.count_cons_of_ne hc, ← ih]
      cases hp : Str.splitChar sep s with
      | nil => exact absurd hp (Str.splitChar_ne_nil _ _)
      | cons p ps => rfl

theorem splitChar_append_sep (sep : Char) (s t : Str) :
    Str.splitChar sep (s ++ sep :: t) = Str.splitChar sep s ++ Str.splitChar sep t := by
  induction s with
  | nil => rw [List.nil_append, Str.splitChar_cons_sep]; rfl
  | cons c s ih =>
    by_cases hc : c = sep
    · subst hc; rw [List.cons_append, Str.splitChar_cons_sep, Str.splitChar_cons_sep, ih]; rfl
    · rw [List.cons_append, Str.splitChar_cons_ne hc, Str.splitChar_cons_ne hc, ih]
      cases hp : Str.splitChar sep s with
      | nil => exact absurd hp (Str.splitChar_ne_nil _ _)
      | cons p ps => rfl

/-- The pieces of one annotation. -/
def annPieces (a : Ann) : List Str := Str.splitChar ',' (a.show c!",")

theorem annPieces_block {a : Ann} (h : a.Valid) : Block (annPieces a) := block_of_deep (show_deep a h)

theorem annPieces_length {a : Ann} (h : a.Valid) : (annPieces a).length - 1 = a.commas := by
  unfold annPieces; rw [splitChar_length, show_commas a h]; omega

theorem annPieces_join (a : Ann) : Str.join [','] (annPieces a) = a.show c!"," := Str.join_splitChar ',' _

theorem validList_iff {as : List Ann} : Ann.ValidList as ↔ ∀ a ∈ as, a.Valid := by
  induction as with
  | nil => simp [Ann.ValidList]
  | cons a as ih => simp [Ann.ValidList, ih]

theorem clearList_iff {as : List Ann} : Ann.clearList as = true ↔ ∀ a ∈ as, a.clear = true := by
  induction as with
  | nil => simp [Ann.clearList]
  | cons a as ih => simp [Ann.clearList, ih]

theorem denoteList_eq (as : List Ann) : Ann.denoteList as = as.map Ann.denote := by
  induction as with
  | nil => rfl
  | cons a as ih => rw [Ann.denoteList, ih]; rfl

theorem splitChar_showTail (s : Str) (as : List Ann) :
    Str.splitChar ',' (s ++ Ann.showTail c!"," as) = Str.splitChar ',' s ++ (as.map annPieces).flatten := by
  induction as generalizing s with
  | nil => simp [Ann.showTail]
  | cons a as ih =>
    rw [Ann.showTail]
    have : s ++ (c!"," ++ a.show c!"," ++ Ann.showTail c!"," as) =
        (s ++ ',' :: a.show c!",") ++ Ann.showTail c!"," as := by simp
    rw [this, ih, splitChar_append_sep, List.map_cons, List.flatten_cons, List.append_assoc]
    rfl

/-- Splitting an argument list and repairing it: what comes out, in terms of the arguments. -/
theorem splitArgs_show (E : Env) {sep : Str} (hs : IsSep sep) (a : Ann) (as : List Ann) (ha : a.Valid)
    (has : Ann.ValidList as) :
    splitArgs E (a.show sep ++ Ann.showTail sep as) = .ok (repairBlocks ((a :: as).map annPieces)) := by
  have htidy := (show_tidy hs a ha).append (showTail_tidy hs as has)
  have hp := pieces_tidy htidy
  unfold splitArgs
  change repair E ',' (pieces _) = _
  rw [hp, List.filter_append, show_filter hs a ha, showTail_filter hs as has, splitChar_showTail]
  have : Str.splitChar ',' (a.show c!",") ++ (as.map annPieces).flatten = ((a :: as).map annPieces).flatten := rfl
  rw [this]
  apply repair_blocks E (by simp)
  intro g hg
  obtain ⟨b, hb, rfl⟩ := List.mem_map.mp hg
  rcases List.mem_cons.mp hb with rfl | hb
  · exact annPieces_block ha
  · exact annPieces_block (validList_iff.mp has b hb)

theorem repairBlocks_args_iff {as : List Ann} (has : ∀ a ∈ as, a.Valid) :
    repairBlocks (as.map annPieces) = as.map (Ann.show c!",") ↔ separable (as.map Ann.commas) = true := by
  have h1 := repairBlocks_eq_iff (gs := as.map annPieces)
    (by
      intro g hg
      obtain ⟨b, hb, rfl⟩ := List.mem_map.mp hg
      exact (annPieces_block (has b hb)).ne)
  have h2 : (as.map annPieces).map (fun g => g.length - 1) = as.map Ann.commas := by
    rw [List.map_map]
    apply List.map_congr_left
    intro b hb
    exact annPieces_length (has b hb)
  have h3 : (as.map annPieces).map (Str.join [',']) = as.map (Ann.show c!",") := by
    rw [List.map_map]
    apply List.map_congr_left
    intro b _
    exact annPieces_join b
  rw [h2, h3] at h1
  exact h1

end Bindgen

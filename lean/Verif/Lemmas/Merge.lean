import Mathlib.Tactic.Common
import Mathlib.Data.List.Perm.Basic
import Mathlib.Data.List.TakeWhile
import Verif.Lemmas.Str
import Verif.Lemmas.Res
import Verif.Model.Codegen
import Verif.Spec.Tree
/-! # Lemmas about sorting and merging modules -/
namespace Bindgen
open Spec

/-! ## Sorting -/

theorem insertMod_perm (m : Module) (l : List Module) : (insertMod m l).Perm (m :: l) := by
  induction l with
  | nil => exact List.Perm.refl _
  | cons x l ih =>
    unfold insertMod
    split
    · exact List.Perm.refl _
    · exact ((ih.cons x).trans (List.Perm.swap m x l))

theorem sortMods_perm (l : List Module) : (sortMods l).Perm l := by
  induction l with
  | nil => exact List.Perm.refl _
  | cons m l ih => exact (insertMod_perm m _).trans (ih.cons m)

/-- Sorted by Python name. -/
def SortedMods (l : List Module) : Prop := l.Pairwise (fun a b => Path.le a.name b.name = true)

theorem insertMod_sorted {m : Module} {l : List Module} (h : SortedMods l) : SortedMods (insertMod m l) := by
  induction l with
  | nil => exact List.pairwise_singleton _ _
  | cons x l ih =>
    have hx := List.pairwise_cons.mp h
    unfold insertMod
    split
    · rename_i hle
      refine List.pairwise_cons.mpr ⟨?_, h⟩
      intro y hy
      rcases List.mem_cons.mp hy with rfl | hy
      · exact hle
      · exact Str.le_trans hle (hx.1 y hy)
    · rename_i hle
      refine List.pairwise_cons.mpr ⟨?_, ih hx.2⟩
      intro y hy
      rcases List.mem_cons.mp ((insertMod_perm m l).mem_iff.mp hy) with rfl | hy
      · exact (Str.le_total x.name.toPy y.name.toPy).resolve_right hle
      · exact hx.1 y hy

theorem sortMods_sorted (l : List Module) : SortedMods (sortMods l) := by
  induction l with
  | nil => exact List.Pairwise.nil
  | cons m l ih => exact insertMod_sorted ih

/-! ## Runs of equal names -/

/-- Maximal runs of equal names; the fuel is the length. -/
def runs : Nat → List Module → List (List Module)
  | 0, _ => []
  | _, [] => []
  | fuel + 1, m :: l =>
    (m :: l.takeWhile (fun x => x.name = m.name)) :: runs fuel (l.dropWhile (fun x => x.name = m.name))

/-- A run of one module stays, a longer one is merged. -/
def mergeRun (f : List Module → Module) : List Module → Module
  | [m] => m
  | l => f l

theorem drop_takeWhile_length {α : Type} (p : α → Bool) (l : List α) : l.drop (l.takeWhile p).length = l.dropWhile p := by
  induction l with
  | nil => rfl
  | cons a l ih => by_cases h : p a <;> simp [h, ih]

theorem dropWhile_length_le {α : Type} (p : α → Bool) (l : List α) : (l.dropWhile p).length ≤ l.length := by
  have := congrArg List.length (List.takeWhile_append_dropWhile (p := p) (l := l))
  simp only [List.length_append] at this
  omega

theorem mergeRange_mid (f : List Module → Module) (pre g post : List Module) :
    mergeRange f (pre ++ (g ++ post)) (pre.length, pre.length + g.length) = pre ++ f g :: post := by
  unfold mergeRange
  have h1 : (pre ++ (g ++ post)).take pre.length = pre := by simp
  have h2 : (pre ++ (g ++ post)).drop pre.length = g ++ post := by simp
  have h3 : (pre ++ (g ++ post)).drop (pre.length + g.length) = post := by
    rw [← List.drop_drop, h2]; simp
  rw [h1, h2, h3]
  simp

/-- Merging the ranges from the back to the front is merging the runs. -/
theorem foldl_ranges (f : List Module → Module) (fuel : Nat) (pre l : List Module) (h : l.length ≤ fuel) :
    (dupRanges fuel pre.length l).reverse.foldl (mergeRange f) (pre ++ l) = pre ++ (runs fuel l).map (mergeRun f) := by
  induction fuel generalizing pre l with
  | zero =>
    have : l = [] := List.length_eq_zero_iff.mp (by omega)
    subst this
    simp [dupRanges, runs]
  | succ fuel ih =>
    cases l with
    | nil => simp [dupRanges, runs]
    | cons m l =>
      simp only [dupRanges, runs]
      generalize hg : m :: l.takeWhile (fun x => decide (x.name = m.name)) = g
      have hlen : 1 + (l.takeWhile (fun x => decide (x.name = m.name))).length = g.length := by rw [← hg]; simp; omega
      have hsplit : m :: l = g ++ l.dropWhile (fun x => decide (x.name = m.name)) := by
        rw [← hg]; simp [List.takeWhile_append_dropWhile]
      have hdrop : (m :: l).drop g.length = l.dropWhile (fun x => decide (x.name = m.name)) := by
        conv_lhs => rw [hsplit]
        simp
      rw [hlen, hdrop]
      have hbound : (l.dropWhile (fun x => decide (x.name = m.name))).length ≤ fuel := by
        have := dropWhile_length_le (fun x => decide (x.name = m.name)) l
        simp only [List.length_cons] at h
        omega
      have := ih (pre ++ g) (l.dropWhile (fun x => decide (x.name = m.name))) hbound
      rw [List.length_append, List.append_assoc, ← hsplit] at this
      rw [List.reverse_append, List.foldl_append, this, List.map_cons, List.append_assoc]
      split
      · rename_i hs
        simp only [List.reverse_cons, List.reverse_nil, List.nil_append, List.foldl_cons, List.foldl_nil]
        rw [mergeRange_mid]
        congr 2
        cases g with
        | nil => simp at hs
        | cons a g =>
          cases g with
          | nil => simp at hs
          | cons b g => rfl
      · rename_i hs
        simp only [List.reverse_nil, List.foldl_nil]
        cases g with
        | nil => cases hg
        | cons a g =>
          cases g with
          | nil => rfl
          | cons b g => simp at hs

theorem mergeDuplicates_eq (f : List Module → Module) (l : List Module) :
    mergeDuplicates f l = (runs (sortMods l).length (sortMods l)).map (mergeRun f) := by
  have := foldl_ranges f (sortMods l).length [] (sortMods l) (Nat.le_refl _)
  simpa [mergeDuplicates] using this

theorem runs_flatten (fuel : Nat) (l : List Module) (h : l.length ≤ fuel) : (runs fuel l).flatten = l := by
  induction fuel generalizing l with
  | zero =>
    have : l = [] := List.length_eq_zero_iff.mp (by omega)
    subst this; rfl
  | succ fuel ih =>
    cases l with
    | nil => rfl
    | cons m l =>
      have := dropWhile_length_le (fun x => decide (x.name = m.name)) l
      simp only [List.length_cons] at h
      rw [runs, List.flatten_cons, ih _ (by omega)]
      simp [List.takeWhile_append_dropWhile]

/-- A run is not empty and has one name. -/
theorem runs_name {fuel : Nat} {l g : List Module} (hg : g ∈ runs fuel l) :
    ∃ m r, g = m :: r ∧ ∀ x ∈ g, x.name = m.name := by
  induction fuel generalizing l with
  | zero => cases hg
  | succ fuel ih =>
    cases l with
    | nil => cases hg
    | cons m l =>
      rw [runs] at hg
      rcases List.mem_cons.mp hg with rfl | hg
      · refine ⟨m, _, rfl, ?_⟩
        intro x hx
        rcases List.mem_cons.mp hx with rfl | hx
        · rfl
        · simpa using List.mem_takeWhile_imp hx
      · exact ih hg

/-- The module a run becomes has the name of the run if merging keeps the name of the first module. -/
theorem mergeRun_name {f : List Module → Module} (hf : ∀ m r, (f (m :: r)).name = m.name) (m : Module) (r : List Module) :
    (mergeRun f (m :: r)).name = m.name := by
  cases r with
  | nil => rfl
  | cons x r => exact hf m (x :: r)

theorem mergeModules_name (E : Env) (fuel : Nat) (m : Module) (r : List Module) :
    (mergeModules E fuel (m :: r)).name = m.name := by
  cases fuel <;> rfl

/-! ## Depth -/

theorem depth_eq (m : Module) : m.depth = depthList m.submodules + 1 := by cases m; rw [Module.depth]

theorem depthList_mem {l : List Module} {m : Module} (h : m ∈ l) : m.depth ≤ depthList l := by
  induction l with
  | nil => cases h
  | cons x l ih =>
    rw [depthList]
    rcases List.mem_cons.mp h with rfl | h
    · exact Nat.le_max_left _ _
    · exact Nat.le_trans (ih h) (Nat.le_max_right _ _)

theorem depthList_le {l : List Module} {d : Nat} (h : ∀ m ∈ l, m.depth ≤ d) : depthList l ≤ d := by
  induction l with
  | nil => exact Nat.zero_le _
  | cons x l ih =>
    rw [depthList]
    exact Nat.max_le.mpr ⟨h x (by simp), ih fun m hm => h m (by simp [hm])⟩

theorem depthList_sub {l : List Module} {d : Nat} (h : depthList l ≤ d + 1) :
    depthList (l.flatMap Module.submodules) ≤ d := by
  refine depthList_le fun m hm => ?_
  obtain ⟨x, hx, hm⟩ := List.mem_flatMap.mp hm
  have h1 := depthList_mem hx
  have h2 := depthList_mem hm
  rw [depth_eq] at h1
  omega

theorem depthList_congr {l l' : List Module} (h : ∀ m, m ∈ l ↔ m ∈ l') : depthList l = depthList l' :=
  Nat.le_antisymm (depthList_le fun m hm => depthList_mem ((h m).mp hm))
    (depthList_le fun m hm => depthList_mem ((h m).mpr hm))

/-! ## Items of a merged module -/

theorem mergeModules_has (E : Env) (fuel : Nat) (g : List Module) (x : SItem) :
    Has (mergeModules E (fuel + 1) g) x ↔ ∃ m ∈ g, Has m x := by
  cases x <;> simp only [Has, mergeModules, E.set_mem, List.mem_flatMap]

theorem mergeModules_submodules (E : Env) (fuel : Nat) (g : List Module) :
    (mergeModules E (fuel + 1) g).submodules = mergeDuplicates (mergeModules E fuel) (g.flatMap Module.submodules) := rfl

/-! ## Membership after merging -/

theorem mem_mergeDuplicates {f : List Module → Module} {l : List Module} {M : Module} :
    M ∈ mergeDuplicates f l ↔ ∃ g ∈ runs (sortMods l).length (sortMods l), M = mergeRun f g := by
  rw [mergeDuplicates_eq, List.mem_map]
  constructor
  · rintro ⟨g, hg, rfl⟩; exact ⟨g, hg, rfl⟩
  · rintro ⟨g, hg, rfl⟩; exact ⟨g, hg, rfl⟩

theorem mem_run {l g : List Module} {m : Module} (hg : g ∈ runs (sortMods l).length (sortMods l)) (hm : m ∈ g) : m ∈ l := by
  refine (sortMods_perm l).mem_iff.mp ?_
  rw [← runs_flatten _ (sortMods l) (Nat.le_refl _)]
  exact List.mem_flatten.mpr ⟨g, hg, hm⟩

theorem exists_run {l : List Module} {m : Module} (hm : m ∈ l) :
    ∃ g ∈ runs (sortMods l).length (sortMods l), m ∈ g := by
  have := (sortMods_perm l).mem_iff.mpr hm
  rw [← runs_flatten _ (sortMods l) (Nat.le_refl _)] at this
  exact List.mem_flatten.mp this

/-- A property of modules that a merged run has iff one of its modules has it survives merging by name. -/
theorem mergeDuplicates_exists {f : List Module → Module} {l : List Module} (hf : ∀ m r, (f (m :: r)).name = m.name)
    {Q : Module → Prop} (hQ : ∀ g, g ≠ [] → (∀ m ∈ g, m ∈ l) → (Q (f g) ↔ ∃ m ∈ g, Q m)) (n : Path) :
    (∃ M ∈ mergeDuplicates f l, M.name = n ∧ Q M) ↔ ∃ m ∈ l, m.name = n ∧ Q m := by
  have hrun : ∀ g, (∀ m ∈ g, m ∈ l) → g ≠ [] → (Q (mergeRun f g) ↔ ∃ m ∈ g, Q m) := by
    intro g hg hne
    match g with
    | [] => exact absurd rfl hne
    | [m] => simp [mergeRun]
    | m :: m' :: r => exact hQ _ hne hg
  constructor
  · rintro ⟨M, hM, hn, hq⟩
    obtain ⟨g, hg, rfl⟩ := mem_mergeDuplicates.mp hM
    obtain ⟨m, r, rfl, hname⟩ := runs_name hg
    obtain ⟨x, hx, hq⟩ := (hrun _ (fun y hy => mem_run hg hy) (by simp)).mp hq
    refine ⟨x, mem_run hg hx, ?_, hq⟩
    rw [hname x hx, ← hn, mergeRun_name hf]
  · rintro ⟨x, hx, hn, hq⟩
    obtain ⟨g, hg, hxg⟩ := exists_run hx
    obtain ⟨m, r, rfl, hname⟩ := runs_name hg
    refine ⟨_, mem_mergeDuplicates.mpr ⟨_, hg, rfl⟩, ?_, (hrun _ (fun y hy => mem_run hg hy) (by simp)).mpr ⟨x, hxg, hq⟩⟩
    rw [mergeRun_name hf, ← hname x hxg, hn]

theorem nodeAt_flatMap (g : List Module) (ns : List Path) (m : Module) :
    NodeAt (g.flatMap Module.submodules) ns m ↔ ∃ k ∈ g, NodeAt k.submodules ns m := by
  match ns with
  | [] => simp [NodeAt]
  | [n] =>
    simp only [NodeAt, List.mem_flatMap]
    constructor
    · rintro ⟨⟨k, hk, hm⟩, hn⟩; exact ⟨k, hk, hm, hn⟩
    · rintro ⟨k, hk, hm, hn⟩; exact ⟨⟨k, hk, hm⟩, hn⟩
  | n :: n' :: ns =>
    simp only [NodeAt, List.mem_flatMap]
    constructor
    · rintro ⟨x, ⟨k, hk, hx⟩, h⟩; exact ⟨k, hk, x, hx, h⟩
    · rintro ⟨k, hk, x, hx, h⟩; exact ⟨x, ⟨k, hk, hx⟩, h⟩

theorem nodeAt_congr {l l' : List Module} (h : ∀ m, m ∈ l ↔ m ∈ l') (ns : List Path) (m : Module) :
    NodeAt l ns m ↔ NodeAt l' ns m := by
  match ns with
  | [] => exact Iff.rfl
  | [n] => simp only [NodeAt, h]
  | n :: n' :: ns => simp only [NodeAt, h]

/-- Merging neither loses nor invents: for properties that a merged module has iff one of its parts has. -/
theorem merge_nodes (E : Env) {Q : Module → Prop}
    (hQ : ∀ fuel g, g ≠ [] → (Q (mergeModules E (fuel + 1) g) ↔ ∃ m ∈ g, Q m)) (fuel : Nat) (l : List Module)
    (hd : depthList l ≤ fuel) (ns : List Path) :
    (∃ m, NodeAt (mergeDuplicates (mergeModules E fuel) l) ns m ∧ Q m) ↔ ∃ m, NodeAt l ns m ∧ Q m := by
  induction fuel generalizing l ns with
  | zero =>
    have : l = [] := by
      cases l with
      | nil => rfl
      | cons x l =>
        rw [depthList, depth_eq] at hd
        omega
    subst this
    have : mergeDuplicates (mergeModules E 0) [] = [] := rfl
    rw [this]
  | succ fuel ih =>
    match ns with
    | [] => simp [NodeAt]
    | [n] =>
      have := mergeDuplicates_exists (l := l) (mergeModules_name E (fuel + 1)) (Q := Q) (fun g hne _ => hQ fuel g hne) n
      simp only [NodeAt]
      constructor
      · rintro ⟨m, ⟨hm, hn⟩, hq⟩
        obtain ⟨x, hx, hn, hq⟩ := this.mp ⟨m, hm, hn, hq⟩
        exact ⟨x, ⟨hx, hn⟩, hq⟩
      · rintro ⟨m, ⟨hm, hn⟩, hq⟩
        obtain ⟨x, hx, hn, hq⟩ := this.mpr ⟨m, hm, hn, hq⟩
        exact ⟨x, ⟨hx, hn⟩, hq⟩
    | n :: n' :: ns =>
      have := mergeDuplicates_exists (l := l) (mergeModules_name E (fuel + 1))
        (Q := fun m => ∃ k, NodeAt m.submodules (n' :: ns) k ∧ Q k) (fun g _ hg => by
          rw [mergeModules_submodules, ih _ (depthList_sub (Nat.le_trans (depthList_le fun m hm => depthList_mem (hg m hm)) hd))]
          constructor
          · rintro ⟨k, hk, hq⟩
            obtain ⟨m, hm, hk⟩ := (nodeAt_flatMap g _ _).mp hk
            exact ⟨m, hm, k, hk, hq⟩
          · rintro ⟨m, hm, k, hk, hq⟩
            exact ⟨k, (nodeAt_flatMap g _ _).mpr ⟨m, hm, hk⟩, hq⟩) n
      simp only [NodeAt]
      constructor
      · rintro ⟨m, ⟨x, hx, hn, hm⟩, hq⟩
        obtain ⟨y, hy, hn, k, hk, hq⟩ := this.mp ⟨x, hx, hn, m, hm, hq⟩
        exact ⟨k, ⟨y, hy, hn, hk⟩, hq⟩
      · rintro ⟨m, ⟨x, hx, hn, hm⟩, hq⟩
        obtain ⟨y, hy, hn, k, hk, hq⟩ := this.mpr ⟨x, hx, hn, m, hm, hq⟩
        exact ⟨k, ⟨y, hy, hn, hk⟩, hq⟩

theorem merge_items (E : Env) (l : List Module) (ns : List Path) (x : SItem) :
    ItemAt (mergeTop E l) ns x ↔ ItemAt l ns x :=
  merge_nodes E (Q := fun m => Has m x) (fun fuel g _ => mergeModules_has E fuel g x) _ l (Nat.le_refl _) ns

theorem merge_modules (E : Env) (l : List Module) (ns : List Path) :
    ModuleAt (mergeTop E l) ns ↔ ModuleAt l ns := by
  have := merge_nodes E (Q := fun _ => True) (fun fuel g hne => by
    cases g with
    | nil => exact absurd rfl hne
    | cons a g => simp) _ l (Nat.le_refl (depthList l)) ns
  simpa [ModuleAt, mergeTop] using this

/-! ## Order and uniqueness -/

theorem mergeDuplicates_sublist {f : List Module → Module} (hf : ∀ m r, (f (m :: r)).name = m.name) (l : List Module) :
    ((mergeDuplicates f l).map Module.name).Sublist ((sortMods l).map Module.name) := by
  rw [mergeDuplicates_eq]
  have key : ∀ (fuel : Nat) (l : List Module), l.length ≤ fuel →
      (((runs fuel l).map (mergeRun f)).map Module.name).Sublist (l.map Module.name) := by
    intro fuel
    induction fuel with
    | zero => intro l _; simp [runs]
    | succ fuel ih =>
      intro l hl
      cases l with
      | nil => simp [runs]
      | cons m l =>
        have hlen := dropWhile_length_le (fun x => decide (x.name = m.name)) l
        simp only [List.length_cons] at hl
        rw [runs, List.map_cons, List.map_cons, mergeRun_name hf, List.map_cons]
        refine List.Sublist.cons_cons _ ((ih _ (by omega)).trans ?_)
        exact (List.dropWhile_sublist _).map _
  exact key _ _ (Nat.le_refl _)

theorem mergeDuplicates_sorted {f : List Module → Module} (hf : ∀ m r, (f (m :: r)).name = m.name) (l : List Module) :
    ((mergeDuplicates f l).map Module.name).Pairwise (fun a b => Path.le a b = true) := by
  refine List.Pairwise.sublist (mergeDuplicates_sublist hf l) ?_
  rw [List.pairwise_map]
  exact sortMods_sorted l

/-- In a sorted list with regular names different runs have different names. -/
theorem runs_distinct (fuel : Nat) (l : List Module) (hs : SortedMods l)
    (hr : ∀ a ∈ l, ∀ b ∈ l, a.name.toPy = b.name.toPy → a.name = b.name) :
    (runs fuel l).Pairwise (fun g h => ∀ a ∈ g, ∀ b ∈ h, a.name ≠ b.name) := by
  induction fuel generalizing l with
  | zero => exact List.Pairwise.nil
  | succ fuel ih =>
    cases l with
    | nil => exact List.Pairwise.nil
    | cons m l =>
      have hm := List.pairwise_cons.mp hs
      have hsub := List.dropWhile_sublist (fun x => decide (x.name = m.name)) (l := l)
      rw [runs]
      refine List.pairwise_cons.mpr ⟨?_, ih _ (List.Pairwise.sublist hsub hm.2) fun a ha b hb =>
        hr a (by simp [hsub.subset ha]) b (by simp [hsub.subset hb])⟩
      intro h hh a ha b hb hab
      have ha' : a.name = m.name := by
        rcases List.mem_cons.mp ha with rfl | ha
        · rfl
        · simpa using List.mem_takeWhile_imp ha
      -- `b` is in the rest
      have hb' : b ∈ l.dropWhile (fun x => decide (x.name = m.name)) := by
        have hlt : ∀ fuel (l : List Module), ∀ h ∈ runs fuel l, ∀ b ∈ h, b ∈ l := by
          intro fuel
          induction fuel with
          | zero => intro l h hh; cases hh
          | succ fuel ih =>
            intro l h hh b hb
            cases l with
            | nil => cases hh
            | cons m l =>
              rw [runs] at hh
              rcases List.mem_cons.mp hh with rfl | hh
              · rcases List.mem_cons.mp hb with rfl | hb
                · simp
                · exact List.mem_cons_of_mem _ ((List.takeWhile_sublist _).subset hb)
              · exact List.mem_cons_of_mem _ ((List.dropWhile_sublist _).subset (ih _ h hh b hb))
        exact hlt _ _ h hh b hb
      cases hd : l.dropWhile (fun x => decide (x.name = m.name)) with
      | nil => rw [hd] at hb'; cases hb'
      | cons c rest =>
        have hc : c.name ≠ m.name := by
          have := List.head?_dropWhile_not (fun x => decide (x.name = m.name)) l
          rw [hd] at this
          simpa using this
        have hcl : c ∈ l := hsub.subset (by rw [hd]; simp)
        have hbl : b ∈ l := hsub.subset hb'
        have h1 : Path.le m.name c.name = true := hm.1 c hcl
        have h2 : Path.le c.name b.name = true := by
          rw [hd] at hb'
          rcases List.mem_cons.mp hb' with rfl | hb'
          · exact Str.le_refl _
          · have : SortedMods (c :: rest) := hd ▸ List.Pairwise.sublist hsub hm.2
            exact (List.pairwise_cons.mp this).1 b hb'
        rw [← hab, ha'] at h2
        exact hc (hr c (by simp [hcl]) m (by simp) (Str.le_antisymm h2 h1))

theorem mergeDuplicates_nodup {f : List Module → Module} (hf : ∀ m r, (f (m :: r)).name = m.name) (l : List Module)
    (hr : ∀ a ∈ l, ∀ b ∈ l, a.name.toPy = b.name.toPy → a.name = b.name) :
    ((mergeDuplicates f l).map Module.name).Nodup := by
  rw [mergeDuplicates_eq, List.map_map]
  have hd := runs_distinct (sortMods l).length (sortMods l) (sortMods_sorted l) (fun a ha b hb =>
    hr a ((sortMods_perm l).mem_iff.mp ha) b ((sortMods_perm l).mem_iff.mp hb))
  rw [List.Nodup, List.pairwise_map]
  refine List.Pairwise.imp_of_mem ?_ hd
  intro g h hg hh hgh
  obtain ⟨a, r, rfl, -⟩ := runs_name hg
  obtain ⟨b, s, rfl, -⟩ := runs_name hh
  simp only [Function.comp, mergeRun_name hf]
  exact hgh a (by simp) b (by simp)

theorem inTree_flatMap {a : Module} {l g : List Module} (hg : ∀ m ∈ g, m ∈ l)
    (h : InTree a (g.flatMap Module.submodules)) : InTree a l := by
  cases h with
  | top h =>
    obtain ⟨k, hk, ha⟩ := List.mem_flatMap.mp h
    exact .sub (hg k hk) (.top ha)
  | sub hn h =>
    obtain ⟨k, hk, hn⟩ := List.mem_flatMap.mp hn
    exact .sub (hg k hk) (.sub hn h)

/-- Merging leaves no two siblings of the same name, provided the modules that are not merged have none. -/
theorem merge_distinct (E : Env) (fuel : Nat) (l : List Module) (hd : depthList l ≤ fuel) (hr : RegularNames l)
    (hs : DistinctSubmodules l) : DistinctSubmodules (mergeDuplicates (mergeModules E fuel) l) := by
  induction fuel generalizing l with
  | zero =>
    have : l = [] := by
      cases l with
      | nil => rfl
      | cons x l => rw [depthList, depth_eq] at hd; omega
    subst this
    exact hs
  | succ fuel ih =>
    have hmerged : ∀ g : List Module, (∀ m ∈ g, m ∈ l) →
        ((mergeDuplicates (mergeModules E fuel) (g.flatMap Module.submodules)).map Module.name).Nodup ∧
        DistinctSubmodules (mergeDuplicates (mergeModules E fuel) (g.flatMap Module.submodules)) := by
      intro g hg
      have hr' : RegularNames (g.flatMap Module.submodules) := fun a b ha hb =>
        hr a b (inTree_flatMap hg ha) (inTree_flatMap hg hb)
      refine ⟨mergeDuplicates_nodup (mergeModules_name E fuel) _ fun a ha b hb => hr' a b (.top ha) (.top hb), ?_⟩
      refine ih _ (depthList_sub (Nat.le_trans (depthList_le fun m hm => depthList_mem (hg m hm)) hd)) hr' ?_
      exact fun m hm => hs m (inTree_flatMap hg hm)
    intro x hx
    have key : ∀ M ∈ mergeDuplicates (mergeModules E (fuel + 1)) l,
        (M.submodules.map Module.name).Nodup ∧ DistinctSubmodules M.submodules := by
      intro M hM
      obtain ⟨g, hg, rfl⟩ := mem_mergeDuplicates.mp hM
      have hgl : ∀ m ∈ g, m ∈ l := fun m hm => mem_run hg hm
      match g with
      | [] => exact absurd hg (by intro h; obtain ⟨m, r, h, -⟩ := runs_name h; cases h)
      | [m] => exact ⟨hs m (.top (hgl m (by simp))), fun y hy => hs y (.sub (hgl m (by simp)) hy)⟩
      | m :: m' :: r => exact hmerged (m :: m' :: r) hgl
    cases hx with
    | top h => exact (key x h).1
    | sub hn h => exact (key _ hn).2 x h

end Bindgen

import Verif.Lemmas.Merge
import Verif.Lemmas.Path
/-! # Lemmas about the canonical form -/
namespace Bindgen
open Spec

/-! ## Trees -/

theorem nodeAt_inTree {l : List Module} {ns : List Path} {m : Module} (h : NodeAt l ns m) : InTree m l := by
  induction ns generalizing l with
  | nil => cases h
  | cons n ns ih =>
    cases ns with
    | nil => exact .top h.1
    | cons n' ns =>
      obtain ⟨k, hk, -, h⟩ := h
      exact .sub hk (ih h)

theorem inTree_nodeAt {l : List Module} {m : Module} (h : InTree m l) : ∃ ns, NodeAt l (ns ++ [m.name]) m := by
  induction h with
  | top h => exact ⟨[], h, rfl⟩
  | sub hn _ ih =>
    obtain ⟨ns, ih⟩ := ih
    rename_i n _
    refine ⟨n.name :: ns, ?_⟩
    cases hns : ns ++ [m.name] with
    | nil => rw [hns] at ih; cases ih
    | cons a as =>
      rw [List.cons_append, hns, NodeAt]
      exact ⟨n, hn, rfl, hns ▸ ih⟩

theorem nodeAt_name {l : List Module} {ns : List Path} {m : Module} (h : NodeAt l ns m) : ns.getLast? = some m.name := by
  induction ns generalizing l with
  | nil => cases h
  | cons n ns ih =>
    cases ns with
    | nil => rw [← h.2]; rfl
    | cons n' ns =>
      obtain ⟨k, -, -, h⟩ := h
      rw [List.getLast?_cons_cons]
      exact ih h

theorem nodeAt_cons {m : Module} {n : Path} {ns : List Path} {x : Module} :
    NodeAt [m] (n :: ns) x ↔ m.name = n ∧ ((ns = [] ∧ x = m) ∨ NodeAt m.submodules ns x) := by
  cases ns with
  | nil =>
    simp only [NodeAt, List.mem_singleton, true_and, or_false]
    constructor
    · rintro ⟨rfl, h⟩; exact ⟨h, rfl⟩
    · rintro ⟨h, rfl⟩; exact ⟨rfl, h⟩
  | cons n' ns =>
    simp only [NodeAt, List.mem_singleton]
    constructor
    · rintro ⟨k, rfl, hn, h⟩; exact ⟨hn, Or.inr h⟩
    · rintro ⟨hn, h⟩
      rcases h with ⟨h, -⟩ | h
      · cases h
      · exact ⟨m, rfl, hn, h⟩

theorem nodeAt_mem {l : List Module} {ns : List Path} {x : Module} : NodeAt l ns x ↔ ∃ m ∈ l, NodeAt [m] ns x := by
  match ns with
  | [] => simp [NodeAt]
  | [n] => simp [NodeAt]
  | n :: n' :: ns => simp [NodeAt]

/-! ## Embedding into the parent packages -/

theorem empty_ok {W : World} {p : Path} {m : Module} (h : Module.empty W p = .ok m) :
    ∃ doc, m = { name := p, doc := doc } := by
  unfold Module.empty at h
  obtain ⟨_, -, h⟩ := Res.bind_ok h
  obtain ⟨_, -, h⟩ := Res.bind_ok h
  obtain ⟨doc, -, h⟩ := Res.bind_ok h
  cases h
  exact ⟨doc, rfl⟩

theorem orUnreachable_ok {α : Type} {r : Res α} {a : α} (h : orUnreachable r = .ok a) : r = .ok a := by
  unfold orUnreachable at h
  split at h
  · cases h
  · exact h

/-- A module without items around one submodule. -/
def Shell (q : Path) (pkg r : Module) : Prop :=
  r.name = q ∧ r.submodules = [pkg] ∧ (∀ s, ¬ Has r s) ∧ r.source = none

theorem shell_items {q : Path} {pkg r : Module} (h : Shell q pkg r) (ns : List Path) (s : SItem) :
    ItemAt [r] ns s ↔ ∃ ns', ns = q :: ns' ∧ ItemAt [pkg] ns' s := by
  obtain ⟨h1, h2, h3, -⟩ := h
  cases ns with
  | nil => simp [ItemAt, NodeAt]
  | cons n ns =>
    simp only [ItemAt, nodeAt_cons, h1, h2, List.cons.injEq]
    constructor
    · rintro ⟨x, ⟨rfl, h⟩, hx⟩
      rcases h with ⟨-, rfl⟩ | h
      · exact absurd hx (h3 s)
      · exact ⟨ns, ⟨rfl, rfl⟩, x, h, hx⟩
    · rintro ⟨ns', ⟨rfl, rfl⟩, x, h, hx⟩
      exact ⟨x, ⟨rfl, Or.inr h⟩, hx⟩

theorem shell_modules {q : Path} {pkg r : Module} (h : Shell q pkg r) (ns : List Path) :
    ModuleAt [r] ns ↔ ns = [q] ∨ ∃ ns', ns = q :: ns' ∧ ModuleAt [pkg] ns' := by
  obtain ⟨h1, h2, -⟩ := h
  cases ns with
  | nil => simp [ModuleAt, NodeAt]
  | cons n ns =>
    simp only [ModuleAt, nodeAt_cons, h1, h2, List.cons.injEq]
    constructor
    · rintro ⟨x, rfl, h⟩
      rcases h with ⟨rfl, rfl⟩ | h
      · exact Or.inl ⟨rfl, rfl⟩
      · exact Or.inr ⟨ns, ⟨rfl, rfl⟩, x, h⟩
    · rintro (⟨rfl, rfl⟩ | ⟨ns', ⟨rfl, rfl⟩, x, h⟩)
      · exact ⟨r, rfl, Or.inl ⟨rfl, rfl⟩⟩
      · exact ⟨x, rfl, Or.inr h⟩

/-- The fold that embeds a module. -/
def wrapFold (W : World) (segs : List Ident) (pkg : Module) (n : Nat) : Res Module :=
  foldRes (fun (pkg : Module) (i : Nat) => do
    let parent ← orUnreachable (Module.empty W (Path.ofSegs (segs.take (i + 1))))
    return { parent with submodules := parent.submodules ++ [pkg] }) pkg (List.range n).reverse

theorem wrapFold_zero (W : World) (segs : List Ident) (pkg : Module) : wrapFold W segs pkg 0 = .ok pkg := rfl

theorem wrapFold_succ {W : World} {segs : List Ident} {pkg r : Module} {n : Nat}
    (h : wrapFold W segs pkg (n + 1) = .ok r) :
    ∃ p, Shell (Path.ofSegs (segs.take (n + 1))) pkg p ∧ wrapFold W segs p n = .ok r := by
  unfold wrapFold at h
  rw [List.range_succ, List.reverse_append, List.reverse_singleton, List.singleton_append, foldRes] at h
  obtain ⟨p, hp, h⟩ := Res.bind_ok h
  obtain ⟨e, he, hp⟩ := Res.bind_ok hp
  obtain ⟨doc, rfl⟩ := empty_ok (orUnreachable_ok he)
  cases hp
  refine ⟨_, ⟨rfl, rfl, ?_, rfl⟩, h⟩
  intro s
  cases s <;> simp [Has]

/-- The names of the shells. -/
def shells (segs : List Ident) (n : Nat) : List Path := (List.range n).map (fun i => Path.ofSegs (segs.take (i + 1)))

theorem shells_succ (segs : List Ident) (n : Nat) :
    shells segs (n + 1) = shells segs n ++ [Path.ofSegs (segs.take (n + 1))] := by
  simp [shells, List.range_succ]

theorem wrapFold_items {W : World} {segs : List Ident} {pkg r : Module} {n : Nat} (h : wrapFold W segs pkg n = .ok r)
    (ns : List Path) (s : SItem) : ItemAt [r] ns s ↔ ∃ ns', ns = shells segs n ++ ns' ∧ ItemAt [pkg] ns' s := by
  induction n generalizing pkg with
  | zero => cases h; simp [shells]
  | succ n ih =>
    obtain ⟨p, hp, h⟩ := wrapFold_succ h
    rw [ih h]
    constructor
    · rintro ⟨ns1, rfl, h1⟩
      obtain ⟨ns2, rfl, h2⟩ := (shell_items hp _ _).mp h1
      exact ⟨ns2, by rw [shells_succ]; simp, h2⟩
    · rintro ⟨ns1, rfl, h1⟩
      exact ⟨_, by rw [shells_succ, List.append_assoc], (shell_items hp _ _).mpr ⟨ns1, by simp, h1⟩⟩

theorem wrapFold_modules {W : World} {segs : List Ident} {pkg r : Module} {n : Nat} (h : wrapFold W segs pkg n = .ok r)
    (ns : List Path) : ModuleAt [r] ns ↔
      (∃ ns', ns = shells segs n ++ ns' ∧ ModuleAt [pkg] ns') ∨ ∃ i < n, ns = shells segs (i + 1) := by
  induction n generalizing pkg with
  | zero => cases h; simp [shells]
  | succ n ih =>
    obtain ⟨p, hp, h⟩ := wrapFold_succ h
    rw [ih h]
    constructor
    · rintro (⟨ns1, rfl, h1⟩ | ⟨i, hi, rfl⟩)
      · rcases (shell_modules hp _).mp h1 with rfl | ⟨ns2, rfl, h2⟩
        · exact Or.inr ⟨n, by omega, by rw [shells_succ]⟩
        · exact Or.inl ⟨ns2, by rw [shells_succ]; simp, h2⟩
      · exact Or.inr ⟨i, by omega, rfl⟩
    · rintro (⟨ns1, rfl, h1⟩ | ⟨i, hi, rfl⟩)
      · exact Or.inl ⟨_, by rw [shells_succ, List.append_assoc], (shell_modules hp _).mpr (Or.inr ⟨ns1, by simp, h1⟩)⟩
      · rcases Nat.lt_or_ge i n with hin | hin
        · exact Or.inr ⟨i, hin, rfl⟩
        · have : i = n := by omega
          subst this
          exact Or.inl ⟨_, by rw [shells_succ], (shell_modules hp _).mpr (Or.inl rfl)⟩

theorem wrapFold_name {W : World} {segs : List Ident} {pkg r : Module} {n : Nat} (h : wrapFold W segs pkg n = .ok r) :
    r.name = if n = 0 then pkg.name else Path.ofSegs (segs.take 1) := by
  induction n generalizing pkg with
  | zero => cases h; rfl
  | succ n ih =>
    obtain ⟨p, hp, h⟩ := wrapFold_succ h
    rw [ih h]
    cases n with
    | zero => simp [hp.1]
    | succ n => simp

/-- Nodes of the result: nodes of the module, or shells. -/
theorem wrapFold_inTree {W : World} {segs : List Ident} {pkg r : Module} {n : Nat} (h : wrapFold W segs pkg n = .ok r)
    {x : Module} (hx : InTree x [r]) : InTree x [pkg] ∨ ∃ i < n, ∃ q, Shell (Path.ofSegs (segs.take (i + 1))) q x := by
  induction n generalizing pkg with
  | zero => cases h; exact Or.inl hx
  | succ n ih =>
    obtain ⟨p, hp, h⟩ := wrapFold_succ h
    rcases ih h with h1 | ⟨i, hi, q, hq⟩
    · cases h1 with
      | top h1 =>
        simp only [List.mem_singleton] at h1
        subst h1
        exact Or.inr ⟨n, by omega, pkg, hp⟩
      | sub h1 h2 =>
        simp only [List.mem_singleton] at h1
        subst h1
        rw [hp.2.1] at h2
        exact Or.inl h2
    · exact Or.inr ⟨i, by omega, q, hq⟩

theorem wrap_eq (W : World) (m : Module) : m.wrap W = wrapFold W m.name.segs m (m.name.segs.length - 1) := by
  unfold Module.wrap
  split
  · rfl
  · rename_i h
    have : m.name.segs.length - 1 = 0 := by omega
    rw [this]
    rfl

theorem shells_packages (p : Path) : shells p.segs (p.segs.length - 1) = packages p := rfl

end Bindgen

import Verif.Spec.Order
import Verif.Lemmas.Submodules
import Verif.Lemmas.Prepared
/-! # The order of hash sets -/
namespace Bindgen
open Spec

theorem Spec.SameButOrder.symm {E E' : Env} (h : SameButOrder E E') : SameButOrder E' E :=
  ⟨h.xidStart.symm, h.xidContinue.symm, h.alnum.symm, h.debug.symm, h.numpy.symm⟩

/-! ## What does not depend on the order at all -/

theorem fromPy_same {E E' : Env} (h : SameButOrder E E') : Ident.fromPy E' = Ident.fromPy E := by
  obtain ⟨h1, h2, h3, h4, h5⟩ := h
  cases E; cases E'
  simp only at h1 h2 h3 h4 h5
  subst h1 h2 h3 h4 h5
  rfl

theorem pathFromPy_same {E E' : Env} (h : SameButOrder E E') : Path.fromPy E' = Path.fromPy E := by
  obtain ⟨h1, h2, h3, h4, h5⟩ := h
  cases E; cases E'
  simp only at h1 h2 h3 h4 h5
  subst h1 h2 h3 h4 h5
  rfl

theorem candidates_same {E E' : Env} (h : SameButOrder E E') : moduleCandidates E' = moduleCandidates E := by
  obtain ⟨h1, h2, h3, h4, h5⟩ := h
  cases E; cases E'
  simp only at h1 h2 h3 h4 h5
  subst h1 h2 h3 h4 h5
  rfl

theorem extractPrelude_same {E E' : Env} (h : SameButOrder E E') : extractPrelude E' = extractPrelude E := by
  obtain ⟨h1, h2, h3, h4, h5⟩ := h
  cases E; cases E'
  simp only at h1 h2 h3 h4 h5
  subst h1 h2 h3 h4 h5
  rfl

theorem pathCheck_same {E E' : Env} (h : SameButOrder E E') : Path.checkPy E' = Path.checkPy E := by
  obtain ⟨h1, h2, h3, h4, h5⟩ := h
  cases E; cases E'
  simp only at h1 h2 h3 h4 h5
  subst h1 h2 h3 h4 h5
  rfl

theorem checkPrelude_same {E E' : Env} (h : SameButOrder E E') : checkPrelude E' = checkPrelude E := by
  obtain ⟨h1, h2, h3, h4, h5⟩ := h
  cases E; cases E'
  simp only at h1 h2 h3 h4 h5
  subst h1 h2 h3 h4 h5
  rfl

theorem checkAttrs_same {E E' : Env} (h : SameButOrder E E') : checkAttrs E' = checkAttrs E := by
  obtain ⟨h1, h2, h3, h4, h5⟩ := h
  cases E; cases E'
  simp only at h1 h2 h3 h4 h5
  subst h1 h2 h3 h4 h5
  rfl

theorem extractSubmodules_same {E E' : Env} (h : SameButOrder E E') : extractSubmodules E' = extractSubmodules E := by
  obtain ⟨h1, h2, h3, h4, h5⟩ := h
  cases E; cases E'
  simp only at h1 h2 h3 h4 h5
  subst h1 h2 h3 h4 h5
  rfl

set_option smartUnfolding false in
theorem moduleStep_same {E E' : Env} (h : SameButOrder E E') : moduleStep E' = moduleStep E := by
  obtain ⟨h1, h2, h3, h4, h5⟩ := h
  cases E; cases E'
  simp only at h1 h2 h3 h4 h5
  subst h1 h2 h3 h4 h5
  with_unfolding_all rfl

/-! ## The submodules of a parsed module -/

/-- The item is one that an overwriting import takes over from the module. -/
def Taken (c : Import) (s : Module) (x : SItem) : Prop := StHas (takeOver {} c s) x

theorem takeOver_stHas {st : ParseState} {c : Import} {s : Module} {x : SItem} :
    StHas (takeOver st c s) x ↔ StHas st x ∨ Taken c s x := by
  cases x with
  | prelude i => simp [StHas, Taken]
  | _ => simp only [StHas, Taken, takeOver, List.mem_append, List.not_mem_nil, false_or]

theorem mem_find_map {α : Type} {l : List α} {f : α → Path} {p : Path} {g : α → α} {b : α} (hn : (l.map f).Nodup) :
    b ∈ ((l.find? (fun x => decide (f x = p))).map g).toList ↔ ∃ a ∈ l, f a = p ∧ b = g a := by
  constructor
  · intro h
    obtain ⟨a, ha, h1, rfl⟩ := find_map h
    exact ⟨a, ha, of_decide_eq_true h1, rfl⟩
  · rintro ⟨a, ha, h1, rfl⟩
    cases hf : l.find? (fun x => decide (f x = p)) with
    | none => exact absurd (List.find?_eq_none.mp hf a ha) (by simp [h1])
    | some a' =>
      have h2 : f a' = p := of_decide_eq_true (List.find?_some (p := fun x => decide (f x = p)) hf)
      have h3 := List.mem_of_find?_eq_some hf
      have : a' = a := List.inj_on_of_nodup_map hn h3 ha (h2.trans h1.symm)
      simp [this]

/-- If names are unique, the items taken over are those of the name the import refers to. -/
theorem taken_iff {c : Import} {s : Module} (hs : s.itemNames.Nodup) {x : SItem} :
    Taken c s x ↔ ∃ y, Has s y ∧ (∀ i, y ≠ .prelude i) ∧ itemName y = c.origin ∧ x = renameItem c.target y := by
  unfold Module.itemNames at hs
  have h5 := (List.nodup_append.mp hs).2.1
  have hs := (List.nodup_append.mp hs).1
  have h4 := (List.nodup_append.mp hs).2.1
  have hs := (List.nodup_append.mp hs).1
  have h3 := (List.nodup_append.mp hs).2.1
  have hs := (List.nodup_append.mp hs).1
  have h2 := (List.nodup_append.mp hs).2.1
  have h1 := (List.nodup_append.mp hs).1
  constructor
  · intro h
    rcases takeOver_items (st := {}) h with h | ⟨y, hy, hn, rfl⟩
    · cases x <;> cases h
    · refine ⟨y, hy, ?_, hn, rfl⟩
      rintro i rfl
      cases h
  · rintro ⟨y, hy, hp, hn, rfl⟩
    cases y with
    | prelude i => exact absurd rfl (hp i)
    | «import» i => exact List.mem_append_right _ ((mem_find_map h1).mpr ⟨i, hy, hn, rfl⟩)
    | «class» i => exact List.mem_append_right _ ((mem_find_map h2).mpr ⟨i, hy, hn, rfl⟩)
    | typeVar i => exact List.mem_append_right _ ((mem_find_map h3).mpr ⟨i, hy, hn, rfl⟩)
    | function i => exact List.mem_append_right _ ((mem_find_map h4).mpr ⟨i, hy, hn, rfl⟩)
    | property i => exact List.mem_append_right _ ((mem_find_map h5).mpr ⟨i, hy, hn, rfl⟩)

/-- What one submodule name stands for, given the imports that overwrite submodules. -/
inductive SubKind
  | skip
  | overwritten (c : Import) (id : Nat)
  | submodule (id : Nat)

/-- How a submodule name is handled. -/
def subKind (W : World) (pm : PyMod) (name : Path) (conflicts : List Import) (i : Ident) : SubKind :=
  match conflicts.find? (fun c => c.target = name.join (Path.ofIdent i)) with
  | some c => match W.importMod (name.join (Path.ofIdent i)).toPy with
    | none => .skip
    | some id => .overwritten c id
  | none => match submoduleId W pm name i with
    | none => .skip
    | some id => .submodule id

theorem submoduleStep_kind (W : World) (pm : PyMod) (name : Path) (rec : Nat → Res Module) (acc : ParseState × List Module)
    (i : Ident) : submoduleStep W pm name rec acc i = match subKind W pm name acc.1.conflicts i with
      | .skip => .ok acc
      | .overwritten c id => (do
        match ← okOrDrop (rec id) with
        | some s => return (takeOver acc.1 c s, acc.2)
        | none => return acc)
      | .submodule id => (do
        let s ← rec id
        return (acc.1, acc.2 ++ [s])) := by
  unfold submoduleStep subKind
  simp only
  cases acc.1.conflicts.find? (fun c => c.target = name.join (Path.ofIdent i)) with
  | some c => simp only; cases W.importMod (name.join (Path.ofIdent i)).toPy <;> rfl
  | none => simp only; cases submoduleId W pm name i <;> rfl

/-- What a successful traversal of the submodules has done. -/
structure Walked (W : World) (pm : PyMod) (name : Path) (rec : Nat → Res Module) (l : List Ident)
    (acc acc' : ParseState × List Module) : Prop where
  conflicts : acc'.1.conflicts = acc.1.conflicts
  items : ∀ x, StHas acc'.1 x ↔ StHas acc.1 x ∨ ∃ i ∈ l, ∃ c id s,
    subKind W pm name acc.1.conflicts i = .overwritten c id ∧ rec id = .ok s ∧ Taken c s x
  mods : ∀ m, m ∈ acc'.2 ↔ m ∈ acc.2 ∨ ∃ i ∈ l, ∃ id, subKind W pm name acc.1.conflicts i = .submodule id ∧ rec id = .ok m
  overwritten : ∀ i ∈ l, ∀ c id, subKind W pm name acc.1.conflicts i = .overwritten c id → ∀ p, rec id ≠ .error (.panic p)
  submodule : ∀ i ∈ l, ∀ id, subKind W pm name acc.1.conflicts i = .submodule id → ∃ s, rec id = .ok s

theorem walked {W : World} {pm : PyMod} {name : Path} {rec : Nat → Res Module} {l : List Ident}
    {acc acc' : ParseState × List Module} (h : foldRes (submoduleStep W pm name rec) acc l = .ok acc') :
    Walked W pm name rec l acc acc' := by
  induction l generalizing acc with
  | nil => cases h; exact ⟨rfl, by simp, by simp, by simp, by simp⟩
  | cons i l ih =>
    obtain ⟨a1, h1, h⟩ := Res.bind_ok h
    have w := ih h
    rw [submoduleStep_kind] at h1
    cases hk : subKind W pm name acc.1.conflicts i with
    | skip =>
      rw [hk] at h1
      cases h1
      refine ⟨w.conflicts, fun x => ?_, fun m => ?_, ?_, ?_⟩
      · rw [w.items x]; simp [hk]
      · rw [w.mods m]; simp [hk]
      · intro j hj c id hc
        rcases List.mem_cons.mp hj with rfl | hj
        · rw [hk] at hc; cases hc
        · exact w.overwritten j hj c id hc
      · intro j hj id hc
        rcases List.mem_cons.mp hj with rfl | hj
        · rw [hk] at hc; cases hc
        · exact w.submodule j hj id hc
    | overwritten c id =>
      rw [hk] at h1
      simp only at h1
      cases hr : rec id with
      | error e =>
        cases e with
        | panic p => rw [hr] at h1; cases h1
        | err e =>
          rw [hr] at h1
          cases h1
          refine ⟨w.conflicts, fun x => ?_, fun m => ?_, ?_, ?_⟩
          · rw [w.items x]
            simp only [List.mem_cons, exists_eq_or_imp, hk, SubKind.overwritten.injEq]
            constructor
            · rintro (h | h)
              · exact Or.inl h
              · exact Or.inr (Or.inr h)
            · rintro (h | ⟨c', id', s, ⟨rfl, rfl⟩, hs, -⟩ | h)
              · exact Or.inl h
              · rw [hr] at hs; cases hs
              · exact Or.inr h
          · rw [w.mods m]; simp [hk]
          · intro j hj c' id' hc
            rcases List.mem_cons.mp hj with rfl | hj
            · rw [hk] at hc; cases hc; rw [hr]; simp
            · exact w.overwritten j hj c' id' hc
          · intro j hj id' hc
            rcases List.mem_cons.mp hj with rfl | hj
            · rw [hk] at hc; cases hc
            · exact w.submodule j hj id' hc
      | ok s =>
        rw [hr] at h1
        cases h1
        have wi := w.items
        have wm := w.mods
        have wo := w.overwritten
        have ws := w.submodule
        simp only [takeOver_conflicts] at wi wm wo ws
        refine ⟨w.conflicts, fun x => ?_, fun m => ?_, ?_, ?_⟩
        · rw [wi x, takeOver_stHas]
          simp only [List.mem_cons, exists_eq_or_imp, hk, SubKind.overwritten.injEq]
          constructor
          · rintro ((h | h) | h)
            · exact Or.inl h
            · exact Or.inr (Or.inl ⟨c, id, s, ⟨rfl, rfl⟩, hr, h⟩)
            · exact Or.inr (Or.inr h)
          · rintro (h | ⟨c', id', s', ⟨rfl, rfl⟩, hs, h⟩ | h)
            · exact Or.inl (Or.inl h)
            · rw [hr] at hs; cases hs; exact Or.inl (Or.inr h)
            · exact Or.inr h
        · rw [wm m]; simp [hk]
        · intro j hj c' id' hc
          rcases List.mem_cons.mp hj with rfl | hj
          · rw [hk] at hc; cases hc; rw [hr]; simp
          · exact wo j hj c' id' hc
        · intro j hj id' hc
          rcases List.mem_cons.mp hj with rfl | hj
          · rw [hk] at hc; cases hc
          · exact ws j hj id' hc
    | submodule id =>
      rw [hk] at h1
      obtain ⟨s, hr, h1⟩ := Res.bind_ok h1
      cases h1
      refine ⟨w.conflicts, fun x => ?_, fun m => ?_, ?_, ?_⟩
      · rw [w.items x]; simp [hk]
      · rw [w.mods m, mem_snoc]
        simp only [List.mem_cons, exists_eq_or_imp, hk, SubKind.submodule.injEq]
        constructor
        · rintro ((h | rfl) | h)
          · exact Or.inl h
          · exact Or.inr (Or.inl ⟨id, rfl, hr⟩)
          · exact Or.inr (Or.inr h)
        · rintro (h | ⟨id', rfl, hs⟩ | h)
          · exact Or.inl (Or.inl h)
          · rw [hr] at hs; cases hs; exact Or.inl (Or.inr rfl)
          · exact Or.inr h
      · intro j hj c' id' hc
        rcases List.mem_cons.mp hj with rfl | hj
        · rw [hk] at hc; cases hc
        · exact w.overwritten j hj c' id' hc
      · intro j hj id' hc
        rcases List.mem_cons.mp hj with rfl | hj
        · rw [hk] at hc; cases hc; exact ⟨s, hr⟩
        · exact w.submodule j hj id' hc

/-- A traversal that ends with an error does so because a submodule does. -/
theorem walk_err {W : World} {pm : PyMod} {name : Path} {rec : Nat → Res Module} {l : List Ident}
    {acc : ParseState × List Module} {e : PyBindgenError}
    (h : foldRes (submoduleStep W pm name rec) acc l = .error (.err e)) :
    ∃ i ∈ l, ∃ id, subKind W pm name acc.1.conflicts i = .submodule id ∧ ∃ e, rec id = .error (.err e) := by
  induction l generalizing acc with
  | nil => cases h
  | cons i l ih =>
    rw [foldRes] at h
    cases h1 : submoduleStep W pm name rec acc i with
    | ok a1 =>
      rw [h1] at h
      have hc : a1.1.conflicts = acc.1.conflicts := by
        rcases submoduleStep_ok h1 with rfl | ⟨c, s, id, -, -, -, rfl⟩ | ⟨s, id, -, -, -, rfl⟩ <;> rfl
      obtain ⟨j, hj, id, h2, h3⟩ := ih h
      exact ⟨j, by simp [hj], id, hc ▸ h2, h3⟩
    | error e' =>
      rw [h1] at h
      cases h
      rw [submoduleStep_kind] at h1
      cases hk : subKind W pm name acc.1.conflicts i with
      | skip => rw [hk] at h1; cases h1
      | overwritten c id =>
        rw [hk] at h1
        simp only at h1
        cases hr : rec id with
        | ok s => rw [hr] at h1; cases h1
        | error e => cases e <;> (rw [hr] at h1; cases h1)
      | submodule id =>
        rw [hk] at h1
        simp only at h1
        refine ⟨i, by simp, id, hk, ?_⟩
        cases hr : rec id with
        | ok s => rw [hr] at h1; cases h1
        | error e' => rw [hr] at h1; cases h1; exact ⟨e, rfl⟩

/-! ## Parsing in two orders -/

theorem sameTree_node {M M' : Module} (hn : M.name = M'.name) (hx : ∀ x, Has M x ↔ Has M' x)
    (hi : ∀ ns x, ItemAt M.submodules ns x ↔ ItemAt M'.submodules ns x)
    (hm : ∀ ns, ModuleAt M.submodules ns ↔ ModuleAt M'.submodules ns) : SameTree [M] [M'] := by
  refine ⟨fun ns x => ?_, fun ns => ?_, by simp [hn]⟩
  · match ns with
    | [] => simp [ItemAt, NodeAt]
    | [n] => simp [ItemAt, NodeAt, hn, hx]
    | n :: n' :: ns =>
      have := hi (n' :: ns) x
      unfold ItemAt at this ⊢
      simp only [NodeAt, List.mem_singleton, exists_eq_left, hn, and_assoc, exists_and_left, this]
  · match ns with
    | [] => simp [ModuleAt, NodeAt]
    | [n] => simp [ModuleAt, NodeAt, hn]
    | n :: n' :: ns =>
      have := hm (n' :: ns)
      unfold ModuleAt at this ⊢
      simp only [NodeAt, List.mem_singleton, exists_eq_left, hn, exists_and_left, this]

theorem Spec.SameTree.has {M M' : Module} (h : SameTree [M] [M']) (x : SItem) : Has M x ↔ Has M' x := by
  have hn : M.name = M'.name := by simpa using h.top
  have := h.items [M.name] x
  simpa [ItemAt, NodeAt, hn] using this

/-- Every module of one list has a counterpart in the other. -/
def Covers (l l' : List Module) : Prop := ∀ m ∈ l, ∃ m' ∈ l', SameTree [m] [m']

theorem covers_items {l l' : List Module} (h : Covers l l') (h' : Covers l' l) (ns : List Path) (x : SItem) :
    ItemAt l ns x ↔ ItemAt l' ns x := by
  rw [itemAt_mem, itemAt_mem (l := l')]
  constructor
  · rintro ⟨m, hm, hx⟩
    obtain ⟨m', hm', hs⟩ := h m hm
    exact ⟨m', hm', (hs.items ns x).mp hx⟩
  · rintro ⟨m, hm, hx⟩
    obtain ⟨m', hm', hs⟩ := h' m hm
    exact ⟨m', hm', (hs.items ns x).mp hx⟩

theorem covers_modules {l l' : List Module} (h : Covers l l') (h' : Covers l' l) (ns : List Path) :
    ModuleAt l ns ↔ ModuleAt l' ns := by
  rw [moduleAt_mem, moduleAt_mem (l := l')]
  constructor
  · rintro ⟨m, hm, hx⟩
    obtain ⟨m', hm', hs⟩ := h m hm
    exact ⟨m', hm', (hs.modules ns).mp hx⟩
  · rintro ⟨m, hm, hx⟩
    obtain ⟨m', hm', hs⟩ := h' m hm
    exact ⟨m', hm', (hs.modules ns).mp hx⟩

/-- The result of one order is that of the other, or a panic. -/
def SameOrPanic (r r' : Res Module) : Prop :=
  ∀ M, r = .ok M → (∃ p, r' = .error (.panic p)) ∨ ∃ M', r' = .ok M' ∧ SameTree [M] [M']

theorem taken_same {c : Import} {s s' : Module} (hs : s.itemNames.Nodup) (hs' : s'.itemNames.Nodup) (h : SameTree [s] [s'])
    (x : SItem) : Taken c s x ↔ Taken c s' x := by
  rw [taken_iff hs, taken_iff hs']
  simp only [h.has]

theorem walked_items {W : World} {pm : PyMod} {name : Path} {rec rec' : Nat → Res Module} {l l' : List Ident}
    {acc a1 a2 : ParseState × List Module} (w : Walked W pm name rec l acc a1) (w' : Walked W pm name rec' l' acc a2)
    (hl : ∀ i, i ∈ l → i ∈ l') (hr : ∀ id, SameOrPanic (rec id) (rec' id))
    (hn : ∀ id s, rec id = .ok s → s.itemNames.Nodup) (hn' : ∀ id s, rec' id = .ok s → s.itemNames.Nodup) (x : SItem)
    (hx : StHas a1.1 x) : StHas a2.1 x := by
  rcases (w.items x).mp hx with h | ⟨i, hi, c, id, s, hk, hs, ht⟩
  · exact (w'.items x).mpr (Or.inl h)
  · refine (w'.items x).mpr (Or.inr ⟨i, hl i hi, c, id, ?_⟩)
    rcases hr id s hs with ⟨p, hp⟩ | ⟨s', hs', hss⟩
    · exact absurd hp (w'.overwritten i (hl i hi) c id hk p)
    · exact ⟨s', hk, hs', (taken_same (hn _ _ hs) (hn' _ _ hs') hss x).mp ht⟩

theorem walked_mods {W : World} {pm : PyMod} {name : Path} {rec rec' : Nat → Res Module} {l l' : List Ident} {st : ParseState}
    {a1 a2 : ParseState × List Module} (w : Walked W pm name rec l (st, []) a1) (w' : Walked W pm name rec' l' (st, []) a2)
    (hl : ∀ i, i ∈ l → i ∈ l') (hr : ∀ id, SameOrPanic (rec id) (rec' id)) : Covers a1.2 a2.2 := by
  intro m hm
  rcases (w.mods m).mp hm with h | ⟨i, hi, id, hk, hs⟩
  · cases h
  · obtain ⟨s', hs'⟩ := w'.submodule i (hl i hi) id hk
    rcases hr id m hs with ⟨p, hp⟩ | ⟨s2, hs2, hss⟩
    · rw [hs'] at hp; cases hp
    · exact ⟨s2, (w'.mods s2).mpr (Or.inr ⟨i, hl i hi, id, hk, hs2⟩), hss⟩

/-- The module with other results of the traversal of submodules. -/
def rebuilt (M : Module) (r : ParseState × List Module) : Module :=
  { M with imports := r.1.imports, submodules := r.2, classes := r.1.classes, typeVars := r.1.typeVars,
           functions := r.1.functions, properties := r.1.properties }

/-- Parsing in another order: what precedes the submodules is the same. -/
theorem parse_other {E E' : Env} (h : SameButOrder E E') {cfg : Config} {W : World} {fuel id : Nat} {M : Module}
    (p : ParseParts E cfg W fuel id M) :
    Module.parse E' cfg W (fuel + 1) id = (do
      let r ← ifOn cfg.traverseSubmodules
        (foldRes (submoduleStep W p.pm M.name (Module.parse E' cfg W fuel)) (p.st, []) (E'.setOrder p.st.subs)) (p.st, [])
      return rebuilt M r) := by
  have e1 := p.extracted
  have e2 := p.attributes
  have e3 := p.prelude
  have e4 := p.doc
  rw [← extractSubmodules_same h] at e1
  rw [← moduleStep_same h, ← candidates_same h] at e2
  rw [← extractPrelude_same h] at e3
  have e5 := p.name
  rw [← pathFromPy_same h] at e5
  have e6 := p.nameCheck
  rw [← pathCheck_same h] at e6
  have e7 := p.preludeCheck
  rw [← checkPrelude_same h] at e7
  have e8 := p.attrsCheck
  rw [← checkAttrs_same h] at e8
  rw [Module.parse, p.get]
  simp only [Res.ofOption, Res.ok_bind]
  rw [p.pmName]
  simp only [Res.ok_bind]
  rw [e6, ← e5]
  simp only [Res.ok_bind]
  rw [e7]
  simp only [Res.ok_bind]
  rw [e1]
  simp only [Res.ok_bind]
  rw [e8]
  simp only [Res.ok_bind]
  rw [e2]
  simp only [Res.ok_bind]
  rw [e4]
  simp only [Res.ok_bind, rebuilt, p.isPackage, p.source, ← e3]

theorem parse_order {cfg : Config} {W : World} (fuel : Nat) : ∀ {E E' : Env}, SameButOrder E E' → ∀ id,
    SameOrPanic (Module.parse E cfg W fuel id) (Module.parse E' cfg W fuel id) := by
  induction fuel with
  | zero => intro E E' _ id M hM; exact absurd hM parse_zero
  | succ fuel ih =>
    intro E E' h id M hM
    obtain ⟨p⟩ := parse_parts hM
    rw [parse_other h p]
    have key : ∀ r : ParseState × List Module, (∀ x, StHas p.st' x ↔ StHas r.1 x) → Covers M.submodules r.2 →
        Covers r.2 M.submodules → SameTree [M] [rebuilt M r] := by
      intro r hx h1 h2
      refine sameTree_node rfl ?_ (covers_items h1 h2) (covers_modules h1 h2)
      intro x
      have := hx x
      cases x with
      | prelude i => exact Iff.rfl
      | «import» i => simp only [StHas] at this; simp only [Has, p.imports, this, rebuilt]
      | «class» i => simp only [StHas] at this; simp only [Has, p.classes, this, rebuilt]
      | typeVar i => simp only [StHas] at this; simp only [Has, p.typeVars, this, rebuilt]
      | function i => simp only [StHas] at this; simp only [Has, p.functions, this, rebuilt]
      | property i => simp only [StHas] at this; simp only [Has, p.properties, this, rebuilt]
    rcases ifOn_ok p.traversed with ⟨hb, ht⟩ | ⟨hb, ht⟩
    · have w := walked ht
      have hl : ∀ i, i ∈ E.setOrder p.st.subs → i ∈ E'.setOrder p.st.subs := fun i hi =>
        (E'.set_mem _ _).mpr ((E.set_mem _ _).mp hi)
      have hl' : ∀ i, i ∈ E'.setOrder p.st.subs → i ∈ E.setOrder p.st.subs := fun i hi =>
        (E.set_mem _ _).mpr ((E'.set_mem _ _).mp hi)
      rw [hb, ifOn, if_pos rfl]
      cases hr : foldRes (submoduleStep W p.pm M.name (Module.parse E' cfg W fuel)) (p.st, []) (E'.setOrder p.st.subs) with
      | ok r =>
        have w' := walked hr
        refine Or.inr ⟨_, rfl, key r (fun x => ⟨?_, ?_⟩) ?_ ?_⟩
        · exact walked_items w w' hl (ih h) (fun _ _ h => (parse_itemNames h).1) (fun _ _ h => (parse_itemNames h).1) x
        · exact walked_items w' w hl' (ih h.symm) (fun _ _ h => (parse_itemNames h).1) (fun _ _ h => (parse_itemNames h).1) x
        · exact walked_mods w w' hl (ih h)
        · exact walked_mods w' w hl' (ih h.symm)
      | error e =>
        cases e with
        | panic q => exact Or.inl ⟨q, rfl⟩
        | err e =>
          obtain ⟨i, hi, id', hk, e', he⟩ := walk_err hr
          obtain ⟨s, hs⟩ := w.submodule i (hl' i hi) id' hk
          rcases ih h id' s hs with ⟨q, hq⟩ | ⟨s', hs', -⟩
          · rw [he] at hq; cases hq
          · rw [he] at hs'; cases hs'
    · rw [hb, ifOn, if_neg (by simp)]
      have h1 := congrArg Prod.fst ht
      have h2 := congrArg Prod.snd ht
      simp only at h1 h2
      refine Or.inr ⟨_, rfl, key (p.st, []) (fun x => by rw [h1]) ?_ ?_⟩
      · rw [h2]; intro m hm; cases hm
      · intro m hm; cases hm

/-! ## Modules that correspond -/

theorem order_covers {E E' : Env} (h : SameButOrder E E') {cfg : Config} {W : World} {fuel : Nat} {id : Nat} {m m' : Module}
    (hm : Module.parse E cfg W fuel id = .ok m) (hm' : Module.parse E' cfg W fuel id = .ok m') : SameTree [m] [m'] := by
  rcases parse_order fuel h id m hm with ⟨p, hp⟩ | ⟨k, hk, hs⟩
  · rw [hm'] at hp; cases hp
  · rw [hm'] at hk; cases hk; exact hs

theorem covers_imported {l l' : List Module} (h : Covers l l') {o : Path} (ho : ImportedFrom l o) : ImportedFrom l' o := by
  obtain ⟨m, i, hm, hi, h1, h2⟩ := ho
  obtain ⟨k, hk, hmk⟩ := inTree_mem hm
  obtain ⟨ns, hns⟩ := inTree_nodeAt hmk
  obtain ⟨k', hk', hs⟩ := h k hk
  obtain ⟨m', hm', hi'⟩ := (hs.items _ (.import i)).mp ⟨m, hns, hi⟩
  exact ⟨m', i, nodeAt_inTree (nodeAt_mem.mpr ⟨k', hk', hm'⟩), hi', h1, h2⟩

theorem admitted_same {E E' : Env} (h : SameButOrder E E') {cfg : Config} {W : World} {id : Nat} {n : Str}
    (ha : Admitted E cfg W id n) : Admitted E' cfg W id n := by
  unfold Admitted at ha ⊢
  rw [fromPy_same h, pathFromPy_same h]
  exact ha

theorem deps_covers {E E' : Env} (h : SameButOrder E E') {cfg : Config} {W : World} (hu : UniqueNames W) {fuel : Nat}
    {mods mods' out out' : List Module} (hc : Covers mods mods') (h1 : parseDependencies E cfg W fuel mods = .ok out)
    (h2 : parseDependencies E' cfg W fuel mods' = .ok out') : Covers out out' := by
  obtain ⟨deps, rfl, -, d2, d3⟩ := C48_exactly_partial E cfg W hu fuel mods out h1
  obtain ⟨deps', rfl, -, d2', d3'⟩ := C48_exactly_partial E' cfg W hu fuel mods' out' h2
  intro m hm
  rcases List.mem_append.mp hm with hm | hm
  · obtain ⟨k, hk, hs⟩ := hc m hm
    exact ⟨k, List.mem_append_left _ hk, hs⟩
  · obtain ⟨⟨id, n, m'⟩, hd, rfl⟩ := List.mem_map.mp hm
    obtain ⟨a1, a2, o, a3, a4⟩ := (d3 id n).mp ⟨_, hd⟩
    obtain ⟨m2, hd2⟩ := (d3' id n).mpr ⟨a1, admitted_same h a2, o, covers_imported hc a3, a4⟩
    exact ⟨m2, List.mem_append_right _ (List.mem_map.mpr ⟨_, hd2, rfl⟩), order_covers h (d2 _ _ _ hd) (d2' _ _ _ hd2)⟩

theorem ordinary_same {E E' : Env} (h : SameButOrder E E') {p : Path} (hp : OrdinaryName E p) : OrdinaryName E' p := by
  obtain ⟨segs, h1, h2, rfl⟩ := hp
  exact ⟨segs, h1, h2, by rw [pathFromPy_same h]⟩

theorem canonical_covers {E E' : Env} (h : SameButOrder E E') {W : World} {mods mods' out out' : List Module}
    (hc : Covers mods mods') (hc' : Covers mods' mods) (ho : ∀ m ∈ mods, OrdinaryName E m.name)
    (h1 : canonicalize E W mods = .ok out) (h2 : canonicalize E' W mods' = .ok out') : SameTree out out' := by
  have hn : ∀ {m m' : Module}, SameTree [m] [m'] → m.name = m'.name := fun hs => by simpa using hs.top
  have ho' : ∀ m ∈ mods', OrdinaryName E' m.name := by
    intro m hm
    obtain ⟨k, hk, hs⟩ := hc' m hm
    rw [hn hs]
    exact ordinary_same h (ho k hk)
  have hmods : ∀ ns, ModuleAt out ns ↔ ModuleAt out' ns := by
    intro ns
    rw [C35_modules E W mods out h1, C35_modules E' W mods' out' h2]
    constructor
    · rintro ⟨m, hm, hx⟩
      obtain ⟨k, hk, hs⟩ := hc m hm
      refine ⟨k, hk, ?_⟩
      rw [← hn hs]
      simpa only [← hs.modules] using hx
    · rintro ⟨m, hm, hx⟩
      obtain ⟨k, hk, hs⟩ := hc' m hm
      refine ⟨k, hk, ?_⟩
      rw [← hn hs]
      simpa only [← hs.modules] using hx
  refine ⟨fun ns x => ?_, hmods, ?_⟩
  · rw [C35_items E W mods out h1, C35_items E' W mods' out' h2]
    constructor
    · rintro ⟨m, hm, hx⟩
      obtain ⟨k, hk, hs⟩ := hc m hm
      refine ⟨k, hk, ?_⟩
      rw [← hn hs]
      simpa only [← hs.items] using hx
    · rintro ⟨m, hm, hx⟩
      obtain ⟨k, hk, hs⟩ := hc' m hm
      refine ⟨k, hk, ?_⟩
      rw [← hn hs]
      simpa only [← hs.items] using hx
  · have c := C34_canonical_partial E W mods out h1 ho
    have c' := C34_canonical_partial E' W mods' out' h2 ho'
    refine top_eq (canonical_names h1 ho) (fun p hp => ordinary_same h.symm (canonical_names h2 ho' p hp))
      c.2.1 c'.2.1 c.2.2 c'.2.2 ?_
    intro p
    rw [← moduleAt_single, ← moduleAt_single]
    exact hmods [p]

end Bindgen

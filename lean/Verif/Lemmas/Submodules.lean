import Verif.Lemmas.ParseItems
/-! # Submodules of a parsed module -/
namespace Bindgen
open Spec

/-- Where an attribute comes from. -/
abbrev attrOrigin (E : Env) (i : Ident) (a : PyAttr) : Path :=
  (Path.fromPy E a.obj.modPath).join (Path.fromPy E (a.obj.dunderName.getD i.asPy))

theorem foldRes_append {α β : Type} {f : α → β → Res α} {l l' : List β} {a b : α} (h : foldRes f a (l ++ l') = .ok b) :
    ∃ c, foldRes f a l = .ok c ∧ foldRes f c l' = .ok b := by
  induction l generalizing a with
  | nil => exact ⟨a, rfl, h⟩
  | cons x l ih =>
    obtain ⟨c, hc, h⟩ := Res.bind_ok h
    obtain ⟨d, hd, h⟩ := ih h
    exact ⟨d, by rw [foldRes, hc]; exact hd, h⟩

/-- The step of one element of the list, between the others. -/
theorem foldRes_at {α β : Type} {f : α → β → Res α} {l : List β} {a b : α} (h : foldRes f a l = .ok b) {x : β} (hx : x ∈ l) :
    ∃ l1 l2 c d, l = l1 ++ x :: l2 ∧ foldRes f a l1 = .ok c ∧ f c x = .ok d ∧ foldRes f d l2 = .ok b := by
  obtain ⟨l1, l2, rfl⟩ := List.append_of_mem hx
  obtain ⟨c, h1, h⟩ := foldRes_append h
  obtain ⟨d, h2, h3⟩ := Res.bind_ok h
  exact ⟨l1, l2, c, d, rfl, h1, h2, h3⟩

theorem moduleStep_subs {E : Env} {cfg : Config} {name : Path} {st st' : ParseState} {m : Ident × PyAttr}
    (h : moduleStep E cfg name st m = .ok st') :
    st'.subs = st.subs ∨ (st'.subs = st.subs ++ [m.1] ∧
      determine E m.2.obj (Path.fromPy E m.2.obj.modPath) name true = .ok .module) := by
  cases moduleStep_ok h with
  | module' hd => exact Or.inr ⟨rfl, hd⟩
  | _ => exact Or.inl rfl

/-- The names that are processed as submodules. -/
theorem attributes_subs {E : Env} {cfg : Config} {name : Path} {l : List (Ident × PyAttr)} {st st' : ParseState}
    (h : foldRes (moduleStep E cfg name) st l = .ok st') :
    (∀ i ∈ st.subs, i ∈ st'.subs) ∧ ∀ i ∈ st'.subs, i ∈ st.subs ∨
      ∃ x ∈ l, x.1 = i ∧ determine E x.2.obj (Path.fromPy E x.2.obj.modPath) name true = .ok .module := by
  induction l generalizing st with
  | nil => cases h; exact ⟨fun _ h => h, fun _ h => Or.inl h⟩
  | cons x l ih =>
    obtain ⟨st1, h1, h⟩ := Res.bind_ok h
    obtain ⟨a, b⟩ := ih h
    rcases moduleStep_subs h1 with hs | ⟨hs, hd⟩
    · refine ⟨fun i hi => a i (hs ▸ hi), fun i hi => ?_⟩
      rcases b i hi with hi | ⟨y, hy, hi⟩
      · exact Or.inl (hs ▸ hi)
      · exact Or.inr ⟨y, by simp [hy], hi⟩
    · refine ⟨fun i hi => a i (by rw [hs]; simp [hi]), fun i hi => ?_⟩
      rcases b i hi with hi | ⟨y, hy, hi⟩
      · rw [hs, mem_snoc] at hi
        rcases hi with hi | rfl
        · exact Or.inl hi
        · exact Or.inr ⟨x, by simp, rfl, hd⟩
      · exact Or.inr ⟨y, by simp [hy], hi⟩

/-- The attribute is imported from elsewhere, by the rules. -/
structure ImportedAttr (E : Env) (cfg : Config) (name : Path) (i : Ident) (a : PyAttr) : Prop where
  variant : determine E a.obj (Path.fromPy E a.obj.modPath) name true = .ok .import
  moved : attrOrigin E i a ≠ fullName name i
  allowed : originAllowed cfg (attrOrigin E i a) = true

theorem moduleStep_import {E : Env} {cfg : Config} {name : Path} {st st' : ParseState} {i : Ident} {a : PyAttr}
    (hi : ImportedAttr E cfg name i a) (h : moduleStep E cfg name st (i, a) = .ok st') :
    st' = if st.subs.contains i then { st with conflicts := st.conflicts ++ [Import.new (attrOrigin E i a) (fullName name i)] }
      else { st with imports := st.imports ++ [Import.new (attrOrigin E i a) (fullName name i)] } := by
  unfold moduleStep at h
  simp only at h
  rw [hi.variant, Res.ok_bind] at h
  obtain ⟨_, -, h⟩ := Res.bind_ok h
  cases h
  unfold stepImport
  simp only
  rw [if_neg hi.moved, if_neg (by simp [hi.allowed])]

theorem moduleStep_conflicts {E : Env} {cfg : Config} {name : Path} {st st' : ParseState} {m : Ident × PyAttr}
    (h : moduleStep E cfg name st m = .ok st') :
    st'.conflicts = st.conflicts ∨ (m.1 ∈ st.subs ∧ ImportedAttr E cfg name m.1 m.2 ∧
      st'.conflicts = st.conflicts ++ [Import.new (attrOrigin E m.1 m.2) (fullName name m.1)]) := by
  unfold moduleStep at h
  obtain ⟨v, hv, h⟩ := Res.bind_ok h
  cases v with
  | «import» =>
    obtain ⟨_, -, h⟩ := Res.bind_ok h
    cases h
    unfold stepImport
    simp only
    split
    · exact Or.inl rfl
    · split
      · exact Or.inl rfl
      · rename_i h1 h2
        split
        · rename_i h3
          exact Or.inr ⟨by simpa using h3, ⟨hv, h1, by simpa using h2⟩, rfl⟩
        · exact Or.inl rfl
  | module => cases h; exact Or.inl rfl
  | «class» => obtain ⟨c, hc, h⟩ := Res.bind_ok h; cases h; exact Or.inl rfl
  | typeVar => cases h; exact Or.inl rfl
  | function => obtain ⟨c, hc, h⟩ := Res.bind_ok h; cases h; exact Or.inl rfl
  | method => cases h; exact Or.inl rfl
  | closure => obtain ⟨c, hc, h⟩ := Res.bind_ok h; cases h; exact Or.inl rfl
  | property => obtain ⟨c, hc, h⟩ := Res.bind_ok h; cases h; exact Or.inl rfl

theorem attributes_conflicts {E : Env} {cfg : Config} {name : Path} {l : List (Ident × PyAttr)} {st st' : ParseState}
    (h : foldRes (moduleStep E cfg name) st l = .ok st') :
    (∀ c ∈ st.conflicts, c ∈ st'.conflicts) ∧ ∀ c ∈ st'.conflicts, c ∈ st.conflicts ∨
      ∃ x ∈ l, x.1 ∈ st'.subs ∧ ImportedAttr E cfg name x.1 x.2 ∧ c = Import.new (attrOrigin E x.1 x.2) (fullName name x.1) := by
  induction l generalizing st with
  | nil => cases h; exact ⟨fun _ h => h, fun _ h => Or.inl h⟩
  | cons x l ih =>
    obtain ⟨st1, h1, h⟩ := Res.bind_ok h
    obtain ⟨a, b⟩ := ih h
    have hs := (attributes_subs h).1
    rcases moduleStep_conflicts h1 with hc | ⟨hm, hi, hc⟩
    · refine ⟨fun c hcm => a c (hc ▸ hcm), fun c hcm => ?_⟩
      rcases b c hcm with h | ⟨y, hy, h⟩
      · exact Or.inl (hc ▸ h)
      · exact Or.inr ⟨y, by simp [hy], h⟩
    · refine ⟨fun c hcm => a c (by rw [hc]; simp [hcm]), fun c hcm => ?_⟩
      rcases b c hcm with h | ⟨y, hy, h⟩
      · rw [hc, mem_snoc] at h
        rcases h with h | rfl
        · exact Or.inl h
        · refine Or.inr ⟨x, by simp, hs _ ?_, hi, rfl⟩
          rcases moduleStep_subs h1 with h2 | ⟨h2, -⟩ <;> rw [h2]
          · exact hm
          · simp
      · exact Or.inr ⟨y, by simp [hy], h⟩

/-- The imports that overwrite a submodule listed by `pkgutil`. -/
theorem parts_conflict {E : Env} {cfg : Config} {W : World} {fuel id : Nat} {M : Module} (p : ParseParts E cfg W fuel id M)
    {i : Ident} {a : PyAttr} (hc : (i, a) ∈ moduleCandidates E cfg p.pm) (hs : i ∈ p.subs)
    (hi : ImportedAttr E cfg M.name i a) :
    p.st.conflicts.find? (fun c => c.target = fullName M.name i) = some (Import.new (attrOrigin E i a) (fullName M.name i)) := by
  obtain ⟨l1, l2, c, d, hl, h1, h2, h3⟩ := foldRes_at p.attributes hc
  have hsub : i ∈ c.subs := (attributes_subs h1).1 i hs
  have hd := moduleStep_import hi h2
  rw [if_pos (by simpa using hsub)] at hd
  have hm : Import.new (attrOrigin E i a) (fullName M.name i) ∈ p.st.conflicts := (attributes_conflicts h3).1 _ (by rw [hd]; simp)
  have huniq : ∀ c ∈ p.st.conflicts, c.target = fullName M.name i → c = Import.new (attrOrigin E i a) (fullName M.name i) := by
    intro c hc' ht
    rcases (attributes_conflicts p.attributes).2 c hc' with h | ⟨x, hx, -, -, rfl⟩
    · cases h
    · have hxi := fullName_inj ht
      have h1 := (mem_candidates hx).2.1
      have h2 := (mem_candidates hc).2.1
      rw [hxi, h2] at h1
      rw [← Option.some.inj h1, hxi]
  cases hf : p.st.conflicts.find? (fun c => decide (c.target = fullName M.name i)) with
  | none => exact absurd (List.find?_eq_none.mp hf _ hm) (by simp [Import.new])
  | some k =>
    have hk := List.find?_some hf
    rw [huniq k (List.mem_of_find?_eq_some hf) (by simpa using hk)]

/-- No import overwrites a submodule of this name. -/
theorem parts_no_conflict {E : Env} {cfg : Config} {W : World} {fuel id : Nat} {M : Module} (p : ParseParts E cfg W fuel id M)
    {i : Ident} (hno : ∀ a, p.pm.getattr i.asPy = some a → ¬ ImportedAttr E cfg M.name i a) :
    p.st.conflicts.find? (fun c => c.target = fullName M.name i) = none := by
  rw [List.find?_eq_none]
  intro c hc
  simp only [decide_eq_true_eq]
  intro ht
  rcases (attributes_conflicts p.attributes).2 c hc with h | ⟨x, hx, -, hi, rfl⟩
  · cases h
  · have hxi : x.1 = i := fullName_inj ht
    have h1 := (mem_candidates hx).2.1
    rw [hxi] at h1 hi
    exact hno _ h1 hi

/-- Processing submodules never forgets one, and changes no conflict. -/
theorem submodules_mono {W : World} {pm : PyMod} {name : Path} {rec : Nat → Res Module} {l : List Ident}
    {acc acc' : ParseState × List Module} (h : foldRes (submoduleStep W pm name rec) acc l = .ok acc') :
    acc'.1.conflicts = acc.1.conflicts ∧ (∀ s ∈ acc.2, s ∈ acc'.2) ∧ ∀ x, StHas acc.1 x → StHas acc'.1 x := by
  induction l generalizing acc with
  | nil => cases h; exact ⟨rfl, fun _ h => h, fun _ h => h⟩
  | cons i l ih =>
    obtain ⟨a1, h1, h⟩ := Res.bind_ok h
    obtain ⟨b1, b2, b3⟩ := ih h
    rcases submoduleStep_ok h1 with rfl | ⟨c, s, id, -, -, -, rfl⟩ | ⟨s, id, -, -, -, rfl⟩
    · exact ⟨b1, b2, b3⟩
    · refine ⟨b1, b2, fun x hx => b3 x ?_⟩
      cases x with
      | prelude i => exact hx
      | _ => exact List.mem_append_left _ hx
    · exact ⟨b1, fun s hs => b2 s (by simp [hs]), b3⟩

end Bindgen

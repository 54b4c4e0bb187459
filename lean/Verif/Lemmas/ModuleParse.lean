import Verif.Lemmas.Res
import Verif.Model.Codegen
import Verif.Spec.Tree
/-! # The structure of a parsed module -/
namespace Bindgen
open Spec

/-- The parts of a successful `Module::parse`. -/
structure ParseParts (E : Env) (cfg : Config) (W : World) (fuel id : Nat) (M : Module) where
  pm : PyMod
  nm : Str
  subs : List Ident
  st : ParseState
  st' : ParseState
  get : W.get? id = some pm
  pmName : pm.name = some nm
  name : M.name = Path.fromPy E nm
  prelude : M.prelude = if cfg.generatePreludes then extractPrelude E cfg pm M.name else []
  nameCheck : Path.checkPy E [nm] = .ok ()
  preludeCheck : ifOn cfg.generatePreludes (checkPrelude E cfg pm M.name) () = .ok ()
  extracted : ifOn pm.isPackage (extractSubmodules E cfg pm M.name) [] = .ok subs
  attrsCheck : checkAttrs E pm = .ok ()
  attributes : foldRes (moduleStep E cfg M.name) { subs := subs } (moduleCandidates E cfg pm) = .ok st
  traversed : ifOn cfg.traverseSubmodules
    (foldRes (submoduleStep W pm M.name (Module.parse E cfg W fuel)) (st, []) (E.setOrder st.subs)) (st, []) =
      .ok (st', M.submodules)
  imports : M.imports = st'.imports
  classes : M.classes = st'.classes
  typeVars : M.typeVars = st'.typeVars
  functions : M.functions = st'.functions
  properties : M.properties = st'.properties
  doc : readDoc pm.doc = .ok M.doc
  isPackage : M.isPackage = pm.isPackage
  source : M.source = none

theorem parse_parts {E : Env} {cfg : Config} {W : World} {fuel id : Nat} {M : Module}
    (h : Module.parse E cfg W (fuel + 1) id = .ok M) : Nonempty (ParseParts E cfg W fuel id M) := by
  unfold Module.parse at h
  obtain ⟨pm, h1, h⟩ := Res.bind_ok h
  obtain ⟨nm, h2, h⟩ := Res.bind_ok h
  obtain ⟨_, c1, h⟩ := Res.bind_ok h
  obtain ⟨_, c2, h⟩ := Res.bind_ok h
  obtain ⟨subs, h3, h⟩ := Res.bind_ok h
  obtain ⟨_, c3, h⟩ := Res.bind_ok h
  obtain ⟨st, h4, h⟩ := Res.bind_ok h
  obtain ⟨⟨st', mods⟩, h5, h⟩ := Res.bind_ok h
  obtain ⟨doc, h6, h⟩ := Res.bind_ok h
  cases h
  have g1 : W.get? id = some pm := by
    cases hg : W.get? id with
    | none => rw [hg] at h1; cases h1
    | some x => rw [hg] at h1; cases h1; rfl
  have g2 : pm.name = some nm := by
    cases hg : pm.name with
    | none => rw [hg] at h2; cases h2
    | some x => rw [hg] at h2; cases h2; rfl
  exact ⟨⟨pm, nm, subs, st, st', g1, g2, rfl, rfl, c1, c2, h3, c3, h4, h5, rfl, rfl, rfl, rfl, rfl, h6, rfl, rfl⟩⟩

theorem ifOn_ok {α : Type} {b : Bool} {r : Res α} {d a : α} (h : ifOn b r d = .ok a) :
    (b = true ∧ r = .ok a) ∨ (b = false ∧ a = d) := by
  unfold ifOn at h
  split at h
  · exact Or.inl ⟨by assumption, h⟩
  · rename_i hb
    cases h
    exact Or.inr ⟨by simpa using hb, rfl⟩

theorem foldRes_invariant {α β : Type} {f : α → β → Res α} {P : α → Prop} {l : List β} {a a' : α} (ha : P a)
    (hf : ∀ a, P a → ∀ b ∈ l, ∀ a', f a b = .ok a' → P a') (h : foldRes f a l = .ok a') : P a' := by
  induction l generalizing a with
  | nil => cases h; exact ha
  | cons b l ih =>
    rw [foldRes] at h
    obtain ⟨c, hc, h⟩ := Res.bind_ok h
    exact ih (hf a ha b (by simp) c hc) (fun a ha b hb => hf a ha b (by simp [hb])) h

theorem okOrDrop_some {α : Type} {r : Res α} {a : α} (h : okOrDrop r = .ok (some a)) : r = .ok a := by
  unfold okOrDrop at h
  split at h
  · cases h; rfl
  · cases h
  · cases h

/-- The ways a submodule name is handled. -/
theorem submoduleStep_ok {W : World} {pm : PyMod} {name : Path} {rec : Nat → Res Module}
    {acc acc' : ParseState × List Module} {i : Ident} (h : submoduleStep W pm name rec acc i = .ok acc') :
    acc' = acc ∨
    (∃ c s id, acc.1.conflicts.find? (fun c => c.target = name.join (Path.ofIdent i)) = some c ∧
      W.importMod (name.join (Path.ofIdent i)).toPy = some id ∧ rec id = .ok s ∧ acc' = (takeOver acc.1 c s, acc.2)) ∨
    (∃ s id, acc.1.conflicts.find? (fun c => c.target = name.join (Path.ofIdent i)) = none ∧
      submoduleId W pm name i = some id ∧ rec id = .ok s ∧ acc' = (acc.1, acc.2 ++ [s])) := by
  unfold submoduleStep at h
  simp only at h
  split at h
  · rename_i c hc
    split at h
    · cases h; exact Or.inl rfl
    · rename_i id hid
      obtain ⟨o, ho, h⟩ := Res.bind_ok h
      cases o with
      | none => cases h; exact Or.inl rfl
      | some s => cases h; exact Or.inr (Or.inl ⟨c, s, id, hc, hid, okOrDrop_some ho, rfl⟩)
  · rename_i hc
    split at h
    · cases h; exact Or.inl rfl
    · rename_i id hid
      obtain ⟨s, hs, h⟩ := Res.bind_ok h
      cases h
      exact Or.inr (Or.inr ⟨s, id, hc, hid, hs, rfl⟩)

/-- A property of the lists of items and of the submodules parsed so far holds at the end if it does at the beginning and is
kept by taking over items and by adding a parsed submodule. -/
theorem traversed_invariant {E : Env} {cfg : Config} {W : World} {fuel id : Nat} {M : Module}
    (p : ParseParts E cfg W fuel id M) {P : ParseState → List Module → Prop} (h0 : P p.st [])
    (htake : ∀ st l c s i, P st l → i ∈ p.st.subs → c ∈ st.conflicts → (∃ id, Module.parse E cfg W fuel id = .ok s) →
      P (takeOver st c s) l)
    (hadd : ∀ st l s i, P st l → i ∈ p.st.subs → (∃ id, submoduleId W p.pm M.name i = some id ∧
      Module.parse E cfg W fuel id = .ok s) → P st (l ++ [s])) :
    P p.st' M.submodules := by
  rcases ifOn_ok p.traversed with ⟨-, h⟩ | ⟨-, h⟩
  · refine foldRes_invariant (P := fun a => P a.1 a.2) h0 ?_ h
    intro a ha i hi a' h
    have hi := (E.set_mem _ _).mp hi
    rcases submoduleStep_ok h with rfl | ⟨c, s, id, hc, -, hs, rfl⟩ | ⟨s, id, -, hid, hs, rfl⟩
    · exact ha
    · exact htake _ _ c s i ha hi (List.mem_of_find?_eq_some hc) ⟨id, hs⟩
    · exact hadd _ _ s i ha hi ⟨id, hid, hs⟩
  · have h1 := congrArg Prod.fst h
    have h2 := congrArg Prod.snd h
    simp only at h1 h2
    rw [h1, h2]
    exact h0

/-- Submodules are parsed modules. -/
theorem parse_submodules {E : Env} {cfg : Config} {W : World} {fuel id : Nat} {M : Module}
    (h : Module.parse E cfg W (fuel + 1) id = .ok M) {s : Module} (hs : s ∈ M.submodules) :
    ∃ id', Module.parse E cfg W fuel id' = .ok s := by
  obtain ⟨p⟩ := parse_parts h
  have := traversed_invariant p (P := fun _ l => ∀ s ∈ l, ∃ id', Module.parse E cfg W fuel id' = .ok s)
    (by simp) (fun _ _ _ _ _ h _ _ _ => h) (fun _ l s _ h _ ⟨id, _, hs⟩ => by
      intro x hx
      rcases List.mem_append.mp hx with hx | hx
      · exact h x hx
      · rw [List.mem_singleton] at hx
        exact ⟨id, hx ▸ hs⟩)
  exact this s hs

theorem parse_zero {E : Env} {cfg : Config} {W : World} {id : Nat} {M : Module} : Module.parse E cfg W 0 id ≠ .ok M := by
  unfold Module.parse
  simp

theorem inTree_mem {x : Module} {l : List Module} (h : InTree x l) : ∃ s ∈ l, InTree x [s] := by
  cases h with
  | top h => exact ⟨x, h, .top (by simp)⟩
  | sub h h' => exact ⟨_, h, .sub (by simp) h'⟩

/-- A property of single modules that every successful parse gives holds at every node of a parsed tree. -/
theorem parse_tree {E : Env} {cfg : Config} {W : World} {P : Module → Prop}
    (hP : ∀ fuel id M, Module.parse E cfg W (fuel + 1) id = .ok M → P M) {fuel id : Nat} {M : Module}
    (h : Module.parse E cfg W fuel id = .ok M) {x : Module} (hx : InTree x [M]) : P x := by
  induction fuel generalizing id M x with
  | zero => exact absurd h parse_zero
  | succ fuel ih =>
    cases hx with
    | top hx => rw [List.mem_singleton] at hx; subst hx; exact hP _ _ _ h
    | sub hn hx =>
      rw [List.mem_singleton] at hn
      subst hn
      obtain ⟨s, hs, hxs⟩ := inTree_mem hx
      obtain ⟨id', hs'⟩ := parse_submodules h hs
      exact ih hs' hxs

end Bindgen

import Verif.Lemmas.ModuleParse
/-! # The recursion bound does not matter -/
namespace Bindgen
open Spec

/-- The bound on the recursion depth was reached. -/
abbrev OutOfFuel {α : Type} (r : Res α) : Prop := r = .error (.panic .stackOverflow)

theorem bind_fuel {α β : Type} {a b : Res α} {f g : α → Res β} (h : ¬ OutOfFuel (a >>= f)) (hab : ¬ OutOfFuel a → b = a)
    (hfg : ∀ x, a = .ok x → ¬ OutOfFuel (f x) → g x = f x) : (b >>= g) = (a >>= f) := by
  cases a with
  | error e =>
    have : b = .error e := hab fun hc => h (by unfold OutOfFuel at hc ⊢; cases hc; rfl)
    rw [this]
    rfl
  | ok x =>
    rw [hab (by simp [OutOfFuel])]
    exact hfg x rfl h

theorem foldRes_fuel {α β : Type} {f g : α → β → Res α} (hfg : ∀ a b, ¬ OutOfFuel (f a b) → g a b = f a b) (l : List β) (a : α)
    (h : ¬ OutOfFuel (foldRes f a l)) : foldRes g a l = foldRes f a l := by
  induction l generalizing a with
  | nil => rfl
  | cons b l ih => exact bind_fuel h (hfg a b) fun x _ hx => ih x hx

theorem okOrDrop_fuel {α : Type} {a b : Res α} (h : ¬ OutOfFuel (okOrDrop a)) (hab : ¬ OutOfFuel a → b = a) :
    okOrDrop b = okOrDrop a := by
  rw [hab]
  intro hc
  unfold OutOfFuel at hc
  subst hc
  exact h rfl

theorem submoduleStep_fuel {W : World} {pm : PyMod} {name : Path} {f g : Nat → Res Module}
    (hfg : ∀ id, ¬ OutOfFuel (f id) → g id = f id) (acc : ParseState × List Module) (i : Ident)
    (h : ¬ OutOfFuel (submoduleStep W pm name f acc i)) : submoduleStep W pm name g acc i = submoduleStep W pm name f acc i := by
  unfold submoduleStep at h ⊢
  simp only at h ⊢
  split
  · rename_i c hc
    rw [hc] at h
    simp only at h
    split
    · rfl
    · rename_i id hid
      rw [hid] at h
      exact bind_fuel h (fun h => okOrDrop_fuel h (hfg id)) fun _ _ _ => rfl
  · rename_i hc
    rw [hc] at h
    simp only at h
    split
    · rfl
    · rename_i id hid
      rw [hid] at h
      exact bind_fuel h (hfg id) fun _ _ _ => rfl

theorem parse_fuel (E : Env) (cfg : Config) (W : World) (fuel id : Nat) (h : ¬ OutOfFuel (Module.parse E cfg W fuel id)) :
    Module.parse E cfg W (fuel + 1) id = Module.parse E cfg W fuel id := by
  induction fuel generalizing id with
  | zero => exact absurd rfl h
  | succ fuel ih =>
    rw [Module.parse] at h ⊢
    rw [Module.parse]
    refine bind_fuel h (fun _ => rfl) fun pm _ h => ?_
    refine bind_fuel h (fun _ => rfl) fun nm _ h => ?_
    refine bind_fuel h (fun _ => rfl) fun _ _ h => ?_
    refine bind_fuel h (fun _ => rfl) fun _ _ h => ?_
    refine bind_fuel h (fun _ => rfl) fun subs _ h => ?_
    refine bind_fuel h (fun _ => rfl) fun _ _ h => ?_
    refine bind_fuel h (fun _ => rfl) fun st _ h => ?_
    refine bind_fuel h (fun h => ?_) fun _ _ _ => rfl
    unfold ifOn at h ⊢
    split
    · rename_i ht
      rw [if_pos ht] at h
      exact foldRes_fuel (fun a b h => submoduleStep_fuel ih a b h) _ _ h
    · rfl

theorem parse_fuel_le {E : Env} {cfg : Config} {W : World} {fuel fuel' id : Nat} {M : Module}
    (h : Module.parse E cfg W fuel id = .ok M) (hle : fuel ≤ fuel') : Module.parse E cfg W fuel' id = .ok M := by
  induction hle with
  | refl => exact h
  | step _ ih => rw [parse_fuel E cfg W _ id (by rw [ih]; simp [OutOfFuel]), ih]

/-- Parsing succeeds with at most one result, whatever the bound. -/
theorem parse_unique {E : Env} {cfg : Config} {W : World} {fuel fuel' id : Nat} {M M' : Module}
    (h : Module.parse E cfg W fuel id = .ok M) (h' : Module.parse E cfg W fuel' id = .ok M') : M = M' := by
  rcases Nat.le_total fuel fuel' with hle | hle
  · have := parse_fuel_le h hle
    rw [h'] at this
    exact (Except.ok.inj this).symm
  · have := parse_fuel_le h' hle
    rw [h] at this
    exact Except.ok.inj this

end Bindgen

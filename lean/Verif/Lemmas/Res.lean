import Mathlib.Tactic.Common
import Verif.Model.FromPy
/-! # Lemmas about results -/
namespace Bindgen

/-! ## Results that are values or panics other than running out of fuel -/

/-- A value, or a panic of the Rust code: no `Err`, no exhausted fuel. -/
def Calm {α : Type} (r : Res α) : Prop :=
  (∃ a, r = .ok a) ∨ (∃ p, r = .error (.panic p) ∧ p ≠ .stackOverflow)

theorem Calm.ok {α : Type} (a : α) : Calm (.ok a : Res α) := Or.inl ⟨a, rfl⟩

theorem Calm.panic {α : Type} {p : PanicSite} (h : p ≠ .stackOverflow) : Calm (.error (.panic p) : Res α) :=
  Or.inr ⟨p, rfl, h⟩

theorem Calm.bind {α β : Type} {r : Res α} {f : α → Res β} (h : Calm r) (hf : ∀ a, r = .ok a → Calm (f a)) :
    Calm (r >>= f) := by
  rcases h with ⟨a, rfl⟩ | ⟨p, rfl, hp⟩
  · exact hf a rfl
  · exact Calm.panic hp

theorem Res.bind_ok {α β : Type} {r : Res α} {f : α → Res β} {b : β} (h : (r >>= f) = .ok b) :
    ∃ a, r = .ok a ∧ f a = .ok b := by
  cases r with
  | ok a => exact ⟨a, rfl, h⟩
  | error e => cases h

theorem Res.ok_bind {α β : Type} (a : α) (f : α → Res β) : ((.ok a : Res α) >>= f) = f a := rfl

theorem Res.pure_eq {α : Type} (a : α) : (pure a : Res α) = .ok a := rfl

theorem Calm.traverse {α β : Type} {f : α → Res β} {l : List α} (h : ∀ a ∈ l, Calm (f a)) :
    Calm (Res.traverse f l) := by
  induction l with
  | nil => exact Calm.ok _
  | cons a l ih =>
    unfold Res.traverse
    refine Calm.bind (h a (by simp)) (fun b _ => Calm.bind (ih (fun x hx => h x (by simp [hx]))) (fun c _ => Calm.ok _))

theorem Res.traverse_congr {α β : Type} {f g : α → Res β} {l : List α} (h : ∀ a ∈ l, f a = g a) :
    Res.traverse f l = Res.traverse g l := by
  induction l with
  | nil => rfl
  | cons a l ih =>
    unfold Res.traverse
    rw [h a (by simp), ih (fun x hx => h x (by simp [hx]))]

theorem Res.traverse_ok {α β : Type} {f : α → Res β} {g : α → β} {l : List α} (h : ∀ a ∈ l, f a = .ok (g a)) :
    Res.traverse f l = .ok (l.map g) := by
  induction l with
  | nil => rfl
  | cons a l ih =>
    unfold Res.traverse
    rw [h a (by simp), ih (fun x hx => h x (by simp [hx]))]
    rfl

theorem Res.traverse_length {α β : Type} {f : α → Res β} {l : List α} {r : List β}
    (h : Res.traverse f l = .ok r) : r.length = l.length := by
  induction l generalizing r with
  | nil => cases h; rfl
  | cons a l ih =>
    unfold Res.traverse at h
    obtain ⟨b, -, h⟩ := Res.bind_ok h
    obtain ⟨bs, hbs, h⟩ := Res.bind_ok h
    cases h
    simp [ih hbs]

theorem traverse_mem {α β : Type} {f : α → Res β} {l : List α} {r : List β} (h : Res.traverse f l = .ok r)
    {b : β} (hb : b ∈ r) : ∃ a ∈ l, f a = .ok b := by
  induction l generalizing r with
  | nil => cases h; cases hb
  | cons x l ih =>
    rw [Res.traverse] at h
    obtain ⟨y, hy, h⟩ := Res.bind_ok h
    obtain ⟨ys, hys, h⟩ := Res.bind_ok h
    cases h
    rcases List.mem_cons.mp hb with rfl | hb
    · exact ⟨x, by simp, hy⟩
    · obtain ⟨a, ha, hf⟩ := ih hys hb
      exact ⟨a, by simp [ha], hf⟩

theorem traverse_zip {α β : Type} {f : α → Res β} {l : List α} {r : List β} (h : Res.traverse f l = .ok r) :
    ∀ p ∈ l.zip r, f p.1 = .ok p.2 := by
  induction l generalizing r with
  | nil => intro p hp; simp at hp
  | cons x l ih =>
    rw [Res.traverse] at h
    obtain ⟨y, hy, h⟩ := Res.bind_ok h
    obtain ⟨ys, hys, h⟩ := Res.bind_ok h
    cases h
    intro p hp
    rw [List.zip_cons_cons] at hp
    rcases List.mem_cons.mp hp with rfl | hp
    · exact hy
    · exact ih hys p hp

theorem traverse_exists {α β : Type} {f : α → Res β} {l : List α} (h : ∀ a ∈ l, ∃ b, f a = .ok b) :
    ∃ r, Res.traverse f l = .ok r := by
  induction l with
  | nil => exact ⟨_, rfl⟩
  | cons a l ih =>
    obtain ⟨b, hb⟩ := h a (by simp)
    obtain ⟨r, hr⟩ := ih (fun x hx => h x (by simp [hx]))
    unfold Res.traverse
    rw [hb, hr]
    exact ⟨_, rfl⟩

end Bindgen

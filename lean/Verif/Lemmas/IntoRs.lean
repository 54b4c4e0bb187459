import Verif.Lemmas.Typing
import Verif.Spec.RustTy
import Mathlib.Tactic.Common
/-!
# Lemmas on types
-/
namespace Bindgen
open Spec

/-- Direct components. -/
def PyTy.kids : PyTy → List PyTy
  | .optional t | .frozenSet t | .list t | .set t => [t]
  | .union ts | .tuple ts => ts
  | .dict k v => [k, v]
  | .function ps r => ps ++ [r]
  | _ => []

mutual
theorem PyTy.ind {P : PyTy → Prop} (step : ∀ t : PyTy, (∀ s ∈ t.kids, P s) → P t) : ∀ t, P t
  | .optional t => step _ (by simp only [PyTy.kids, List.mem_singleton, forall_eq]; exact PyTy.ind step t)
  | .frozenSet t => step _ (by simp only [PyTy.kids, List.mem_singleton, forall_eq]; exact PyTy.ind step t)
  | .list t => step _ (by simp only [PyTy.kids, List.mem_singleton, forall_eq]; exact PyTy.ind step t)
  | .set t => step _ (by simp only [PyTy.kids, List.mem_singleton, forall_eq]; exact PyTy.ind step t)
  | .union ts => step _ (PyTy.indList step ts)
  | .tuple ts => step _ (PyTy.indList step ts)
  | .dict k v => step _ (by
      intro s hs
      simp only [PyTy.kids, List.mem_cons, List.not_mem_nil, or_false] at hs
      have hk := PyTy.ind step k
      have hv := PyTy.ind step v
      rcases hs with h | h
      · rw [h]; exact hk
      · rw [h]; exact hv)
  | .function ps r => step _ (by
      intro s hs
      simp only [PyTy.kids, List.mem_append, List.mem_singleton] at hs
      have hk := PyTy.indList step ps
      have hv := PyTy.ind step r
      rcases hs with h | h
      · exact hk s h
      · rw [h]; exact hv)
  | .any | .other _ | .unknown | .bool | .byteArray | .bytes | .float | .long | .string | .none | .ipV4 | .ipV6
  | .path | .slice | .complex | .date | .dateTime | .delta | .time | .tzInfo | .capsule | .cFunction | .code
  | .ellipsis | .frame | .module | .super | .traceback | .type => step _ (by simp [PyTy.kids])
theorem PyTy.indList {P : PyTy → Prop} (step : ∀ t : PyTy, (∀ s ∈ t.kids, P s) → P t) : ∀ ts : List PyTy, ∀ s ∈ ts, P s
  | [] => by simp
  | t :: ts => by
    intro s hs
    have h1 := PyTy.ind step t
    have h2 := PyTy.indList step ts
    rcases List.mem_cons.mp hs with h | h
    · rw [h]; exact h1
    · exact h2 s h
end

theorem intoRsList_eq (E : Env) (lt : LocalTypes) (ts : List PyTy) :
    intoRsList E lt ts = Res.traverse (intoRsOwned E lt) ts := by
  induction ts with
  | nil => rfl
  | cons t ts ih =>
    rw [intoRsList, Res.traverse, ih]
    unfold intoRsOwned
    cases intoRs E lt t <;> rfl

/-- Tuples of two or more elements in one formula. -/
theorem intoRs_tuple (E : Env) (lt : LocalTypes) {ts : List PyTy} (h : 2 ≤ ts.length)
    (he : ∀ t, ts ≠ [t, .ellipsis]) :
    intoRs E lt (.tuple ts) = (do return sameOut (.tuple (← Res.traverse (intoRsOwned E lt) ts))) := by
  match ts, h with
  | [t, u], _ =>
    have hu : u ≠ .ellipsis := fun e => he t (by rw [e])
    rw [intoRs, if_neg hu]
    simp only [Res.traverse, intoRsOwned]
    cases intoRs E lt t with
    | error e => rfl
    | ok a => cases intoRs E lt u <;> rfl
  | t :: u :: w :: ts, _ =>
    rw [intoRs, intoRsList_eq, Res.traverse, Res.traverse, Res.traverse]
    generalize Res.traverse (intoRsOwned E lt) ts = r
    simp only [intoRsOwned]
    cases intoRs E lt t with
    | error e => rfl
    | ok a =>
      cases intoRs E lt u with
      | error e => rfl
      | ok b =>
        cases intoRs E lt w with
        | error e => rfl
        | ok c => cases r <;> rfl

theorem intoRsOwned_ok {E : Env} {lt : LocalTypes} {t : PyTy} {o : RsTy} (h : intoRsOwned E lt t = .ok o) :
    ∃ b, intoRs E lt t = .ok (o, b) := by
  unfold intoRsOwned at h
  obtain ⟨p, hp, h⟩ := Res.bind_ok h
  cases h
  exact ⟨p.2, hp⟩

end Bindgen

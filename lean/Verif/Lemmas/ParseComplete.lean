import Verif.Lemmas.ParseItems
import Verif.Lemmas.Submodules
import Verif.Lemmas.Order
import Verif.Spec.Scopes
/-! # The attributes of a parsed module become items -/
namespace Bindgen
open Spec

theorem attrStep_keeps {E : Env} {cfg : Config} {name : Path} {st st' : ParseState} {i : Ident} {a : PyAttr}
    (h : AttrStep E cfg name st i a st') {x : SItem} (hx : StHas st x) : StHas st' x := by
  cases h <;> cases x <;> first | exact hx | exact mem_snoc.mpr (Or.inl hx)

theorem stHas_parts {E : Env} {cfg : Config} {W : World} {fuel id : Nat} {M : Module} (p : ParseParts E cfg W fuel id M)
    {x : SItem} (hx : StHas p.st' x) : Has M x := by
  cases x with
  | prelude i => cases hx
  | «import» i => exact (show i ∈ _ from p.imports.symm ▸ hx)
  | «class» i => exact (show i ∈ _ from p.classes.symm ▸ hx)
  | typeVar i => exact (show i ∈ _ from p.typeVars.symm ▸ hx)
  | function i => exact (show i ∈ _ from p.functions.symm ▸ hx)
  | property i => exact (show i ∈ _ from p.properties.symm ▸ hx)

/-- Every attribute that is kept is looked at, and what comes of it stays. -/
theorem parts_step {E : Env} {cfg : Config} {W : World} {fuel id : Nat} {M : Module} (p : ParseParts E cfg W fuel id M)
    {y : Ident × PyAttr} (hy : y ∈ moduleCandidates E cfg p.pm) :
    ∃ st st1, moduleStep E cfg M.name st y = .ok st1 ∧ ∀ x, StHas st1 x → Has M x := by
  obtain ⟨l1, l2, st, st1, -, -, h2, h3⟩ := foldRes_at p.attributes hy
  refine ⟨st, st1, h2, fun x hx => stHas_parts p ?_⟩
  have h : StHas p.st x := foldRes_invariant (P := fun st => StHas st x) hx
    (fun a ha b _ a' hs => attrStep_keeps (moduleStep_ok hs) ha) h3
  refine traversed_invariant p (P := fun st _ => StHas st x) h ?_ fun _ _ _ _ h _ _ => h
  intro st l c s i hst _ _ _
  exact takeOver_stHas.mpr (Or.inl hst)

theorem mem_moduleCandidates {E : Env} {cfg : Config} {pm : PyMod} {s : Str} {a : PyAttr} (hid : IsIdent E s) (hs : s ∈ pm.dir)
    (ha : pm.getattr s = some a) (hk : Kept E cfg s a.obj) : (Ident.fromPy E s, a) ∈ moduleCandidates E cfg pm := by
  unfold moduleCandidates
  rw [List.mem_filterMap]
  refine ⟨Ident.fromPy E s, mem_unique.mpr (List.mem_map_of_mem hs), ?_⟩
  rw [asPy_ident hid, ha]
  have hk : cfg.isAttrAllowed (Ident.fromPy E s) (Path.fromPy E a.obj.modPath) = true := hk
  simp only [hk, if_true]

end Bindgen

import Verif.Props.AnnObjects
import Verif.Spec.Tame
/-!
# Annotations that can be read: C15 and C51
-/
namespace Bindgen
open Spec

/-- Texts that are read without panic, in this build: printed annotations with separable argument lists, and, without overflow
checks, all texts without `dict[` and without empty class `repr`s. -/
inductive Spec.SafeText (E : Env) : Str → Prop
  | printed (a : Ann) : a.Valid → a.clear = true → SafeText E (a.show c!", ")
  | release {s : Str} : E.debug = false → Harmless s → SafeText E s

/-- Annotations that are read without panic. -/
inductive Spec.SafeAnn (E : Env) : PyAnn → Prop
  /-- the object `None` -/
  | none : SafeAnn E .none
  /-- text in quotes, or `from __future__ import annotations` -/
  | str {s : Str} : SafeText E s → SafeAnn E (.str s)
  /-- an object that is only printed, such as `list[int]` or `int | str` -/
  | other {s : Str} : SafeText E s → SafeAnn E (.other s)
  /-- an object of module `typing` that is only printed, such as a type variable -/
  | typing {s : Str} : SafeText E s → SafeAnn E (.typingPlain s)
  /-- classes and generics of module `typing` -/
  | obj (o : AnnObj) : o.Shaped → SafeAnn E o.py

theorem classType_ne_none (b : PyBase) : classType b ≠ .none := by cases b <;> decide

theorem name_ne_none {s : Str} (h : IsName s ∧ s ≠ c!"None" ∧ s ≠ c!"NoneType") : nameType s ≠ .none := by
  intro e
  rcases nameType_none e with e | e | e
  · exact h.1.1 e
  · exact h.2.1 e
  · exact h.2.2 e

theorem fromAnns_one {E : Env} {a : PyAnn} {t : PyTy} (h : fromAnn E a = .ok t) : fromAnns E [a] = .ok [t] := by
  simp only [fromAnns, h]
  rfl

theorem fromAnns_two {E : Env} {a b : PyAnn} {t u : PyTy} (h : fromAnn E a = .ok t) (h' : fromAnn E b = .ok u) :
    fromAnns E [a, b] = .ok [t, u] := by
  simp only [fromAnns, h, h']
  rfl

theorem fromAnn_args {E : Env} {o : PyAnn} {args : List PyAnn} {w t : PyTy} {ts : List PyTy} (ho : fromAnn E o = .ok w)
    (hs : fromAnns E args = .ok ts) (h : applyArgs w ts = .ok t) : fromAnn E (.typingArgs o args) = .ok t := by
  simp only [fromAnn, ho, hs]
  exact h

mutual
theorem readable_obj (E : Env) : ∀ o : AnnObj, o.Shaped → ∃ t, fromAnn E o.py = .ok t ∧ (o.noneLike = false → t ≠ .none)
  | .builtin b, _ => by
    obtain ⟨b', -, h⟩ := C60_subclass E (ancestors b) (classRepr ((className b).getD [])) (by cases b <;> simp [ancestors])
    exact ⟨_, h, fun _ => classType_ne_none b'⟩
  | .noneType, _ => ⟨.none, by simp only [AnnObj.py, fromAnn]; rfl, fun h => by simp [AnnObj.noneLike] at h⟩
  | .user s, h => by
    simp only [AnnObj.Shaped] at h
    refine ⟨nameType s, ?_, fun _ => name_ne_none h⟩
    simp only [AnnObj.py, fromAnn]
    change fromStr E (classRepr s) = _
    rw [fromStr_classRepr E (bar_of_name h.1), fromStr_name E h.1]
  | .any, _ => ⟨.any, by simp only [AnnObj.py, fromAnn]; rfl, fun _ => by simp⟩
  | .ellipsis, _ => ⟨.ellipsis, by simp only [AnnObj.py, fromAnn]; rfl, fun _ => by simp⟩
  | .list a, h => by
    obtain ⟨t, ht, -⟩ := readable_obj E a (by simpa only [AnnObj.Shaped] using h)
    exact ⟨.list t, fromAnn_args (w := .list .unknown) (by rw [fromAnn]; rfl) (fromAnns_one ht) rfl, fun _ => by simp⟩
  | .set a, h => by
    obtain ⟨t, ht, -⟩ := readable_obj E a (by simpa only [AnnObj.Shaped] using h)
    exact ⟨.set t, fromAnn_args (w := .set .unknown) (by rw [fromAnn]; rfl) (fromAnns_one ht) rfl, fun _ => by simp⟩
  | .frozenset a, h => by
    obtain ⟨t, ht, -⟩ := readable_obj E a (by simpa only [AnnObj.Shaped] using h)
    exact ⟨.frozenSet t, fromAnn_args (w := .frozenSet .unknown) (by rw [fromAnn]; rfl) (fromAnns_one ht) rfl, fun _ => by simp⟩
  | .abstract g a, h => by
    obtain ⟨t, ht, -⟩ := readable_obj E a (by simpa only [AnnObj.Shaped] using h)
    exact ⟨.list t, fromAnn_args (w := .list .unknown) (by cases g <;> (rw [fromAnn]; rfl)) (fromAnns_one ht) rfl,
      fun _ => by simp⟩
  | .dict k v, h => by
    simp only [AnnObj.Shaped] at h
    obtain ⟨t, ht, -⟩ := readable_obj E k h.1
    obtain ⟨u, hu, -⟩ := readable_obj E v h.2
    exact ⟨.dict t u, fromAnn_args (w := .dict .unknown .unknown) (by rw [fromAnn]; rfl) (fromAnns_two ht hu) rfl,
      fun _ => by simp⟩
  | .mapping k v, h => by
    simp only [AnnObj.Shaped] at h
    obtain ⟨t, ht, -⟩ := readable_obj E k h.1
    obtain ⟨u, hu, -⟩ := readable_obj E v h.2
    exact ⟨.dict t u, fromAnn_args (w := .dict .unknown .unknown) (by rw [fromAnn]; rfl) (fromAnns_two ht hu) rfl,
      fun _ => by simp⟩
  | .tuple as, h => by
    obtain ⟨ts, hts, -⟩ := readable_objs E as (by simpa only [AnnObj.Shaped] using h)
    exact ⟨.tuple ts, fromAnn_args (w := .tuple [.unknown]) (by rw [fromAnn]; rfl) hts rfl, fun _ => by simp⟩
  | .callable ps r, h => by
    simp only [AnnObj.Shaped] at h
    obtain ⟨ts, hts, -⟩ := readable_objs E ps h.1
    obtain ⟨t, ht, -⟩ := readable_obj E r h.2
    exact ⟨.function ts t, fromAnn_args (w := .function [.ellipsis] .unknown) (by rw [fromAnn]; rfl)
      (fromAnns_append E hts ht) (mkFunction_append ts t), fun _ => by simp⟩
  | .union a b l, h => by
    simp only [AnnObj.Shaped] at h
    obtain ⟨t, ht, ht'⟩ := readable_obj E a h.1
    obtain ⟨u, hu, hu'⟩ := readable_obj E b h.2.1
    obtain ⟨ts, hts, hlen⟩ := readable_objs E l h.2.2.1
    have hargs : fromAnns E (a.py :: b.py :: AnnObj.pyList l) = .ok (t :: u :: ts) := by
      simp only [fromAnns, ht, hu, hts]
      rfl
    have happ : ∃ x, applyArgs (.union [.unknown]) (t :: u :: ts) = .ok x ∧ x ≠ .none := by
      unfold applyArgs
      simp only
      split
      · rename_i hc
        have hl : l = [] := by
          cases l with
          | nil => rfl
          | cons c l =>
            simp only [Bool.and_eq_true, decide_eq_true_eq, List.length_cons] at hc hlen
            omega
        have hts0 : ts = [] := List.length_eq_zero_iff.mp (by rw [hlen, hl]; rfl)
        have hne := h.2.2.2 hl
        subst hts0
        cases hf : (t :: u :: []).find? (fun t => t ≠ PyTy.none) with
        | some x => exact ⟨_, rfl, by simp⟩
        | none =>
          exfalso
          rw [List.find?_eq_none] at hf
          have h1 := hf t (by simp)
          have h2 := hf u (by simp)
          simp only [ne_eq, decide_not, Bool.not_eq_true', decide_eq_false_iff_not, not_not] at h1 h2
          refine hne ⟨?_, ?_⟩
          · cases hn : a.noneLike with
            | true => rfl
            | false => exact absurd h1 (ht' hn)
          · cases hn : b.noneLike with
            | true => rfl
            | false => exact absurd h2 (hu' hn)
      · exact ⟨_, rfl, by simp⟩
    obtain ⟨x, hx, hx'⟩ := happ
    exact ⟨x, fromAnn_args (w := .union [.unknown]) (by rw [fromAnn]; rfl) hargs hx, fun _ => hx'⟩
  | .derived b bs s, _ => by
    obtain ⟨b', -, h⟩ := C60_subclass E (b :: bs) (classRepr s) (by simp)
    exact ⟨_, h, fun _ => classType_ne_none b'⟩
  | .plain s, h => by
    simp only [AnnObj.Shaped] at h
    refine ⟨nameType s, ?_, fun _ => name_ne_none h⟩
    simp only [AnnObj.py, fromAnn]
    exact fromStr_name E h.1
  | .type a, h => by
    obtain ⟨t, ht, ht'⟩ := readable_obj E a (by simpa only [AnnObj.Shaped] using h)
    refine ⟨t, fromAnn_args (w := .type) (by rw [fromAnn]; rfl) (fromAnns_one ht) rfl, fun hn => ht' ?_⟩
    simpa only [AnnObj.noneLike] using hn
theorem readable_objs (E : Env) : ∀ l : List AnnObj, AnnObj.ShapedList l →
    ∃ ts, fromAnns E (AnnObj.pyList l) = .ok ts ∧ ts.length = l.length
  | [], _ => ⟨[], by simp only [AnnObj.pyList, fromAnns], rfl⟩
  | a :: l, h => by
    simp only [AnnObj.ShapedList] at h
    obtain ⟨t, ht, -⟩ := readable_obj E a h.1
    obtain ⟨ts, hts, hl⟩ := readable_objs E l h.2
    refine ⟨t :: ts, ?_, by simp [hl]⟩
    simp only [AnnObj.pyList, fromAnns, ht, hts]
    rfl
end

theorem safeText_readable {E : Env} {s : Str} (h : SafeText E s) : ∃ t, fromStr E s = .ok t := by
  cases h with
  | printed a hv hc => exact ⟨_, C16_structure_partial E a hv hc⟩
  | release hd hs => exact C15_no_panic_without_dict_partial E hd s hs

/-- Which annotations can be read: texts as in C15, and all annotation objects, unless two alternatives are both read as `None`;
with debug assertions, only texts without `::`. With it the conditions on annotations in `C51_no_panic_partial` can be checked
without running the engine. -/
theorem C51_readable (E : Env) (a : PyAnn) (h : SafeAnn E a) (ht : E.debug = true → ∀ s ∈ annTexts a, ¬ c!"::" <:+: s) :
    Readable E a := by
  refine ⟨?_, fun s hs hd => ht hd s hs⟩
  cases h with
  | none => exact ⟨.unknown, by rw [fromAnn]⟩
  | str h => obtain ⟨t, ht⟩ := safeText_readable h; exact ⟨t, by rw [fromAnn]; exact ht⟩
  | other h => obtain ⟨t, ht⟩ := safeText_readable h; exact ⟨t, by rw [fromAnn]; exact ht⟩
  | typing h => obtain ⟨t, ht⟩ := safeText_readable h; exact ⟨t, by rw [fromAnn]; exact ht⟩
  | obj o ho => obtain ⟨t, ht, -⟩ := readable_obj E o ho; exact ⟨t, ht⟩

/-- `Optional[Dict[str, Type[pkg.Enumeration]]]` where the class derives from `int`. -/
example (a : PyAnn)
    (ha : a = (AnnObj.union (.dict (.builtin .string) (.type (.derived .long [] c!"pkg.Enumeration"))) .noneType []).py) :
    SafeAnn exEnv a ∧ ∀ s ∈ annTexts a, ¬ c!"::" <:+: s := by
  subst ha
  exact ⟨.obj _ (by simp [AnnObj.Shaped, AnnObj.ShapedList, AnnObj.noneLike]), by decide +kernel⟩

/-- **C15** fails for `Optional[Type[None]]` in every build: both alternatives are read as `None`. -/
theorem C15_optional_type_counterexample (E : Env) :
    fromAnn E (AnnObj.union (.type .noneType) .noneType []).py = .error (.panic .unreachable) := by
  simp only [AnnObj.py, AnnObj.pyList, fromAnn, fromAnns]
  rfl

end Bindgen

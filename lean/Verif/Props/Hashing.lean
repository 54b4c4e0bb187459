import Verif.Props.RustTypes
import Verif.Props.Tree
/-!
# C23: which annotations give hash collections whose keys can be hashed
-/
namespace Bindgen
open Spec

/-- The types whose Rust type is a plain value that implements `Hash`. -/
def Spec.plainKey : PyTy → Bool
  | .bool | .long | .string | .path | .ipV4 | .ipV6 => true
  | _ => false

mutual
/-- Every hash collection that is generated for the type has keys that can be hashed. `any v`: the Rust type of `v` has an
arbitrary object in it (such values make a dictionary a Python object). -/
def Spec.KeysHash (any : PyTy → Prop) : PyTy → Prop
  | .dict k v => any v ∨ (Spec.falseHashable k = false ∧ (Spec.plainKey k = true → Spec.KeysHash any v))
  | .set t | .frozenSet t => Spec.falseHashable t = false
  | .optional t | .list t => Spec.KeysHash any t
  | .tuple ts => ts.length < 2 ∨ Spec.KeysHashList any ts
  | _ => True
/-- The same on lists. -/
def Spec.KeysHashList (any : PyTy → Prop) : List PyTy → Prop
  | [] => True
  | t :: ts => Spec.KeysHash any t ∧ Spec.KeysHashList any ts
end

theorem keysHashList_iff {A : PyTy → Prop} {ts : List PyTy} : Spec.KeysHashList A ts ↔ ∀ t ∈ ts, Spec.KeysHash A t := by
  induction ts with
  | nil => simp [Spec.KeysHashList]
  | cons t ts ih => simp [Spec.KeysHashList, ih]

/-- What counts as hashable is plain or falsely so. -/
theorem isHashable_eq (t : PyTy) : t.isHashable = (Spec.plainKey t || Spec.falseHashable t) := by
  cases t <;> rfl

theorem plain_not_false {t : PyTy} (h : Spec.plainKey t = true) : Spec.falseHashable t = false := by
  cases t <;> simp [Spec.plainKey] at h <;> rfl

/-- The Rust type of a plain key implements `Hash` and has no hash collection in it. -/
theorem plain_hash {E : Env} {lt : LocalTypes} {t : PyTy} {p : RsTy × RsTy} (h : intoRs E lt t = .ok p)
    (hp : Spec.plainKey t = true) : ImplHash p.1 ∧ HashOk p.1 := by
  cases t <;> simp [Spec.plainKey] at hp <;> (rw [intoRs] at h; cases h; simp [sameOut, ImplHash, HashOk])

/-- The Rust type of a falsely hashable type does not implement `Hash`. -/
theorem false_hash {E : Env} {lt : LocalTypes} {t : PyTy} {p : RsTy × RsTy} (h : intoRs E lt t = .ok p)
    (hf : Spec.falseHashable t = true) : ¬ ImplHash p.1 := by
  intro h1
  cases t <;> simp [Spec.falseHashable] at hf
  case dict k v =>
    rcases dictNeedsConversion_agrees (o := p.1) (b := p.2) h with ⟨-, h, -⟩ | ⟨-, k', v', h, -⟩ <;>
      (rw [h] at h1; simp [ImplHash] at h1)
  case set u =>
    rw [intoRs] at h
    split at h
    · obtain ⟨q, hq, h⟩ := Res.bind_ok h; cases h; simp [ImplHash] at h1
    · cases h; simp [boundOut, ImplHash] at h1
  case frozenSet u =>
    rw [intoRs] at h
    split at h
    · obtain ⟨q, hq, h⟩ := Res.bind_ok h; cases h; simp [ImplHash] at h1
    · cases h; simp [boundOut, ImplHash] at h1
  case delta =>
    rw [intoRs] at h; cases h; simp [anyOut, ImplHash] at h1

/-- The element of a set, and nothing else, decides. -/
theorem setElem_hash {E : Env} {lt : LocalTypes} {t : PyTy} {p : RsTy × RsTy} (h : intoRs E lt t = .ok p)
    (hh : t.isHashable = true) : (ImplHash p.1 ∧ HashOk p.1) ↔ Spec.falseHashable t = false := by
  rw [isHashable_eq, Bool.or_eq_true] at hh
  obtain hf | hf := Bool.eq_false_or_eq_true (Spec.falseHashable t)
  · simp [hf, false_hash h hf]
  · have hp : Spec.plainKey t = true := by rcases hh with hh | hh; exact hh; rw [hf] at hh; cases hh
    simp [hf, plain_hash h hp]

/-- **C23** (exactly when it holds) The `HashMap`s and `HashSet`s in the Rust types of an annotation have keys that can be hashed
iff no dictionary key and no set element that is turned into Rust is a dictionary, set, frozen set or time delta. -/
theorem C23_exact (E : Env) (lt : LocalTypes) (t : PyTy) (o b : RsTy) (h : intoRs E lt t = .ok (o, b)) :
    (HashOk o ↔ Spec.KeysHash (fun v => ∃ p, intoRs E lt v = .ok p ∧ p.1.mentionsPyAny = true) t) ∧ (HashOk o ↔ HashOk b) := by
  induction t using PyTy.ind generalizing o b with
  | step t ih =>
    generalize hA : (fun v => ∃ p, intoRs E lt v = .ok p ∧ p.1.mentionsPyAny = true) = A at ih ⊢
    have own : ∀ {s : PyTy} {p : RsTy × RsTy}, s ∈ t.kids → intoRs E lt s = .ok p → (HashOk p.1 ↔ Spec.KeysHash A s) :=
      fun hs hp => (ih _ hs _ _ hp).1
    cases t
    case other n =>
      rw [intoRs] at h
      rcases mapType_ok h with ⟨_, h⟩ | ⟨_, rel, _, _, h⟩ | ⟨_, _, h⟩ <;> cases h <;> simp [HashOk, Spec.KeysHash]
    case optional t =>
      rw [intoRs] at h
      obtain ⟨p, hp, h⟩ := Res.bind_ok h
      cases h
      have := own (by simp [PyTy.kids]) hp
      simp [HashOk, Spec.KeysHash, this]
    case list t =>
      rw [intoRs] at h
      obtain ⟨p, hp, h⟩ := Res.bind_ok h
      cases h
      have := own (by simp [PyTy.kids]) hp
      simp [HashOk, Spec.KeysHash, this]
    case dict k v =>
      rw [intoRs] at h
      obtain ⟨p, hp, h⟩ := Res.bind_ok h
      have hAv : A v ↔ p.1.mentionsPyAny = true := by
        subst hA
        exact ⟨fun ⟨q, hq, hm⟩ => by rw [hp] at hq; cases hq; exact hm, fun hm => ⟨p, hp, hm⟩⟩
      rw [Spec.KeysHash, hAv]
      split at h
      · rename_i hc
        simp only [Bool.and_eq_true, Bool.not_eq_true'] at hc
        obtain ⟨q, hq, h⟩ := Res.bind_ok h
        cases h
        have h1 := own (by simp [PyTy.kids]) hp
        have h2 := setElem_hash hq hc.1
        refine ⟨?_, by simp [HashOk]⟩
        rw [HashOk, ← and_assoc, h2, h1, hc.2]
        constructor
        · rintro ⟨a, c⟩; exact Or.inr ⟨a, fun _ => c⟩
        · rintro (c | ⟨a, c⟩)
          · cases c
          · refine ⟨a, c ?_⟩
            have := hc.1; rw [isHashable_eq, a, Bool.or_false] at this; exact this
      · rename_i hc
        cases h
        refine ⟨?_, by simp [HashOk]⟩
        simp only [HashOk, true_iff]
        obtain hm | hm := Bool.eq_false_or_eq_true p.1.mentionsPyAny
        · exact Or.inl hm
        · have hk : k.isHashable = false := by
            obtain hk | hk := Bool.eq_false_or_eq_true k.isHashable
            · exact absurd (by rw [hk, hm]; rfl) hc
            · exact hk
          rw [isHashable_eq, Bool.or_eq_false_iff] at hk
          exact Or.inr ⟨hk.2, fun c => by rw [hk.1] at c; cases c⟩
    case frozenSet t =>
      rw [Spec.KeysHash]
      rw [intoRs] at h
      split at h
      · rename_i hc
        obtain ⟨p, hp, h⟩ := Res.bind_ok h
        cases h
        exact ⟨by rw [HashOk]; exact setElem_hash hp hc, by simp [HashOk]⟩
      · rename_i hc
        cases h
        rw [isHashable_eq, Bool.or_eq_true, not_or] at hc
        exact ⟨by simpa [HashOk, boundOut] using hc.2, by simp [HashOk]⟩
    case set t =>
      rw [Spec.KeysHash]
      rw [intoRs] at h
      split at h
      · rename_i hc
        obtain ⟨p, hp, h⟩ := Res.bind_ok h
        cases h
        exact ⟨by rw [HashOk]; exact setElem_hash hp hc, by simp [HashOk]⟩
      · rename_i hc
        cases h
        rw [isHashable_eq, Bool.or_eq_true, not_or] at hc
        exact ⟨by simpa [HashOk, boundOut] using hc.2, by simp [HashOk]⟩
    case tuple ts =>
      rw [Spec.KeysHash, keysHashList_iff]
      rcases tuple_cases ts with hs | ⟨t, rfl⟩ | ⟨h2, he⟩
      · rw [intoRs_tuple_short E lt hs] at h; cases h; simp [HashOk, hs]
      · rw [intoRs_tuple_ellipsis, intoRs] at h
        obtain ⟨p, hp, h⟩ := Res.bind_ok h
        cases h
        have := own (by simp [PyTy.kids]) hp
        simp [HashOk, this, Spec.KeysHash]
      · rw [intoRs_tuple E lt h2 he] at h
        obtain ⟨rs, hrs, h⟩ := Res.bind_ok h
        cases h
        refine ⟨?_, by simp [HashOk]⟩
        simp only [HashOk, hashOkList_iff]
        constructor
        · intro hall
          refine Or.inr fun s hs => ?_
          obtain ⟨r, hr, hsr⟩ := traverse_mem' hrs hs
          obtain ⟨b, hb⟩ := intoRsOwned_ok hsr
          exact (own (p := (r, b)) (by simpa [PyTy.kids] using hs) hb).mp (hall r hr)
        · rintro (hl | hall) r hr
          · omega
          · obtain ⟨s, hs, hsr⟩ := traverse_mem hrs hr
            obtain ⟨b, hb⟩ := intoRsOwned_ok hsr
            exact (own (p := (r, b)) (by simpa [PyTy.kids] using hs) hb).mpr (hall s hs)
    all_goals (rw [intoRs] at h; cases h; simp [HashOk, Spec.KeysHash])

/-- A dictionary with sets as keys: fine if its values are arbitrary objects, not if they are numbers. -/
example : HashOk (.bound c!"PyDict") ∧
    intoRsOwned (Env.ascii true false) [] (.dict (.frozenSet .string) .any) = .ok (.bound c!"PyDict") ∧
    ¬ Spec.KeysHash (fun v => ∃ p, intoRs (Env.ascii true false) [] v = .ok p ∧ p.1.mentionsPyAny = true)
      (.list (.dict (.frozenSet .string) .long)) := by
  refine ⟨by simp [HashOk], by decide, ?_⟩
  simp only [Spec.KeysHash, Spec.falseHashable]
  rintro (⟨p, hp, hm⟩ | ⟨h, -⟩)
  · rw [intoRs] at hp; cases hp; cases hm
  · cases h

end Bindgen

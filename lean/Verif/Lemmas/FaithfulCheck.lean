import Verif.Spec.Faithful
import Verif.Lemmas.Ident
/-! # A check for faithful interpreters, used in examples -/
namespace Bindgen
open Spec

def pyIdentCheck (E : Env) (s : Str) : Bool :=
  !s.isEmpty && !s.contains '.' && !(c!"r#").isPrefixOf s && s != c!"super" && isIdentText E s

theorem pyIdent_of_check {E : Env} {s : Str} (h : pyIdentCheck E s = true) : PyIdent E s := by
  simp only [pyIdentCheck, Bool.and_eq_true, Bool.not_eq_true', bne_iff_ne, ne_eq] at h
  obtain ⟨⟨⟨⟨h1, h2⟩, h3⟩, h4⟩, h5⟩ := h
  refine ⟨⟨by simpa using h1, by simpa using h2, fun hp => ?_, h4⟩, (isIdentText_iff E s).mp h5⟩
  rw [List.isPrefixOf_iff_prefix.mpr hp] at h3
  cases h3

def moduleCheck (E : Env) (W : World) (m : PyMod) : Bool :=
  m.dir.all (pyIdentCheck E) && (m.iterModules.getD []).all (pyIdentCheck E) &&
  match m.name with
  | none => true
  | some n => (Str.splitChar '.' n).all (pyIdentCheck E) && Str.join c!"." (Str.splitChar '.' n) == n &&
    !(Str.splitChar '.' n).isEmpty &&
    m.attrs.all fun x => match x.2.mod with
      | none => true
      | some id' => (W.importMod (n ++ '.' :: x.1)).isSome || ((W.get? id').bind PyMod.name) == some (n ++ '.' :: x.1) ||
        (!(m.iterModules.getD []).contains x.1 && Path.fromPy E x.2.obj.modPath != Path.fromPy E n &&
          !Str.containsSub c!"<locals>" x.2.obj.repr)

theorem lookup_mem {α β : Type} [BEq α] [LawfulBEq α] {l : List (α × β)} {a : α} {b : β} (h : l.lookup a = some b) : (a, b) ∈ l := by
  induction l with
  | nil => cases h
  | cons x l ih =>
    rw [List.lookup] at h
    split at h
    · rename_i he
      cases h
      have : a = x.1 := by simpa using he
      subst this
      simp
    · exact List.mem_cons_of_mem _ (ih h)

theorem faithful_of_check {E : Env} {W : World} (h : W.mods.all (moduleCheck E W) = true)
    (hi : ∀ s id, W.importMod s = some id → Called W id s) : Faithful E W := by
  have hm : ∀ id m, W.get? id = some m → moduleCheck E W m = true := fun id m hg =>
    List.all_eq_true.mp h m (List.mem_of_getElem? hg)
  constructor
  · intro id m n hg hn
    have := hm id m hg
    simp only [moduleCheck, hn, Bool.and_eq_true] at this
    refine ⟨Str.splitChar '.' n, ?_, ?_, ?_⟩
    · simpa using this.2.1.2
    · exact fun s hs => pyIdent_of_check (List.all_eq_true.mp this.2.1.1.1 s hs)
    · exact (eq_of_beq this.2.1.1.2).symm
  · intro id m hg s hs
    have := hm id m hg
    simp only [moduleCheck, Bool.and_eq_true] at this
    exact pyIdent_of_check (List.all_eq_true.mp this.1.1 s hs)
  · intro id m l hg hl s hs
    have := hm id m hg
    simp only [moduleCheck, Bool.and_eq_true, hl, Option.getD_some] at this
    exact pyIdent_of_check (List.all_eq_true.mp this.1.2 s hs)
  · exact hi
  · intro id m n i a id' hg hn ha hmod hnone
    have := hm id m hg
    simp only [moduleCheck, hn, Bool.and_eq_true] at this
    have := List.all_eq_true.mp this.2.2 (i, a) (lookup_mem ha)
    simp only [hmod, hnone, Option.isSome_none, Bool.false_or, Bool.or_eq_true] at this
    rcases this with h | h
    · left
      have h := eq_of_beq h
      cases hg' : W.get? id' with
      | none => rw [hg'] at h; cases h
      | some m' => rw [hg'] at h; exact ⟨m', hg', h⟩
    · right
      simp only [Bool.and_eq_true, Bool.not_eq_true', bne_iff_ne, ne_eq] at h
      refine ⟨fun l hl hil => ?_, h.1.2, h.2⟩
      have h1 := h.1.1
      rw [hl] at h1
      simp [hil] at h1

end Bindgen

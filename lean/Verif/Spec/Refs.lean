import Verif.Spec.Items
import Verif.Spec.Resolve
/-! # Specification: references from signatures to generated types -/
namespace Bindgen.Spec

/-- The Rust type refers to the generated type with this path. -/
inductive Mentions (p : Path) : RsTy → Prop
  | here : Mentions p (.boundLocal p)
  | option {t : RsTy} : Mentions p t → Mentions p (.option t)
  | key {k v : RsTy} : Mentions p k → Mentions p (.hashMap k v)
  | value {k v : RsTy} : Mentions p v → Mentions p (.hashMap k v)
  | hashSet {t : RsTy} : Mentions p t → Mentions p (.hashSet t)
  | vec {t : RsTy} : Mentions p t → Mentions p (.vec t)
  | slice {t : RsTy} : Mentions p t → Mentions p (.slice t)
  | ref {t : RsTy} : Mentions p t → Mentions p (.ref t)
  | tuple {t : RsTy} {ts : List RsTy} : t ∈ ts → Mentions p t → Mentions p (.tuple ts)

/-- A parameter or the result of the signature refers to the path. -/
def SigMentions (p : Path) (s : Sig) : Prop :=
  (∃ x t, (x, t) ∈ s.params ∧ Mentions p t) ∨ ∃ t, s.ret = .ty t ∧ Mentions p t

/-- The signatures in an item. -/
def HasSig (s : Sig) : Item → Prop
  | .func f => f.sig = s
  | .prop f => f.sig = s
  | .class k => s ∈ k.traitSigs ∨ ∃ f, (f ∈ k.inherent ∨ f ∈ k.traitImpls) ∧ f.sig = s
  | _ => False

/-- A type of this name is declared among the items. -/
def Declares (items : List Item) (n : Str) : Prop := (∃ k : ClassItem, .class k ∈ items ∧ k.name = n) ∨ .typeAlias n ∈ items

end Bindgen.Spec

import Verif.Lemmas.ModuleNames
/-! # Where the items of parsed modules come from -/
namespace Bindgen
open Spec

/-- What an attribute can become. -/
inductive NewItem (E : Env) (cfg : Config) (name : Path) (i : Ident) (a : PyAttr) : SItem → Prop
  | import' (o : Path) : o = (Path.fromPy E a.obj.modPath).join (Path.fromPy E (a.obj.dunderName.getD i.asPy)) →
      o ≠ fullName name i → originAllowed cfg o = true →
      determine E a.obj (Path.fromPy E a.obj.modPath) name true = .ok .import → NewItem E cfg name i a (.import (Import.new o (fullName name i)))
  | class' (c : Class) : Class.parse E cfg a.cls (fullName name i) = .ok c →
      determine E a.obj (Path.fromPy E a.obj.modPath) name true = .ok .class → NewItem E cfg name i a (.class c)
  | typeVar : determine E a.obj (Path.fromPy E a.obj.modPath) name true = .ok .typeVar →
      NewItem E cfg name i a (.typeVar ⟨fullName name i⟩)
  | function (t : FnType) (f : Function) : t = .function ∨ t = .closure → Function.parse E a.obj.fn (fullName name i) t = .ok f →
      determine E a.obj (Path.fromPy E a.obj.modPath) name true = .ok .function ∨
        determine E a.obj (Path.fromPy E a.obj.modPath) name true = .ok .closure →
      NewItem E cfg name i a (.function f)
  | property (p : Property) : Property.parse E a.obj (fullName name i) .module = .ok p →
      determine E a.obj (Path.fromPy E a.obj.modPath) name true = .ok .property → NewItem E cfg name i a (.property p)

/-- The item under another name. -/
def renameItem (t : Path) : SItem → SItem
  | .prelude i => .prelude i
  | .import i => .import { i with target := t }
  | .class c => .class { c with name := t }
  | .typeVar v => .typeVar { v with name := t }
  | .function f => .function { f with name := t }
  | .property p => .property { p with name := t }

/-- The item is among those collected. -/
def StHas (st : ParseState) : SItem → Prop
  | .prelude _ => False
  | .import i => i ∈ st.imports
  | .class c => c ∈ st.classes
  | .typeVar t => t ∈ st.typeVars
  | .function f => f ∈ st.functions
  | .property p => p ∈ st.properties

theorem mem_snoc {α : Type} {l : List α} {a b : α} : a ∈ l ++ [b] ↔ a ∈ l ∨ a = b := by simp

theorem attrStep_items {E : Env} {cfg : Config} {name : Path} {st st' : ParseState} {i : Ident} {a : PyAttr}
    (h : AttrStep E cfg name st i a st') {x : SItem} (hx : StHas st' x) : StHas st x ∨ NewItem E cfg name i a x := by
  cases h with
  | skip => exact Or.inl hx
  | conflict => cases x <;> exact Or.inl hx
  | module' => cases x <;> exact Or.inl hx
  | import' o h1 h2 h3 _ h4 =>
    cases x with
    | «import» j =>
      rcases mem_snoc.mp hx with hx | rfl
      · exact Or.inl hx
      · exact Or.inr (.import' o h1 h2 h3 h4)
    | _ => exact Or.inl hx
  | class' c hc hv =>
    cases x with
    | «class» j =>
      rcases mem_snoc.mp hx with hx | rfl
      · exact Or.inl hx
      · exact Or.inr (.class' _ hc hv)
    | _ => exact Or.inl hx
  | typeVar hv =>
    cases x with
    | typeVar j =>
      rcases mem_snoc.mp hx with hx | rfl
      · exact Or.inl hx
      · exact Or.inr (.typeVar hv)
    | _ => exact Or.inl hx
  | function t f ht hf hv =>
    cases x with
    | function j =>
      rcases mem_snoc.mp hx with hx | rfl
      · exact Or.inl hx
      · exact Or.inr (.function t _ ht hf hv)
    | _ => exact Or.inl hx
  | property p hp hv =>
    cases x with
    | property j =>
      rcases mem_snoc.mp hx with hx | rfl
      · exact Or.inl hx
      · exact Or.inr (.property _ hp hv)
    | _ => exact Or.inl hx

theorem find_map {α β : Type} {l : List α} {f : α → Bool} {g : α → β} {b : β} (h : b ∈ ((l.find? f).map g).toList) :
    ∃ a ∈ l, f a = true ∧ b = g a := by
  cases hf : l.find? f with
  | none => rw [hf] at h; cases h
  | some a =>
    rw [hf] at h
    simp only [Option.map_some, Option.toList_some, List.mem_singleton] at h
    exact ⟨a, List.mem_of_find?_eq_some hf, List.find?_some hf, h⟩

/-- Full name of an item. -/
def itemName : SItem → Path
  | .prelude i => Path.ofIdent i
  | .import i => i.target
  | .class c => c.name
  | .typeVar t => t.name
  | .function f => f.name
  | .property p => p.name

theorem takeOver_items {st : ParseState} {c : Import} {s : Module} {x : SItem} (hx : StHas (takeOver st c s) x) :
    StHas st x ∨ ∃ y, Has s y ∧ itemName y = c.origin ∧ x = renameItem c.target y := by
  cases x with
  | prelude i => cases hx
  | «import» i =>
    rcases List.mem_append.mp hx with hx | hx
    · exact Or.inl hx
    · obtain ⟨a, ha, h1, rfl⟩ := find_map hx
      exact Or.inr ⟨.import a, ha, of_decide_eq_true h1, rfl⟩
  | «class» i =>
    rcases List.mem_append.mp hx with hx | hx
    · exact Or.inl hx
    · obtain ⟨a, ha, h1, rfl⟩ := find_map hx
      exact Or.inr ⟨.class a, ha, of_decide_eq_true h1, rfl⟩
  | typeVar i =>
    rcases List.mem_append.mp hx with hx | hx
    · exact Or.inl hx
    · obtain ⟨a, ha, h1, rfl⟩ := find_map hx
      exact Or.inr ⟨.typeVar a, ha, of_decide_eq_true h1, rfl⟩
  | function i =>
    rcases List.mem_append.mp hx with hx | hx
    · exact Or.inl hx
    · obtain ⟨a, ha, h1, rfl⟩ := find_map hx
      exact Or.inr ⟨.function a, ha, of_decide_eq_true h1, rfl⟩
  | property i =>
    rcases List.mem_append.mp hx with hx | hx
    · exact Or.inl hx
    · obtain ⟨a, ha, h1, rfl⟩ := find_map hx
      exact Or.inr ⟨.property a, ha, of_decide_eq_true h1, rfl⟩

theorem parts_has {E : Env} {cfg : Config} {W : World} {fuel id : Nat} {M : Module} (p : ParseParts E cfg W fuel id M)
    {x : SItem} (hx : Has M x) : StHas p.st' x ∨ ∃ i, x = .prelude i := by
  cases x with
  | prelude i => exact Or.inr ⟨i, rfl⟩
  | «import» i => exact Or.inl (show i ∈ _ from p.imports ▸ hx)
  | «class» i => exact Or.inl (show i ∈ _ from p.classes ▸ hx)
  | typeVar i => exact Or.inl (show i ∈ _ from p.typeVars ▸ hx)
  | function i => exact Or.inl (show i ∈ _ from p.functions ▸ hx)
  | property i => exact Or.inl (show i ∈ _ from p.properties ▸ hx)

/-- A property of items that renaming keeps holds of the items of parsed modules if it holds of those made from attributes. -/
theorem parse_all {E : Env} {cfg : Config} {W : World} {Q : SItem → Prop} (hren : ∀ x t, Q x → Q (renameItem t x))
    (hpre : ∀ i, Q (.prelude i))
    (hnew : ∀ id pm name i a x, W.get? id = some pm → (i, a) ∈ moduleCandidates E cfg pm → NewItem E cfg name i a x → Q x)
    {fuel id : Nat} {M : Module} (h : Module.parse E cfg W fuel id = .ok M) : ∀ x, Has M x → Q x := by
  induction fuel generalizing id M with
  | zero => exact absurd h parse_zero
  | succ fuel ih =>
    obtain ⟨p⟩ := parse_parts h
    intro x hx
    rcases parts_has p hx with hx | ⟨i, rfl⟩
    · revert x
      refine traversed_invariant p (P := fun st _ => ∀ x, Has M x → StHas st x → Q x) ?_ ?_ fun _ _ _ _ h _ _ => h
      · intro x _
        refine foldRes_invariant (P := fun st : ParseState => StHas st x → Q x) ?_ ?_ p.attributes
        · cases x <;> intro h <;> cases h
        · intro st hst y hy st' hs hx
          rcases attrStep_items (moduleStep_ok hs) hx with hx | hx
          · exact hst hx
          · exact hnew id p.pm M.name y.1 y.2 x p.get hy hx
      · rintro st l c s i hst - - ⟨id', hs⟩ x hM hx
        rcases takeOver_items hx with hx | ⟨y, hy, -, rfl⟩
        · exact hst x hM hx
        · exact hren _ _ (ih hs y hy)
    · exact hpre i

theorem newItem_name {E : Env} {cfg : Config} {name : Path} {i : Ident} {a : PyAttr} {x : SItem} (h : NewItem E cfg name i a x) :
    itemName x = fullName name i := by
  cases h with
  | import' => rfl
  | class' c hc => exact class_parse_name hc
  | typeVar => rfl
  | function t f _ hf => exact function_parse_name hf
  | property p hp => exact (property_parse_name hp).1

/-- The items of a parsed module are made from its attributes, or are taken over under the name of an attribute that is also a
submodule. -/
theorem parts_new {E : Env} {cfg : Config} {W : World} {fuel id : Nat} {M : Module} (p : ParseParts E cfg W fuel id M)
    {x : SItem} (hx : Has M x) : (∃ i, x = .prelude i) ∨
      (∃ y ∈ moduleCandidates E cfg p.pm, NewItem E cfg M.name y.1 y.2 x) ∨
      ∃ i id', i ∈ p.st.subs ∧ W.importMod (fullName M.name i).toPy = some id' ∧ itemName x = fullName M.name i := by
  rcases parts_has p hx with h | ⟨i, rfl⟩
  · right
    have h0 : StHas p.st x → ∃ y ∈ moduleCandidates E cfg p.pm, NewItem E cfg M.name y.1 y.2 x := by
      refine foldRes_invariant (P := fun st : ParseState => StHas st x → ∃ y ∈ moduleCandidates E cfg p.pm,
        NewItem E cfg M.name y.1 y.2 x) ?_ ?_ p.attributes
      · cases x <;> intro h <;> cases h
      · intro st hst y hy st' hs hx
        rcases attrStep_items (moduleStep_ok hs) hx with hx | hx
        · exact hst hx
        · exact ⟨y, hy, hx⟩
    rcases ifOn_ok p.traversed with ⟨-, ht⟩ | ⟨-, ht⟩
    · have key := foldRes_invariant (P := fun acc : ParseState × List Module => StHas acc.1 x →
        StHas p.st x ∨ ∃ i id', i ∈ p.st.subs ∧ W.importMod (fullName M.name i).toPy = some id' ∧ itemName x = fullName M.name i)
        (fun h => Or.inl h) ?_ ht
      · rcases key h with h | h
        · exact Or.inl (h0 h)
        · exact Or.inr h
      · intro acc hacc i hi acc' hs hx
        have hi := (E.set_mem _ _).mp hi
        rcases submoduleStep_ok hs with rfl | ⟨c, s, id', hc, hid, -, rfl⟩ | ⟨s, id', -, -, -, rfl⟩
        · exact hacc hx
        · rcases takeOver_items hx with hx | ⟨y, hy, -, rfl⟩
          · exact hacc hx
          · refine Or.inr ⟨i, id', hi, hid, ?_⟩
            have : c.target = fullName M.name i := by simpa using List.find?_some hc
            rw [← this]
            cases y with
            | prelude j => cases hx
            | _ => rfl
        · exact hacc hx
    · have h1 := congrArg Prod.fst ht
      simp only at h1
      rw [h1] at h
      exact Or.inl (h0 h)
  · exact Or.inl ⟨i, rfl⟩

end Bindgen

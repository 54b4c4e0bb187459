import Mathlib.Data.List.Count
import Mathlib.Data.List.Nodup
import Verif.Lemmas.ModuleParse
import Verif.Lemmas.Deps
import Verif.Lemmas.Merge
/-! # Names of the items of a parsed module -/
namespace Bindgen
open Spec

theorem function_parse_name {E : Env} {pf : PyFn} {name : Path} {typ : FnType} {f : Function}
    (h : Function.parse E pf name typ = .ok f) : f.name = name := by
  unfold Function.parse at h
  obtain ⟨doc, -, h⟩ := Res.bind_ok h
  split at h
  · cases h; rfl
  · obtain ⟨ps, -, h⟩ := Res.bind_ok h
    obtain ⟨ret, -, h⟩ := Res.bind_ok h
    obtain ⟨ps', -, h⟩ := Res.bind_ok h
    cases h; rfl

theorem class_parse_name {E : Env} {cfg : Config} {c : PyClass} {name : Path} {k : Class}
    (h : Class.parse E cfg c name = .ok k) : k.name = name := by
  unfold Class.parse at h
  obtain ⟨_, -, h⟩ := Res.bind_ok h
  obtain ⟨⟨ms, ps⟩, -, h⟩ := Res.bind_ok h
  obtain ⟨doc, -, h⟩ := Res.bind_ok h
  cases h; rfl

theorem property_parse_name {E : Env} {o : PyObj} {name : Path} {owner : Owner} {p : Property}
    (h : Property.parse E o name owner = .ok p) : p.name = name ∧ p.owner = owner := by
  unfold Property.parse at h
  split at h
  · obtain ⟨a, -, h⟩ := Res.bind_ok h
    cases h; exact ⟨rfl, rfl⟩
  · obtain ⟨⟨a, d⟩, -, h⟩ := Res.bind_ok h
    obtain ⟨⟨a, b, c, d⟩, -, h⟩ := Res.bind_ok h
    cases h; exact ⟨rfl, rfl⟩

/-- The full name of an attribute. -/
abbrev fullName (name : Path) (i : Ident) : Path := name.join (Path.ofIdent i)

theorem fullName_inj {name : Path} {i j : Ident} (h : fullName name i = fullName name j) : i = j := by
  have := congrArg Path.segs h
  simp only [fullName, Path.join, Path.ofIdent] at this
  have := List.append_cancel_left this
  simpa using this

theorem fullName_ne {name : Path} {i : Ident} : fullName name i ≠ name := by
  intro h
  have := congrArg (fun p => p.segs.length) h
  simp [fullName, Path.join, Path.ofIdent] at this

/-- What one attribute can lead to. -/
inductive AttrStep (E : Env) (cfg : Config) (name : Path) (st : ParseState) (i : Ident) (a : PyAttr) : ParseState → Prop
  | skip : AttrStep E cfg name st i a st
  | import' (o : Path) : o = (Path.fromPy E a.obj.modPath).join (Path.fromPy E (a.obj.dunderName.getD i.asPy)) →
      o ≠ fullName name i → originAllowed cfg o = true → i ∉ st.subs → determine E a.obj (Path.fromPy E a.obj.modPath) name true = .ok .import →
      AttrStep E cfg name st i a { st with imports := st.imports ++ [Import.new o (fullName name i)] }
  | conflict (o : Path) : o = (Path.fromPy E a.obj.modPath).join (Path.fromPy E (a.obj.dunderName.getD i.asPy)) →
      o ≠ fullName name i → originAllowed cfg o = true → i ∈ st.subs →
      AttrStep E cfg name st i a { st with conflicts := st.conflicts ++ [Import.new o (fullName name i)] }
  | module' : determine E a.obj (Path.fromPy E a.obj.modPath) name true = .ok .module →
      AttrStep E cfg name st i a { st with subs := st.subs ++ [i] }
  | class' (c : Class) : Class.parse E cfg a.cls (fullName name i) = .ok c →
      determine E a.obj (Path.fromPy E a.obj.modPath) name true = .ok .class →
      AttrStep E cfg name st i a { st with classes := st.classes ++ [c] }
  | typeVar : determine E a.obj (Path.fromPy E a.obj.modPath) name true = .ok .typeVar →
      AttrStep E cfg name st i a { st with typeVars := st.typeVars ++ [⟨fullName name i⟩] }
  | function (t : FnType) (f : Function) : t = .function ∨ t = .closure → Function.parse E a.obj.fn (fullName name i) t = .ok f →
      determine E a.obj (Path.fromPy E a.obj.modPath) name true = .ok .function ∨
        determine E a.obj (Path.fromPy E a.obj.modPath) name true = .ok .closure →
      AttrStep E cfg name st i a { st with functions := st.functions ++ [f] }
  | property (p : Property) : Property.parse E a.obj (fullName name i) .module = .ok p →
      determine E a.obj (Path.fromPy E a.obj.modPath) name true = .ok .property →
      AttrStep E cfg name st i a { st with properties := st.properties ++ [p] }

theorem moduleStep_ok {E : Env} {cfg : Config} {name : Path} {st st' : ParseState} {m : Ident × PyAttr}
    (h : moduleStep E cfg name st m = .ok st') : AttrStep E cfg name st m.1 m.2 st' := by
  unfold moduleStep at h
  obtain ⟨v, hv, h⟩ := Res.bind_ok h
  cases v with
  | «import» =>
    obtain ⟨_, -, h⟩ := Res.bind_ok h
    cases h
    unfold stepImport
    simp only
    split
    · exact .skip
    · split
      · exact .skip
      · rename_i h1 h2
        split
        · rename_i h3
          exact .conflict _ rfl h1 (by simpa using h2) (by simpa using h3)
        · rename_i h3
          exact .import' _ rfl h1 (by simpa using h2) (by simpa using h3) hv
  | module => cases h; exact .module' hv
  | «class» =>
    obtain ⟨c, hc, h⟩ := Res.bind_ok h
    cases h
    exact .class' c hc hv
  | typeVar => cases h; exact .typeVar hv
  | function =>
    obtain ⟨f, hf, h⟩ := Res.bind_ok h
    cases h
    exact .function _ f (Or.inl rfl) hf (Or.inl hv)
  | method => cases h; exact .skip
  | closure =>
    obtain ⟨f, hf, h⟩ := Res.bind_ok h
    cases h
    exact .function _ f (Or.inr rfl) hf (Or.inr hv)
  | property =>
    obtain ⟨p, hp, h⟩ := Res.bind_ok h
    cases h
    exact .property p hp hv

/-- Names of the items collected. -/
def ParseState.names (st : ParseState) : List Path :=
  st.imports.map Import.target ++ st.classes.map Class.name ++ st.typeVars.map TypeVar.name ++
    st.functions.map Function.name ++ st.properties.map Property.name

/-- Names of the items of a module. -/
def Module.itemNames (m : Module) : List Path :=
  m.imports.map Import.target ++ m.classes.map Class.name ++ m.typeVars.map TypeVar.name ++
    m.functions.map Function.name ++ m.properties.map Property.name

/-- Names of the items and of the conflicting imports. -/
def ParseState.allNames (st : ParseState) : List Path := st.names ++ st.conflicts.map Import.target

theorem attrStep_names {E : Env} {cfg : Config} {name : Path} {st st' : ParseState} {i : Ident} {a : PyAttr}
    (h : AttrStep E cfg name st i a st') :
    st'.allNames.Perm st.allNames ∨ st'.allNames.Perm (fullName name i :: st.allNames) := by
  have hp : ∀ l l' : List Path, l.Perm l' ↔ ∀ a, l.count a = l'.count a := fun l l' => List.perm_iff_count
  cases h with
  | skip => exact Or.inl (List.Perm.refl _)
  | module' => exact Or.inl (List.Perm.refl _)
  | import' o =>
    right; rw [hp]; intro x
    simp only [ParseState.allNames, ParseState.names, List.map_append, List.map_cons, List.map_nil, List.count_append,
      List.count_cons, Import.new, List.count_nil]
    omega
  | conflict o =>
    right; rw [hp]; intro x
    simp only [ParseState.allNames, ParseState.names, List.map_append, List.map_cons, List.map_nil, List.count_append,
      List.count_cons, Import.new, List.count_nil]
    omega
  | class' c hc =>
    right; rw [hp]; intro x
    simp only [ParseState.allNames, ParseState.names, List.map_append, List.map_cons, List.map_nil, List.count_append,
      List.count_cons, class_parse_name hc, List.count_nil]
    omega
  | typeVar =>
    right; rw [hp]; intro x
    simp only [ParseState.allNames, ParseState.names, List.map_append, List.map_cons, List.map_nil, List.count_append,
      List.count_cons, List.count_nil]
    omega
  | function t f ht hf =>
    right; rw [hp]; intro x
    simp only [ParseState.allNames, ParseState.names, List.map_append, List.map_cons, List.map_nil, List.count_append,
      List.count_cons, function_parse_name hf, List.count_nil]
    omega
  | property p hq =>
    right; rw [hp]; intro x
    simp only [ParseState.allNames, ParseState.names, List.map_append, List.map_cons, List.map_nil, List.count_append,
      List.count_cons, (property_parse_name hq).1, List.count_nil]
    omega

theorem attributes_names {E : Env} {cfg : Config} {name : Path} {l : List (Ident × PyAttr)} {st st' : ParseState}
    (h : foldRes (moduleStep E cfg name) st l = .ok st') (hl : (l.map Prod.fst).Nodup) (hn : st.allNames.Nodup)
    (hd : ∀ x ∈ l, fullName name x.1 ∉ st.allNames) :
    st'.allNames.Nodup ∧ ∀ p ∈ st'.allNames, p ∈ st.allNames ∨ ∃ x ∈ l, p = fullName name x.1 := by
  induction l generalizing st with
  | nil => cases h; exact ⟨hn, fun p hp => Or.inl hp⟩
  | cons x l ih =>
    rw [foldRes] at h
    obtain ⟨st1, h1, h⟩ := Res.bind_ok h
    rw [List.map_cons, List.nodup_cons] at hl
    rcases attrStep_names (moduleStep_ok h1) with hp | hp
    · obtain ⟨a, b⟩ := ih h hl.2 (hp.nodup_iff.mpr hn) fun y hy hm => hd y (by simp [hy]) (hp.mem_iff.mp hm)
      refine ⟨a, fun p hq => ?_⟩
      rcases b p hq with hq | ⟨y, hy, rfl⟩
      · exact Or.inl (hp.mem_iff.mp hq)
      · exact Or.inr ⟨y, by simp [hy], rfl⟩
    · obtain ⟨a, b⟩ := ih h hl.2 (hp.nodup_iff.mpr (List.nodup_cons.mpr ⟨hd x (by simp), hn⟩)) fun y hy hm => by
        rcases List.mem_cons.mp (hp.mem_iff.mp hm) with he | hm
        · exact hl.1 (List.mem_map.mpr ⟨y, hy, fullName_inj he⟩)
        · exact hd y (by simp [hy]) hm
      refine ⟨a, fun p hq => ?_⟩
      rcases b p hq with hq | ⟨y, hy, rfl⟩
      · rcases List.mem_cons.mp (hp.mem_iff.mp hq) with rfl | hq
        · exact Or.inr ⟨x, by simp, rfl⟩
        · exact Or.inl hq
      · exact Or.inr ⟨y, by simp [hy], rfl⟩

theorem candidates_nodup (E : Env) (cfg : Config) (m : PyMod) : ((moduleCandidates E cfg m).map Prod.fst).Nodup := by
  have key : ∀ l : List Ident, l.Nodup → ∀ f : Ident → Option (Ident × PyAttr), (∀ i x, f i = some x → x.1 = i) →
      ((l.filterMap f).map Prod.fst).Sublist l := by
    intro l _ f hf
    induction l with
    | nil => exact List.Sublist.refl _
    | cons i l ih =>
      cases hfi : f i with
      | none => rw [List.filterMap_cons_none hfi]; exact (ih (by simp_all)).cons _
      | some x =>
        rw [List.filterMap_cons_some hfi, List.map_cons, hf i x hfi]
        exact (ih (by simp_all)).cons_cons _
  refine List.Sublist.nodup (key _ (unique_nodup _) _ ?_) (unique_nodup (m.dir.map (Ident.fromPy E)))
  intro i x h
  cases hg : m.getattr i.asPy with
  | none => rw [hg] at h; cases h
  | some a =>
    rw [hg] at h
    simp only at h
    split at h
    · cases h; rfl
    · cases h

theorem find_count {α : Type} (l : List α) (f : α → Path) (p : Path) :
    ((l.find? (fun x => decide (f x = p))).map f).toList.length ≤ (l.map f).count p := by
  induction l with
  | nil => simp
  | cons a l ih =>
    rw [List.find?_cons]
    by_cases h : f a = p
    · simp [h]
    · simp only [h, decide_false, List.map_cons]
      refine Nat.le_trans ih ?_
      rw [List.count_cons]
      omega

theorem takeOver_names {st : ParseState} {c : Import} {s : Module} (hs : s.itemNames.Nodup) :
    (takeOver st c s).names.Perm st.names ∨ (takeOver st c s).names.Perm (c.target :: st.names) := by
  have hc : s.itemNames.count c.origin ≤ 1 := List.nodup_iff_count_le_one.mp hs _
  have h1 := find_count s.imports Import.target c.origin
  have h2 := find_count s.classes Class.name c.origin
  have h3 := find_count s.typeVars TypeVar.name c.origin
  have h4 := find_count s.functions Function.name c.origin
  have h5 := find_count s.properties Property.name c.origin
  simp only [Module.itemNames, List.count_append] at hc
  have hp : ∀ l l' : List Path, l.Perm l' ↔ ∀ a, l.count a = l'.count a := fun l l' => List.perm_iff_count
  rw [hp, hp]
  simp only [takeOver, ParseState.names, List.map_append, List.count_append]
  cases e1 : s.imports.find? (fun i => decide (i.target = c.origin)) <;>
  cases e2 : s.classes.find? (fun i => decide (i.name = c.origin)) <;>
  cases e3 : s.typeVars.find? (fun i => decide (i.name = c.origin)) <;>
  cases e4 : s.functions.find? (fun i => decide (i.name = c.origin)) <;>
  cases e5 : s.properties.find? (fun i => decide (i.name = c.origin)) <;>
  simp only [e1, e2, e3, e4, e5, Option.map_some, Option.map_none, Option.toList_some, Option.toList_none,
    List.length_cons, List.length_nil] at h1 h2 h3 h4 h5 <;>
  first
    | omega
    | (left; intro a; simp only [Option.map_none, Option.toList_none, List.map_nil, List.count_nil]; omega)
    | (right; intro a; simp only [Option.map_some, Option.map_none, Option.toList_some, Option.toList_none, List.map_cons,
        List.map_nil, List.count_cons, List.count_nil, List.count_append]; omega)

theorem takeOver_conflicts (st : ParseState) (c : Import) (s : Module) : (takeOver st c s).conflicts = st.conflicts := rfl

theorem submodules_names {E : Env} {cfg : Config} {W : World} {fuel : Nat} {pm : PyMod} {name : Path} {l : List Ident}
    {acc acc' : ParseState × List Module}
    (h : foldRes (submoduleStep W pm name (Module.parse E cfg W fuel)) acc l = .ok acc') (hl : l.Nodup)
    (hrec : ∀ id s, Module.parse E cfg W fuel id = .ok s → s.itemNames.Nodup) (hn : acc.1.names.Nodup)
    (hd : ∀ i ∈ l, fullName name i ∈ acc.1.conflicts.map Import.target → fullName name i ∉ acc.1.names) :
    acc'.1.names.Nodup ∧ ∀ p ∈ acc'.1.names, p ∈ acc.1.names ∨ p ∈ acc.1.conflicts.map Import.target := by
  induction l generalizing acc with
  | nil => cases h; exact ⟨hn, fun p hp => Or.inl hp⟩
  | cons i l ih =>
    rw [foldRes] at h
    obtain ⟨a1, h1, h2⟩ := Res.bind_ok h
    clear h
    rename' h2 => h
    rw [List.nodup_cons] at hl
    rcases submoduleStep_ok h1 with rfl | ⟨c, s, id, hc, -, hs, rfl⟩ | ⟨s, id, -, hid, hs, rfl⟩
    · exact ih h hl.2 hn fun j hj => hd j (by simp [hj])
    · have hct : c.target = fullName name i := by
        have := List.find?_some hc
        simpa using this
      have hcm : c.target ∈ acc.1.conflicts.map Import.target := List.mem_map_of_mem (List.mem_of_find?_eq_some hc)
      rcases takeOver_names (st := acc.1) (c := c) (hrec id s hs) with hp | hp
      · obtain ⟨a, b⟩ := ih (acc := (takeOver acc.1 c s, acc.2)) h hl.2 (hp.nodup_iff.mpr hn) fun j hj hm hm' =>
          hd j (by simp [hj]) hm (hp.mem_iff.mp hm')
        refine ⟨a, fun p hq => ?_⟩
        rcases b p hq with hq | hq
        · exact Or.inl (hp.mem_iff.mp hq)
        · exact Or.inr hq
      · obtain ⟨a, b⟩ := ih (acc := (takeOver acc.1 c s, acc.2)) h hl.2
          (hp.nodup_iff.mpr (List.nodup_cons.mpr ⟨hct ▸ hd i (by simp) (hct ▸ hcm), hn⟩)) fun j hj hm hm' => by
            rcases List.mem_cons.mp (hp.mem_iff.mp hm') with he | hm'
            · rw [hct] at he
              exact hl.1 (fullName_inj he ▸ hj)
            · exact hd j (by simp [hj]) hm hm'
        refine ⟨a, fun p hq => ?_⟩
        rcases b p hq with hq | hq
        · rcases List.mem_cons.mp (hp.mem_iff.mp hq) with rfl | hq
          · exact Or.inr hcm
          · exact Or.inl hq
        · exact Or.inr hq
    · exact ih (acc := (acc.1, acc.2 ++ [s])) h hl.2 hn fun j hj => hd j (by simp [hj])

/-- The items of a parsed module have different names, which are names of attributes of it. -/
theorem parse_itemNames {E : Env} {cfg : Config} {W : World} {fuel id : Nat} {M : Module}
    (h : Module.parse E cfg W fuel id = .ok M) :
    M.itemNames.Nodup ∧ ∀ p ∈ M.itemNames, ∃ i, p = fullName M.name i := by
  induction fuel generalizing id M with
  | zero => exact absurd h parse_zero
  | succ fuel ih =>
    obtain ⟨p⟩ := parse_parts h
    obtain ⟨hn, hm⟩ := attributes_names p.attributes (candidates_nodup E cfg p.pm) (by simp [ParseState.allNames, ParseState.names])
      (by simp [ParseState.allNames, ParseState.names])
    have hm' : ∀ q ∈ p.st.allNames, ∃ i, q = fullName M.name i := by
      intro q hq
      rcases hm q hq with hq | ⟨x, -, rfl⟩
      · simp [ParseState.allNames, ParseState.names] at hq
      · exact ⟨_, rfl⟩
    have hnames : M.itemNames = p.st'.names := by
      simp only [Module.itemNames, ParseState.names, p.imports, p.classes, p.typeVars, p.functions, p.properties]
    have hn' := (List.nodup_append.mp hn)
    rw [hnames]
    rcases ifOn_ok p.traversed with ⟨-, ht⟩ | ⟨-, ht⟩
    · obtain ⟨a, b⟩ := submodules_names ht (E.set_nodup _) (fun id s hs => (ih hs).1) hn'.1
        (fun i _ hc hmem => hn'.2.2 _ hmem _ hc rfl)
      refine ⟨a, fun q hq => hm' q ?_⟩
      rcases b q hq with hq | hq
      · exact List.mem_append_left _ hq
      · exact List.mem_append_right _ hq
    · have := congrArg Prod.fst ht
      simp only at this
      rw [this]
      exact ⟨hn'.1, fun q hq => hm' q (List.mem_append_left _ hq)⟩

/-- The items of a parsed module are named after attributes that are parsed. -/
theorem parts_itemNames {E : Env} {cfg : Config} {W : World} {fuel id : Nat} {M : Module}
    (p : ParseParts E cfg W fuel id M) : ∀ q ∈ M.itemNames, ∃ x ∈ moduleCandidates E cfg p.pm, q = fullName M.name x.1 := by
  obtain ⟨hn, hm⟩ := attributes_names p.attributes (candidates_nodup E cfg p.pm) (by simp [ParseState.allNames, ParseState.names])
    (by simp [ParseState.allNames, ParseState.names])
  have hm' : ∀ q ∈ p.st.allNames, ∃ x ∈ moduleCandidates E cfg p.pm, q = fullName M.name x.1 := by
    intro q hq
    rcases hm q hq with hq | hq
    · simp [ParseState.allNames, ParseState.names] at hq
    · exact hq
  have hnames : M.itemNames = p.st'.names := by
    simp only [Module.itemNames, ParseState.names, p.imports, p.classes, p.typeVars, p.functions, p.properties]
  have hn' := (List.nodup_append.mp hn)
  rw [hnames]
  rcases ifOn_ok p.traversed with ⟨-, ht⟩ | ⟨-, ht⟩
  · obtain ⟨a, b⟩ := submodules_names ht (E.set_nodup _) (fun id s hs => (parse_itemNames hs).1) hn'.1
      (fun i _ hc hmem => hn'.2.2 _ hmem _ hc rfl)
    intro q hq
    refine hm' q ?_
    rcases b q hq with hq | hq
    · exact List.mem_append_left _ hq
    · exact List.mem_append_right _ hq
  · have := congrArg Prod.fst ht
    simp only at this
    rw [this]
    exact fun q hq => hm' q (List.mem_append_left _ hq)

/-- The value is the submodule that the attribute is the name of. -/
def SelfModule (E : Env) (name : Path) (x : Ident × PyAttr) : Prop :=
  x.2.obj.isModule = true ∧
    (Path.fromPy E x.2.obj.modPath).join (Path.fromPy E (x.2.obj.dunderName.getD x.1.asPy)) = fullName name x.1

theorem moduleStep_self {E : Env} {cfg : Config} {name : Path} {st st' : ParseState} {x : Ident × PyAttr}
    (h : moduleStep E cfg name st x = .ok st') (hx : SelfModule E name x) : st'.allNames = st.allNames := by
  unfold moduleStep at h
  obtain ⟨v, hv, h⟩ := Res.bind_ok h
  unfold determine at hv
  obtain ⟨_, -, hv⟩ := Res.bind_ok hv
  obtain ⟨b1, -, hv⟩ := Res.bind_ok hv
  obtain ⟨b2, -, hv⟩ := Res.bind_ok hv
  have hv := Except.ok.inj hv
  split at hv
  · subst hv
    obtain ⟨_, -, h⟩ := Res.bind_ok h
    cases h
    unfold stepImport
    simp only
    rw [if_pos hx.2]
  · rw [hx.1, if_pos rfl] at hv
    subst hv
    cases h
    rfl

theorem attributes_names_self {E : Env} {cfg : Config} {name : Path} {l : List (Ident × PyAttr)} {st st' : ParseState}
    (h : foldRes (moduleStep E cfg name) st l = .ok st') :
    ∀ p ∈ st'.allNames, p ∈ st.allNames ∨ ∃ x ∈ l, p = fullName name x.1 ∧ ¬ SelfModule E name x := by
  induction l generalizing st with
  | nil => cases h; exact fun p hp => Or.inl hp
  | cons x l ih =>
    rw [foldRes] at h
    obtain ⟨st1, h1, h⟩ := Res.bind_ok h
    intro p hp
    rcases ih h p hp with hp | ⟨y, hy, he⟩
    · by_cases hx : SelfModule E name x
      · rw [moduleStep_self h1 hx] at hp
        exact Or.inl hp
      · rcases attrStep_names (moduleStep_ok h1) with hq | hq
        · exact Or.inl (hq.mem_iff.mp hp)
        · rcases List.mem_cons.mp (hq.mem_iff.mp hp) with rfl | hp
          · exact Or.inr ⟨x, by simp, rfl, hx⟩
          · exact Or.inl hp
    · exact Or.inr ⟨y, by simp [hy], he⟩

/-- No item of a parsed module is named after an attribute that is the submodule of that name. -/
theorem parts_itemNames_self {E : Env} {cfg : Config} {W : World} {fuel id : Nat} {M : Module}
    (p : ParseParts E cfg W fuel id M) :
    ∀ q ∈ M.itemNames, ∃ x ∈ moduleCandidates E cfg p.pm, q = fullName M.name x.1 ∧ ¬ SelfModule E M.name x := by
  obtain ⟨hn, -⟩ := attributes_names p.attributes (candidates_nodup E cfg p.pm) (by simp [ParseState.allNames, ParseState.names])
    (by simp [ParseState.allNames, ParseState.names])
  have hm' : ∀ q ∈ p.st.allNames, ∃ x ∈ moduleCandidates E cfg p.pm, q = fullName M.name x.1 ∧ ¬ SelfModule E M.name x := by
    intro q hq
    rcases attributes_names_self p.attributes q hq with hq | hq
    · simp [ParseState.allNames, ParseState.names] at hq
    · exact hq
  have hnames : M.itemNames = p.st'.names := by
    simp only [Module.itemNames, ParseState.names, p.imports, p.classes, p.typeVars, p.functions, p.properties]
  have hn' := (List.nodup_append.mp hn)
  rw [hnames]
  rcases ifOn_ok p.traversed with ⟨-, ht⟩ | ⟨-, ht⟩
  · obtain ⟨a, b⟩ := submodules_names ht (E.set_nodup _) (fun id s hs => (parse_itemNames hs).1) hn'.1
      (fun i _ hc hmem => hn'.2.2 _ hmem _ hc rfl)
    intro q hq
    refine hm' q ?_
    rcases b q hq with hq | hq
    · exact List.mem_append_left _ hq
    · exact List.mem_append_right _ hq
  · have := congrArg Prod.fst ht
    simp only at this
    rw [this]
    exact fun q hq => hm' q (List.mem_append_left _ hq)

theorem mem_candidates {E : Env} {cfg : Config} {pm : PyMod} {x : Ident × PyAttr} (h : x ∈ moduleCandidates E cfg pm) :
    x.1 ∈ pm.dir.map (Ident.fromPy E) ∧ pm.getattr x.1.asPy = some x.2 ∧
      cfg.isAttrAllowed x.1 (Path.fromPy E x.2.obj.modPath) = true := by
  obtain ⟨i, hi, h⟩ := List.mem_filterMap.mp h
  cases hg : pm.getattr i.asPy with
  | none => rw [hg] at h; cases h
  | some a =>
    rw [hg] at h
    simp only at h
    split at h
    · cases h; exact ⟨mem_unique.mp hi, hg, by assumption⟩
    · cases h

theorem nodup_of_map {α β : Type} (f : α → β) {l : List α} (h : (l.map f).Nodup) : l.Nodup := List.Nodup.of_map f h

theorem extractPrelude_nodup (E : Env) (cfg : Config) (pm : PyMod) (name : Path) : (extractPrelude E cfg pm name).Nodup := by
  unfold extractPrelude indexIdents
  have key : ∀ (b c : Bool) (l : List Ident) (f g : Ident → Bool), l.Nodup →
      (if b then [] else (if c then l else l.filter f).filter g : List Ident).Nodup := by
    intro b c l f g hl
    split
    · exact List.nodup_nil
    · refine List.Nodup.filter _ ?_
      split
      · exact hl
      · exact hl.filter _
  cases pm.all with
  | none => exact key _ _ _ _ _ List.nodup_nil
  | some l => exact key _ _ _ _ _ (unique_nodup _)

/-- A parsed module holds every item once. -/
theorem parse_itemsOnce {E : Env} {cfg : Config} {W : World} {fuel id : Nat} {M : Module}
    (h : Module.parse E cfg W fuel id = .ok M) : ItemsOnce M := by
  have hn := (parse_itemNames h).1
  unfold Module.itemNames at hn
  simp only [List.nodup_append] at hn
  obtain ⟨⟨⟨⟨h1, h2, -⟩, h3, -⟩, h4, -⟩, h5, -⟩ := hn
  refine ⟨?_, nodup_of_map _ h1, nodup_of_map _ h2, nodup_of_map _ h3, nodup_of_map _ h4, nodup_of_map _ h5⟩
  cases fuel with
  | zero => exact absurd h parse_zero
  | succ fuel =>
    obtain ⟨p⟩ := parse_parts h
    rw [p.prelude]
    split
    · exact extractPrelude_nodup _ _ _ _
    · exact List.nodup_nil

theorem inTree_mono {l l' : List Module} (h : ∀ m ∈ l, m ∈ l') {x : Module} (hx : InTree x l) : InTree x l' := by
  cases hx with
  | top hx => exact .top (h _ hx)
  | sub hn hx => exact .sub (h _ hn) hx

/-- Merging keeps every item once. -/
theorem merge_itemsOnce (E : Env) (fuel : Nat) (l : List Module) (h : ∀ x, InTree x l → ItemsOnce x) :
    ∀ x, InTree x (mergeDuplicates (mergeModules E fuel) l) → ItemsOnce x := by
  induction fuel generalizing l with
  | zero =>
    intro x hx
    refine h x ?_
    have key : ∀ M ∈ mergeDuplicates (mergeModules E 0) l, M ∈ l := by
      intro M hM
      obtain ⟨g, hg, rfl⟩ := mem_mergeDuplicates.mp hM
      obtain ⟨m, r, rfl, -⟩ := runs_name hg
      have hm : m ∈ l := mem_run hg (by simp)
      cases r with
      | nil => exact hm
      | cons a r => exact hm
    exact inTree_mono key hx
  | succ fuel ih =>
    have key : ∀ M ∈ mergeDuplicates (mergeModules E (fuel + 1)) l, ∀ x, InTree x [M] → ItemsOnce x := by
      intro M hM
      obtain ⟨g, hg, rfl⟩ := mem_mergeDuplicates.mp hM
      obtain ⟨m, r, rfl, -⟩ := runs_name hg
      have hml : ∀ y ∈ m :: r, y ∈ l := fun y hy => mem_run hg hy
      cases r with
      | nil =>
        intro x hx
        exact h x (inTree_mono (fun y hy => hml y hy) hx)
      | cons a r =>
        intro x hx
        cases hx with
        | top hx =>
          rw [List.mem_singleton] at hx
          subst hx
          exact ⟨E.set_nodup _, E.set_nodup _, E.set_nodup _, E.set_nodup _, E.set_nodup _, E.set_nodup _⟩
        | sub hn hx =>
          rw [List.mem_singleton] at hn
          subst hn
          refine ih _ (fun y hy => h y ?_) x hx
          exact inTree_flatMap hml hy
    intro x hx
    obtain ⟨M, hM, hx⟩ := inTree_mem hx
    exact key M hM x hx

end Bindgen

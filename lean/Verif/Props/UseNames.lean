import Verif.Props.WorldScopes
import Verif.Props.Reexports
import Verif.Props.Prelude
/-!
# Re-exports beside other definitions (C50), and what they refer to (C72)
-/
namespace Bindgen
open Spec

/-! ## C50 -/

/-- The name that a re-export gives to its origin. -/
def Spec.useNames : Item → List Str
  | .use p a => (boundName p a).toList.map unraw
  | _ => []

/-- Attributes that are defined elsewhere are called neither `get_x` nor `set_x` beside a variable `x`, nor `CMethods` beside a class `C`. -/
def Spec.ForeignApart (E : Env) (cfg : Config) (W : World) : Prop :=
  ∀ id m n, W.get? id = some m → m.name = some n → ∀ s ∈ m.dir, ∀ t ∈ m.dir, ∀ a b, m.getattr s = some a → m.getattr t = some b →
    Kept E cfg s a.obj → Kept E cfg t b.obj → b.obj.modPath ≠ n →
    (Variable a.obj → t ≠ c!"get_" ++ s ∧ t ≠ c!"set_" ++ s) ∧ (a.obj.isClass = true → t ≠ s ++ c!"Methods")

theorem determine_foreign {E : Env} {o : PyObj} {p q : Path} (h : determine E o p q true = .ok .import) : p ≠ q := by
  unfold determine at h
  obtain ⟨_, -, h⟩ := Res.bind_ok h
  obtain ⟨f, -, h⟩ := Res.bind_ok h
  obtain ⟨g, -, h⟩ := Res.bind_ok h
  have h := Except.ok.inj h
  split at h
  · rename_i hc
    rintro rfl
    simp at hc
  · repeat' split at h
    all_goals cases h

/-- Where the name of an item of a module comes from. -/
theorem content_names {E : Env} {cfg : Config} {imp : Str → Bool} {tops : List Module} {ts : List Path} {M : Module} {c0 : List Item}
    (hM : CleanModule E M) (q : ContentParts E cfg imp tops ts M c0) {x : Item} (hx : x ∈ c0) {n : Str} (hn : n ∈ typeNames x ∨ n ∈ valueNames x) :
    (IsIdent E n ∧ fullName M.name (Ident.fromPy E n) ∈ M.defNames) ∨
    (∃ s, IsIdent E s ∧ fullName M.name (Ident.fromPy E s) ∈ M.classes.map Class.name ∧ n = s ++ c!"Methods") ∨
    (∃ s, IsIdent E s ∧ fullName M.name (Ident.fromPy E s) ∈ M.properties.map Property.name ∧ (n = c!"get_" ++ s ∨ n = c!"set_" ++ s)) ∨
    ∃ i, n = helperName c!"call" i ∧ ∀ p ∈ M.imports.map Import.target, p.segs.getLast? ≠ some (Ident.fromPy E (helperName c!"call" i)) := by
  have hd : ∀ y : SItem, Has M y → Defines y → itemName y ∈ M.defNames := fun y hy hd => mem_defNames.mpr ⟨y, hy, hd, rfl⟩
  cases content_from q hx with
  | use => simp [typeNames, valueNames] at hn
  | stray => simp [typeNames, valueNames] at hn
  | prelude m es _ hg =>
    obtain ⟨i, es, he, h1, -⟩ := C28_prelude E M _ hg
    cases he
    simp only [typeNames, valueNames, unraw_helper (newCall_isIdent E).2, List.mem_singleton, List.not_mem_nil, or_false] at hn
    exact Or.inr (Or.inr (Or.inr ⟨i, hn, fun p hp => h1 p (Or.inl hp)⟩))
  | typeVar t m _ ht hg =>
    have hm := hd (.typeVar t) ht trivial
    obtain ⟨s, hs, -, -, he⟩ := hM.attr _ hm
    have he : t.name = _ := he
    unfold TypeVar.generate at hg
    rw [he, name_ok fullName_getLast, Res.ok_bind] at hg
    obtain ⟨y, hy, hg⟩ := Res.bind_ok hg
    cases hg
    simp only [typeNames, valueNames, List.mem_singleton, List.not_mem_nil, or_false] at hn
    rw [toSyn_unraw hs.2 (trySyn_ok hy)] at hn
    subst hn
    exact Or.inl ⟨hs.2, he ▸ hm⟩
  | class' c k _ hc hg =>
    have hm := hd (.class c) hc trivial
    obtain ⟨s, hs, hu, -, he⟩ := hM.attr _ hm
    have he : c.name = _ := he
    obtain ⟨e1, e2⟩ := class_typeNames hg hs.2 hu he
    simp only [typeNames, valueNames, e1, e2, List.mem_cons, List.not_mem_nil, or_false] at hn
    have : n = s ∨ n = s ++ c!"Methods" := by tauto
    rcases this with rfl | rfl
    · exact Or.inl ⟨hs.2, he ▸ hm⟩
    · exact Or.inr (Or.inl ⟨s, hs.2, he ▸ List.mem_map_of_mem hc, rfl⟩)
  | function f fns fn _ hf hg hfn =>
    have hm := hd (.function f) hf trivial
    obtain ⟨s, hs, hu, -, he⟩ := hM.attr _ hm
    have he : f.name = _ := he
    have hown : ownName f.typ = true := by rcases hM.free f hf with h | h <;> rw [h] <;> rfl
    simp only [typeNames, valueNames, List.mem_singleton, List.not_mem_nil, false_or] at hn
    rw [toSyn_unraw hs.2 (function_name hg hfn (by rw [he]; exact name_ok fullName_getLast) hs.2 hu hown)] at hn
    subst hn
    exact Or.inl ⟨hs.2, he ▸ hm⟩
  | property p l fn _ hp _ hg hfn =>
    have hm := hd (.property p) hp trivial
    obtain ⟨s, hs, hu, -, he⟩ := hM.attr _ hm
    have he : p.name = _ := he
    obtain ⟨y, a1, a2, a3, a4⟩ := accessor_name hg hfn (by rw [he]; exact name_ok fullName_getLast) hs.2
    simp only [typeNames, valueNames, List.mem_singleton, List.not_mem_nil, false_or] at hn
    rw [toSyn_unraw a2 a4] at hn
    subst hn
    rcases a1 with rfl | h | h
    · exact Or.inl ⟨hs.2, he ▸ hm⟩
    · exact Or.inr (Or.inr (Or.inl ⟨s, hs.2, he ▸ List.mem_map_of_mem hp, Or.inl h⟩))
    · exact Or.inr (Or.inr (Or.inl ⟨s, hs.2, he ▸ List.mem_map_of_mem hp, Or.inr h⟩))

/-- A re-export in a module of a prepared forest binds the name of the attribute it was made from. -/
theorem use_name {E : Env} {W : World} (hF : Faithful E W) {fuel : Nat} {c : Codegen} {out : List Module} (h : c.prepare E W fuel = .ok out)
    (hp : ∀ m ∈ c.modules, Parsed E c.cfg W m) {M : Module} (hM : InTree M out) {i : Import}
    (hpr : Present out i.origin) {t : Str} (ht : PyIdent E t) (hu : t ∉ unspellable) (he : i.target = fullName M.name (Ident.fromPy E t))
    {x : Item} (hg : Import.generate E i = .ok (some x)) : useNames x = [t] := by
  obtain ⟨ns, hns⟩ := inTree_nodeAt hM
  obtain ⟨-, hlc, hne, -⟩ := prepared_placed hF h hp hns
  obtain ⟨o1, o2, o3⟩ := present_idents hF h hp hpr
  obtain ⟨rel, a, rfl⟩ := import_generate_use hg
  obtain ⟨rel', -, -, -, hgen⟩ := reexport_spec (i := i) hlc hne ht (by rw [he]; simp [fullName, Path.join, Path.ofIdent]) o1 o2 o3
  obtain ⟨rfl, hb⟩ := hgen _ _ hg
  simp only [useNames, hb, Option.toList_some, List.map_cons, List.map_nil, toSyn_unraw ht.2 (C02_legal E t ht.2 hu).1]

theorem content_uses {E : Env} {cfg : Config} {imp : Str → Bool} {tops : List Module} {ts : List Path} {M : Module} {c0 : List Item}
    (q : ContentParts E cfg imp tops ts M c0) : c0.flatMap useNames = (q.imports.filterMap id).flatMap useNames := by
  have e1 : (q.prelude.bind id).toList.flatMap useNames = [] := flatMap_nil' fun x hx => by
    rcases ifOn_ok q.preludeOk with ⟨-, h⟩ | ⟨-, h⟩
    · rw [Option.mem_toList] at hx
      cases hp : q.prelude with
      | none => rw [hp] at hx; cases hx
      | some o =>
        rw [hp] at hx h
        have hx : o = some x := hx
        subst hx
        obtain ⟨n, es, -, -, rfl, -⟩ := generatePrelude_prelude (okOrDrop_some h)
        rfl
    · rw [h] at hx; cases hx
  have e2 : q.typeVars.flatMap useNames = [] := flatMap_nil' fun x hx => by
    rcases ifOn_ok q.typeVarsOk with ⟨-, h⟩ | ⟨-, h⟩
    · obtain ⟨t, -, hg⟩ := traverse_mem h hx
      obtain ⟨i, -, hg⟩ := Res.bind_ok hg
      obtain ⟨s, -, hg⟩ := Res.bind_ok hg
      cases hg
      rfl
    · rw [h] at hx; cases hx
  have e3 : ((q.classes.filterMap id).map Item.class).flatMap useNames = [] := flatMap_nil' fun x hx => by
    obtain ⟨k, -, rfl⟩ := List.mem_map.mp hx
    rfl
  have e4 : q.functions.flatten.flatMap useNames = [] := flatMap_nil' fun x hx => by
    rcases ifOn_ok q.functionsOk with ⟨-, h⟩ | ⟨-, h⟩
    · obtain ⟨l, hl, hx⟩ := List.mem_flatten.mp hx
      obtain ⟨f, -, hg⟩ := traverse_mem h hl
      obtain ⟨r, -, h2⟩ := Res.bind_ok hg
      cases r with
      | method a b => cases h2
      | func fns =>
        cases h2
        obtain ⟨fn, -, rfl⟩ := List.mem_map.mp hx
        rfl
    · rw [h] at hx; cases hx
  have e5 : q.properties.flatten.flatMap useNames = [] := flatMap_nil' fun x hx => by
    rcases ifOn_ok q.propertiesOk with ⟨-, h⟩ | ⟨-, h⟩
    · obtain ⟨l, hl, hx⟩ := List.mem_flatten.mp hx
      obtain ⟨f, -, hg⟩ := traverse_mem h hl
      obtain ⟨r, -, h2⟩ := Res.bind_ok hg
      cases ho : f.owner with
      | «class» => rw [ho] at h2; cases h2
      | module =>
        rw [ho] at h2
        cases h2
        obtain ⟨fn, -, rfl⟩ := List.mem_map.mp hx
        cases fn <;> rfl
    · rw [h] at hx; cases hx
  obtain ⟨taken, lt, imports, prelude, typeVars, classes, functions, properties, _, _, _, _, _, _, _, _, rfl⟩ := q
  simp only [List.flatMap_append, e1, e2, e3, e4, e5, List.append_nil]

/-- **C50** with re-exports: no `use` of a module gives a name that the module defines, or that another `use` gives. Missing:
interpreters with names as `Collisionless` and `ForeignApart` exclude them; for the latter see `C50_reexport_counterexample`. -/
theorem C50_uses_partial (E : Env) (W : World) (hF : Faithful E W) (hu : UniqueNames W) (fuel : Nat) (cfg : Config)
    (hN : Collisionless E cfg W) (hA : ForeignApart E cfg W) (srcs : List (Str × Str)) (c : Codegen) (hb : Built E W fuel cfg srcs c)
    (items : List Item) (h : c.generate E W fuel = .ok items) (idents : List Str) (content : List Item)
    (hc : ModChain items idents content) :
    (content.flatMap useNames).Nodup ∧
      ∀ n ∈ content.flatMap useNames, n ∉ content.flatMap typeNames ∧ n ∉ content.flatMap valueNames := by
  obtain ⟨hcfg, -, hp⟩ := built_ok hb
  subst hcfg
  obtain ⟨out, h1, h2⟩ := generate_prepared h
  obtain ⟨ns, M, c0, mods, hM, hc0, rfl, hmods, hsub, -⟩ := chain_node h2 hc
  have hMt := nodeAt_inTree hM
  have hcl := prepared_clean hF hu hN h1 hp hMt
  obtain ⟨q⟩ := content_parts hc0
  have huse : (embedItems M.name M.source ++ c0 ++ mods).flatMap useNames = (q.imports.filterMap id).flatMap useNames := by
    have e1 : (embedItems M.name M.source).flatMap useNames = [] := by cases M.source <;> rfl
    have e2 : mods.flatMap useNames = [] := flatMap_nil' fun x hx => by obtain ⟨a, d, i, inner, rfl⟩ := hmods _ hx; rfl
    rw [List.flatMap_append, List.flatMap_append, e1, e2, content_uses q, List.nil_append, List.append_nil]
  have hspell : ∀ i ∈ M.imports, ∃ t, PyIdent E t ∧ t ∉ unspellable ∧ t ≠ c!"pyo3_embed_python_source_code" ∧
      i.target = fullName M.name (Ident.fromPy E t) := by
    intro i hi
    obtain ⟨id, pm, nm, hget, -, -, -, hattr⟩ := prepared_items hF hu hN.modules h1 hp hMt (x0 := .import i) hi
    obtain ⟨t, a, t1, t2, t3, t4, t5, -⟩ := hattr (.import i) hi (fun _ => by simp)
    obtain ⟨n1, n2⟩ := hN.names _ _ hget t t1 a t3 t4
    exact ⟨t, t2, n1, n2, t5⟩
  have key : ((q.imports.filterMap id).flatMap useNames).Nodup ∧ ∀ n ∈ (q.imports.filterMap id).flatMap useNames, ∃ i ∈ M.imports,
      PyIdent E n ∧ n ≠ c!"pyo3_embed_python_source_code" ∧ i.target = fullName M.name (Ident.fromPy E n) := by
    rw [flatMap_filterMap]
    rcases ifOn_ok q.importsOk with ⟨-, h⟩ | ⟨-, h⟩
    · have := nodup_traverse h Import.target (fun o => o.toList.flatMap useNames) (fun i n => PyIdent E n ∧
        n ≠ c!"pyo3_embed_python_source_code" ∧ i.target = fullName M.name (Ident.fromPy E n)) ?_ ?_ ?_
      · exact ⟨this.1, fun n hn => by obtain ⟨i, hi, hr⟩ := this.2 n hn; exact ⟨i, (List.mem_filter.mp hi).1, hr⟩⟩
      · refine List.Nodup.sublist (List.Sublist.map _ List.filter_sublist) ?_
        cases hi : M.imports with
        | nil => exact List.nodup_nil
        | cons i l =>
          obtain ⟨-, -, -, -, -, -, ⟨m, m1, m2⟩, -⟩ := prepared_items hF hu hN.modules h1 hp hMt (x0 := .import i)
            (show i ∈ M.imports by rw [hi]; simp)
          rw [← hi]
          unfold Module.itemNames at m1
          simp only [List.nodup_append] at m1
          obtain ⟨⟨⟨⟨m1, -, -⟩, -⟩, -⟩, -⟩ := m1
          obtain ⟨-, o1, -⟩ := C38_once E W fuel c hp out h1 M hMt
          exact o1.map_on fun x hx y hy he => List.inj_on_of_nodup_map m1 (m2 (.import x) hx) (m2 (.import y) hy) he
      · intro i hi o ho
        obtain ⟨hi, hex⟩ := List.mem_filter.mp hi
        cases o with
        | none => simp
        | some x =>
          obtain ⟨t, t1, t2, t3, t4⟩ := hspell i hi
          have := use_name hF h1 hp hMt ((pathExistsList_iff out).mp hex) t1 t2 t4 ho
          simp only [Option.toList_some, List.flatMap_cons, List.flatMap_nil, List.append_nil, this]
          exact ⟨by simp, fun n hn => by cases List.mem_singleton.mp hn; exact ⟨t1, t3, t4⟩⟩
      · intro a _ b _ n h1 h2
        rw [h1.2.2, h2.2.2]
    · rw [h]; exact ⟨List.nodup_nil, by simp⟩
  rw [huse]
  refine ⟨key.1, fun n hn => ?_⟩
  obtain ⟨i, hi, n1, n2, n3⟩ := key.2 n hn
  have hno : ∀ x ∈ embedItems M.name M.source ++ c0 ++ mods, ¬ (n ∈ typeNames x ∨ n ∈ valueNames x) := by
    intro x hx hnx
    obtain ⟨id, pm, nm, hget, hpm, hMn, ⟨m, m1, m2⟩, hattr⟩ := prepared_items hF hu hN.modules h1 hp hMt (x0 := .import i) hi
    obtain ⟨t, b, b1, b2, b3, b4, b5, b6, b7⟩ := hattr (.import i) hi (fun _ => by simp)
    have b5 : i.target = _ := b5
    rw [n3] at b5
    cases fromPy_ident_inj n1.2 b2.2 (fullName_inj b5)
    have hfor : b.obj.modPath ≠ nm := by
      cases b7 with
      | import' o _ _ _ hd =>
        intro he
        exact determine_foreign hd (by rw [he, hMn])
    rcases List.mem_append.mp hx with hx | hx
    · rcases List.mem_append.mp hx with hx | hx
      · unfold embedItems at hx
        split at hx
        · cases List.mem_singleton.mp hx
          simp only [typeNames, valueNames, List.mem_singleton, List.not_mem_nil, false_or] at hnx
          exact n2 hnx
        · cases hx
      · rcases content_names hcl q hx hnx with ⟨-, hd⟩ | ⟨s, s1, s2, rfl⟩ | ⟨s, s1, s2, hs⟩ | ⟨k, hk, hpre⟩
        · -- a definition of the same name
          unfold Module.itemNames at m1
          simp only [List.nodup_append] at m1
          obtain ⟨⟨⟨⟨-, -, d1⟩, -, d2⟩, -, d3⟩, -, d4⟩ := m1
          have ht : i.target ∈ m.imports.map Import.target := List.mem_map_of_mem (m2 (.import i) hi)
          obtain ⟨y, hy, hdy, hyn⟩ := mem_defNames.mp hd
          have hy := m2 y hy
          rw [← n3] at hyn
          cases y with
          | prelude => cases hdy
          | «import» => cases hdy
          | «class» y => exact d1 _ ht _ (List.mem_map_of_mem hy) hyn.symm
          | typeVar y => exact d2 _ (List.mem_append_left _ ht) _ (List.mem_map_of_mem hy) hyn.symm
          | function y => exact d3 _ (List.mem_append_left _ (List.mem_append_left _ ht)) _ (List.mem_map_of_mem hy) hyn.symm
          | property y =>
            exact d4 _ (List.mem_append_left _ (List.mem_append_left _ (List.mem_append_left _ ht))) _ (List.mem_map_of_mem hy) hyn.symm
        · obtain ⟨k, hk, hkn⟩ := List.mem_map.mp s2
          obtain ⟨s', a, a1, a2, a3, a4, a5, -, a7⟩ := hattr (.class k) hk (fun _ => by simp)
          have a5 : k.name = _ := a5
          rw [hkn] at a5
          cases fromPy_ident_inj s1 a2.2 (fullName_inj a5)
          cases a7 with
          | class' _ _ hd => exact (hA _ _ _ hget hpm s a1 _ b1 a b a3 b3 a4 b4 hfor).2 (determine_class hd) rfl
        · obtain ⟨k, hk, hkn⟩ := List.mem_map.mp s2
          obtain ⟨s', a, a1, a2, a3, a4, a5, -, a7⟩ := hattr (.property k) hk (fun _ => by simp)
          have a5 : k.name = _ := a5
          rw [hkn] at a5
          cases fromPy_ident_inj s1 a2.2 (fullName_inj a5)
          cases a7 with
          | property _ _ hd =>
            have := (hA _ _ _ hget hpm s a1 _ b1 a b a3 b3 a4 b4 hfor).1 (determine_variable hd (Or.inl rfl))
            exact hs.elim this.1 this.2
        · refine hpre _ (List.mem_map_of_mem hi) ?_
          rw [n3, fullName_getLast, hk]
    · -- a submodule of the same name
      obtain ⟨s, hs, hg⟩ : ∃ s ∈ M.submodules, Module.generate E c.cfg W.importable out (getAllTypes out) s = .ok x := by
        rcases ifOn_ok hsub with ⟨-, h⟩ | ⟨-, h⟩
        · exact traverse_mem h hx
        · rw [h] at hx; cases hx
      obtain ⟨p⟩ := generate_parts hg
      obtain ⟨t, ht, htn⟩ := prepared_sub hF h1 hp hMt hs
      have hlast := p.lastOk
      rw [htn] at hlast
      simp only [List.getLast?_append, List.getLast?_singleton, Option.some_or] at hlast
      have hid := p.identOk
      rw [← Option.some.inj hlast] at hid
      rw [p.item] at hnx
      simp only [typeNames, valueNames, List.mem_singleton, List.not_mem_nil, or_false] at hnx
      rw [toSyn_unraw ht.2 hid] at hnx
      subst hnx
      obtain ⟨ns', hns'⟩ := inTree_nodeAt hMt
      obtain ⟨-, -, -, -, m', hm', hpre⟩ := prepared_named hF h1 hp (nodeAt_snoc hns' hs)
      obtain ⟨segs, g1, g2, g3, g4⟩ := faithful_name hF hget hpm
      apply b6
      rw [g3, ← join_snoc _ _ g1]
      refine below_of_prefix hF (by simp) ?_ hm' ?_
      · intro s hs
        rcases mem_snoc.mp hs with hs | rfl
        · exact g2 s hs
        · exact ht
      · rw [htn, hMn, g4] at hpre
        simpa using hpre
  constructor
  · intro hm
    obtain ⟨x, hx, hnx⟩ := List.mem_flatMap.mp hm
    exact hno x hx (Or.inl hnx)
  · intro hm
    obtain ⟨x, hx, hnx⟩ := List.mem_flatMap.mp hm
    exact hno x hx (Or.inr hnx)

/-- `ForeignApart`, computed for one module. -/
def foreignCheck (E : Env) (cfg : Config) (m : PyMod) : Bool :=
  let kept := keptAttrs E cfg m
  let foreign := (kept.filter fun x => some x.2.obj.modPath != m.name).map Prod.fst
  kept.all fun x => (!isVariable x.2.obj || (!foreign.contains (c!"get_" ++ x.1) && !foreign.contains (c!"set_" ++ x.1))) &&
    (!x.2.obj.isClass || !foreign.contains (x.1 ++ c!"Methods"))

theorem foreignApart_of_check {E : Env} {cfg : Config} {W : World} (h : W.mods.all (foreignCheck E cfg) = true) : ForeignApart E cfg W := by
  intro id m n hg hn s hs t ht a b ha hb hk hk' hne
  have h := List.all_eq_true.mp h m (List.mem_of_getElem? hg)
  unfold foreignCheck at h
  simp only [Bool.and_eq_true, Bool.or_eq_true, List.all_eq_true, Bool.not_eq_true', List.contains_eq_mem, decide_eq_false_iff_not] at h
  have hf : t ∈ ((keptAttrs E cfg m).filter fun x => some x.2.obj.modPath != m.name).map Prod.fst :=
    List.mem_map.mpr ⟨(t, b), List.mem_filter.mpr ⟨mem_keptAttrs ht hb hk', by simp [hn, hne]⟩, rfl⟩
  obtain ⟨h1, h2⟩ := h _ (mem_keptAttrs hs ha hk)
  constructor
  · intro hv
    rw [isVariable_iff.mpr hv] at h1
    have h1 := h1.resolve_left (by simp)
    exact ⟨fun he => h1.1 (he ▸ hf), fun he => h1.2 (he ▸ hf)⟩
  · intro hc he
    rcases h2 with h2 | h2
    · rw [hc] at h2; cases h2
    · exact h2 (he ▸ hf)

/-- The package `pkg` with a submodule `a`; the package has a variable `x`, a class `K`, and a function of this name from `pkg.a`. -/
def exForeignWorld (f : Str) : World where
  mods := [
    { name := some c!"pkg", isPackage := true, iterModules := some [c!"a"], dir := [c!"a", c!"x", c!"K", f],
      attrs := [(c!"a", { obj := { exModObj with dunderName := some c!"pkg.a" }, mod := some 1 }), (c!"x", { obj := exIntObj }),
        (c!"K", { obj := exClsObj c!"pkg", cls := exCleanClass }), (f, { obj := { exFnObj c!"pkg.a" with dunderName := some f } })] },
    { name := some c!"pkg.a", dir := [f], attrs := [(f, { obj := exFnObj c!"pkg.a" })] }]
  importMod s := if s = c!"pkg" then some 0 else if s = c!"pkg.a" then some 1 else none

theorem exForeignWorld_faithful : Faithful exEnv (exForeignWorld c!"run") := by
  refine faithful_of_check (by decide +kernel) fun s id h => ?_
  simp only [exForeignWorld] at h
  repeat' split at h
  all_goals first
    | (cases h; subst_vars; exact ⟨_, rfl, rfl⟩)
    | cases h

theorem exForeignWorld_unique (f : Str) : UniqueNames (exForeignWorld f) := by
  rintro id id' n ⟨m, h1, h2⟩ ⟨m', h1', h2'⟩
  have hlt : ∀ {i : Nat} {x : PyMod}, (exForeignWorld f).get? i = some x → i < 2 := by
    intro i x h
    match i with
    | 0 | 1 => omega
    | k + 2 => cases h
  have a := hlt h1
  have b := hlt h1'
  have hn : ∀ i < 2, ((exForeignWorld f).get? i).bind PyMod.name = if i = 0 then some c!"pkg" else some c!"pkg.a" := by
    intro i hi
    match i with
    | 0 | 1 => rfl
    | k + 2 => omega
  have e := hn id a
  have e' := hn id' b
  rw [h1] at e
  rw [h1'] at e'
  simp only [Option.bind_some, h2, h2'] at e e'
  split at e <;> split at e' <;> first | omega | (rw [e] at e'; cases e')

/-- The names that the re-exports of the generated module `pkg` give, and those that it defines. -/
def exUseNames (W : World) : Res (List (List Str × List Str × List Str)) :=
  ((Codegen.new {}).moduleNames exEnv W 5 [c!"pkg"] >>= fun c => c.generate exEnv W 5).map fun items => items.filterMap fun (x : Item) =>
    match x with
    | .mod _ _ _ is => some (is.flatMap useNames, is.flatMap typeNames, is.flatMap valueNames)
    | _ => none

/-- The hypotheses of `C50_uses_partial`. -/
example : Faithful exEnv (exForeignWorld c!"run") ∧ UniqueNames (exForeignWorld c!"run") ∧
    Collisionless exEnv {} (exForeignWorld c!"run") ∧ ForeignApart exEnv {} (exForeignWorld c!"run") ∧
    exUseNames (exForeignWorld c!"run") = .ok [([c!"run"], [c!"K", c!"KMethods", c!"a"], [c!"K", c!"x", c!"set_x"])] :=
  ⟨exForeignWorld_faithful, exForeignWorld_unique _, collisionless_of_check (by decide +kernel),
    foreignApart_of_check (by decide +kernel), by decide +kernel⟩

/-- **C50** fails if a function from a submodule is called like the setter of a variable, or like the trait of a class: the names that
accessors have to avoid are those of the functions of the module, not those of its re-exports. -/
theorem C50_reexport_counterexample :
    Collisionless exEnv {} (exForeignWorld c!"set_x") ∧
    exUseNames (exForeignWorld c!"set_x") = .ok [([c!"set_x"], [c!"K", c!"KMethods", c!"a"], [c!"K", c!"x", c!"set_x"])] ∧
    Collisionless exEnv {} (exForeignWorld c!"KMethods") ∧
    exUseNames (exForeignWorld c!"KMethods") = .ok [([c!"KMethods"], [c!"K", c!"KMethods", c!"a"], [c!"K", c!"x", c!"set_x"])] :=
  ⟨collisionless_of_check (by decide +kernel), by decide +kernel, collisionless_of_check (by decide +kernel), by decide +kernel⟩

/-! ## C72 -/

theorem modChain_last {items content : List Item} {is : List Str} (h : ModChain items is content) {e : Str} {q : List Str} (hq : q ≠ [])
    (he : is = q ++ [e]) : ∃ c, ModChain items q c ∧ ∃ allow doc, Item.mod allow doc e content ∈ c := by
  induction h generalizing q with
  | here =>
    cases q with
    | nil => exact absurd rfl hq
    | cons a q => simp at he
  | @nested items inner content allow doc i is hm hc ih =>
    cases q with
    | nil => exact absurd rfl hq
    | cons a q =>
      rw [List.cons_append, List.cons.injEq] at he
      obtain ⟨rfl, he⟩ := he
      cases q with
      | nil =>
        cases he
        cases hc with
        | here hx => exact ⟨inner, .here hm, _, _, hx⟩
        | nested _ hx => cases hx
      | cons b q =>
        obtain ⟨c, h1, h2⟩ := ih (by simp) he
        exact ⟨c, .nested hm h1, h2⟩

/-- What is present in a prepared forest is defined in the bindings, if all kinds of items are generated. -/
theorem present_defined {E : Env} {W : World} (hF : Faithful E W) {fuel : Nat} {c : Codegen} {out : List Module}
    (h : c.prepare E W fuel = .ok out) (hp : ∀ m ∈ c.modules, Parsed E c.cfg W m) {items : List Item}
    (hg : Res.traverse (Module.generate E c.cfg W.importable out (getAllTypes out)) out = .ok items)
    (hc : c.cfg.generateClasses = true) (hf : c.cfg.generateFunctions = true) (ht : c.cfg.generateTypeVars = true)
    (hpr : c.cfg.generateProperties = true) (hs : c.cfg.traverseSubmodules = true) {p : Path} (hpres : Present out p) {j : Ident} {e : Str}
    (hj : p.segs.getLast? = some j) (hsyn : j.toSyn E = some e) (hres : j.asPy ∉ reservedFunctions) :
    ∃ q content, p.segs.map Ident.rs = q ++ [e] ∧ ModChain items q content ∧ Spec.Defines content e := by
  obtain ⟨M, hM, hpres⟩ := hpres
  obtain ⟨ns, hns⟩ := inTree_nodeAt hM
  obtain ⟨hpl, hlc, hmne, hid⟩ := prepared_placed hF h hp hns
  obtain ⟨is, c1, hch, ⟨c0, c3, hc0, rfl⟩, hfa⟩ := generated_chain hg hns (Or.inl hs)
  rw [hpl, ← prefixes_packages hlc hmne] at hfa
  have his := forall₂_rs hid (forall₂_lasts hfa)
  obtain ⟨q⟩ := content_parts hc0
  have hpath : ∀ {r : Path} {t : Str}, r = p → PyIdent E t → r.segs = M.name.segs ++ [Ident.fromPy E t] → p.segs.map Ident.rs = is ++ [e] := by
    rintro r t rfl htp hr
    rw [hr] at hj
    simp only [List.getLast?_append, List.getLast?_singleton, Option.some_or, Option.some.injEq] at hj
    subst hj
    rw [hr, List.map_append, ← his, List.map_cons, List.map_nil, ← pyIdent_toSyn htp hsyn]
  have hitem : ∀ x : SItem, Has M x → (∀ i, x ≠ .prelude i) → itemName x = p → p.segs.map Ident.rs = is ++ [e] := by
    intro x hx hpre he
    obtain ⟨t, htp, hn⟩ := prepared_itemName hF h hp hM hx hpre
    exact hpath he htp (by rw [hn])
  have hmem : ∀ x ∈ c0, x ∈ embedItems M.name M.source ++ (c0 ++ c3) := fun x hx => by simp [hx]
  have hfun : ∀ f ∈ M.functions, f.name.name = .ok j → ∃ fn : Fn, .func fn ∈ c0 ∧ fn.sig.name = e := by
    intro f hfm hfn
    exact content_function q hf hfm (prepared_free h hp hM f hfm) hfn hsyn hres
  rcases hpres with ⟨s, hsm, he⟩ | ⟨x, hx, he⟩ | ⟨x, hx, he⟩ | ⟨x, hx, he⟩ | ⟨x, hx, he⟩
  · obtain ⟨t, htp, hn⟩ := prepared_sub hF h hp hM hsm
    have hns' := nodeAt_snoc hns hsm
    obtain ⟨hpl', hlc', hmne', hid'⟩ := prepared_placed hF h hp hns'
    obtain ⟨is', c1, hch', -, hfa'⟩ := generated_chain hg hns' (Or.inl hs)
    rw [hpl', ← prefixes_packages hlc' hmne'] at hfa'
    have his' := forall₂_rs hid' (forall₂_lasts hfa')
    have hpe := hpath he htp (by rw [hn])
    rw [he, hpe] at his'
    obtain ⟨c2, g1, a, d, g2⟩ := modChain_last hch' (by rw [his]; simpa using hmne) his'
    exact ⟨is, c2, hpe, g1, Or.inr (Or.inr (Or.inr (Or.inr ⟨a, d, _, g2⟩)))⟩
  · obtain ⟨k, h1, h2⟩ := content_class q hc hx (name_ok (by rw [he]; exact hj)) hsyn
    exact ⟨is, _, hitem (.class x) hx (fun _ => by simp) he, hch, Or.inl ⟨k, hmem _ h1, h2⟩⟩
  · obtain ⟨fn, h1, h2⟩ := hfun x hx (name_ok (by rw [he]; exact hj))
    exact ⟨is, _, hitem (.function x) hx (fun _ => by simp) he, hch, Or.inr (Or.inl ⟨fn, hmem _ h1, h2⟩)⟩
  · have h1 := content_typeVar q ht hx (name_ok (by rw [he]; exact hj)) hsyn
    exact ⟨is, _, hitem (.typeVar x) hx (fun _ => by simp) he, hch, Or.inr (Or.inr (Or.inr (Or.inl (hmem _ h1))))⟩
  · refine ⟨is, _, hitem (.property x) hx (fun _ => by simp) he, hch, ?_⟩
    rcases content_property q hpr hx (name_ok (by rw [he]; exact hj)) hsyn hres with ⟨fn, h1, h2⟩ | ⟨f, hfm, hfn⟩
    · exact Or.inr (Or.inr (Or.inl ⟨fn, hmem _ h1, h2⟩))
    · obtain ⟨fn, h1, h2⟩ := hfun f hfm hfn
      exact Or.inr (Or.inl ⟨fn, hmem _ h1, h2⟩)

theorem use_spelled {E : Env} {i : Import} {rel : Path} {a : Option Str} (h : Import.generate E i = .ok (some (.use rel a))) :
    rel.synOk E = true := by
  unfold Import.generate at h
  split at h
  · cases h
  · split at h
    · cases h
    · obtain ⟨rel', -, h⟩ := Res.bind_ok h
      split at h
      · rename_i hok
        obtain ⟨o, -, h⟩ := Res.bind_ok h
        obtain ⟨t, -, h⟩ := Res.bind_ok h
        split at h
        · cases h; exact hok
        · obtain ⟨a, -, h⟩ := Res.bind_ok h
          cases h
          exact hok
      · cases h

/-- **C72**: every `use` in the bindings resolves, from the module it is in, to the name of something that the bindings
define. Missing: configurations that do not generate some kind of
item or do not traverse submodules (`C72_flags_counterexample`). -/
theorem C72_defined_partial (E : Env) (W : World) (hF : Faithful E W) (fuel : Nat) (cfg : Config) (srcs : List (Str × Str)) (c : Codegen)
    (hb : Built E W fuel cfg srcs c) (hc : cfg.generateClasses = true) (hf : cfg.generateFunctions = true)
    (ht : cfg.generateTypeVars = true) (hpr : cfg.generateProperties = true) (hs : cfg.traverseSubmodules = true) (items : List Item)
    (h : c.generate E W fuel = .ok items) (idents : List Str) (content : List Item) (hch : ModChain items idents content) (rel : Path)
    (asName : Option Str) (hx : .use rel asName ∈ content) :
    ∃ q e content', resolve idents (rel.segs.map Ident.rs) = some (q ++ [e]) ∧ ModChain items q content' ∧ Spec.Defines content' e := by
  obtain ⟨hcfg, -, hp⟩ := built_ok hb
  subst hcfg
  obtain ⟨out, h1, h2⟩ := generate_prepared h
  obtain ⟨ns, M, c0, mods, hM, hc0, rfl, hmods, -, hfa⟩ := chain_node h2 hch
  obtain ⟨rfl, hlc, hne, hid⟩ := prepared_placed hF h1 hp hM
  rw [← prefixes_packages hlc hne] at hfa
  have hidents := forall₂_rs hid (forall₂_lasts hfa)
  obtain ⟨q⟩ := content_parts hc0
  have hx0 : .use rel asName ∈ c0 := by
    simp only [List.mem_append] at hx
    rcases hx with (hx | hx) | hx
    · exfalso
      unfold embedItems at hx
      split at hx <;> simp at hx
    · exact hx
    · obtain ⟨a, d, i, inner, h⟩ := hmods _ hx
      cases h
  cases content_from q hx0 with
  | use i _ _ _ him hex hg =>
    have hpres := (pathExistsList_iff out).mp hex
    obtain ⟨o1, o2, o3⟩ := present_idents hF h1 hp hpres
    obtain ⟨t, htp, he⟩ := prepared_itemName hF h1 hp (nodeAt_inTree hM) (x := .import i) him (fun _ => by simp)
    obtain ⟨rel', hrel, hres, -, hgen⟩ := reexport_spec hlc hne htp he o1 o2 o3
    obtain ⟨rfl, -⟩ := hgen rel asName hg
    obtain ⟨j, hj⟩ : ∃ j, i.origin.segs.getLast? = some j := ⟨_, List.getLast?_eq_some_getLast o2⟩
    have hok := use_spelled hg
    have hlast := relativeTo_last M.name i.origin hlc o1 o2 _ hrel
    rw [hj] at hlast
    have hjm := List.mem_of_getLast? hj
    obtain ⟨u, hu, rfl⟩ := o3 j hjm
    obtain ⟨e, hsyn⟩ : ∃ e, (Ident.fromPy E u).toSyn E = some e := by
      unfold Path.synOk at hok
      rw [Bool.and_eq_true, List.all_eq_true] at hok
      have := hok.2 _ (List.mem_of_getLast? hlast)
      unfold Path.synSegOk at this
      have hnp := pyIdent_not_path hu
      rw [Bool.or_eq_true] at this
      rcases this with h | h
      · exact Option.isSome_iff_exists.mp h
      · refine absurd ?_ hnp
        simp only [List.contains_eq_mem, decide_eq_true_eq, List.mem_cons, List.not_mem_nil, or_false] at h
        tauto
    have hresv : (Ident.fromPy E u).asPy ∉ reservedFunctions := by
      obtain ⟨m, ⟨fu, id, hm⟩, -, hmi⟩ := prepared_has h1 hp (nodeAt_inTree hM) (x := .import i) him
      obtain ⟨a, ha⟩ : ∃ a, i.origin.segs = a ++ [Ident.fromPy E u] := ⟨_, (List.dropLast_append_getLast? _ hj).symm⟩
      exact (C09_origins E c.cfg W fu id m m hm (.top (by simp)) i hmi a _ [] ha).notReserved
    obtain ⟨q', c', g1, g2, g3⟩ := present_defined hF h1 hp h2 hc hf ht hpr hs hpres hj hsyn hresv
    exact ⟨q', e, c', by rw [hidents, hres, g1], g2, g3⟩

/-- The `use` items of the generated module `pkg`, and the names that the generated module `pkg::a` defines. -/
def exUsePkg (cfg : Config) : Res (List (Path × Option Str) × List (List Str × List Str)) :=
  ((Codegen.new cfg).moduleNames exEnv (exForeignWorld c!"run") 5 [c!"pkg"] >>= fun c => c.generate exEnv (exForeignWorld c!"run") 5).map
    fun items => (exUsesAt [c!"pkg"] items, exNamesAt [c!"pkg", c!"a"] items)

/-- The hypotheses of `C72_defined_partial`. -/
example : Faithful exEnv (exForeignWorld c!"run") ∧
    exUsePkg {} = .ok ([(⟨false, [⟨c!"self"⟩, ⟨c!"a"⟩, ⟨c!"run"⟩]⟩, none)], [([], [c!"run"])]) :=
  ⟨exForeignWorld_faithful, by decide +kernel⟩

/-- **C72** fails if functions are not generated: they are still re-exported. -/
theorem C72_flags_counterexample :
    exUsePkg { generateFunctions := false } = .ok ([(⟨false, [⟨c!"self"⟩, ⟨c!"a"⟩, ⟨c!"run"⟩]⟩, none)], [([], [])]) := by
  decide +kernel

end Bindgen

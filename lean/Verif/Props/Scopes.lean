import Verif.Props.ClassScopes
import Verif.Props.Siblings
import Verif.Props.Prelude
import Verif.Spec.Scopes
/-!
# C50: the names that a generated module defines
-/
namespace Bindgen
open Spec

/-- The names of the items that a module defines. -/
def Module.defNames (m : Module) : List Path :=
  m.classes.map Class.name ++ m.typeVars.map TypeVar.name ++ m.functions.map Function.name ++ m.properties.map Property.name

/-- A module whose names do not invite clashes. -/
structure CleanModule (E : Env) (M : Module) : Prop where
  nodup : M.defNames.Nodup
  attr : ∀ p ∈ M.defNames, ∃ s, PyIdent E s ∧ s ∉ unspellable ∧ s ≠ c!"pyo3_embed_python_source_code" ∧
    p = fullName M.name (Ident.fromPy E s)
  accessors : ∀ s, IsIdent E s → fullName M.name (Ident.fromPy E s) ∈ M.properties.map Property.name →
    ∀ t, t = c!"get_" ++ s ∨ t = c!"set_" ++ s → fullName M.name (Ident.fromPy E t) ∉ M.classes.map Class.name ∧
      fullName M.name (Ident.fromPy E t) ∉ M.properties.map Property.name
  traits : ∀ s, IsIdent E s → fullName M.name (Ident.fromPy E s) ∈ M.classes.map Class.name →
    fullName M.name (Ident.fromPy E (s ++ c!"Methods")) ∉ M.classes.map Class.name ∧
      fullName M.name (Ident.fromPy E (s ++ c!"Methods")) ∉ M.typeVars.map TypeVar.name
  subsNodup : (M.submodules.map Module.name).Nodup
  subs : ∀ k ∈ M.submodules, ∃ t, PyIdent E t ∧ k.name = fullName M.name (Ident.fromPy E t) ∧ k.name ∉ M.defNames ∧
    ∀ s, IsIdent E s → fullName M.name (Ident.fromPy E s) ∈ M.classes.map Class.name → t ≠ s ++ c!"Methods"
  free : ∀ f ∈ M.functions, Free f

theorem fullName_getLast {p : Path} {i : Ident} : (fullName p i).segs.getLast? = some i := last_join

/-- The names of the struct and of the trait of a class. -/
theorem class_typeNames {E : Env} {cfg : Config} {imp : Str → Bool} {lt : LocalTypes} {c : Class} {k : ClassItem} {p : Path} {s : Str}
    (h : c.generate E cfg imp lt = .ok (some k)) (hid : IsIdent E s) (hu : s ∉ unspellable)
    (hn : c.name = fullName p (Ident.fromPy E s)) : unraw k.name = s ∧ unraw k.traitName = s ++ c!"Methods" := by
  obtain ⟨cn, ident, taken, impls, props, h1, h2, -, -, -, -, h3, -, -, h4⟩ := class_generate h
  rw [hn, name_ok fullName_getLast] at h1
  cases h1
  have hsyn : (Ident.fromPy E s).toSyn E = some ident := by
    unfold Class.ident at h2
    split at h2
    · rename_i i hi
      rw [hi]; exact h2
    · rename_i hi
      rw [toSyn_ident hid, if_neg hu] at hi
      split at hi <;> cases hi
  refine ⟨by rw [h3]; exact toSyn_unraw hid hsyn, ?_⟩
  have hidM : IsIdent E (s ++ c!"Methods") := by
    obtain ⟨a, as, rfl, b1, b2⟩ := hid
    refine ⟨a, as ++ c!"Methods", rfl, b1, ?_⟩
    intro x hx
    rcases List.mem_append.mp hx with hx | hx
    · exact b2 x hx
    · exact (isIdent_ascii E c!"Methods" (by decide) (by decide)).continue x hx
  rw [toSyn_ident hid, if_neg hu] at hsyn
  split at hsyn
  · cases hsyn
    rw [List.append_assoc] at h4
    have hr := synIdent_raw hidM
    have hnr : rawReserved.contains (s ++ c!"Methods") = false := by
      rw [Bool.eq_false_iff]
      intro hc
      have hc : s ++ c!"Methods" ∈ rawReserved := by simpa using hc
      have hlen : 7 ≤ (s ++ c!"Methods").length := by simp
      simp only [rawReserved, List.mem_cons, List.not_mem_nil, or_false] at hc
      rcases hc with hc | hc | hc | hc | hc <;> (rw [hc] at hlen; simp at hlen)
    rw [hnr, if_neg (by simp)] at hr
    unfold Ident.fromPy Ident.pyToRs at h4
    rw [hr, if_pos (by rfl)] at h4
    unfold Ident.toSyn at h4
    simp only at h4
    rw [hr] at h4
    rw [← Option.some.inj h4]
    exact (unraw_ident hidM).2
  · cases hsyn
    exact toSyn_unraw hidM h4

theorem flatMap_filterMap {α β : Type} (f : α → List β) (l : List (Option α)) :
    (l.filterMap id).flatMap f = l.flatMap fun o => o.toList.flatMap f := by
  induction l with
  | nil => rfl
  | cons o l ih => cases o <;> simp_all

theorem flatMap_nil' {α β : Type} {f : α → List β} {l : List α} (h : ∀ x ∈ l, f x = []) : l.flatMap f = [] :=
  List.flatMap_eq_nil_iff.mpr h

theorem helper_not_methods (i : Nat) (s : Str) : helperName c!"call" i ≠ s ++ c!"Methods" := by
  intro h
  have h2 := congrArg List.getLast? h
  have h3 : (s ++ c!"Methods").getLast? = some 's' := by rw [List.getLast?_append]; rfl
  rw [h3] at h2
  unfold helperName at h2
  by_cases hi : i = 0
  · rw [if_pos hi] at h2; simp at h2
  · rw [if_neg hi, List.getLast?_append] at h2
    cases hd : (Nat.toDigits 10 i).getLast? with
    | none => rw [hd] at h2; simp at h2
    | some d =>
      rw [hd] at h2
      simp only [Option.some_or, Option.some.injEq] at h2
      subst h2
      have := Nat.isDigit_of_mem_toDigits (by decide) (by decide) (List.mem_of_getLast? hd)
      simp [Char.isDigit] at this

theorem embed_nameless (p : Path) (s : Option Str) : (embedItems p s).flatMap typeNames = [] := by
  cases s <;> rfl

/-- The names of types and modules in a clean module. -/
theorem clean_types {E : Env} {cfg : Config} {imp : Str → Bool} {tops : List Module} {ts : List Path} {M : Module} {c0 mods : List Item}
    (hM : CleanModule E M) (hc : M.content E cfg imp tops ts = .ok c0)
    (hm : ifOn cfg.traverseSubmodules (Res.traverse (Module.generate E cfg imp tops ts) M.submodules) [] = .ok mods) :
    ((embedItems M.name M.source ++ c0 ++ mods).flatMap typeNames).Nodup := by
  obtain ⟨q⟩ := content_parts hc
  let D : Str → Prop := fun s => IsIdent E s ∧ fullName M.name (Ident.fromPy E s) ∈ M.classes.map Class.name
  have hnd := hM.nodup
  unfold Module.defNames at hnd
  simp only [List.nodup_append] at hnd
  obtain ⟨⟨⟨nc, nt, dct⟩, nf, -⟩, np, -⟩ := hnd
  have hcls : ∀ c ∈ M.classes, c.name ∈ M.defNames := fun c hc => by
    simp only [Module.defNames, List.mem_append]; exact Or.inl (Or.inl (Or.inl (List.mem_map_of_mem hc)))
  have htv : ∀ c ∈ M.typeVars, c.name ∈ M.defNames := fun c hc => by
    simp only [Module.defNames, List.mem_append]; exact Or.inl (Or.inl (Or.inr (List.mem_map_of_mem hc)))
  -- the names of the kinds of items
  have A : ((q.typeVars).flatMap typeNames).Nodup ∧ ∀ n ∈ q.typeVars.flatMap typeNames, ∃ t ∈ M.typeVars,
      IsIdent E n ∧ t.name = fullName M.name (Ident.fromPy E n) := by
    rcases ifOn_ok q.typeVarsOk with ⟨-, h⟩ | ⟨-, h⟩
    · refine nodup_traverse h TypeVar.name typeNames (fun t n => IsIdent E n ∧ t.name = fullName M.name (Ident.fromPy E n)) nt ?_ ?_
      · intro t ht b hb
        obtain ⟨s, hs, -, -, hn⟩ := hM.attr _ (htv t ht)
        unfold TypeVar.generate at hb
        rw [hn, name_ok fullName_getLast, Res.ok_bind] at hb
        obtain ⟨x, hx, hb⟩ := Res.bind_ok hb
        cases hb
        refine ⟨by simp [typeNames], ?_⟩
        intro n hnm
        cases List.mem_singleton.mp hnm
        rw [toSyn_unraw hs.2 (trySyn_ok hx)]
        exact ⟨hs.2, hn⟩
      · intro a _ b _ n h1 h2
        rw [h1.2, h2.2]
    · rw [h]; exact ⟨List.nodup_nil, by simp⟩
  have B : (((q.classes.filterMap id).map Item.class).flatMap typeNames).Nodup ∧
      ∀ n ∈ ((q.classes.filterMap id).map Item.class).flatMap typeNames, ∃ c ∈ M.classes, ∃ s, IsIdent E s ∧
        c.name = fullName M.name (Ident.fromPy E s) ∧ (n = s ∨ n = s ++ c!"Methods") := by
    rw [List.flatMap_map, flatMap_filterMap]
    rcases ifOn_ok q.classesOk with ⟨-, h⟩ | ⟨-, h⟩
    · refine nodup_traverse h Class.name _ (fun c n => ∃ s, IsIdent E s ∧ c.name = fullName M.name (Ident.fromPy E s) ∧
        (n = s ∨ n = s ++ c!"Methods")) nc ?_ ?_
      · intro c hcm b hb
        obtain ⟨s, hs, hu, -, hn⟩ := hM.attr _ (hcls c hcm)
        cases b with
        | none => simp
        | some k =>
          obtain ⟨e1, e2⟩ := class_typeNames hb hs.2 hu hn
          simp only [Option.toList_some, List.flatMap_cons, List.flatMap_nil, List.append_nil, typeNames, e1, e2]
          refine ⟨by simp, ?_⟩
          intro n hnm
          refine ⟨s, hs.2, hn, by simpa using hnm⟩
      · rintro a ha b hb n ⟨s, hs, e1, h1⟩ ⟨t, ht, e2, h2⟩
        have hDs : D s := ⟨hs, by rw [← e1]; exact List.mem_map_of_mem ha⟩
        have hDt : D t := ⟨ht, by rw [← e2]; exact List.mem_map_of_mem hb⟩
        rcases h1 with rfl | rfl <;> rcases h2 with h2 | h2
        · rw [e1, e2, h2]
        · subst h2; exact absurd hDs.2 (hM.traits t ht hDt.2).1
        · subst h2; exact absurd hDt.2 (hM.traits s hs hDs.2).1
        · rw [e1, e2, List.append_cancel_right h2]
    · rw [h]; exact ⟨List.nodup_nil, by simp⟩
  have C : (mods.flatMap typeNames).Nodup ∧ ∀ n ∈ mods.flatMap typeNames, ∃ k ∈ M.submodules, IsIdent E n ∧
      k.name = fullName M.name (Ident.fromPy E n) := by
    rcases ifOn_ok hm with ⟨-, h⟩ | ⟨-, h⟩
    · refine nodup_traverse h Module.name typeNames (fun k n => IsIdent E n ∧ k.name = fullName M.name (Ident.fromPy E n)) hM.subsNodup ?_ ?_
      · intro k hk b hb
        obtain ⟨t, ht, hn, -⟩ := hM.subs k hk
        obtain ⟨p⟩ := generate_parts hb
        have hlast := p.lastOk
        rw [hn, fullName_getLast] at hlast
        have hid := p.identOk
        rw [← Option.some.inj hlast] at hid
        rw [p.item]
        refine ⟨by simp [typeNames], ?_⟩
        intro n hnm
        cases List.mem_singleton.mp hnm
        rw [toSyn_unraw ht.2 hid]
        exact ⟨ht.2, hn⟩
      · intro a _ b _ n h1 h2
        rw [h1.2, h2.2]
    · rw [h]; exact ⟨List.nodup_nil, by simp⟩
  have P : ((q.prelude.bind id).toList.flatMap typeNames).Nodup ∧ ∀ n ∈ (q.prelude.bind id).toList.flatMap typeNames,
      ∃ i, n = helperName c!"call" i ∧ ∀ p, p ∈ M.submodules.map Module.name ∨ p ∈ M.defNames →
        p.segs.getLast? ≠ some (Ident.fromPy E (helperName c!"call" i)) := by
    rcases hq : q.prelude with _ | _ | x
    · simp
    · simp
    · have hx : M.generatePrelude E = .ok (some x) := by
        rcases ifOn_ok q.preludeOk with ⟨-, h⟩ | ⟨-, h⟩
        · rw [hq] at h; exact okOrDrop_some h
        · rw [hq] at h; cases h
      obtain ⟨i, es, rfl, h1, -⟩ := C28_prelude E M x hx
      simp only [Option.bind_some, id, Option.toList_some, List.flatMap_cons, List.flatMap_nil, List.append_nil, typeNames,
        unraw_helper (newCall_isIdent E).2]
      refine ⟨by simp, ?_⟩
      intro n hn
      refine ⟨i, List.mem_singleton.mp hn, ?_⟩
      intro p hp
      refine h1 p ?_
      rcases hp with hp | hp
      · exact Or.inr (Or.inl hp)
      · simp only [Module.defNames, List.mem_append] at hp
        tauto
  have Z : (q.imports.filterMap id).flatMap typeNames = [] := by
    refine flatMap_nil' fun x hx => ?_
    have hx : some x ∈ q.imports := by simpa using hx
    rcases ifOn_ok q.importsOk with ⟨-, h⟩ | ⟨-, h⟩
    · obtain ⟨i, -, hi⟩ := traverse_mem h hx
      obtain ⟨p, a, rfl⟩ := import_generate_use hi
      rfl
    · rw [h] at hx; cases hx
  have F : q.functions.flatten.flatMap typeNames = [] := by
    refine flatMap_nil' fun x hx => ?_
    obtain ⟨l, hl, hx⟩ := List.mem_flatten.mp hx
    rcases ifOn_ok q.functionsOk with ⟨-, h⟩ | ⟨-, h⟩
    · obtain ⟨f, -, hf⟩ := traverse_mem h hl
      obtain ⟨r, -, hf⟩ := Res.bind_ok hf
      cases r with
      | func fns =>
        cases hf
        obtain ⟨fn, -, rfl⟩ := List.mem_map.mp hx
        rfl
      | method _ _ => cases hf
    · rw [h] at hl; cases hl
  have G : q.properties.flatten.flatMap typeNames = [] := by
    refine flatMap_nil' fun x hx => ?_
    obtain ⟨l, hl, hx⟩ := List.mem_flatten.mp hx
    rcases ifOn_ok q.propertiesOk with ⟨-, h⟩ | ⟨-, h⟩
    · obtain ⟨f, -, hf⟩ := traverse_mem h hl
      obtain ⟨r, -, hf⟩ := Res.bind_ok hf
      unfold moduleProps at hf
      split at hf
      · cases hf
        obtain ⟨fn, -, rfl⟩ := List.mem_map.mp hx
        cases fn <;> rfl
      · cases hf
    · rw [h] at hl; cases hl
  rw [q.content]
  simp only [List.flatMap_append, embed_nameless, Z, F, G, List.nil_append, List.append_assoc]
  -- the prelude apart from the rest
  have pd : ∀ i n, (∀ p, p ∈ M.submodules.map Module.name ∨ p ∈ M.defNames →
      p.segs.getLast? ≠ some (Ident.fromPy E (helperName c!"call" i))) → fullName M.name (Ident.fromPy E n) ∈ M.submodules.map Module.name ∨
        fullName M.name (Ident.fromPy E n) ∈ M.defNames → n ≠ helperName c!"call" i := by
    rintro i n h1 h2 rfl
    exact h1 _ h2 fullName_getLast
  refine List.nodup_append.mpr ⟨P.1, List.nodup_append.mpr ⟨A.1, List.nodup_append.mpr ⟨B.1, C.1, ?_⟩, ?_⟩, ?_⟩
  · rintro n hn m hm rfl
    obtain ⟨c, hcm, s, hs, e1, h1⟩ := B.2 n hn
    obtain ⟨k, hk, hki, e2⟩ := C.2 n hm
    obtain ⟨t, ht, e3, hdis, hmeth⟩ := hM.subs k hk
    have hDs : D s := ⟨hs, by rw [← e1]; exact List.mem_map_of_mem hcm⟩
    rcases h1 with rfl | rfl
    · apply hdis; rw [e2, ← e1]; exact hcls c hcm
    · have := fullName_inj (e3.symm.trans e2)
      exact hmeth s hs hDs.2 (fromPy_ident_inj ht.2 hki this)
  · rintro n hn m hm rfl
    obtain ⟨t, htm, hti, e1⟩ := A.2 n hn
    rcases List.mem_append.mp hm with hm | hm
    · obtain ⟨c, hcm, s, hs, e2, h1⟩ := B.2 n hm
      have hDs : D s := ⟨hs, by rw [← e2]; exact List.mem_map_of_mem hcm⟩
      rcases h1 with rfl | rfl
      · exact dct _ (List.mem_map_of_mem hcm) _ (List.mem_map_of_mem htm) (e2.trans e1.symm)
      · exact (hM.traits s hs hDs.2).2 (e1 ▸ List.mem_map_of_mem htm)
    · obtain ⟨k, hk, hki, e2⟩ := C.2 n hm
      obtain ⟨-, -, -, hdis, -⟩ := hM.subs k hk
      apply hdis; rw [e2, ← e1]; exact htv t htm
  · rintro n hn m hm rfl
    obtain ⟨i, rfl, hfresh⟩ := P.2 n hn
    rcases List.mem_append.mp hm with hm | hm
    · obtain ⟨t, htm, hti, e1⟩ := A.2 _ hm
      exact pd i _ hfresh (Or.inr (by rw [← e1]; exact htv t htm)) rfl
    · rcases List.mem_append.mp hm with hm | hm
      · obtain ⟨c, hcm, s, hs, e2, h1⟩ := B.2 _ hm
        rcases h1 with rfl | h1
        · exact pd i _ hfresh (Or.inr (by rw [← e2]; exact hcls c hcm)) rfl
        · exact helper_not_methods i s h1
      · obtain ⟨k, hk, hki, e2⟩ := C.2 _ hm
        exact pd i _ hfresh (Or.inl (by rw [← e2]; exact List.mem_map_of_mem hk)) rfl

theorem flatten_flatMap {α β : Type} (l : List (List α)) (f : α → List β) : l.flatten.flatMap f = l.flatMap fun b => b.flatMap f := by
  induction l with
  | nil => rfl
  | cons a l ih => simp [ih]

theorem propNames {r : List (Option Fn)} {l : List Item} {o : Owner} (h : moduleProps o r = .ok l) :
    l.flatMap valueNames = (r.filterMap id).map fun fn => unraw fn.sig.name := by
  unfold moduleProps at h
  split at h
  · cases h
    induction r with
    | nil => rfl
    | cons o r ih =>
      rw [List.map_cons, List.flatMap_cons, ih]
      cases o <;> rfl
  · cases h

/-- The names of functions in a clean module. -/
theorem clean_values {E : Env} {cfg : Config} {imp : Str → Bool} {tops : List Module} {ts : List Path} {M : Module} {c0 mods : List Item}
    (hM : CleanModule E M) (hc : M.content E cfg imp tops ts = .ok c0)
    (hm : ∀ x ∈ mods, ∃ a d i inner, x = .mod a d i inner) :
    ((embedItems M.name M.source ++ c0 ++ mods).flatMap valueNames).Nodup := by
  obtain ⟨q⟩ := content_parts hc
  let D : Str → Prop := fun s => IsIdent E s ∧ fullName M.name (Ident.fromPy E s) ∈ M.defNames
  let V : Str → Prop := fun s => IsIdent E s ∧ fullName M.name (Ident.fromPy E s) ∈ M.properties.map Property.name
  have hV : ∀ s, V s → ¬ V (c!"get_" ++ s) ∧ ¬ V (c!"set_" ++ s) := fun s hs =>
    ⟨fun h => (hM.accessors s hs.1 hs.2 _ (Or.inl rfl)).2 h.2, fun h => (hM.accessors s hs.1 hs.2 _ (Or.inr rfl)).2 h.2⟩
  have hnd := hM.nodup
  unfold Module.defNames at hnd
  simp only [List.nodup_append] at hnd
  obtain ⟨⟨⟨nc, -, -⟩, nf, dcf⟩, np, dp⟩ := hnd
  have hcls : ∀ c ∈ M.classes, c.name ∈ M.defNames := fun c hc => by
    simp only [Module.defNames, List.mem_append]; exact Or.inl (Or.inl (Or.inl (List.mem_map_of_mem hc)))
  have hfun : ∀ c ∈ M.functions, c.name ∈ M.defNames := fun c hc => by
    simp only [Module.defNames, List.mem_append]; exact Or.inl (Or.inr (List.mem_map_of_mem hc))
  have hprop : ∀ c ∈ M.properties, c.name ∈ M.defNames := fun c hc => by
    simp only [Module.defNames, List.mem_append]; exact Or.inr (List.mem_map_of_mem hc)
  have hne : ∀ n, D n → IsIdent E n → n ≠ c!"pyo3_embed_python_source_code" := by
    rintro n hn hi rfl
    obtain ⟨s, hs, -, hne, he⟩ := hM.attr _ hn.2
    exact hne (fromPy_ident_inj hs.2 hi (fullName_inj he).symm)
  have B : (((q.classes.filterMap id).map Item.class).flatMap valueNames).Nodup ∧
      ∀ n ∈ ((q.classes.filterMap id).map Item.class).flatMap valueNames, ∃ c ∈ M.classes, IsIdent E n ∧
        c.name = fullName M.name (Ident.fromPy E n) := by
    rw [List.flatMap_map, flatMap_filterMap]
    rcases ifOn_ok q.classesOk with ⟨-, h⟩ | ⟨-, h⟩
    · refine nodup_traverse h Class.name _ (fun c n => IsIdent E n ∧ c.name = fullName M.name (Ident.fromPy E n)) nc ?_ ?_
      · intro c hcm b hb
        obtain ⟨s, hs, hu, -, hn⟩ := hM.attr _ (hcls c hcm)
        cases b with
        | none => simp
        | some k =>
          obtain ⟨e1, e2⟩ := class_typeNames hb hs.2 hu hn
          simp only [Option.toList_some, List.flatMap_cons, List.flatMap_nil, List.append_nil, valueNames, e1]
          refine ⟨by simp, ?_⟩
          intro n hnm
          cases List.mem_singleton.mp hnm
          exact ⟨hs.2, hn⟩
      · intro a _ b _ n h1 h2
        rw [h1.2, h2.2]
    · rw [h]; exact ⟨List.nodup_nil, by simp⟩
  have F : (q.functions.flatten.flatMap valueNames).Nodup ∧ ∀ n ∈ q.functions.flatten.flatMap valueNames, ∃ f ∈ M.functions,
      IsIdent E n ∧ f.name = fullName M.name (Ident.fromPy E n) := by
    rw [flatten_flatMap]
    rcases ifOn_ok q.functionsOk with ⟨-, h⟩ | ⟨-, h⟩
    · refine nodup_traverse h Function.name _ (fun f n => IsIdent E n ∧ f.name = fullName M.name (Ident.fromPy E n)) nf ?_ ?_
      · intro f hf b hb
        obtain ⟨s, hs, hu, -, hn⟩ := hM.attr _ (hfun f hf)
        obtain ⟨r, hr, hb⟩ := Res.bind_ok hb
        cases r with
        | method _ _ => cases hb
        | func fns =>
          cases hb
          rw [List.flatMap_map]
          have hnm : f.name.name = .ok (Ident.fromPy E s) := by rw [hn]; exact name_ok fullName_getLast
          have hown : ownName f.typ = true := by rcases hM.free f hf with h | h <;> rw [h] <;> rfl
          refine ⟨?_, ?_⟩
          · cases fns with
            | nil => simp
            | cons fn rest =>
              obtain ⟨_, _, _, _, _, _, sig, _, _, _, _, _, _, _, _, _, _, _, _, _, -, hre⟩ := generate_fn hr (fn := fn) (by simp [fnsOf])
              split at hre
              · cases hre
              · cases hre; simp [valueNames]
          · intro n hnn
            obtain ⟨fn, hfn, hnn⟩ := List.mem_flatMap.mp hnn
            cases List.mem_singleton.mp hnn
            rw [toSyn_unraw hs.2 (function_name hr hfn hnm hs.2 hu hown)]
            exact ⟨hs.2, hn⟩
      · intro a _ b _ n h1 h2
        rw [h1.2, h2.2]
    · rw [h]; exact ⟨List.nodup_nil, by simp⟩
  have G : (q.properties.flatten.flatMap valueNames).Nodup ∧ ∀ n ∈ q.properties.flatten.flatMap valueNames, ∃ p ∈ M.properties,
      ∃ s, IsIdent E s ∧ p.name = fullName M.name (Ident.fromPy E s) ∧ accessorName s n ∧ IsIdent E n ∧
        nameTaken q.taken (Ident.fromPy E n) = false := by
    rw [flatten_flatMap]
    rcases ifOn_ok q.propertiesOk with ⟨-, h⟩ | ⟨-, h⟩
    · refine nodup_traverse h Property.name _ (fun p n => ∃ s, IsIdent E s ∧ p.name = fullName M.name (Ident.fromPy E s) ∧
        accessorName s n ∧ IsIdent E n ∧ nameTaken q.taken (Ident.fromPy E n) = false) np ?_ ?_
      · intro p hp b hb
        obtain ⟨s, hs, hu, -, hn⟩ := hM.attr _ (hprop p hp)
        obtain ⟨r, hr, hb⟩ := Res.bind_ok hb
        have hnm : p.name.name = .ok (Ident.fromPy E s) := by rw [hn]; exact name_ok fullName_getLast
        rw [propNames hb]
        refine ⟨pairwise_traitNames hr hnm hs.2, ?_⟩
        intro n hnn
        obtain ⟨fn, hfn, rfl⟩ := List.mem_map.mp hnn
        have hfn : some fn ∈ r := by simpa using hfn
        obtain ⟨x, a1, a2, a3, a4⟩ := accessor_name hr hfn hnm hs.2
        rw [toSyn_unraw a2 a4]
        exact ⟨s, hs.2, hn, a1, a2, a3⟩
      · rintro a ha b hb n ⟨s, hs, e1, a1, -⟩ ⟨t, ht, e2, a2, -⟩
        have hVs : V s := ⟨hs, by rw [← e1]; exact List.mem_map_of_mem ha⟩
        have hVt : V t := ⟨ht, by rw [← e2]; exact List.mem_map_of_mem hb⟩
        rw [e1, e2, accessorName_unique hV hVs hVt a1 a2]
    · rw [h]; exact ⟨List.nodup_nil, by simp⟩
  have Z : (q.imports.filterMap id).flatMap valueNames = [] := by
    refine flatMap_nil' fun x hx => ?_
    have hx : some x ∈ q.imports := by simpa using hx
    rcases ifOn_ok q.importsOk with ⟨-, h⟩ | ⟨-, h⟩
    · obtain ⟨i, -, hi⟩ := traverse_mem h hx
      obtain ⟨p, a, rfl⟩ := import_generate_use hi
      rfl
    · rw [h] at hx; cases hx
  have P : (q.prelude.bind id).toList.flatMap valueNames = [] := by
    rcases hq : q.prelude with _ | _ | x
    · rfl
    · rfl
    · have hx : M.generatePrelude E = .ok (some x) := by
        rcases ifOn_ok q.preludeOk with ⟨-, h⟩ | ⟨-, h⟩
        · rw [hq] at h; exact okOrDrop_some h
        · rw [hq] at h; cases h
      obtain ⟨i, es, rfl, h1, -⟩ := C28_prelude E M x hx
      rfl
  have A : q.typeVars.flatMap valueNames = [] := by
    refine flatMap_nil' fun x hx => ?_
    rcases ifOn_ok q.typeVarsOk with ⟨-, h⟩ | ⟨-, h⟩
    · obtain ⟨t, -, ht⟩ := traverse_mem h hx
      unfold TypeVar.generate at ht
      obtain ⟨a, -, ht⟩ := Res.bind_ok ht
      obtain ⟨b, -, ht⟩ := Res.bind_ok ht
      cases ht
      rfl
    · rw [h] at hx; cases hx
  have Q : mods.flatMap valueNames = [] := by
    refine flatMap_nil' fun x hx => ?_
    obtain ⟨a, d, i, inner, rfl⟩ := hm x hx
    rfl
  have S : ((embedItems M.name M.source).flatMap valueNames).Nodup ∧ ∀ n ∈ (embedItems M.name M.source).flatMap valueNames,
      n = c!"pyo3_embed_python_source_code" := by
    cases M.source <;> simp [embedItems, valueNames]
  have acc_embed : ∀ s n, D s → IsIdent E s → accessorName s n → n ≠ c!"pyo3_embed_python_source_code" := by
    intro s n hs hi ha
    rcases ha with rfl | rfl | rfl
    · exact hne _ hs hi
    · simp
    · simp
  rw [q.content]
  simp only [List.flatMap_append, Z, P, A, Q, List.nil_append, List.append_nil, List.append_assoc]
  refine List.nodup_append.mpr ⟨S.1, List.nodup_append.mpr ⟨B.1, List.nodup_append.mpr ⟨F.1, G.1, ?_⟩, ?_⟩, ?_⟩
  · rintro n hn m hm rfl
    obtain ⟨f, hf, -, e1⟩ := F.2 n hn
    obtain ⟨p, hp, s, hs, e2, ha, hi, htk⟩ := G.2 n hm
    unfold nameTaken at htk
    rw [Bool.or_eq_false_iff] at htk
    obtain ⟨b, hb, hbi⟩ := traverse_mem' q.takenOk hf
    rw [e1, name_ok fullName_getLast] at hbi
    cases hbi
    simp [hb] at htk
  · rintro n hn m hm rfl
    obtain ⟨c, hcm, hi, e1⟩ := B.2 n hn
    rcases List.mem_append.mp hm with hm | hm
    · obtain ⟨f, hf, -, e2⟩ := F.2 n hm
      exact dcf _ (List.mem_append_left _ (List.mem_map_of_mem hcm)) _ (List.mem_map_of_mem hf) (e1.trans e2.symm)
    · obtain ⟨p, hp, s, hs, e2, ha, -⟩ := G.2 n hm
      have hVs : V s := ⟨hs, by rw [← e2]; exact List.mem_map_of_mem hp⟩
      have hcn : fullName M.name (Ident.fromPy E n) ∈ M.classes.map Class.name := by rw [← e1]; exact List.mem_map_of_mem hcm
      rcases ha with rfl | ha | ha
      rotate_left
      · exact (hM.accessors s hs hVs.2 n (Or.inl ha)).1 hcn
      · exact (hM.accessors s hs hVs.2 n (Or.inr ha)).1 hcn
      exact dp _ (List.mem_append_left _ (List.mem_append_left _ (List.mem_map_of_mem hcm))) _ (List.mem_map_of_mem hp) (e1.trans e2.symm)
  · rintro n hn m hm rfl
    have hn := S.2 n hn
    rcases List.mem_append.mp hm with hm | hm
    · obtain ⟨c, hcm, hi, e1⟩ := B.2 n hm
      exact hne n ⟨hi, by rw [← e1]; exact hcls c hcm⟩ hi hn
    · rcases List.mem_append.mp hm with hm | hm
      · obtain ⟨f, hf, hi, e2⟩ := F.2 n hm
        exact hne n ⟨hi, by rw [← e2]; exact hfun f hf⟩ hi hn
      · obtain ⟨p, hp, s, hs, e2, ha, -⟩ := G.2 n hm
        exact acc_embed s n ⟨hs, by rw [← e2]; exact hprop p hp⟩ hs ha hn

end Bindgen

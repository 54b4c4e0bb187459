import Mathlib.Data.List.Perm.Subperm
import Mathlib.Data.List.Flatten
import Verif.Lemmas.Canon
import Verif.Lemmas.ModuleParse
import Verif.Lemmas.ModuleNames
import Verif.Props.Deps
import Verif.Props.Engine
/-!
# The module tree: C34, C35, C36, C37, C38
-/
namespace Bindgen
open Spec

/-! ## Ordinary names -/

theorem ordinary_segs {E : Env} {p : Path} (h : OrdinaryName E p) :
    ∃ segs : List Str, segs ≠ [] ∧ (∀ s ∈ segs, PySegment s) ∧ p = ⟨false, segs.map (Ident.fromPy E)⟩ ∧
      p.toPy = Str.join c!"." segs := by
  obtain ⟨segs, hne, hs, rfl⟩ := h
  have h1 := fromPy_dotted E 0 hne hs
  have h2 := toPy_fromPy E 0 hne hs
  simp only [dotted, List.replicate_zero, List.nil_append] at h1 h2
  exact ⟨segs, hne, hs, h1, h2⟩

theorem ordinary_of_segs {E : Env} {segs : List Str} (hne : segs ≠ []) (hs : ∀ s ∈ segs, PySegment s) :
    OrdinaryName E ⟨false, segs.map (Ident.fromPy E)⟩ := by
  refine ⟨segs, hne, hs, ?_⟩
  have h1 := fromPy_dotted E 0 hne hs
  simpa [dotted] using h1.symm

theorem ordinary_inj {E : Env} {p q : Path} (hp : OrdinaryName E p) (hq : OrdinaryName E q) (h : p.toPy = q.toPy) : p = q := by
  obtain ⟨a, hane, ha, rfl⟩ := hp
  obtain ⟨b, hbne, hb, rfl⟩ := hq
  have h1 := toPy_fromPy E 0 hane ha
  have h2 := toPy_fromPy E 0 hbne hb
  simp only [dotted, List.replicate_zero, List.nil_append] at h1 h2
  rw [h1, h2] at h
  rw [h]

theorem ordinary_take {E : Env} {p : Path} (hp : OrdinaryName E p) (i : Nat) :
    OrdinaryName E (Path.ofSegs (p.segs.take (i + 1))) := by
  obtain ⟨segs, hne, hs, rfl, -⟩ := ordinary_segs hp
  have : Path.ofSegs ((segs.map (Ident.fromPy E)).take (i + 1)) = ⟨false, (segs.take (i + 1)).map (Ident.fromPy E)⟩ := by
    rw [← List.map_take]; rfl
  simp only [this]
  refine ordinary_of_segs ?_ fun s h => hs s (List.mem_of_mem_take h)
  cases segs with
  | nil => exact absurd rfl hne
  | cons a l => simp

theorem ordinary_pos {E : Env} {p : Path} (hp : OrdinaryName E p) : p.leadingColon = false ∧ 1 ≤ p.segs.length := by
  obtain ⟨segs, hne, -, rfl, -⟩ := ordinary_segs hp
  refine ⟨rfl, ?_⟩
  cases segs with
  | nil => exact absurd rfl hne
  | cons a l => simp

/-- Every node of a parsed tree has an ordinary name if the modules of the interpreter do. -/
theorem parse_ordinary {E : Env} {cfg : Config} {W : World} (hW : OrdinaryWorld W) {fuel id : Nat} {M : Module}
    (h : Module.parse E cfg W fuel id = .ok M) {x : Module} (hx : InTree x [M]) : OrdinaryName E x.name := by
  refine parse_tree (P := fun x => OrdinaryName E x.name) ?_ h hx
  intro fuel id M h
  obtain ⟨p⟩ := parse_parts h
  obtain ⟨segs, hne, hs, hn⟩ := hW id p.pm p.nm p.get p.pmName
  exact ⟨segs, hne, hs, by rw [p.name, hn]⟩

/-! ## The forest before merging -/

theorem canonicalize_ok {E : Env} {W : World} {mods out : List Module} (h : canonicalize E W mods = .ok out) :
    ∃ ws, Res.traverse (Module.wrap W) mods = .ok ws ∧ out = mergeTop E ws := by
  obtain ⟨ws, hw, h⟩ := Res.bind_ok h
  cases h
  exact ⟨ws, hw, rfl⟩

theorem traverse_mem' {α β : Type} {f : α → Res β} {l : List α} {r : List β} (h : Res.traverse f l = .ok r)
    {a : α} (ha : a ∈ l) : ∃ b ∈ r, f a = .ok b := by
  induction l generalizing r with
  | nil => cases ha
  | cons x l ih =>
    rw [Res.traverse] at h
    obtain ⟨y, hy, h⟩ := Res.bind_ok h
    obtain ⟨ys, hys, h⟩ := Res.bind_ok h
    cases h
    rcases List.mem_cons.mp ha with rfl | ha
    · exact ⟨y, by simp, hy⟩
    · obtain ⟨b, hb, hf⟩ := ih hys ha
      exact ⟨b, by simp [hb], hf⟩

theorem itemAt_mem {l : List Module} {ns : List Path} {s : SItem} : ItemAt l ns s ↔ ∃ m ∈ l, ItemAt [m] ns s := by
  constructor
  · rintro ⟨x, hx, hs⟩
    obtain ⟨m, hm, hx⟩ := nodeAt_mem.mp hx
    exact ⟨m, hm, x, hx, hs⟩
  · rintro ⟨m, hm, x, hx, hs⟩
    exact ⟨x, nodeAt_mem.mpr ⟨m, hm, hx⟩, hs⟩

theorem moduleAt_mem {l : List Module} {ns : List Path} : ModuleAt l ns ↔ ∃ m ∈ l, ModuleAt [m] ns := by
  constructor
  · rintro ⟨x, hx⟩
    obtain ⟨m, hm, hx⟩ := nodeAt_mem.mp hx
    exact ⟨m, hm, x, hx⟩
  · rintro ⟨m, hm, x, hx⟩
    exact ⟨x, nodeAt_mem.mpr ⟨m, hm, hx⟩⟩

theorem wrapped_inTree {E : Env} {W : World} {mods ws : List Module} (hw : Res.traverse (Module.wrap W) mods = .ok ws)
    (ho : ∀ m, InTree m mods → OrdinaryName E m.name) {x : Module} (hx : InTree x ws) :
    OrdinaryName E x.name ∧ (InTree x mods ∨ ∃ q, x.submodules = [q]) := by
  obtain ⟨w, hwm, hx⟩ := inTree_mem hx
  obtain ⟨m, hm, hmw⟩ := traverse_mem hw hwm
  rw [wrap_eq] at hmw
  have hmx : ∀ {y}, InTree y [m] → InTree y mods := by
    intro y hy
    cases hy with
    | top h => rw [List.mem_singleton] at h; subst h; exact .top hm
    | sub h h' => rw [List.mem_singleton] at h; subst h; exact .sub hm h'
  rcases wrapFold_inTree hmw hx with h | ⟨i, -, q, hq⟩
  · exact ⟨ho x (hmx h), Or.inl (hmx h)⟩
  · refine ⟨?_, Or.inr ⟨q, hq.2.1⟩⟩
    rw [hq.1]
    exact ordinary_take (ho m (.top hm)) i

theorem wrapped_regular {E : Env} {W : World} {mods ws : List Module} (hw : Res.traverse (Module.wrap W) mods = .ok ws)
    (ho : ∀ m, InTree m mods → OrdinaryName E m.name) : RegularNames ws := fun _ _ ha hb h =>
  ordinary_inj (wrapped_inTree hw ho ha).1 (wrapped_inTree hw ho hb).1 h

/-! ## C35 -/

/-- An item stands at a place after canonicalisation iff one of the modules held it at that place, its place being below
the packages that its name mentions. -/
theorem C35_items (E : Env) (W : World) (mods out : List Module) (h : canonicalize E W mods = .ok out) (ns : List Path)
    (x : SItem) :
    ItemAt out ns x ↔ ∃ m ∈ mods, ∃ ns', ns = packages m.name ++ ns' ∧ ItemAt [m] ns' x := by
  obtain ⟨ws, hw, rfl⟩ := canonicalize_ok h
  rw [merge_items, itemAt_mem]
  constructor
  · rintro ⟨w, hwm, hx⟩
    obtain ⟨m, hm, hmw⟩ := traverse_mem hw hwm
    rw [wrap_eq] at hmw
    exact ⟨m, hm, (wrapFold_items hmw ns x).mp hx⟩
  · rintro ⟨m, hm, hx⟩
    obtain ⟨w, hwm, hmw⟩ := traverse_mem' hw hm
    rw [wrap_eq] at hmw
    exact ⟨w, hwm, (wrapFold_items hmw ns x).mpr hx⟩

/-- By module name: what the modules of a name hold together is the same before and after. -/
theorem C35_items_by_name (E : Env) (W : World) (mods out : List Module) (h : canonicalize E W mods = .ok out) (p : Path)
    (x : SItem) :
    (∃ m, InTree m out ∧ m.name = p ∧ Has m x) ↔ ∃ m, InTree m mods ∧ m.name = p ∧ Has m x := by
  constructor
  · rintro ⟨m, hm, rfl, hx⟩
    obtain ⟨ns, hns⟩ := inTree_nodeAt hm
    obtain ⟨k, hk, ns', he, y, hy, hyx⟩ := (C35_items E W mods out h _ x).mp ⟨m, hns, hx⟩
    refine ⟨y, ?_, ?_, hyx⟩
    · exact nodeAt_inTree (nodeAt_mem.mpr ⟨k, hk, hy⟩)
    · have h1 := nodeAt_name hy
      have h2 : (ns ++ [m.name]).getLast? = some m.name := by simp
      rw [he, List.getLast?_append, h1] at h2
      simpa using h2
  · rintro ⟨m, hm, rfl, hx⟩
    obtain ⟨k, hk, hmk⟩ := inTree_mem hm
    obtain ⟨ns, hns⟩ := inTree_nodeAt hmk
    obtain ⟨y, hy, hyx⟩ := (C35_items E W mods out h _ x).mpr ⟨k, hk, _, rfl, m, hns, hx⟩
    refine ⟨y, nodeAt_inTree hy, ?_, hyx⟩
    have h1 := nodeAt_name hy
    rw [List.getLast?_append] at h1
    simpa using h1.symm

/-- The same for the modules themselves: the packages of the requested modules are the only additions. -/
theorem C35_modules (E : Env) (W : World) (mods out : List Module) (h : canonicalize E W mods = .ok out) (ns : List Path) :
    ModuleAt out ns ↔ ∃ m ∈ mods, (∃ ns', ns = packages m.name ++ ns' ∧ ModuleAt [m] ns') ∨
      ∃ i < (packages m.name).length, ns = (packages m.name).take (i + 1) := by
  obtain ⟨ws, hw, rfl⟩ := canonicalize_ok h
  have hsh : ∀ (m : Module) (i : Nat), i < m.name.segs.length - 1 →
      shells m.name.segs (i + 1) = (packages m.name).take (i + 1) := by
    intro m i hi
    unfold shells packages
    rw [← List.map_take, List.take_range, Nat.min_eq_left (by omega)]
    rfl
  rw [merge_modules, moduleAt_mem]
  constructor
  · rintro ⟨w, hwm, hx⟩
    obtain ⟨m, hm, hmw⟩ := traverse_mem hw hwm
    rw [wrap_eq] at hmw
    refine ⟨m, hm, ?_⟩
    rcases (wrapFold_modules hmw ns).mp hx with h | ⟨i, hi, rfl⟩
    · exact Or.inl h
    · exact Or.inr ⟨i, by simpa [packages] using hi, hsh m i hi⟩
  · rintro ⟨m, hm, hx⟩
    obtain ⟨w, hwm, hmw⟩ := traverse_mem' hw hm
    rw [wrap_eq] at hmw
    refine ⟨w, hwm, (wrapFold_modules hmw ns).mpr ?_⟩
    rcases hx with h | ⟨i, hi, rfl⟩
    · exact Or.inl h
    · have hi : i < m.name.segs.length - 1 := by simpa [packages] using hi
      exact Or.inr ⟨i, hi, (hsh m i hi).symm⟩

/-- The modules parsed for `pkg.sub`, `pkg` and `pkg.sub` in the example. -/
def exMods : List Module :=
  ((Codegen.moduleNames exEnv exWorld 5 {} [c!"pkg.sub", c!"pkg", c!"pkg.sub"]).toOption.map Codegen.modules).getD []

example : exMods.map Module.name = [Path.fromPy exEnv c!"pkg.sub", Path.fromPy exEnv c!"pkg", Path.fromPy exEnv c!"pkg.sub"] ∧
    ((canonicalize exEnv exWorld exMods).toOption.map (fun out =>
      out.map (fun m => (m.name, m.functions.map Function.name, m.submodules.map (fun s => (s.name, s.functions.map Function.name)))))) =
    some [(Path.fromPy exEnv c!"pkg", [Path.fromPy exEnv c!"pkg.f"],
      [(Path.fromPy exEnv c!"pkg.sub", [Path.fromPy exEnv c!"pkg.sub.g"])])] := by decide +kernel

/-! ## C34 -/

/-- After canonicalisation the top level consists of modules with one-segment names, in the order of their Python names,
without repetition. -/
theorem C34_canonical_partial (E : Env) (W : World) (mods out : List Module) (h : canonicalize E W mods = .ok out)
    (ho : ∀ m ∈ mods, OrdinaryName E m.name) :
    (∀ m ∈ out, m.name.segs.length = 1) ∧
    (out.map Module.name).Pairwise (fun a b => Str.le a.toPy b.toPy = true) ∧ (out.map Module.name).Nodup := by
  obtain ⟨ws, hw, rfl⟩ := canonicalize_ok h
  have hname : ∀ w ∈ ws, ∃ m ∈ mods, w.name = Path.ofSegs (m.name.segs.take 1) ∧ w.name.segs.length = 1 := by
    intro w hwm
    obtain ⟨m, hm, hmw⟩ := traverse_mem hw hwm
    rw [wrap_eq] at hmw
    have hn := wrapFold_name hmw
    have hp := ordinary_pos (ho m hm)
    refine ⟨m, hm, ?_⟩
    split at hn
    · rename_i h0
      have hl : m.name.segs.length = 1 := by omega
      rw [hn]
      refine ⟨?_, hl⟩
      rw [List.take_of_length_le (by omega)]
      cases hname : m.name with
      | mk lc segs => rw [hname] at hp; simp only at hp; rw [hp.1]; rfl
    · rw [hn]
      refine ⟨rfl, ?_⟩
      simp [Path.ofSegs, hp.2]
  have hreg : ∀ a ∈ ws, ∀ b ∈ ws, a.name.toPy = b.name.toPy → a.name = b.name := by
    intro a ha b hb
    obtain ⟨m, hm, e, -⟩ := hname a ha
    obtain ⟨m', hm', e', -⟩ := hname b hb
    rw [e, e']
    exact ordinary_inj (ordinary_take (ho m hm) 0) (ordinary_take (ho m' hm') 0)
  refine ⟨?_, mergeDuplicates_sorted (mergeModules_name E _) ws, mergeDuplicates_nodup (mergeModules_name E _) ws hreg⟩
  intro M hM
  have := mergeDuplicates_sublist (mergeModules_name E (depthList ws)) ws
  have hin := this.subset (List.mem_map_of_mem (f := Module.name) hM)
  obtain ⟨w, hwm, he⟩ := List.mem_map.mp hin
  obtain ⟨-, -, -, hl⟩ := hname w ((sortMods_perm ws).mem_iff.mp hwm)
  rw [← he]
  exact hl

theorem prepared_ordinary {E : Env} {W : World} (hW : OrdinaryWorld W) {fuel : Nat} {cfg : Config} {ms mods : List Module}
    (hc : ∀ m ∈ ms, OrdinaryName E m.name)
    (h1 : ifOn cfg.generateDependencies (parseDependencies E cfg W fuel ms) ms = .ok mods) :
    ∀ m ∈ mods, OrdinaryName E m.name := by
  rcases ifOn_ok h1 with ⟨-, h1⟩ | ⟨-, rfl⟩
  · obtain ⟨⟨seen, ms⟩, h3, h1⟩ := Res.bind_ok h1
    cases h1
    refine foldRes_invariant (P := fun st : List Str × List Module => ∀ m ∈ st.2, OrdinaryName E m.name) hc ?_ h3
    intro st hst o _ st' h4
    unfold depStep at h4
    obtain ⟨id, -, h4⟩ := Res.bind_ok h4
    obtain ⟨pm, -, h4⟩ := Res.bind_ok h4
    obtain ⟨nm, -, h4⟩ := Res.bind_ok h4
    split at h4
    · cases h4; exact hst
    · obtain ⟨_, -, h4⟩ := Res.bind_ok h4
      split at h4
      · obtain ⟨parsed, hp, h4⟩ := Res.bind_ok h4
        cases h4
        intro m hm
        rcases List.mem_append.mp hm with hm | hm
        · exact hst m hm
        · rw [List.mem_singleton] at hm
          exact hm ▸ parse_ordinary hW hp (.top (by simp))
      · cases h4; exact hst
  · exact hc

/-- The same for what is generated, dependencies and embedded sources included. -/
theorem C34_prepared_partial (E : Env) (W : World) (hW : OrdinaryWorld W) (fuel : Nat) (c : Codegen) (out : List Module)
    (hc : ∀ m ∈ c.modules, OrdinaryName E m.name) (h : c.prepare E W fuel = .ok out) :
    (∀ m ∈ out, m.name.segs.length = 1) ∧
    (out.map Module.name).Pairwise (fun a b => Str.le a.toPy b.toPy = true) ∧ (out.map Module.name).Nodup := by
  obtain ⟨mods, h1, h⟩ := Res.bind_ok h
  obtain ⟨out', h2, h⟩ := Res.bind_ok h
  cases h
  have ho := prepared_ordinary hW hc h1
  have key := C34_canonical_partial E W mods out' h2 ho
  have hnames : (embedSources c.embedded out').map Module.name = out'.map Module.name := by
    unfold embedSources
    rw [List.map_map]
    refine List.map_congr_left fun m _ => ?_
    simp only [Function.comp]
    split <;> rfl
  refine ⟨?_, hnames ▸ key.2.1, hnames ▸ key.2.2⟩
  intro m hm
  have := List.mem_map_of_mem (f := Module.name) hm
  rw [hnames] at this
  obtain ⟨m', hm', he⟩ := List.mem_map.mp this
  rw [← he]
  exact key.1 m' hm'

theorem exWorld_ordinary : OrdinaryWorld exWorld := by
  intro id m n hm hn
  have hseg : ∀ s ∈ [c!"pkg", c!"sub", c!"other"], PySegment s := by
    intro s hs
    simp only [List.mem_cons, List.not_mem_nil, or_false] at hs
    rcases hs with rfl | rfl | rfl <;> exact ⟨by decide, by decide, by decide, by decide⟩
  match id with
  | 0 => cases hm; cases hn; exact ⟨[c!"pkg"], by simp, fun s hs => hseg s (by simp_all), by decide⟩
  | 1 => cases hm; cases hn; exact ⟨[c!"pkg", c!"sub"], by simp, fun s hs => hseg s (by simp at hs ⊢; tauto), by decide⟩
  | 2 => cases hm; cases hn; exact ⟨[c!"other"], by simp, fun s hs => hseg s (by simp_all), by decide⟩
  | n + 3 => cases hm

/-- Without modules that have a name the claim fails: a module called `''` stays at the top level with no segment. -/
theorem C34_empty_name_counterexample : ∃ (W : World) (mods out : List Module),
    (Codegen.new {}).module exEnv W 2 0 = .ok { modules := mods } ∧ canonicalize exEnv W mods = .ok out ∧
      ∃ m ∈ out, m.name.segs.length = 0 :=
  ⟨{ mods := [{ name := some [] }], importMod := fun _ => some 0 }, _, _, rfl, rfl, _, List.mem_singleton.mpr rfl, rfl⟩

/-! ## C36 -/

/-- After canonicalisation no two siblings have the same name, provided that no module had two such submodules before. -/
theorem C36_distinct (E : Env) (W : World) (mods out : List Module) (h : canonicalize E W mods = .ok out)
    (ho : ∀ m, InTree m mods → OrdinaryName E m.name) (hd : DistinctSubmodules mods) :
    (out.map Module.name).Nodup ∧ DistinctSubmodules out := by
  obtain ⟨ws, hw, rfl⟩ := canonicalize_ok h
  have hreg := wrapped_regular hw ho
  refine ⟨mergeDuplicates_nodup (mergeModules_name E _) ws fun a ha b hb => hreg a b (.top ha) (.top hb), ?_⟩
  refine merge_distinct E _ ws (Nat.le_refl _) hreg ?_
  intro m hm
  rcases (wrapped_inTree hw ho hm).2 with h | ⟨q, hq⟩
  · exact hd m h
  · rw [hq]; simp

/-- A package with two submodule names for one module. -/
def exAliasWorld : World where
  mods := [{ name := some c!"pkg", isPackage := true, iterModules := some [c!"a", c!"b"] }, { name := some c!"pkg.a" }]
  importMod s := if s = c!"pkg" then some 0 else if s = c!"pkg.a" || s = c!"pkg.b" then some 1 else none

/-- The proviso is needed: only modules that have a sibling of the same name are merged recursively. -/
theorem C36_alias_counterexample : ∃ mods out, (Codegen.new {}).module exEnv exAliasWorld 5 0 = .ok { modules := mods } ∧
    canonicalize exEnv exAliasWorld mods = .ok out ∧ ¬ DistinctSubmodules out := by
  refine ⟨_, _, rfl, rfl, ?_⟩
  intro h
  have := h _ (.top (List.mem_singleton.mpr rfl))
  revert this
  decide

/-- The modules of the example have distinct submodules. -/
example : (exMods.all fun m => decide ((m.submodules.map Module.name).Nodup) && m.submodules.all fun s => s.submodules.isEmpty)
    = true := by decide +kernel

/-! ## C37 -/

/-- Two forests hold the same items at the same places, and have the same top level names in the same order. -/
structure Spec.SameTree (a b : List Module) : Prop where
  items : ∀ ns x, ItemAt a ns x ↔ ItemAt b ns x
  modules : ∀ ns, ModuleAt a ns ↔ ModuleAt b ns
  top : a.map Module.name = b.map Module.name

theorem moduleAt_single {l : List Module} {n : Path} : ModuleAt l [n] ↔ n ∈ l.map Module.name := by
  simp [ModuleAt, NodeAt]

theorem top_eq {E : Env} {a b : List Path} (ha : ∀ p ∈ a, OrdinaryName E p) (hb : ∀ p ∈ b, OrdinaryName E p)
    (sa : a.Pairwise (fun a b => Str.le a.toPy b.toPy = true)) (sb : b.Pairwise (fun a b => Str.le a.toPy b.toPy = true))
    (na : a.Nodup) (nb : b.Nodup) (h : ∀ p, p ∈ a ↔ p ∈ b) : a = b := by
  refine List.Perm.eq_of_pairwise ?_ sa sb ((List.perm_ext_iff_of_nodup na nb).mpr h)
  intro p q hp hq h1 h2
  exact ordinary_inj (ha p hp) (hb q hq) (Str.le_antisymm h1 h2)

theorem canonical_names {E : Env} {W : World} {mods out : List Module} (h : canonicalize E W mods = .ok out)
    (ho : ∀ m ∈ mods, OrdinaryName E m.name) : ∀ p ∈ out.map Module.name, OrdinaryName E p := by
  intro p hp
  obtain ⟨m, hm, hx⟩ := (C35_modules E W mods out h [p]).mp (moduleAt_single.mpr hp)
  rcases hx with ⟨ns', he, x, hx⟩ | ⟨i, hi, he⟩
  · cases hpk : packages m.name with
    | nil =>
      rw [hpk, List.nil_append] at he
      subst he
      rw [NodeAt] at hx
      rw [← hx.2, List.mem_singleton.mp hx.1]
      exact ho m hm
    | cons q qs =>
      rw [hpk, List.cons_append] at he
      injection he with h1 h2
      cases ns' with
      | nil => cases hx
      | cons a as => exact absurd h2.symm (by simp)
  · have : p ∈ packages m.name := List.mem_of_mem_take (i := i + 1) (he ▸ by simp)
    obtain ⟨j, -, rfl⟩ := List.mem_map.mp this
    exact ordinary_take (ho m hm) j

/-- Canonicalisation depends only on which modules are given. -/
theorem canonicalize_congr {E : Env} {W : World} {mods mods' out : List Module} (hp : ∀ m, m ∈ mods ↔ m ∈ mods')
    (ho : ∀ m ∈ mods, OrdinaryName E m.name) (h : canonicalize E W mods = .ok out) :
    ∃ out', canonicalize E W mods' = .ok out' ∧ SameTree out out' := by
  obtain ⟨ws, hw, -⟩ := canonicalize_ok h
  obtain ⟨ws', hw'⟩ := traverse_exists (f := Module.wrap W) (l := mods') (fun m hm => by
    obtain ⟨b, -, hb⟩ := traverse_mem' hw ((hp m).mpr hm)
    exact ⟨b, hb⟩)
  have h' : canonicalize E W mods' = .ok (mergeTop E ws') := by unfold canonicalize; rw [hw']; rfl
  have ho' : ∀ m ∈ mods', OrdinaryName E m.name := fun m hm => ho m ((hp m).mpr hm)
  have hmods : ∀ ns, ModuleAt out ns ↔ ModuleAt (mergeTop E ws') ns := by
    intro ns
    rw [C35_modules E W mods out h, C35_modules E W mods' _ h']
    simp only [hp]
  refine ⟨_, h', ?_, hmods, ?_⟩
  · intro ns x
    rw [C35_items E W mods out h, C35_items E W mods' _ h']
    simp only [hp]
  · have c := C34_canonical_partial E W mods out h ho
    have c' := C34_canonical_partial E W mods' _ h' ho'
    refine top_eq (canonical_names h ho) (canonical_names h' ho') c.2.1 c'.2.1 c.2.2 c'.2.2 ?_
    intro p
    rw [← moduleAt_single, ← moduleAt_single]
    exact hmods [p]

theorem embed_has {e : List (Str × Str)} {l : List Module} {ns : List Path} {Q : Module → Prop}
    (hQ : ∀ (m : Module) s, Q { m with source := s } ↔ Q m) :
    (∃ m, NodeAt (embedSources e l) ns m ∧ Q m) ↔ ∃ m, NodeAt l ns m ∧ Q m := by
  have hf : ∃ f : Module → Module, embedSources e l = l.map f ∧ ∀ m, (f m).name = m.name ∧ (f m).submodules = m.submodules ∧
      (Q (f m) ↔ Q m) := by
    refine ⟨_, rfl, fun m => ?_⟩
    split
    · exact ⟨rfl, rfl, hQ _ _⟩
    · exact ⟨rfl, rfl, Iff.rfl⟩
  obtain ⟨f, hf, hm⟩ := hf
  rw [hf]
  match ns with
  | [] => simp [NodeAt]
  | [n] =>
    simp only [NodeAt, List.mem_map]
    constructor
    · rintro ⟨m, ⟨⟨k, hk, rfl⟩, hn⟩, hq⟩
      exact ⟨k, ⟨hk, (hm k).1 ▸ hn⟩, (hm k).2.2.mp hq⟩
    · rintro ⟨k, ⟨hk, hn⟩, hq⟩
      exact ⟨f k, ⟨⟨k, hk, rfl⟩, (hm k).1 ▸ hn⟩, (hm k).2.2.mpr hq⟩
  | n :: n' :: ns =>
    simp only [NodeAt, List.mem_map]
    constructor
    · rintro ⟨m, ⟨_, ⟨k, hk, rfl⟩, hn, h⟩, hq⟩
      exact ⟨m, ⟨k, hk, (hm k).1 ▸ hn, (hm k).2.1 ▸ h⟩, hq⟩
    · rintro ⟨m, ⟨k, hk, hn, h⟩, hq⟩
      exact ⟨m, ⟨f k, ⟨k, hk, rfl⟩, (hm k).1 ▸ hn, (hm k).2.1.symm ▸ h⟩, hq⟩

theorem embed_same (e : List (Str × Str)) (l : List Module) : SameTree (embedSources e l) l := by
  refine ⟨fun ns x => embed_has (Q := fun m => Has m x) fun m s => by cases x <;> rfl, fun ns => ?_, ?_⟩
  · have := embed_has (e := e) (l := l) (ns := ns) (Q := fun _ => True) (fun _ _ => Iff.rfl)
    simpa [ModuleAt] using this
  · unfold embedSources
    rw [List.map_map]
    refine List.map_congr_left fun m _ => ?_
    simp only [Function.comp]
    split <;> rfl

theorem Spec.SameTree.symm {a b : List Module} (h : SameTree a b) : SameTree b a :=
  ⟨fun ns x => (h.items ns x).symm, fun ns => (h.modules ns).symm, h.top.symm⟩

theorem Spec.SameTree.trans {a b c : List Module} (h : SameTree a b) (h' : SameTree b c) : SameTree a c :=
  ⟨fun ns x => (h.items ns x).trans (h'.items ns x), fun ns => (h.modules ns).trans (h'.modules ns), h.top.trans h'.top⟩

theorem importedFrom_congr {a b : List Module} (h : ∀ m, m ∈ a ↔ m ∈ b) (o : Path) : ImportedFrom a o ↔ ImportedFrom b o := by
  have key : ∀ {a b : List Module}, (∀ m, m ∈ a ↔ m ∈ b) → ImportedFrom a o → ImportedFrom b o := by
    rintro a b h ⟨m, i, hm, hi⟩
    refine ⟨m, i, ?_, hi⟩
    cases hm with
    | top hm => exact .top ((h m).mp hm)
    | sub hn hm => exact .sub ((h _).mp hn) hm
  exact ⟨key h, key fun m => (h m).symm⟩

/-- Which modules are added as dependencies depends only on which modules are given. -/
theorem dependencies_congr {E : Env} {cfg : Config} {W : World} (hu : UniqueNames W) {fuel : Nat} {mods mods' out : List Module}
    (hp : ∀ m, m ∈ mods ↔ m ∈ mods') (h : parseDependencies E cfg W fuel mods = .ok out) :
    ∃ out', parseDependencies E cfg W fuel mods' = .ok out' ∧ ∀ m, m ∈ out ↔ m ∈ out' := by
  obtain ⟨out', h'⟩ := (C48_succeeds_partial E cfg W hu fuel mods').mpr fun o ho =>
    (C48_succeeds_partial E cfg W hu fuel mods).mp ⟨out, h⟩ o ((importedFrom_congr hp o).mpr ho)
  obtain ⟨deps, rfl, -, d2, d3⟩ := C48_exactly_partial E cfg W hu fuel mods out h
  obtain ⟨deps', rfl, -, d2', d3'⟩ := C48_exactly_partial E cfg W hu fuel mods' out' h'
  refine ⟨_, h', ?_⟩
  have key : ∀ m, m ∈ deps.map (fun d => d.2.2) ↔ m ∈ deps'.map (fun d => d.2.2) := by
    have hex : ∀ id n, (∃ m, (id, n, m) ∈ deps) ↔ ∃ m, (id, n, m) ∈ deps' := by
      intro id n
      rw [d3, d3']
      simp only [importedFrom_congr hp]
    intro m
    constructor
    · intro hm
      obtain ⟨⟨id, n, m'⟩, hd, rfl⟩ := List.mem_map.mp hm
      obtain ⟨m2, hd2⟩ := (hex id n).mp ⟨_, hd⟩
      have e := d2 _ _ _ hd
      rw [d2' _ _ _ hd2] at e
      cases e
      exact List.mem_map.mpr ⟨_, hd2, rfl⟩
    · intro hm
      obtain ⟨⟨id, n, m'⟩, hd, rfl⟩ := List.mem_map.mp hm
      obtain ⟨m2, hd2⟩ := (hex id n).mpr ⟨_, hd⟩
      have e := d2' _ _ _ hd
      rw [d2 _ _ _ hd2] at e
      cases e
      exact List.mem_map.mpr ⟨_, hd2, rfl⟩
  intro m
  rw [List.mem_append, List.mem_append, hp, key]

theorem externalImports_append (a b : List Module) : externalImportsList (a ++ b) = externalImportsList a ++ externalImportsList b := by
  induction a with
  | nil => rfl
  | cons m a ih => simp [externalImportsList, ih]

theorem importsList_mem {a : List Module} {i : Import} : i ∈ externalImportsList a ↔ ∃ m ∈ a, i ∈ m.externalImports := by
  induction a with
  | nil => simp [externalImportsList]
  | cons m a ih => simp [externalImportsList, ih]

/-- Modules that are there already add no dependencies. -/
theorem dependencies_again {E : Env} {cfg : Config} {W : World} {fuel : Nat} {mods extra out : List Module}
    (hx : ∀ m ∈ extra, m ∈ mods) (h : parseDependencies E cfg W fuel mods = .ok out) :
    ∃ out', parseDependencies E cfg W fuel (mods ++ extra) = .ok out' ∧ ∀ m, m ∈ out ↔ m ∈ out' := by
  obtain ⟨⟨seen, ms⟩, h1, h⟩ := Res.bind_ok h
  cases h
  obtain ⟨deps, rfl, hd⟩ := depFold_append h1
  refine ⟨mods ++ extra ++ deps, ?_, ?_⟩
  · unfold parseDependencies
    have : unique ((externalImportsList (mods ++ extra)).map Import.origin) =
        unique ((externalImportsList mods).map Import.origin) := by
      rw [externalImports_append, List.map_append]
      refine unique_append _ _ fun o ho => ?_
      obtain ⟨i, hi, rfl⟩ := List.mem_map.mp ho
      obtain ⟨m, hm, him⟩ := importsList_mem.mp hi
      exact List.mem_map.mpr ⟨i, importsList_mem.mpr ⟨m, hx m hm, him⟩, rfl⟩
    simp only [this, hd]
    rfl
  · intro m
    simp only [List.mem_append]
    constructor
    · rintro (h | h)
      · exact Or.inl (Or.inl h)
      · exact Or.inr h
    · rintro ((h | h) | h)
      · exact Or.inl h
      · exact Or.inl (hx m h)
      · exact Or.inr h

/-- What is generated depends only on which modules the engine has, if this is so for the dependencies. -/
theorem prepare_congr {E : Env} {W : World} (hW : OrdinaryWorld W) {fuel : Nat} {c c' : Codegen}
    {out : List Module} (hcfg : c'.cfg = c.cfg) (hp : ∀ m, m ∈ c.modules ↔ m ∈ c'.modules)
    (hdep : c.cfg.generateDependencies = true → ∀ mods, parseDependencies E c.cfg W fuel c.modules = .ok mods →
      ∃ mods', parseDependencies E c.cfg W fuel c'.modules = .ok mods' ∧ ∀ m, m ∈ mods ↔ m ∈ mods')
    (hc : ∀ m ∈ c.modules, OrdinaryName E m.name) (h : c.prepare E W fuel = .ok out) :
    ∃ out', c'.prepare E W fuel = .ok out' ∧ SameTree out out' := by
  obtain ⟨mods, h1, h⟩ := Res.bind_ok h
  obtain ⟨cn, h2, h⟩ := Res.bind_ok h
  cases h
  have : ∃ mods', ifOn c'.cfg.generateDependencies (parseDependencies E c'.cfg W fuel c'.modules) c'.modules = .ok mods' ∧
      ∀ m, m ∈ mods ↔ m ∈ mods' := by
    rw [hcfg]
    rcases ifOn_ok h1 with ⟨hb, h1⟩ | ⟨hb, rfl⟩
    · rw [hb]; exact hdep hb _ h1
    · rw [hb]; exact ⟨_, rfl, hp⟩
  obtain ⟨mods', h3, h4⟩ := this
  obtain ⟨cn', h5, h6⟩ := canonicalize_congr h4 (prepared_ordinary hW hc h1) h2
  refine ⟨embedSources c'.embedded cn', ?_, ?_⟩
  · unfold Codegen.prepare
    rw [h3, Res.ok_bind, h5]
    rfl
  · exact ((embed_same _ _).trans h6).trans (embed_same _ _).symm

theorem moduleName_ok {E : Env} {W : World} {fuel : Nat} {c c' : Codegen} {n : Str} (h : c.moduleName E W fuel n = .ok c') :
    ∃ id m, W.importMod n = some id ∧ Module.parse E c.cfg W fuel id = .ok m ∧ c' = { c with modules := c.modules ++ [m] } := by
  unfold Codegen.moduleName at h
  obtain ⟨id, h1, h⟩ := Res.bind_ok h
  unfold Codegen.module at h
  obtain ⟨m, hm, h⟩ := Res.bind_ok h
  cases h
  refine ⟨id, m, ?_, hm, rfl⟩
  cases hi : W.importMod n with
  | none => rw [hi] at h1; cases h1
  | some x => rw [hi] at h1; cases h1; rfl

/-- A batch succeeds iff all names can be imported and parsed; the modules added are the parsed ones. -/
theorem moduleNames_iff {E : Env} {W : World} {fuel : Nat} {c : Codegen} {names : List Str} :
    (∃ c', c.moduleNames E W fuel names = .ok c') ↔
      ∀ n ∈ names, ∃ id m, W.importMod n = some id ∧ Module.parse E c.cfg W fuel id = .ok m := by
  induction names generalizing c with
  | nil => exact ⟨fun _ => by simp, fun _ => ⟨c, rfl⟩⟩
  | cons n names ih =>
    constructor
    · rintro ⟨c', h⟩
      unfold Codegen.moduleNames at h
      rw [foldRes] at h
      obtain ⟨c1, h1, h⟩ := Res.bind_ok h
      obtain ⟨id, m, h2, h3, rfl⟩ := moduleName_ok h1
      have := ih.mp ⟨c', h⟩
      intro k hk
      rcases List.mem_cons.mp hk with rfl | hk
      · exact ⟨id, m, h2, h3⟩
      · exact this k hk
    · intro h
      obtain ⟨id, m, h2, h3⟩ := h n (by simp)
      obtain ⟨c', h'⟩ := (ih (c := { c with modules := c.modules ++ [m] })).mpr fun k hk => h k (by simp [hk])
      refine ⟨c', ?_⟩
      unfold Codegen.moduleNames
      rw [foldRes]
      have : c.moduleName E W fuel n = .ok { c with modules := c.modules ++ [m] } := by
        unfold Codegen.moduleName Codegen.module
        rw [h2]
        simp only [Res.orErr, Res.ok_bind, h3]
        rfl
      rw [this]
      exact h'

theorem moduleNames_modules {E : Env} {W : World} {fuel : Nat} {c c' : Codegen} {names : List Str}
    (h : c.moduleNames E W fuel names = .ok c') :
    c'.cfg = c.cfg ∧ c'.embedded = c.embedded ∧ ∀ m, m ∈ c'.modules ↔ m ∈ c.modules ∨
      ∃ n ∈ names, ∃ id, W.importMod n = some id ∧ Module.parse E c.cfg W fuel id = .ok m := by
  induction names generalizing c with
  | nil => cases h; simp
  | cons n names ih =>
    unfold Codegen.moduleNames at h
    rw [foldRes] at h
    obtain ⟨c1, h1, h⟩ := Res.bind_ok h
    obtain ⟨id, k, h2, h3, rfl⟩ := moduleName_ok h1
    obtain ⟨a, b, d⟩ := ih h
    refine ⟨a, b, fun m => ?_⟩
    rw [d m, List.mem_append, List.mem_singleton]
    constructor
    · rintro ((hm | rfl) | ⟨n', hn', hx⟩)
      · exact Or.inl hm
      · exact Or.inr ⟨n, by simp, id, h2, h3⟩
      · exact Or.inr ⟨n', by simp [hn'], hx⟩
    · rintro (hm | ⟨n', hn', id', hx, hx'⟩)
      · exact Or.inl (Or.inl hm)
      · rcases List.mem_cons.mp hn' with rfl | hn'
        · rw [h2] at hx
          cases hx
          rw [h3] at hx'
          cases hx'
          exact Or.inl (Or.inr rfl)
        · exact Or.inr ⟨n', hn', id', hx, hx'⟩

/-- What is generated depends only on which names are requested. -/
theorem requests_congr {E : Env} {W : World} (hW : OrdinaryWorld W) {fuel : Nat} {c c1 : Codegen}
    (hu : c.cfg.generateDependencies = true → UniqueNames W)
    {names names' : List Str} {out : List Module} (hc : ∀ m ∈ c.modules, OrdinaryName E m.name)
    (hn : ∀ n, n ∈ names ↔ n ∈ names') (h1 : c.moduleNames E W fuel names = .ok c1) (h : c1.prepare E W fuel = .ok out) :
    ∃ c2 out', c.moduleNames E W fuel names' = .ok c2 ∧ c2.prepare E W fuel = .ok out' ∧ SameTree out out' := by
  obtain ⟨c2, h2⟩ := moduleNames_iff.mpr fun n hn' => moduleNames_iff.mp ⟨c1, h1⟩ n ((hn n).mpr hn')
  obtain ⟨a1, -, d1⟩ := moduleNames_modules h1
  obtain ⟨a2, -, d2⟩ := moduleNames_modules h2
  have hc1 : ∀ m ∈ c1.modules, OrdinaryName E m.name := by
    intro m hm
    rcases (d1 m).mp hm with hm | ⟨n, -, id, -, hp⟩
    · exact hc m hm
    · exact parse_ordinary hW hp (.top (by simp))
  obtain ⟨out', h3, h4⟩ := prepare_congr hW (c' := c2) (a2.trans a1.symm) (fun m => by rw [d1, d2]; simp only [hn])
    (fun hd mods hm => dependencies_congr (hu (a1 ▸ hd)) (fun m => by rw [d1, d2]; simp only [hn]) hm) hc1 h
  exact ⟨c2, out', h2, h3, h4⟩

/-- Requesting the same names in another order succeeds as well and yields the same items at the same places, the same
modules, and the same top level in the same order. What is missing: with dependencies on, this is only shown for
interpreters whose modules have different names (`C37_order_counterexample`). -/
theorem C37_order_partial (E : Env) (W : World) (hW : OrdinaryWorld W) (fuel : Nat) (c c1 : Codegen)
    (hu : c.cfg.generateDependencies = true → UniqueNames W)
    (hc : ∀ m ∈ c.modules, OrdinaryName E m.name) (names names' : List Str) (hp : names.Perm names') (out : List Module)
    (h1 : c.moduleNames E W fuel names = .ok c1) (h : c1.prepare E W fuel = .ok out) :
    ∃ c2 out', c.moduleNames E W fuel names' = .ok c2 ∧ c2.prepare E W fuel = .ok out' ∧ SameTree out out' :=
  requests_congr hW hu hc (fun _ => hp.mem_iff) h1 h

example : OrdinaryWorld exWorld ∧ UniqueNames exWorld ∧ [c!"pkg.sub", c!"other", c!"pkg"].Perm [c!"pkg", c!"pkg.sub", c!"other"] ∧
    ((Codegen.new {}).moduleNames exEnv exWorld 5 [c!"pkg.sub", c!"other", c!"pkg"] >>= fun c => c.prepare exEnv exWorld 5).map
      (fun out => out.map Module.name) = .ok [Path.fromPy exEnv c!"other", Path.fromPy exEnv c!"pkg"] :=
  ⟨exWorld_ordinary, exWorld_unique, by decide, by decide +kernel⟩

/-- `a` and `b` each import from a module that calls itself `dep`: two different modules. -/
def exSameNames : World where
  mods := [
    { name := some c!"a", dir := [c!"f"], attrs := [(c!"f", { obj := { exFnObj c!"x" with dunderName := some c!"f" } })] },
    { name := some c!"b", dir := [c!"g"], attrs := [(c!"g", { obj := { exFnObj c!"y" with dunderName := some c!"g" } })] },
    { name := some c!"dep", dir := [c!"f"], attrs := [(c!"f", { obj := exFnObj c!"dep" })] },
    { name := some c!"dep", dir := [c!"g"], attrs := [(c!"g", { obj := exFnObj c!"dep" })] }]
  importMod s := if s = c!"a" then some 0 else if s = c!"b" then some 1 else if s = c!"x" then some 2
    else if s = c!"y" then some 3 else none

/-- The top level of what is generated for these names with dependencies, with the functions. -/
def exSameNamesOut (names : List Str) : Res (List (Str × List Str)) :=
  ((Codegen.new { generateDependencies := true }).moduleNames exEnv exSameNames 5 names >>=
    fun c => c.prepare exEnv exSameNames 5).map
      (fun out => out.map (fun (m : Module) => (m.name.toPy, m.functions.map (fun (f : Function) => f.name.toPy))))

/-- **C37** without unique names: of two dependencies with the same name only the first is taken, so the order of the requests
decides whether `dep.f` or `dep.g` is there. -/
theorem C37_order_counterexample :
    exSameNamesOut [c!"a", c!"b"] = .ok [(c!"a", []), (c!"b", []), (c!"dep", [c!"dep.f"])] ∧
    exSameNamesOut [c!"b", c!"a"] = .ok [(c!"a", []), (c!"b", []), (c!"dep", [c!"dep.g"])] := by decide +kernel

/-! ## C38 -/

theorem moduleNames_append {E : Env} {W : World} {fuel : Nat} {c c' : Codegen} {names : List Str}
    (h : c.moduleNames E W fuel names = .ok c') : ∃ ms, c' = { c with modules := c.modules ++ ms } ∧
      ∀ m ∈ ms, ∃ n ∈ names, ∃ id, W.importMod n = some id ∧ Module.parse E c.cfg W fuel id = .ok m := by
  induction names generalizing c with
  | nil => cases h; exact ⟨[], by simp, by simp⟩
  | cons n names ih =>
    unfold Codegen.moduleNames at h
    rw [foldRes] at h
    obtain ⟨c1, h1, h⟩ := Res.bind_ok h
    obtain ⟨id, k, h2, h3, rfl⟩ := moduleName_ok h1
    obtain ⟨ms, rfl, hms⟩ := ih h
    refine ⟨k :: ms, by simp, ?_⟩
    intro m hm
    rcases List.mem_cons.mp hm with rfl | hm
    · exact ⟨n, by simp, id, h2, h3⟩
    · obtain ⟨n', hn', hx⟩ := hms m hm
      exact ⟨n', by simp [hn'], hx⟩

/-- Requesting a name again yields the same items at the same places, the same modules and the same top level. Missing: an
interpreter that has changed in between (`C38_live_partial`, `C38_live_counterexample` in Props/Live). -/
theorem C38_again_partial (E : Env) (W : World) (hW : OrdinaryWorld W) (fuel : Nat) (c c1 : Codegen)
    (hc : ∀ m ∈ c.modules, OrdinaryName E m.name) (names again : List Str) (ha : ∀ n ∈ again, n ∈ names) (out : List Module)
    (h1 : c.moduleNames E W fuel names = .ok c1) (h : c1.prepare E W fuel = .ok out) :
    ∃ c2 out', c1.moduleNames E W fuel again = .ok c2 ∧ c2.prepare E W fuel = .ok out' ∧ SameTree out out' := by
  obtain ⟨a1, -, d1⟩ := moduleNames_modules h1
  obtain ⟨c2, h2⟩ := (moduleNames_iff (c := c1) (names := again)).mpr fun n hn => by
    rw [a1]; exact moduleNames_iff.mp ⟨c1, h1⟩ n (ha n hn)
  obtain ⟨ms, rfl, hms⟩ := moduleNames_append h2
  have hsub : ∀ m ∈ ms, m ∈ c1.modules := by
    intro m hm
    obtain ⟨n, hn, id, hi, hp⟩ := hms m hm
    rw [a1] at hp
    exact (d1 m).mpr (Or.inr ⟨n, ha n hn, id, hi, hp⟩)
  have hc1 : ∀ m ∈ c1.modules, OrdinaryName E m.name := by
    intro m hm
    rcases (d1 m).mp hm with hm | ⟨n, -, id, -, hp⟩
    · exact hc m hm
    · exact parse_ordinary hW hp (.top (by simp))
  obtain ⟨out', h3, h4⟩ := prepare_congr hW (c := c1) (c' := { c1 with modules := c1.modules ++ ms }) rfl
    (fun m => by simp only [List.mem_append]; exact ⟨Or.inl, fun h => h.elim id (hsub m)⟩)
    (fun _ mods hm => dependencies_again hsub hm) hc1 h
  exact ⟨_, out', h2, h3, h4⟩

/-- Every item is there once, however often modules have been requested. -/
theorem C38_once (E : Env) (W : World) (fuel : Nat) (c : Codegen)
    (hc : ∀ m ∈ c.modules, ∃ f id, Module.parse E c.cfg W f id = .ok m) (out : List Module)
    (h : c.prepare E W fuel = .ok out) : ∀ m, InTree m out → ItemsOnce m := by
  obtain ⟨mods, h1, h⟩ := Res.bind_ok h
  obtain ⟨cn, h2, h⟩ := Res.bind_ok h
  cases h
  have hm : ∀ m ∈ mods, ∃ f id, Module.parse E c.cfg W f id = .ok m := by
    rcases ifOn_ok h1 with ⟨-, h1⟩ | ⟨-, rfl⟩
    · obtain ⟨deps, rfl, -, hd⟩ := C48_added E c.cfg W fuel c.modules mods h1
      intro m hm
      rcases List.mem_append.mp hm with hm | hm
      · exact hc m hm
      · obtain ⟨⟨id, n, d⟩, hd', rfl⟩ := List.mem_map.mp hm
        exact ⟨fuel, id, (hd id n d hd').1⟩
    · exact hc
  obtain ⟨ws, hw, rfl⟩ := canonicalize_ok h2
  have hws : ∀ x, InTree x ws → ItemsOnce x := by
    intro x hx
    obtain ⟨w, hwm, hx⟩ := inTree_mem hx
    obtain ⟨m, hmm, hmw⟩ := traverse_mem hw hwm
    rw [wrap_eq] at hmw
    obtain ⟨f, id, hp⟩ := hm m hmm
    rcases wrapFold_inTree hmw hx with hx | ⟨i, -, q, -, -, hs, -⟩
    · exact parse_tree (P := ItemsOnce) (fun _ _ _ h => parse_itemsOnce h) hp hx
    · have e : ∀ {α : Type} {l : List α}, (∀ a, a ∉ l) → l.Nodup := by
        intro α l hl
        cases l with
        | nil => exact List.nodup_nil
        | cons a l => exact absurd (by simp) (hl a)
      exact ⟨e fun a h => hs (.prelude a) h, e fun a h => hs (.import a) h, e fun a h => hs (.class a) h,
        e fun a h => hs (.typeVar a) h, e fun a h => hs (.function a) h, e fun a h => hs (.property a) h⟩
  have hmt := merge_itemsOnce E (depthList ws) ws hws
  intro m hmm
  cases hmm with
  | top hmm =>
    obtain ⟨k, hk, rfl⟩ := List.mem_map.mp hmm
    have := hmt k (.top hk)
    split
    · exact this
    · exact this
  | sub hn hmm =>
    obtain ⟨k, hk, rfl⟩ := List.mem_map.mp hn
    refine hmt m (.sub hk ?_)
    split at hmm
    · exact hmm
    · exact hmm

/-- `pkg` requested twice: `f`, `C` and `VALUE` are there once. -/
example : ((Codegen.new {}).moduleNames exEnv exWorld 5 [c!"pkg"] >>= fun c => c.moduleNames exEnv exWorld 5 [c!"pkg", c!"pkg"]
      >>= fun c => c.prepare exEnv exWorld 5).map (fun out => out.map fun m =>
        (m.functions.map (fun f => f.name.toPy), m.classes.map (fun f => f.name.toPy), m.submodules.length)) =
    .ok [([c!"pkg.f"], [c!"pkg.C"], 1)] := by decide +kernel

end Bindgen

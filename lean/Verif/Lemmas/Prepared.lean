import Verif.Lemmas.Generate
import Verif.Lemmas.Fuel
import Verif.Spec.Built
import Verif.Props.Tree
/-! # The modules of an engine -/
namespace Bindgen
open Spec

theorem parsed_inTree {E : Env} {cfg : Config} {W : World} {M x : Module} (h : Parsed E cfg W M) (hx : InTree x [M]) :
    Parsed E cfg W x := by
  obtain ⟨fuel, id, h⟩ := h
  exact parse_tree (P := Parsed E cfg W) (fun fuel id M h => ⟨_, _, h⟩) h hx

theorem module_ok {E : Env} {W : World} {fuel : Nat} {c c' : Codegen} {id : Nat} (h : c.module E W fuel id = .ok c') :
    ∃ m, Module.parse E c.cfg W fuel id = .ok m ∧ c' = { c with modules := c.modules ++ [m] } := by
  obtain ⟨m, hm, h⟩ := Res.bind_ok h
  cases h
  exact ⟨m, hm, rfl⟩

theorem moduleFromStr_ok {E : Env} {W : World} {fuel : Nat} {c c' : Codegen} {source name : Str}
    (h : c.moduleFromStr E W fuel source name = .ok c') :
    ∃ id m, W.fromCode source name = some id ∧ Module.parse E c.cfg W fuel id = .ok m ∧
      c' = { c with modules := c.modules ++ [m], embedded := c.embedded ++ [(name, source)] } := by
  unfold Codegen.moduleFromStr at h
  obtain ⟨id, h1, h⟩ := Res.bind_ok h
  obtain ⟨m, hm, rfl⟩ := module_ok h
  refine ⟨id, m, ?_, hm, rfl⟩
  cases hi : W.fromCode source name with
  | none => rw [hi] at h1; cases h1
  | some x => rw [hi] at h1; cases h1; rfl

/-- An engine made by builder calls holds parsed modules, and the sources in order. -/
structure BuiltOk (E : Env) (W : World) (cfg : Config) (srcs : List (Str × Str)) (c : Codegen) : Prop where
  config : c.cfg = cfg
  embedded : c.embedded = srcs
  parsed : ∀ m ∈ c.modules, Parsed E cfg W m

theorem BuiltOk.module {E : Env} {W : World} {cfg : Config} {fuel : Nat} {srcs : List (Str × Str)} {c c' : Codegen} {id : Nat}
    (b : BuiltOk E W cfg srcs c) (h : c.module E W fuel id = .ok c') : BuiltOk E W cfg srcs c' := by
  obtain ⟨m, hm, rfl⟩ := module_ok h
  refine ⟨b.config, b.embedded, fun x hx => ?_⟩
  rcases List.mem_append.mp hx with hx | hx
  · exact b.parsed x hx
  · rw [List.mem_singleton] at hx
    subst hx
    exact ⟨fuel, id, b.config ▸ hm⟩

theorem BuiltOk.moduleName {E : Env} {W : World} {cfg : Config} {fuel : Nat} {srcs : List (Str × Str)} {c c' : Codegen} {n : Str}
    (b : BuiltOk E W cfg srcs c) (h : c.moduleName E W fuel n = .ok c') : BuiltOk E W cfg srcs c' := by
  obtain ⟨id, h1, h⟩ := Res.bind_ok h
  exact b.module h

theorem built_ok {E : Env} {W : World} {cfg : Config} {fuel : Nat} {srcs : List (Str × Str)} {c : Codegen}
    (h : Built E W fuel cfg srcs c) : BuiltOk E W cfg srcs c := by
  induction h with
  | new => exact ⟨rfl, rfl, by simp [Codegen.new]⟩
  | module id _ h b => exact b.module h
  | moduleName n _ h b => exact b.moduleName h
  | moduleFromStr source name _ h b =>
    obtain ⟨id, m, -, hm, rfl⟩ := moduleFromStr_ok h
    refine ⟨b.config, by simp [b.embedded], fun x hx => ?_⟩
    rcases List.mem_append.mp hx with hx | hx
    · exact b.parsed x hx
    · rw [List.mem_singleton] at hx
      subst hx
      exact ⟨fuel, id, b.config ▸ hm⟩
  | addModules ids _ h b => exact foldRes_inv _ (fun _ _ _ _ (b : BuiltOk ..) h => b.module h) h b
  | moduleNames ns _ h b => exact foldRes_inv _ (fun _ _ _ _ (b : BuiltOk ..) h => b.moduleName h) h b

/-- The modules that enter canonicalisation are parsed. -/
theorem withDeps_parsed {E : Env} {W : World} {fuel : Nat} {cfg : Config} {ms mods : List Module}
    (hp : ∀ m ∈ ms, Parsed E cfg W m) (h : ifOn cfg.generateDependencies (parseDependencies E cfg W fuel ms) ms = .ok mods) :
    ∀ m ∈ mods, Parsed E cfg W m := by
  rcases ifOn_ok h with ⟨-, h⟩ | ⟨-, rfl⟩
  · obtain ⟨deps, rfl, -, hd⟩ := C48_added E cfg W fuel ms mods h
    intro m hm
    rcases List.mem_append.mp hm with hm | hm
    · exact hp m hm
    · obtain ⟨⟨id, n, k⟩, hk, rfl⟩ := List.mem_map.mp hm
      exact ⟨fuel, id, (hd id n k hk).1⟩
  · exact hp

/-- Every item of a prepared module is an item of a parsed module of the same name. -/
theorem prepared_has {E : Env} {W : World} {fuel : Nat} {c : Codegen} {out : List Module} (h : c.prepare E W fuel = .ok out)
    (hp : ∀ m ∈ c.modules, Parsed E c.cfg W m) {M : Module} (hM : InTree M out) {x : SItem} (hx : Has M x) :
    ∃ m, Parsed E c.cfg W m ∧ m.name = M.name ∧ Has m x := by
  obtain ⟨mods, h1, h⟩ := Res.bind_ok h
  obtain ⟨cn, h2, h⟩ := Res.bind_ok h
  cases h
  have hp := withDeps_parsed hp h1
  obtain ⟨ns, hns⟩ := inTree_nodeAt hM
  obtain ⟨y, hy, hyx⟩ := ((embed_same c.embedded cn).items _ x).mp ⟨M, hns, hx⟩
  have hn := nodeAt_name hy
  obtain ⟨m, hm, hmn, hmx⟩ := (C35_items_by_name E W mods cn h2 y.name x).mp ⟨y, nodeAt_inTree hy, rfl, hyx⟩
  obtain ⟨k, hk, hmk⟩ := inTree_mem hm
  refine ⟨m, parsed_inTree (hp k hk) hmk, ?_, hmx⟩
  rw [hmn]
  simpa using hn.symm

/-- A property that merging keeps holds everywhere after merging. -/
theorem merge_all (E : Env) {Q : Module → Prop} (hQ : ∀ fuel g, g ≠ [] → (∀ m ∈ g, Q m) → Q (mergeModules E fuel g))
    (fuel : Nat) (l : List Module) (hl : ∀ m, InTree m l → Q m) :
    ∀ M, InTree M (mergeDuplicates (mergeModules E fuel) l) → Q M := by
  induction fuel generalizing l with
  | zero =>
    intro M hM
    have key : ∀ N ∈ mergeDuplicates (mergeModules E 0) l, N ∈ l := by
      intro N hN
      obtain ⟨g, hg, rfl⟩ := mem_mergeDuplicates.mp hN
      obtain ⟨m, r, rfl, -⟩ := runs_name hg
      have : mergeRun (mergeModules E 0) (m :: r) = m := by cases r <;> rfl
      rw [this]
      exact mem_run hg (by simp)
    cases hM with
    | top h => exact hl M (.top (key _ h))
    | sub h h' => exact hl M (.sub (key _ h) h')
  | succ fuel ih =>
    intro M hM
    cases hM with
    | top h =>
      obtain ⟨g, hg, rfl⟩ := mem_mergeDuplicates.mp h
      obtain ⟨m, r, rfl, -⟩ := runs_name hg
      cases r with
      | nil => exact hl m (.top (mem_run hg (by simp)))
      | cons a r => exact hQ _ _ (by simp) fun x hx => hl x (.top (mem_run hg hx))
    | sub h h' =>
      obtain ⟨g, hg, rfl⟩ := mem_mergeDuplicates.mp h
      obtain ⟨m, r, rfl, -⟩ := runs_name hg
      cases r with
      | nil => exact hl M (.sub (n := m) (mem_run hg (by simp)) h')
      | cons a r => exact ih _ (fun x hx => hl x (inTree_flatMap (fun y hy => mem_run hg hy) hx)) M h'

theorem parse_source {E : Env} {cfg : Config} {W : World} {M : Module} (h : Parsed E cfg W M) : M.source = none := by
  obtain ⟨fuel, id, h⟩ := h
  cases fuel with
  | zero => exact absurd h parse_zero
  | succ fuel =>
    obtain ⟨p⟩ := parse_parts h
    exact p.source

/-- Before sources are embedded no module has one. -/
theorem canonical_source {E : Env} {W : World} {mods out : List Module} (h : canonicalize E W mods = .ok out)
    (hs : ∀ m, InTree m mods → m.source = none) : ∀ m, InTree m out → m.source = none := by
  obtain ⟨ws, hw, rfl⟩ := canonicalize_ok h
  refine merge_all E (fun fuel g hg hm => ?_) _ ws fun m hm => ?_
  · cases g with
    | nil => exact absurd rfl hg
    | cons a g => cases fuel <;> exact hm a (by simp)
  · obtain ⟨w, hwm, hx⟩ := inTree_mem hm
    obtain ⟨k, hk, hkw⟩ := traverse_mem hw hwm
    rw [wrap_eq] at hkw
    rcases wrapFold_inTree hkw hx with h | ⟨i, -, q, hq⟩
    · cases h with
      | top h => rw [List.mem_singleton] at h; subst h; exact hs m (.top hk)
      | sub h h' => rw [List.mem_singleton] at h; subst h; exact hs m (.sub hk h')
    · exact hq.2.2.2

/-- The prepared modules with a source: at the top level, under a name for which a source was given, the last one given. -/
theorem prepared_source {E : Env} {W : World} {fuel : Nat} {c : Codegen} {out : List Module} (h : c.prepare E W fuel = .ok out)
    (hp : ∀ m ∈ c.modules, Parsed E c.cfg W m) :
    (∀ m ∈ out, m.source = c.embedded.reverse.lookup m.name.toRs) ∧
      ∀ m ∈ out, ∀ x, InTree x m.submodules → x.source = none := by
  obtain ⟨mods, h1, h⟩ := Res.bind_ok h
  obtain ⟨cn, h2, h⟩ := Res.bind_ok h
  cases h
  have hs := canonical_source h2 fun m hm => by
    obtain ⟨k, hk, hmk⟩ := inTree_mem hm
    exact parse_source (parsed_inTree (withDeps_parsed hp h1 k hk) hmk)
  constructor
  · intro m hm
    obtain ⟨k, hk, rfl⟩ := List.mem_map.mp hm
    cases hl : c.embedded.reverse.lookup k.name.toRs with
    | none => simp only [hl]; exact hs k (.top hk)
    | some s => simp only [hl]
  · intro m hm x hx
    obtain ⟨k, hk, rfl⟩ := List.mem_map.mp hm
    refine hs x (.sub hk ?_)
    cases hl : c.embedded.reverse.lookup k.name.toRs with
    | none => simpa only [hl] using hx
    | some s => simpa only [hl] using hx

/-- In an ordinary world the name of a parsed module determines it. -/
theorem parsed_same {E : Env} {cfg : Config} {W : World} (hW : OrdinaryWorld W) (hu : UniqueNames W) {m m' : Module}
    (h : Parsed E cfg W m) (h' : Parsed E cfg W m') (hn : m.name = m'.name) : m = m' := by
  obtain ⟨fuel, id, h⟩ := h
  obtain ⟨fuel', id', h'⟩ := h'
  have key : ∀ {fuel id m}, Module.parse E cfg W fuel id = .ok m → Called W id m.name.toPy := by
    intro fuel id m h
    cases fuel with
    | zero => exact absurd h parse_zero
    | succ fuel =>
      obtain ⟨p⟩ := parse_parts h
      obtain ⟨segs, h1, h2, h3⟩ := hW id p.pm p.nm p.get p.pmName
      refine ⟨p.pm, p.get, ?_⟩
      have := toPy_fromPy E 0 h1 h2
      simp only [dotted, List.replicate_zero, List.nil_append] at this
      rw [p.name, p.pmName, h3, this]
  have := hu id id' _ (key h) (hn ▸ key h')
  subst this
  exact parse_unique h h'

/-- In an ordinary world a prepared module that is not empty has only items of the parsed module of its name. -/
theorem prepared_parsed {E : Env} {W : World} (hW : OrdinaryWorld W) (hu : UniqueNames W) {fuel : Nat} {c : Codegen}
    {out : List Module} (h : c.prepare E W fuel = .ok out)
    (hp : ∀ m ∈ c.modules, Parsed E c.cfg W m) {M : Module} (hM : InTree M out) {x : SItem} (hx : Has M x) :
    ∃ m, Parsed E c.cfg W m ∧ m.name = M.name ∧ ∀ y, Has M y → Has m y := by
  obtain ⟨m, h1, h2, -⟩ := prepared_has h hp hM hx
  refine ⟨m, h1, h2, fun y hy => ?_⟩
  obtain ⟨m', h1', h2', h3'⟩ := prepared_has h hp hM hy
  rw [parsed_same hW hu h1 h1' (h2.trans h2'.symm)]
  exact h3'

end Bindgen

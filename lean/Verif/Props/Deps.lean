import Verif.Lemmas.Deps
import Verif.Lemmas.ExampleWorld
/-!
# Dependencies: C48
-/
namespace Bindgen
open Spec

/-- The modules added are modules that external imports of the given modules come from, admitted by the configuration, no
two of them with the same name; the given modules stay in front. -/
theorem C48_added (E : Env) (cfg : Config) (W : World) (fuel : Nat) (mods out : List Module)
    (h : parseDependencies E cfg W fuel mods = .ok out) :
    ∃ deps : List (Nat × Str × Module), out = mods ++ deps.map (fun d => d.2.2) ∧ (deps.map (fun d => d.2.1)).Nodup ∧
      ∀ id n m, (id, n, m) ∈ deps → Module.parse E cfg W fuel id = .ok m ∧ Called W id n ∧ Admitted E cfg W id n ∧
        ∃ o, ImportedFrom mods o ∧ ComesFrom W o id := by
  obtain ⟨⟨seen, ms⟩, h1, h⟩ := Res.bind_ok h
  cases h
  obtain ⟨deps, e1, e2, e3, -⟩ := deps_fold h1
  refine ⟨deps, e1, e2, ?_⟩
  intro id n m hd
  obtain ⟨-, a2, a3, a4, o, ho, a5⟩ := e3 _ hd
  exact ⟨a4, a2, a3, o, origins_mem.mp ho, a5⟩

/-- If modules are identified by their names, these are all of them: a module is added iff it is admitted and an external
import of the given modules comes from it. What is missing: of several modules with one name only the first is added
(`C37_order_counterexample`), and `Admitted` takes the dotted name as one name, so that private modules of a package are
admitted (`C48_private_counterexample`). -/
theorem C48_exactly_partial (E : Env) (cfg : Config) (W : World) (hu : UniqueNames W) (fuel : Nat) (mods out : List Module)
    (h : parseDependencies E cfg W fuel mods = .ok out) :
    ∃ deps : List (Nat × Str × Module), out = mods ++ deps.map (fun d => d.2.2) ∧ (deps.map (fun d => d.2.1)).Nodup ∧
      (∀ id n m, (id, n, m) ∈ deps → Module.parse E cfg W fuel id = .ok m) ∧
      ∀ id n, (∃ m, (id, n, m) ∈ deps) ↔ Called W id n ∧ Admitted E cfg W id n ∧ ∃ o, ImportedFrom mods o ∧ ComesFrom W o id := by
  obtain ⟨⟨seen, ms⟩, h1, h⟩ := Res.bind_ok h
  cases h
  obtain ⟨deps, e1, e2, e3, e4⟩ := deps_fold h1
  refine ⟨deps, e1, e2, fun id n m hd => (e3 _ hd).2.2.2.1, ?_⟩
  intro id n
  constructor
  · rintro ⟨m, hd⟩
    obtain ⟨-, a2, a3, a4, o, ho, a5⟩ := e3 _ hd
    exact ⟨a2, a3, o, origins_mem.mp ho, a5⟩
  · rintro ⟨hn, ha, o, ho, hc⟩
    obtain ⟨id', n', b1, b2, b3⟩ := e4 o (origins_mem.mpr ho)
    have := comesFrom_unique hc b1
    subst this
    have := called_unique hn b2
    subst this
    rcases b3 with b3 | ⟨id2, o2, -, -, b4, bk, b5⟩
    · cases b3
    · have := hu _ _ _ hn b4
      subst this
      obtain ⟨⟨i, n2, m⟩, hd, rfl⟩ := b5 ha
      have := called_unique hn (e3 _ hd).2.1
      subst this
      exact ⟨m, hd⟩

/-- Adding dependencies succeeds iff every external import can be traced to a named module that a debug build does not reject and
which, if admitted, can be parsed. -/
theorem C48_succeeds_partial (E : Env) (cfg : Config) (W : World) (hu : UniqueNames W) (fuel : Nat) (mods : List Module) :
    (∃ out, parseDependencies E cfg W fuel mods = .ok out) ↔
      ∀ o, ImportedFrom mods o → ∃ id n, ComesFrom W o id ∧ Called W id n ∧ NotRejected E W id n ∧
        (Admitted E cfg W id n → ∃ d, Module.parse E cfg W fuel id = .ok d) := by
  constructor
  · rintro ⟨out, h⟩ o ho
    obtain ⟨⟨seen, ms⟩, h1, h⟩ := Res.bind_ok h
    obtain ⟨deps, e1, e2, e3, e4⟩ := deps_fold h1
    obtain ⟨id, n, b1, b2, b3⟩ := e4 o (origins_mem.mpr ho)
    rcases b3 with b3 | ⟨id2, o2, -, -, b4, bk, b5⟩
    · cases b3
    · have := hu _ _ _ b2 b4
      subst this
      refine ⟨id, n, b1, b2, bk, fun ha => ?_⟩
      obtain ⟨⟨i, n2, m⟩, hd, rfl⟩ := b5 ha
      exact ⟨m, (e3 _ hd).2.2.2.1⟩
  · intro h
    obtain ⟨st', hst⟩ := deps_exists (E := E) (cfg := cfg) (W := W) (fuel := fuel)
      (origins := unique ((externalImportsList mods).map Import.origin)) (fun o ho => h o (origins_mem.mp ho)) ([], mods)
    refine ⟨st'.2, ?_⟩
    unfold parseDependencies
    simp only
    rw [hst]
    rfl

/-- Without the option no module is added. -/
theorem C48_off (E : Env) (W : World) (fuel : Nat) (c : Codegen) (h : c.cfg.generateDependencies = false) :
    c.prepare E W fuel = (canonicalize E W c.modules >>= fun ms => .ok (embedSources c.embedded ms)) := by
  unfold Codegen.prepare ifOn
  rw [h]
  rfl

theorem exWorld_unique : UniqueNames exWorld := by
  rintro id id' n ⟨m, hm, hn⟩ ⟨m', hm', hn'⟩
  match id, id' with
  | 0, 0 | 1, 1 | 2, 2 => rfl
  | 0, 1 => cases hm; cases hm'; cases hn; cases hn'
  | 0, 2 => cases hm; cases hm'; cases hn; cases hn'
  | 1, 0 => cases hm; cases hm'; cases hn; cases hn'
  | 1, 2 => cases hm; cases hm'; cases hn; cases hn'
  | 2, 0 => cases hm; cases hm'; cases hn; cases hn'
  | 2, 1 => cases hm; cases hm'; cases hn; cases hn'
  | k + 3, _ => cases hm
  | _, k + 3 => cases hm'

/-- `pkg.sub` imports `h` from `other`, which is added. -/
example : (show Res (List Str) from do
    let m ← Module.parse exEnv {} exWorld 5 0
    let out ← parseDependencies exEnv {} exWorld 5 [m]
    return out.map (fun (m : Module) => m.name.toPy)) = .ok [c!"pkg", c!"other"] := by decide +kernel

/-- A package whose attribute `path` is the private module `dep._impl`, and a module with a function from there. -/
def exPrivateDep : World where
  mods := [
    { name := some c!"app", dir := [c!"f"], attrs := [(c!"f", { obj := { exFnObj c!"dep.path" with dunderName := some c!"f" } })] },
    { name := some c!"dep", dir := [c!"path"], attrs := [(c!"path", { obj := exModObj, mod := some 2 })] },
    { name := some c!"dep._impl", dir := [c!"f"], attrs := [(c!"f", { obj := exFnObj c!"dep.path" })] }]
  importMod s := if s = c!"app" then some 0 else if s = c!"dep" then some 1 else none

/-- The dotted name of a dependency is checked as one name: a private module of a package is not held back. -/
theorem C48_private_counterexample :
    (show Res (List Str) from do
      let m ← Module.parse exEnv {} exPrivateDep 5 0
      let out ← parseDependencies exEnv {} exPrivateDep 5 [m]
      return out.map (fun (m : Module) => m.name.toPy)) = .ok [c!"app", c!"dep._impl"] ∧
    ({} : Config).isAttrAllowed (Ident.fromPy exEnv c!"_impl") (Path.fromPy exEnv c!"dep") = false := by decide +kernel

end Bindgen

import Verif.Lemmas.Order
import Verif.Props.Submodules
/-!
# The order of hash sets: C57
-/
namespace Bindgen
open Spec

/-! ## C57 -/

/-- Parsing a module in another iteration order yields the same items and modules at the same places, unless it panics; in
particular it does not end with an error. -/
theorem C57_parse (E E' : Env) (h : SameButOrder E E') (cfg : Config) (W : World) (fuel id : Nat) (M : Module)
    (hM : Module.parse E cfg W fuel id = .ok M) :
    (∃ p, Module.parse E' cfg W fuel id = .error (.panic p)) ∨
      ∃ M', Module.parse E' cfg W fuel id = .ok M' ∧ SameTree [M] [M'] := parse_order fuel h id M hM

/-- If the modules to generate can be determined in both orders, they hold the same items at the same places, are the same
modules, and have the same top level in the same order.  Missing to the full property: a statement about the generated code
(in which the same annotation can be resolved differently, `C57_types_counterexample`), and that success in one order
implies success in the other (false: `C57_panic_counterexample`). -/
theorem C57_tree_partial (E E' : Env) (h : SameButOrder E E') (W : World) (hW : OrdinaryWorld W) (hu : UniqueNames W) (fuel : Nat)
    (cfg : Config) (names : List Str) (c c' : Codegen) (out out' : List Module)
    (hc : (Codegen.new cfg).moduleNames E W fuel names = .ok c) (hc' : (Codegen.new cfg).moduleNames E' W fuel names = .ok c')
    (ho : c.prepare E W fuel = .ok out) (ho' : c'.prepare E' W fuel = .ok out') : SameTree out out' := by
  obtain ⟨a1, -, d1⟩ := moduleNames_modules hc
  obtain ⟨a2, -, d2⟩ := moduleNames_modules hc'
  have key : ∀ {E E' : Env}, SameButOrder E E' → ∀ {c c' : Codegen}, (∀ m, m ∈ c.modules ↔ m ∈ (Codegen.new cfg).modules ∨
      ∃ n ∈ names, ∃ id, W.importMod n = some id ∧ Module.parse E cfg W fuel id = .ok m) →
      (Codegen.new cfg).moduleNames E' W fuel names = .ok c' → Covers c.modules c'.modules := by
    intro E E' h c c' d hc' m hm
    obtain ⟨-, -, d'⟩ := moduleNames_modules hc'
    rcases (d m).mp hm with h0 | ⟨n, hn, id, hi, hp⟩
    · cases h0
    · obtain ⟨id', m', hi', hp'⟩ := moduleNames_iff.mp ⟨c', hc'⟩ n hn
      rw [hi] at hi'
      cases hi'
      exact ⟨m', (d' m').mpr (Or.inr ⟨n, hn, id, hi, hp'⟩), order_covers h hp hp'⟩
  have k1 : Covers c.modules c'.modules := key h d1 hc'
  have k2 : Covers c'.modules c.modules := key h.symm d2 hc
  obtain ⟨mods, e1, ho⟩ := Res.bind_ok ho
  obtain ⟨cn, e2, ho⟩ := Res.bind_ok ho
  cases ho
  obtain ⟨mods', e1', ho'⟩ := Res.bind_ok ho'
  obtain ⟨cn', e2', ho'⟩ := Res.bind_ok ho'
  cases ho'
  have ho : ∀ m ∈ mods, OrdinaryName E m.name := by
    refine prepared_ordinary hW (fun m hm => ?_) e1
    rcases (d1 m).mp hm with h0 | ⟨n, -, id, -, hp⟩
    · cases h0
    · exact parse_ordinary hW hp (.top (by simp))
  have : Covers mods mods' ∧ Covers mods' mods := by
    rw [a1] at e1
    rw [a2] at e1'
    rcases ifOn_ok e1 with ⟨hb, e1⟩ | ⟨hb, rfl⟩
    · rcases ifOn_ok e1' with ⟨-, e1'⟩ | ⟨hb', -⟩
      · exact ⟨deps_covers h hu k1 e1 e1', deps_covers h.symm hu k2 e1' e1⟩
      · rw [hb] at hb'; cases hb'
    · rcases ifOn_ok e1' with ⟨hb', -⟩ | ⟨-, rfl⟩
      · rw [hb] at hb'; cases hb'
      · exact ⟨k1, k2⟩
  exact ((embed_same _ _).trans (canonical_covers h this.1 this.2 ho e2 e2')).trans (embed_same _ _).symm

/-- The environment of the examples with the opposite iteration order. -/
def exEnvRev : Env := { exEnv with
  setOrder := fun l => (nubGo l).reverse
  set_nodup := fun l => List.nodup_reverse.mpr (exEnv.set_nodup l)
  set_mem := fun l a => List.mem_reverse.trans (exEnv.set_mem l a) }

theorem exEnvRev_same : SameButOrder exEnv exEnvRev := ⟨rfl, rfl, rfl, rfl, rfl⟩

/-- In the package `pkg` the module `pkg.m` has `t = pkg.a` and `def f(x: 't.X')`; `pkg.a` has `X` from `pkg.a.c`, and
`pkg.a.d` has its own `X`. -/
def exTwoTypesWorld : World where
  mods := [
    { name := some c!"pkg", isPackage := true, iterModules := some [c!"a", c!"m"] },
    { name := some c!"pkg.a", isPackage := true, iterModules := some [c!"c", c!"d"], dir := [c!"X"],
      attrs := [(c!"X", { obj := { exClsObj c!"pkg.a.c" with dunderName := some c!"X" } })] },
    { name := some c!"pkg.a.c", dir := [c!"X"], attrs := [(c!"X", { obj := exClsObj c!"pkg.a.c" })] },
    { name := some c!"pkg.a.d", dir := [c!"X"], attrs := [(c!"X", { obj := exClsObj c!"pkg.a.d" })] },
    { name := some c!"pkg.m", dir := [c!"t", c!"f"],
      attrs := [(c!"t", { obj := { exModObj with dunderName := some c!"pkg.a" }, mod := some 1 }),
        (c!"f", { obj := { exFnObj c!"pkg.m" with
          fn := ⟨some c!"None", some ⟨[⟨c!"x", .positionalOrKeyword, some (.str c!"t.X"), false⟩], none⟩, none⟩ } })] }]
  importMod s := if s = c!"pkg" then some 0 else if s = c!"pkg.a" then some 1 else if s = c!"pkg.a.c" then some 2
    else if s = c!"pkg.a.d" then some 3 else if s = c!"pkg.m" then some 4 else none

/-- The functions of the generated module at this place. -/
def exFnsAt : List Str → List Item → List Fn
  | [], items => items.filterMap fun (x : Item) => match x with
    | .func f => some f
    | _ => none
  | n :: ns, items => items.flatMap fun (x : Item) => match x with
    | .mod _ _ m is => if m = n then exFnsAt ns is else []
    | _ => []

/-- Parameters of the functions of `pkg.m` in the bindings of `pkg`. -/
def exTwoTypes (E : Env) : Res (List (List (Str × RsTy))) :=
  ((Codegen.new {}).moduleNames E exTwoTypesWorld 5 [c!"pkg"] >>= fun c => c.generate E exTwoTypesWorld 5).map
    (fun is => (exFnsAt [c!"pkg", c!"m"] is).map (fun f => f.sig.params))

theorem exTwoTypesWorld_ordinary : OrdinaryWorld exTwoTypesWorld := by
  intro id m n hm hn
  match id with
  | 0 => cases hm; cases hn; exact ⟨[c!"pkg"], by decide, by unfold PySegment; decide, rfl⟩
  | 1 => cases hm; cases hn; exact ⟨[c!"pkg", c!"a"], by decide, by unfold PySegment; decide, rfl⟩
  | 2 => cases hm; cases hn; exact ⟨[c!"pkg", c!"a", c!"c"], by decide, by unfold PySegment; decide, rfl⟩
  | 3 => cases hm; cases hn; exact ⟨[c!"pkg", c!"a", c!"d"], by decide, by unfold PySegment; decide, rfl⟩
  | 4 => cases hm; cases hn; exact ⟨[c!"pkg", c!"m"], by decide, by unfold PySegment; decide, rfl⟩
  | k + 5 => cases hm

theorem exTwoTypesWorld_unique : UniqueNames exTwoTypesWorld := by
  rintro id id' n ⟨m, h1, h2⟩ ⟨m', h1', h2'⟩
  have hlt : ∀ {i : Nat} {x : PyMod}, exTwoTypesWorld.get? i = some x → i < 5 := by
    intro i x h
    match i with
    | 0 | 1 | 2 | 3 | 4 => omega
    | k + 5 => cases h
  have a := hlt h1
  have b := hlt h1'
  have key : ∀ i < 5, ∀ j < 5, (exTwoTypesWorld.get? i).bind PyMod.name = (exTwoTypesWorld.get? j).bind PyMod.name → i = j := by
    decide
  refine key id a id' b ?_
  rw [h1, h1']
  simp [h2, h2']

/-- The hypotheses of `C57_tree_partial`, with a world in which the two orders yield modules in a different order. -/
example : SameButOrder exEnv exEnvRev ∧ OrdinaryWorld exTwoTypesWorld ∧ UniqueNames exTwoTypesWorld ∧
    ((Codegen.new {}).moduleNames exEnv exTwoTypesWorld 5 [c!"pkg"] >>= fun c => c.prepare exEnv exTwoTypesWorld 5).map
      (fun out => (out.flatMap Module.submodules).map (fun m => m.name.toPy)) = .ok [c!"pkg.a", c!"pkg.m"] ∧
    ((Codegen.new {}).moduleNames exEnvRev exTwoTypesWorld 5 [c!"pkg"] >>= fun c => c.prepare exEnvRev exTwoTypesWorld 5).map
      (fun out => (out.flatMap Module.submodules).map (fun m => m.name.toPy)) = .ok [c!"pkg.m", c!"pkg.a"] :=
  ⟨exEnvRev_same, exTwoTypesWorld_ordinary, exTwoTypesWorld_unique, by decide +kernel, by decide +kernel⟩

/-- Which class an annotation through a module alias denotes depends on the iteration order: `t.X` is `pkg.a.d.X` in one and
`pkg.a.c.X` in the other. -/
theorem C57_types_counterexample :
    exTwoTypes exEnv = .ok [[(c!"p_x", .ref (.boundLocal ⟨false, [⟨c!"super"⟩, ⟨c!"a"⟩, ⟨c!"d"⟩, ⟨c!"X"⟩]⟩))]] ∧
    exTwoTypes exEnvRev = .ok [[(c!"p_x", .ref (.boundLocal ⟨false, [⟨c!"super"⟩, ⟨c!"a"⟩, ⟨c!"c"⟩, ⟨c!"X"⟩]⟩))]] :=
  ⟨by decide +kernel, by decide +kernel⟩

/-- The attribute `run` of `pkg` hides the subpackage `pkg.run`, one submodule of which raises when its documentation is read
while another has no name. -/
def exPanicWorld : World where
  mods := [exShadowPkg c!"pkg.run",
    { name := some c!"pkg.run", isPackage := true, iterModules := some [c!"u", c!"v"] },
    { name := some c!"pkg.run.u", doc := none }, { name := none }]
  importMod s := if s = c!"pkg" then some 0 else if s = c!"pkg.run" then some 1 else if s = c!"pkg.run.u" then some 2
    else if s = c!"pkg.run.v" then some 3 else none

/-- Whether parsing succeeds depends on the iteration order. -/
theorem C57_panic_counterexample :
    (∃ M, Module.parse exEnv {} exPanicWorld 5 0 = .ok M) ∧
    Module.parse exEnvRev {} exPanicWorld 5 0 = .error (.panic .unwrap) := by
  constructor
  · have h : (Module.parse exEnv {} exPanicWorld 5 0).toOption.isSome = true := by decide +kernel
    cases hm : Module.parse exEnv {} exPanicWorld 5 0 with
    | ok M => exact ⟨M, rfl⟩
    | error e => rw [hm] at h; cases h
  · have h : (match Module.parse exEnvRev {} exPanicWorld 5 0 with
      | .error (.panic .unwrap) => true
      | _ => false) = true := by decide +kernel
    split at h
    · assumption
    · cases h

end Bindgen

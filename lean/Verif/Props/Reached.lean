import Verif.Spec.Kinds
import Verif.Props.Submodules
import Verif.Props.OutputAccessors
import Verif.Props.Imports
import Verif.Props.Eval
import Verif.Props.WorldScopes
import Verif.Spec.Faithful
/-!
# The modules that a request reaches
-/
namespace Bindgen
open Spec

/-- An attribute called `x` of the module `nm` that is not taken for an import: the submodule of this name, something the module itself
or another function defines, or a value that is neither a module nor a class nor a function nor a method. -/
inductive Spec.NotImported (nm x : Str) (o : PyObj) : Prop
  | submodule : o.isModule = true → o.modPath = [] → o.dunderName = some (nm ++ '.' :: x) → NotImported nm x o
  | own : o.modPath = nm → NotImported nm x o
  | inner : c!"<locals>" <:+: o.repr → NotImported nm x o
  | value : o.isModule = false → o.isClass = false → o.isFunction ≠ some true → o.isMethod ≠ some true → NotImported nm x o

/-- The module is the one called `id0`, or a submodule of a module that is reached: the package lists it, the configuration allows it, it
can be imported under its name, and no import has this name. -/
inductive Spec.Reaches (E : Env) (cfg : Config) (W : World) (id0 : Nat) : Nat → Prop
  | self : Reaches E cfg W id0 id0
  | sub (id id' : Nat) (pm : PyMod) (segs l : List Str) (x : Str) : Reaches E cfg W id0 id → cfg.traverseSubmodules = true →
      W.get? id = some pm → pm.name = some (Str.join c!"." segs) → segs ≠ [] → (∀ s ∈ segs, PyIdent E s) → pm.isPackage = true →
      pm.iterModules = some l → x ∈ l → PyIdent E x → Allowed cfg x segs →
      (∀ a, pm.getattr x = some a → NotImported (Str.join c!"." segs) x a.obj) →
      W.importMod (Str.join c!"." (segs ++ [x])) = some id' → Called W id' (Str.join c!"." (segs ++ [x])) → Reaches E cfg W id0 id'

/-- One of the names requests a module from which this one is reached. -/
def Spec.Reached (E : Env) (cfg : Config) (W : World) (names : List Str) (id : Nat) : Prop :=
  ∃ n ∈ names, ∃ id0, W.importMod n = some id0 ∧ Reaches E cfg W id0 id

theorem Spec.Reached.request {E : Env} {cfg : Config} {W : World} {names : List Str} {n : Str} {id : Nat} (hn : n ∈ names)
    (hi : W.importMod n = some id) : Reached E cfg W names id := ⟨n, hn, id, hi, .self⟩

theorem packages_child {segs : List Ident} (hne : segs ≠ []) (i : Ident) :
    packages ⟨false, segs ++ [i]⟩ = packages ⟨false, segs⟩ ++ [⟨false, segs⟩] := by
  have hpos : 0 < segs.length := List.length_pos_iff.mpr hne
  unfold packages
  simp only [List.length_append, List.length_singleton, Nat.add_sub_cancel]
  obtain ⟨n, hn⟩ : ∃ n, segs.length = n + 1 := ⟨segs.length - 1, by omega⟩
  rw [hn, Nat.add_sub_cancel, List.range_succ, List.map_append, List.map_singleton]
  congr 1
  · refine List.map_congr_left fun j hj => ?_
    rw [List.mem_range] at hj
    rw [List.take_append_of_le_length (by omega)]
  · rw [List.take_append_of_le_length (by omega), ← hn, List.take_length]

theorem parse_name {E : Env} {cfg : Config} {W : World} {fuel id : Nat} {m : Module} (h : Module.parse E cfg W fuel id = .ok m)
    {pm : PyMod} {segs : List Str} (hp : W.get? id = some pm) (hname : pm.name = some (Str.join c!"." segs)) (hne : segs ≠ [])
    (hs : ∀ s ∈ segs, PyIdent E s) : m.name = ⟨false, segs.map (Ident.fromPy E)⟩ := by
  cases fuel with
  | zero => exact absurd h parse_zero
  | succ fuel =>
    obtain ⟨p⟩ := parse_parts h
    have hpm := p.get
    rw [hp] at hpm
    cases hpm
    have hnm := p.pmName
    rw [hname] at hnm
    rw [p.name, ← Option.some.inj hnm]
    exact fromPy_join E hne fun s h => (hs s h).1

theorem not_importsFrom {E : Env} {cfg : Config} {segs : List Str} (hne : segs ≠ []) (hs : ∀ s ∈ segs, PyIdent E s) {x : Str}
    (hx : PyIdent E x) {a : PyAttr} (ha : NotImported (Str.join c!"." segs) x a.obj) (o : Path) :
    ¬ ImportsFrom E cfg ⟨false, segs.map (Ident.fromPy E)⟩ (Ident.fromPy E x) a o := by
  intro h
  have hv := h.variant
  have key : ∀ f g, a.obj.isFunction = some f → a.obj.isMethod = some g →
      (Str.containsSub c!"<locals>" a.obj.repr = true ∨ Path.fromPy E a.obj.modPath = ⟨false, segs.map (Ident.fromPy E)⟩ ∨
        (a.obj.isModule = false ∧ a.obj.isClass = false ∧ f = false ∧ g = false)) → False := by
    intro f g hf hg hor
    unfold determine at hv
    obtain ⟨_, -, hv⟩ := Res.bind_ok hv
    simp only [hf, hg, Res.orErr, Res.ok_bind, Res.pure_eq, Except.ok.injEq] at hv
    rw [if_neg] at hv
    · repeat' split at hv
      all_goals cases hv
    · rcases hor with h | h | ⟨h1, h2, rfl, rfl⟩
      · rw [h]; simp
      · rw [h]; simp
      · rw [h1, h2]; simp
  have hfacts : ∃ f g, a.obj.isFunction = some f ∧ a.obj.isMethod = some g := by
    unfold determine at hv
    obtain ⟨_, -, hv⟩ := Res.bind_ok hv
    obtain ⟨f, hf, hv⟩ := Res.bind_ok hv
    obtain ⟨g, hg, hv⟩ := Res.bind_ok hv
    refine ⟨f, g, ?_, ?_⟩
    · cases hy : a.obj.isFunction with
      | none => rw [hy] at hf; cases hf
      | some y => rw [hy] at hf; cases hf; rfl
    · cases hy : a.obj.isMethod with
      | none => rw [hy] at hg; cases hg
      | some y => rw [hy] at hg; cases hg; rfl
  obtain ⟨f, g, hf, hg⟩ := hfacts
  cases ha with
  | submodule h1 h2 h3 =>
    refine h.moved ?_
    rw [h.path, h2, h3]
    have hj : Str.join c!"." segs ++ '.' :: x = Str.join c!"." (segs ++ [x]) := by
      rw [join_append _ hne]; simp [Str.join]
    rw [Option.getD_some, hj, fromPy_join E (by simp) fun y hy => ?_]
    · simp [child, Path.fromPy, Path.empty]
    · rcases mem_snoc.mp hy with hy | rfl
      · exact (hs y hy).1
      · exact hx.1
  | own h1 => exact key f g hf hg (Or.inr (Or.inl (by rw [h1]; exact fromPy_join E hne fun s h => (hs s h).1)))
  | inner h1 => exact key f g hf hg (Or.inl ((containsSub_iff _ _).mpr h1))
  | value h1 h2 h3 h4 =>
    refine key f g hf hg (Or.inr (Or.inr ⟨h1, h2, ?_, ?_⟩))
    · rw [hf] at h3; simpa using h3
    · rw [hg] at h4; simpa using h4

/-- A module that is reached from a parsed one is in its tree, at the place that its name says. -/
theorem reaches_node {E : Env} {cfg : Config} {W : World} {fuel id0 id : Nat} {root : Module}
    (h : Module.parse E cfg W fuel id0 = .ok root) (hr : Reaches E cfg W id0 id) :
    ∃ m ns, Module.parse E cfg W fuel id = .ok m ∧ NodeAt [root] ns m ∧ packages root.name ++ ns = packages m.name ++ [m.name] := by
  suffices hk : ∃ fuel' m ns, fuel' ≤ fuel ∧ Module.parse E cfg W fuel' id = .ok m ∧ NodeAt [root] ns m ∧
      packages root.name ++ ns = packages m.name ++ [m.name] by
    obtain ⟨fuel', m, ns, hle, hm, h⟩ := hk
    exact ⟨m, ns, parse_fuel_le hm hle, h⟩
  induction hr with
  | self => exact ⟨fuel, root, [root.name], Nat.le_refl _, h, ⟨by simp, rfl⟩, rfl⟩
  | sub id id' pm segs l x _ ht hget hname hne hs hpk hit hxl hx hal hno him hcal ih =>
    obtain ⟨fuel', m, ns, hle, hm, hn, hns⟩ := ih
    cases fuel' with
    | zero => exact absurd hm parse_zero
    | succ fuel' =>
      have hmn := parse_name hm hget hname hne hs
      have hseg : ∀ s ∈ segs ++ [x], PyIdent E s := by
        intro y hy
        rcases mem_snoc.mp hy with hy | rfl
        · exact hs y hy
        · exact hx
      have hmap : (segs.map (Ident.fromPy E)).map Ident.asPy = segs := by
        rw [List.map_map]
        conv_rhs => rw [← List.map_id segs]
        exact List.map_congr_left fun s h => asPy_ident (hs s h).2
      have hchild : child m.name (Ident.fromPy E x) = Path.fromPy E (Str.join c!"." (segs ++ [x])) := by
        rw [fromPy_join E (by simp) fun y hy => (hseg y hy).1, hmn]
        simp [child]
      obtain ⟨s, hsm, hps⟩ := C58_complete E cfg W fuel' id m pm hm hget ht (Ident.fromPy E x)
        ⟨hpk, ⟨l, hit, x, hxl, rfl⟩, by rw [hmn, hmap, asPy_ident hx.2]; exact hal⟩
        (fun a o ha => by
          rw [hmn]
          rw [asPy_ident hx.2] at ha
          exact not_importsFrom hne hs hx (hno a ha) o)
        id' (Or.inl (by
          rw [hchild, DottedName.roundtrip E (Or.inr ⟨segs ++ [x], by simp, fun y hy => (hseg y hy).1, rfl⟩)]
          exact him))
      obtain ⟨pm', hp', hn'⟩ := hcal
      have hsn := parse_name hps hp' hn' (by simp) hseg
      refine ⟨fuel', s, ns ++ [s.name], by omega, hps, nodeAt_snoc hn hsm, ?_⟩
      rw [← List.append_assoc, hns, hsn, List.map_append, List.map_singleton, packages_child (by simpa using hne), hmn]

/-- The nested modules that spell the name of a module that is reached hold the content of a module that has its items. -/
theorem reached_content {E : Env} {W : World} {fuel : Nat} {c c1 : Codegen} {names : List Str} {items : List Item}
    (h1 : c.moduleNames E W fuel names = .ok c1) (h2 : c1.generate E W fuel = .ok items)
    {id : Nat} (hr : Reached E c.cfg W names id) {pm : PyMod} {segs : List Str}
    (hp : W.get? id = some pm) (hname : pm.name = some (Str.join c!"." segs)) (hne : segs ≠ [])
    (hs : ∀ s ∈ segs, PyIdent E s) (ht : c.cfg.traverseSubmodules = true ∨ segs.length = 1) :
    ∃ m idents content out M ts own, Module.parse E c.cfg W fuel id = .ok m ∧ m.name = ⟨false, segs.map (Ident.fromPy E)⟩ ∧
      ModChain items idents content ∧ idents.map unraw = segs ∧ c1.prepare E W fuel = .ok out ∧ InTree M out ∧ M.name = m.name ∧
      (∀ x, Has m x → Has M x) ∧ Module.content E c.cfg W.importable out ts M = .ok own ∧ (∀ x ∈ own, x ∈ content) ∧
      c1.cfg = c.cfg := by
  obtain ⟨hcfg, -, hmods⟩ := moduleNames_modules h1
  obtain ⟨n, hn, id0, hi, hr⟩ := hr
  obtain ⟨id', root, hi', hroot⟩ := (moduleNames_iff.mp ⟨c1, h1⟩) n hn
  rw [hi] at hi'
  cases hi'
  obtain ⟨m, ns, hm, hnode, hns⟩ := reaches_node hroot hr
  have hmn := parse_name hm hp hname hne hs
  have hmem := (hmods root).mpr (Or.inr ⟨n, hn, id0, hi, hroot⟩)
  obtain ⟨idents, content, g1, g2, out, M, ts, own, g3, g4, g5, g6, -, g7, g8⟩ := inner_content h2 hmem hnode hns
    (by rw [hcfg, hmn]; simpa using ht)
  refine ⟨m, idents, content, out, M, ts, own, hm, hmn, g1, ?_, g3, g4, g5, g6, hcfg ▸ g7, g8, hcfg⟩
  rw [hmn] at g2
  simp only at g2
  rw [List.forall₂_map_left_iff] at g2
  clear g1 hmn hname ht hne hm
  induction g2 with
  | nil => rfl
  | @cons a b l l' h1 h2 ih =>
    rw [List.map_cons, ih fun s h => hs s (List.mem_cons_of_mem _ h), toSyn_unraw (hs a (by simp)).2 h1]

end Bindgen

import Verif.Lemmas.NoPanic
import Verif.Lemmas.Fuel
import Verif.Props.Submodules
import Verif.Props.Panics
import Verif.Props.Live
import Verif.Model.Session
/-!
# C63: parsing ends
-/
namespace Bindgen
open Spec

/-- The attribute called `i` is a module that belongs to the module called `name` (its `__module__` is `name`, or its text mentions
`<locals>`), and the configuration allows it. -/
def Spec.OwnModule (E : Env) (cfg : Config) (pm : PyMod) (name : Path) (i : Ident) : Prop :=
  ∃ s ∈ pm.dir, ∃ a, i = Ident.fromPy E s ∧ pm.getattr i.asPy = some a ∧ a.obj.isModule = true ∧
    Allowed cfg i.asPy ((Path.fromPy E a.obj.modPath).segs.map Ident.asPy) ∧
    (Path.fromPy E a.obj.modPath = name ∨ Str.containsSub c!"<locals>" a.obj.repr = true)

/-- The module `id'` is what the interpreter gives for a submodule of the module `id`: one that the package lists, or an
attribute that is a module of its own. -/
def Spec.Descends (E : Env) (cfg : Config) (W : World) (id id' : Nat) : Prop :=
  ∃ pm n i, W.get? id = some pm ∧ pm.name = some n ∧
    (Listed E cfg pm (Path.fromPy E n) i ∨ OwnModule E cfg pm (Path.fromPy E n) i) ∧ Loads W pm (Path.fromPy E n) i id'

/-- From `a`, the relation can be followed forever. -/
def Spec.Endless {α : Type} (R : α → α → Prop) (a : α) : Prop := ∃ f : Nat → α, f 0 = a ∧ ∀ k, R (f k) (f (k + 1))

theorem endless_of_not_acc {α : Type} {R : α → α → Prop} {a : α} (h : ¬ Acc (fun x y => R y x) a) : Endless R a := by
  have step : ∀ x : { x // ¬ Acc (fun x y => R y x) x }, ∃ y : { x // ¬ Acc (fun x y => R y x) x }, R x.1 y.1 := by
    intro ⟨x, hx⟩
    by_contra hc
    refine hx (Acc.intro x fun y hy => ?_)
    by_contra hny
    exact hc ⟨⟨y, hny⟩, hy⟩
  choose g hg using step
  refine ⟨fun k => (Nat.rec (⟨a, h⟩ : { x // ¬ Acc (fun x y => R y x) x }) (fun _ x => g x) k : { x // ¬ Acc (fun x y => R y x) x }).1, rfl, fun k => hg _⟩

theorem determine_own {E : Env} {o : PyObj} {p q : Path} (h : determine E o p q true = .ok .module) :
    p = q ∨ Str.containsSub c!"<locals>" o.repr = true := by
  have hm := determine_module h
  unfold determine at h
  obtain ⟨_, -, h⟩ := Res.bind_ok h
  obtain ⟨f, -, h⟩ := Res.bind_ok h
  obtain ⟨g, -, h⟩ := Res.bind_ok h
  have h := Except.ok.inj h
  split at h
  · cases h
  · rename_i hi
    by_contra hc
    rw [not_or] at hc
    apply hi
    simp [hm, hc.1, hc.2]

theorem own_of_subs {E : Env} {cfg : Config} {pm : PyMod} {name : Path} {subs : List Ident} {st : ParseState}
    (h : ifOn pm.isPackage (extractSubmodules E cfg pm name) [] = .ok subs)
    (h' : foldRes (moduleStep E cfg name) { subs := subs } (moduleCandidates E cfg pm) = .ok st)
    {i : Ident} (hi : i ∈ st.subs) : Listed E cfg pm name i ∨ OwnModule E cfg pm name i := by
  rcases (attributes_subs h').2 i hi with hi | ⟨x, hx, rfl, hd⟩
  · exact Or.inl ((extracted_subs h).mp hi)
  · obtain ⟨h1, h2, h3⟩ := mem_candidates hx
    obtain ⟨s, hs, h1⟩ := List.mem_map.mp h1
    exact Or.inr ⟨s, hs, x.2, h1.symm, h2, determine_module hd, (C08_filter_iff _ _ _).mp h3, determine_own hd⟩

theorem loads_unique {W : World} {pm : PyMod} {name : Path} {i : Ident} {id id' : Nat} (h : Loads W pm name i id)
    (h' : Loads W pm name i id') : id = id' := by
  rcases h with h | ⟨h, a, ha, hm⟩ <;> rcases h' with h' | ⟨h', a', ha', hm'⟩
  · rw [h] at h'; exact Option.some.inj h'
  · rw [h] at h'; cases h'
  · rw [h] at h'; cases h'
  · rw [ha] at ha'; cases ha'; rw [hm] at hm'; exact Option.some.inj hm'

/-- The names of possible submodules are finitely many. -/
theorem descends_finite (E : Env) (cfg : Config) (W : World) (id : Nat) (P : Nat → Nat → Prop)
    (h : ∀ id', Descends E cfg W id id' → ∃ b, ∀ fuel ≥ b, P fuel id') : ∃ b, ∀ id', Descends E cfg W id id' → ∀ fuel ≥ b, P fuel id' := by
  cases hg : W.get? id with
  | none => exact ⟨0, fun id' ⟨pm, n, i, h1, _⟩ => by rw [hg] at h1; cases h1⟩
  | some pm =>
    cases hn : pm.name with
    | none => exact ⟨0, fun id' ⟨pm', n, i, h1, h2, _⟩ => by rw [hg] at h1; cases h1; rw [hn] at h2; cases h2⟩
    | some n =>
      have key : ∀ l : List Ident, ∃ b, ∀ i ∈ l, ∀ id', Loads W pm (Path.fromPy E n) i id' → Descends E cfg W id id' →
          ∀ fuel ≥ b, P fuel id' := by
        intro l
        induction l with
        | nil => exact ⟨0, fun i hi => absurd hi List.not_mem_nil⟩
        | cons i l ih =>
          obtain ⟨b, hb⟩ := ih
          by_cases hc : ∃ id', Loads W pm (Path.fromPy E n) i id' ∧ Descends E cfg W id id'
          · obtain ⟨id0, hl, hd⟩ := hc
            obtain ⟨b0, hb0⟩ := h id0 hd
            refine ⟨max b b0, fun j hj id' hl' hd' fuel hf => ?_⟩
            rcases List.mem_cons.mp hj with rfl | hj
            · rw [loads_unique hl' hl]
              exact hb0 fuel (by omega)
            · exact hb j hj id' hl' hd' fuel (by omega)
          · refine ⟨b, fun j hj id' hl' hd' fuel hf => ?_⟩
            rcases List.mem_cons.mp hj with rfl | hj
            · exact absurd ⟨id', hl', hd'⟩ hc
            · exact hb j hj id' hl' hd' fuel hf
      obtain ⟨b, hb⟩ := key ((pm.iterModules.getD []).map (Ident.fromPy E) ++ pm.dir.map (Ident.fromPy E))
      refine ⟨b, fun id' hd => ?_⟩
      have hd' := hd
      obtain ⟨pm', n', i, h1, h2, h3, h4⟩ := hd'
      rw [hg] at h1
      cases h1
      rw [hn] at h2
      cases h2
      refine hb i ?_ id' h4 hd
      rw [List.mem_append]
      rcases h3 with ⟨-, ⟨l, hl, s, hs, rfl⟩, -⟩ | ⟨s, hs, a, rfl, -⟩
      · exact Or.inl (by rw [hl]; exact List.mem_map.mpr ⟨s, hs, rfl⟩)
      · exact Or.inr (List.mem_map.mpr ⟨s, hs, rfl⟩)

theorem not_deep {α : Type} {dbg : Prop} {r : Res α} (h : Only (EngineFail False dbg) r) : r ≠ .error (.panic .stackOverflow) := by
  intro hc
  have := h.out _ hc
  cases this with
  | panic _ hf => exact hf rfl

/-- **C63**: unless the submodules of a module can be followed forever, parsing it ends: from some recursion depth on it does
not run out of stack. -/
theorem C63_terminates (E : Env) (cfg : Config) (W : World) (id : Nat) (h : ¬ Endless (Descends E cfg W) id) :
    ∃ bound, ∀ fuel ≥ bound, Module.parse E cfg W fuel id ≠ .error (.panic .stackOverflow) := by
  have hacc : Acc (fun x y => Descends E cfg W y x) id := by
    by_contra hc
    exact h (endless_of_not_acc hc)
  suffices ∃ bound, ∀ fuel ≥ bound, Only (EngineFail False (E.debug = true)) (Module.parse E cfg W fuel id) by
    obtain ⟨b, hb⟩ := this
    exact ⟨b, fun fuel hf => not_deep (hb fuel hf)⟩
  clear h
  induction hacc with
  | intro id _ ih =>
    obtain ⟨b, hb⟩ := descends_finite E cfg W id (fun fuel id' => Only (EngineFail False (E.debug = true)) (Module.parse E cfg W fuel id'))
      (fun id' hd => ih id' hd)
    refine ⟨b + 1, fun fuel hf => ?_⟩
    obtain ⟨k, rfl⟩ : ∃ k, fuel = k + 1 := ⟨fuel - 1, by omega⟩
    refine only_parseStep E cfg W k id fun m nm i id' hm hn ⟨st, subs, h1, h2, hi⟩ hl => hb id' ?_ k (by omega)
    refine ⟨m, nm, i, hm, hn, own_of_subs h1 h2 hi, ?_⟩
    rcases hl with hl | hl
    · exact Or.inl hl
    · exact loads_of hl

/-! ## Whole runs -/

/-- The outcome of parsing with any larger depth is the same, if the depth was not exhausted. -/
theorem C63_parse_stable (E : Env) (cfg : Config) (W : World) (fuel fuel' id : Nat) (hle : fuel ≤ fuel')
    (h : Module.parse E cfg W fuel id ≠ .error (.panic .stackOverflow)) :
    Module.parse E cfg W fuel' id = Module.parse E cfg W fuel id := by
  induction hle with
  | refl => rfl
  | step _ ih => rw [parse_fuel E cfg W _ id (by rw [ih]; exact h), ih]

theorem request_congr {E : Env} {W : World} {f g : Nat} (c : Codegen)
    (h : ∀ id, Module.parse E c.cfg W f id = Module.parse E c.cfg W g id) (r : Request) : c.request E W f r = c.request E W g r := by
  have hm : ∀ (d : Codegen), d.cfg = c.cfg → ∀ id, d.module E W f id = d.module E W g id := by
    intro d hd id
    unfold Codegen.module
    rw [hd, h id]
  cases r with
  | handle id => exact hm c rfl id
  | name n =>
    show c.moduleName E W f n = c.moduleName E W g n
    unfold Codegen.moduleName
    simp only [hm c rfl]
  | source code n =>
    show c.moduleFromStr E W f code n = c.moduleFromStr E W g code n
    unfold Codegen.moduleFromStr
    exact bind_congr_ok fun id _ => hm { c with embedded := c.embedded ++ [(n, code)] } rfl id

theorem generate_congr {E : Env} {W : World} {f g : Nat} (c : Codegen)
    (h : ∀ id, Module.parse E c.cfg W f id = Module.parse E c.cfg W g id) : c.generate E W f = c.generate E W g := by
  have hstep : depStep E c.cfg W f = depStep E c.cfg W g := by
    funext st o
    unfold depStep
    simp only [h]
  unfold Codegen.generate Codegen.prepare parseDependencies
  rw [hstep]

theorem run_congr {E : Env} {W : World} {f g : Nat} {cfg : Config}
    (h : ∀ id, Module.parse E cfg W f id = Module.parse E cfg W g id) (rs : List Request) : run E W f cfg rs = run E W g cfg rs := by
  unfold run
  have key : ∀ (rs : List Request) (c : Codegen), c.cfg = cfg →
      (foldRes (fun c r => c.request E W f r) c rs >>= fun c => c.generate E W f) =
        (foldRes (fun c r => c.request E W g r) c rs >>= fun c => c.generate E W g) := by
    intro rs
    induction rs with
    | nil => intro c hc; exact generate_congr c (by rw [hc]; exact h)
    | cons r rs ih =>
      intro c hc
      simp only [foldRes]
      rw [request_congr c (by rw [hc]; exact h) r]
      cases hr : c.request E W g r with
      | error e => simp only [error_bind]
      | ok c' => simp only [Res.ok_bind]; exact ih c' ((request_cfg hr).trans hc)
  exact key rs _ rfl

theorem only_request {deep : Prop} {E : Env} {W : World} {fuel : Nat} {c : Codegen}
    (h : ∀ id, Only (EngineFail deep (E.debug = true)) (Module.parse E c.cfg W fuel id)) (r : Request) : Only (EngineFail deep (E.debug = true)) (c.request E W fuel r) := by
  have hm : ∀ (d : Codegen), d.cfg = c.cfg → ∀ id, Only (EngineFail deep (E.debug = true)) (d.module E W fuel id) := fun d hd id =>
    Only.bind (hd ▸ h id) fun _ _ => Only.pure _
  cases r with
  | handle id => exact hm c rfl id
  | name n => exact Only.bind (Only.orErr fun _ => .py) fun id _ => hm c rfl id
  | source code n =>
    exact Only.bind (Only.orErr fun _ => .py) fun id _ => hm { c with embedded := c.embedded ++ [(n, code)] } rfl id

/-- The failures of a run: as those of parsing, and the error of a run without requests. -/
theorem only_run {E : Env} {W : World} {fuel : Nat} {cfg : Config} (h : ∀ id, Only (EngineFail False (E.debug = true)) (Module.parse E cfg W fuel id))
    (rs : List Request) : run E W fuel cfg rs ≠ .error (.panic .stackOverflow) := by
  have hgen : ∀ c : Codegen, c.cfg = cfg → Only (fun f => f ≠ .panic .stackOverflow) (c.generate E W fuel) := by
    intro c hc
    unfold Codegen.generate
    split
    · exact Only.error nofun
    · refine Only.mono (Only.bind (only_prepare _ _ _ _ fun _ => hc ▸ h) fun _ _ => only_generateList ..) ?_
      intro f hf he
      subst he
      cases hf with
      | panic _ hf => exact hf rfl
  have key : ∀ (rs : List Request) (c : Codegen), c.cfg = cfg →
      Only (fun f => f ≠ .panic .stackOverflow) (foldRes (fun c r => c.request E W fuel r) c rs >>= fun c => c.generate E W fuel) := by
    intro rs
    induction rs with
    | nil => intro c hc; exact hgen c hc
    | cons r rs ih =>
      intro c hc
      simp only [foldRes]
      cases hr : c.request E W fuel r with
      | error e =>
        simp only [error_bind]
        refine Only.error fun he => not_deep (only_request (hc ▸ h) r) ?_
        rw [hr, he]
      | ok c' => simp only [Res.ok_bind]; exact ih c' ((request_cfg hr).trans hc)
  intro hc
  exact (key rs (Codegen.new cfg) rfl).out _ hc rfl

theorem only_parse_of {E : Env} {cfg : Config} {W : World} {fuel id : Nat}
    (h : Module.parse E cfg W fuel id ≠ .error (.panic .stackOverflow)) : Only (EngineFail False (E.debug = true)) (Module.parse E cfg W fuel id) := by
  refine ⟨fun f hf => ?_⟩
  have := (only_moduleParse trivial E cfg W fuel id).out f hf
  cases this with
  | py => exact .py
  | syn => exact .syn
  | modName => exact .modName
  | panic p _ h' => exact .panic p (fun hp => by subst hp; exact h hf) h'

theorem parse_bound {E : Env} {cfg : Config} {W : World} (h : ∀ id, ¬ Endless (Descends E cfg W) id) :
    ∃ bound, ∀ fuel ≥ bound, ∀ id, Module.parse E cfg W fuel id ≠ .error (.panic .stackOverflow) := by
  have key : ∀ n, ∃ bound, ∀ fuel ≥ bound, ∀ id < n, Module.parse E cfg W fuel id ≠ .error (.panic .stackOverflow) := by
    intro n
    induction n with
    | zero => exact ⟨0, fun _ _ id hid => absurd hid (by omega)⟩
    | succ n ih =>
      obtain ⟨b, hb⟩ := ih
      obtain ⟨b', hb'⟩ := C63_terminates E cfg W n (h n)
      refine ⟨max b b', fun fuel hf id hid => ?_⟩
      rcases Nat.lt_succ_iff_lt_or_eq.mp hid with hid | rfl
      · exact hb fuel (by omega) id hid
      · exact hb' fuel (by omega)
  obtain ⟨b, hb⟩ := key W.mods.length
  refine ⟨b + 1, fun fuel hf id => ?_⟩
  by_cases hid : id < W.mods.length
  · exact hb fuel (by omega) id hid
  · obtain ⟨k, rfl⟩ : ∃ k, fuel = k + 1 := ⟨fuel - 1, by omega⟩
    have hg : W.get? id = none := List.getElem?_eq_none (by omega)
    unfold Module.parse
    rw [hg]
    simp only [Res.ofOption, error_bind]
    exact nofun

/-- **C63**: if submodules cannot be followed forever, whole runs end: from some recursion depth on, no run exhausts the stack,
and the outcome of every run is the same for all depths. Missing for the full claim: interpreters in which submodules can be
followed forever (see `C51_recursion_counterexample`). -/
theorem C63_run_partial (E : Env) (cfg : Config) (W : World) (h : ∀ id, ¬ Endless (Descends E cfg W) id) :
    ∃ bound, ∀ fuel ≥ bound, ∀ rs, run E W fuel cfg rs ≠ .error (.panic .stackOverflow) ∧
      run E W fuel cfg rs = run E W bound cfg rs := by
  obtain ⟨b, hb⟩ := parse_bound h
  exact ⟨b, fun fuel hf rs => ⟨only_run (fun id => only_parse_of (hb fuel hf id)) rs,
    run_congr (fun id => C63_parse_stable E cfg W b fuel id hf (hb b (Nat.le_refl _) id)) rs⟩⟩

/-! ## Faithful interpreters -/

theorem descends_called {E : Env} {cfg : Config} {W : World} (hF : Faithful E W) {id id' : Nat} (h : Descends E cfg W id id') :
    ∃ segs t, segs ≠ [] ∧ (∀ s ∈ segs, PyIdent E s) ∧ PyIdent E t ∧ Called W id (Str.join c!"." segs) ∧
      Called W id' (Str.join c!"." (segs ++ [t])) := by
  obtain ⟨pm, n, i, hg, hn, hi, hl⟩ := h
  obtain ⟨segs, h1, h2, h3, h4⟩ := faithful_name hF hg hn
  have hsi : ∃ t, PyIdent E t ∧ i = Ident.fromPy E t := by
    rcases hi with ⟨-, ⟨l, hl', t, ht, rfl⟩, -⟩ | ⟨t, ht, a, rfl, -⟩
    · exact ⟨t, hF.listed _ _ _ hg hl' t ht, rfl⟩
    · exact ⟨t, hF.attrs _ _ hg t ht, rfl⟩
  obtain ⟨t, ht, rfl⟩ := hsi
  have hall : ∀ s ∈ segs ++ [t], PyIdent E s := by
    intro s hs
    rcases mem_snoc.mp hs with hs | rfl
    · exact h2 s hs
    · exact ht
  have htext : (child (Path.fromPy E n) (Ident.fromPy E t)).toPy = n ++ '.' :: t := by
    have : child (Path.fromPy E n) (Ident.fromPy E t) = ⟨false, (segs ++ [t]).map (Ident.fromPy E)⟩ := by simp [child, h4]
    rw [this, faithful_toPy E (by simp) hall, h3, join_snoc _ _ h1]
  refine ⟨segs, t, h1, h2, ht, ⟨pm, hg, h3 ▸ hn⟩, ?_⟩
  rw [join_snoc _ _ h1, ← h3]
  rcases hl with h | ⟨hno, a, ha, hm⟩
  · rw [htext] at h
    exact hF.imported _ _ h
  · rw [htext] at hno
    have ha' := ha
    rw [asPy_ident ht.2] at ha
    rcases hF.modules _ _ _ _ _ _ hg hn ha hm hno with h | ⟨g1, g2, g3⟩
    · exact h
    · exfalso
      rcases hi with ⟨-, ⟨l, hl, u, hu, he⟩, -⟩ | ⟨s, hs, a', he, ha2, -, -, ho⟩
      · have : u = t := by
          have := congrArg Ident.asPy he
          rw [asPy_ident ht.2, asPy_ident (hF.listed _ _ _ hg hl u hu).2] at this
          exact this.symm
        exact g1 l hl (this ▸ hu)
      · rw [ha'] at ha2
        cases ha2
        rcases ho with ho | ho
        · exact g2 ho
        · rw [g3] at ho; cases ho

/-- In a faithful interpreter submodules cannot be followed forever: their names get longer. -/
theorem faithful_ends {E : Env} {cfg : Config} {W : World} (hF : Faithful E W) (id : Nat) : ¬ Endless (Descends E cfg W) id := by
  rintro ⟨f, -, hf⟩
  have hlen : ∀ k, ∃ segs, segs ≠ [] ∧ (∀ s ∈ segs, PyIdent E s) ∧ k ≤ segs.length ∧ Called W (f k) (Str.join c!"." segs) := by
    intro k
    induction k with
    | zero =>
      obtain ⟨segs, t, h1, h2, -, h3, -⟩ := descends_called hF (hf 0)
      exact ⟨segs, h1, h2, Nat.zero_le _, h3⟩
    | succ k ih =>
      obtain ⟨segs, h1, h2, hk, hc⟩ := ih
      obtain ⟨segs', t, h1', h2', ht, hc', hd⟩ := descends_called hF (hf k)
      have : segs = segs' := by
        obtain ⟨m, hm, hn⟩ := hc
        obtain ⟨m', hm', hn'⟩ := hc'
        rw [hm] at hm'
        cases hm'
        rw [hn] at hn'
        have := congrArg (Str.splitChar '.') (Option.some.inj hn')
        rw [Str.splitChar_join h1 fun s hs => (h2 s hs).1.2.1, Str.splitChar_join h1' fun s hs => (h2' s hs).1.2.1] at this
        exact this
      subst this
      refine ⟨segs ++ [t], by simp, fun s hs => ?_, by simp; omega, hd⟩
      rcases mem_snoc.mp hs with hs | rfl
      · exact h2 s hs
      · exact ht
  have hbound : ∃ L, ∀ id n, Called W id n → (Str.splitChar '.' n).length ≤ L := by
    have : ∀ l : List PyMod, ∃ L, ∀ m ∈ l, ∀ n, m.name = some n → (Str.splitChar '.' n).length ≤ L := by
      intro l
      induction l with
      | nil => exact ⟨0, fun m hm => absurd hm List.not_mem_nil⟩
      | cons m l ih =>
        obtain ⟨L, hL⟩ := ih
        refine ⟨max L ((m.name.map fun n => (Str.splitChar '.' n).length).getD 0), fun m' hm n hn => ?_⟩
        rcases List.mem_cons.mp hm with rfl | hm
        · rw [hn]; exact Nat.le_max_right ..
        · exact Nat.le_trans (hL m' hm n hn) (Nat.le_max_left ..)
    obtain ⟨L, hL⟩ := this W.mods
    exact ⟨L, fun id n ⟨m, hm, hn⟩ => hL m (List.mem_of_getElem? hm) n hn⟩
  obtain ⟨L, hL⟩ := hbound
  obtain ⟨segs, h1, h2, h3, h4⟩ := hlen (L + 1)
  have := hL _ _ h4
  rw [Str.splitChar_join h1 fun s hs => (h2 s hs).1.2.1] at this
  omega

/-- **C63** for faithful interpreters: runs end, whatever the configuration and the requests. -/
theorem C63_faithful (E : Env) (cfg : Config) (W : World) (hF : Faithful E W) :
    ∃ bound, ∀ fuel ≥ bound, ∀ rs, run E W fuel cfg rs ≠ .error (.panic .stackOverflow) ∧
      run E W fuel cfg rs = run E W bound cfg rs :=
  C63_run_partial E cfg W (faithful_ends hF)

/-- The example package has submodules that are followed. -/
example : Faithful exEnv exWorld ∧ ∃ id', Descends exEnv {} exWorld 0 id' :=
  ⟨exWorld_faithful, 1, exPkg, c!"pkg", Ident.fromPy exEnv c!"sub", rfl, rfl,
    Or.inl ⟨rfl, ⟨_, rfl, _, List.mem_singleton.mpr rfl, rfl⟩, (C08_filter_iff _ _ _).mp (by decide)⟩, Or.inl rfl⟩

/-- A package whose submodule is a module of another name, as `os.path` is `posixpath`. -/
def exRenamedWorld : World where
  mods := [{ name := some c!"pkg", isPackage := true, iterModules := some [c!"q"] }, { name := some c!"other" }]
  importMod s := if s = c!"pkg" then some 0 else if s = c!"pkg.q" then some 1 else none

theorem exRenamedWorld_ends (id : Nat) : ¬ Endless (Descends exEnv {} exRenamedWorld) id := by
  have step : ∀ a b, Descends exEnv {} exRenamedWorld a b → a = 0 ∧ b = 1 := by
    rintro a b ⟨pm, n, i, hg, hn, hi, hl⟩
    match a with
    | 0 =>
      cases hg
      cases hn
      rcases hi with ⟨-, ⟨l, hl', s, hs, rfl⟩, -⟩ | ⟨s, hs, -⟩
      · cases hl'
        rw [List.mem_singleton] at hs
        subst hs
        rcases hl with h | ⟨h, -⟩ <;> cases h
        exact ⟨rfl, rfl⟩
      · cases hs
    | 1 =>
      cases hg
      cases hn
      rcases hi with ⟨h, -⟩ | ⟨s, hs, -⟩
      · cases h
      · cases hs
    | k + 2 => cases hg
  rintro ⟨f, -, hf⟩
  have h0 : f 1 = 1 := (step _ _ (hf 0)).2
  have h1 : f 1 = 0 := (step _ _ (hf 1)).1
  omega

example : (∀ id, ¬ Endless (Descends exEnv {} exRenamedWorld) id) ∧ Descends exEnv {} exRenamedWorld 0 1 :=
  ⟨exRenamedWorld_ends, _, c!"pkg", Ident.fromPy exEnv c!"q", rfl, rfl,
    Or.inl ⟨rfl, ⟨_, rfl, _, List.mem_singleton.mpr rfl, rfl⟩, (C08_filter_iff _ _ _).mp (by decide)⟩, Or.inl rfl⟩

/-- Without the hypothesis the claim is false: a package that is its own submodule can be followed forever, and runs exhaust
every stack. -/
theorem C63_loop_counterexample : Endless (Descends exEnv {} exLoopWorld) 0 ∧
    ∀ fuel, run exEnv exLoopWorld fuel {} [.name c!"pkg"] = .error (.panic .stackOverflow) := by
  refine ⟨⟨fun _ => 0, rfl, fun _ => ⟨_, c!"pkg", Ident.fromPy exEnv c!"q", rfl, rfl,
    Or.inl ⟨rfl, ⟨_, rfl, _, List.mem_singleton.mpr rfl, rfl⟩, (C08_filter_iff _ _ _).mp (by decide)⟩, Or.inl rfl⟩⟩, fun fuel => ?_⟩
  have : (Codegen.new {}).request exEnv exLoopWorld fuel (.name c!"pkg") = .error (.panic .stackOverflow) := loop_request fuel
  unfold run
  simp only [foldRes]
  rw [this]
  simp only [error_bind]

end Bindgen

import Verif.Props.Complete
import Verif.Props.CompleteClasses
import Verif.Props.Syntax
/-!
# C52: which variables leave a `pub` behind
-/
namespace Bindgen
open Spec

theorem notFunction_determine {E : Env} {o : PyObj} {nm : Str} (hnm : DottedName nm) (ho : NotFunction nm o) :
    determine E o (Path.fromPy E o.modPath) (Path.fromPy E nm) true ≠ .ok .function ∧
      determine E o (Path.fromPy E o.modPath) (Path.fromPy E nm) true ≠ .ok .closure := by
  have key : ∀ v, determine E o (Path.fromPy E o.modPath) (Path.fromPy E nm) true = .ok v → v ≠ .function ∧ v ≠ .closure := by
    intro v h
    cases ho with
    | plain ho => rw [determine_plain ho h]; simp
    | typing ho => rw [determine_typing ho h]; simp
    | module ho =>
      unfold determine at h
      obtain ⟨_, -, h⟩ := Res.bind_ok h
      obtain ⟨f, -, h⟩ := Res.bind_ok h
      obtain ⟨g, -, h⟩ := Res.bind_ok h
      have h := Except.ok.inj h
      rw [ho] at h
      subst h
      constructor <;> (split <;> simp)
    | «class» ho =>
      unfold determine at h
      obtain ⟨_, -, h⟩ := Res.bind_ok h
      obtain ⟨f, -, h⟩ := Res.bind_ok h
      obtain ⟨g, -, h⟩ := Res.bind_ok h
      have h := Except.ok.inj h
      rw [ho] at h
      subst h
      constructor <;> (repeat' split) <;> simp_all
    | method h1 h2 h3 =>
      unfold determine at h
      obtain ⟨_, -, h⟩ := Res.bind_ok h
      rw [h2, h3] at h
      simp only [Res.orErr, Res.ok_bind, h1, Res.pure_eq, Except.ok.injEq] at h
      subst h
      constructor <;> (repeat' split) <;> simp_all
    | imported segs g1 g2 g3 g4 g5 g6 =>
      obtain ⟨f, g, hf, hg⟩ := determine_facts h
      rw [g5] at hf
      cases hf
      have hne : Path.fromPy E o.modPath ≠ Path.fromPy E nm := by
        intro he
        apply g4
        rw [← DottedName.roundtrip E (s := o.modPath) (Or.inr ⟨segs, g1, g2, g3⟩), he, DottedName.roundtrip E hnm]
      have hl : Str.containsSub c!"<locals>" o.repr = false := by
        rw [Bool.eq_false_iff, ne_eq, containsSub_iff]; exact g6
      unfold determine at h
      obtain ⟨_, -, h⟩ := Res.bind_ok h
      rw [g5, hg] at h
      simp only [Res.orErr, Res.ok_bind, Res.pure_eq, Except.ok.injEq, hl, hne, ne_eq, not_false_eq_true, decide_true] at h
      subst h
      simp
  exact ⟨fun h => (key _ h).1 rfl, fun h => (key _ h).2 rfl⟩

/-- Beside a variable `x`, `set_x` is not a function, nor is `get_x` if Rust cannot spell `x`. -/
def Spec.FreeAccessors (E : Env) (cfg : Config) (W : World) : Prop :=
  ∀ id m nm, W.get? id = some m → m.name = some nm → ∀ s ∈ m.dir, ∀ t ∈ m.dir,
    t = c!"set_" ++ s ∨ (t = c!"get_" ++ s ∧ s ∈ unspellable) → ∀ a b, m.getattr s = some a → m.getattr t = some b →
    Kept E cfg s a.obj → Kept E cfg t b.obj → Variable a.obj → NotFunction nm b.obj

/-- There is no dangling `pub` if an attribute named like a submodule is this submodule and no variable `x` stands beside a function
`set_x`, or `get_x` if Rust cannot spell `x`. Missing: modules with such functions (`C52_stray`). -/
theorem C52_kinds_partial (E : Env) (W : World) (hF : Faithful E W) (hu : UniqueNames W) (fuel : Nat) (cfg : Config)
    (hS : OwnSubmodules E cfg W) (hA : FreeAccessors E cfg W) (srcs : List (Str × Str)) (c : Codegen) (items : List Item)
    (hb : Built E W fuel cfg srcs c) (h : c.generate E W fuel = .ok items) : ¬ Within .strayPub items := by
  have b := built_ok hb
  obtain ⟨out, h1, hf⟩ := generate_from h
  have hp : ∀ m ∈ c.modules, Parsed E c.cfg W m := b.config ▸ b.parsed
  intro hx
  cases hf _ hx with
  | mod M x hM hg =>
    obtain ⟨q⟩ := generate_parts hg
    exact absurd q.item (by simp)
  | embed M x hM hm =>
    unfold embedItems at hm
    split at hm <;> simp at hm
  | content M o q x hM hm hc =>
    cases hc with
    | stray p l _ hpm _ hg hl =>
      have hd : p.name ∈ M.defNames := mem_defNames.mpr ⟨.property p, hpm, trivial, rfl⟩
      obtain ⟨id, pm, nm, e1, e2, e3, e4, e5⟩ := prepared_attrs hF hu (b.config ▸ hS) h1 hp hM (List.ne_nil_of_mem hd)
      obtain ⟨segs, s1, s2, s3, -⟩ := faithful_name hF e1 e2
      have hnm : DottedName nm := Or.inr ⟨segs, s1, fun s h => (s2 s h).1, s3⟩
      obtain ⟨s, a, f1, f2, f3, f4, f5, f6, f7⟩ := e5 (.property p) hpm trivial
      have hdv : determine E a.obj (Path.fromPy E a.obj.modPath) M.name true = .ok .property := by
        cases f7 with
        | property _ _ hv => exact hv
      have hv : Variable a.obj := determine_variable hdv (Or.inl rfl)
      have hlast : p.name.segs.getLast? = some (Ident.fromPy E s) := by
        rw [show p.name = _ from f5]; simp [fullName, Path.join, Path.ofIdent]
      have htaken : ∀ t, IsIdent E t → Ident.fromPy E t ∈ q.taken → ∃ f, Has M (.function f) ∧ f.name = fullName M.name (Ident.fromPy E t) ∧
          ∃ b, t ∈ pm.dir ∧ pm.getattr t = some b ∧ Kept E c.cfg t b.obj ∧ NewItem E c.cfg M.name (Ident.fromPy E t) b (.function f) := by
        intro t ht hmem
        obtain ⟨f, hfm, hfn⟩ := traverse_mem q.takenOk hmem
        obtain ⟨t', b, g1, g2, g3, g4, g5, g6, g7⟩ := e5 (.function f) hfm trivial
        have : Ident.fromPy E t' = Ident.fromPy E t := by
          rw [show f.name = _ from g5] at hfn
          simpa [fullName, Path.join, Path.ofIdent, Path.name, Path.name?, Res.ofOption] using hfn
        have htt : t' = t := by rw [← asPy_ident g2.2, this, asPy_ident ht]
        subst htt
        exact ⟨f, hfm, g5, b, g1, g3, g4, g7⟩
      have hno : ∀ t, IsIdent E t → t = c!"set_" ++ s ∨ (t = c!"get_" ++ s ∧ s ∈ unspellable) → Ident.fromPy E t ∉ q.taken := by
        intro t ht hor hmem
        obtain ⟨f, -, -, b', g1, g2, g3, g4⟩ := htaken t ht hmem
        have hN := hA id pm nm e1 e2 s f1 t g1 hor a b' f3 g2 (b.config ▸ f4) (b.config ▸ g3) hv
        cases g4 with
        | function _ _ _ _ hdet =>
          rw [e3] at hdet
          rcases hdet with hdet | hdet
          · exact (notFunction_determine hnm hN).1 hdet
          · exact (notFunction_determine hnm hN).2 hdet
      rcases (accessor_missing_iff hg f2.2 hlast).mp hl with ⟨g1, g2⟩ | ⟨-, g2⟩
      · rcases g1 with g1 | g1 | g1
        · rcases g2 with rfl | g2
          · exact absurd g1 (by decide)
          · exact hno _ (isIdent_prefix (getSet_isIdent E).1 f2.2) (Or.inr ⟨rfl, g1⟩) g2
        · exact kept_unreserved f2.2 f4 g1
        · obtain ⟨f, -, -, b', -, g3, -, g4⟩ := htaken s f2.2 g1
          rw [f3] at g3
          cases g3
          cases g4 with
          | function _ _ _ _ hdet =>
            rw [hdv] at hdet
            rcases hdet with hdet | hdet <;> cases hdet
      · exact hno _ (isIdent_prefix (getSet_isIdent E).2 f2.2) (Or.inl rfl) g2

/-- The exception, for every interpreter: if a module that is reached has a variable `x` and its own function `set_x`, or `get_x` if Rust
cannot spell `x`, then the output has a `pub` without an item, is not a Rust file, and has a `pub` that nothing can complete. -/
theorem C52_stray (E : Env) (W : World) (fuel : Nat) (cfg : Config) (srcs : List (Str × Str)) (c c1 : Codegen) (names : List Str)
    (items : List Item) (hb : Built E W fuel cfg srcs c) (h1 : c.moduleNames E W fuel names = .ok c1)
    (h2 : c1.generate E W fuel = .ok items) (id : Nat) (hr : Reached E cfg W names id) (pm : PyMod) (segs : List Str)
    (hp : W.get? id = some pm) (hname : pm.name = some (Str.join c!"." segs)) (hne : segs ≠ [])
    (hs : ∀ s ∈ segs, PyIdent E s) (ht : cfg.traverseSubmodules = true ∨ segs.length = 1) (hc : cfg.generateProperties = true)
    (s t : Str) (hsd : s ∈ pm.dir) (hsi : IsIdent E s) (htd : t ∈ pm.dir)
    (hst : t = c!"set_" ++ s ∨ (t = c!"get_" ++ s ∧ s ∈ unspellable)) (a b : PyAttr) (ha : pm.getattr s = some a)
    (hb' : pm.getattr t = some b) (hak : Kept E cfg s a.obj) (hbk : Kept E cfg t b.obj) (hav : PlainVariable a.obj)
    (hbf : OwnRoutine (Str.join c!"." segs) b.obj ∨ PartialValue b.obj) :
    Within .strayPub items ∧ Invalid (Item.toksList items) ∧ Dangling (Item.toksList items) := by
  have hw : Within .strayPub items := by
    have hcfg := (built_ok hb).config
    subst hcfg
    obtain ⟨m, idents, content, out, M, ts, own, hm, hmn, g1, g2, g3, g4, g5, g6, g7, g8, g9⟩ :=
      reached_content h1 h2 hr hp hname hne hs ht
    refine within_chain g1 (g8 _ ?_)
    have hti : IsIdent E t := by
      rcases hst with rfl | ⟨rfl, -⟩
      · exact isIdent_prefix (getSet_isIdent E).2 hsi
      · exact isIdent_prefix (getSet_isIdent E).1 hsi
    obtain ⟨-, -, -, -, k5⟩ := C69_parsed E c.cfg W fuel id m hm pm _ hp hname s hsi hsd a ha hak
    obtain ⟨p, hpm, hpp⟩ := k5 hav
    have hlast : p.name.segs.getLast? = some (Ident.fromPy E s) := by
      rw [(property_parse_name hpp).1]; simp [Path.join, Path.ofIdent]
    have hmut : p.isMutable = true ∧ p.owner = .module := by
      unfold Property.parse at hpp
      obtain ⟨ty, hty, hpp⟩ := Res.bind_ok hpp
      cases hpp
      exact ⟨rfl, rfl⟩
    obtain ⟨k1, k2, -⟩ := C69_parsed E c.cfg W fuel id m hm pm _ hp hname t hti htd b hb' hbk
    have hf : ∃ f ∈ m.functions, f.name = m.name.join (Path.ofIdent (Ident.fromPy E t)) := by
      rcases hbf with hbf | hbf
      · obtain ⟨f, hf, hpf⟩ := k1 hbf
        exact ⟨f, hf, function_parse_name hpf⟩
      · obtain ⟨f, hf, hpf⟩ := k2 hbf
        exact ⟨f, hf, function_parse_name hpf⟩
    obtain ⟨f, hf, hfn⟩ := hf
    exact stray_own g7 hc (g6 (.property p) hpm) hmut.2 hmut.1 hsi hlast hst (g6 (.function f) hf)
      (by rw [hfn]; simp [Path.join, Path.ofIdent])
  have hb1 := Built.moduleNames names hb h1
  exact ⟨hw, C65_invalid E W fuel cfg srcs c1 items hb1 h2 hw, C65_dangling E W fuel cfg srcs c1 items hb1 h2 hw⟩

/-! ## Examples -/

/-- The module `conf` with a variable `level`, its own function `get_level`, and `set_level`, imported from `lib`. -/
def exFreeWorld : World where
  mods := [
    { name := some c!"conf", dir := [c!"level", c!"get_level", c!"set_level"],
      attrs := [(c!"level", { obj := exIntObj }), (c!"get_level", { obj := exFnObj c!"conf" }), (c!"set_level", { obj := exFnObj c!"lib" })] },
    { name := some c!"lib", dir := [c!"set_level"], attrs := [(c!"set_level", { obj := exFnObj c!"lib" })] }]
  importMod s := if s = c!"conf" then some 0 else if s = c!"lib" then some 1 else none

theorem exFreeWorld_free : FreeAccessors exEnv {} exFreeWorld := by
  intro id m nm hg hn s hs t ht hst a b ha hb _ _ hv
  match id with
  | 0 =>
    cases hg
    cases hn
    simp only [List.mem_cons, List.not_mem_nil, or_false] at hs ht
    rcases hs with rfl | rfl | rfl
    · rcases ht with rfl | rfl | rfl
      · exact absurd hst (by decide)
      · exact absurd hst (by decide)
      · cases hb
        exact .imported [c!"lib"] (by simp) (by intro x hx; rw [List.mem_singleton.mp hx]; unfold PySegment; decide) (by decide) (by decide)
          rfl (by decide)
    · cases ha; exact absurd hv (by unfold Variable; decide)
    · cases ha; exact absurd hv (by unfold Variable; decide)
  | 1 =>
    cases hg
    rw [List.mem_singleton.mp hs] at ha
    cases ha
    exact absurd hv (by unfold Variable; decide)
  | k + 2 => cases hg

/-- The hypotheses of `C52_kinds_partial`: the bindings of `conf` have no dangling `pub`. -/
example : ∃ c items, Built exEnv exFreeWorld 5 {} [] c ∧ c.generate exEnv exFreeWorld 5 = .ok items ∧
    exKinds items = [(4, 1), (5, 0), (5, 0)] ∧ ¬ Within .strayPub items := by
  obtain ⟨c, items, hb, hg, hk⟩ := built_run (E := exEnv) (W := exFreeWorld) (fuel := 5) (cfg := {}) (names := [c!"conf"]) (f := exKinds)
    (v := [(4, 1), (5, 0), (5, 0)]) (by decide +kernel)
  refine ⟨c, items, hb, hg, hk, C52_kinds_partial exEnv exFreeWorld (faithful_of_check (by decide +kernel) fun s id h => ?_) ?_ 5 {}
    (collisionless_of_check (by decide +kernel)).modules exFreeWorld_free [] c items hb hg⟩
  · simp only [exFreeWorld] at h
    repeat' split at h
    all_goals first
      | (cases h; subst_vars; exact ⟨_, rfl, rfl⟩)
      | cases h
  · rintro id id' n ⟨m, h1, h2⟩ ⟨m', h1', h2'⟩
    have hlt : ∀ {i : Nat} {x : PyMod}, exFreeWorld.get? i = some x → i < 2 := by
      intro i x h
      match i with
      | 0 | 1 => omega
      | k + 2 => cases h
    have key : ∀ i < 2, ∀ j < 2, (exFreeWorld.get? i).bind PyMod.name = (exFreeWorld.get? j).bind PyMod.name → i = j := by decide
    refine key id (hlt h1) id' (hlt h1') ?_
    rw [h1, h1']
    simp [h2, h2']

/-- The hypotheses of `C52_stray`: the variable `level` beside the function `set_level`. -/
example : ∃ c1 items, (Codegen.new {}).moduleNames exEnv exSetterWorld 5 [c!"conf"] = .ok c1 ∧ c1.generate exEnv exSetterWorld 5 = .ok items ∧
    Within .strayPub items ∧ Invalid (Item.toksList items) ∧ Dangling (Item.toksList items) := by
  obtain ⟨c1, items, h1, h2⟩ := run_names (E := exEnv) (W := exSetterWorld) (fuel := 5) (cfg := {}) (names := [c!"conf"]) (by decide +kernel)
  refine ⟨c1, items, h1, h2, C52_stray exEnv exSetterWorld 5 {} [] _ c1 [c!"conf"] items .new h1 h2 0 (.request (List.mem_singleton.mpr rfl) rfl) exSetter [c!"conf"]
    rfl rfl (by simp) ?_ (Or.inl rfl) rfl c!"level" c!"set_level" (by decide) (isIdent_ascii _ _ (by decide) (by decide)) (by decide)
    (Or.inl rfl) _ _ rfl rfl (by unfold Kept; decide +kernel) (by unfold Kept; decide +kernel) ?_ (Or.inl ⟨rfl, rfl, Or.inr rfl, Or.inl rfl⟩)⟩
  · intro s hs
    rw [List.mem_singleton.mp hs]
    exact ⟨by unfold PySegment; decide, isIdent_ascii _ _ (by decide) (by decide)⟩
  · exact ⟨⟨rfl, rfl, rfl, by decide, by decide⟩, [c!"builtins"], by simp, by
      intro x hx; rw [List.mem_singleton.mp hx]; unfold PySegment; decide, by decide, by decide⟩

end Bindgen

import Verif.Model.Import
import Verif.Model.Attr
import Verif.Props.Names
import Verif.Props.Paths
import Verif.Lemmas.Res
import Verif.Lemmas.Checks
/-!
# C06: re-exports; C54: classification of attributes
-/
namespace Bindgen
open Spec

/-- The name that `use path [as alias];` binds. -/
def Spec.boundName (p : Path) (asName : Option Str) : Option Str :=
  match asName with
  | some a => some a
  | none => p.segs.getLast?.map Ident.rs

/-- A path made of identifiers that Rust can spell, without a leading `::`. -/
def Spec.Spellable (E : Env) (p : Path) : Prop :=
  p.leadingColon = false ∧ p.segs ≠ [] ∧ ∀ i ∈ p.segs, ∃ s, IsIdent E s ∧ s ∉ unspellable ∧ i = Ident.fromPy E s

theorem Spec.Spellable.plain {E : Env} {p : Path} (h : Spellable E p) : Plain p := by
  intro i hi
  obtain ⟨s, hs, hu, rfl⟩ := h.2.2 i hi
  have hk := (C02_legal E s hs hu).2
  rcases hk with ⟨_, hk⟩ | ⟨r, hr, _, hu'⟩
  · rintro (h | h | h | h) <;> (rw [h] at hk; exact absurd hk (by decide))
  · rw [hr]; rintro (h | h | h | h) <;> simp at h

theorem Spec.Spellable.synOk {E : Env} {p : Path} (h : Spellable E p) : ∀ i ∈ p.segs, Path.synSegOk E i = true := by
  intro i hi
  obtain ⟨s, hs, hu, rfl⟩ := h.2.2 i hi
  simp [Path.synSegOk, (C02_legal E s hs hu).1]

theorem Spec.Spellable.name {E : Env} {p : Path} (h : Spellable E p) :
    ∃ n, p.name = .ok n ∧ p.segs.getLast? = some n ∧ n.toSyn E = some n.rs := by
  have h1 := List.getLast?_eq_some_getLast h.2.1
  obtain ⟨s, hs, hu, he⟩ := h.2.2 _ (List.getLast_mem h.2.1)
  refine ⟨_, ?_, h1, ?_⟩
  · simp [Path.name, Path.name?, h1, Res.ofOption]
  · rw [he]; exact (C02_legal E s hs hu).1

/-- In the disambiguating mode the relative path ends with the name of its target. -/
theorem relativeTo_last (M T : Path) (hM : M.leadingColon = false) (hT : T.leadingColon = false) (hne : T.segs ≠ [])
    (p : Path) (h : Path.relativeTo M T true = .ok p) : p.segs.getLast? = T.segs.getLast? := by
  obtain ⟨n, hn⟩ : ∃ n, T.segs.getLast? = some n := ⟨_, List.getLast?_eq_some_getLast hne⟩
  have hname : T.name = .ok n := by simp [Path.name, Path.name?, hn, Res.ofOption]
  rw [Path.relativeTo] at h
  split at h
  · simp only [if_true, hname] at h
    cases h
    simp [hn]
  · rename_i hMT
    simp only [Bool.true_and] at h
    split at h
    · rw [hname] at h
      cases h
      simp [hn]
    · rename_i hs
      cases h
      simp only [Path.relativeSegs] at hs ⊢
      have hl := commonPrefixLen_le_left M.segs T.segs
      have hr := commonPrefixLen_le_right M.segs T.segs
      have ht := commonPrefixLen_take M.segs T.segs
      by_cases hd : T.segs.drop (Path.commonPrefixLen M.segs T.segs) = []
      · exfalso
        rw [hd] at hs
        by_cases hlt : Path.commonPrefixLen M.segs T.segs < M.segs.length
        · rw [if_pos hlt, List.append_nil] at hs
          apply hs
          rw [List.getLast?_replicate]
          simp; constructor
          · omega
          · rfl
        · apply hMT
          have h1 : Path.commonPrefixLen M.segs T.segs = M.segs.length := by omega
          have h2 : T.segs.length ≤ Path.commonPrefixLen M.segs T.segs := by simpa using hd
          rw [List.take_of_length_le (by omega), List.take_of_length_le h2] at ht
          cases M; cases T; simp_all
      · have hlast : (T.segs.drop (Path.commonPrefixLen M.segs T.segs)).getLast? = T.segs.getLast? := by
          rw [List.getLast?_drop, if_neg]
          simpa using hd
        split
        · rw [List.getLast?_append, hlast, hn]; rfl
        · simp only [if_true, List.getLast?_cons, hlast, hn]; rfl

theorem relativeTo_mem (M T : Path) (full : Bool) (p : Path) (h : Path.relativeTo M T full = .ok p) :
    ∀ i ∈ p.segs, i.rs = c!"super" ∨ i.rs = c!"self" ∨ i ∈ T.segs := by
  have hname : ∀ n, T.name = .ok n → n ∈ T.segs := by
    intro n hn
    simp only [Path.name, Path.name?] at hn
    cases hl : T.segs.getLast? with
    | none => rw [hl] at hn; simp [Res.ofOption] at hn
    | some m => rw [hl] at hn; cases hn; exact List.mem_of_getLast? hl
  have hrel : ∀ i ∈ Path.relativeSegs M T full, i.rs = c!"super" ∨ i.rs = c!"self" ∨ i ∈ T.segs := by
    intro i hi
    simp only [Path.relativeSegs] at hi
    split at hi
    · rcases List.mem_append.mp hi with hi | hi
      · rw [List.eq_of_mem_replicate hi]; exact Or.inl rfl
      · exact Or.inr (Or.inr (List.mem_of_mem_drop hi))
    · split at hi
      · rcases List.mem_cons.mp hi with rfl | hi
        · exact Or.inr (Or.inl rfl)
        · exact Or.inr (Or.inr (List.mem_of_mem_drop hi))
      · exact Or.inr (Or.inr (List.mem_of_mem_drop hi))
  rw [Path.relativeTo] at h
  intro i hi
  split at h
  · split at h
    · obtain ⟨n, hn, h⟩ := Res.bind_ok h
      cases h
      simp only [List.mem_cons, List.not_mem_nil, or_false] at hi
      rcases hi with rfl | rfl
      · exact Or.inl rfl
      · exact Or.inr (Or.inr (hname _ hn))
    · cases h
      simp only [List.mem_cons, List.not_mem_nil, or_false] at hi
      subst hi; exact Or.inr (Or.inl rfl)
  · dsimp only at h
    split at h
    · obtain ⟨n, hn, h⟩ := Res.bind_ok h
      cases h
      simp only [List.mem_append, List.mem_cons, List.not_mem_nil, or_false] at hi
      rcases hi with hi | rfl | rfl
      · exact hrel i hi
      · exact Or.inl rfl
      · exact Or.inr (Or.inr (hname _ hn))
    · cases h; exact hrel i hi

/-- The import type says that the origin lies in the package of the target. -/
theorem fromPaths_submodule (o t : Path) :
    ImportType.fromPaths o t = .submoduleReexport ↔ ∃ p, t.parent = some p ∧ p.segs <+: o.segs := by
  simp only [ImportType.fromPaths]
  constructor
  · intro h
    cases hp : t.parent with
    | none => rw [hp] at h; simp only [Bool.and_false, Bool.false_eq_true, if_false] at h; split at h <;> split at h <;> simp at h
    | some p =>
      refine ⟨p, rfl, ?_⟩
      by_contra hc
      rw [hp] at h
      have : o.startsWith p = false := by rw [Bool.eq_false_iff]; simpa [Path.startsWith] using hc
      simp only [this, Bool.and_false, Bool.false_eq_true, if_false] at h
      split at h <;> split at h <;> simp at h
  · rintro ⟨p, hp, hpre⟩
    have hroot : ∃ r, t.root = some r ∧ o.startsWith r = true := by
      simp only [Path.parent] at hp
      split at hp
      · rename_i hlen
        cases hp
        cases hseg : t.segs with
        | nil => rw [hseg] at hlen; simp at hlen
        | cons a l =>
          refine ⟨⟨t.leadingColon, [a]⟩, by simp [Path.root, hseg], ?_⟩
          simp only [hseg, List.length_cons] at hpre hlen
          obtain ⟨m, hm⟩ : ∃ m, l.length + 1 - 1 = m + 1 := ⟨l.length - 1, by omega⟩
          rw [hm, List.take_succ_cons] at hpre
          obtain ⟨q, hq⟩ := hpre
          simp [Path.startsWith, ← hq]
      · simp at hp
    obtain ⟨r, hr, hs⟩ := hroot
    rw [hr, hp]
    simp only [hs, Bool.true_and]
    rw [if_pos (by simpa [Path.startsWith] using hpre)]

theorem generate_import (E : Env) (o t : Path) (ty : ImportType) : Import.generate E ⟨o, t, ty⟩ =
    if ty = .submoduleReexport ∧ o ≠ t then do
      let rel ← ((t.parent).getD Path.empty).relativeTo o true
      if rel.synOk E then do
        let o ← o.name
        let t ← t.name
        if o = t then return some (.use rel none)
        else return some (.use rel (some (← t.trySyn E)))
      else return none
    else .ok none := by
  unfold Import.generate
  by_cases h : ty = .submoduleReexport
  · subst h
    by_cases h' : o = t
    · subst h'; simp
    · simp [h']
  · simp [h]

/-- A path made of Python identifiers, without a leading `::`. Its names need not be spellable in Rust. -/
def Spec.OfNames (E : Env) (p : Path) : Prop :=
  p.leadingColon = false ∧ p.segs ≠ [] ∧ ∀ i ∈ p.segs, ∃ s, IsIdent E s ∧ i = Ident.fromPy E s

theorem Spec.Spellable.ofNames {E : Env} {p : Path} (h : Spellable E p) : OfNames E p :=
  ⟨h.1, h.2.1, fun i hi => let ⟨s, h1, _, h3⟩ := h.2.2 i hi; ⟨s, h1, h3⟩⟩

theorem Spec.OfNames.plain {E : Env} {p : Path} (h : OfNames E p) : Plain p := by
  intro i hi
  obtain ⟨s, -, rfl⟩ := h.2.2 i hi
  exact fromPy_not_path E s

/-- **C06**: a re-export is placed in the module that does the import (the parent of the target); resolved there it leads to
the origin of the import, it binds the name of the import, its origin lies inside that module's subtree, and it is not
the target itself. -/
theorem C06_reexport (E : Env) (o t : Path) (ho : OfNames E o) (ht : OfNames E t) (item : Item)
    (h : Import.generate E (Import.new o t) = .ok (some item)) :
    ∃ rel asName pkg n, item = .use rel asName ∧ t.parent = some pkg ∧ t.segs = pkg.segs ++ [n] ∧
      resolve (pkg.segs.map Ident.rs) (rel.segs.map Ident.rs) = some (o.segs.map Ident.rs) ∧
      boundName rel asName = some n.rs ∧ RustIdent E n.rs ∧ pkg.segs <+: o.segs ∧ o ≠ t := by
  rw [Import.new, generate_import] at h
  split at h
  swap
  · simp at h
  · rename_i hc
    obtain ⟨hty, hne⟩ := hc
    obtain ⟨pkg, hp, hpre⟩ := (fromPaths_submodule o t).mp hty
    have hpk : pkg.leadingColon = false ∧ ∃ n, t.segs = pkg.segs ++ [n] ∧ t.segs.getLast? = some n := by
      simp only [Path.parent] at hp
      split at hp
      · cases hp
        refine ⟨ht.1, _, ?_, List.getLast?_eq_some_getLast ht.2.1⟩
        rw [← List.dropLast_eq_take]; exact (List.dropLast_concat_getLast ht.2.1).symm
      · simp at hp
    obtain ⟨hlc, n, hn, hnl⟩ := hpk
    obtain ⟨rel, hrel, _, hres⟩ := C05_relative_resolves pkg o true hlc ho.1 ho.2.1 ho.plain
    obtain ⟨no, hnol⟩ : ∃ n, o.segs.getLast? = some n := ⟨_, List.getLast?_eq_some_getLast ho.2.1⟩
    have hno : o.name = .ok no := by simp [Path.name, Path.name?, hnol, Res.ofOption]
    have hnt : t.name = .ok n := by simp [Path.name, Path.name?, hnl, Res.ofOption]
    have hlast := relativeTo_last pkg o hlc ho.1 ho.2.1 rel hrel
    obtain ⟨s, hs, hsn⟩ := ht.2.2 n (List.mem_of_getLast? hnl)
    have hlegal : ∀ x, n.toSyn E = some x → x = n.rs ∧ RustIdent E n.rs := by
      intro x hx
      have hu : s ∉ unspellable := by
        intro hc
        have := (C02_exceptions E s hs).mpr hc
        rw [hsn, this] at hx
        cases hx
      have := C02_legal E s hs hu
      rw [hsn, this.1] at hx
      cases hx
      exact ⟨by rw [hsn], by rw [hsn]; exact this.2⟩
    rw [hp] at h
    simp only [Option.getD_some, hrel, Res.ok_bind, hno, hnt] at h
    split at h
    · rename_i hok
      split at h
      · rename_i heq
        cases h
        refine ⟨rel, none, pkg, n, rfl, hp, hn, hres, ?_, ?_, hpre, hne⟩
        · simp [boundName, hlast, hnol, heq]
        · simp only [Path.synOk, Bool.and_eq_true, List.all_eq_true] at hok
          have := hok.2 n (List.mem_of_getLast? (by rw [hlast, hnol, heq]))
          simp only [Path.synSegOk, Bool.or_eq_true] at this
          rcases this with h1 | h1
          · obtain ⟨x, hx⟩ := Option.isSome_iff_exists.mp h1
            exact (hlegal x hx).2
          · exfalso
            have := fromPy_not_path E s
            rw [← hsn] at this
            simp only [List.contains_eq_mem, decide_eq_true_eq, List.mem_cons, List.not_mem_nil, or_false] at h1
            tauto
      · cases hsy : n.toSyn E with
        | none => simp only [Ident.trySyn, hsy, Res.orErr] at h; cases h
        | some x =>
          obtain ⟨rfl, hl⟩ := hlegal x hsy
          simp only [Ident.trySyn, hsy, Res.orErr, Res.ok_bind] at h
          cases h
          exact ⟨rel, _, pkg, n, rfl, hp, hn, hres, rfl, hl, hpre, hne⟩
    · simp [Res.pure_eq] at h

/-- A concrete environment and three paths for the examples. -/
def exPath (s : Str) : Path := Path.fromPy (.ascii true false) s

theorem exSpellable {p : Path} (h1 : p.leadingColon = false) (h2 : p.segs ≠ [])
    (h3 : p.segs.all (fun i => isIdentText (.ascii true false) i.asPy && !unspellable.contains i.asPy &&
      decide (i = Ident.fromPy (.ascii true false) i.asPy)) = true) : Spellable (.ascii true false) p := by
  refine ⟨h1, h2, fun i hi => ?_⟩
  have := List.all_eq_true.mp h3 i hi
  simp only [Bool.and_eq_true, decide_eq_true_eq, Bool.not_eq_true', List.contains_eq_mem, decide_eq_false_iff_not] at this
  exact ⟨i.asPy, (isIdentText_iff _ _).mp this.1.1, this.1.2, this.2⟩

example : Spellable (.ascii true false) (exPath c!"pkg.sub.Foo") ∧ Spellable (.ascii true false) (exPath c!"pkg.match") ∧
    Import.generate (.ascii true false) (Import.new (exPath c!"pkg.sub.Foo") (exPath c!"pkg.match")) =
      .ok (some (.use ⟨false, [⟨c!"self"⟩, ⟨c!"sub"⟩, ⟨c!"Foo"⟩]⟩ (some c!"r#match"))) :=
  ⟨exSpellable rfl (by decide) (by decide), exSpellable rfl (by decide) (by decide), by rfl⟩

/-- **C06**: exactly the imports from inside the importing module's own subtree are re-exported, except self-imports. -/
theorem C06_emitted_iff (E : Env) (o t : Path) (ho : Spellable E o) (ht : Spellable E t) :
    (∃ item, Import.generate E (Import.new o t) = .ok (some item)) ↔
      o ≠ t ∧ 2 ≤ t.segs.length ∧ t.segs.dropLast <+: o.segs := by
  have hpar : (∃ p, t.parent = some p ∧ p.segs <+: o.segs) ↔ 2 ≤ t.segs.length ∧ t.segs.dropLast <+: o.segs := by
    simp only [Path.parent]
    split
    · rename_i hl
      simp only [Option.some.injEq, exists_eq_left', List.dropLast_eq_take]
      exact ⟨fun h => ⟨hl, h⟩, fun h => h.2⟩
    · rename_i hl
      constructor
      · rintro ⟨p, hp, _⟩; simp at hp
      · rintro ⟨h, _⟩; exact absurd h (by omega)
  constructor
  · rintro ⟨item, h⟩
    obtain ⟨rel, asName, pkg, n, _, hp, _, _, _, _, hpre, hne⟩ := C06_reexport E o t ho.ofNames ht.ofNames item h
    exact ⟨hne, hpar.mp ⟨pkg, hp, hpre⟩⟩
  · rintro ⟨hne, hsub⟩
    obtain ⟨pkg, hp, hpre⟩ := hpar.mpr hsub
    have hty := (fromPaths_submodule o t).mpr ⟨pkg, hp, hpre⟩
    have hlc : pkg.leadingColon = false := by
      simp only [Path.parent] at hp
      split at hp
      · cases hp; exact ht.1
      · simp at hp
    obtain ⟨rel, hrel, _, hres⟩ := C05_relative_resolves pkg o true hlc ho.1 ho.2.1 ho.plain
    obtain ⟨no, hno, hnol, hnos⟩ := ho.name
    obtain ⟨nt, hnt, hntl, hnts⟩ := ht.name
    have hok : rel.synOk E = true := by
      simp only [Path.synOk, Bool.and_eq_true, List.all_eq_true]
      constructor
      · cases hs : rel.segs with
        | nil => rw [hs] at hres; simp [resolve] at hres
        | cons => rfl
      · intro i hi
        rcases relativeTo_mem pkg o true rel hrel i hi with h | h | h
        · simp [Path.synSegOk, h]
        · simp [Path.synSegOk, h]
        · exact ho.synOk i h
    rw [Import.new, generate_import, if_pos ⟨hty, hne⟩]
    simp only [hp, Option.getD_some, hrel, Res.ok_bind, hok, if_true, hno, hnt, Ident.trySyn, hnts, Res.orErr]
    split <;> exact ⟨_, rfl⟩

example : exPath c!"a.b.C" ≠ exPath c!"a.D" ∧ 2 ≤ (exPath c!"a.D").segs.length ∧
    (exPath c!"a.D").segs.dropLast <+: (exPath c!"a.b.C").segs := by decide

/-- **C06**: nothing is emitted for a self-import. -/
theorem C06_self_import (E : Env) (p : Path) : Import.generate E (Import.new p p) = .ok none := by
  rw [Import.new, generate_import, if_neg (by simp)]

/-- **C06**, spellable names are needed: an import under a name that Rust cannot spell makes generation fail. -/
theorem C06_unspellable_counterexample :
    Import.generate (.ascii true false) (Import.new (exPath c!"pkg.sub.foo") (exPath c!"pkg.crate")) =
      .error (.err .synError) := by rfl

/-! ## C54 -/

/-- The text is an ordinary absolute dotted name, or empty. -/
def Spec.DottedName (s : Str) : Prop := s = [] ∨ ∃ segs, segs ≠ [] ∧ (∀ x ∈ segs, PySegment x) ∧ s = Str.join c!"." segs

theorem Spec.DottedName.roundtrip (E : Env) {s : Str} (h : DottedName s) : (Path.fromPy E s).toPy = s := by
  rcases h with rfl | ⟨segs, hne, hs, rfl⟩
  · rfl
  · have := toPy_fromPy E 0 hne hs
    simpa [dotted] using this

/-- What Python reports about an attribute, as a decision table. -/
structure Spec.Facts where
  /-- an instance of `ModuleType`, a class, a builtin function, a Python function, a bound method -/
  isModule : Prop
  isClass : Prop
  isBuiltin : Prop
  isFunction : Prop
  isMethod : Prop
  /-- a `functools.partial` object -/
  isPartial : Prop
  /-- its class is defined in `typing` or `types` -/
  isTyping : Prop
  /-- it says it was defined in another module than the one inspected, and not inside a function -/
  elsewhere : Prop

/-- The facts of a snapshot. -/
def Spec.factsOf (o : PyObj) (attrModule owner : Path) : Facts where
  isModule := o.isModule = true
  isClass := o.isClass = true
  isBuiltin := o.isCFunction = true
  isFunction := o.isFunction = some true
  isMethod := o.isMethod = some true
  isPartial := o.typeModule = c!"functools" ∧ o.typeName = c!"partial"
  isTyping := o.typeModule = c!"typing" ∨ o.typeModule = c!"types"
  elsewhere := attrModule ≠ owner ∧ ¬ c!"<locals>" <:+: o.repr

/-- The documented priority: each variant applies if none of the earlier ones does. -/
def Spec.Applies (F : Facts) (considerImport : Bool) : Variant → Prop
  | .import => considerImport = true ∧ F.elsewhere ∧ (F.isModule ∨ F.isClass ∨ F.isFunction ∨ F.isMethod)
  | .module => F.isModule
  | .class => F.isClass
  | .function => F.isBuiltin ∨ F.isFunction
  | .method => F.isMethod
  | .closure => F.isPartial
  | .typeVar => F.isTyping
  | .property => True

/-- The order of the variants. -/
def Spec.priority : List Variant := [.import, .module, .class, .function, .method, .closure, .typeVar, .property]

/-- **C54**: an attribute gets the first variant of the priority list that applies to it. -/
theorem C54_priority (E : Env) (o : PyObj) (attrModule owner : Path) (ci : Bool) (v : Variant)
    (hn : ¬ c!"r#" <+: o.typeName) (hm : DottedName o.typeModule) (h : determine E o attrModule owner ci = .ok v) :
    ∃ before after, priority = before ++ v :: after ∧ Applies (factsOf o attrModule owner) ci v ∧
      ∀ w ∈ before, ¬ Applies (factsOf o attrModule owner) ci w := by
  rw [determine, hm.roundtrip E, asPy_fromPy E hn] at h
  obtain ⟨_, -, h⟩ := Res.bind_ok h
  obtain ⟨f, hf, h⟩ := Res.bind_ok h
  obtain ⟨g, hg, h⟩ := Res.bind_ok h
  have hf' : o.isFunction = some f := by
    cases hx : o.isFunction with
    | none => rw [hx] at hf; simp [Res.orErr] at hf
    | some x => rw [hx] at hf; cases hf; rfl
  have hg' : o.isMethod = some g := by
    cases hx : o.isMethod with
    | none => rw [hx] at hg; simp [Res.orErr] at hg
    | some x => rw [hx] at hg; cases hg; rfl
  have hl : Str.containsSub c!"<locals>" o.repr = decide (c!"<locals>" <:+: o.repr) := by
    rw [Bool.eq_iff_iff, containsSub_iff, decide_eq_true_iff]
  rw [hl] at h
  simp only [Res.pure_eq, Except.ok.injEq] at h
  have fin : ∀ (before after : List Variant), priority = before ++ v :: after →
      Applies (factsOf o attrModule owner) ci v → (∀ w ∈ before, ¬ Applies (factsOf o attrModule owner) ci w) →
      ∃ before after, priority = before ++ v :: after ∧ Applies (factsOf o attrModule owner) ci v ∧
      ∀ w ∈ before, ¬ Applies (factsOf o attrModule owner) ci w := fun b a h1 h2 h3 => ⟨b, a, h1, h2, h3⟩
  split at h
  · rename_i h1
    subst h
    refine fin [] _ rfl ?_ (by simp)
    simp only [Bool.and_eq_true, Bool.or_eq_true, Bool.not_eq_true', decide_eq_false_iff_not, decide_eq_true_eq] at h1
    simp only [Applies, factsOf, hf', hg', Option.some.injEq]
    tauto
  · rename_i h1
    have n1 : ¬ Applies (factsOf o attrModule owner) ci .import := by
      simp only [Bool.and_eq_true, Bool.or_eq_true, Bool.not_eq_true', decide_eq_false_iff_not, decide_eq_true_eq] at h1
      simp only [Applies, factsOf, hf', hg', Option.some.injEq]
      tauto
    split at h
    · rename_i h2
      subst h
      exact fin [.import] _ rfl h2 (by simpa using n1)
    · rename_i n2
      split at h
      · rename_i h3
        subst h
        exact fin [.import, .module] _ rfl h3 (by simp only [List.forall_mem_cons]; exact ⟨n1, n2, by simp⟩)
      · rename_i n3
        split at h
        · rename_i h4
          subst h
          refine fin [.import, .module, .class] _ rfl ?_ (by simp only [List.forall_mem_cons]; exact ⟨n1, n2, n3, by simp⟩)
          simpa [Applies, factsOf, hf'] using h4
        · rename_i n4
          have n4 : ¬ Applies (factsOf o attrModule owner) ci .function := by simpa [Applies, factsOf, hf'] using n4
          split at h
          · rename_i h5
            subst h
            refine fin [.import, .module, .class, .function] _ rfl ?_
              (by simp only [List.forall_mem_cons]; exact ⟨n1, n2, n3, n4, by simp⟩)
            simp [Applies, factsOf, hg', h5]
          · rename_i n5
            have n5 : ¬ Applies (factsOf o attrModule owner) ci .method := by simpa [Applies, factsOf, hg'] using n5
            split at h
            · rename_i h6
              subst h
              refine fin [.import, .module, .class, .function, .method] _ rfl ?_
                (by simp only [List.forall_mem_cons]; exact ⟨n1, n2, n3, n4, n5, by simp⟩)
              simpa [Applies, factsOf] using h6
            · rename_i n6
              have n6 : ¬ Applies (factsOf o attrModule owner) ci .closure := by simpa [Applies, factsOf] using n6
              split at h
              · rename_i h7
                subst h
                refine fin [.import, .module, .class, .function, .method, .closure] _ rfl ?_
                  (by simp only [List.forall_mem_cons]; exact ⟨n1, n2, n3, n4, n5, n6, by simp⟩)
                simpa [Applies, factsOf] using h7
              · rename_i n7
                have n7 : ¬ Applies (factsOf o attrModule owner) ci .typeVar := by simpa [Applies, factsOf] using n7
                subst h
                refine fin [.import, .module, .class, .function, .method, .closure, .typeVar] _ rfl trivial
                  (by simp only [List.forall_mem_cons]; exact ⟨n1, n2, n3, n4, n5, n6, n7, by simp⟩)

/-- A class imported from another module, seen from `pkg`. -/
def exImported : PyObj where
  modPath := c!"pkg.sub"
  typeName := c!"type"
  typeModule := c!"builtins"
  repr := c!"<class 'pkg.sub.Foo'>"
  isClass := true

example : ¬ c!"r#" <+: exImported.typeName ∧ DottedName exImported.typeModule ∧
    determine (.ascii true false) exImported (exPath c!"pkg.sub") (exPath c!"pkg") true = .ok .import ∧
    determine (.ascii true false) exImported (exPath c!"pkg.sub") (exPath c!"pkg") false = .ok .class := by
  refine ⟨by decide, Or.inr ⟨[c!"builtins"], by simp, ?_, by decide⟩, by decide, by decide⟩
  simp only [List.mem_singleton, forall_eq]
  unfold PySegment; decide

/-- **C54**: the classification fails only if `inspect` itself raises; it panics only in a debug build, on a type without a name
or from a module whose name contains `::`. -/
theorem C54_total (E : Env) (o : PyObj) (attrModule owner : Path) (ci : Bool) :
    (∃ v, determine E o attrModule owner ci = .ok v) ∨
      ((o.isFunction = none ∨ o.isMethod = none) ∧ determine E o attrModule owner ci = .error (.err .pyError)) ∨
      ((E.debug = true ∧ (o.typeName = [] ∨ c!"::" <:+: o.typeModule)) ∧
        determine E o attrModule owner ci = .error (.panic .assertion)) := by
  by_cases hc : E.debug = true ∧ (o.typeName = [] ∨ c!"::" <:+: o.typeModule)
  · refine Or.inr (Or.inr ⟨hc, ?_⟩)
    rw [determine, (checkType_panics E o).mpr hc]
    simp only [error_bind]
  rw [determine, (checkType_ok E o).mpr fun hd => ⟨fun h => hc ⟨hd, Or.inl h⟩, fun h => hc ⟨hd, Or.inr h⟩⟩]
  simp only [Res.ok_bind]
  cases hf : o.isFunction with
  | none => exact Or.inr (Or.inl ⟨Or.inl rfl, rfl⟩)
  | some f =>
    cases hg : o.isMethod with
    | none => exact Or.inr (Or.inl ⟨Or.inr rfl, rfl⟩)
    | some g => exact Or.inl ⟨_, rfl⟩

/-- The three cases. -/
example : (∃ v, determine (.ascii true false) exImported (exPath c!"pkg.sub") (exPath c!"pkg") true = .ok v) ∧
    determine (.ascii true false) { exImported with isFunction := none } (exPath c!"pkg.sub") (exPath c!"pkg") true =
      .error (.err .pyError) ∧
    determine (.ascii true false) { exImported with typeModule := c!"std::any" } (exPath c!"pkg.sub") (exPath c!"pkg") true =
      .error (.panic .assertion) := by
  refine ⟨⟨.import, by decide⟩, by decide, by decide⟩

/-- **C54**: members of classes are never taken for imports, and attributes defined in the inspected module itself
neither. -/
theorem C54_not_import (E : Env) (o : PyObj) (attrModule owner : Path) (ci : Bool)
    (h : ci = false ∨ attrModule = owner) : determine E o attrModule owner ci ≠ .ok .import := by
  intro hd
  rw [determine] at hd
  obtain ⟨_, -, hd⟩ := Res.bind_ok hd
  obtain ⟨f, -, hd⟩ := Res.bind_ok hd
  obtain ⟨g, -, hd⟩ := Res.bind_ok hd
  simp only [Res.pure_eq, Except.ok.injEq] at hd
  rw [if_neg (by rcases h with rfl | rfl <;> simp)] at hd
  repeat' split at hd
  all_goals simp at hd

example : determine (.ascii true false) exImported (exPath c!"pkg.sub") (exPath c!"pkg.sub") true = .ok .class := by decide

end Bindgen

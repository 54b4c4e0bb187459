import Verif.Model.Live
import Verif.Spec.Live
import Verif.Lemmas.Deps
import Verif.Lemmas.Path
import Verif.Lemmas.Typing
import Verif.Props.Session
import Verif.Props.Tree
import Verif.Props.Flags
/-!
# C61: bindings do not depend on what was loaded earlier
-/
namespace Bindgen
open Spec


theorem later_get {P : Str → Prop} {W W' : World} (h : Later P W W') (id : Nat) :
    (W.get? id = none ∧ W'.get? id = none) ∨ ∃ m m', W.get? id = some m ∧ W'.get? id = some m' ∧ LaterMod W P m m' := by
  have := h.mods
  unfold World.get?
  generalize W.mods = l at this
  generalize W'.mods = l' at this
  induction this generalizing id with
  | nil => simp
  | cons h1 _ ih =>
    cases id with
    | zero => exact Or.inr ⟨_, _, rfl, rfl, h1⟩
    | succ id => simpa using ih id

theorem filter_map_drop {α β : Type} (f : α → β) (q : β → Bool) (r : α → Bool) (l : List α)
    (h : ∀ s ∈ l, r s = false → q (f s) = false) : (l.map f).filter q = ((l.filter r).map f).filter q := by
  induction l with
  | nil => rfl
  | cons a l ih =>
    have := ih fun s hs => h s (List.mem_cons_of_mem _ hs)
    cases hr : r a with
    | true => simp [List.filter_cons, hr, this]
    | false => simp [hr, h a (by simp) hr, this]

theorem foldRes_skip {α β γ : Type} {f : α → β → Res α} {g g' : γ → Option β} {l : List γ}
    (h : ∀ i ∈ l, g' i = g i ∨ (g i = none ∧ ∀ b, g' i = some b → ∀ a, f a b = .ok a)) (a : α) :
    foldRes f a (l.filterMap g') = foldRes f a (l.filterMap g) := by
  induction l generalizing a with
  | nil => rfl
  | cons i l ih =>
    have ih := ih fun j hj => h j (List.mem_cons_of_mem _ hj)
    rcases h i (by simp) with hi | ⟨hi, hn⟩
    · rw [List.filterMap_cons, List.filterMap_cons, hi]
      cases g i with
      | none => exact ih a
      | some b =>
        simp only [foldRes]
        cases f a b with
        | error e => rfl
        | ok a' => exact ih a'
    · rw [List.filterMap_cons, List.filterMap_cons, hi]
      cases hg : g' i with
      | none => exact ih a
      | some b =>
        simp only [foldRes]
        rw [hn b hg a, Res.ok_bind]
        exact ih a

theorem filterMap_isSome {α β : Type} (g : α → Option β) (l : List α) : l.filterMap g = (l.filter fun i => (g i).isSome).filterMap g := by
  induction l with
  | nil => rfl
  | cons a l ih =>
    cases hg : g a with
    | none => simp [hg, ih]
    | some b => simp [hg, ih]

/-- The attribute of a bound submodule is passed over. -/
theorem bound_passed {E : Env} {cfg : Config} {W : World} {segs : List Str} (hne : segs ≠ []) (hs : ∀ x ∈ segs, PySegment x)
    {s : Str} (hseg : PySegment s) {a : PyAttr} (h : BoundSubmodule W (Str.join c!"." segs) s a) (st : ParseState) :
    moduleStep E cfg (Path.fromPy E (Str.join c!"." segs)) st (Ident.fromPy E s, a) = .ok st := by
  have hname : Path.fromPy E (Str.join c!"." segs) = ⟨false, segs.map (Ident.fromPy E)⟩ := by
    simpa [dotted] using fromPy_dotted E 0 hne hs
  have hsub : Path.fromPy E (Str.join c!"." segs ++ c!"." ++ s) = ⟨false, segs.map (Ident.fromPy E) ++ [Ident.fromPy E s]⟩ := by
    have h1 : Str.join c!"." segs ++ c!"." ++ s = Str.join c!"." (segs ++ [s]) := by
      rw [join_append _ hne]; simp [Str.join]
    have := fromPy_dotted E 0 (segs := segs ++ [s]) (by simp) (by
      intro x hx
      rcases List.mem_append.mp hx with hx | hx
      · exact hs x hx
      · rw [List.mem_singleton] at hx; exact hx ▸ hseg)
    rw [h1]
    simpa [dotted] using this
  have hempty : Path.fromPy E [] = ⟨false, []⟩ := rfl
  unfold moduleStep determine
  rw [(checkType_ok E a.obj).mpr fun _ => h.typed]
  simp only [h.noFunction, h.noMethod, h.repr, h.isModule, h.noModulePath, hempty, hname]
  have hd : decide ((⟨false, []⟩ : Path) ≠ ⟨false, segs.map (Ident.fromPy E)⟩) = true := by
    cases segs with
    | nil => exact absurd rfl hne
    | cons => simp
  simp only [Res.orErr, Res.ok_bind, hd, Bool.not_false, Bool.true_or, Bool.and_self, if_true, Res.pure_eq]
  rw [noColons_check (n := (a.obj.dunderName.getD (Ident.fromPy E s).asPy)) fun _ => by rw [h.name]; exact h.noColons]
  simp only [Res.ok_bind]
  unfold stepImport
  simp only [h.noModulePath, h.name, hempty, Option.getD_some, hsub, Path.join, Path.ofIdent, List.nil_append, if_true]

/-- A private name is not allowed unless private names are included. -/
theorem private_not_allowed {cfg : Config} (hc : cfg.includePrivate = false) {i : Ident} (h : Str.startsWith i.asPy c!"_" = true)
    (p : Path) : cfg.isAttrAllowed i p = false := by
  unfold Config.isAttrAllowed
  simp [hc, h]

theorem later_candidates {E : Env} {cfg : Config} {W : World} {P : Str → Prop} {m m' : PyMod} (h : LaterMod W P m m')
    (hc : cfg.includePrivate = false) {n : Str} (hn : m.name = some n) (st : ParseState) :
    foldRes (moduleStep E cfg (Path.fromPy E n)) st (moduleCandidates E cfg m') =
      foldRes (moduleStep E cfg (Path.fromPy E n)) st (moduleCandidates E cfg m) := by
  unfold moduleCandidates
  rw [foldRes_skip (g := fun i => match m.getattr i.asPy with
    | none => none
    | some a => if cfg.isAttrAllowed i (Path.fromPy E a.obj.modPath) then some (i, a) else none)]
  · congr 1
    rw [filterMap_isSome, filterMap_isSome _ (unique (m.dir.map (Ident.fromPy E))), filter_unique, filter_unique,
      filter_map_drop _ _ (fun s => decide (s ∈ m.dir)), h.listed]
    · rfl
    · intro s hs hd
      have hs' : s ∉ m.dir := by simpa using hd
      rw [asPy_fromPy E (h.plain s hs), (h.names s hs hs').1]
      rfl
  · intro i hi
    cases hg : m.getattr i.asPy with
    | some a => left; rw [h.kept _ _ hg]
    | none =>
      right
      refine ⟨rfl, ?_⟩
      intro b hb st
      cases hg' : m'.getattr i.asPy with
      | none => rw [hg'] at hb; cases hb
      | some a =>
        rw [hg'] at hb
        simp only at hb
        split at hb
        · rename_i hal
          cases hb
          rw [mem_unique] at hi
          obtain ⟨t, ht, rfl⟩ := List.mem_map.mp hi
          rw [asPy_fromPy E (h.plain t ht)] at hg hg'
          obtain ⟨hseg, -, segs, hne, hsegs, hname, htr⟩ := h.added t a hg hg'
          rw [hn] at hname
          cases hname
          rcases htr with ⟨rfl, -⟩ | ⟨-, hb⟩
          · rw [private_not_allowed hc (by rw [asPy_fromPy E (h.plain _ ht)]; rfl)] at hal
            cases hal
          · exact bound_passed hne hsegs hseg hb st
        · cases hb

theorem bind_congr_ok {α β : Type} {x : Res α} {f g : α → Res β} (h : ∀ a, x = .ok a → f a = g a) : (x >>= f) = (x >>= g) := by
  cases x with
  | error e => rfl
  | ok a => exact h a rfl

theorem later_dir {P : Str → Prop} {W : World} {m m' : PyMod} (h : LaterMod W P m m') {s : Str} (hs : s ∈ m.dir) : s ∈ m'.dir := by
  have := h.listed ▸ hs
  exact (List.mem_filter.mp this).1

theorem later_modPath {P : Str → Prop} {W : World} {m m' : PyMod} (h : LaterMod W P m m') {s : Str} {a : PyAttr}
    (hn : m.getattr s = none) (hs : m'.getattr s = some a) : a.obj.modPath = [] := by
  obtain ⟨-, -, segs, -, -, -, htr⟩ := h.added s a hn hs
  rcases htr with ⟨-, -, h⟩ | ⟨-, h⟩
  · exact h
  · exact h.noModulePath

theorem later_modPaths (E : Env) {P : Str → Prop} {W : World} {m m' : PyMod} (h : LaterMod W P m m') {l l' : List Ident}
    (hl : ∀ i ∈ l, i ∈ l') (hl' : ∀ i ∈ l', i ∈ l ∨ m.getattr i.asPy = none) :
    Path.checkPy E ((l'.filterMap (fun i => m'.getattr i.asPy)).map (fun a => a.obj.modPath)) =
      Path.checkPy E ((l.filterMap (fun i => m.getattr i.asPy)).map (fun a => a.obj.modPath)) := by
  refine pathCheck_congr E fun s hs => ?_
  simp only [List.mem_map, List.mem_filterMap]
  constructor
  · rintro ⟨a, ⟨i, hi, ha⟩, rfl⟩
    cases hg : m.getattr i.asPy with
    | none => exact absurd (later_modPath h hg ha) hs
    | some b =>
      rw [h.kept _ _ hg] at ha
      cases ha
      rcases hl' i hi with hi | hi
      · exact ⟨a, ⟨i, hi, hg⟩, rfl⟩
      · rw [hg] at hi; cases hi
  · rintro ⟨a, ⟨i, hi, ha⟩, rfl⟩
    exact ⟨a, ⟨i, hl i hi, h.kept _ _ ha⟩, rfl⟩

theorem later_checkDir (E : Env) {P : Str → Prop} {W : World} {m m' : PyMod} (h : LaterMod W P m m') :
    checkDir E m'.dirRaises m'.dir = checkDir E m.dirRaises m.dir := by
  have hr : m'.dirRaises = m.dirRaises := by rw [h.same]
  unfold checkDir
  rw [hr]
  split
  · rfl
  · refine identCheck_congr E ⟨fun hm => ?_, later_dir h⟩
    by_contra hn
    exact (h.names _ hm hn).2.2 rfl

theorem later_checkAttrs (E : Env) {P : Str → Prop} {W : World} {m m' : PyMod} (h : LaterMod W P m m') :
    checkAttrs E m' = checkAttrs E m := by
  unfold checkAttrs
  rw [later_checkDir E h]
  refine bind_congr_ok fun _ _ => later_modPaths E h ?_ ?_
  · intro i hi
    obtain ⟨t, ht, rfl⟩ := List.mem_map.mp hi
    exact List.mem_map_of_mem (later_dir h ht)
  · intro i hi
    obtain ⟨t, ht, rfl⟩ := List.mem_map.mp hi
    by_cases hd : t ∈ m.dir
    · exact Or.inl (List.mem_map_of_mem hd)
    · right
      rw [asPy_fromPy E (h.plain t ht)]
      exact (h.names t ht hd).1

theorem later_indexIsPublic {E : Env} {W : World} {P : Str → Prop} {m m' : PyMod} (h : LaterMod W P m m')
    (hp : ∀ s, P s → Str.startsWith s c!"_" = true) : indexIsPublic E m' = indexIsPublic E m := by
  have hall : m'.all = m.all := by rw [h.same]
  have hpub : (m'.dir.map (Ident.fromPy E)).filter (fun i => !Str.startsWith i.asPy c!"_") =
      (m.dir.map (Ident.fromPy E)).filter (fun i => !Str.startsWith i.asPy c!"_") := by
    rw [filter_map_drop _ _ (fun s => decide (s ∈ m.dir)), h.listed]
    intro s hs hd
    have hs' : s ∉ m.dir := by simpa using hd
    rw [asPy_fromPy E (h.plain s hs), hp s (h.names s hs hs').2.1]
    rfl
  unfold indexIsPublic indexIdents
  rw [hall, hpub]

theorem later_checkPrelude {E : Env} {cfg : Config} {W : World} {P : Str → Prop} {m m' : PyMod} (h : LaterMod W P m m')
    (hp : ∀ s, P s → Str.startsWith s c!"_" = true) (name : Path) : checkPrelude E cfg m' name = checkPrelude E cfg m name := by
  have hall : m'.all = m.all := by rw [h.same]
  have hin : indexIdents E m' = indexIdents E m := by unfold indexIdents; rw [hall]
  unfold checkPrelude
  rw [hall, later_checkDir E h, later_indexIsPublic h hp, hin, later_modPaths E h (fun _ hi => hi) (fun _ hi => Or.inl hi)]

theorem later_prelude {E : Env} {cfg : Config} {W : World} {P : Str → Prop} {m m' : PyMod} (h : LaterMod W P m m')
    (hc : cfg.includePrivate = false) (hp : ∀ s, P s → Str.startsWith s c!"_" = true) (name : Path) :
    extractPrelude E cfg m' name = extractPrelude E cfg m name := by
  have hall : m'.all = m.all := by rw [h.same]
  have hin : indexIdents E m' = indexIdents E m := by unfold indexIdents; rw [hall]
  have hget : ∀ i : Ident, m'.getattr i.asPy = m.getattr i.asPy ∨ (m.getattr i.asPy = none ∧ cfg.isAttrAllowed i name = false) := by
    intro i
    cases hg : m.getattr i.asPy with
    | some a => exact Or.inl (h.kept _ _ hg)
    | none =>
      cases hg' : m'.getattr i.asPy with
      | none => exact Or.inl rfl
      | some a => exact Or.inr ⟨rfl, private_not_allowed hc (hp _ (h.added _ a hg hg').2.1) _⟩
  unfold extractPrelude
  rw [later_indexIsPublic h hp, hin]
  simp only
  split
  · rfl
  · split
    · refine List.filter_congr fun i _ => ?_
      rcases hget i with h | ⟨h, h'⟩
      · rw [h]
      · rw [h, h']; cases m'.getattr i.asPy <;> rfl
    · rw [List.filter_filter, List.filter_filter]
      refine List.filter_congr fun i _ => ?_
      rcases hget i with h | ⟨h, h'⟩
      · rw [h]
      · rw [h, h']; cases m'.getattr i.asPy <;> simp

theorem later_submoduleId {E : Env} {W W' : World} {P : Str → Prop} (hW : W'.importMod = W.importMod) {m m' : PyMod}
    (h : LaterMod W P m m') {n : Str} (hn : m.name = some n) (i : Ident) :
    submoduleId W' m' (Path.fromPy E n) i = submoduleId W m (Path.fromPy E n) i := by
  unfold submoduleId
  rw [hW]
  cases hi : W.importMod ((Path.fromPy E n).join (Path.ofIdent i)).toPy with
  | some id => rfl
  | none =>
    simp only
    cases hg : m.getattr i.asPy with
    | some a => rw [h.kept _ _ hg]
    | none =>
      cases hg' : m'.getattr i.asPy with
      | none => rfl
      | some a =>
        obtain ⟨hseg, -, segs, hne, hsegs, hname, htr⟩ := h.added _ a hg hg'
        rw [hn] at hname
        cases hname
        rcases htr with ⟨-, hm⟩ | ⟨-, hb⟩
        · exact hm.1
        · exfalso
          have : ((Path.fromPy E (Str.join c!"." segs)).join (Path.ofIdent i)).toPy = Str.join c!"." segs ++ c!"." ++ i.asPy := by
            have h1 : Path.fromPy E (Str.join c!"." segs) = ⟨false, segs.map (Ident.fromPy E)⟩ := by
              simpa [dotted] using fromPy_dotted E 0 hne hsegs
            have h2 := toPy_segs E 0 (segs := segs) hsegs
            simp only [List.replicate_zero, List.nil_append] at h2
            rw [h1, Path.toPy]
            simp only [Path.join, Path.ofIdent, List.map_append, List.map_cons, List.map_nil] at h2 ⊢
            rw [h2, if_neg hseg.2.2.2, join_append _ hne]
            simp [Str.join]
          rw [this, hb.loaded.2] at hi
          exact hb.loaded.1 hi

/-- The configuration does not look at traces under names for which `P` holds. -/
structure Spec.Blind (cfg : Config) (P : Str → Prop) : Prop where
  /-- private names, such as `__all__`, are not included -/
  noPrivate : cfg.includePrivate = false
  /-- with preludes, only private submodules have been imported -/
  preludes : cfg.generatePreludes = true → ∀ s, P s → Str.startsWith s c!"_" = true
  /-- with dependencies, no submodule has been imported -/
  dependencies : cfg.generateDependencies = true → ∀ s, P s → s = c!"__all__"

/-- **C61** (parsing): a module is parsed to the same as before. -/
theorem C61_parse (E : Env) (cfg : Config) (P : Str → Prop) (W W' : World) (h : Later P W W') (hb : Blind cfg P) (fuel id : Nat) :
    Module.parse E cfg W' fuel id = Module.parse E cfg W fuel id := by
  induction fuel generalizing id with
  | zero => rfl
  | succ fuel ih =>
    unfold Module.parse
    rcases later_get h id with ⟨h1, h2⟩ | ⟨m, m', h1, h2, hm⟩
    · rw [h1, h2]; simp only [Res.ofOption, error_bind]
    · rw [h1, h2]
      simp only [Res.ofOption, Res.ok_bind]
      have hn' : m'.name = m.name := by rw [hm.same]
      have hpk : m'.isPackage = m.isPackage := by rw [hm.same]
      have hdoc : m'.doc = m.doc := by rw [hm.same]
      have hit : ∀ name, extractSubmodules E cfg m' name = extractSubmodules E cfg m name := by
        intro name; unfold extractSubmodules; rw [hm.same]
      rw [hn']
      cases hn : m.name with
      | none => simp only [error_bind]
      | some n =>
        simp only [Res.ok_bind]
        have hpre : (if cfg.generatePreludes = true then extractPrelude E cfg m' (Path.fromPy E n) else []) =
            if cfg.generatePreludes = true then extractPrelude E cfg m (Path.fromPy E n) else [] := by
          split
          · rename_i hp; exact later_prelude hm hb.noPrivate (hb.preludes hp) _
          · rfl
        have hstep : submoduleStep W' m' (Path.fromPy E n) (Module.parse E cfg W' fuel) =
            submoduleStep W m (Path.fromPy E n) (Module.parse E cfg W fuel) := by
          have hr : Module.parse E cfg W' fuel = Module.parse E cfg W fuel := funext ih
          funext acc i
          unfold submoduleStep
          rw [hr, h.imports, later_submoduleId h.imports hm hn]
        have hcp : ifOn cfg.generatePreludes (checkPrelude E cfg m' (Path.fromPy E n)) () =
            ifOn cfg.generatePreludes (checkPrelude E cfg m (Path.fromPy E n)) () := by
          cases hp : cfg.generatePreludes with
          | false => simp only [ifOn, Bool.false_eq_true, if_false]
          | true => rw [later_checkPrelude hm (hb.preludes hp)]
        rw [hpre, hpk, hdoc, hit, hstep, hcp, later_checkAttrs E hm]
        simp only [later_candidates hm hb.noPrivate hn]

theorem later_walk {P : Str → Prop} {W W' : World} (h : Later P W W') (hp : ∀ s, P s → s = c!"__all__") (l : List Ident) (id : Nat) :
    walkModules W' id l = walkModules W id l := by
  induction l generalizing id with
  | nil => rfl
  | cons i l ih =>
    unfold walkModules
    have : (W'.get? id).bind (fun m => (m.getattr i.asPy).bind (fun a => a.mod)) =
        (W.get? id).bind (fun m => (m.getattr i.asPy).bind (fun a => a.mod)) := by
      rcases later_get h id with ⟨h1, h2⟩ | ⟨m, m', h1, h2, hm⟩
      · rw [h1, h2]
      · rw [h1, h2]
        simp only [Option.bind_some]
        cases hg : m.getattr i.asPy with
        | some a => rw [hm.kept _ _ hg]
        | none =>
          cases hg' : m'.getattr i.asPy with
          | none => rfl
          | some a =>
            obtain ⟨-, hP, segs, -, -, -, htr⟩ := hm.added _ a hg hg'
            rcases htr with ⟨-, h0⟩ | ⟨h0, -⟩
            · exact h0.1
            · exact absurd (hp _ hP) h0
    rw [this]
    split
    · exact ih _
    · rfl

theorem later_empty {P : Str → Prop} {W W' : World} (h : Later P W W') (name : Path) :
    Module.empty W' name = Module.empty W name := by
  unfold Module.empty
  rw [h.imports]
  cases W.importMod name.toPy with
  | none => rfl
  | some id =>
    simp only [Res.orErr, Res.ok_bind]
    rcases later_get h id with ⟨h1, h2⟩ | ⟨m, m', h1, h2, hm⟩
    · rw [h1, h2]
    · have hdoc : m'.doc = m.doc := by rw [hm.same]
      rw [h1, h2]
      simp only [Res.ofOption, Res.ok_bind, hdoc]

theorem later_request {E : Env} {P : Str → Prop} {W W' : World} (h : Later P W W') (fuel : Nat) (c : Codegen) (hb : Blind c.cfg P)
    (r : Request) : c.request E W' fuel r = c.request E W fuel r := by
  have hm : ∀ (c : Codegen) id, Blind c.cfg P → c.module E W' fuel id = c.module E W fuel id := by
    intro c id hb
    unfold Codegen.module
    rw [C61_parse E c.cfg P W W' h hb]
  cases r with
  | handle id => exact hm c id hb
  | name n =>
    show c.moduleName E W' fuel n = c.moduleName E W fuel n
    unfold Codegen.moduleName
    rw [h.imports]
    cases W.importMod n with
    | none => simp only [Res.orErr, error_bind]
    | some id => exact hm c id hb
  | source code n =>
    show c.moduleFromStr E W' fuel code n = c.moduleFromStr E W fuel code n
    unfold Codegen.moduleFromStr
    rw [h.sources]
    cases W.fromCode code n with
    | none => simp only [Res.orErr, error_bind]
    | some id => exact hm _ id hb

theorem later_prepare {E : Env} {P : Str → Prop} {W W' : World} (h : Later P W W') (fuel : Nat) (c : Codegen) (hb : Blind c.cfg P) :
    c.prepare E W' fuel = c.prepare E W fuel := by
  have hdep : ifOn c.cfg.generateDependencies (parseDependencies E c.cfg W' fuel c.modules) c.modules =
      ifOn c.cfg.generateDependencies (parseDependencies E c.cfg W fuel c.modules) c.modules := by
    cases hd : c.cfg.generateDependencies with
    | false => simp only [ifOn, Bool.false_eq_true, if_false]
    | true =>
      have hstep : depStep E c.cfg W' fuel = depStep E c.cfg W fuel := by
        funext st origin
        have hl : lastModule W' origin = lastModule W origin := by
          unfold lastModule
          rw [h.imports]
          simp only [later_walk h (hb.dependencies hd)]
        unfold depStep
        rw [hl]
        cases lastModule W origin with
        | error e => simp only [error_bind]
        | ok id =>
          simp only [Res.ok_bind]
          rcases later_get h id with ⟨h1, h2⟩ | ⟨m, m', h1, h2, hm⟩
          · rw [h1, h2]; simp only [Res.ofOption, error_bind]
          · have hn : m'.name = m.name := by rw [hm.same]
            have hp : m'.modPath = m.modPath := by rw [hm.same]
            rw [h1, h2]
            have hc : ∀ name, checkDep E m' name = checkDep E m name := fun name => by unfold checkDep; rw [hp]
            simp only [Res.ofOption, Res.ok_bind, hn, hp, hc, C61_parse E c.cfg P W W' h hb]
      unfold parseDependencies
      rw [hstep]
  have hwrap : Module.wrap W' = Module.wrap W := by
    funext m
    unfold Module.wrap
    simp only [later_empty h]
  unfold Codegen.prepare canonicalize
  rw [hdep, hwrap]

theorem later_generate {E : Env} {P : Str → Prop} {W W' : World} (h : Later P W W') (fuel : Nat) (c : Codegen) (hb : Blind c.cfg P) :
    c.generate E W' fuel = c.generate E W fuel := by
  have himp : W'.importable = W.importable := by
    funext n
    unfold World.importable
    rw [h.imports]
  unfold Codegen.generate
  rw [later_prepare h fuel c hb, himp]

theorem request_cfg {E : Env} {W : World} {fuel : Nat} {c c' : Codegen} {r : Request} (h : c.request E W fuel r = .ok c') :
    c'.cfg = c.cfg := by
  cases r with
  | handle id => exact module_cfg h
  | name n =>
    obtain ⟨id, -, h⟩ := Res.bind_ok h
    exact module_cfg h
  | source code n =>
    obtain ⟨id, -, h⟩ := Res.bind_ok h
    have := module_cfg h
    exact this

/-- The bindings of a run in an interpreter that changes from request to request by traces are those of a run in the interpreter
as it was. Missing: private names included (`C61_private_counterexample`), preludes next to imported submodules
(`C61_prelude_counterexample`), dependencies next to imported submodules
(`C61_dependency_counterexample`). -/
theorem C61_live_partial (E : Env) (fuel : Nat) (cfg : Config) (P : Str → Prop) (hb : Blind cfg P) (W W' : World)
    (steps : List (World × Request)) (hs : ∀ s ∈ steps, Later P W s.1) (hW : Later P W W') :
    runLive E fuel cfg steps W' = run E W fuel cfg (steps.map Prod.snd) := by
  have hfold : ∀ (c : Codegen), c.cfg = cfg → foldRes (fun c s => c.request E s.1 fuel s.2) c steps =
      foldRes (fun c r => c.request E W fuel r) c (steps.map Prod.snd) := by
    induction steps with
    | nil => intro _ _; rfl
    | cons s steps ih =>
      intro c hc
      rw [List.map_cons]
      unfold foldRes
      rw [later_request (hs s (by simp)) fuel c (hc ▸ hb)]
      cases hr : c.request E W fuel s.2 with
      | error e => rfl
      | ok c' =>
        rw [Res.ok_bind, Res.ok_bind]
        exact ih (fun x hx => hs x (List.mem_cons_of_mem _ hx)) c' ((request_cfg hr).trans hc)
  unfold runLive run
  rw [hfold _ rfl]
  refine bind_congr_ok fun c hf => later_generate hW fuel c ?_
  have hc : c.cfg = cfg := foldRes_inv (P := fun c : Codegen => c.cfg = cfg) _ (fun a b c' _ ha h => (request_cfg h).trans ha) hf rfl
  exact hc ▸ hb

theorem later_moduleNames {E : Env} {P : Str → Prop} {W W' : World} (h : Later P W W') (fuel : Nat) (names : List Str) (c : Codegen)
    (hb : Blind c.cfg P) : c.moduleNames E W' fuel names = c.moduleNames E W fuel names := by
  unfold Codegen.moduleNames
  induction names generalizing c with
  | nil => rfl
  | cons n names ih =>
    simp only [foldRes]
    rw [show c.moduleName E W' fuel n = c.moduleName E W fuel n from later_request h fuel c hb (.name n)]
    exact bind_congr_ok fun c' hc => ih c' ((request_cfg (r := .name n) hc).symm ▸ hb)

/-- Requesting a name again in an interpreter with traces of the first request yields the same items at the same places, the same
modules and the same top level. Missing: as in `C61_live_partial`, for which it is false (`C38_live_counterexample`). -/
theorem C38_live_partial (E : Env) (P : Str → Prop) (W W' : World) (hl : Later P W W') (hW : OrdinaryWorld W) (fuel : Nat)
    (c c1 : Codegen) (hb : Blind c.cfg P) (hc : ∀ m ∈ c.modules, OrdinaryName E m.name) (names again : List Str)
    (ha : ∀ n ∈ again, n ∈ names) (out : List Module)
    (h1 : c.moduleNames E W fuel names = .ok c1) (h : c1.prepare E W fuel = .ok out) :
    ∃ c2 out', c1.moduleNames E W' fuel again = .ok c2 ∧ c2.prepare E W' fuel = .ok out' ∧ SameTree out out' := by
  obtain ⟨c2, out', h2, h3, h4⟩ := C38_again_partial E W hW fuel c c1 hc names again ha out h1 h
  have e1 := (moduleNames_modules h1).1
  have e2 := (moduleNames_modules h2).1
  refine ⟨c2, out', ?_, ?_, h4⟩
  · rw [later_moduleNames hl fuel again c1 (e1 ▸ hb), h2]
  · rw [later_prepare hl fuel c2 ((e2.trans e1) ▸ hb), h3]

/-! ## The traces of the code -/

/-- Reading `__all__` leaves a trace of the kind above. -/
theorem indexed_later (W : World) (m : PyMod) (segs : List Str) (hne : segs ≠ []) (hs : ∀ x ∈ segs, PySegment x)
    (hn : m.name = some (Str.join c!"." segs)) (hp : ∀ s ∈ m.dir, ¬ c!"r#" <+: s)
    (ha : m.getattr c!"__all__" = none → c!"__all__" ∉ m.dir) : LaterMod W (· = c!"__all__") m m.indexed := by
  unfold PyMod.indexed
  cases hg : m.getattr c!"__all__" with
  | some a =>
    exact ⟨rfl, by simp, hp, fun s h h' => absurd h h', fun _ _ h => h, fun s a h h' => by simp only at h'; rw [h] at h'; cases h'⟩
  | none =>
    refine ⟨rfl, ?_, ?_, ?_, ?_, ?_⟩
    · simp [ha hg]
    · intro s h
      rcases List.mem_cons.mp h with rfl | h
      · decide
      · exact hp s h
    · intro s h h'
      rcases List.mem_cons.mp h with rfl | h
      · exact ⟨hg, rfl, by decide⟩
      · exact absurd h h'
    · intro s a h
      simp only [PyMod.getattr, List.lookup_cons] at h ⊢
      split
      · rename_i he
        have : s = c!"__all__" := by simpa using he
        subst this
        unfold PyMod.getattr at hg
        rw [hg] at h
        cases h
      · exact h
    · intro s a h h'
      simp only [PyMod.getattr, List.lookup_cons] at h h'
      split at h'
      · rename_i he
        have : s = c!"__all__" := by simpa using he
        subst this
        cases h'
        exact ⟨⟨by decide, by decide, by decide, by decide⟩, rfl, segs, hne, hs, hn, Or.inl ⟨rfl, rfl, rfl⟩⟩
      · rw [h] at h'; cases h'

/-- Importing a submodule for the first time leaves a trace of the kind above. -/
theorem bound_later (W : World) (m : PyMod) (segs : List Str) (hne : segs ≠ []) (hs : ∀ x ∈ segs, PySegment x)
    (hn : m.name = some (Str.join c!"." segs)) (hp : ∀ s ∈ m.dir, ¬ c!"r#" <+: s) (sub : Str) (hsub : PySegment sub)
    (hcol : ¬ c!"::" <:+: Str.join c!"." segs ++ c!"." ++ sub) (hall : sub ≠ c!"__all__") (hd : sub ∉ m.dir) (hg : m.getattr sub = none) (id : Nat)
    (hi : W.importMod (Str.join c!"." segs ++ c!"." ++ sub) = some id) :
    LaterMod W (· = sub) m (m.bound (Str.join c!"." segs) sub id) := by
  have hl : ∀ s, (m.bound (Str.join c!"." segs) sub id).getattr s =
      (m.getattr s).or (if s = sub then some (submoduleAttr (Str.join c!"." segs ++ c!"." ++ sub) id) else none) := by
    intro s
    simp only [PyMod.getattr, PyMod.bound, List.lookup_append, List.lookup_cons, List.lookup_nil]
    by_cases h : s = sub
    · simp [h]
    · simp [h, beq_eq_false_iff_ne.mpr h]
  refine ⟨rfl, ?_, ?_, ?_, ?_, ?_⟩
  · simp [PyMod.bound, List.filter_append, hd]
  · intro s h
    rcases List.mem_append.mp h with h | h
    · exact hp s h
    · rw [List.mem_singleton] at h; exact h ▸ hsub.2.2.1
  · intro s h h'
    rcases List.mem_append.mp h with h | h
    · exact absurd h h'
    · rw [List.mem_singleton] at h; subst h; exact ⟨hg, rfl, hsub.1⟩
  · intro s a h
    rw [hl, h]
    rfl
  · intro s a h h'
    rw [hl, h] at h'
    simp only [Option.none_or] at h'
    split at h'
    · rename_i he
      subst he
      cases h'
      exact ⟨hsub, rfl, segs, hne, hs, hn, Or.inr ⟨hall, ⟨rfl, rfl, rfl, rfl, rfl, rfl, by simp only [submoduleAttr]; decide, hcol, by simp [submoduleAttr], hi⟩⟩⟩
    · cases h'

/-! ## Examples -/

/-- A package with a function `f`, an index and a submodule `sub` that is not imported. -/
def exLazy : PyMod where
  name := some c!"lazy"
  all := some [c!"f"]
  dir := [c!"f"]
  attrs := [(c!"f", { obj := exFnObj c!"lazy" })]
  isPackage := true
  iterModules := some [c!"sub"]

/-- Its submodule, with a variable. -/
def exLazySub : PyMod where
  name := some c!"lazy.sub"
  dir := [c!"level"]
  attrs := [(c!"level", { obj := exIntObj })]

/-- The interpreter before the first request. -/
def exLazyWorld : World where
  mods := [exLazy, exLazySub]
  importMod s := if s = c!"lazy" then some 0 else if s = c!"lazy.sub" then some 1 else none

/-- The interpreter after the first request: the submodule has been imported, its index has been read. -/
def exLazyWorld' : World := { exLazyWorld with mods := [exLazy.bound c!"lazy" c!"sub" 1, exLazySub.indexed] }

theorem exLazy_later : Later (fun s => s = c!"sub" ∨ s = c!"__all__") exLazyWorld exLazyWorld' := by
  have weaken : ∀ {P Q : Str → Prop} {W : World} {m m' : PyMod}, (∀ s, P s → Q s) → LaterMod W P m m' → LaterMod W Q m m' :=
    fun hPQ h => ⟨h.same, h.listed, h.plain, fun s h1 h2 => ⟨(h.names s h1 h2).1, hPQ _ (h.names s h1 h2).2.1, (h.names s h1 h2).2.2⟩, h.kept,
      fun s a h1 h2 => ⟨(h.added s a h1 h2).1, hPQ _ (h.added s a h1 h2).2.1, (h.added s a h1 h2).2.2⟩⟩
  refine ⟨rfl, rfl, .cons (weaken (fun s h => Or.inl h) ?_) (.cons (weaken (fun s h => Or.inr h) ?_) .nil)⟩
  · exact bound_later exLazyWorld exLazy [c!"lazy"] (by decide) (by simp [PySegment]) rfl (by decide) c!"sub" (by simp [PySegment]) (by decide) (by decide)
      (by decide) rfl 1 (by decide)
  · exact indexed_later exLazyWorld exLazySub [c!"lazy", c!"sub"] (by decide) (by simp [PySegment]) rfl (by decide) (by decide)

example : runLive exEnv 5 { generatePreludes := false } [(exLazyWorld, .name c!"lazy"), (exLazyWorld', .name c!"lazy")] exLazyWorld' =
    run exEnv exLazyWorld 5 { generatePreludes := false } [.name c!"lazy", .name c!"lazy"] :=
  C61_live_partial exEnv 5 _ (fun s => s = c!"sub" ∨ s = c!"__all__") ⟨rfl, fun h => (by cases h), fun h => (by cases h)⟩ exLazyWorld _ _
    (by
      intro s hs
      simp only [List.mem_cons, List.not_mem_nil, or_false] at hs
      rcases hs with rfl | rfl
      · exact ⟨rfl, rfl, .cons ⟨rfl, by decide, by decide, fun s h h' => absurd h h', fun _ _ h => h,
          fun s a h h' => by rw [h] at h'; cases h'⟩ (.cons ⟨rfl, by decide, by decide, fun s h h' => absurd h h', fun _ _ h => h,
          fun s a h h' => by rw [h] at h'; cases h'⟩ .nil)⟩
      · exact exLazy_later)
    exLazy_later

theorem exLazyWorld_ordinary : OrdinaryWorld exLazyWorld := by
  intro id m n hm hn
  match id with
  | 0 => cases hm; cases hn; exact ⟨[c!"lazy"], by decide, by unfold PySegment; decide, rfl⟩
  | 1 => cases hm; cases hn; exact ⟨[c!"lazy", c!"sub"], by decide, by unfold PySegment; decide, rfl⟩
  | k + 2 => cases hm

/-- `lazy`, requested again after its submodule has been imported, without preludes. -/
example : Later (fun s => s = c!"sub" ∨ s = c!"__all__") exLazyWorld exLazyWorld' ∧ OrdinaryWorld exLazyWorld ∧
    ((Codegen.new { generatePreludes := false }).moduleNames exEnv exLazyWorld 5 [c!"lazy"] >>= fun c =>
      c.prepare exEnv exLazyWorld 5).map (fun out => out.map fun m => (m.functions.length, m.submodules.length)) = .ok [(1, 1)] :=
  ⟨exLazy_later, exLazyWorld_ordinary, by decide +kernel⟩

/-- What is in the module `lazy::sub` of the generated items. -/
def exInner (items : List Item) : List (Nat × Nat) :=
  match items with
  | .mod _ _ _ l :: _ => exKinds l
  | _ => []

/-- Requesting a package again, after its submodule has been imported by the first request, adds a prelude: the public names are
no longer those of the index. -/
theorem C38_live_counterexample :
    (runLive exEnv 5 {} [(exLazyWorld, .name c!"lazy")] exLazyWorld').map exKinds = .ok [(4, 1), (8, 0)] ∧
    (runLive exEnv 5 {} [(exLazyWorld, .name c!"lazy"), (exLazyWorld', .name c!"lazy")] exLazyWorld').map exKinds =
      .ok [(1, 0), (4, 1), (8, 0)] := by
  constructor <;> decide +kernel

/-- The same package has a prelude or not, depending on whether its submodule has been imported before. -/
theorem C61_prelude_counterexample :
    Later (fun s => s = c!"sub" ∨ s = c!"__all__") exLazyWorld exLazyWorld' ∧
    (run exEnv exLazyWorld 5 {} [.name c!"lazy"]).map exKinds = .ok [(4, 1), (8, 0)] ∧
    (run exEnv exLazyWorld' 5 {} [.name c!"lazy"]).map exKinds = .ok [(1, 0), (4, 1), (8, 0)] := by
  refine ⟨exLazy_later, ?_, ?_⟩ <;> decide +kernel

/-- A module with a function that claims to come from `lazy.sub`. -/
def exLazyUser : PyMod where
  name := some c!"user"
  dir := [c!"g"]
  attrs := [(c!"g", { obj := { exFnObj c!"lazy.sub" with dunderName := some c!"g" } })]

/-- The package and a module that depends on its submodule. -/
def exLazyUserWorld : World where
  mods := [exLazy, exLazySub, exLazyUser]
  importMod s := if s = c!"lazy" then some 0 else if s = c!"lazy.sub" then some 1 else if s = c!"user" then some 2 else none

/-- The same after the import of the submodule. -/
def exLazyUserWorld' : World := { exLazyUserWorld with mods := [exLazy.bound c!"lazy" c!"sub" 1, exLazySub, exLazyUser] }

theorem laterMod_refl {W : World} {P : Str → Prop} {m : PyMod} (h : ∀ s ∈ m.dir, ¬ c!"r#" <+: s) : LaterMod W P m m :=
  ⟨rfl, by simp, h, fun s h h' => absurd h h', fun _ _ h => h, fun s a h h' => by rw [h] at h'; cases h'⟩

theorem exLazyUser_later : Later (fun s => s = c!"sub") exLazyUserWorld exLazyUserWorld' :=
  ⟨rfl, rfl, .cons (bound_later exLazyUserWorld exLazy [c!"lazy"] (by decide) (by simp [PySegment]) rfl (by decide) c!"sub"
    (by simp [PySegment]) (by decide) (by decide) (by decide) rfl 1 (by decide)) (.cons (laterMod_refl (by decide)) (.cons (laterMod_refl (by decide)) .nil))⟩

/-- With dependencies: what an import refers to is looked up by walking attributes, so the dependency is the package before its
submodule has been imported and the submodule alone afterwards. -/
theorem C61_dependency_counterexample :
    Later (fun s => s = c!"sub") exLazyUserWorld exLazyUserWorld' ∧
    (run exEnv exLazyUserWorld 5 { generatePreludes := false, generateDependencies := true } [.name c!"user"]).map exKinds =
      .ok [(4, 1), (8, 0)] ∧
    (run exEnv exLazyUserWorld' 5 { generatePreludes := false, generateDependencies := true } [.name c!"user"]).map exKinds =
      .ok [(8, 0)] := by
  refine ⟨exLazyUser_later, ?_, ?_⟩ <;> decide +kernel

/-- With private names included, a module gets accessors for `__all__` once a run with preludes has looked for its index. -/
theorem C61_private_counterexample :
    Later (fun s => s = c!"sub" ∨ s = c!"__all__") exLazyWorld exLazyWorld' ∧
    (run exEnv exLazyWorld 5 { generatePreludes := false, includePrivate := true } [.handle 1]).map exInner = .ok [(5, 0), (5, 0)] ∧
    (run exEnv exLazyWorld' 5 { generatePreludes := false, includePrivate := true } [.handle 1]).map exInner =
      .ok [(5, 0), (5, 0), (5, 0), (5, 0)] := by
  refine ⟨exLazy_later, ?_, ?_⟩ <;> decide +kernel

end Bindgen

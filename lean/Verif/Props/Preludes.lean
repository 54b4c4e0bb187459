import Verif.Props.Restrict
import Verif.Lemmas.Merge
import Verif.Lemmas.Checks
/-!
# The flag of preludes: C82
-/
namespace Bindgen
open Spec

/-! ## Specification -/

mutual
/-- An item without the preludes in it and without the `#[allow(…)]` on its modules. -/
def Spec.bareItem : Item → List Item
  | .prelude _ _ => []
  | .mod _ d n l => [.mod false d n (Spec.bareItems l)]
  | .use p a => [.use p a]
  | .typeAlias n => [.typeAlias n]
  | .class k => [.class k]
  | .func f => [.func f]
  | .prop f => [.prop f]
  | .strayPub => [.strayPub]
  | .embed s n f => [.embed s n f]
/-- The items without preludes, in order. -/
def Spec.bareItems : List Item → List Item
  | [] => []
  | x :: l => Spec.bareItem x ++ Spec.bareItems l
end

theorem bareItems_append (a b : List Item) : bareItems (a ++ b) = bareItems a ++ bareItems b := by
  induction a with
  | nil => rfl
  | cons x a ih => rw [List.cons_append, bareItems, bareItems, ih, List.append_assoc]

/-! ## Modules without their preludes -/

mutual
/-- A module without preludes. -/
def bareMod : Module → Module
  | ⟨n, _, i, ss, c, t, f, q, d, k, s⟩ => ⟨n, [], i, bareMods ss, c, t, f, q, d, k, s⟩
/-- Modules without preludes. -/
def bareMods : List Module → List Module
  | [] => []
  | m :: l => bareMod m :: bareMods l
end

theorem bareMods_eq (l : List Module) : bareMods l = l.map bareMod := by
  induction l with
  | nil => rfl
  | cons m l ih => rw [bareMods, ih, List.map_cons]

theorem bareMod_eq (m : Module) : bareMod m = { m with prelude := [], submodules := m.submodules.map bareMod } := by
  cases m
  rw [bareMod, bareMods_eq]

theorem bareMod_name (m : Module) : (bareMod m).name = m.name := by rw [bareMod_eq]

mutual
theorem bareMod_imports : (m : Module) → (bareMod m).externalImports = m.externalImports
  | ⟨n, p, i, ss, c, t, f, q, d, k, s⟩ => by
    rw [bareMod, Module.externalImports, Module.externalImports, bareMods_imports ss]
theorem bareMods_imports : (l : List Module) → externalImportsList (bareMods l) = externalImportsList l
  | [] => rfl
  | m :: l => by rw [bareMods, externalImportsList, externalImportsList, bareMod_imports m, bareMods_imports l]
end

mutual
theorem bareMod_types : (m : Module) → (bareMod m).types = m.types
  | ⟨n, p, i, ss, c, t, f, q, d, k, s⟩ => by
    rw [bareMod, Module.types, Module.types, bareMods_types ss]
theorem bareMods_types : (l : List Module) → typesList (bareMods l) = typesList l
  | [] => rfl
  | m :: l => by rw [bareMods, typesList, typesList, bareMod_types m, bareMods_types l]
end

mutual
theorem bareMod_depth : (m : Module) → (bareMod m).depth = m.depth
  | ⟨n, p, i, ss, c, t, f, q, d, k, s⟩ => by
    rw [bareMod, Module.depth, Module.depth, bareMods_depth ss]
theorem bareMods_depth : (l : List Module) → depthList (bareMods l) = depthList l
  | [] => rfl
  | m :: l => by rw [bareMods, depthList, depthList, bareMod_depth m, bareMods_depth l]
end

theorem bareMods_nameExists (p : Path) (l : List Module) : nameExists p (bareMods l) = nameExists p l := by
  induction l with
  | nil => rfl
  | cons m l ih => rw [bareMods, nameExists, nameExists, ih, bareMod_name]

mutual
theorem bareMod_exists (o : Path) : (m : Module) → (bareMod m).pathExists o = m.pathExists o
  | ⟨n, p, i, ss, c, t, f, q, d, k, s⟩ => by
    rw [bareMod, Module.pathExists, Module.pathExists, bareMods_exists o ss, bareMods_nameExists]
theorem bareMods_exists (o : Path) : (l : List Module) → pathExistsList o (bareMods l) = pathExistsList o l
  | [] => rfl
  | m :: l => by rw [bareMods, pathExistsList, pathExistsList, bareMod_exists o m, bareMods_exists o l]
end

/-! ## Merging -/

theorem insertMod_bare (m : Module) (l : List Module) : insertMod (bareMod m) (l.map bareMod) = (insertMod m l).map bareMod := by
  induction l with
  | nil => rfl
  | cons x l ih =>
    rw [List.map_cons, insertMod, insertMod, bareMod_name, bareMod_name, ih]
    split <;> rfl

theorem sortMods_bare (l : List Module) : sortMods (l.map bareMod) = (sortMods l).map bareMod := by
  induction l with
  | nil => rfl
  | cons m l ih => rw [List.map_cons, sortMods, sortMods, ih, insertMod_bare]

theorem runs_bare (fuel : Nat) (l : List Module) : runs fuel (l.map bareMod) = (runs fuel l).map (List.map bareMod) := by
  have hname : ∀ m : Module, (fun x : Module => decide (x.name = m.name)) ∘ bareMod = fun x => decide (x.name = m.name) := by
    intro m
    funext x
    simp [bareMod_name]
  induction fuel generalizing l with
  | zero => cases l <;> rfl
  | succ fuel ih =>
    cases l with
    | nil => rfl
    | cons m l =>
      rw [List.map_cons, runs, runs, bareMod_name, List.takeWhile_map, List.dropWhile_map, hname, ih, List.map_cons, List.map_cons]

theorem mergeDuplicates_bare {f : List Module → Module} (hf : ∀ g, f (g.map bareMod) = bareMod (f g)) (l : List Module) :
    mergeDuplicates f (l.map bareMod) = (mergeDuplicates f l).map bareMod := by
  rw [mergeDuplicates_eq, mergeDuplicates_eq, sortMods_bare, List.length_map, runs_bare, List.map_map, List.map_map]
  refine List.map_congr_left fun g _ => ?_
  show mergeRun f (g.map bareMod) = bareMod (mergeRun f g)
  cases g with
  | nil => exact hf []
  | cons m g =>
    cases g with
    | nil => rfl
    | cons m' g => exact hf (m :: m' :: g)

theorem setOrder_nil (E : Env) {α : Type} [DecidableEq α] : E.setOrder ([] : List α) = [] := by
  refine List.eq_nil_iff_forall_not_mem.mpr fun a ha => ?_
  rw [E.set_mem] at ha
  cases ha

theorem headD_bare (g : List Module) : (g.map bareMod).headD default = bareMod (g.headD default) := by
  cases g <;> rfl

theorem flatMap_bare {α : Type} (k : Module → List α) (hk : ∀ m, k (bareMod m) = k m) (g : List Module) :
    (g.map bareMod).flatMap k = g.flatMap k := by
  induction g with
  | nil => rfl
  | cons m g ih => rw [List.map_cons, List.flatMap_cons, List.flatMap_cons, hk, ih]

theorem mergeModules_bare (E : Env) (fuel : Nat) (g : List Module) :
    mergeModules E fuel (g.map bareMod) = bareMod (mergeModules E fuel g) := by
  induction fuel generalizing g with
  | zero => rw [mergeModules, mergeModules, headD_bare]
  | succ fuel ih =>
    have h1 : (g.map bareMod).flatMap Module.prelude = [] := by
      induction g with
      | nil => rfl
      | cons m g ih => rw [List.map_cons, List.flatMap_cons, ih, bareMod_eq]; rfl
    have h2 : (g.map bareMod).flatMap Module.submodules = (g.flatMap Module.submodules).map bareMod := by
      clear h1
      induction g with
      | nil => rfl
      | cons m g ih => rw [List.map_cons, List.flatMap_cons, List.flatMap_cons, List.map_append, ih, bareMod_eq]
    rw [mergeModules, mergeModules, h1, h2, mergeDuplicates_bare ih, headD_bare,
      flatMap_bare Module.imports (fun m => by rw [bareMod_eq]), flatMap_bare Module.classes (fun m => by rw [bareMod_eq]),
      flatMap_bare Module.functions (fun m => by rw [bareMod_eq]), flatMap_bare Module.typeVars (fun m => by rw [bareMod_eq]),
      flatMap_bare Module.properties (fun m => by rw [bareMod_eq]), setOrder_nil, bareMod_eq, bareMod_eq]

theorem mergeTop_bare (E : Env) (l : List Module) : mergeTop E (l.map bareMod) = (mergeTop E l).map bareMod := by
  unfold mergeTop
  rw [← bareMods_eq, bareMods_depth, bareMods_eq]
  exact mergeDuplicates_bare (mergeModules_bare E _) l

/-! ## Results that agree unless there is a panic -/

/-- The second result is the first one, changed; nothing is said if the first one is a panic. -/
def UnlessPanic {α β : Type} (g : α → β) : Res α → Res β → Prop
  | .ok a, r => r = .ok (g a)
  | .error (.err e), r => r = .error (.err e)
  | .error (.panic _), _ => True

theorem unlessPanic_refl {α : Type} (r : Res α) : UnlessPanic id r r := by
  match r with
  | .ok a => rfl
  | .error (.err e) => rfl
  | .error (.panic p) => trivial

theorem unlessPanic_bind {α β γ δ : Type} {g : α → β} {k : γ → δ} {r : Res α} {r' : Res β} {f : α → Res γ} {f' : β → Res δ}
    (h : UnlessPanic g r r') (hf : ∀ a, UnlessPanic k (f a) (f' (g a))) : UnlessPanic k (r >>= f) (r' >>= f') := by
  match r, h with
  | .ok a, h =>
    cases h
    exact hf a
  | .error (.err e), h =>
    cases h
    simp only [error_bind]
    rfl
  | .error (.panic p), _ =>
    simp only [error_bind]
    trivial

/-- The same first step. -/
theorem unlessPanic_same {α γ δ : Type} {k : γ → δ} {r : Res α} {f : α → Res γ} {f' : α → Res δ}
    (hf : ∀ a, UnlessPanic k (f a) (f' a)) : UnlessPanic k (r >>= f) (r >>= f') := unlessPanic_bind (unlessPanic_refl r) hf

theorem unlessPanic_fold {α α' β : Type} {g : α → α'} {f : α → β → Res α} {f' : α' → β → Res α'}
    (hf : ∀ a b, UnlessPanic g (f a b) (f' (g a) b)) (l : List β) (a : α) : UnlessPanic g (foldRes f a l) (foldRes f' (g a) l) := by
  induction l generalizing a with
  | nil => rfl
  | cons b l ih =>
    rw [foldRes, foldRes]
    exact unlessPanic_bind (hf a b) ih

theorem unlessPanic_traverse {α α' β β' : Type} {i : α → α'} {g : β → β'} {f : α → Res β} {f' : α' → Res β'}
    (hf : ∀ a, UnlessPanic g (f a) (f' (i a))) (l : List α) :
    UnlessPanic (List.map g) (Res.traverse f l) (Res.traverse f' (l.map i)) := by
  induction l with
  | nil => rfl
  | cons b l ih =>
    rw [List.map_cons, Res.traverse, Res.traverse]
    exact unlessPanic_bind (hf b) fun _ => unlessPanic_bind ih fun _ => rfl

theorem unlessPanic_drop {α β : Type} {g : α → β} {r : Res α} {r' : Res β} (h : UnlessPanic g r r') :
    UnlessPanic (Option.map g) (okOrDrop r) (okOrDrop r') := by
  match r, h with
  | .ok a, h => cases h; rfl
  | .error (.err e), h => cases h; rfl
  | .error (.panic p), _ => trivial

theorem unlessPanic_ifOn {α β : Type} {g : α → β} {b : Bool} {r : Res α} {r' : Res β} {d : α} {d' : β}
    (h : UnlessPanic g r r') (hd : d' = g d) :
    UnlessPanic g (ifOn b r d) (ifOn b r' d') := by
  cases b with
  | true => exact h
  | false => subst hd; exact rfl

theorem unlessPanic_unreachable {α : Type} {g : α → α} {r r' : Res α} (h : UnlessPanic g r r') :
    UnlessPanic g (orUnreachable r) (orUnreachable r') := by
  match r, h with
  | .ok a, h => cases h; rfl
  | .error (.err e), h => trivial
  | .error (.panic p), _ => trivial

/-! ## Parsing -/

/-- The configuration without preludes. -/
def Spec.noPreludes (cfg : Config) : Config := { cfg with generatePreludes := false }

theorem noPreludes_allowed (cfg : Config) : (noPreludes cfg).isAttrAllowed = cfg.isAttrAllowed := rfl

theorem checkPrelude_unlessPanic (E : Env) (cfg : Config) (b : Bool) (m : PyMod) (n : Path) :
    UnlessPanic id (ifOn b (checkPrelude E cfg m n) ()) (.ok ()) := by
  have hassert : ∀ x, UnlessPanic id (debugAssert E x) (.ok ()) := by
    intro x
    rcases debugAssert_cases E x with h | h <;> rw [h]
    · rfl
    · trivial
  cases b with
  | false => rfl
  | true =>
    show UnlessPanic id (checkPrelude E cfg m n) _
    unfold checkPrelude
    refine unlessPanic_bind (r' := .ok ()) (hassert _) fun _ => ?_
    refine unlessPanic_bind (g := id) (r' := .ok ()) (f' := fun _ => .ok ()) ?_ fun _ => ?_
    · unfold checkDir
      split
      · trivial
      · exact hassert _
    · split
      · rfl
      · exact hassert _

theorem takeOver_bare (st : ParseState) (c : Import) (s : Module) : takeOver st c (bareMod s) = takeOver st c s := by
  rw [bareMod_eq]; rfl

theorem submoduleStep_unlessPanic {W : World} {m : PyMod} {name : Path} {rec rec' : Nat → Res Module}
    (h : ∀ id, UnlessPanic bareMod (rec id) (rec' id)) (acc : ParseState × List Module) (i : Ident) :
    UnlessPanic (fun a => (a.1, a.2.map bareMod)) (submoduleStep W m name rec acc i)
      (submoduleStep W m name rec' (acc.1, acc.2.map bareMod) i) := by
  unfold submoduleStep
  simp only
  cases acc.1.conflicts.find? (fun c => c.target = name.join (Path.ofIdent i)) with
  | some c =>
    simp only
    cases W.importMod (name.join (Path.ofIdent i)).toPy with
    | none => rfl
    | some id =>
      simp only
      refine unlessPanic_bind (unlessPanic_drop (h id)) fun o => ?_
      cases o with
      | none => rfl
      | some s =>
        show _ = _
        simp only [Option.map_some, takeOver_bare]
        rfl
  | none =>
    simp only
    cases submoduleId W m name i with
    | none => rfl
    | some id =>
      simp only
      refine unlessPanic_bind (h id) fun s => ?_
      show _ = _
      simp only [List.map_append]
      rfl

theorem parse_unlessPanic (E : Env) (cfg : Config) (W : World) (fuel : Nat) (id : Nat) :
    UnlessPanic bareMod (Module.parse E cfg W fuel id) (Module.parse E (noPreludes cfg) W fuel id) := by
  induction fuel generalizing id with
  | zero => trivial
  | succ fuel ih =>
    rw [Module.parse, Module.parse]
    refine unlessPanic_same fun m => unlessPanic_same fun n => unlessPanic_same fun _ => ?_
    refine unlessPanic_bind (r' := .ok ()) (checkPrelude_unlessPanic ..) fun _ => ?_
    simp only [allowed_subs (noPreludes_allowed cfg), allowed_step (noPreludes_allowed cfg), allowed_candidates (noPreludes_allowed cfg)]
    refine unlessPanic_same fun subs => unlessPanic_same fun _ => unlessPanic_same fun st => ?_
    refine unlessPanic_bind (g := fun a => (a.1, a.2.map bareMod))
      (unlessPanic_ifOn (unlessPanic_fold (submoduleStep_unlessPanic ih) _ (st, [])) rfl) fun a => ?_
    refine unlessPanic_same fun doc => ?_
    show _ = _
    rw [bareMod_eq]
    rfl

theorem deps_unlessPanic (E : Env) (cfg : Config) (W : World) (fuel : Nat) (mods : List Module) :
    UnlessPanic (List.map bareMod) (parseDependencies E cfg W fuel mods)
      (parseDependencies E (noPreludes cfg) W fuel (mods.map bareMod)) := by
  unfold parseDependencies
  simp only
  rw [← bareMods_eq, bareMods_imports, bareMods_eq]
  refine unlessPanic_bind (g := fun (a : List Str × List Module) => (a.1, a.2.map bareMod))
    (unlessPanic_fold (fun st o => ?_) _ ([], mods)) fun a => rfl
  unfold depStep
  refine unlessPanic_same fun id => unlessPanic_same fun m => unlessPanic_same fun name => ?_
  simp only
  split
  · rfl
  · refine unlessPanic_same fun _ => ?_
    rw [noPreludes_allowed]
    split
    · refine unlessPanic_bind (parse_unlessPanic E cfg W fuel id) fun p => ?_
      show _ = _
      simp only [List.map_append]
      rfl
    · rfl

theorem wrap_unlessPanic (W : World) (m : Module) : UnlessPanic bareMod (m.wrap W) ((bareMod m).wrap W) := by
  unfold Module.wrap
  rw [bareMod_name]
  split
  · refine unlessPanic_fold (fun pkg i => ?_) _ m
    have hempty : ∀ p, UnlessPanic bareMod (Module.empty W p) (Module.empty W p) := by
      intro p
      unfold Module.empty
      exact unlessPanic_same fun _ => unlessPanic_same fun _ => unlessPanic_same fun _ => rfl
    refine unlessPanic_bind (unlessPanic_unreachable (hempty _)) fun parent => ?_
    show _ = _
    rw [bareMod_eq parent, bareMod_eq { parent with submodules := parent.submodules ++ [pkg] }]
    simp only [List.map_append]
    rfl
  · rfl

theorem canonicalize_unlessPanic (E : Env) (W : World) (mods : List Module) :
    UnlessPanic (List.map bareMod) (canonicalize E W mods) (canonicalize E W (mods.map bareMod)) := by
  unfold canonicalize
  refine unlessPanic_bind (unlessPanic_traverse (wrap_unlessPanic W) mods) fun l => ?_
  show _ = _
  rw [mergeTop_bare]
  rfl

theorem embedSources_bare (e : List (Str × Str)) (l : List Module) :
    embedSources e (l.map bareMod) = (embedSources e l).map bareMod := by
  unfold embedSources
  rw [List.map_map, List.map_map]
  refine List.map_congr_left fun m _ => ?_
  simp only [Function.comp, bareMod_name]
  split
  · rw [bareMod_eq, bareMod_eq]
  · rfl

/-- The engine without preludes. -/
def bareCodegen (c : Codegen) : Codegen := { c with cfg := noPreludes c.cfg, modules := c.modules.map bareMod }

theorem prepare_unlessPanic (E : Env) (W : World) (fuel : Nat) (c : Codegen) :
    UnlessPanic (List.map bareMod) (c.prepare E W fuel) ((bareCodegen c).prepare E W fuel) := by
  unfold Codegen.prepare
  refine unlessPanic_bind (g := List.map bareMod) (unlessPanic_ifOn (deps_unlessPanic ..) rfl) fun l => ?_
  refine unlessPanic_bind (canonicalize_unlessPanic E W l) fun l => ?_
  show _ = _
  rw [← embedSources_bare]
  rfl

/-! ## Generation -/

theorem noPreludes_function (E : Env) (cfg : Config) : Function.generate E (noPreludes cfg) = Function.generate E cfg := rfl

theorem noPreludes_property (E : Env) (cfg : Config) : Property.generate E (noPreludes cfg) = Property.generate E cfg := rfl

theorem noPreludes_class (E : Env) (cfg : Config) : Class.generate E (noPreludes cfg) = Class.generate E cfg := rfl

theorem bare_content {E : Env} {cfg : Config} {imp : Str → Bool} {tops : List Module} {ts : List Path} {m : Module} {out : List Item}
    (hg : m.content E cfg imp tops ts = .ok out) :
    ∃ out', (bareMod m).content E (noPreludes cfg) imp (tops.map bareMod) ts = .ok out' ∧ bareItems out' = bareItems out := by
  obtain ⟨p⟩ := content_parts hg
  refine ⟨p.imports.filterMap id ++ [] ++ p.typeVars ++ (p.classes.filterMap id).map Item.class ++ p.functions.flatten ++
    p.properties.flatten, ?_, ?_⟩
  · have h5 : ifOn (noPreludes cfg).generatePreludes (okOrDrop ((bareMod m).generatePrelude E)) none = .ok none := by
      rw [noPreludes, ifOn, if_neg (by simp)]
    unfold Module.content
    rw [h5]
    rw [← bareMods_eq]
    simp only [bareMods_exists, noPreludes_function, noPreludes_property, noPreludes_class]
    have e1 : (bareMod m).functions = m.functions := by rw [bareMod_eq]
    have e2 : (bareMod m).imports = m.imports := by rw [bareMod_eq]
    have e3 : (bareMod m).typeVars = m.typeVars := by rw [bareMod_eq]
    have e4 : (bareMod m).classes = m.classes := by rw [bareMod_eq]
    have e5 : (bareMod m).properties = m.properties := by rw [bareMod_eq]
    rw [e1, e2, e3, e4, e5, bareMod_name, p.takenOk, Res.ok_bind, p.ltOk, Res.ok_bind]
    have h1 := p.importsOk
    have h2 := p.typeVarsOk
    have h3 := p.classesOk
    have h4 := p.functionsOk
    have h6 := p.propertiesOk
    change ifOn (noPreludes cfg).generateImports _ _ = _ at h1
    change ifOn (noPreludes cfg).generateTypeVars _ _ = _ at h2
    change ifOn (noPreludes cfg).generateClasses _ _ = _ at h3
    change ifOn (noPreludes cfg).generateFunctions _ _ = _ at h4
    change ifOn (noPreludes cfg).generateProperties _ _ = _ at h6
    rw [h1, Res.ok_bind, Res.ok_bind, h2, Res.ok_bind, h3, Res.ok_bind, h4, Res.ok_bind, h6, Res.ok_bind]
    rfl
  · have hp : bareItems (p.prelude.bind id).toList = [] := by
      rcases ifOn_ok p.preludeOk with ⟨hc, h⟩ | ⟨-, h⟩
      · cases hp : p.prelude with
        | none => rfl
        | some o =>
          rw [hp] at h
          cases o with
          | none => rfl
          | some x =>
            obtain ⟨n, es, -, -, rfl, -⟩ := generatePrelude_prelude (okOrDrop_some h)
            rfl
      · rw [h]; rfl
    have hout := congrArg bareItems p.content
    rw [hout]
    simp only [bareItems_append, hp]
    rfl

mutual
theorem bare_module {E : Env} {cfg : Config} {imp : Str → Bool} {tops : List Module} {ts : List Path} :
    (m : Module) → (it : Item) → Module.generate E cfg imp tops ts m = .ok it →
      ∃ it', Module.generate E (noPreludes cfg) imp (tops.map bareMod) ts (bareMod m) = .ok it' ∧ bareItem it' = bareItem it
  | ⟨name, prelude, imports, subs, cs, tvs, fs, ps, doc, pkg, src⟩, it, hg => by
    rw [Module.generate] at hg
    obtain ⟨content, h1, hg⟩ := Res.bind_ok hg
    obtain ⟨mods, h2, hg⟩ := Res.bind_ok hg
    obtain ⟨last, h3, hg⟩ := Res.bind_ok hg
    obtain ⟨ident, h4, hg⟩ := Res.bind_ok hg
    have hg := Except.ok.inj hg
    subst hg
    obtain ⟨content', h1', h1''⟩ := bare_content h1
    obtain ⟨mods', h2', h2''⟩ : ∃ mods', ifOn (noPreludes cfg).traverseSubmodules
        (Module.generateList E (noPreludes cfg) imp (tops.map bareMod) ts (bareMods subs)) [] = .ok mods' ∧
        bareItems mods' = bareItems mods := by
      have ht : (noPreludes cfg).traverseSubmodules = cfg.traverseSubmodules := rfl
      rw [ht]
      rcases ifOn_ok h2 with ⟨hc, h2⟩ | ⟨hc, h2⟩
      · rw [hc]
        exact bare_modules subs mods h2
      · rw [hc, h2]
        exact ⟨[], rfl, rfl⟩
    rw [bareMod] at h1' ⊢
    rw [Module.generate, h1', Res.ok_bind, h2', Res.ok_bind, h3, Res.ok_bind, h4, Res.ok_bind]
    refine ⟨_, rfl, ?_⟩
    rw [bareItem, bareItem, bareItems_append, bareItems_append, bareItems_append, bareItems_append, h1'', h2'']
    rfl
theorem bare_modules {E : Env} {cfg : Config} {imp : Str → Bool} {tops : List Module} {ts : List Path} :
    (l : List Module) → (items : List Item) → Module.generateList E cfg imp tops ts l = .ok items →
      ∃ items', Module.generateList E (noPreludes cfg) imp (tops.map bareMod) ts (bareMods l) = .ok items' ∧
        bareItems items' = bareItems items
  | [], items, hg => by
    rw [Module.generateList] at hg
    cases hg
    rw [bareMods, Module.generateList]
    exact ⟨[], rfl, rfl⟩
  | m :: l, items, hg => by
    rw [Module.generateList] at hg
    obtain ⟨i, h1, hg⟩ := Res.bind_ok hg
    obtain ⟨is, h2, hg⟩ := Res.bind_ok hg
    cases hg
    obtain ⟨i', h1', h1''⟩ := bare_module m i h1
    obtain ⟨is', h2', h2''⟩ := bare_modules l is h2
    rw [bareMods, Module.generateList, h1', Res.ok_bind, h2', Res.ok_bind]
    refine ⟨_, rfl, ?_⟩
    rw [bareItems, bareItems, h1'', h2'']
end

theorem module_unlessPanic (E : Env) (W : World) (fuel : Nat) (c : Codegen) (id : Nat) :
    UnlessPanic bareCodegen (c.module E W fuel id) ((bareCodegen c).module E W fuel id) := by
  unfold Codegen.module
  refine unlessPanic_bind (parse_unlessPanic E c.cfg W fuel id) fun m => ?_
  show _ = _
  simp only [bareCodegen, List.map_append]
  rfl

theorem request_unlessPanic (E : Env) (W : World) (fuel : Nat) (c : Codegen) (r : Request) :
    UnlessPanic bareCodegen (c.request E W fuel r) ((bareCodegen c).request E W fuel r) := by
  cases r with
  | handle id => exact module_unlessPanic E W fuel c id
  | name n =>
    show UnlessPanic bareCodegen (c.moduleName E W fuel n) ((bareCodegen c).moduleName E W fuel n)
    unfold Codegen.moduleName
    exact unlessPanic_same fun id => module_unlessPanic E W fuel c id
  | source code n =>
    show UnlessPanic bareCodegen (c.moduleFromStr E W fuel code n) ((bareCodegen c).moduleFromStr E W fuel code n)
    unfold Codegen.moduleFromStr
    exact unlessPanic_same fun id => module_unlessPanic E W fuel { c with embedded := c.embedded ++ [(n, code)] } id

/-- With preludes switched off, a run that succeeded still succeeds, and gives what it gave before without the preludes, apart
from the `#[allow(…)]` on modules. (That attribute is on modules equal to a top-level module, where the prelude counts:
module.rs:327.) -/
theorem C82_preludes (E : Env) (W : World) (fuel : Nat) (cfg : Config) (rs : List Request) (items : List Item)
    (h : run E W fuel cfg rs = .ok items) :
    ∃ items', run E W fuel (noPreludes cfg) rs = .ok items' ∧ bareItems items' = bareItems items := by
  unfold run at h ⊢
  obtain ⟨c, h1, h⟩ := Res.bind_ok h
  have h2 := unlessPanic_fold (g := bareCodegen) (fun c r => request_unlessPanic E W fuel c r) rs (Codegen.new cfg)
  rw [h1] at h2
  have h2 : foldRes (fun c r => c.request E W fuel r) (Codegen.new (noPreludes cfg)) rs = .ok (bareCodegen c) := h2
  rw [h2, Res.ok_bind]
  unfold Codegen.generate at h ⊢
  by_cases hm : c.modules.isEmpty = true
  · rw [if_pos hm] at h; cases h
  · rw [if_neg hm] at h
    rw [if_neg (by simpa [bareCodegen] using hm)]
    obtain ⟨mods, h3, h⟩ := Res.bind_ok h
    have h4 := prepare_unlessPanic E W fuel c
    rw [h3] at h4
    have h4 : (bareCodegen c).prepare E W fuel = .ok (mods.map bareMod) := h4
    rw [h4, Res.ok_bind]
    obtain ⟨items', h5, h6⟩ := bare_modules mods items h
    refine ⟨items', ?_, h6⟩
    have ht : getAllTypes (mods.map bareMod) = getAllTypes mods := by
      unfold getAllTypes
      rw [← bareMods_eq, bareMods_types]
    rw [ht]
    rw [bareMods_eq] at h5
    exact h5

example : (run exEnv exWorld 5 {} [.name c!"pkg"]).map exKinds = .ok [(1, 0), (3, 0), (4, 1), (5, 0), (5, 0), (8, 0)] ∧
    (run exEnv exWorld 5 (noPreludes {}) [.name c!"pkg"]).map exKinds = .ok [(3, 0), (4, 1), (5, 0), (5, 0), (8, 0)] := by
  decide +kernel

end Bindgen

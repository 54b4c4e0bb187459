import Verif.Props.Flags
import Verif.Model.Session
/-!
# Flags take away and change nothing else: C82
-/
namespace Bindgen
open Spec

/-! ## Specification -/

/-- The configuration `cfg'` is `cfg` with some of six flags switched off: imports, classes, type variables, functions,
properties, documentation; the output of Python may be suppressed in one and not in the other. -/
structure Spec.Restricts (cfg' cfg : Config) : Prop where
  same : cfg' = { cfg with
    generateImports := cfg'.generateImports
    generateClasses := cfg'.generateClasses
    generateTypeVars := cfg'.generateTypeVars
    generateFunctions := cfg'.generateFunctions
    generateProperties := cfg'.generateProperties
    generateDocs := cfg'.generateDocs
    suppressPythonStdout := cfg'.suppressPythonStdout
    suppressPythonStderr := cfg'.suppressPythonStderr }
  imports : cfg'.generateImports = true → cfg.generateImports = true
  classes : cfg'.generateClasses = true → cfg.generateClasses = true
  typeVars : cfg'.generateTypeVars = true → cfg.generateTypeVars = true
  functions : cfg'.generateFunctions = true → cfg.generateFunctions = true
  properties : cfg'.generateProperties = true → cfg.generateProperties = true
  docs : cfg'.generateDocs = true → cfg.generateDocs = true

/-- A documentation attribute, if there are any. -/
def Spec.docIf (docs : Bool) (d : Option Str) : Option Str := if docs then d else none

/-- A function, without its documentation if there is to be none. -/
def Spec.Fn.docIf (docs : Bool) (f : Fn) : Fn := { f with doc := Spec.docIf docs f.doc }

/-- A class, without the documentation on it and in it if there is to be none. -/
def Spec.ClassItem.docIf (docs : Bool) (k : ClassItem) : ClassItem :=
  { k with
    doc := Spec.docIf docs k.doc
    inherent := k.inherent.map (Spec.Fn.docIf docs)
    traitImpls := k.traitImpls.map (Spec.Fn.docIf docs) }

mutual
/-- What is left of an item: nothing if the flag of its kind is off, else the item, without documentation if that flag is
off. -/
def Spec.restrictItem (cfg : Config) : Item → List Item
  | .use p a => if cfg.generateImports then [.use p a] else []
  | .prelude n es => [.prelude n es]
  | .typeAlias n => if cfg.generateTypeVars then [.typeAlias n] else []
  | .class k => if cfg.generateClasses then [.class (Spec.ClassItem.docIf cfg.generateDocs k)] else []
  | .func f => if cfg.generateFunctions then [.func (Spec.Fn.docIf cfg.generateDocs f)] else []
  | .prop f => if cfg.generateProperties then [.prop (Spec.Fn.docIf cfg.generateDocs f)] else []
  | .strayPub => if cfg.generateProperties then [.strayPub] else []
  | .embed s n f => [.embed s n f]
  | .mod a d n l => [.mod a (Spec.docIf cfg.generateDocs d) n (Spec.restrictItems cfg l)]
/-- What is left of a list of items, in order. -/
def Spec.restrictItems (cfg : Config) : List Item → List Item
  | [] => []
  | x :: l => Spec.restrictItem cfg x ++ Spec.restrictItems cfg l
end

theorem restrictItems_append (cfg : Config) (a b : List Item) :
    restrictItems cfg (a ++ b) = restrictItems cfg a ++ restrictItems cfg b := by
  induction a with
  | nil => rfl
  | cons x a ih => rw [List.cons_append, restrictItems, restrictItems, ih, List.append_assoc]

theorem restrictItems_flatten (cfg : Config) (l : List (List Item)) :
    restrictItems cfg l.flatten = (l.map (restrictItems cfg)).flatten := by
  induction l with
  | nil => rfl
  | cons x l ih => rw [List.flatten_cons, restrictItems_append, ih, List.map_cons, List.flatten_cons]

/-! ## Parsing is the same -/

section
variable {E : Env} {W : World} {cfg' cfg : Config}

theorem restricts_allowed (h : Restricts cfg' cfg) : cfg'.isAttrAllowed = cfg.isAttrAllowed := by
  rw [h.same]; rfl

theorem allowed_candidates (ha : cfg'.isAttrAllowed = cfg.isAttrAllowed) (m : PyMod) :
    moduleCandidates E cfg' m = moduleCandidates E cfg m := by
  unfold moduleCandidates
  rw [ha]

theorem allowed_subs (ha : cfg'.isAttrAllowed = cfg.isAttrAllowed) (m : PyMod) (n : Path) :
    extractSubmodules E cfg' m n = extractSubmodules E cfg m n := by
  unfold extractSubmodules
  rw [ha]

theorem restricts_deps (h : Restricts cfg' cfg) : cfg'.generateDependencies = cfg.generateDependencies := by
  rw [h.same]

theorem restricts_traverse (h : Restricts cfg' cfg) : cfg'.traverseSubmodules = cfg.traverseSubmodules := by
  rw [h.same]

theorem restricts_preludes (h : Restricts cfg' cfg) : cfg'.generatePreludes = cfg.generatePreludes := by
  rw [h.same]

theorem restricts_checkPrelude (h : Restricts cfg' cfg) (m : PyMod) (n : Path) : checkPrelude E cfg' m n = checkPrelude E cfg m n := by
  unfold checkPrelude
  rw [restricts_deps h]

theorem restricts_extractPrelude (h : Restricts cfg' cfg) (m : PyMod) (n : Path) :
    extractPrelude E cfg' m n = extractPrelude E cfg m n := by
  unfold extractPrelude
  rw [restricts_deps h, restricts_allowed h]

theorem allowed_class (ha : cfg'.isAttrAllowed = cfg.isAttrAllowed) : Class.parse E cfg' = Class.parse E cfg := by
  funext c n
  unfold Class.parse Class.candidates
  rw [ha]

theorem allowed_stepImport (ha : cfg'.isAttrAllowed = cfg.isAttrAllowed) : stepImport E cfg' = stepImport E cfg := by
  funext n st i a
  unfold stepImport originAllowed
  rw [ha]

theorem allowed_step (ha : cfg'.isAttrAllowed = cfg.isAttrAllowed) (n : Path) : moduleStep E cfg' n = moduleStep E cfg n := by
  funext st m
  unfold moduleStep
  rw [allowed_class ha, allowed_stepImport ha]

theorem restricts_parse (h : Restricts cfg' cfg) (fuel : Nat) : Module.parse E cfg' W fuel = Module.parse E cfg W fuel := by
  induction fuel with
  | zero => funext id; rfl
  | succ fuel ih =>
    funext id
    rw [Module.parse, Module.parse]
    simp only [ih, allowed_step (restricts_allowed h), allowed_subs (restricts_allowed h), allowed_candidates (restricts_allowed h),
      restricts_checkPrelude h, restricts_extractPrelude h,
      restricts_preludes h, restricts_traverse h]

theorem restricts_dependencies (h : Restricts cfg' cfg) (fuel : Nat) (mods : List Module) :
    parseDependencies E cfg' W fuel mods = parseDependencies E cfg W fuel mods := by
  have : depStep E cfg' W fuel = depStep E cfg W fuel := by
    funext st o
    unfold depStep
    rw [restricts_allowed h, restricts_parse h]
  unfold parseDependencies
  rw [this]

/-! ## Generation -/

theorem restricts_doc (h : Restricts cfg' cfg) (d : Option Str) : docAttr cfg' d = docIf cfg'.generateDocs (docAttr cfg d) := by
  unfold docAttr docIf
  by_cases hd : cfg'.generateDocs = true
  · simp [hd, h.docs hd]
  · simp [hd]

/-- An implementation, without documentation if there is to be none. -/
def implDocIf (docs : Bool) : FnImpl → FnImpl
  | .func fns => .func (fns.map (Spec.Fn.docIf docs))
  | .method sigs fns => .method sigs (fns.map (Spec.Fn.docIf docs))

theorem restricts_function (h : Restricts cfg' cfg) {imp : Str → Bool} {taken : List Ident} {lt : LocalTypes} {f : Function} {r : FnImpl}
    (hg : f.generate E cfg imp taken lt = .ok r) : f.generate E cfg' imp taken lt = .ok (implDocIf cfg'.generateDocs r) := by
  unfold Function.generate at hg ⊢
  obtain ⟨name, h1, hg⟩ := Res.bind_ok hg
  rw [h1, Res.ok_bind]
  cases h2 : Function.ident E name with
  | none =>
    rw [h2] at hg
    cases hg
    rfl
  | some ident =>
    rw [h2] at hg
    simp only at hg ⊢
    obtain ⟨idents, h3, hg⟩ := Res.bind_ok hg
    obtain ⟨pres, h4, hg⟩ := Res.bind_ok hg
    obtain ⟨types, h5, hg⟩ := Res.bind_ok hg
    obtain ⟨ret, h6, hg⟩ := Res.bind_ok hg
    obtain ⟨sig, h7, hg⟩ := Res.bind_ok hg
    obtain ⟨o, h8, hg⟩ := Res.bind_ok hg
    rw [h3, Res.ok_bind, h4, Res.ok_bind, h5, Res.ok_bind, h6, Res.ok_bind, h7, Res.ok_bind, h8, Res.ok_bind]
    cases o with
    | none => cases hg; rfl
    | some obj =>
      simp only at hg ⊢
      obtain ⟨pos, h9, hg⟩ := Res.bind_ok hg
      obtain ⟨kw, h10, hg⟩ := Res.bind_ok hg
      rw [h9, Res.ok_bind, h10, Res.ok_bind, restricts_doc h]
      have hg := Except.ok.inj hg
      subst hg
      by_cases hs : sig.recv = .self
      · simp only [hs, decide_true, if_true]; rfl
      · simp only [hs, decide_false]; rfl

theorem restricts_getter (h : Restricts cfg' cfg) {imp : Str → Bool} {taken : List Ident} {lt : LocalTypes} {p : Property} {r : Option Fn}
    (hg : p.generateGetter E cfg imp taken lt = .ok r) :
    p.generateGetter E cfg' imp taken lt = .ok (r.map (Spec.Fn.docIf cfg'.generateDocs)) := by
  unfold Property.generateGetter at hg ⊢
  obtain ⟨name, h1, hg⟩ := Res.bind_ok hg
  obtain ⟨o, h2, hg⟩ := Res.bind_ok hg
  rw [h1, Res.ok_bind, h2, Res.ok_bind]
  cases o with
  | none => cases hg; rfl
  | some ident =>
    simp only at hg ⊢
    obtain ⟨ty, h3, hg⟩ := Res.bind_ok hg
    obtain ⟨obj, h4, hg⟩ := Res.bind_ok hg
    rw [h3, Res.ok_bind, h4, Res.ok_bind, restricts_doc h]
    cases hg
    rfl

theorem restricts_setter (h : Restricts cfg' cfg) {imp : Str → Bool} {taken : List Ident} {lt : LocalTypes} {p : Property} {r : Option Fn}
    (hg : p.generateSetter E cfg imp taken lt = .ok r) :
    p.generateSetter E cfg' imp taken lt = .ok (r.map (Spec.Fn.docIf cfg'.generateDocs)) := by
  unfold Property.generateSetter at hg ⊢
  obtain ⟨name, h1, hg⟩ := Res.bind_ok hg
  obtain ⟨o, h2, hg⟩ := Res.bind_ok hg
  rw [h1, Res.ok_bind, h2, Res.ok_bind]
  cases o with
  | none => cases hg; rfl
  | some ident =>
    simp only at hg ⊢
    obtain ⟨pre, h3, hg⟩ := Res.bind_ok hg
    obtain ⟨ty, h4, hg⟩ := Res.bind_ok hg
    obtain ⟨obj, h5, hg⟩ := Res.bind_ok hg
    rw [h3, Res.ok_bind, h4, Res.ok_bind, h5, Res.ok_bind, restricts_doc h]
    cases hg
    rfl

theorem restricts_property (h : Restricts cfg' cfg) {imp : Str → Bool} {taken : List Ident} {lt : LocalTypes} {p : Property}
    {r : List (Option Fn)} (hg : p.generate E cfg imp taken lt = .ok r) :
    p.generate E cfg' imp taken lt = .ok (r.map (Option.map (Spec.Fn.docIf cfg'.generateDocs))) := by
  unfold Property.generate at hg ⊢
  obtain ⟨g, h1, hg⟩ := Res.bind_ok hg
  rw [restricts_getter h h1, Res.ok_bind]
  by_cases hm : p.isMutable = true
  · rw [if_pos hm] at hg ⊢
    obtain ⟨s, h2, hg⟩ := Res.bind_ok hg
    rw [restricts_setter h h2, Res.ok_bind]
    cases hg
    rfl
  · rw [if_neg hm] at hg ⊢
    cases hg
    rfl

/-- A traversal with another function whose results are those of the first one, changed. -/
theorem traverse_change {α β γ : Type} {f : α → Res β} {g : α → Res γ} {k : β → γ} {l : List α} {r : List β}
    (hk : ∀ a b, f a = .ok b → g a = .ok (k b)) (h : Res.traverse f l = .ok r) : Res.traverse g l = .ok (r.map k) := by
  induction l generalizing r with
  | nil => cases h; rfl
  | cons a l ih =>
    rw [Res.traverse] at h ⊢
    obtain ⟨b, h1, h⟩ := Res.bind_ok h
    obtain ⟨bs, h2, h⟩ := Res.bind_ok h
    cases h
    rw [hk a b h1, Res.ok_bind, ih h2, Res.ok_bind]
    rfl

theorem parts_docIf (docs : Bool) (l : List FnImpl) (a : ClassParts) :
    (l.map (implDocIf docs)).foldl ClassParts.add
        ⟨a.inherent.map (Spec.Fn.docIf docs), a.traitSigs, a.traitImpls.map (Spec.Fn.docIf docs)⟩ =
      ⟨(l.foldl ClassParts.add a).inherent.map (Spec.Fn.docIf docs), (l.foldl ClassParts.add a).traitSigs,
        (l.foldl ClassParts.add a).traitImpls.map (Spec.Fn.docIf docs)⟩ := by
  induction l generalizing a with
  | nil => rfl
  | cons r l ih =>
    rw [List.map_cons, List.foldl_cons, List.foldl_cons, ← ih]
    cases r <;> simp [ClassParts.add, implDocIf]

theorem propImpl_docIf (docs : Bool) (l : List (Option Fn)) :
    propImpl (l.map (Option.map (Spec.Fn.docIf docs))) = implDocIf docs (propImpl l) := by
  have h1 : (l.map (Option.map (Spec.Fn.docIf docs))).filterMap id = (l.filterMap id).map (Spec.Fn.docIf docs) := by
    induction l with
    | nil => rfl
    | cons x l ih => cases x <;> simp_all
  unfold propImpl
  rw [h1]
  simp only [implDocIf, List.map_map]
  congr 1

theorem restricts_classGenerate (h : Restricts cfg' cfg) {imp : Str → Bool} {lt : LocalTypes} {c : Class} {r : Option ClassItem}
    (hg : c.generate E cfg imp lt = .ok r) :
    c.generate E cfg' imp lt = .ok (r.map (Spec.ClassItem.docIf cfg'.generateDocs)) := by
  unfold Class.generate at hg ⊢
  obtain ⟨name, h1, hg⟩ := Res.bind_ok hg
  rw [h1, Res.ok_bind]
  cases h2 : Class.ident E name with
  | none =>
    rw [h2] at hg
    cases hg
    rfl
  | some ident =>
    rw [h2] at hg
    simp only at hg ⊢
    obtain ⟨taken, h3, hg⟩ := Res.bind_ok hg
    obtain ⟨impls, h4, hg⟩ := Res.bind_ok hg
    obtain ⟨props, h5, hg⟩ := Res.bind_ok hg
    obtain ⟨tr, h6, hg⟩ := Res.bind_ok hg
    rw [h3, Res.ok_bind, traverse_change (fun _ _ hf => restricts_function h hf) h4, Res.ok_bind,
      traverse_change (fun _ _ hf => restricts_property h hf) h5, Res.ok_bind, h6, Res.ok_bind, restricts_doc h]
    have hg := Except.ok.inj hg
    subst hg
    have hp : (impls.map (implDocIf cfg'.generateDocs) ++
        (props.map (List.map (Option.map (Spec.Fn.docIf cfg'.generateDocs)))).map propImpl) =
        (impls ++ props.map propImpl).map (implDocIf cfg'.generateDocs) := by
      rw [List.map_append, List.map_map, List.map_map]
      congr 1
      exact List.map_congr_left fun l _ => propImpl_docIf _ l
    rw [hp]
    have := parts_docIf cfg'.generateDocs (impls ++ props.map propImpl) ⟨[], [], []⟩
    simp only [List.map_nil] at this
    rw [this]
    rfl

/-- A list of items each of which is kept, with or without documentation. -/
theorem restrictItems_map {α : Type} (cfg : Config) (k k' : α → Item) (l : List α)
    (h : ∀ a ∈ l, restrictItem cfg (k a) = [k' a]) : restrictItems cfg (l.map k) = l.map k' := by
  induction l with
  | nil => rfl
  | cons a l ih =>
    rw [List.map_cons, restrictItems, h a List.mem_cons_self, ih fun b hb => h b (List.mem_cons_of_mem _ hb)]
    rfl

/-- A list of items none of which is kept. -/
theorem restrictItems_none {cfg : Config} {l : List Item} (h : ∀ x ∈ l, restrictItem cfg x = []) : restrictItems cfg l = [] := by
  induction l with
  | nil => rfl
  | cons a l ih => rw [restrictItems, h a List.mem_cons_self, ih fun b hb => h b (List.mem_cons_of_mem _ hb)]; rfl

/-- A list of items all of which are kept as they are. -/
theorem restrictItems_all {cfg : Config} {l : List Item} (h : ∀ x ∈ l, restrictItem cfg x = [x]) : restrictItems cfg l = l := by
  have := restrictItems_map cfg id id l h
  rwa [List.map_id] at this

theorem ifOn_on {α : Type} {b b' : Bool} {r : Res α} {off a : α} (hb : b' = true → b = true) (h : ifOn b r off = .ok a)
    (hb' : b' = true) : r = .ok a := by
  rw [hb hb'] at h
  exact h

variable {imp : Str → Bool} {tops : List Module} {ts : List Path} {m : Module} {out : List Item}

theorem restricts_imports (h : Restricts cfg' cfg) (p : ContentParts E cfg imp tops ts m out) :
    ∃ l, ifOn cfg'.generateImports
      (Res.traverse (Import.generate E) (m.imports.filter (fun i => pathExistsList i.origin tops))) [] = .ok l ∧
      l.filterMap id = restrictItems cfg' (p.imports.filterMap id) := by
  have huse : ∀ x ∈ p.imports.filterMap id, ∃ q a, x = .use q a := by
    intro x hx
    rcases ifOn_ok p.importsOk with ⟨hc, h⟩ | ⟨-, h⟩
    · rw [List.mem_filterMap] at hx
      obtain ⟨o, ho, rfl⟩ := hx
      obtain ⟨i, hi, hg⟩ := traverse_mem h ho
      exact import_generate_use hg
    · rw [h] at hx; cases hx
  by_cases hc : cfg'.generateImports = true
  · refine ⟨p.imports, ?_, ?_⟩
    · rw [hc]
      exact ifOn_on h.imports p.importsOk hc
    · refine (restrictItems_all fun x hx => ?_).symm
      obtain ⟨q, a, rfl⟩ := huse x hx
      simp [restrictItem, hc]
  · refine ⟨[], ?_, ?_⟩
    · rw [Bool.not_eq_true] at hc
      rw [hc, ifOn, if_neg (by simp)]
    · refine (restrictItems_none fun x hx => ?_).symm
      obtain ⟨q, a, rfl⟩ := huse x hx
      simp [restrictItem, hc]

theorem restricts_prelude (p : ContentParts E cfg imp tops ts m out) :
    restrictItems cfg' (p.prelude.bind id).toList = (p.prelude.bind id).toList := by
  refine restrictItems_all fun x hx => ?_
  rcases ifOn_ok p.preludeOk with ⟨hc, h⟩ | ⟨-, h⟩
  · rw [Option.mem_toList] at hx
    cases hp : p.prelude with
    | none => rw [hp] at hx; cases hx
    | some o =>
      rw [hp] at hx h
      have hx : o = some x := hx
      subst hx
      obtain ⟨n, es, -, -, rfl, -⟩ := generatePrelude_prelude (okOrDrop_some h)
      simp [restrictItem]
  · rw [h] at hx; cases hx

theorem restricts_typeVars (h : Restricts cfg' cfg) (p : ContentParts E cfg imp tops ts m out) :
    ifOn cfg'.generateTypeVars (Res.traverse (TypeVar.generate E) m.typeVars) [] = .ok (restrictItems cfg' p.typeVars) := by
  have hal : ∀ x ∈ p.typeVars, ∃ s, x = .typeAlias s := by
    intro x hx
    rcases ifOn_ok p.typeVarsOk with ⟨hc, h⟩ | ⟨-, h⟩
    · obtain ⟨t, ht, hg⟩ := traverse_mem h hx
      obtain ⟨i, -, hg⟩ := Res.bind_ok hg
      obtain ⟨s, -, hg⟩ := Res.bind_ok hg
      cases hg
      exact ⟨_, rfl⟩
    · rw [h] at hx; cases hx
  by_cases hc : cfg'.generateTypeVars = true
  · have : restrictItems cfg' p.typeVars = p.typeVars := restrictItems_all fun x hx => by
      obtain ⟨s, rfl⟩ := hal x hx
      simp [restrictItem, hc]
    rw [hc, this]
    exact ifOn_on h.typeVars p.typeVarsOk hc
  · have : restrictItems cfg' p.typeVars = [] := restrictItems_none fun x hx => by
      obtain ⟨s, rfl⟩ := hal x hx
      simp [restrictItem, hc]
    rw [Bool.not_eq_true] at hc
    rw [hc, this, ifOn, if_neg (by simp)]

theorem restricts_classes (h : Restricts cfg' cfg) (p : ContentParts E cfg imp tops ts m out) :
    ∃ l, ifOn cfg'.generateClasses (Res.traverse (Class.generate E cfg' imp p.lt) m.classes) [] = .ok l ∧
      (l.filterMap id).map Item.class = restrictItems cfg' ((p.classes.filterMap id).map Item.class) := by
  by_cases hc : cfg'.generateClasses = true
  · refine ⟨p.classes.map (Option.map (Spec.ClassItem.docIf cfg'.generateDocs)), ?_, ?_⟩
    · have := traverse_change (fun _ _ hf => restricts_classGenerate h hf) (ifOn_on h.classes p.classesOk hc)
      rw [hc]
      exact this
    · rw [restrictItems_map cfg' Item.class (fun k => .class (Spec.ClassItem.docIf cfg'.generateDocs k)) _
        (fun k _ => by simp [restrictItem, hc])]
      induction p.classes with
      | nil => rfl
      | cons x l ih => cases x <;> simp_all
  · refine ⟨[], ?_, ?_⟩
    · rw [Bool.not_eq_true] at hc
      rw [hc, ifOn, if_neg (by simp)]
    · refine (restrictItems_none fun x hx => ?_).symm
      obtain ⟨k, -, rfl⟩ := List.mem_map.mp hx
      simp [restrictItem, hc]

theorem restricts_functions (h : Restricts cfg' cfg) (p : ContentParts E cfg imp tops ts m out) :
    ∃ l, ifOn cfg'.generateFunctions
      (Res.traverse (fun f => do moduleFns (← Function.generate E cfg' imp p.taken p.lt f)) m.functions) [] = .ok l ∧
      l.flatten = restrictItems cfg' p.functions.flatten := by
  by_cases hc : cfg'.generateFunctions = true
  · refine ⟨p.functions.map (restrictItems cfg'), ?_, (restrictItems_flatten _ _).symm⟩
    have := traverse_change (g := fun f => do moduleFns (← Function.generate E cfg' imp p.taken p.lt f))
      (k := restrictItems cfg') (fun f b hf => ?_) (ifOn_on h.functions p.functionsOk hc)
    · rw [hc]
      exact this
    · obtain ⟨r, h1, h2⟩ := Res.bind_ok hf
      show (Function.generate E cfg' imp p.taken p.lt f >>= moduleFns) = _
      rw [restricts_function h h1, Res.ok_bind]
      cases r with
      | method a b => cases h2
      | func fns =>
        cases h2
        rw [restrictItems_map cfg' Item.func (fun f => .func (Spec.Fn.docIf cfg'.generateDocs f)) _
          (fun k _ => by simp [restrictItem, hc]), implDocIf, moduleFns, List.map_map]
        rfl
  · refine ⟨[], ?_, ?_⟩
    · rw [Bool.not_eq_true] at hc
      rw [hc, ifOn, if_neg (by simp)]
    · refine (restrictItems_none fun x hx => ?_).symm
      rcases ifOn_ok p.functionsOk with ⟨-, h⟩ | ⟨-, h⟩
      · obtain ⟨l, hl, hx⟩ := List.mem_flatten.mp hx
        obtain ⟨f, hf, hg⟩ := traverse_mem h hl
        obtain ⟨r, h1, h2⟩ := Res.bind_ok hg
        cases r with
        | method a b => cases h2
        | func fns =>
          cases h2
          obtain ⟨fn, -, rfl⟩ := List.mem_map.mp hx
          simp [restrictItem, hc]
      · rw [h] at hx; cases hx

theorem restricts_properties (h : Restricts cfg' cfg) (p : ContentParts E cfg imp tops ts m out) :
    ∃ l, ifOn cfg'.generateProperties
      (Res.traverse (fun q => do moduleProps q.owner (← Property.generate E cfg' imp p.taken p.lt q)) m.properties) [] = .ok l ∧
      l.flatten = restrictItems cfg' p.properties.flatten := by
  by_cases hc : cfg'.generateProperties = true
  · refine ⟨p.properties.map (restrictItems cfg'), ?_, (restrictItems_flatten _ _).symm⟩
    have := traverse_change (g := fun (q : Property) => do moduleProps q.owner (← Property.generate E cfg' imp p.taken p.lt q))
      (k := restrictItems cfg') (fun f b hf => ?_) (ifOn_on h.properties p.propertiesOk hc)
    · rw [hc]
      exact this
    · obtain ⟨r, h1, h2⟩ := Res.bind_ok hf
      show (Property.generate E cfg' imp p.taken p.lt f >>= moduleProps f.owner) = _
      rw [restricts_property h h1, Res.ok_bind]
      cases ho : f.owner with
      | «class» => rw [ho] at h2; cases h2
      | module =>
        rw [ho] at h2
        cases h2
        rw [moduleProps]
        clear h1 hf
        congr 1
        induction r with
        | nil => rfl
        | cons x r ih =>
          rw [List.map_cons, List.map_cons, List.map_cons, restrictItems, ih]
          cases x <;> simp [restrictItem, hc]
  · refine ⟨[], ?_, ?_⟩
    · rw [Bool.not_eq_true] at hc
      rw [hc, ifOn, if_neg (by simp)]
    · refine (restrictItems_none fun x hx => ?_).symm
      rcases ifOn_ok p.propertiesOk with ⟨-, h⟩ | ⟨-, h⟩
      · obtain ⟨l, hl, hx⟩ := List.mem_flatten.mp hx
        obtain ⟨f, hf, hg⟩ := traverse_mem h hl
        obtain ⟨r, h1, h2⟩ := Res.bind_ok hg
        cases ho : f.owner with
        | «class» => rw [ho] at h2; cases h2
        | module =>
          rw [ho] at h2
          cases h2
          obtain ⟨o, -, rfl⟩ := List.mem_map.mp hx
          cases o <;> simp [restrictItem, hc]
      · rw [h] at hx; cases hx

theorem restricts_content (h : Restricts cfg' cfg) (hg : m.content E cfg imp tops ts = .ok out) :
    m.content E cfg' imp tops ts = .ok (restrictItems cfg' out) := by
  obtain ⟨p⟩ := content_parts hg
  obtain ⟨is, h1, h1'⟩ := restricts_imports h p
  obtain ⟨cs, h2, h2'⟩ := restricts_classes h p
  obtain ⟨fs, h3, h3'⟩ := restricts_functions h p
  obtain ⟨ps, h4, h4'⟩ := restricts_properties h p
  have h5 := p.preludeOk
  rw [← restricts_preludes h] at h5
  unfold Module.content
  rw [p.takenOk, Res.ok_bind, p.ltOk, Res.ok_bind, h1, Res.ok_bind, h5, Res.ok_bind, restricts_typeVars h p, Res.ok_bind, h2,
    Res.ok_bind, h3, Res.ok_bind, h4, Res.ok_bind]
  have hout := congrArg (restrictItems cfg') p.content
  simp only [restrictItems_append, restricts_prelude] at hout
  rw [hout, h1', h2', h3', h4']
  rfl

theorem restrict_embed (n : Path) (s : Option Str) : restrictItems cfg' (embedItems n s) = embedItems n s := by
  cases s <;> rfl

end

mutual
theorem restricts_module {E : Env} {cfg' cfg : Config} {imp : Str → Bool} {tops : List Module} {ts : List Path}
    (h : Restricts cfg' cfg) : (m : Module) → (it : Item) → Module.generate E cfg imp tops ts m = .ok it →
      ∃ it', Module.generate E cfg' imp tops ts m = .ok it' ∧ restrictItem cfg' it = [it']
  | ⟨name, prelude, imports, subs, cs, tvs, fs, ps, doc, pkg, src⟩, it, hg => by
    rw [Module.generate] at hg ⊢
    obtain ⟨content, h1, hg⟩ := Res.bind_ok hg
    obtain ⟨mods, h2, hg⟩ := Res.bind_ok hg
    obtain ⟨last, h3, hg⟩ := Res.bind_ok hg
    obtain ⟨ident, h4, hg⟩ := Res.bind_ok hg
    have hg := Except.ok.inj hg
    subst hg
    have h2' : ifOn cfg'.traverseSubmodules (Module.generateList E cfg' imp tops ts subs) [] = .ok (restrictItems cfg' mods) := by
      rw [restricts_traverse h]
      rcases ifOn_ok h2 with ⟨hc, h2⟩ | ⟨hc, h2⟩
      · rw [hc]
        exact restricts_modules h subs mods h2
      · rw [hc, h2]
        rfl
    refine ⟨_, ?_, rfl⟩
    rw [restricts_content h h1, Res.ok_bind, h2', Res.ok_bind, h3, Res.ok_bind, h4, Res.ok_bind, restricts_doc h,
      restrictItems_append, restrictItems_append, restrict_embed]
    rfl
theorem restricts_modules {E : Env} {cfg' cfg : Config} {imp : Str → Bool} {tops : List Module} {ts : List Path}
    (h : Restricts cfg' cfg) : (l : List Module) → (items : List Item) → Module.generateList E cfg imp tops ts l = .ok items →
      Module.generateList E cfg' imp tops ts l = .ok (restrictItems cfg' items)
  | [], items, hg => by
    rw [Module.generateList] at hg ⊢
    cases hg
    rfl
  | m :: l, items, hg => by
    rw [Module.generateList] at hg ⊢
    obtain ⟨i, h1, hg⟩ := Res.bind_ok hg
    obtain ⟨is, h2, hg⟩ := Res.bind_ok hg
    cases hg
    obtain ⟨i', h1', h1''⟩ := restricts_module h m i h1
    rw [h1', Res.ok_bind, restricts_modules h l is h2, Res.ok_bind, restrictItems, h1'']
    rfl
end

theorem restricts_generate {E : Env} {W : World} {fuel : Nat} {c : Codegen} {cfg' : Config} {items : List Item}
    (h : Restricts cfg' c.cfg) (hg : c.generate E W fuel = .ok items) :
    ({ c with cfg := cfg' } : Codegen).generate E W fuel = .ok (restrictItems cfg' items) := by
  unfold Codegen.generate at hg ⊢
  by_cases hm : c.modules.isEmpty = true
  · rw [if_pos hm] at hg; cases hg
  · rw [if_neg hm] at hg
    rw [if_neg hm]
    obtain ⟨mods, h1, hg⟩ := Res.bind_ok hg
    have h1' : ({ c with cfg := cfg' } : Codegen).prepare E W fuel = .ok mods := by
      unfold Codegen.prepare at h1 ⊢
      simp only [restricts_deps h, restricts_dependencies h]
      exact h1
    rw [h1', Res.ok_bind]
    exact restricts_modules h mods items hg

theorem restricts_request {E : Env} {W : World} {fuel : Nat} {c d : Codegen} {cfg' : Config} {r : Request}
    (h : Restricts cfg' c.cfg) (hr : c.request E W fuel r = .ok d) :
    ({ c with cfg := cfg' } : Codegen).request E W fuel r = .ok { d with cfg := cfg' } ∧ d.cfg = c.cfg := by
  have key : ∀ (c d : Codegen) id, Restricts cfg' c.cfg → c.module E W fuel id = .ok d →
      ({ c with cfg := cfg' } : Codegen).module E W fuel id = .ok { d with cfg := cfg' } ∧ d.cfg = c.cfg := by
    intro c d id h hd
    unfold Codegen.module at hd ⊢
    obtain ⟨m, h1, hd⟩ := Res.bind_ok hd
    cases hd
    refine ⟨?_, rfl⟩
    simp only [restricts_parse h]
    rw [h1]
    rfl
  cases r with
  | handle id => exact key c d id h hr
  | name n =>
    obtain ⟨id, h1, hr⟩ := Res.bind_ok hr
    refine ⟨?_, (key c d id h hr).2⟩
    show Codegen.moduleName E W fuel _ n = _
    unfold Codegen.moduleName
    rw [h1, Res.ok_bind]
    exact (key c d id h hr).1
  | source code n =>
    obtain ⟨id, h1, hr⟩ := Res.bind_ok hr
    have := key { c with embedded := c.embedded ++ [(n, code)] } d id h hr
    refine ⟨?_, this.2⟩
    show Codegen.moduleFromStr E W fuel _ code n = _
    unfold Codegen.moduleFromStr
    rw [h1, Res.ok_bind]
    exact this.1

theorem restricts_requests {E : Env} {W : World} {fuel : Nat} {cfg' : Config} (rs : List Request) {c d : Codegen}
    (h : Restricts cfg' c.cfg) (hr : foldRes (fun c r => c.request E W fuel r) c rs = .ok d) :
    foldRes (fun c r => c.request E W fuel r) { c with cfg := cfg' } rs = .ok { d with cfg := cfg' } ∧ d.cfg = c.cfg := by
  induction rs generalizing c with
  | nil => cases hr; exact ⟨rfl, rfl⟩
  | cons r rs ih =>
    rw [foldRes] at hr ⊢
    obtain ⟨e, h1, hr⟩ := Res.bind_ok hr
    obtain ⟨h2, h3⟩ := restricts_request h h1
    rw [h2, Res.ok_bind, ← h3]
    exact ih (h3 ▸ h) hr

/-- With some of the flags for imports, classes, type variables, functions, properties and documentation switched off, a run
that succeeded still succeeds, and gives what it gave before without the items of these kinds and without documentation: the
same names, types and bodies, in the same order. Suppressing the output of Python changes nothing. -/
theorem C82_flags (E : Env) (W : World) (fuel : Nat) (cfg' cfg : Config) (rs : List Request) (items : List Item)
    (hc : Restricts cfg' cfg) (h : run E W fuel cfg rs = .ok items) :
    run E W fuel cfg' rs = .ok (restrictItems cfg' items) := by
  unfold run at h ⊢
  obtain ⟨c, h1, h⟩ := Res.bind_ok h
  obtain ⟨h2, h3⟩ := restricts_requests rs (c := Codegen.new cfg) hc h1
  have h2 : foldRes (fun c r => c.request E W fuel r) (Codegen.new cfg') rs = .ok { c with cfg := cfg' } := h2
  rw [h2, Res.ok_bind]
  exact restricts_generate (h3 ▸ hc) h

/-- Only functions, without documentation. -/
def exFnsOnly : Config :=
  { generateImports := false, generateClasses := false, generateTypeVars := false, generateProperties := false, generateDocs := false,
    suppressPythonStdout := false }

example : Restricts exFnsOnly {} := ⟨rfl, by simp, by simp, by simp, by simp, by simp, by simp⟩

example : (run exEnv exWorld 5 {} [.name c!"pkg"]).map exKinds = .ok [(1, 0), (3, 0), (4, 1), (5, 0), (5, 0), (8, 0)] ∧
    (run exEnv exWorld 5 exFnsOnly [.name c!"pkg"]).map exKinds = .ok [(1, 0), (4, 0), (8, 0)] := by decide +kernel

end Bindgen

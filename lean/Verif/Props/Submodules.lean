import Verif.Lemmas.Submodules
import Verif.Props.Parsed
/-!
# C58, C53: submodules
-/
namespace Bindgen
open Spec

/-! ## C58 -/

/-- The package lists a submodule called `i`, and the configuration allows it. -/
def Spec.Listed (E : Env) (cfg : Config) (pm : PyMod) (name : Path) (i : Ident) : Prop :=
  pm.isPackage = true ∧ (∃ l, pm.iterModules = some l ∧ ∃ s ∈ l, i = Ident.fromPy E s) ∧
    Allowed cfg i.asPy (name.segs.map Ident.asPy)

/-- The module has an attribute called `i` that is a module, and the configuration allows it. -/
def Spec.ModuleAttr (E : Env) (cfg : Config) (pm : PyMod) (i : Ident) : Prop :=
  ∃ s ∈ pm.dir, ∃ a, i = Ident.fromPy E s ∧ pm.getattr i.asPy = some a ∧ a.obj.isModule = true ∧
    Allowed cfg i.asPy ((Path.fromPy E a.obj.modPath).segs.map Ident.asPy)

/-- The full name of the attribute `i` of a module. -/
def Spec.child (name : Path) (i : Ident) : Path := ⟨name.leadingColon, name.segs ++ [i]⟩

/-- The submodule `i` of a module is this module of the interpreter: it can be imported, or it cannot and the attribute of that
name is the module. -/
def Spec.Loads (W : World) (pm : PyMod) (name : Path) (i : Ident) (id : Nat) : Prop :=
  W.importMod (child name i).toPy = some id ∨
    (W.importMod (child name i).toPy = none ∧ ∃ a, pm.getattr i.asPy = some a ∧ a.mod = some id)

theorem determine_module {E : Env} {o : PyObj} {p q : Path} {ci : Bool} (h : determine E o p q ci = .ok .module) :
    o.isModule = true := by
  unfold determine at h
  obtain ⟨_, -, h⟩ := Res.bind_ok h
  obtain ⟨f, -, h⟩ := Res.bind_ok h
  obtain ⟨g, -, h⟩ := Res.bind_ok h
  have h := Except.ok.inj h
  split at h
  · cases h
  · split at h
    · assumption
    · repeat' split at h
      all_goals cases h

theorem extracted_subs {E : Env} {cfg : Config} {pm : PyMod} {name : Path} {subs : List Ident}
    (h : ifOn pm.isPackage (extractSubmodules E cfg pm name) [] = .ok subs) {i : Ident} :
    i ∈ subs ↔ Listed E cfg pm name i := by
  rcases ifOn_ok h with ⟨hp, h⟩ | ⟨hp, h⟩
  · unfold extractSubmodules at h
    obtain ⟨l, hl, h⟩ := Res.bind_ok h
    obtain ⟨_, -, h⟩ := Res.bind_ok h
    have hl : pm.iterModules = some l := by
      cases hm : pm.iterModules with
      | none => rw [hm] at hl; cases hl
      | some x => rw [hm] at hl; cases hl; rfl
    have h := Except.ok.inj h
    rw [← h, List.mem_filter, C08_filter_iff, List.mem_map]
    unfold Listed
    rw [hl]
    constructor
    · rintro ⟨⟨s, hs, rfl⟩, ha⟩; exact ⟨hp, ⟨l, rfl, s, hs, rfl⟩, ha⟩
    · rintro ⟨-, ⟨l', hl', s, hs, rfl⟩, ha⟩; cases hl'; exact ⟨⟨s, hs, rfl⟩, ha⟩
  · rw [h]
    constructor
    · intro h; cases h
    · rintro ⟨h1, -⟩; rw [hp] at h1; cases h1

theorem attributes_st_subs {E : Env} {cfg : Config} {pm : PyMod} {name : Path} {subs : List Ident} {st : ParseState}
    (h : ifOn pm.isPackage (extractSubmodules E cfg pm name) [] = .ok subs)
    (h' : foldRes (moduleStep E cfg name) { subs := subs } (moduleCandidates E cfg pm) = .ok st)
    {i : Ident} (hi : i ∈ st.subs) : Listed E cfg pm name i ∨ ModuleAttr E cfg pm i := by
  rcases (attributes_subs h').2 i hi with hi | ⟨x, hx, rfl, hd⟩
  · exact Or.inl ((extracted_subs h).mp hi)
  · obtain ⟨h1, h2, h3⟩ := mem_candidates hx
    obtain ⟨s, hs, h1⟩ := List.mem_map.mp h1
    exact Or.inr ⟨s, hs, x.2, h1.symm, h2, determine_module hd, (C08_filter_iff _ _ _).mp h3⟩

theorem parts_subs {E : Env} {cfg : Config} {W : World} {fuel id : Nat} {M : Module} (p : ParseParts E cfg W fuel id M)
    {i : Ident} : i ∈ p.subs ↔ Listed E cfg p.pm M.name i := extracted_subs p.extracted

theorem parts_st_subs {E : Env} {cfg : Config} {W : World} {fuel id : Nat} {M : Module} (p : ParseParts E cfg W fuel id M)
    {i : Ident} (hi : i ∈ p.st.subs) : Listed E cfg p.pm M.name i ∨ ModuleAttr E cfg p.pm i :=
  attributes_st_subs p.extracted p.attributes hi

theorem loads_of {W : World} {pm : PyMod} {name : Path} {i : Ident} {id : Nat} (h : submoduleId W pm name i = some id) :
    Loads W pm name i id := by
  unfold submoduleId at h
  split at h
  · rename_i x hx; cases h; exact Or.inl hx
  · rename_i hx
    cases hg : pm.getattr i.asPy with
    | none => rw [hg] at h; cases h
    | some a => rw [hg] at h; exact Or.inr ⟨hx, a, hg, h⟩

/-- **C58**: every submodule in a parsed tree is made from an allowed submodule of its package, or from an allowed attribute
that is a module, loaded under that name; and submodules only exist if they are traversed. -/
theorem C58_submodules (E : Env) (cfg : Config) (W : World) (fuel id : Nat) (root M : Module)
    (h : Module.parse E cfg W fuel id = .ok root) (hM : InTree M [root]) :
    ∃ id' pm n, W.get? id' = some pm ∧ pm.name = some n ∧ M.name = Path.fromPy E n ∧ M.isPackage = pm.isPackage ∧
      ∀ s ∈ M.submodules, cfg.traverseSubmodules = true ∧ ∃ i id'', (Listed E cfg pm M.name i ∨ ModuleAttr E cfg pm i) ∧
        Loads W pm M.name i id'' ∧ Parsed E cfg W s ∧ Module.parse E cfg W fuel id'' = .ok s := by
  obtain ⟨fuel', id', h', hle⟩ : ∃ fuel' id', Module.parse E cfg W fuel' id' = .ok M ∧ fuel' ≤ fuel := by
    induction fuel generalizing id root with
    | zero => exact absurd h parse_zero
    | succ fuel ih =>
      cases hM with
      | top hm => rw [List.mem_singleton] at hm; subst hm; exact ⟨_, _, h, Nat.le_refl _⟩
      | sub hm hs =>
        rw [List.mem_singleton] at hm
        subst hm
        obtain ⟨s, hs1, hs2⟩ := inTree_mem hs
        obtain ⟨id', hs'⟩ := parse_submodules h hs1
        obtain ⟨f, i, hh, hle⟩ := ih id' s hs' hs2
        exact ⟨f, i, hh, by omega⟩
  cases fuel' with
  | zero => exact absurd h' parse_zero
  | succ fuel' =>
    obtain ⟨p⟩ := parse_parts h'
    refine ⟨id', p.pm, p.nm, p.get, p.pmName, p.name, p.isPackage, ?_⟩
    intro s hs
    constructor
    · rcases ifOn_ok p.traversed with ⟨ht, -⟩ | ⟨-, ht⟩
      · exact ht
      · have := congrArg Prod.snd ht
        simp only at this
        rw [this] at hs
        cases hs
    · have := traversed_invariant p (P := fun _ l => ∀ s ∈ l, ∃ i id'', (Listed E cfg p.pm M.name i ∨ ModuleAttr E cfg p.pm i) ∧
          Loads W p.pm M.name i id'' ∧ Parsed E cfg W s ∧ Module.parse E cfg W fuel id'' = .ok s) (by simp)
          (fun _ _ _ _ _ h _ _ _ => h) (fun _ l s i h hi ⟨id'', hid, hs⟩ => by
            intro x hx
            rcases mem_snoc.mp hx with hx | rfl
            · exact h x hx
            · exact ⟨i, id'', parts_st_subs p hi, loads_of hid, ⟨_, _, hs⟩, parse_fuel_le hs (by omega)⟩)
      exact this s hs

/-- The attribute called `i` of a module is taken for an import: it is a class, function, method or module of another module,
every part of the path to it is allowed. -/
structure Spec.ImportsFrom (E : Env) (cfg : Config) (name : Path) (i : Ident) (a : PyAttr) (origin : Path) : Prop where
  path : origin = ⟨(Path.fromPy E a.obj.modPath).leadingColon, (Path.fromPy E a.obj.modPath).segs ++
    (Path.fromPy E (a.obj.dunderName.getD i.asPy)).segs⟩
  variant : determine E a.obj (Path.fromPy E a.obj.modPath) name true = .ok .import
  moved : origin ≠ child name i
  allowed : ∀ l s r, origin.segs = l ++ s :: r → Allowed cfg s.asPy (l.map Ident.asPy)

theorem importedAttr_iff {E : Env} {cfg : Config} {name : Path} {i : Ident} {a : PyAttr} :
    ImportedAttr E cfg name i a ↔ ∃ o, ImportsFrom E cfg name i a o := by
  constructor
  · rintro ⟨h1, h2, h3⟩
    exact ⟨_, rfl, h1, h2, originAllowed_iff.mp h3⟩
  · rintro ⟨o, rfl, h1, h2, h3⟩
    exact ⟨h1, h2, originAllowed_iff.mpr h3⟩

/-- **C58**, the other direction: every allowed submodule of a package that can be imported is in the parsed tree, unless an
imported attribute has its name. -/
theorem C58_complete (E : Env) (cfg : Config) (W : World) (fuel id : Nat) (M : Module) (pm : PyMod)
    (h : Module.parse E cfg W (fuel + 1) id = .ok M) (hget : W.get? id = some pm) (ht : cfg.traverseSubmodules = true)
    (i : Ident) (hi : Listed E cfg pm M.name i)
    (hno : ∀ a o, pm.getattr i.asPy = some a → ¬ ImportsFrom E cfg M.name i a o)
    (id' : Nat) (hl : Loads W pm M.name i id') : ∃ s ∈ M.submodules, Module.parse E cfg W fuel id' = .ok s := by
  obtain ⟨p⟩ := parse_parts h
  have hpm := p.get
  rw [hget] at hpm
  cases hpm
  rcases ifOn_ok p.traversed with ⟨-, h⟩ | ⟨hf, -⟩
  · have hsub : i ∈ E.setOrder p.st.subs := (E.set_mem _ _).mpr ((attributes_subs p.attributes).1 i ((parts_subs p).mpr hi))
    obtain ⟨l1, l2, c, d, -, h1, h2, h3⟩ := foldRes_at h hsub
    have hc := (submodules_mono h1).1
    have hconf := parts_no_conflict p (i := i) fun a ha hi => by
      obtain ⟨o, ho⟩ := importedAttr_iff.mp hi
      exact hno a o ha ho
    have hsid : submoduleId W p.pm M.name i = some id' := by
      unfold submoduleId
      rcases hl with hl | ⟨hl, a, ha, hm⟩
      · have hl : W.importMod (M.name.join (Path.ofIdent i)).toPy = some id' := hl
        rw [hl]
      · have hl : W.importMod (M.name.join (Path.ofIdent i)).toPy = none := hl
        rw [hl, ha]
        exact hm
    unfold submoduleStep at h2
    simp only at h2
    rw [hc] at h2
    have hconf : List.find? (fun c => decide (c.target = M.name.join (Path.ofIdent i))) p.st.conflicts = none := hconf
    simp only [hconf, hsid] at h2
    obtain ⟨s, hs, h2⟩ := Res.bind_ok h2
    cases h2
    exact ⟨s, (submodules_mono h3).2.1 s (by simp), hs⟩
  · rw [ht] at hf; cases hf

/-! ## C53 -/

/-- The item under another name. -/
def Spec.SItem.withName (t : Path) : SItem → SItem
  | .prelude i => .prelude i
  | .import i => .import { i with target := t }
  | .class c => .class { c with name := t }
  | .typeVar v => .typeVar { v with name := t }
  | .function f => .function { f with name := t }
  | .property p => .property { p with name := t }

/-- An import of an item called `origin`, or an item of that name. -/
def Spec.SItem.named (p : Path) : SItem → Prop
  | .prelude _ => False
  | .import i => i.target = p
  | .class c => c.name = p
  | .typeVar v => v.name = p
  | .function f => f.name = p
  | .property q => q.name = p

theorem takeOver_find {α : Type} {l : List α} {f : α → Path} {o : Path} (hnd : (l.map f).Nodup) {a : α} (ha : a ∈ l)
    (hf : f a = o) : l.find? (fun x => decide (f x = o)) = some a := by
  induction l with
  | nil => cases ha
  | cons b l ih =>
    rw [List.find?_cons]
    rw [List.map_cons, List.nodup_cons] at hnd
    rcases List.mem_cons.mp ha with rfl | ha
    · simp [hf]
    · have : f b ≠ o := fun hb => hnd.1 (by rw [hb, ← hf]; exact List.mem_map_of_mem ha)
      simp only [this, decide_false]
      exact ih hnd.2 ha

theorem takeOver_has {st : ParseState} {c : Import} {s : Module} (hnd : s.itemNames.Nodup) {y : SItem} (hy : Has s y)
    (hn : SItem.named c.origin y) : StHas (takeOver st c s) (y.withName c.target) := by
  unfold Module.itemNames at hnd
  simp only [List.nodup_append] at hnd
  obtain ⟨⟨⟨⟨h1, h2, -⟩, h3, -⟩, h4, -⟩, h5, -⟩ := hnd
  cases y with
  | prelude i => cases hn
  | «import» i => exact List.mem_append_right _ (by rw [takeOver_find h1 hy hn]; simp)
  | «class» i => exact List.mem_append_right _ (by rw [takeOver_find h2 hy hn]; simp)
  | typeVar i => exact List.mem_append_right _ (by rw [takeOver_find h3 hy hn]; simp)
  | function i => exact List.mem_append_right _ (by rw [takeOver_find h4 hy hn]; simp)
  | property i => exact List.mem_append_right _ (by rw [takeOver_find h5 hy hn]; simp)

/-- The attribute `i` of the module has the name of a submodule and is imported from `o`. -/
structure Spec.Overwrites (E : Env) (cfg : Config) (pm : PyMod) (name : Path) (i : Ident) (o : Path) : Prop where
  listed : Listed E cfg pm name i
  attr : ∃ s ∈ pm.dir, i = Ident.fromPy E s ∧ ∃ a, pm.getattr i.asPy = some a ∧ ImportsFrom E cfg name i a o ∧
    Allowed cfg i.asPy ((Path.fromPy E a.obj.modPath).segs.map Ident.asPy)

theorem overwrites_conflict {E : Env} {cfg : Config} {W : World} {fuel id : Nat} {M : Module} (p : ParseParts E cfg W fuel id M)
    {i : Ident} {o : Path} (h : Overwrites E cfg p.pm M.name i o) :
    p.st.conflicts.find? (fun c => c.target = fullName M.name i) = some (Import.new o (fullName M.name i)) := by
  obtain ⟨s, hs, rfl, a, ha, hi, hal⟩ := h.attr
  have hc : (Ident.fromPy E s, a) ∈ moduleCandidates E cfg p.pm := by
    refine List.mem_filterMap.mpr ⟨_, mem_unique.mpr (List.mem_map_of_mem hs), ?_⟩
    rw [ha]
    simp only
    rw [if_pos ((C08_filter_iff _ _ _).mpr hal)]
  have := parts_conflict p hc ((parts_subs p).mpr h.listed) (importedAttr_iff.mpr ⟨o, hi⟩)
  rw [this, hi.path]
  rfl

/-- An import that overwrites a submodule and refers to an item of that submodule: the item is in the bindings under the name of
the import. Missing: imports of items from elsewhere (`C53_elsewhere_counterexample`) and runs that do not traverse submodules
(`C53_no_traversal_counterexample`). -/
theorem C53_item_partial (E : Env) (cfg : Config) (W : World) (fuel id : Nat) (M : Module) (pm : PyMod)
    (h : Module.parse E cfg W (fuel + 1) id = .ok M) (hget : W.get? id = some pm) (ht : cfg.traverseSubmodules = true)
    (i : Ident) (o : Path) (hi : Overwrites E cfg pm M.name i o) (id' : Nat)
    (hl : W.importMod (child M.name i).toPy = some id') (s : Module) (hs : Module.parse E cfg W fuel id' = .ok s)
    (y : SItem) (hy : Has s y) (hn : y.named o) : Has M (y.withName (child M.name i)) := by
  obtain ⟨p⟩ := parse_parts h
  have hpm := p.get
  rw [hget] at hpm
  cases hpm
  have hconf := overwrites_conflict p hi
  rcases ifOn_ok p.traversed with ⟨-, h⟩ | ⟨hf, -⟩
  · have hsub : i ∈ E.setOrder p.st.subs :=
      (E.set_mem _ _).mpr ((attributes_subs p.attributes).1 i ((parts_subs p).mpr hi.listed))
    obtain ⟨l1, l2, c, d, -, h1, h2, h3⟩ := foldRes_at h hsub
    have hc := (submodules_mono h1).1
    unfold submoduleStep at h2
    simp only at h2
    rw [hc] at h2
    have hconf : List.find? (fun c => decide (c.target = M.name.join (Path.ofIdent i))) p.st.conflicts = _ := hconf
    have hl : W.importMod (M.name.join (Path.ofIdent i)).toPy = some id' := hl
    simp only [hconf, hl, hs, okOrDrop, Res.ok_bind] at h2
    cases h2
    have := (submodules_mono h3).2.2 _ (takeOver_has (st := c.1) (c := Import.new o (fullName M.name i)) (parse_itemNames hs).1 hy hn)
    cases y with
    | prelude i => cases hn
    | «import» i => exact (show _ ∈ M.imports from p.imports ▸ this)
    | «class» i => exact (show _ ∈ M.classes from p.classes ▸ this)
    | typeVar i => exact (show _ ∈ M.typeVars from p.typeVars ▸ this)
    | function i => exact (show _ ∈ M.functions from p.functions ▸ this)
    | property i => exact (show _ ∈ M.properties from p.properties ▸ this)
  · rw [ht] at hf; cases hf

theorem traversed_invariant' {E : Env} {cfg : Config} {W : World} {fuel id : Nat} {M : Module}
    (p : ParseParts E cfg W fuel id M) {s : Module} (hs : s ∈ M.submodules) :
    ∃ i id', i ∈ p.st.subs ∧ p.st.conflicts.find? (fun c => c.target = fullName M.name i) = none ∧
      submoduleId W p.pm M.name i = some id' ∧ Module.parse E cfg W fuel id' = .ok s := by
  rcases ifOn_ok p.traversed with ⟨-, h⟩ | ⟨-, h⟩
  · have := foldRes_invariant (P := fun (a : ParseState × List Module) => a.1.conflicts = p.st.conflicts ∧ ∀ s ∈ a.2,
      ∃ i id', i ∈ p.st.subs ∧ p.st.conflicts.find? (fun c => c.target = fullName M.name i) = none ∧
      submoduleId W p.pm M.name i = some id' ∧ Module.parse E cfg W fuel id' = .ok s) ⟨rfl, by simp⟩ ?_ h
    · exact this.2 s hs
    · rintro a ⟨hc, ha⟩ i hi a' h
      have hi := (E.set_mem _ _).mp hi
      rcases submoduleStep_ok h with rfl | ⟨c, s, id, -, -, -, rfl⟩ | ⟨s, id, hcn, hid, hs, rfl⟩
      · exact ⟨hc, ha⟩
      · exact ⟨hc, ha⟩
      · refine ⟨hc, fun x hx => ?_⟩
        rcases mem_snoc.mp hx with hx | rfl
        · exact ha x hx
        · exact ⟨i, id, hi, hc ▸ hcn, hid, hs⟩
  · have := congrArg Prod.snd h
    simp only at this
    rw [this] at hs
    cases hs

/-- **C53**: a submodule that an import overwrites is not in the bindings, provided that modules carry the names they are loaded
under and that names are ordinary. -/
theorem C53_gone (E : Env) (cfg : Config) (W : World) (hW : OrdinaryWorld W) (fuel id : Nat) (M : Module) (pm : PyMod)
    (h : Module.parse E cfg W (fuel + 1) id = .ok M) (hget : W.get? id = some pm)
    (hnames : ∀ n, n ∈ pm.dir ∨ (∃ l, pm.iterModules = some l ∧ n ∈ l) → PySegment n)
    (hload : ∀ j id', Loads W pm M.name j id' → Called W id' (child M.name j).toPy)
    (i : Ident) (o : Path) (hi : Overwrites E cfg pm M.name i o) : ∀ s ∈ M.submodules, s.name ≠ child M.name i := by
  obtain ⟨p⟩ := parse_parts h
  have hpm := p.get
  rw [hget] at hpm
  cases hpm
  have hconf := overwrites_conflict p hi
  intro s hs he
  obtain ⟨j, id', hj, hjc, hid, hps⟩ := traversed_invariant' p hs
  have hne : j ≠ i := by rintro rfl; rw [hconf] at hjc; cases hjc
  obtain ⟨t, ht, rfl⟩ : ∃ t, PySegment t ∧ j = Ident.fromPy E t := by
    rcases parts_st_subs p hj with ⟨-, ⟨l, hl, t, ht, rfl⟩, -⟩ | ⟨t, ht, a, rfl, -⟩
    · exact ⟨t, hnames t (Or.inr ⟨l, hl, ht⟩), rfl⟩
    · exact ⟨t, hnames t (Or.inl ht), rfl⟩
  obtain ⟨segs, hne', hseg, hnm⟩ := hW id p.pm p.nm p.get p.pmName
  have hfd := fromPy_dotted E 0 hne' hseg
  simp only [dotted, List.replicate_zero, List.nil_append] at hfd
  have hseg' : ∀ x ∈ segs ++ [t], PySegment x := by
    intro x hx
    rcases mem_snoc.mp hx with hx | rfl
    · exact hseg x hx
    · exact ht
  have hfd' := fromPy_dotted E 0 (segs := segs ++ [t]) (by simp) hseg'
  have htp := toPy_fromPy E 0 (segs := segs ++ [t]) (by simp) hseg'
  simp only [dotted, List.replicate_zero, List.nil_append] at hfd' htp
  have hch : child M.name (Ident.fromPy E t) = Path.fromPy E (Str.join c!"." (segs ++ [t])) := by
    rw [hfd', p.name, hnm, hfd]
    simp [child]
  obtain ⟨pm', hg', hn'⟩ := hload _ id' (loads_of hid)
  rw [hch, htp] at hn'
  have hsn : s.name = child M.name (Ident.fromPy E t) := by
    cases fuel with
    | zero => exact absurd hps parse_zero
    | succ fuel =>
      obtain ⟨q⟩ := parse_parts hps
      have h1 := q.get
      rw [hg'] at h1
      cases h1
      have h2 := q.pmName
      rw [hn'] at h2
      rw [q.name, ← Option.some.inj h2, hch]
  rw [hsn] at he
  exact hne (fullName_inj (name := M.name) he)

/-- The package `pkg` with the submodules `run` and `other`: its attribute `run` is the function `run` of the module `from`. -/
def exShadowPkg («from» : Str) : PyMod where
  name := some c!"pkg"
  dir := [c!"run"]
  attrs := [(c!"run", { obj := { exFnObj «from» with dunderName := some c!"run" } })]
  isPackage := true
  iterModules := some [c!"other", c!"run"]

/-- The submodules `pkg.run` and `pkg.other` each define a function `run`. -/
def exShadowWorld («from» : Str) : World where
  mods := [exShadowPkg «from»,
    { name := some c!"pkg.run", dir := [c!"run"], attrs := [(c!"run", { obj := exFnObj c!"pkg.run" })] },
    { name := some c!"pkg.other", dir := [c!"run"], attrs := [(c!"run", { obj := exFnObj c!"pkg.other" })] }]
  importMod s := if s = c!"pkg" then some 0 else if s = c!"pkg.run" then some 1 else if s = c!"pkg.other" then some 2 else none

/-- Names of functions, imports and submodules. -/
def exShadowNames (m : Module) : List (List Str) :=
  [m.functions.map (fun f => f.name.toPy), m.imports.map (fun i => i.target.toPy), m.submodules.map (fun s => s.name.toPy)]

theorem exShadow_overwrites («from» : Str) (h : «from» = c!"pkg.run" ∨ «from» = c!"pkg.other") :
    Overwrites exEnv {} (exShadowPkg «from») (Path.fromPy exEnv c!"pkg") (Ident.fromPy exEnv c!"run")
      (Path.fromPy exEnv («from» ++ c!".run")) := by
  rcases h with rfl | rfl
  all_goals
    refine ⟨⟨rfl, ⟨_, rfl, c!"run", by decide, rfl⟩, (C08_filter_iff _ _ _).mp (by decide)⟩,
      ⟨c!"run", by decide, rfl, _, rfl, ⟨by decide, by decide, by decide, originAllowed_iff.mp (by decide)⟩,
        (C08_filter_iff _ _ _).mp (by decide)⟩⟩

/-- The function takes the place of the submodule. -/
example : (Module.parse exEnv {} (exShadowWorld c!"pkg.run") 5 0).map exShadowNames =
    .ok [[c!"pkg.run"], [], [c!"pkg.other"]] := by decide +kernel

/-- A function from elsewhere that has the name of a submodule is lost, and the submodule too. -/
theorem C53_elsewhere_counterexample :
    Overwrites exEnv {} (exShadowPkg c!"pkg.other") (Path.fromPy exEnv c!"pkg") (Ident.fromPy exEnv c!"run")
      (Path.fromPy exEnv c!"pkg.other.run") ∧
    (Module.parse exEnv {} (exShadowWorld c!"pkg.other") 5 0).map exShadowNames = .ok [[], [], [c!"pkg.other"]] :=
  ⟨exShadow_overwrites c!"pkg.other" (Or.inr rfl), by decide +kernel⟩

/-- Without traversal of submodules the function is lost even if it comes from the submodule of its name. -/
theorem C53_no_traversal_counterexample :
    (Module.parse exEnv { traverseSubmodules := false } (exShadowWorld c!"pkg.run") 5 0).map exShadowNames = .ok [[], [], []] := by
  decide +kernel

/-- The hypotheses of `C58_complete`: `pkg.other` is listed, is loaded, and no attribute has its name. -/
example : Listed exEnv {} (exShadowPkg c!"pkg.run") (Path.fromPy exEnv c!"pkg") (Ident.fromPy exEnv c!"other") ∧
    Loads (exShadowWorld c!"pkg.run") (exShadowPkg c!"pkg.run") (Path.fromPy exEnv c!"pkg") (Ident.fromPy exEnv c!"other") 2 ∧
    (exShadowPkg c!"pkg.run").getattr c!"other" = none :=
  ⟨⟨rfl, ⟨_, rfl, c!"other", by decide, rfl⟩, (C08_filter_iff _ _ _).mp (by decide)⟩, Or.inl (by decide), by rfl⟩

/-- The hypotheses of `C53_gone`. -/
example : OrdinaryWorld (exShadowWorld c!"pkg.run") ∧
    (∀ n, n ∈ (exShadowPkg c!"pkg.run").dir ∨ (∃ l, (exShadowPkg c!"pkg.run").iterModules = some l ∧ n ∈ l) → PySegment n) ∧
    ∀ j id', Loads (exShadowWorld c!"pkg.run") (exShadowPkg c!"pkg.run") (Path.fromPy exEnv c!"pkg") j id' →
      Called (exShadowWorld c!"pkg.run") id' (child (Path.fromPy exEnv c!"pkg") j).toPy := by
  refine ⟨?_, ?_, ?_⟩
  · intro id m n hm hn
    match id with
    | 0 => cases hm; cases hn; exact ⟨[c!"pkg"], by decide, by unfold PySegment; decide, rfl⟩
    | 1 => cases hm; cases hn; exact ⟨[c!"pkg", c!"run"], by decide, by unfold PySegment; decide, rfl⟩
    | 2 => cases hm; cases hn; exact ⟨[c!"pkg", c!"other"], by decide, by unfold PySegment; decide, rfl⟩
    | k + 3 => cases hm
  · rintro n (hn | ⟨l, hl, hn⟩)
    · simp only [exShadowPkg, List.mem_singleton] at hn
      subst hn
      unfold PySegment; decide
    · cases hl
      simp only [List.mem_cons, List.not_mem_nil, or_false] at hn
      rcases hn with rfl | rfl <;> (unfold PySegment; decide)
  · rintro j id' (h | ⟨-, a, ha, hm⟩)
    · simp only [exShadowWorld] at h
      split at h
      · rename_i he; cases h; exact ⟨_, rfl, by rw [he]; rfl⟩
      · split at h
        · rename_i he; cases h; exact ⟨_, rfl, by rw [he]⟩
        · split at h
          · rename_i he; cases h; exact ⟨_, rfl, by rw [he]⟩
          · cases h
    · unfold PyMod.getattr at ha
      simp only [exShadowPkg, List.lookup] at ha
      split at ha
      · cases ha; cases hm
      · cases ha

end Bindgen

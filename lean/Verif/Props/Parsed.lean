import Verif.Lemmas.ParseItems
import Verif.Lemmas.Prepared
import Verif.Lemmas.ExampleWorld
import Verif.Props.Filter
import Verif.Props.Flags
/-!
# C09, C58: what a parsed module is made of
-/
namespace Bindgen
open Spec

/-! ## C09 -/

/-- `p` is the full name of an attribute of the Python module `pm` (bound as `name`) that the configuration allows. -/
def Spec.ShownAttr (E : Env) (cfg : Config) (pm : PyMod) (name p : Path) : Prop :=
  ∃ s ∈ pm.dir, ∃ a, p = ⟨name.leadingColon, name.segs ++ [Ident.fromPy E s]⟩ ∧
    pm.getattr (Ident.fromPy E s).asPy = some a ∧
    Allowed cfg (Ident.fromPy E s).asPy ((Path.fromPy E a.obj.modPath).segs.map Ident.asPy)

/-- What the configuration must allow for an item of a module. -/
def Spec.ItemShown (E : Env) (cfg : Config) (pm : PyMod) (name : Path) : SItem → Prop
  | .prelude i => (∃ l, pm.all = some l ∧ ∃ s ∈ l, i = Ident.fromPy E s) ∧ (∃ a, pm.getattr i.asPy = some a) ∧
      Allowed cfg i.asPy (name.segs.map Ident.asPy)
  | .import i => ShownAttr E cfg pm name i.target
  | .class c => ShownAttr E cfg pm name c.name
  | .typeVar t => ShownAttr E cfg pm name t.name
  | .function f => ShownAttr E cfg pm name f.name
  | .property p => ShownAttr E cfg pm name p.name

theorem mem_extractPrelude {E : Env} {cfg : Config} {pm : PyMod} {name : Path} {i : Ident}
    (h : i ∈ extractPrelude E cfg pm name) : (∃ l, pm.all = some l ∧ i ∈ l.map (Ident.fromPy E)) ∧
      (∃ a, pm.getattr i.asPy = some a) ∧ cfg.isAttrAllowed i name = true := by
  unfold extractPrelude at h
  have key : ∀ (b c : Bool) (l : List Ident) (f g : Ident → Bool),
      i ∈ (if b then [] else (if c then l else l.filter f).filter g : List Ident) → i ∈ l ∧ g i = true := by
    intro b c l f g h
    split at h
    · cases h
    · rw [List.mem_filter] at h
      refine ⟨?_, h.2⟩
      have h1 := h.1
      split at h1
      · exact h1
      · exact (List.mem_filter.mp h1).1
  obtain ⟨h3, h2⟩ := key _ _ _ _ _ h
  unfold indexIdents at h3
  refine ⟨?_, ?_⟩
  · cases ha : pm.all with
    | none => rw [ha] at h3; cases h3
    | some l => rw [ha] at h3; exact ⟨l, rfl, mem_unique.mp h3⟩
  · cases hg : pm.getattr i.asPy with
    | none => rw [hg] at h2; cases h2
    | some a => rw [hg] at h2; exact ⟨⟨a, rfl⟩, h2⟩

theorem itemName_mem {M : Module} {x : SItem} (h : Has M x) : (∃ i, x = .prelude i) ∨ itemName x ∈ M.itemNames := by
  unfold Module.itemNames
  cases x with
  | prelude i => exact Or.inl ⟨i, rfl⟩
  | _ =>
    right
    simp only [List.mem_append, List.mem_map, itemName]
    first
      | exact Or.inl (Or.inl (Or.inl (Or.inl ⟨_, h, rfl⟩)))
      | exact Or.inl (Or.inl (Or.inl (Or.inr ⟨_, h, rfl⟩)))
      | exact Or.inl (Or.inl (Or.inr ⟨_, h, rfl⟩))
      | exact Or.inl (Or.inr ⟨_, h, rfl⟩)
      | exact Or.inr ⟨_, h, rfl⟩

/-- **C09**: every module in the tree of a parsed module belongs to a Python module, and each of its items to an attribute of
that module that the configuration allows. -/
theorem C09_items (E : Env) (cfg : Config) (W : World) (fuel id : Nat) (root M : Module)
    (h : Module.parse E cfg W fuel id = .ok root) (hM : InTree M [root]) :
    ∃ id' pm n, W.get? id' = some pm ∧ pm.name = some n ∧ M.name = Path.fromPy E n ∧
      ∀ x, Has M x → ItemShown E cfg pm M.name x := by
  obtain ⟨fuel', id', h'⟩ := parsed_inTree ⟨fuel, id, h⟩ hM
  cases fuel' with
  | zero => exact absurd h' parse_zero
  | succ fuel' =>
    obtain ⟨p⟩ := parse_parts h'
    refine ⟨id', p.pm, p.nm, p.get, p.pmName, p.name, ?_⟩
    intro x hx
    have key : ∀ q ∈ M.itemNames, ShownAttr E cfg p.pm M.name q := by
      intro q hq
      obtain ⟨y, hy, rfl⟩ := parts_itemNames p q hq
      obtain ⟨h1, h2, h3⟩ := mem_candidates hy
      obtain ⟨s, hs, h1⟩ := List.mem_map.mp h1
      refine ⟨s, hs, y.2, ?_, ?_, ?_⟩
      · rw [h1]; rfl
      · rw [h1]; exact h2
      · rw [h1]; exact (C08_filter_iff _ _ _).mp h3
    cases x with
    | prelude i =>
      have hx : i ∈ M.prelude := hx
      rw [p.prelude] at hx
      split at hx
      · obtain ⟨⟨l, hl, hi⟩, h2, h3⟩ := mem_extractPrelude hx
        obtain ⟨s, hs, rfl⟩ := List.mem_map.mp hi
        exact ⟨⟨l, hl, s, hs, rfl⟩, h2, (C08_filter_iff _ _ _).mp h3⟩
      · cases hx
    | _ =>
      rcases itemName_mem hx with ⟨i, hi⟩ | hn
      · cases hi
      · exact key _ hn

/-- `pkg` has a private function `_hidden`; the configuration decides. -/
example : (Module.parse exEnv {} exWorld 5 0).map (fun m => m.itemNames.map Path.toPy) =
      .ok [c!"pkg.C", c!"pkg.f", c!"pkg.VALUE"] ∧
    (Module.parse exEnv { includePrivate := true } exWorld 5 0).map (fun m => m.itemNames.map Path.toPy) =
      .ok [c!"pkg.C", c!"pkg.f", c!"pkg._hidden", c!"pkg.VALUE"] := by decide +kernel

theorem originAllowed_iff {cfg : Config} {o : Path} :
    originAllowed cfg o = true ↔ ∀ a s b, o.segs = a ++ s :: b → Allowed cfg s.asPy (a.map Ident.asPy) := by
  simp only [originAllowed, List.all_eq_true, List.mem_range]
  constructor
  · intro key a s b hs
    have := key a.length (by rw [hs]; simp)
    rw [hs, List.getElem?_append_right (Nat.le_refl _)] at this
    simp only [Nat.sub_self, List.getElem?_cons_zero, List.take_left'] at this
    exact (C08_filter_iff _ _ _).mp this
  · intro key k hk
    rw [List.getElem?_eq_getElem hk]
    refine (C08_filter_iff _ _ _).mpr (key (o.segs.take k) o.segs[k] (o.segs.drop (k + 1)) ?_)
    rw [List.getElem_cons_drop, List.take_append_drop]

/-- **C09**: every package and name on the way to the origin of an import is allowed. -/
theorem C09_origins (E : Env) (cfg : Config) (W : World) (fuel id : Nat) (root M : Module)
    (h : Module.parse E cfg W fuel id = .ok root) (hM : InTree M [root]) (i : Import) (hi : i ∈ M.imports)
    (a : List Ident) (s : Ident) (b : List Ident) (hs : i.origin.segs = a ++ s :: b) :
    Allowed cfg s.asPy (a.map Ident.asPy) := by
  obtain ⟨fuel', id', h'⟩ := parsed_inTree ⟨fuel, id, h⟩ hM
  have key := parse_all (E := E) (cfg := cfg) (W := W)
    (Q := fun x => match x with | .import i => originAllowed cfg i.origin = true | _ => True)
    (fun x t hx => by cases x <;> exact hx) (fun _ => trivial)
    (fun _ _ _ _ _ x _ _ hn => by
      cases hn with
      | import' o h1 h2 h3 => exact h3
      | _ => exact trivial) h' (.import i) hi
  exact originAllowed_iff.mp key a s b hs

/-- `pkg.sub` imports `h` from `other`, unless `other` is blocked. -/
example : (Module.parse exEnv {} exWorld 5 1).map (fun m => m.imports.map (fun i => i.origin.toPy)) = .ok [c!"other.h"] ∧
    (Module.parse exEnv { blocklistNames := [c!"other"] } exWorld 5 1).map (fun m => m.imports.map (fun i => i.origin.toPy)) =
      .ok [] := by decide +kernel

/-- `n` is a member of the Python class that the configuration allows, the constructor or the call operator. -/
def Spec.ShownMember (E : Env) (cfg : Config) (pc : PyClass) (n : Str) : Prop :=
  ∃ s ∈ pc.dir, ∃ o, n = (Ident.fromPy E s).asPy ∧ pc.getattr n = some o ∧
    (Allowed cfg n ((Path.fromPy E o.modPath).segs.map Ident.asPy) ∨ n = c!"__init__" ∨ n = c!"__call__")

/-- The class is the value of an attribute of a module of the interpreter. -/
def Spec.ClassOf (W : World) (pc : PyClass) : Prop := ∃ pm ∈ W.mods, ∃ n a, pm.getattr n = some a ∧ a.cls = pc

/-- The members of the class are allowed members of a class of the interpreter. -/
def Spec.MembersShown (E : Env) (cfg : Config) (W : World) (c : Class) : Prop :=
  ∃ pc, ClassOf W pc ∧
    (∀ f ∈ c.methods, ∃ i, f.name.segs.getLast? = some i ∧ ShownMember E cfg pc i.asPy) ∧
    ∀ p ∈ c.properties, ∃ i, p.name.segs.getLast? = some i ∧ ShownMember E cfg pc i.asPy

theorem mem_classCandidates {E : Env} {cfg : Config} {pc : PyClass} {x : Ident × PyObj} (h : x ∈ Class.candidates E cfg pc) :
    ShownMember E cfg pc x.1.asPy := by
  obtain ⟨i, hi, h⟩ := List.mem_filterMap.mp h
  obtain ⟨s, hs, rfl⟩ := List.mem_map.mp (mem_unique.mp hi)
  cases hg : pc.getattr (Ident.fromPy E s).asPy with
  | none => rw [hg] at h; cases h
  | some o =>
    rw [hg] at h
    simp only at h
    split at h
    · rename_i hc
      cases h
      refine ⟨s, hs, o, rfl, hg, ?_⟩
      rw [Bool.or_eq_true] at hc
      rcases hc with hc | hc
      · exact Or.inl ((C08_filter_iff _ _ _).mp hc)
      · right
        simpa using hc
    · cases h

theorem last_join {name : Path} {i : Ident} : (name.join (Path.ofIdent i)).segs.getLast? = some i := by
  simp [Path.join, Path.ofIdent]

theorem class_parse_members {E : Env} {cfg : Config} {pc : PyClass} {name : Path} {c : Class}
    (h : Class.parse E cfg pc name = .ok c) :
    (∀ f ∈ c.methods, ∃ i, f.name.segs.getLast? = some i ∧ ShownMember E cfg pc i.asPy) ∧
    ∀ p ∈ c.properties, ∃ i, p.name.segs.getLast? = some i ∧ ShownMember E cfg pc i.asPy := by
  unfold Class.parse at h
  obtain ⟨_, -, h⟩ := Res.bind_ok h
  obtain ⟨⟨ms, ps⟩, h1, h⟩ := Res.bind_ok h
  obtain ⟨doc, -, h⟩ := Res.bind_ok h
  cases h
  refine foldRes_invariant (P := fun (acc : List Function × List Property) =>
    (∀ f ∈ acc.1, ∃ i, f.name.segs.getLast? = some i ∧ ShownMember E cfg pc i.asPy) ∧
    ∀ p ∈ acc.2, ∃ i, p.name.segs.getLast? = some i ∧ ShownMember E cfg pc i.asPy) (by simp) ?_ h1
  rintro ⟨a1, a2⟩ ⟨hf, hp⟩ x hx ⟨b1, b2⟩ hstep
  have hx := mem_classCandidates hx
  unfold Class.step at hstep
  obtain ⟨t, -, hstep⟩ := Res.bind_ok hstep
  have hmethod : ∀ (hstep : (do
      let f ← Function.parse E x.2.fn (name.join (Path.ofIdent x.1)) (.method name (methodTypeOf x.1))
      return (a1 ++ [f], a2)) = (.ok (b1, b2) : Res (List Function × List Property))),
      (∀ f ∈ b1, ∃ i, f.name.segs.getLast? = some i ∧ ShownMember E cfg pc i.asPy) ∧
        ∀ p ∈ b2, ∃ i, p.name.segs.getLast? = some i ∧ ShownMember E cfg pc i.asPy := by
    intro hstep
    obtain ⟨f, hfp, hstep⟩ := Res.bind_ok hstep
    cases hstep
    refine ⟨?_, hp⟩
    intro g hg
    rcases mem_snoc.mp hg with hg | rfl
    · exact hf g hg
    · exact ⟨x.1, by rw [function_parse_name hfp]; exact last_join, hx⟩
  cases t with
  | function => exact hmethod hstep
  | method => exact hmethod hstep
  | property =>
    obtain ⟨p, hpp, hstep⟩ := Res.bind_ok hstep
    cases hstep
    refine ⟨hf, ?_⟩
    intro g hg
    rcases mem_snoc.mp hg with hg | rfl
    · exact hp g hg
    · exact ⟨x.1, by rw [(property_parse_name hpp).1]; exact last_join, hx⟩
  | _ => cases hstep; exact ⟨hf, hp⟩

theorem parsed_members {E : Env} {cfg : Config} {W : World} {M : Module} (h : Parsed E cfg W M) {c : Class}
    (hc : c ∈ M.classes) : MembersShown E cfg W c := by
  obtain ⟨fuel', id', h'⟩ := h
  exact parse_all (E := E) (cfg := cfg) (W := W) (Q := fun x => match x with | .class c => MembersShown E cfg W c | _ => True)
    (fun x t hx => by cases x <;> exact hx) (fun _ => trivial)
    (fun id pm name i a x hget hcand hn => by
      cases hn with
      | class' c hc =>
        exact ⟨a.cls, ⟨pm, List.mem_of_getElem? hget, _, a, (mem_candidates hcand).2.1, rfl⟩, class_parse_members hc⟩
      | _ => exact trivial) h' (.class c) hc

/-- **C09**: the members of the classes of a parsed module, at any depth, are allowed, except that the constructor and the
call operator are always kept. -/
theorem C09_members (E : Env) (cfg : Config) (W : World) (fuel id : Nat) (root M : Module)
    (h : Module.parse E cfg W fuel id = .ok root) (hM : InTree M [root]) (c : Class) (hc : c ∈ M.classes) :
    MembersShown E cfg W c := parsed_members (parsed_inTree ⟨fuel, id, h⟩ hM) hc

/-- A class with a constructor, a public and a private method. -/
def exMembers : PyClass where
  dir := [c!"__init__", c!"_hidden", c!"run"]
  attrs := [(c!"__init__", exFnObj c!"pkg"), (c!"_hidden", exFnObj c!"pkg"), (c!"run", exFnObj c!"pkg")]

/-- The blocklist does not reach the constructor. -/
example : (Class.parse exEnv {} exMembers (Path.fromPy exEnv c!"pkg.K")).map (fun c => c.methods.map (fun f => f.name.toPy)) =
      .ok [c!"pkg.K.__init__", c!"pkg.K.run"] ∧
    (Class.parse exEnv { blocklistNames := [c!"__init__", c!"run"] } exMembers (Path.fromPy exEnv c!"pkg.K")).map
      (fun c => c.methods.map (fun f => f.name.toPy)) = .ok [c!"pkg.K.__init__"] := by decide +kernel

/-- The emitted item binds the Python attribute called `n` of a module: a function calls it, an accessor reads or writes it, a
struct or a type alias is named after it. -/
def Spec.Binds (E : Env) (n : Str) : Item → Prop
  | .func f => ∃ o pos kw, f.body = .call o (some n) pos kw
  | .prop f => (∃ o, f.body = .getattr o n) ∨ ∃ o x, f.body = .setattr o n x
  | .class k => ∃ (p : Path) (i : Ident), p.segs.getLast? = some i ∧ i.asPy = n ∧ k.objName = p.toPy
  | .typeAlias t => ∃ i : Ident, i.asPy = n ∧ i.toSyn E = some t
  | .use .. | .prelude .. | .strayPub | .embed .. | .mod .. => False

/-- `n` is the name of an attribute of a module of the interpreter that the configuration allows. -/
def Spec.AllowedName (E : Env) (cfg : Config) (W : World) (n : Str) : Prop :=
  ∃ pm ∈ W.mods, ∃ s ∈ pm.dir, ∃ a, n = (Ident.fromPy E s).asPy ∧ pm.getattr n = some a ∧
    Allowed cfg n ((Path.fromPy E a.obj.modPath).segs.map Ident.asPy)

theorem parsed_shown {E : Env} {cfg : Config} {W : World} {M : Module} (h : Parsed E cfg W M) {x : SItem} (hx : Has M x) :
    (∃ i, x = .prelude i) ∨ ∃ i, (itemName x).segs.getLast? = some i ∧ AllowedName E cfg W i.asPy := by
  obtain ⟨fuel, id, h⟩ := h
  obtain ⟨id', pm, n, hget, -, -, hall⟩ := C09_items E cfg W fuel id M M h (.top (by simp))
  have hx' := hall x hx
  have key : ∀ p, ShownAttr E cfg pm M.name p → ∃ i, p.segs.getLast? = some i ∧ AllowedName E cfg W i.asPy := by
    rintro p ⟨s, hs, a, rfl, hg, hal⟩
    exact ⟨_, by simp, pm, List.mem_of_getElem? hget, s, hs, a, rfl, hg, hal⟩
  cases x with
  | prelude i => exact Or.inl ⟨i, rfl⟩
  | _ => exact Or.inr (key _ hx')

theorem path_name_last {p : Path} {i : Ident} (h : p.name = .ok i) : p.segs.getLast? = some i := by
  unfold Path.name Path.name? at h
  cases hl : p.segs.getLast? with
  | none => rw [hl] at h; cases h
  | some j => rw [hl] at h; cases h; rfl

theorem accessor_body {E : Env} {cfg : Config} {imp : Str → Bool} {taken : List Ident} {lt : LocalTypes} {p : Property}
    {l : List (Option Fn)} (h : p.generate E cfg imp taken lt = .ok l) {fn : Fn} (hfn : some fn ∈ l) :
    ∃ i, p.name.segs.getLast? = some i ∧ ((∃ o, fn.body = .getattr o i.asPy) ∨ ∃ o x, fn.body = .setattr o i.asPy x) := by
  obtain ⟨g, hg, h⟩ := accessors_of h
  have key : some fn = g ∨ ∃ s, p.generateSetter E cfg imp taken lt = .ok s ∧ some fn = s := by
    rcases h with ⟨-, s, hs, rfl⟩ | ⟨-, rfl⟩
    · simp only [List.mem_cons, List.not_mem_nil, or_false] at hfn
      exact hfn.imp id fun h => ⟨s, hs, h⟩
    · simp only [List.mem_cons, List.not_mem_nil, or_false] at hfn
      exact Or.inl hfn
  rcases key with rfl | ⟨s, hs, rfl⟩
  · obtain ⟨name, _, _, obj, hn, -, -, -, rfl⟩ := getter_fn hg
    exact ⟨name, path_name_last hn, Or.inl ⟨obj, rfl⟩⟩
  · obtain ⟨name, _, _, _, obj, hn, -, -, -, -, rfl⟩ := setter_fn hs
    exact ⟨name, path_name_last hn, Or.inr ⟨obj, _, rfl⟩⟩

theorem function_body {E : Env} {cfg : Config} {imp : Str → Bool} {taken : List Ident} {lt : LocalTypes} {f : Function}
    {r : FnImpl} (h : f.generate E cfg imp taken lt = .ok r) {fn : Fn} (hfn : fn ∈ fnsOf r) :
    ∃ i, f.name.segs.getLast? = some i ∧ ∃ o m pos kw, fn.body = .call o m pos kw ∧
      m = match f.typ with
          | .method _ .constructor | .method _ .callable => none
          | _ => some i.asPy := by
  obtain ⟨name, _, _, _, _, _, _, obj, pos, kw, hn, -, -, -, -, -, -, -, -, -, rfl, -⟩ := generate_fn h hfn
  exact ⟨name, path_name_last hn, obj, _, _, kw, rfl, rfl⟩

/-- Examples: a run of the engine that can be evaluated is an engine made by builder calls and its output. -/
theorem built_run {E : Env} {W : World} {fuel : Nat} {cfg : Config} {names : List Str} {α : Type} {f : List Item → α} {v : α}
    (h : ((Codegen.new cfg).moduleNames E W fuel names >>= fun c => c.generate E W fuel).map f = .ok v) :
    ∃ c items, Built E W fuel cfg [] c ∧ c.generate E W fuel = .ok items ∧ f items = v := by
  cases h1 : (Codegen.new cfg).moduleNames E W fuel names with
  | error e => rw [h1] at h; cases h
  | ok c =>
    rw [h1, Res.ok_bind] at h
    cases h2 : c.generate E W fuel with
    | error e => rw [h2] at h; cases h
    | ok items =>
      rw [h2] at h
      exact ⟨c, items, .moduleNames names .new h1, h2, Except.ok.inj h⟩

/-- Kinds of the items of the top level modules: function 0, accessor 1, class 2, type alias 3, other 4. -/
def exContents (items : List Item) : List (List Nat) :=
  items.map fun (x : Item) => match x with
    | .mod _ _ _ inner => inner.map fun (y : Item) => match y with
      | .func _ => 0
      | .prop _ => 1
      | .class _ => 2
      | .typeAlias _ => 3
      | _ => 4
    | _ => []

/-- **C09**, for the generated code: every function, accessor, struct and type alias in the output of an engine, at any depth,
binds an attribute that the configuration allows. -/
theorem C09_output (E : Env) (W : World) (fuel : Nat) (cfg : Config) (srcs : List (Str × Str)) (c : Codegen)
    (items : List Item) (hb : Built E W fuel cfg srcs c) (h : c.generate E W fuel = .ok items) (x : Item)
    (hx : Within x items)
    (hk : (∃ f, x = .func f) ∨ (∃ f, x = .prop f) ∨ (∃ k, x = .class k) ∨ ∃ t, x = .typeAlias t) :
    ∃ n, AllowedName E cfg W n ∧ Binds E n x := by
  have hbo := built_ok hb
  obtain ⟨out, hprep, hfrom⟩ := generate_from h
  have hp : ∀ m ∈ c.modules, Parsed E c.cfg W m := hbo.config ▸ hbo.parsed
  have hname : ∀ {M : Module}, InTree M out → ∀ {y : SItem}, Has M y → (∀ i, y ≠ .prelude i) → ∀ {i : Ident},
      (itemName y).segs.getLast? = some i → AllowedName E cfg W i.asPy := by
    intro M hM y hy hne i hi
    obtain ⟨m, hm, -, hmy⟩ := prepared_has hprep hp hM hy
    rw [hbo.config] at hm
    rcases parsed_shown hm hmy with ⟨j, hj⟩ | ⟨j, hj, ha⟩
    · exact absurd hj (hne j)
    · rw [hi] at hj; cases hj; exact ha
  cases hfrom x hx with
  | mod M _ hM hg =>
    obtain ⟨q⟩ := generate_parts hg
    rw [q.item] at hk
    simp at hk
  | embed M _ hM hm =>
    unfold embedItems at hm
    split at hm
    · simp only [List.mem_singleton] at hm
      subst hm
      simp at hk
    · cases hm
  | content M cont p _ hM hm hf =>
    cases hf with
    | use => simp at hk
    | prelude => simp at hk
    | stray => simp at hk
    | typeVar t n _ ht hg =>
      obtain ⟨i, hi, hg⟩ := Res.bind_ok hg
      obtain ⟨s, hs, hg⟩ := Res.bind_ok hg
      cases hg
      refine ⟨i.asPy, hname hM (y := .typeVar t) ht (by simp) (path_name_last hi), i, rfl, ?_⟩
      unfold Ident.trySyn at hs
      cases hi : i.toSyn E with
      | none => rw [hi] at hs; cases hs
      | some u => rw [hi] at hs; cases hs; rfl
    | class' k ki _ hkm hg =>
      obtain ⟨name, _, _, _, _, h1, -, -, -, -, -, -, h2, -⟩ := class_generate hg
      exact ⟨name.asPy, hname hM (y := .class k) hkm (by simp) (path_name_last h1), k.name, name, path_name_last h1, rfl, h2⟩
    | function f fns fn _ hf hg hfn =>
      obtain ⟨m, hm, -, hmy⟩ := prepared_has hprep hp hM (x := .function f) hf
      obtain ⟨fuel', id', hm⟩ := hm
      have hfree := C39_functions_free E c.cfg W fuel' id' m hm f hmy
      obtain ⟨i, hi, o, me, pos, kw, hbody, hme⟩ := function_body hg (fn := fn) hfn
      refine ⟨i.asPy, hname hM (y := .function f) hf (by simp) hi, o, pos, kw, ?_⟩
      rw [hbody, hme]
      rcases hfree with hfree | hfree <;> rw [hfree]
    | property q l fn _ hq _ hg hfn =>
      obtain ⟨i, hi, hbody⟩ := accessor_body hg hfn
      exact ⟨i.asPy, hname hM (y := .property q) hq (by simp) hi, hbody⟩

/-- An engine with output: the struct of `C`, the function `f` and two accessors of `VALUE`, but nothing for `_hidden`. -/
example : ∃ c items, Built exEnv exWorld 5 {} [] c ∧ c.generate exEnv exWorld 5 = .ok items ∧
    exContents items = [[4, 2, 0, 1, 1, 4]] := built_run (names := [c!"pkg"]) (by decide +kernel)

/-- **C09**, for the generated code: every function of an emitted class calls, reads or writes a member of a Python class that
the configuration allows, or it calls the class or the object itself. -/
theorem C09_members_output (E : Env) (W : World) (fuel : Nat) (cfg : Config) (srcs : List (Str × Str)) (c : Codegen)
    (items : List Item) (hb : Built E W fuel cfg srcs c) (h : c.generate E W fuel = .ok items) (k : ClassItem)
    (hx : Within (.class k) items) (fn : Fn) (hfn : fn ∈ k.inherent ∨ fn ∈ k.traitImpls) :
    (∃ o pos kw, fn.body = .call o none pos kw) ∨
    ∃ pc n, ClassOf W pc ∧ ShownMember E cfg pc n ∧
      ((∃ o pos kw, fn.body = .call o (some n) pos kw) ∨ (∃ o, fn.body = .getattr o n) ∨ ∃ o x, fn.body = .setattr o n x) := by
  have hbo := built_ok hb
  obtain ⟨out, hprep, hfrom⟩ := generate_from h
  have hp : ∀ m ∈ c.modules, Parsed E c.cfg W m := hbo.config ▸ hbo.parsed
  generalize hxx : Item.class k = x at hx
  cases hfrom x hx with
  | mod M _ hM hg =>
    obtain ⟨q⟩ := generate_parts hg
    rw [q.item] at hxx
    cases hxx
  | embed M _ hM hm =>
    unfold embedItems at hm
    split at hm
    · simp only [List.mem_singleton] at hm
      rw [hm] at hxx
      cases hxx
    · cases hm
  | content M cont p _ hM hm hf =>
    cases hf with
    | class' cl ki _ hk hg =>
      cases hxx
      obtain ⟨m, hm, -, hmy⟩ := prepared_has hprep hp hM (x := .class cl) hk
      rw [hbo.config] at hm
      obtain ⟨pc, hpc, hmeth, hprop⟩ := parsed_members hm hmy
      obtain ⟨taken, -, ⟨f, hf, r, hr, hfr⟩ | ⟨q, hq, l, hl, hfl⟩⟩ := class_fns hg hfn
      · obtain ⟨i, hi, o, me, pos, kw, hbody, hme⟩ := function_body hr hfr
        obtain ⟨j, hj, hs⟩ := hmeth f hf
        rw [hi] at hj
        cases hj
        cases me with
        | none => exact Or.inl ⟨o, pos, kw, hbody⟩
        | some n =>
          have : n = i.asPy := by
            split at hme
            · cases hme
            · cases hme
            · exact Option.some.inj hme
          subst this
          exact Or.inr ⟨pc, _, hpc, hs, Or.inl ⟨o, pos, kw, hbody⟩⟩
      · obtain ⟨i, hi, hbody⟩ := accessor_body hl hfl
        obtain ⟨j, hj, hs⟩ := hprop q hq
        rw [hi] at hj
        cases hj
        exact Or.inr ⟨pc, _, hpc, hs, Or.inr hbody⟩
    | _ => cases hxx

/-- The attributes of the modules have identifiers as names, and no module has an attribute `x` next to `get_x` or `set_x`. -/
def Spec.NoAccessorNames (E : Env) (W : World) : Prop :=
  ∀ pm ∈ W.mods, ∀ n ∈ pm.dir, IsIdent E n ∧ c!"get_" ++ n ∉ pm.dir ∧ c!"set_" ++ n ∉ pm.dir

/-- There is no dangling `pub` if no module has an attribute named like an accessor of another attribute. Missing: as in
`C52_partial`. -/
theorem C52_names_partial (E : Env) (W : World) (hW : OrdinaryWorld W) (hu : UniqueNames W) (hn : NoAccessorNames E W)
    (fuel : Nat) (cfg : Config) (srcs : List (Str × Str)) (c : Codegen) (items : List Item)
    (hb : Built E W fuel cfg srcs c) (h : c.generate E W fuel = .ok items) : ¬ Within .strayPub items := by
  refine C52_partial E W fuel cfg srcs c items hb h ?_ ?_
  · rintro m ⟨f, id, hm⟩ p hp
    obtain ⟨id', pm, n, hget, -, -, hall⟩ := C09_items E cfg W f id m m hm (.top (by simp))
    obtain ⟨s, hs, a, he, -⟩ : ShownAttr E cfg pm m.name p.name := hall (.property p) hp
    exact ⟨s, (hn pm (List.mem_of_getElem? hget) s hs).1, by rw [he]; simp⟩
  · rintro m m' h1 h2 ⟨he, p, hp, f, hf, n, x, hid, hx, hlp, hlf⟩
    have hmm := parsed_same hW hu h1 h2 he
    subst hmm
    obtain ⟨fu, id, hm⟩ := h1
    obtain ⟨id', pm, nm, hget, -, -, hall⟩ := C09_items E cfg W fu id m m hm (.top (by simp))
    obtain ⟨s, hs, -, hes, -⟩ : ShownAttr E cfg pm m.name p.name := hall (.property p) hp
    obtain ⟨t, ht, -, het, -⟩ : ShownAttr E cfg pm m.name f.name := hall (.function f) hf
    have hpm := List.mem_of_getElem? hget
    have hidx : IsIdent E x := by
      rcases hx with rfl | rfl | rfl
      · exact hid
      · exact isIdent_prefix (getSet_isIdent E).1 hid
      · exact isIdent_prefix (getSet_isIdent E).2 hid
    have e1 : s = n := by
      rw [hes] at hlp
      simp only [List.getLast?_append, List.getLast?_singleton, Option.some_or, Option.some.injEq] at hlp
      rw [← asPy_ident (hn pm hpm s hs).1, hlp, asPy_ident hid]
    have e2 : t = x := by
      rw [het] at hlf
      simp only [List.getLast?_append, List.getLast?_singleton, Option.some_or, Option.some.injEq] at hlf
      rw [← asPy_ident (hn pm hpm t ht).1, hlf, asPy_ident hidx]
    subst e1 e2
    rcases hx with rfl | rfl | rfl
    · have hnd := (parse_itemNames hm).1
      unfold Module.itemNames at hnd
      refine (List.nodup_append.mp hnd).2.2 p.name ?_ p.name (List.mem_map_of_mem hp) rfl
      rw [hes, ← het]
      exact List.mem_append_right _ (List.mem_map_of_mem hf)
    · exact (hn pm hpm s hs).2.1 ht
    · exact (hn pm hpm s hs).2.2 ht

theorem isIdent_of {E : Env} {c : Char} {cs : Str} (h : (c = '_' || E.xidStart c) && cs.all E.xidContinue = true) :
    IsIdent E (c :: cs) := by
  simp only [Bool.and_eq_true, Bool.or_eq_true, List.all_eq_true, decide_eq_true_eq] at h
  exact ⟨c, cs, rfl, h⟩

theorem exWorld_noAccessors : NoAccessorNames exEnv exWorld := by
  intro pm hpm n hn
  simp only [exWorld, List.mem_cons, List.not_mem_nil, or_false] at hpm
  rcases hpm with rfl | rfl | rfl <;>
    simp only [exPkg, exSub, exOther, List.mem_cons, List.not_mem_nil, or_false] at hn <;>
    (rcases hn with rfl | rfl | rfl | rfl) <;>
    exact ⟨isIdent_of (by decide), by decide, by decide⟩

example : OrdinaryWorld exWorld ∧ UniqueNames exWorld ∧ NoAccessorNames exEnv exWorld ∧
    ∃ c items, Built exEnv exWorld 5 {} [] c ∧ c.generate exEnv exWorld 5 = .ok items ∧ exContents items = [[4, 2, 0, 1, 1, 4]] :=
  ⟨exWorld_ordinary, exWorld_unique, exWorld_noAccessors, built_run (names := [c!"pkg"]) (by decide +kernel)⟩

end Bindgen

import Verif.Lemmas.ModuleParse
import Verif.Lemmas.Canon
import Verif.Spec.Items
/-! # The structure of a generated module -/
namespace Bindgen
open Spec

theorem generateList_eq (E : Env) (cfg : Config) (imp : Str → Bool) (tops : List Module) (ts : List Path) (l : List Module) :
    Module.generateList E cfg imp tops ts l = Res.traverse (Module.generate E cfg imp tops ts) l := by
  induction l with
  | nil => rfl
  | cons m l ih => rw [Module.generateList, Res.traverse, ih]

/-- The parts of a successful `Module::generate`. -/
structure GenParts (E : Env) (cfg : Config) (imp : Str → Bool) (tops : List Module) (ts : List Path) (m : Module) (it : Item) where
  content : List Item
  mods : List Item
  last : Ident
  ident : Str
  contentOk : m.content E cfg imp tops ts = .ok content
  modsOk : ifOn cfg.traverseSubmodules (Res.traverse (Module.generate E cfg imp tops ts) m.submodules) [] = .ok mods
  lastOk : m.name.segs.getLast? = some last
  identOk : last.toSyn E = some ident
  item : it = .mod (tops.contains m) (docAttr cfg m.doc) ident (embedItems m.name m.source ++ content ++ mods)

theorem generate_parts {E : Env} {cfg : Config} {imp : Str → Bool} {tops : List Module} {ts : List Path} {m : Module} {it : Item}
    (h : Module.generate E cfg imp tops ts m = .ok it) : Nonempty (GenParts E cfg imp tops ts m it) := by
  cases m
  rw [Module.generate] at h
  obtain ⟨content, h1, h⟩ := Res.bind_ok h
  obtain ⟨mods, h2, h⟩ := Res.bind_ok h
  obtain ⟨last, h3, h⟩ := Res.bind_ok h
  obtain ⟨ident, h4, h⟩ := Res.bind_ok h
  cases h
  rw [generateList_eq] at h2
  refine ⟨⟨content, mods, last, ident, h1, h2, ?_, ?_, rfl⟩⟩
  · unfold Path.name Path.name? at h3
    cases hl : List.getLast? _ with
    | none => rw [hl] at h3; cases h3
    | some x => rw [hl] at h3; cases h3; rfl
  · cases hi : last.toSyn E with
    | none => rw [hi] at h4; cases h4
    | some x => rw [hi] at h4; cases h4; rfl

/-- The parts of a successful `Module.content`. -/
structure ContentParts (E : Env) (cfg : Config) (imp : Str → Bool) (tops : List Module) (ts : List Path) (m : Module)
    (out : List Item) where
  taken : List Ident
  lt : LocalTypes
  imports : List (Option Item)
  prelude : Option (Option Item)
  typeVars : List Item
  classes : List (Option ClassItem)
  functions : List (List Item)
  properties : List (List Item)
  takenOk : Res.traverse (fun (f : Function) => f.name.name) m.functions = .ok taken
  ltOk : Module.localTypes E ts m.name m.imports = .ok lt
  importsOk : ifOn cfg.generateImports
    (Res.traverse (Import.generate E) (m.imports.filter (fun i => pathExistsList i.origin tops))) [] = .ok imports
  preludeOk : ifOn cfg.generatePreludes (okOrDrop (m.generatePrelude E)) none = .ok prelude
  typeVarsOk : ifOn cfg.generateTypeVars (Res.traverse (TypeVar.generate E) m.typeVars) [] = .ok typeVars
  classesOk : ifOn cfg.generateClasses (Res.traverse (Class.generate E cfg imp lt) m.classes) [] = .ok classes
  functionsOk : ifOn cfg.generateFunctions
    (Res.traverse (fun f => do moduleFns (← Function.generate E cfg imp taken lt f)) m.functions) [] = .ok functions
  propertiesOk : ifOn cfg.generateProperties
    (Res.traverse (fun p => do moduleProps p.owner (← Property.generate E cfg imp taken lt p)) m.properties) [] = .ok properties
  content : out = imports.filterMap id ++ (prelude.bind id).toList ++ typeVars ++ (classes.filterMap id).map Item.class ++
    functions.flatten ++ properties.flatten

theorem content_parts {E : Env} {cfg : Config} {imp : Str → Bool} {tops : List Module} {ts : List Path} {m : Module}
    {out : List Item} (h : m.content E cfg imp tops ts = .ok out) : Nonempty (ContentParts E cfg imp tops ts m out) := by
  unfold Module.content at h
  obtain ⟨a1, h1, h⟩ := Res.bind_ok h
  obtain ⟨a2, h2, h⟩ := Res.bind_ok h
  obtain ⟨a3, h3, h⟩ := Res.bind_ok h
  obtain ⟨a4, h4, h⟩ := Res.bind_ok h
  obtain ⟨a5, h5, h⟩ := Res.bind_ok h
  obtain ⟨a6, h6, h⟩ := Res.bind_ok h
  obtain ⟨a7, h7, h⟩ := Res.bind_ok h
  obtain ⟨a8, h8, h⟩ := Res.bind_ok h
  cases h
  exact ⟨⟨a1, a2, a3, a4, a5, a6, a7, a8, h1, h2, h3, h4, h5, h6, h7, h8, rfl⟩⟩

/-- Where an item of the content of a module comes from. -/
inductive ContentFrom (E : Env) (cfg : Config) (imp : Str → Bool) (tops : List Module) (m : Module) (taken : List Ident)
    (lt : LocalTypes) : Item → Prop
  | use (i : Import) (p : Path) (a : Option Str) : cfg.generateImports = true → i ∈ m.imports →
      pathExistsList i.origin tops = true → Import.generate E i = .ok (some (.use p a)) → ContentFrom E cfg imp tops m taken lt (.use p a)
  | prelude (n : Str) (es : List Str) : cfg.generatePreludes = true → m.generatePrelude E = .ok (some (.prelude n es)) →
      ContentFrom E cfg imp tops m taken lt (.prelude n es)
  | typeVar (t : TypeVar) (n : Str) : cfg.generateTypeVars = true → t ∈ m.typeVars → TypeVar.generate E t = .ok (.typeAlias n) →
      ContentFrom E cfg imp tops m taken lt (.typeAlias n)
  | class' (c : Class) (k : ClassItem) : cfg.generateClasses = true → c ∈ m.classes → c.generate E cfg imp lt = .ok (some k) →
      ContentFrom E cfg imp tops m taken lt (.class k)
  | function (f : Function) (fns : List Fn) (fn : Fn) : cfg.generateFunctions = true → f ∈ m.functions →
      f.generate E cfg imp taken lt = .ok (.func fns) → fn ∈ fns → ContentFrom E cfg imp tops m taken lt (.func fn)
  | property (p : Property) (l : List (Option Fn)) (fn : Fn) : cfg.generateProperties = true → p ∈ m.properties → p.owner = .module →
      p.generate E cfg imp taken lt = .ok l → some fn ∈ l → ContentFrom E cfg imp tops m taken lt (.prop fn)
  | stray (p : Property) (l : List (Option Fn)) : cfg.generateProperties = true → p ∈ m.properties → p.owner = .module →
      p.generate E cfg imp taken lt = .ok l → none ∈ l → ContentFrom E cfg imp tops m taken lt .strayPub

theorem import_generate_use {E : Env} {i : Import} {x : Item} (h : Import.generate E i = .ok (some x)) : ∃ p a, x = .use p a := by
  unfold Import.generate at h
  split at h
  · cases h
  · split at h
    · cases h
    · obtain ⟨rel, -, h⟩ := Res.bind_ok h
      split at h
      · obtain ⟨o, -, h⟩ := Res.bind_ok h
        obtain ⟨t, -, h⟩ := Res.bind_ok h
        split at h
        · cases h; exact ⟨_, _, rfl⟩
        · obtain ⟨a, -, h⟩ := Res.bind_ok h
          cases h
          exact ⟨_, _, rfl⟩
      · cases h

theorem generatePrelude_prelude {E : Env} {m : Module} {x : Item} (h : m.generatePrelude E = .ok (some x)) :
    ∃ n es names i, x = .prelude n es ∧ m.preludeExports E m.prelude = .ok es ∧ es ≠ [] ∧
      Res.traverse Path.name (m.immediateNames true) = .ok names ∧ fresh E c!"call" names = .ok i ∧ i.trySyn E = .ok n := by
  unfold Module.generatePrelude at h
  split at h
  · cases h
  · obtain ⟨es, h1, h⟩ := Res.bind_ok h
    split at h
    · cases h
    · rename_i hne
      obtain ⟨names, h2, h⟩ := Res.bind_ok h
      obtain ⟨i, h3, h⟩ := Res.bind_ok h
      obtain ⟨n, h4, h⟩ := Res.bind_ok h
      cases h
      exact ⟨n, es, names, i, rfl, h1, by simpa using hne, h2, h3, h4⟩

theorem content_from {E : Env} {cfg : Config} {imp : Str → Bool} {tops : List Module} {ts : List Path} {m : Module}
    {out : List Item} (p : ContentParts E cfg imp tops ts m out) {x : Item} (hx : x ∈ out) :
    ContentFrom E cfg imp tops m p.taken p.lt x := by
  rw [p.content] at hx
  simp only [List.mem_append] at hx
  rcases hx with ((((hx | hx) | hx) | hx) | hx) | hx
  · rcases ifOn_ok p.importsOk with ⟨hc, h⟩ | ⟨-, h⟩
    · rw [List.mem_filterMap] at hx
      obtain ⟨o, ho, rfl⟩ := hx
      obtain ⟨i, hi, hg⟩ := traverse_mem h ho
      obtain ⟨q, a, rfl⟩ := import_generate_use hg
      rw [List.mem_filter] at hi
      exact .use i q a hc hi.1 hi.2 hg
    · rw [h] at hx; cases hx
  · rcases ifOn_ok p.preludeOk with ⟨hc, h⟩ | ⟨-, h⟩
    · rw [Option.mem_toList] at hx
      cases hp : p.prelude with
      | none => rw [hp] at hx; cases hx
      | some o =>
        rw [hp] at hx h
        have hx : o = some x := hx
        subst hx
        have := okOrDrop_some h
        obtain ⟨n, es, -, -, rfl, -⟩ := generatePrelude_prelude this
        exact .prelude n es hc this
    · rw [h] at hx; cases hx
  · rcases ifOn_ok p.typeVarsOk with ⟨hc, h⟩ | ⟨-, h⟩
    · obtain ⟨t, ht, hg⟩ := traverse_mem h hx
      have hg' := hg
      obtain ⟨i, -, hg'⟩ := Res.bind_ok hg'
      obtain ⟨s, -, hg'⟩ := Res.bind_ok hg'
      cases hg'
      exact .typeVar t s hc ht hg
    · rw [h] at hx; cases hx
  · rcases ifOn_ok p.classesOk with ⟨hc, h⟩ | ⟨-, h⟩
    · rw [List.mem_map] at hx
      obtain ⟨k, hk, rfl⟩ := hx
      rw [List.mem_filterMap] at hk
      obtain ⟨o, ho, rfl⟩ := hk
      obtain ⟨c, hcm, hg⟩ := traverse_mem h ho
      exact .class' c k hc hcm hg
    · rw [h] at hx; cases hx
  · rcases ifOn_ok p.functionsOk with ⟨hc, h⟩ | ⟨-, h⟩
    · rw [List.mem_flatten] at hx
      obtain ⟨l, hl, hx⟩ := hx
      obtain ⟨f, hf, hg⟩ := traverse_mem h hl
      obtain ⟨r, h1, h2⟩ := Res.bind_ok hg
      cases r with
      | method a b => cases h2
      | func fns =>
        cases h2
        rw [List.mem_map] at hx
        obtain ⟨fn, hfn, rfl⟩ := hx
        exact .function f fns fn hc hf h1 hfn
    · rw [h] at hx; cases hx
  · rcases ifOn_ok p.propertiesOk with ⟨hc, h⟩ | ⟨-, h⟩
    · rw [List.mem_flatten] at hx
      obtain ⟨l, hl, hx⟩ := hx
      obtain ⟨f, hf, hg⟩ := traverse_mem h hl
      obtain ⟨r, h1, h2⟩ := Res.bind_ok hg
      cases ho : f.owner with
      | «class» => rw [ho] at h2; cases h2
      | module =>
        rw [ho] at h2
        cases h2
        rw [List.mem_map] at hx
        obtain ⟨fn, hfn, rfl⟩ := hx
        cases fn with
        | none => exact .stray f r hc hf ho h1 hfn
        | some fn => exact .property f r fn hc hf ho h1 hfn
    · rw [h] at hx; cases hx

/-- Where an item of the generated code comes from: it is a generated module, the embedded source of one, or in the content of
one. -/
inductive From (E : Env) (cfg : Config) (imp : Str → Bool) (tops : List Module) (ts : List Path) (L : List Module) : Item → Prop
  | mod (M : Module) (x : Item) : InTree M L → Module.generate E cfg imp tops ts M = .ok x → From E cfg imp tops ts L x
  | embed (M : Module) (x : Item) : InTree M L → x ∈ embedItems M.name M.source → From E cfg imp tops ts L x
  | content (M : Module) (out : List Item) (p : ContentParts E cfg imp tops ts M out) (x : Item) : InTree M L →
      x ∈ out → ContentFrom E cfg imp tops M p.taken p.lt x → From E cfg imp tops ts L x

theorem inTree_sub {M : Module} {L : List Module} (h : InTree M L) : ∀ s ∈ M.submodules, InTree s L := by
  induction h with
  | top h => exact fun s hs => .sub h (.top hs)
  | sub h _ ih => exact fun s hs => .sub h (ih s hs)

/-- A generated item that is a module: its items come from the forest again. -/
theorem from_mod {E : Env} {cfg : Config} {imp : Str → Bool} {tops : List Module} {ts : List Path} {L : List Module}
    {allow : Bool} {doc : Option Str} {i : Str} {inner : List Item} (h : From E cfg imp tops ts L (.mod allow doc i inner)) :
    ∃ M, InTree M L ∧ ∃ q : GenParts E cfg imp tops ts M (.mod allow doc i inner),
      inner = embedItems M.name M.source ++ q.content ++ q.mods := by
  generalize hx : Item.mod allow doc i inner = x at h
  cases h with
  | mod M x hM hg =>
    subst hx
    obtain ⟨q⟩ := generate_parts hg
    have := q.item
    injection this with h1 h2 h3 h4
    exact ⟨M, hM, q, h4⟩
  | embed M x hM hm =>
    subst hx
    unfold embedItems at hm
    split at hm <;> simp at hm
  | content M out p x hM hm hf => subst hx; cases hf

theorem from_inner {E : Env} {cfg : Config} {imp : Str → Bool} {tops : List Module} {ts : List Path} {L : List Module}
    {allow : Bool} {doc : Option Str} {i : Str} {inner : List Item} (h : From E cfg imp tops ts L (.mod allow doc i inner)) :
    ∀ x ∈ inner, From E cfg imp tops ts L x := by
  obtain ⟨M, hM, q, hin⟩ := from_mod h
  intro x hx
  rw [hin] at hx
  simp only [List.mem_append] at hx
  rcases hx with (hx | hx) | hx
  · exact .embed M x hM hx
  · obtain ⟨p⟩ := content_parts q.contentOk
    exact .content M _ p x hM hx (content_from p hx)
  · rcases ifOn_ok q.modsOk with ⟨-, h⟩ | ⟨-, h⟩
    · obtain ⟨s, hs, hg⟩ := traverse_mem h hx
      exact .mod s x (inTree_sub hM s hs) hg
    · rw [h] at hx; cases hx

theorem within_from {E : Env} {cfg : Config} {imp : Str → Bool} {tops : List Module} {ts : List Path} {L : List Module}
    {items : List Item} (h : ∀ x ∈ items, From E cfg imp tops ts L x) {x : Item} (hx : Within x items) :
    From E cfg imp tops ts L x := by
  induction hx with
  | top hx => exact h _ hx
  | sub hm _ ih => exact ih (from_inner (h _ hm))

/-- The engine's output is generated from its prepared modules. -/
theorem generate_prepared {E : Env} {W : World} {fuel : Nat} {c : Codegen} {items : List Item}
    (h : c.generate E W fuel = .ok items) :
    ∃ out, c.prepare E W fuel = .ok out ∧
      Res.traverse (Module.generate E c.cfg W.importable out (getAllTypes out)) out = .ok items := by
  unfold Codegen.generate at h
  split at h
  · cases h
  · obtain ⟨out, h1, h⟩ := Res.bind_ok h
    rw [generateList_eq] at h
    exact ⟨out, h1, h⟩

/-- Every item of the output comes from a prepared module. -/
theorem generate_from {E : Env} {W : World} {fuel : Nat} {c : Codegen} {items : List Item}
    (h : c.generate E W fuel = .ok items) :
    ∃ out, c.prepare E W fuel = .ok out ∧
      ∀ x, Within x items → From E c.cfg W.importable out (getAllTypes out) out x := by
  obtain ⟨out, h1, h2⟩ := generate_prepared h
  refine ⟨out, h1, fun x hx => within_from (fun y hy => ?_) hx⟩
  obtain ⟨M, hM, hg⟩ := traverse_mem h2 hy
  exact .mod M y (.top hM) hg

end Bindgen

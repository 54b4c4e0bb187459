import Verif.Lemmas.Prepared
import Verif.Props.Output
/-!
# What is emitted, and when: C41, C42, C52
-/
namespace Bindgen
open Spec

/-! ## C42: configuration flags -/

/-- The documentation attributes on an item and on the functions in it. -/
def Spec.docsOf : Item → List (Option Str)
  | .mod _ doc _ _ => [doc]
  | .class k => k.doc :: (k.inherent.map Fn.doc ++ k.traitImpls.map Fn.doc)
  | .func f | .prop f => [f.doc]
  | _ => []

/-- With the flag of a kind of item off, no such item is emitted at any depth. (Methods and accessors inside classes belong
to the classes.) -/
theorem C42_kinds (E : Env) (W : World) (fuel : Nat) (c : Codegen) (items : List Item) (h : c.generate E W fuel = .ok items) :
    (c.cfg.generateImports = false → ∀ p a, ¬ Within (.use p a) items) ∧
    (c.cfg.generatePreludes = false → ∀ n es, ¬ Within (.prelude n es) items) ∧
    (c.cfg.generateTypeVars = false → ∀ n, ¬ Within (.typeAlias n) items) ∧
    (c.cfg.generateClasses = false → ∀ k, ¬ Within (.class k) items) ∧
    (c.cfg.generateFunctions = false → ∀ f, ¬ Within (.func f) items) ∧
    (c.cfg.generateProperties = false → (∀ f, ¬ Within (.prop f) items) ∧ ¬ Within .strayPub items) := by
  obtain ⟨out, -, hf⟩ := generate_from h
  have key : ∀ x, Within x items → (∀ a d i l, x ≠ .mod a d i l) → (∀ s n f, x ≠ .embed s n f) →
      ∃ M taken lt, ContentFrom E c.cfg W.importable out M taken lt x := by
    intro x hx h1 h2
    cases hf x hx with
    | mod M x hM hg =>
      obtain ⟨q⟩ := generate_parts hg
      exact absurd q.item (h1 _ _ _ _)
    | embed M x hM hm =>
      unfold embedItems at hm
      split at hm
      · rw [List.mem_singleton] at hm; exact absurd hm (h2 _ _ _)
      · cases hm
    | content M o p x hM hm hc => exact ⟨M, _, _, hc⟩
  refine ⟨?_, ?_, ?_, ?_, ?_, ?_⟩
  · intro hc p a hx
    obtain ⟨M, _, _, hk⟩ := key _ hx (by simp) (by simp)
    cases hk with
    | use _ _ _ hc' => rw [hc] at hc'; cases hc'
  · intro hc n es hx
    obtain ⟨M, _, _, hk⟩ := key _ hx (by simp) (by simp)
    cases hk with
    | prelude _ _ hc' => rw [hc] at hc'; cases hc'
  · intro hc n hx
    obtain ⟨M, _, _, hk⟩ := key _ hx (by simp) (by simp)
    cases hk with
    | typeVar _ _ hc' => rw [hc] at hc'; cases hc'
  · intro hc k hx
    obtain ⟨M, _, _, hk⟩ := key _ hx (by simp) (by simp)
    cases hk with
    | class' _ _ hc' => rw [hc] at hc'; cases hc'
  · intro hc f hx
    obtain ⟨M, _, _, hk⟩ := key _ hx (by simp) (by simp)
    cases hk with
    | function _ _ _ hc' => rw [hc] at hc'; cases hc'
  · intro hc
    refine ⟨fun f hx => ?_, fun hx => ?_⟩
    · obtain ⟨M, _, _, hk⟩ := key _ hx (by simp) (by simp)
      cases hk with
      | property _ _ _ hc' => rw [hc] at hc'; cases hc'
    · obtain ⟨M, _, _, hk⟩ := key _ hx (by simp) (by simp)
      cases hk with
      | stray _ _ hc' => rw [hc] at hc'; cases hc'

/-- With the traversal of submodules off, no module is emitted inside another one. -/
theorem C42_submodules (E : Env) (W : World) (fuel : Nat) (c : Codegen) (items : List Item) (h : c.generate E W fuel = .ok items)
    (ht : c.cfg.traverseSubmodules = false) (allow : Bool) (doc : Option Str) (i : Str) (inner : List Item)
    (hx : Within (.mod allow doc i inner) items) : ∀ a d j l, .mod a d j l ∉ inner := by
  obtain ⟨out, -, hf⟩ := generate_from h
  obtain ⟨M, hM, q, hq⟩ := from_mod (hf _ hx)
  intro a d j l hm
  rw [hq] at hm
  have hmods := q.modsOk
  rw [ht] at hmods
  have hmods : q.mods = [] := (Except.ok.inj hmods).symm
  rw [hmods, List.append_nil] at hm
  rcases List.mem_append.mp hm with hm | hm
  · unfold embedItems at hm
    split at hm <;> simp at hm
  · obtain ⟨p⟩ := content_parts q.contentOk
    cases content_from p hm

/-- The functions of the token streams of a class. -/
theorem parts_mem {l : List FnImpl} {a : ClassParts} {fn : Fn} :
    (fn ∈ (l.foldl ClassParts.add a).inherent ∨ fn ∈ (l.foldl ClassParts.add a).traitImpls) ↔
      fn ∈ a.inherent ∨ fn ∈ a.traitImpls ∨ ∃ r ∈ l, fn ∈ fnsOf r := by
  induction l generalizing a with
  | nil => simp
  | cons r l ih =>
    rw [List.foldl_cons, ih]
    cases r <;> simp [ClassParts.add, fnsOf, or_assoc, or_left_comm]

/-- The functions of an emitted class come from its methods and properties. -/
theorem class_fns {E : Env} {cfg : Config} {imp : Str → Bool} {lt : LocalTypes} {c : Class} {k : ClassItem}
    (h : c.generate E cfg imp lt = .ok (some k)) {fn : Fn} (hfn : fn ∈ k.inherent ∨ fn ∈ k.traitImpls) :
    ∃ taken, c.methodIdents = .ok taken ∧
      ((∃ m ∈ c.methods, ∃ r, m.generate E cfg imp taken lt = .ok r ∧ fn ∈ fnsOf r) ∨
        ∃ p ∈ c.properties, ∃ l, p.generate E cfg imp (taken ++ c.extraIdents E) lt = .ok l ∧ some fn ∈ l) := by
  obtain ⟨name, ident, taken, impls, props, -, -, ht, hi, hp, -, -, -, hparts, -⟩ := class_generate h
  refine ⟨taken, ht, ?_⟩
  have h1 := congrArg ClassParts.inherent hparts
  have h2 := congrArg ClassParts.traitImpls hparts
  simp only at h1 h2
  rw [h1, h2, parts_mem] at hfn
  rcases hfn with hfn | hfn | ⟨r, hr, hfn⟩
  · cases hfn
  · cases hfn
  · rcases List.mem_append.mp hr with hr | hr
    · obtain ⟨m, hm, hg⟩ := traverse_mem hi hr
      exact Or.inl ⟨m, hm, r, hg, hfn⟩
    · obtain ⟨l, hl, rfl⟩ := List.mem_map.mp hr
      obtain ⟨p, hpm, hg⟩ := traverse_mem hp hl
      refine Or.inr ⟨p, hpm, l, hg, ?_⟩
      simp only [propImpl, fnsOf, List.mem_filterMap] at hfn
      obtain ⟨o, ho, rfl⟩ := hfn
      exact ho

theorem function_doc {E : Env} {cfg : Config} {imp : Str → Bool} {taken : List Ident} {lt : LocalTypes} {f : Function} {r : FnImpl}
    (h : f.generate E cfg imp taken lt = .ok r) {fn : Fn} (hfn : fn ∈ fnsOf r) : fn.doc = docAttr cfg f.doc := by
  obtain ⟨_, _, _, _, _, _, _, _, _, _, _, _, _, _, _, _, _, _, _, _, rfl, _⟩ := generate_fn h hfn
  rfl

theorem accessor_doc {E : Env} {cfg : Config} {imp : Str → Bool} {taken : List Ident} {lt : LocalTypes} {p : Property}
    {l : List (Option Fn)} (h : p.generate E cfg imp taken lt = .ok l) {fn : Fn} (hfn : some fn ∈ l) :
    fn.doc = docAttr cfg p.doc ∨ fn.doc = docAttr cfg p.setterDoc := by
  obtain ⟨g, hg, h⟩ := accessors_of h
  have hget : some fn = g → fn.doc = docAttr cfg p.doc := by
    rintro rfl
    obtain ⟨_, _, _, _, -, -, -, -, rfl⟩ := getter_fn hg
    rfl
  rcases h with ⟨-, s, hs, rfl⟩ | ⟨-, rfl⟩
  · rcases List.mem_cons.mp hfn with hfn | hfn
    · exact Or.inl (hget hfn)
    · rw [List.mem_singleton] at hfn
      rw [← hfn] at hs
      obtain ⟨_, _, _, _, _, -, -, -, -, -, rfl⟩ := setter_fn hs
      exact Or.inr rfl
  · exact Or.inl (hget (List.mem_singleton.mp hfn))

/-- With documentation off, no emitted module, class, function, method or accessor carries a documentation attribute. -/
theorem C42_docs (E : Env) (W : World) (fuel : Nat) (c : Codegen) (items : List Item) (h : c.generate E W fuel = .ok items)
    (hd : c.cfg.generateDocs = false) (x : Item) (hx : Within x items) : ∀ d ∈ docsOf x, d = none := by
  obtain ⟨out, -, hf⟩ := generate_from h
  have hno : ∀ d, docAttr c.cfg d = none := fun d => by simp [docAttr, hd]
  cases hf x hx with
  | mod M x hM hg =>
    obtain ⟨q⟩ := generate_parts hg
    rw [q.item]
    simp [docsOf, hno]
  | embed M x hM hm =>
    unfold embedItems at hm
    split at hm
    · rw [List.mem_singleton] at hm; subst hm; simp [docsOf]
    · cases hm
  | content M o p x hM hm hc =>
    cases hc with
    | class' k item hcfg hk hg =>
      intro d hd
      rcases List.mem_cons.mp hd with rfl | hd
      · obtain ⟨_, _, _, _, _, -, -, -, -, -, h1, -⟩ := class_generate hg
        rw [h1, hno]
      · rw [← List.map_append, List.mem_map] at hd
        obtain ⟨fn, hfn, rfl⟩ := hd
        obtain ⟨taken, -, ⟨m, -, r, h1, h2⟩ | ⟨p, -, l, h1, h2⟩⟩ := class_fns hg (List.mem_append.mp hfn)
        · rw [function_doc h1 h2, hno]
        · rcases accessor_doc h1 h2 with h | h <;> rw [h, hno]
    | function f fns fn _ _ hg hfn =>
      have : fn.doc = docAttr c.cfg f.doc := function_doc hg (r := .func fns) hfn
      simp [docsOf, this, hno]
    | property q l fn _ _ _ hg hfn =>
      rcases accessor_doc hg hfn with h | h <;> simp [docsOf, h, hno]
    | _ => simp [docsOf]

/-- The kinds of items in the first module, and how many documentation attributes they carry. -/
def exKinds (items : List Item) : List (Nat × Nat) :=
  (match items with
    | .mod _ _ _ l :: _ => l
    | _ => []).map fun (x : Item) => ((match x with
      | .use .. => 0 | .prelude .. => 1 | .typeAlias .. => 2 | .class .. => 3 | .func .. => 4 | .prop .. => 5 | .strayPub => 6
      | .embed .. => 7 | .mod .. => 8 : Nat), ((docsOf x).filter Option.isSome).length)

example : ((Codegen.new {}).moduleNames exEnv exWorld 5 [c!"pkg"] >>= fun c => c.generate exEnv exWorld 5).map exKinds =
    .ok [(1, 0), (3, 0), (4, 1), (5, 0), (5, 0), (8, 0)] := by decide +kernel

example : ((Codegen.new { generatePreludes := false, generateDocs := false, traverseSubmodules := false }).moduleNames exEnv exWorld 5
      [c!"pkg"] >>= fun c => c.generate exEnv exWorld 5).map exKinds =
    .ok [(3, 0), (4, 0), (5, 0), (5, 0)] := by decide +kernel

/-! ## C52: dangling `pub` -/

/-- An accessor of a module property is left out only if a function of the module has the name of the property, or that name
with `get_` or `set_` in front. -/
theorem accessor_missing {E : Env} {cfg : Config} {imp : Str → Bool} {taken : List Ident} {lt : LocalTypes} {p : Property}
    {l : List (Option Fn)} (h : p.generate E cfg imp taken lt = .ok l) (hl : none ∈ l) {n : Str} (hid : IsIdent E n)
    (hn : p.name.segs.getLast? = some (Ident.fromPy E n)) :
    ∃ x, (x = n ∨ x = c!"get_" ++ n ∨ x = c!"set_" ++ n) ∧ Ident.fromPy E x ∈ taken := by
  have hget : IsIdent E (c!"get_" ++ n) := isIdent_prefix (getSet_isIdent E).1 hid
  have hset : IsIdent E (c!"set_" ++ n) := isIdent_prefix (getSet_isIdent E).2 hid
  have hfall : getterFallback E taken (Ident.fromPy E n) = .ok none → nameTaken taken (Ident.fromPy E n) = true ∨ n ∈ unspellable →
      ∃ x, (x = n ∨ x = c!"get_" ++ n ∨ x = c!"set_" ++ n) ∧ Ident.fromPy E x ∈ taken := by
    intro hf ht
    unfold getterFallback at hf
    simp only [asPy_ident hid] at hf
    split at hf
    · rename_i h1
      unfold nameTaken at h1
      rw [Bool.or_eq_true] at h1
      rcases h1 with h1 | h1
      · exact ⟨_, Or.inr (Or.inl rfl), by simpa using h1⟩
      · rw [asPy_ident hget] at h1
        have hty : n = c!"type" := by simpa [forbiddenFunctionNames] using h1
        subst hty
        rcases ht with ht | ht
        · unfold nameTaken at ht
          rw [Bool.or_eq_true] at ht
          rcases ht with ht | ht
          · exact ⟨_, Or.inl rfl, by simpa using ht⟩
          · rw [asPy_ident hid] at ht
            simp [forbiddenFunctionNames] at ht
        · simp [unspellable] at ht
    · obtain ⟨_, -, hf⟩ := Res.bind_ok hf
      cases hf
  obtain ⟨g, hg, h⟩ := accessors_of h
  have hgn : g = none → ∃ x, (x = n ∨ x = c!"get_" ++ n ∨ x = c!"set_" ++ n) ∧ Ident.fromPy E x ∈ taken := by
    rintro rfl
    unfold Property.generateGetter at hg
    rw [name_ok hn, Res.ok_bind] at hg
    obtain ⟨o, ho, hg⟩ := Res.bind_ok hg
    cases o with
    | some i =>
      simp only at hg
      obtain ⟨_, -, hg⟩ := Res.bind_ok hg
      obtain ⟨_, -, hg⟩ := Res.bind_ok hg
      cases hg
    | none =>
      unfold getterIdent at ho
      rw [toSyn_ident hid] at ho
      by_cases hu : n ∈ unspellable
      · rw [if_pos hu] at ho
        exact hfall ho (Or.inr hu)
      · rw [if_neg hu] at ho
        split at ho
        · split at ho
          · rename_i h1
            exact hfall ho (Or.inl h1)
          · cases ho
        · rename_i h1
          split at h1 <;> cases h1
  rcases h with ⟨-, s, hs, rfl⟩ | ⟨-, rfl⟩
  · rcases List.mem_cons.mp hl with hl | hl
    · exact hgn hl.symm
    · rw [List.mem_singleton] at hl
      subst hl
      unfold Property.generateSetter at hs
      rw [name_ok hn, Res.ok_bind] at hs
      obtain ⟨o, ho, hs⟩ := Res.bind_ok hs
      cases o with
      | some i =>
        simp only at hs
        obtain ⟨_, -, hs⟩ := Res.bind_ok hs
        obtain ⟨_, -, hs⟩ := Res.bind_ok hs
        obtain ⟨_, -, hs⟩ := Res.bind_ok hs
        cases hs
      | none =>
        unfold setterIdent at ho
        simp only [asPy_ident hid] at ho
        split at ho
        · rename_i h1
          unfold nameTaken at h1
          rw [Bool.or_eq_true] at h1
          rcases h1 with h1 | h1
          · exact ⟨_, Or.inr (Or.inr rfl), by simpa using h1⟩
          · rw [asPy_ident hset] at h1
            simp [forbiddenFunctionNames] at h1
        · obtain ⟨_, -, ho⟩ := Res.bind_ok ho
          cases ho
  · rw [List.mem_singleton] at hl
    exact hgn hl.symm

/-- A function and a property of modules of the same name: the function has the name of the property, or that name with `get_`
or `set_` in front. -/
def Spec.AccessorClash (E : Env) (m m' : Module) : Prop :=
  m.name = m'.name ∧ ∃ p ∈ m.properties, ∃ f ∈ m'.functions, ∃ n x, IsIdent E n ∧ (x = n ∨ x = c!"get_" ++ n ∨ x = c!"set_" ++ n) ∧
    p.name.segs.getLast? = some (Ident.fromPy E n) ∧ f.name.segs.getLast? = some (Ident.fromPy E x)

/-- There is no dangling `pub` if no function has the name of a property or of its accessors. Missing: a function with such a
name (`C52_stray_counterexample`). -/
theorem C52_partial (E : Env) (W : World) (fuel : Nat) (cfg : Config) (srcs : List (Str × Str)) (c : Codegen) (items : List Item)
    (hb : Built E W fuel cfg srcs c) (h : c.generate E W fuel = .ok items)
    (hid : ∀ m, Parsed E cfg W m → ∀ p ∈ m.properties, ∃ n, IsIdent E n ∧ p.name.segs.getLast? = some (Ident.fromPy E n))
    (hno : ∀ m m', Parsed E cfg W m → Parsed E cfg W m' → ¬ AccessorClash E m m') : ¬ Within .strayPub items := by
  have b := built_ok hb
  obtain ⟨out, h1, hf⟩ := generate_from h
  have hp : ∀ m ∈ c.modules, Parsed E c.cfg W m := b.config ▸ b.parsed
  intro hx
  cases hf _ hx with
  | mod M x hM hg =>
    obtain ⟨q⟩ := generate_parts hg
    exact absurd q.item (by simp)
  | embed M x hM hm =>
    unfold embedItems at hm
    split at hm <;> simp at hm
  | content M o q x hM hm hc =>
    cases hc with
    | stray p l _ hpm _ hg hl =>
      obtain ⟨m, hm1, hm2, hm3⟩ := prepared_has h1 hp hM (x := .property p) hpm
      rw [b.config] at hm1
      obtain ⟨n, hn, hlast⟩ := hid m hm1 p hm3
      obtain ⟨x, hx, ht⟩ := accessor_missing hg hl hn hlast
      obtain ⟨f, hfm, hfn⟩ := traverse_mem q.takenOk ht
      obtain ⟨m', hm1', hm2', hm3'⟩ := prepared_has h1 hp hM (x := .function f) hfm
      rw [b.config] at hm1'
      refine hno m m' hm1 hm1' ⟨hm2.trans hm2'.symm, p, hm3, f, hm3', n, x, hn, hx, hlast, ?_⟩
      unfold Path.name Path.name? at hfn
      cases hl : f.name.segs.getLast? with
      | none => rw [hl] at hfn; cases hfn
      | some i => rw [hl] at hfn; cases hfn; rfl

/-- A module with a variable `level` and a function `set_level`. -/
def exSetter : PyMod where
  name := some c!"conf"
  dir := [c!"level", c!"set_level"]
  attrs := [(c!"level", { obj := exIntObj }), (c!"set_level", { obj := exFnObj c!"conf" })]

/-- Only `conf` can be imported. -/
def exSetterWorld : World where
  mods := [exSetter]
  importMod s := if s = c!"conf" then some 0 else none

/-- A variable `level` next to a function `set_level` gives a `pub` without an item. -/
theorem C52_stray_counterexample :
    ((Codegen.new {}).moduleNames exEnv exSetterWorld 5 [c!"conf"] >>= fun c => c.generate exEnv exSetterWorld 5).map exKinds =
      .ok [(4, 1), (5, 0), (6, 0)] := by decide +kernel

end Bindgen

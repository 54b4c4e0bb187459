import Verif.Lemmas.Hygiene
import Verif.Props.Eval
import Verif.Props.WorldScopes
import Verif.Props.Reexports
import Verif.Props.ClassScopes
import Verif.Props.Prelude
/-!
# C67: names that the bindings use without saying where they come from
-/
namespace Bindgen
open Spec

/-! ## Which names there are -/

/-- A variable that only generated code has. -/
def Spec.OwnVariable (x : Str) : Prop := x = c!"py" ∨ c!"p_" <+: x ∨ c!"__internal__" <+: x

theorem own_variable {x : Str} (h : OwnVar x) : OwnVariable x := by
  rcases h with h | ⟨y, rfl⟩ | h
  · exact .inl h
  · exact .inr (.inl ⟨y, rfl⟩)
  · exact .inr (.inr h)

theorem fileTree_uses {g : RFn} {f : Fn} (h : FileTree g f) : g.uses = f.tree.uses := by
  rcases h with rfl | rfl <;> rfl

theorem fileTree_vars {g : RFn} {f : Fn} (h : FileTree g f) : g.vars = f.tree.vars := by
  rcases h with rfl | rfl <;> rfl

theorem embed_uses (s n f : Str) : ∀ u ∈ (embedTree s n f).uses, u = .typ c!"pyo3" ∨ u = .typ c!"str" := by
  intro u hu
  have : (embedTree s n f).uses = [.typ c!"str", .typ c!"pyo3", .typ c!"pyo3", .typ c!"pyo3", .typ c!"pyo3", .typ c!"pyo3"] := rfl
  rw [this] at hu
  simp only [List.mem_cons, List.not_mem_nil, or_false] at hu
  grind

theorem embed_vars (s n f : Str) : (embedTree s n f).vars = [c!"py"] := rfl

/-- **C67**: whatever a function of the bindings uses without saying where it comes from is a built-in type, `Vec`, `Some`, the crate `pyo3`, `Self`, or the
first segment of a reference to a generated type. -/
theorem C67_uses (E : Env) (W : World) (fuel : Nat) (c : Codegen) (items : List Item) (h : c.generate E W fuel = .ok items) (g : RFn)
    (hg : InFile g (Item.treesList items)) (u : Use) (hu : u ∈ g.uses) :
    u ∈ builtin ∨ u = .typ c!"Self" ∨ ∃ f p, EmittedFn f items ∧ FileTree g f ∧ SigMentions p f.sig ∧ u ∈ p.tree.uses := by
  rcases inFile_items hg with ⟨s, n, f, rfl⟩ | ⟨f, hf, ht⟩
  · rcases embed_uses s n f u hu with rfl | rfl <;> exact .inl (by decide)
  · rw [fileTree_uses ht] at hu
    rcases fn_uses (generated_sane h hf) hu with h | h | ⟨p, hp, hu⟩
    · exact .inl h
    · exact .inr (.inl h)
    · exact .inr (.inr ⟨f, p, hf, ht, hp, hu⟩)

/-- **C67**: the variables of the functions of the bindings are `py`, or start with `p_` or `__internal__`. -/
theorem C67_variables (E : Env) (W : World) (fuel : Nat) (c : Codegen) (items : List Item) (h : c.generate E W fuel = .ok items) (g : RFn)
    (hg : InFile g (Item.treesList items)) (x : Str) (hx : x ∈ g.vars) : OwnVariable x := by
  rcases inFile_items hg with ⟨s, n, f, rfl⟩ | ⟨f, hf, ht⟩
  · rw [embed_vars, List.mem_singleton] at hx
    exact .inl hx
  · rw [fileTree_vars ht] at hx
    exact own_variable (fn_vars (generated_sane h hf) hx)

/-! ## Scopes -/

theorem mem_treesList {i : RItem} : ∀ {is : List Item}, i ∈ Item.treesList is ↔ ∃ x ∈ is, i ∈ x.trees
  | [] => by simp [Item.treesList]
  | x :: is => by simp [Item.treesList, mem_treesList (is := is)]

theorem mod_trees {x : Item} {as : List RAttr} {pub : Bool} {n : Str} {inner : List RItem} (h : .mod as pub n inner ∈ x.trees) :
    (∃ es, inner = [.useGroup [] true false [c!"super"] es]) ∨ ∃ a d is, x = .mod a d n is ∧ inner = Item.treesList is := by
  cases x with
  | prelude m es =>
    simp only [Item.trees, List.mem_singleton, RItem.mod.injEq] at h
    exact .inl ⟨es, h.2.2.2⟩
  | mod a d m is =>
    simp only [Item.trees, List.mem_singleton, RItem.mod.injEq] at h
    obtain ⟨-, -, rfl, h⟩ := h
    exact .inr ⟨a, d, is, rfl, h⟩
  | «class» k => simp [Item.trees, ClassItem.trees] at h
  | _ => simp [Item.trees] at h

/-- The scopes of the file of generated items. -/
theorem scopeOf_items {scope file : List RItem} (h : ScopeOf scope file) : ∀ items, file = Item.treesList items →
    scope = Item.treesList items ∨ (∃ idents content, ModChain items idents content ∧ scope = Item.treesList content) ∨
      ∃ es, scope = [.useGroup [] true false [c!"super"] es] := by
  induction h with
  | here => exact fun items h => .inl h
  | mod as pub n hm hs ih =>
    rintro items rfl
    obtain ⟨x, hx, hm⟩ := mem_treesList.1 hm
    rcases mod_trees hm with ⟨es, rfl⟩ | ⟨a, d, is, rfl, rfl⟩
    · refine .inr (.inr ⟨es, ?_⟩)
      cases hs with
      | here => rfl
      | mod _ _ _ h => simp at h
    · rcases ih is rfl with h | ⟨idents, content, hc, h⟩ | h
      · exact .inr (.inl ⟨_, is, .here hx, h⟩)
      · exact .inr (.inl ⟨_, content, .nested hx hc, h⟩)
      · exact .inr (.inr h)

/-- The functions in a scope are functions of the file. -/
theorem scope_inFile {scope file : List RItem} (h : ScopeOf scope file) {i : RItem} (hi : i ∈ scope) {f : RFn} (hf : f ∈ i.fns) :
    InFile f file := by
  induction h with
  | here =>
    cases i with
    | fn g => rw [RItem.fns, List.mem_singleton] at hf; subst hf; exact .fn hi
    | impl as t s fns => exact .impl as t s fns hi hf
    | _ => cases hf
  | mod as pub n hm hs ih => exact .mod as pub n hm ih

/-! ## Names without clashes -/

/-- Types and modules that Rust provides and the bindings use by their bare name. -/
def Spec.reservedTypes : List Str := [c!"bool", c!"f64", c!"i64", c!"u8", c!"str", c!"Vec", c!"pyo3"]

/-- A name with a meaning in the code of the bindings. -/
def Spec.Reserved (s : Str) : Prop :=
  s ∈ [c!"bool", c!"f64", c!"i64", c!"u8", c!"Vec", c!"pyo3", c!"Some"] ∨ c!"p_" <+: s ∨ c!"__internal__" <+: s

/-- No attribute of a module, and no submodule, has a name that means something in the code of the bindings (or one that Rust cannot spell). -/
structure Spec.Unreserved (W : World) : Prop where
  attrs : ∀ id m, W.get? id = some m → ∀ s ∈ m.dir, s ∉ unspellable ∧ ¬ Reserved s
  modules : ∀ id m n, W.get? id = some m → m.name = some n → ∀ s ∈ (Str.splitChar '.' n).tail, s ∉ reservedTypes

/-- An item whose names have no meaning in the code of the bindings. -/
structure Harmless (i : RItem) : Prop where
  types : ∀ n ∈ i.types, unraw n ∉ reservedTypes
  values : ∀ n ∈ i.values, unraw n ≠ c!"Some"
  structs : ∀ n ∈ i.tupleStructs, ¬ OwnVariable (unraw n)

theorem reservedTypes_builtin {x : Str} (h : .typ x ∈ builtin) : x ∈ reservedTypes := by
  simp only [builtin, List.mem_cons, List.not_mem_nil, or_false, reduceCtorEq, false_or, Use.typ.injEq] at h
  simpa [reservedTypes] using h

/-- A scope of harmless items is hygienic. -/
theorem harmless_hygienic {scope : List RItem} (h : ∀ i ∈ scope, Harmless i) (hv : ∀ i ∈ scope, ∀ f ∈ i.fns, ∀ x ∈ f.vars, OwnVariable x) :
    Hygienic scope := by
  refine fun i hi f hf => ⟨fun u hu hb => ?_, fun x hx j hj hm => ?_⟩
  · cases u with
    | val x =>
      have hx : x = c!"Some" := by
        simpa only [builtin, List.mem_cons, List.not_mem_nil, or_false, reduceCtorEq, false_or, Use.val.injEq] using hb
      subst hx
      intro j hj hm
      obtain ⟨n, hn, he⟩ := List.mem_map.1 hm
      exact (h j hj).values n hn he
    | typ x =>
      intro j hj hm
      obtain ⟨n, hn, rfl⟩ := List.mem_map.1 hm
      exact (h j hj).types n hn (reservedTypes_builtin hb)
  · obtain ⟨n, hn, rfl⟩ := List.mem_map.1 hm
    exact (h j hj).structs n hn (hv i hi f hf _ hx)

/-- The name of an item that is neither reserved nor left out of the bindings anyway. -/
structure Usable (s : Str) : Prop where
  types : s ∉ reservedTypes
  some : s ≠ c!"Some"
  own : ¬ OwnVariable s

theorem usable {E : Env} {cfg : Config} {t : Str} {m : Path} (hid : IsIdent E t) (ha : cfg.isAttrAllowed (Ident.fromPy E t) m = true)
    (h : ¬ Reserved t) : Usable t := by
  have hf : t ∉ forbiddenFunctionNames := by
    intro hm
    unfold Config.isAttrAllowed at ha
    rw [asPy_ident hid, List.contains_iff_mem.2 hm] at ha
    simp only [Bool.true_or, if_true] at ha
    cases ha
  have h1 : t ≠ c!"py" := by rintro rfl; exact hf (by decide)
  have h2 : t ≠ c!"str" := by rintro rfl; exact hf (by decide)
  refine ⟨fun hm => h (.inl ?_), fun hm => h (.inl (by rw [hm]; decide)), fun hm => ?_⟩
  · simp only [reservedTypes, List.mem_cons, List.not_mem_nil, or_false] at hm ⊢
    tauto
  · rcases hm with hm | hm | hm
    · exact h1 hm
    · exact h (.inr (.inl hm))
    · exact h (.inr (.inr hm))

/-- Items of prepared modules are named after attributes of a module. -/
theorem prepared_attr {E : Env} {W : World} (hF : Faithful E W) {fuel : Nat} {c : Codegen} {out : List Module}
    (h : c.prepare E W fuel = .ok out) (hp : ∀ m ∈ c.modules, Parsed E c.cfg W m) {M : Module} (hM : InTree M out) {x : SItem}
    (hx : Has M x) (hpre : ∀ i, x ≠ .prelude i) :
    ∃ id pm t m, W.get? id = some pm ∧ t ∈ pm.dir ∧ PyIdent E t ∧ c.cfg.isAttrAllowed (Ident.fromPy E t) m = true ∧ itemName x = fullName M.name (Ident.fromPy E t) := by
  obtain ⟨m, ⟨f, id, hm⟩, hn, hmx⟩ := prepared_has h hp hM hx
  cases f with
  | zero => exact absurd hm parse_zero
  | succ f =>
    obtain ⟨p⟩ := parse_parts hm
    rcases itemName_mem hmx with ⟨i, rfl⟩ | hmem
    · exact absurd rfl (hpre i)
    · obtain ⟨y, hy, he⟩ := parts_itemNames p _ hmem
      obtain ⟨t, ht, hty⟩ := List.mem_map.mp (mem_candidates hy).1
      exact ⟨id, p.pm, t, _, p.get, ht, hF.attrs _ _ p.get t ht, by rw [hty]; exact (mem_candidates hy).2.2, by rw [he, ← hty, ← hn]⟩

/-- Submodules are named after the last segments of module names, or of packages of modules. -/
theorem prepared_subName {E : Env} {W : World} (hF : Faithful E W) (hU : Unreserved W) {fuel : Nat} {c : Codegen} {out : List Module}
    (h : c.prepare E W fuel = .ok out) (hp : ∀ m ∈ c.modules, Parsed E c.cfg W m) {M s : Module} (hM : InTree M out)
    (hs : s ∈ M.submodules) : ∃ t, PyIdent E t ∧ t ∉ reservedTypes ∧ s.name.segs.getLast? = some (Ident.fromPy E t) := by
  obtain ⟨t, ht, hn⟩ := prepared_sub hF h hp hM hs
  obtain ⟨ns, hns⟩ := inTree_nodeAt hM
  obtain ⟨-, -, hne, hseg⟩ := prepared_placed hF h hp hns
  obtain ⟨-, -, -, -, m, ⟨f, id, hm⟩, r, hpre⟩ := prepared_named hF h hp (nodeAt_snoc hns hs)
  refine ⟨t, ht, ?_, by rw [hn]; simp⟩
  cases f with
  | zero => exact absurd hm parse_zero
  | succ f =>
    obtain ⟨p⟩ := parse_parts hm
    obtain ⟨segs, h1, h2, h3, h4⟩ := faithful_name hF p.get p.pmName
    rw [p.name, h4, hn] at hpre
    refine hU.modules _ _ p.nm p.get p.pmName t ?_
    have hsp := Str.splitChar_join (sep := '.') h1 fun s hs => (h2 s hs).1.2.1
    rw [h3, hsp]
    clear hsp h3 h4
    cases hMs : M.name.segs with
    | nil => exact absurd hMs hne
    | cons a l =>
      rw [hMs] at hpre
      cases segs with
      | nil => exact absurd rfl h1
      | cons b segs =>
        simp only [List.cons_append, List.append_assoc, List.map_cons, List.cons.injEq] at hpre
        have hin : Ident.fromPy E t ∈ segs.map (Ident.fromPy E) := by rw [← hpre.2]; simp
        obtain ⟨t', ht', he⟩ := List.mem_map.1 hin
        rw [List.tail_cons, ← fromPy_ident_inj (h2 t' (List.mem_cons_of_mem _ ht')).2 ht.2 he]
        exact ht'

theorem methods_notReserved (s : Str) : s ++ c!"Methods" ∉ reservedTypes := by
  intro h
  have hl : ∀ x ∈ reservedTypes, x.length < 7 := by decide
  have h1 := hl _ h
  have h2 : (c!"Methods" : Str).length = 7 := rfl
  rw [List.length_append, h2] at h1
  omega

theorem lexTrim_rs {E : Env} {t : Str} (h : PyIdent E t) : lexTrim (Ident.fromPy E t).rs = (Ident.fromPy E t).rs ∧
    unraw (Ident.fromPy E t).rs = t := by
  by_cases hk : t ∈ rustKeywords
  · rw [fromPy_reserved h.2 hk]
    exact ⟨h.2.lexTrim_raw, (unraw_ident h.2).2⟩
  · rw [fromPy_plain h.2 hk]
    exact ⟨h.2.lexTrim, (unraw_ident h.2).1⟩

/-- The items of a generated module are harmless. -/
theorem content_harmless {E : Env} {W : World} (hF : Faithful E W) (hU : Unreserved W) {fuel : Nat} {c : Codegen} {out : List Module}
    (h : c.prepare E W fuel = .ok out) (hp : ∀ m ∈ c.modules, Parsed E c.cfg W m) {M : Module} (hM : InTree M out) {imp : Str → Bool}
    {ts : List Path} {c0 : List Item} (hc : M.content E c.cfg imp out ts = .ok c0) {x : Item} (hx : x ∈ c0) {i : RItem} (hi : i ∈ x.trees) :
    Harmless i := by
  obtain ⟨q⟩ := content_parts hc
  obtain ⟨ns, hns⟩ := inTree_nodeAt hM
  obtain ⟨-, hlc, hne, -⟩ := prepared_placed hF h hp hns
  have hattr : ∀ y : SItem, Has M y → (∀ i, y ≠ .prelude i) → ∃ t, PyIdent E t ∧ t ∉ unspellable ∧ Usable t ∧
      itemName y = fullName M.name (Ident.fromPy E t) := by
    intro y hy hpre
    obtain ⟨id, pm, t, m, hg, ht, hid, ha, he⟩ := prepared_attr hF h hp hM hy hpre
    exact ⟨t, hid, (hU.attrs _ _ hg t ht).1, usable hid.2 ha (hU.attrs _ _ hg t ht).2, he⟩
  cases content_from q hx with
  | use im rel a _ him hex hg =>
    obtain ⟨t, ht, -, hr, he⟩ := hattr (.import im) him fun _ => by simp
    obtain ⟨o1, o2, o3⟩ := present_idents hF h hp ((pathExistsList_iff out).mp hex)
    have he' : im.target = ⟨M.name.leadingColon, M.name.segs ++ [Ident.fromPy E t]⟩ := by
      have he : im.target = _ := he
      rw [he]; rfl
    obtain ⟨rel', -, -, -, hgen⟩ := reexport_spec hlc hne ht he' o1 o2 o3
    obtain ⟨rfl, hbn⟩ := hgen rel a hg
    simp only [Item.trees, List.mem_singleton] at hi
    subst hi
    have hn : importedName (rel.segs.map fun s => lexTrim s.rs) a = [(Ident.fromPy E t).rs] := by
      unfold boundName at hbn
      cases a with
      | some a => cases hbn; rfl
      | none =>
        simp only [importedName, List.getLast?_map]
        simp only [] at hbn
        cases hl : rel.segs.getLast? with
        | none => rw [hl] at hbn; cases hbn
        | some s =>
          rw [hl, Option.map_some, Option.some.injEq] at hbn
          simp only [Option.map_some, Option.toList_some, hbn, (lexTrim_rs ht).1]
    have hn' : ∀ n ∈ importedName (rel.segs.map fun s => lexTrim s.rs) a, unraw n = t := by
      intro n hm
      rw [hn, List.mem_singleton] at hm
      rw [hm, (lexTrim_rs ht).2]
    refine ⟨?_, ?_, ?_⟩ <;> intro n hm <;> rw [hn' n hm]
    · exact hr.types
    · exact hr.some
    · exact hr.own
  | prelude n es _ hg =>
    obtain ⟨k, es', he, -⟩ := C28_prelude E M _ hg
    cases he
    simp only [Item.trees, List.mem_singleton] at hi
    subst hi
    refine ⟨fun n hn => ?_, fun _ hn => (nomatch hn), fun _ hn => (nomatch hn)⟩
    cases List.mem_singleton.1 hn
    rw [unraw_helper (newCall_isIdent E).2 k]
    simp [helperName, reservedTypes]
  | typeVar tv n _ htv hg =>
    obtain ⟨t, ht, -, hr, he⟩ := hattr (.typeVar tv) htv fun _ => by simp
    have he : tv.name = _ := he
    have hn : unraw n = t := by
      unfold TypeVar.generate at hg
      rw [he, name_ok fullName_getLast, Res.ok_bind] at hg
      obtain ⟨s, hs, hg⟩ := Res.bind_ok hg
      cases hg
      exact toSyn_unraw ht.2 (trySyn_ok hs)
    simp only [Item.trees, List.mem_singleton] at hi
    subst hi
    refine ⟨fun m hm => ?_, fun _ hn => (nomatch hn), fun _ hn => (nomatch hn)⟩
    cases List.mem_singleton.1 hm
    rw [hn]
    exact hr.types
  | class' k ki _ hk hg =>
    obtain ⟨t, ht, hu, hr, he⟩ := hattr (.class k) hk fun _ => by simp
    obtain ⟨h1, h2⟩ := class_typeNames hg ht.2 hu he
    simp only [Item.trees, ClassItem.trees, List.mem_cons, List.not_mem_nil, or_false] at hi
    rcases hi with rfl | rfl | rfl | rfl | rfl | rfl
    · refine ⟨fun n hn => ?_, fun n hn => ?_, fun n hn => ?_⟩ <;> cases List.mem_singleton.1 hn <;> rw [h1]
      · exact hr.types
      · exact hr.some
      · exact hr.own
    · exact ⟨fun _ hn => (nomatch hn), fun _ hn => (nomatch hn), fun _ hn => (nomatch hn)⟩
    · exact ⟨fun _ hn => (nomatch hn), fun _ hn => (nomatch hn), fun _ hn => (nomatch hn)⟩
    · exact ⟨fun _ hn => (nomatch hn), fun _ hn => (nomatch hn), fun _ hn => (nomatch hn)⟩
    · refine ⟨fun n hn => ?_, fun _ hn => (nomatch hn), fun _ hn => (nomatch hn)⟩
      cases List.mem_singleton.1 hn
      rw [h2]
      exact methods_notReserved t
    · exact ⟨fun _ hn => (nomatch hn), fun _ hn => (nomatch hn), fun _ hn => (nomatch hn)⟩
  | function f fns fn _ hf hg hfn =>
    obtain ⟨t, ht, hu, hr, he⟩ := hattr (.function f) hf fun _ => by simp
    have he : f.name = _ := he
    have ho : ownName f.typ = true := by
      rcases prepared_free h hp hM f hf with ho | ho <;> rw [ho] <;> rfl
    have hn := toSyn_unraw ht.2 (function_name hg hfn (by rw [he, name_ok fullName_getLast]) ht.2 hu ho)
    simp only [Item.trees, List.mem_singleton] at hi
    subst hi
    refine ⟨fun _ hn => (nomatch hn), fun n hm => ?_, fun _ hn => (nomatch hn)⟩
    cases List.mem_singleton.1 hm
    show unraw fn.sig.name ≠ _
    rw [hn]
    exact hr.some
  | property p l fn _ hpm _ hg hfn =>
    obtain ⟨t, ht, hu, hr, he⟩ := hattr (.property p) hpm fun _ => by simp
    have he : p.name = _ := he
    obtain ⟨y, hy, hid, -, hs⟩ := accessor_name hg hfn (by rw [he, name_ok fullName_getLast]) ht.2
    simp only [Item.trees, List.mem_singleton] at hi
    subst hi
    refine ⟨fun _ hn => (nomatch hn), fun n hm => ?_, fun _ hn => (nomatch hn)⟩
    cases List.mem_singleton.1 hm
    show unraw fn.sig.name ≠ _
    rw [toSyn_unraw hid hs]
    rcases hy with rfl | rfl | rfl
    · exact hr.some
    · simp
    · simp
  | stray p l _ _ _ _ _ => simp [Item.trees] at hi

/-- The items in the modules of the bindings are harmless. -/
theorem chain_harmless {E : Env} {W : World} (hF : Faithful E W) (hU : Unreserved W) {fuel : Nat} {c : Codegen} {out : List Module}
    (h1 : c.prepare E W fuel = .ok out) (hp : ∀ m ∈ c.modules, Parsed E c.cfg W m) {items : List Item}
    (h2 : Res.traverse (Module.generate E c.cfg W.importable out (getAllTypes out)) out = .ok items) {idents : List Str} {content : List Item}
    (hch : ModChain items idents content) {i : RItem} (hi : i ∈ Item.treesList content) : Harmless i := by
  obtain ⟨ns, M, c0, mods, hM, hc0, rfl, -, hmods, -⟩ := chain_node h2 hch
  have hMt := nodeAt_inTree hM
  obtain ⟨x, hx, hi⟩ := mem_treesList.1 hi
  simp only [List.mem_append] at hx
  rcases hx with (hx | hx) | hx
  · unfold embedItems at hx
    split at hx
    · rw [List.mem_singleton] at hx
      subst hx
      simp only [Item.trees, List.mem_singleton] at hi
      subst hi
      refine ⟨fun _ hn => (nomatch hn), fun n hm => ?_, fun _ hn => (nomatch hn)⟩
      cases List.mem_singleton.1 hm
      show unraw c!"pyo3_embed_python_source_code" ≠ _
      decide
    · cases hx
  · exact content_harmless hF hU h1 hp hMt hc0 hx hi
  · rcases ifOn_ok hmods with ⟨-, hm⟩ | ⟨-, hm⟩
    · obtain ⟨s, hsub, hg⟩ := traverse_mem hm hx
      obtain ⟨p⟩ := generate_parts hg
      rw [p.item, Item.trees, List.mem_singleton] at hi
      subst hi
      obtain ⟨t, ht, hr, hl⟩ := prepared_subName hF hU h1 hp hMt hsub
      have hla := p.lastOk
      rw [hl, Option.some.injEq] at hla
      have hid := p.identOk
      rw [← hla] at hid
      refine ⟨fun n hn => ?_, fun _ hn => (nomatch hn), fun _ hn => (nomatch hn)⟩
      cases List.mem_singleton.1 hn
      rw [toSyn_unraw ht.2 hid]
      exact hr
    · rw [hm] at hx; cases hx

/-- **C67** (partial): in an interpreter that is faithful to its names and in which no attribute of a module and no submodule has a name with a
meaning in the code of the bindings, the names that Rust provides mean what Rust provides in every module of the bindings, and no tuple struct
stands in the way of a variable. Missing: those other names, for which this may fail (`C67_type_counterexample`, `C67_some_counterexample`,
`C67_variable_counterexample`, `C67_crate_counterexample`). -/
theorem C67_hygienic_partial (E : Env) (W : World) (hF : Faithful E W) (hU : Unreserved W) (fuel : Nat) (cfg : Config) (srcs : List (Str × Str))
    (c : Codegen) (hb : Built E W fuel cfg srcs c) (items : List Item) (h : c.generate E W fuel = .ok items) (scope : List RItem)
    (hs : ScopeOf scope (Item.treesList items)) : Hygienic scope := by
  obtain ⟨hcfg, -, hp⟩ := built_ok hb
  subst hcfg
  have hv : ∀ i ∈ scope, ∀ f ∈ i.fns, ∀ x ∈ f.vars, OwnVariable x := fun i hi f hf x hx =>
    C67_variables E W fuel c items h f (scope_inFile hs hi hf) x hx
  obtain ⟨out, h1, h2⟩ := generate_prepared h
  rcases scopeOf_items hs items rfl with rfl | ⟨idents, content, hch, rfl⟩ | ⟨es, rfl⟩
  · intro i hi f hf
    exfalso
    obtain ⟨x, hx, hi⟩ := mem_treesList.1 hi
    obtain ⟨m, -, hg⟩ := traverse_mem h2 hx
    obtain ⟨p⟩ := generate_parts hg
    rw [p.item, Item.trees, List.mem_singleton] at hi
    subst hi
    cases hf
  · exact harmless_hygienic (fun i hi => chain_harmless hF hU h1 hp h2 hch hi) hv
  · intro i hi f hf
    rw [List.mem_singleton] at hi
    subst hi
    cases hf

/-! ## Examples and counterexamples -/

instance (scope : List RItem) : (u : Use) → Decidable (Unshadowed scope u)
  | .val _ => by unfold Unshadowed; infer_instance
  | .typ _ => by unfold Unshadowed; infer_instance

instance (scope : List RItem) : Decidable (Hygienic scope) := by unfold Hygienic; infer_instance

instance (s : Str) : Decidable (OwnVariable s) := by unfold OwnVariable; infer_instance
instance (s : Str) : Decidable (Reserved s) := by unfold Reserved; infer_instance

/-- The scope of the module at this place. -/
def exScopeAt : List Str → List RItem → List (List RItem)
  | [], file => [file]
  | n :: ns, file => file.flatMap fun (i : RItem) => match i with
    | .mod _ _ m inner => if m = n then exScopeAt ns inner else []
    | _ => []

theorem exScopeAt_scope {scope : List RItem} : ∀ {ns : List Str} {file : List RItem}, scope ∈ exScopeAt ns file → ScopeOf scope file
  | [], file, h => by rw [exScopeAt, List.mem_singleton] at h; subst h; exact .here
  | n :: ns, file, h => by
    obtain ⟨i, hi, h⟩ := List.mem_flatMap.1 h
    cases i with
    | mod as pub m inner =>
      simp only at h
      split at h
      · exact .mod as pub m hi (exScopeAt_scope h)
      · cases h
    | _ => cases h

/-- Some scope of the module at this place is not hygienic. -/
def exUnhygienic (ns : List Str) (items : List Item) : Bool := (exScopeAt ns (Item.treesList items)).any fun s => decide (¬ Hygienic s)

theorem exUnhygienic_scope {ns : List Str} {items : List Item} (h : exUnhygienic ns items = true) :
    ∃ scope, ScopeOf scope (Item.treesList items) ∧ ¬ Hygienic scope := by
  obtain ⟨s, hs, h⟩ := List.any_eq_true.1 h
  exact ⟨s, exScopeAt_scope hs, of_decide_eq_true h⟩

theorem unreserved_of_check {W : World} (h : ∀ m ∈ W.mods, (∀ s ∈ m.dir, s ∉ unspellable ∧ ¬ Reserved s) ∧
    ∀ n ∈ m.name, ∀ s ∈ (Str.splitChar '.' n).tail, s ∉ reservedTypes) : Unreserved W where
  attrs _ m hm := (h m (List.mem_of_getElem? hm)).1
  modules _ m n hm hn := (h m (List.mem_of_getElem? hm)).2 n hn

/-- The number of functions, and of names they use, in the modules at this place. -/
def exCounts (ns : List Str) (items : List Item) : List (Nat × Nat) :=
  (exScopeAt ns (Item.treesList items)).map fun s => ((s.flatMap RItem.fns).length, ((s.flatMap RItem.fns).flatMap RFn.uses).length)

/-- The hypotheses of `C67_hygienic_partial`, `C67_uses` and `C67_variables`, for a package with functions that use names. -/
example : Faithful exEnv exTidyWorld ∧ Unreserved exTidyWorld ∧ ∃ c items, Built exEnv exTidyWorld 5 {} [] c ∧
    c.generate exEnv exTidyWorld 5 = .ok items ∧ exCounts [c!"pkg"] items = [(10, 7)] :=
  ⟨exTidyWorld_faithful, unreserved_of_check (by decide +kernel),
    built_run (names := [c!"pkg"]) (f := exCounts [c!"pkg"]) (by decide +kernel)⟩

/-- A module with a class of this name and the function `f`. -/
def exBuiltinWorld (cls : Str) : World where
  mods := [{ name := some c!"pkg", dir := [cls, c!"f"], attrs := [(cls, { obj := exClsObj c!"pkg" }), (c!"f", { obj := exFnObj c!"pkg" })] }]
  importMod s := if s = c!"pkg" then some 0 else none

/-- **C67** fails if a Python class is named like a built-in type of Rust: beside a class `i64`, a function that takes an integer asks for that
class. -/
theorem C67_type_counterexample : ∃ c items, Built exEnv (exBuiltinWorld c!"i64") 5 {} [] c ∧ c.generate exEnv (exBuiltinWorld c!"i64") 5 = .ok items ∧
    ∃ scope, ScopeOf scope (Item.treesList items) ∧ ¬ Hygienic scope := by
  obtain ⟨c, items, hb, hg, hs⟩ := built_run (E := exEnv) (W := exBuiltinWorld c!"i64") (fuel := 5) (cfg := {}) (names := [c!"pkg"])
    (f := exUnhygienic [c!"pkg"]) (v := true) (by decide +kernel)
  exact ⟨c, items, hb, hg, exUnhygienic_scope hs⟩

/-- **C67** fails if a Python class is named `p_x`: beside it, Rust does not accept the variable of a parameter `x`. -/
theorem C67_variable_counterexample : ∃ c items, Built exEnv (exBuiltinWorld c!"p_x") 5 {} [] c ∧ c.generate exEnv (exBuiltinWorld c!"p_x") 5 = .ok items ∧
    ∃ scope, ScopeOf scope (Item.treesList items) ∧ ¬ Hygienic scope := by
  obtain ⟨c, items, hb, hg, hs⟩ := built_run (E := exEnv) (W := exBuiltinWorld c!"p_x") (fuel := 5) (cfg := {}) (names := [c!"pkg"])
    (f := exUnhygienic [c!"pkg"]) (v := true) (by decide +kernel)
  exact ⟨c, items, hb, hg, exUnhygienic_scope hs⟩

/-- A module with the functions `Some` and `def f(**kwargs)`. -/
def exSomeWorld : World where
  mods := [{ name := some c!"pkg", dir := [c!"Some", c!"f"], attrs := [(c!"Some", { obj := exFnObj c!"pkg" }),
    (c!"f", { obj := { exFnObj c!"pkg" with fn := exFn [⟨c!"kwargs", .varKeyword, none, false⟩] } })] }]
  importMod s := if s = c!"pkg" then some 0 else none

/-- **C67** fails if a Python function is named `Some`: keyword arguments are unpacked with the pattern `Some(…)`. -/
theorem C67_some_counterexample : ∃ c items, Built exEnv exSomeWorld 5 {} [] c ∧ c.generate exEnv exSomeWorld 5 = .ok items ∧
    ∃ scope, ScopeOf scope (Item.treesList items) ∧ ¬ Hygienic scope := by
  obtain ⟨c, items, hb, hg, hs⟩ := built_run (E := exEnv) (W := exSomeWorld) (fuel := 5) (cfg := {}) (names := [c!"pkg"])
    (f := exUnhygienic [c!"pkg"]) (v := true) (by decide +kernel)
  exact ⟨c, items, hb, hg, exUnhygienic_scope hs⟩

/-- A source that defines the class `pyo3`. -/
def exCrateWorld : World where
  mods := [{ name := some c!"a", dir := [c!"pyo3"], attrs := [(c!"pyo3", { obj := exClsObj c!"a" })] }]
  fromCode _ n := if n = c!"a" then some 0 else none
  importMod _ := none

/-- **C67** fails if an embedded source defines something named `pyo3`: the code that embeds it, unlike that of other functions, refers to the crate by
its bare name. -/
theorem C67_crate_counterexample : ∃ c items, Built exEnv exCrateWorld 5 {} [(c!"a", c!"class pyo3: ...")] c ∧
    c.generate exEnv exCrateWorld 5 = .ok items ∧ ∃ scope, ScopeOf scope (Item.treesList items) ∧ ¬ Hygienic scope := by
  have hrun : ((Codegen.new {}).moduleFromStr exEnv exCrateWorld 5 c!"class pyo3: ..." c!"a" >>= fun c => c.generate exEnv exCrateWorld 5).map
      (exUnhygienic [c!"a"]) = .ok true := by decide +kernel
  cases h : (Codegen.new {}).moduleFromStr exEnv exCrateWorld 5 c!"class pyo3: ..." c!"a" with
  | error e => rw [h] at hrun; cases hrun
  | ok c =>
    rw [h, Res.ok_bind] at hrun
    cases h3 : c.generate exEnv exCrateWorld 5 with
    | error e => rw [h3] at hrun; cases hrun
    | ok items =>
      rw [h3] at hrun
      exact ⟨c, items, .moduleFromStr _ _ .new h, h3, exUnhygienic_scope (Except.ok.inj hrun)⟩

/-- Classes named `py` or `str` are left out, and without an embedded source the name `pyo3` does no harm. -/
example : ∀ n ∈ [c!"py", c!"str", c!"pyo3"],
    ((Codegen.new {}).moduleNames exEnv (exBuiltinWorld n) 5 [c!"pkg"] >>= fun c => c.generate exEnv (exBuiltinWorld n) 5).map
      (exUnhygienic [c!"pkg"]) = .ok false := by decide +kernel

end Bindgen

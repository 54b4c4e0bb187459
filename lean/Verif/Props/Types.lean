import Verif.Lemmas.Refs
import Verif.Props.Imports
import Verif.Props.Order
import Verif.Lemmas.FaithfulCheck
/-!
# References to generated types (C49), the table of local types of a module (C20)
-/
namespace Bindgen
open Spec

theorem relativeTo_last_or {M T : Path} (hne : T.segs ≠ []) {p : Path} (h : Path.relativeTo M T false = .ok p) :
    p.segs.getLast? = T.segs.getLast? ∨ T.segs <+: M.segs := by
  rw [Path.relativeTo] at h
  split at h
  · rename_i he
    exact Or.inr (he ▸ List.prefix_refl _)
  · simp only [Bool.false_and, Bool.false_eq_true, if_false] at h
    cases h
    simp only [Path.relativeSegs]
    by_cases hd : T.segs.drop (Path.commonPrefixLen M.segs T.segs) = []
    · right
      have h2 : T.segs.length ≤ Path.commonPrefixLen M.segs T.segs := by simpa using hd
      have ht := commonPrefixLen_take M.segs T.segs
      rw [List.take_of_length_le h2] at ht
      exact ht ▸ List.take_prefix _ _
    · left
      obtain ⟨n, hn⟩ : ∃ n, T.segs.getLast? = some n := ⟨_, List.getLast?_eq_some_getLast hne⟩
      have hlast : (T.segs.drop (Path.commonPrefixLen M.segs T.segs)).getLast? = T.segs.getLast? := by
        rw [List.getLast?_drop, if_neg]
        simpa using hd
      split
      · rw [List.getLast?_append, hlast, hn]; rfl
      · simp only [if_false, Bool.false_eq_true, hlast]

theorem pyIdent_not_path {E : Env} {t : Str} (h : PyIdent E t) :
    ¬ ((Ident.fromPy E t).rs = c!"self" ∨ (Ident.fromPy E t).rs = c!"super" ∨ (Ident.fromPy E t).rs = c!"Self" ∨
      (Ident.fromPy E t).rs = c!"crate") := by
  by_cases hk : t ∈ rustKeywords
  · rw [fromPy_reserved h.2 hk]
    rintro (h | h | h | h) <;> simp at h
  · rw [fromPy_plain h.2 hk]
    rintro (h | h | h | h) <;> (simp only at h; rw [h] at hk; exact hk (by decide))

theorem pyIdent_toSyn {E : Env} {t s : Str} (h : PyIdent E t) (hs : (Ident.fromPy E t).toSyn E = some s) :
    s = (Ident.fromPy E t).rs := by
  by_cases hu : t ∈ unspellable
  · rw [toSyn_ident h.2, if_pos hu] at hs
    cases hs
  · rw [(C02_legal E t h.2 hu).1] at hs
    exact (Option.some.inj hs).symm

theorem forall₂_rs {E : Env} {l : List Ident} (hl : ∀ i ∈ l, ∃ t, PyIdent E t ∧ i = Ident.fromPy E t) {is : List Str}
    (h : List.Forall₂ (fun (s : Ident) i => s.toSyn E = some i) l is) : is = l.map Ident.rs := by
  induction h with
  | nil => rfl
  | cons h _ ih =>
    obtain ⟨t, ht, rfl⟩ := hl _ (List.mem_cons_self ..)
    rw [pyIdent_toSyn ht h, ih fun i hi => hl i (List.mem_cons_of_mem _ hi)]
    rfl

theorem forall₂_left {α β : Type} {R : α → β → Prop} {l : List α} {l' : List β} (h : List.Forall₂ R l l') {a : α} (ha : a ∈ l) :
    ∃ b, R a b := by
  induction h with
  | nil => cases ha
  | cons h _ ih =>
    rcases List.mem_cons.mp ha with rfl | ha
    · exact ⟨_, h⟩
    · exact ih ha

/-- Items of prepared modules are named after their module. -/
theorem prepared_itemName {E : Env} {W : World} (hF : Faithful E W) {fuel : Nat} {c : Codegen} {out : List Module}
    (h : c.prepare E W fuel = .ok out) (hp : ∀ m ∈ c.modules, Parsed E c.cfg W m) {M : Module} (hM : InTree M out) {x : SItem}
    (hx : Has M x) (hpre : ∀ i, x ≠ .prelude i) :
    ∃ t, PyIdent E t ∧ itemName x = ⟨M.name.leadingColon, M.name.segs ++ [Ident.fromPy E t]⟩ := by
  obtain ⟨m, ⟨f, id, hm⟩, hn, hmx⟩ := prepared_has h hp hM hx
  cases f with
  | zero => exact absurd hm parse_zero
  | succ f =>
    obtain ⟨p⟩ := parse_parts hm
    rcases itemName_mem hmx with ⟨i, rfl⟩ | hmem
    · exact absurd rfl (hpre i)
    · obtain ⟨y, hy, he⟩ := parts_itemNames p _ hmem
      obtain ⟨t, ht, hty⟩ := List.mem_map.mp (mem_candidates hy).1
      exact ⟨t, hF.attrs _ _ p.get t ht, by rw [he, ← hty, ← hn]; rfl⟩

/-- The type is declared in the content of its module. -/
theorem content_declares {E : Env} {cfg : Config} {imp : Str → Bool} {tops : List Module} {ts : List Path} {M : Module}
    {out : List Item} (h : M.content E cfg imp tops ts = .ok out) (hc : cfg.generateClasses = true)
    (ht : cfg.generateTypeVars = true) {p : Path} (hp : (∃ c ∈ M.classes, c.name = p) ∨ ∃ t ∈ M.typeVars, t.name = p)
    {i : Ident} {s : Str} (hi : p.segs.getLast? = some i) (hs : i.toSyn E = some s) : Declares out s := by
  obtain ⟨q⟩ := content_parts h
  rcases hp with ⟨c, hcm, rfl⟩ | ⟨t, htm, rfl⟩
  · left
    have := q.classesOk
    rw [hc] at this
    obtain ⟨o, ho, hg⟩ := traverse_mem' this hcm
    have hci : Class.ident E i = some s := by unfold Class.ident; rw [hs]
    cases o with
    | none =>
      unfold Class.generate at hg
      rw [name_ok hi, Res.ok_bind, hci] at hg
      simp only at hg
      obtain ⟨_, -, hg⟩ := Res.bind_ok hg
      obtain ⟨_, -, hg⟩ := Res.bind_ok hg
      obtain ⟨_, -, hg⟩ := Res.bind_ok hg
      obtain ⟨_, -, hg⟩ := Res.bind_ok hg
      cases hg
    | some k =>
      refine ⟨k, ?_, ?_⟩
      · rw [q.content]
        simp only [List.mem_append, List.mem_map, List.mem_filterMap]
        exact Or.inl (Or.inl (Or.inr ⟨k, ⟨some k, ho, rfl⟩, rfl⟩))
      · obtain ⟨name, ident, -, -, -, h1, h2, -, -, -, -, h3, h4, -⟩ := class_generate hg
        rw [name_ok hi] at h1
        cases h1
        rw [hci] at h2
        cases h2
        exact h3
  · right
    have := q.typeVarsOk
    rw [ht] at this
    obtain ⟨o, ho, hg⟩ := traverse_mem' this htm
    unfold TypeVar.generate at hg
    rw [name_ok hi, Res.ok_bind] at hg
    obtain ⟨s', hs', hg⟩ := Res.bind_ok hg
    cases hg
    unfold Ident.trySyn at hs'
    rw [hs] at hs'
    cases hs'
    rw [q.content]
    simp only [List.mem_append]
    exact Or.inl (Or.inl (Or.inl (Or.inr ho)))

/-- **C49** (partial): in an interpreter that is faithful to its names, with the kinds of items that declare types switched on,
whenever a signature in a generated module refers to a generated type, the path resolves by the rules of Rust to a place in the
output where a type of that name is declared: the module `q` is emitted and declares `n`. The path ends with the name of the
type, except if the type has the same full name as a module in which the signature is.

Missing: with `generate_classes` or `generate_type_vars` off the reference dangles (`C49_classes_off`); when the type and a
module have the same full name the path names the module (`C49_clash`). -/
theorem C49_resolves_partial (E : Env) (W : World) (hF : Faithful E W) (fuel : Nat) (cfg : Config) (srcs : List (Str × Str))
    (c : Codegen) (hb : Built E W fuel cfg srcs c) (hc : cfg.generateClasses = true) (ht : cfg.generateTypeVars = true)
    (hs : cfg.traverseSubmodules = true) (items : List Item) (h : c.generate E W fuel = .ok items)
    (idents : List Str) (content : List Item) (hch : ModChain items idents content) (x : Item) (hx : x ∈ content)
    (s : Sig) (hsx : HasSig s x) (rel : Path) (hrel : SigMentions rel s) :
    ∃ q n content', resolve idents (rel.segs.map Ident.rs) = some (q ++ [n]) ∧ ModChain items q content' ∧
      Declares content' n ∧ (rel.segs.getLast?.map Ident.rs = some n ∨ q ++ [n] <+: idents) := by
  obtain ⟨hcfg, -, hp⟩ := built_ok hb
  subst hcfg
  obtain ⟨out, h1, h2⟩ := generate_prepared h
  obtain ⟨ns, M, c0, mods, hM, hc0, rfl, hmods, -, hf⟩ := chain_node h2 hch
  obtain ⟨rfl, hlc, hne, hid⟩ := prepared_placed hF h1 hp hM
  rw [← prefixes_packages hlc hne] at hf
  have hidents := forall₂_rs hid (forall₂_lasts hf)
  obtain ⟨q⟩ := content_parts hc0
  have hx0 : x ∈ c0 := by
    simp only [List.mem_append] at hx
    rcases hx with (hx | hx) | hx
    · exfalso
      unfold embedItems at hx
      split at hx
      · simp only [List.mem_cons, List.not_mem_nil, or_false] at hx
        subst hx; cases hsx
      · cases hx
    · exact hx
    · obtain ⟨a, d, i, inner, rfl⟩ := hmods x hx
      cases hsx
  obtain ⟨hok, k, hk⟩ := content_mentions (content_from q hx0) hsx hrel
  obtain ⟨p, hpt, hr⟩ := localTypes_get q.ltOk hk
  obtain ⟨M', hM', hp'⟩ := (mem_typesList out).mp (mem_unique.mp hpt)
  have hn : ∃ t, PyIdent E t ∧ p = ⟨M'.name.leadingColon, M'.name.segs ++ [Ident.fromPy E t]⟩ := by
    rcases hp' with ⟨k, hk, rfl⟩ | ⟨k, hk, rfl⟩
    · exact prepared_itemName hF h1 hp hM' (x := .class k) hk (fun _ => by simp)
    · exact prepared_itemName hF h1 hp hM' (x := .typeVar k) hk (fun _ => by simp)
  obtain ⟨t, hti, rfl⟩ := hn
  obtain ⟨ns', hns'⟩ := inTree_nodeAt hM'
  obtain ⟨hpl, hlc', hne', hid'⟩ := prepared_placed hF h1 hp hns'
  obtain ⟨is, c1, hch', ⟨c2, c3, hc2, rfl⟩, hf'⟩ := generated_chain h2 hns' (Or.inl hs)
  rw [hpl, ← prefixes_packages hlc' hne'] at hf'
  have his := forall₂_rs hid' (forall₂_lasts hf')
  rw [hlc'] at hr hp'
  have hplain : Plain ⟨false, M'.name.segs ++ [Ident.fromPy E t]⟩ := by
    intro i hi
    rcases mem_snoc.mp hi with hi | rfl
    · obtain ⟨u, hu, rfl⟩ := hid' i hi
      exact pyIdent_not_path hu
    · exact pyIdent_not_path hti
  obtain ⟨rel', hr', -, hres⟩ := C05_relative_resolves M.name _ false hlc rfl (by simp) hplain
  rw [hr] at hr'
  cases hr'
  have hsyn : ∃ w, (Ident.fromPy E t).toSyn E = some w ∧
      (rel.segs.getLast?.map Ident.rs = some w ∨ M'.name.segs.map Ident.rs ++ [w] <+: idents) := by
    rcases relativeTo_last_or (by simp) hr with hl | hpre
    · rw [List.getLast?_append, List.getLast?_singleton, Option.some_or] at hl
      have := List.all_eq_true.mp (Bool.and_eq_true_iff.mp hok).2 _ (List.mem_of_getLast? hl)
      cases hw : (Ident.fromPy E t).toSyn E with
      | none =>
        exfalso
        unfold Path.synSegOk at this
        rw [hw] at this
        have h3 : (Ident.fromPy E t).rs ∈ [c!"super", c!"self", c!"Self", c!"crate"] := by simpa using this
        simp only [List.mem_cons, List.not_mem_nil, or_false] at h3
        refine pyIdent_not_path hti ?_
        rcases h3 with h | h | h | h <;> simp [h]
      | some w =>
        have := pyIdent_toSyn hti hw
        exact ⟨w, rfl, Or.inl (by rw [hl, this]; rfl)⟩
    · have hmem : Ident.fromPy E t ∈ M.name.segs := hpre.subset (by simp)
      obtain ⟨w, hw⟩ := forall₂_left (forall₂_lasts hf) hmem
      refine ⟨w, hw, Or.inr ?_⟩
      rw [hidents, pyIdent_toSyn hti hw]
      have := hpre.map Ident.rs
      simpa using this
  obtain ⟨w, hw, hlast⟩ := hsyn
  refine ⟨M'.name.segs.map Ident.rs, w, _, ?_, his ▸ hch', ?_, hlast⟩
  · rw [hidents, hres, pyIdent_toSyn hti hw]; simp
  · have := content_declares hc2 hc ht hp' (by simp) hw
    rcases this with ⟨k, hk, hkn⟩ | hk
    · exact Or.inl ⟨k, by simp [hk], hkn⟩
    · exact Or.inr (by simp [hk])

theorem exTwoTypesWorld_faithful : Faithful exEnv exTwoTypesWorld := by
  refine faithful_of_check (by decide +kernel) fun s id h => ?_
  simp only [exTwoTypesWorld] at h
  repeat' split at h
  all_goals first
    | (cases h; subst_vars; exact ⟨_, rfl, rfl⟩)
    | cases h

theorem res_ok_of_isSome {α : Type} {r : Res α} (h : r.toOption.isSome = true) : ∃ a, r = .ok a := by
  cases r with
  | ok a => exact ⟨a, rfl⟩
  | error e => cases h

/-- The hypotheses of `C49_resolves_partial`, with a reference from `pkg.m` to `pkg.a.d.X` (`C57_types_counterexample`). -/
example : Faithful exEnv exTwoTypesWorld ∧ (∃ c items, Built exEnv exTwoTypesWorld 5 {} [] c ∧
    c.generate exEnv exTwoTypesWorld 5 = .ok items) ∧
    exTwoTypes exEnv = .ok [[(c!"p_x", .ref (.boundLocal ⟨false, [⟨c!"super"⟩, ⟨c!"a"⟩, ⟨c!"d"⟩, ⟨c!"X"⟩]⟩))]] := by
  refine ⟨exTwoTypesWorld_faithful, ?_, by decide +kernel⟩
  obtain ⟨c, hc⟩ := res_ok_of_isSome (r := (Codegen.new {}).moduleNames exEnv exTwoTypesWorld 5 [c!"pkg"]) (by decide +kernel)
  have h : ((Codegen.new {}).moduleNames exEnv exTwoTypesWorld 5 [c!"pkg"] >>= fun c =>
    c.generate exEnv exTwoTypesWorld 5).toOption.isSome = true := by decide +kernel
  rw [hc, Res.ok_bind] at h
  obtain ⟨items, hi⟩ := res_ok_of_isSome h
  exact ⟨c, items, .moduleNames _ .new hc, hi⟩

/-- The names of the types declared in the output, at any place. -/
def exDeclared : Nat → List Item → List Str
  | 0, _ => []
  | n + 1, items => items.flatMap fun (x : Item) => match x with
    | .class k => [k.name]
    | .typeAlias t => [t]
    | .mod _ _ _ is => exDeclared n is
    | _ => []

/-- **C49** fails with `generate_classes` off: the signature still refers to the class, but no type is declared anywhere. -/
theorem C49_classes_off :
    (((Codegen.new { generateClasses := false }).moduleNames exEnv exTwoTypesWorld 5 [c!"pkg"] >>= fun c =>
      c.generate exEnv exTwoTypesWorld 5).map fun is =>
        ((exFnsAt [c!"pkg", c!"m"] is).map (fun f => f.sig.params), exDeclared 5 is)) =
      .ok ([[(c!"p_x", .ref (.boundLocal ⟨false, [⟨c!"super"⟩, ⟨c!"a"⟩, ⟨c!"d"⟩, ⟨c!"X"⟩]⟩))]], []) := by decide +kernel

/-- The class `a` of `pkg` has the full name of the module `pkg.a`, in which `def f(x: 'pkg.a')` is. -/
def exClashWorld : World where
  mods := [
    { name := some c!"pkg", isPackage := true, iterModules := some [c!"a"], dir := [c!"a"],
      attrs := [(c!"a", { obj := { exClsObj c!"pkg" with dunderName := some c!"a" } })] },
    { name := some c!"pkg.a", dir := [c!"f"],
      attrs := [(c!"f", { obj := { exFnObj c!"pkg.a" with
        fn := ⟨some c!"None", some ⟨[⟨c!"x", .positionalOrKeyword, some (.str c!"pkg.a"), false⟩], none⟩, none⟩ } })] }]
  importMod s := if s = c!"pkg" then some 0 else if s = c!"pkg.a" then some 1 else none

/-- **C49** fails if a class has the full name of a module: the reference from inside the module is `self`, the module. -/
theorem C49_clash :
    (((Codegen.new {}).moduleNames exEnv exClashWorld 5 [c!"pkg"] >>= fun c => c.generate exEnv exClashWorld 5).map fun is =>
        ((exFnsAt [c!"pkg", c!"a"] is).map (fun f => f.sig.params), exDeclared 5 is)) =
      .ok ([[(c!"p_x", .ref (.boundLocal ⟨false, [⟨c!"self"⟩]⟩))]], [c!"a"]) := by decide +kernel

/-! ## C20: the table of local types of a module -/

theorem localTypes_append {lt lt' : LocalTypes} {q : Path} : LocalTypes.get (lt ++ lt') q = (LocalTypes.get lt' q).or (LocalTypes.get lt q) := by
  unfold LocalTypes.get
  rw [List.reverse_append, List.lookup_append]

theorem lookup_unique {lt : LocalTypes} {q x : Path} (h : (q, x) ∈ lt) (hu : ∀ y, (q, y) ∈ lt → y = x) : lt.get q = some x := by
  cases hl : lt.get q with
  | none =>
    unfold LocalTypes.get at hl
    have := List.lookup_eq_none_iff.mp hl (q, x) (List.mem_reverse.mpr h)
    simp at this
  | some y =>
    have := List.mem_reverse.mp (lookup_mem hl)
    rw [hu y this]

theorem importedPath_head {E : Env} {i : Import} {p q : Path} (h : importedPath E i p = .ok q) :
    ∃ t, i.target.segs.getLast? = some t ∧ q.segs.head? = some t := by
  have hname : ∀ {t}, i.target.name = .ok t → i.target.segs.getLast? = some t := by
    intro t ht
    simp only [Path.name, Path.name?] at ht
    cases hl : i.target.segs.getLast? with
    | none => rw [hl] at ht; cases ht
    | some n => rw [hl] at ht; cases ht; rfl
  unfold importedPath at h
  split at h
  · obtain ⟨_, -, h⟩ := Res.bind_ok h
    split at h
    · cases h
    · obtain ⟨t, ht, h⟩ := Res.bind_ok h
      cases h
      exact ⟨t, hname ht, rfl⟩
  · obtain ⟨t, ht, h⟩ := Res.bind_ok h
    cases h
    exact ⟨t, hname ht, rfl⟩

theorem importedPath_self {E : Env} {i : Import} {q : Path} (h : importedPath E i i.origin = .ok q) :
    ∃ t, i.target.segs.getLast? = some t ∧ q = Path.ofIdent t := by
  have : Str.stripPrefix (i.origin.toPy ++ c!".") i.origin.toPy = none := by
    cases hs : Str.stripPrefix (i.origin.toPy ++ c!".") i.origin.toPy with
    | none => rfl
    | some r =>
      have := Str.stripPrefix_eq_some.mp hs
      have := congrArg List.length this
      simp at this
  obtain ⟨t, ht, -⟩ := importedPath_head h
  unfold importedPath at h
  rw [this] at h
  simp only at h
  rw [name_ok ht, Res.ok_bind] at h
  cases h
  exact ⟨t, ht, rfl⟩

/-- The relative path to a spelled type can be written down. -/
theorem relative_synOk {E : Env} {M p : Path} (hM : M.leadingColon = false) (hsp : Spellable E p) :
    ∃ rel, M.relativeTo p false = .ok rel ∧ rel.synOk E = true ∧
      resolve (M.segs.map Ident.rs) (rel.segs.map Ident.rs) = some (p.segs.map Ident.rs) := by
  obtain ⟨rel, hrel, -, hres⟩ := C05_relative_resolves M p false hM hsp.1 hsp.2.1 hsp.plain
  refine ⟨rel, hrel, ?_, hres⟩
  unfold Path.synOk
  rw [Bool.and_eq_true, List.all_eq_true]
  constructor
  · cases hr : rel.segs with
    | nil => rw [hr] at hres; cases hres
    | cons a l => rfl
  · intro j hj
    rcases relativeTo_mem _ _ _ _ hrel j hj with h | h | h
    · unfold Path.synSegOk; rw [h]; simp
    · unfold Path.synSegOk; rw [h]; simp
    · exact hsp.synOk j h

/-- **C20** (types by their full name): an annotation with the full name of a generated type becomes, in every module `M`, a
path that resolves there to the type — unless an import of the module binds the first segment of the name.
Missing: annotations whose first segment is an imported module. -/
theorem C20_own_partial (E : Env) (ts : List Path) (M : Path) (imports : List Import) (lt : LocalTypes)
    (h : Module.localTypes E ts M imports = .ok lt) (hM : M.leadingColon = false) (p : Path) (hp : p ∈ ts) (hsp : Spellable E p)
    (hk : ∀ i ∈ imports, i.target.segs.getLast? ≠ p.segs.head?) (n rest : Str) (hn : '[' ∉ n) (hnp : Path.fromPy E n = p)
    (hrest : rest = [] ∨ rest.head? = some '[') (hnum : ¬ NumpyArray E (n ++ rest)) :
    ∃ rel, intoRs E lt (.other (n ++ rest)) = .ok (.boundLocal rel, .ref (.boundLocal rel)) ∧
      resolve (M.segs.map Ident.rs) (rel.segs.map Ident.rs) = some (p.segs.map Ident.rs) := by
  obtain ⟨rel, hrel, hok, hres⟩ := relative_synOk hM hsp
  refine ⟨rel, C20_known E lt n rest rel hn (fun _ => noColons_of_colon (path_colon (E := E) ?_)) hrest hnum ?_ hok, hres⟩
  · rw [hnp]
    intro i hi
    obtain ⟨s, h1, -, h2⟩ := hsp.2.2 i hi
    exact ⟨s, h1, h2⟩
  rw [hnp]
  obtain ⟨own, h1, h⟩ := Res.bind_ok h
  obtain ⟨imported, h2, h⟩ := Res.bind_ok h
  cases h
  refine lookup_unique ?_ fun y hy => ?_
  · obtain ⟨o, ho, he⟩ := traverse_mem' h1 hp
    rw [hrel] at he
    cases he
    exact List.mem_append_left _ ho
  · rcases List.mem_append.mp hy with hy | hy
    · obtain ⟨p', -, he⟩ := traverse_mem h1 hy
      obtain ⟨r, hr, he⟩ := Res.bind_ok he
      cases he
      rw [hrel] at hr
      cases hr
      rfl
    · exfalso
      obtain ⟨l, hl, hm⟩ := List.mem_flatten.mp hy
      obtain ⟨i, hi, hil⟩ := traverse_mem h2 hl
      obtain ⟨p', -, hr⟩ := traverse_mem hil hm
      obtain ⟨k, hk', hr⟩ := Res.bind_ok hr
      obtain ⟨r, -, he⟩ := Res.bind_ok hr
      cases he
      obtain ⟨t, ht, hh⟩ := importedPath_head hk'
      exact hk i hi (ht.trans hh.symm)

/-- **C20** (imported types): if a module imports a generated type, then an annotation with the imported name (which may be an
alias) becomes a path that resolves to the type — provided no other import of the module has that name, and no generated type has
a longer name that begins with that of the type. Missing: types reached through an imported module
(`C20_module_alias_counterexample`). -/
theorem C20_imported_partial (E : Env) (ts : List Path) (M : Path) (imports : List Import) (lt : LocalTypes)
    (h : Module.localTypes E ts M imports = .ok lt) (hM : M.leadingColon = false) (i : Import) (hi : i ∈ imports)
    (hp : i.origin ∈ ts) (hsp : Spellable E i.origin) (hlong : ∀ p ∈ ts, i.origin.segs <+: p.segs → p = i.origin)
    (hother : ∀ j ∈ imports, j.target.segs.getLast? = i.target.segs.getLast? → j.origin = i.origin)
    (n rest : Str) (hn : '[' ∉ n) (hnp : ∃ t, Path.fromPy E n = Path.ofIdent t ∧ i.target.segs.getLast? = some t)
    (hcol : E.debug = true → ¬ c!"::" <:+: n) (hrest : rest = [] ∨ rest.head? = some '[') (hnum : ¬ NumpyArray E (n ++ rest)) :
    ∃ rel, intoRs E lt (.other (n ++ rest)) = .ok (.boundLocal rel, .ref (.boundLocal rel)) ∧
      resolve (M.segs.map Ident.rs) (rel.segs.map Ident.rs) = some (i.origin.segs.map Ident.rs) := by
  obtain ⟨rel, hrel, hok, hres⟩ := relative_synOk hM hsp
  refine ⟨rel, C20_known E lt n rest rel hn hcol hrest hnum ?_ hok, hres⟩
  obtain ⟨t, hnt, ht⟩ := hnp
  rw [hnt]
  obtain ⟨own, h1, h⟩ := Res.bind_ok h
  obtain ⟨imported, h2, h⟩ := Res.bind_ok h
  cases h
  rw [localTypes_append]
  have : LocalTypes.get imported.flatten (Path.ofIdent t) = some rel := by
    refine lookup_unique ?_ fun y hy => ?_
    · obtain ⟨l, hl, hil⟩ := traverse_mem' h2 hi
      obtain ⟨o, ho, he⟩ := traverse_mem' hil (List.mem_filter.mpr ⟨hp, by simp [Path.startsWith]⟩)
      obtain ⟨k, hk, he⟩ := Res.bind_ok he
      rw [hrel] at he
      cases he
      obtain ⟨t', ht', rfl⟩ := importedPath_self hk
      rw [ht] at ht'
      cases ht'
      exact List.mem_flatten.mpr ⟨l, hl, ho⟩
    · obtain ⟨l, hl, hm⟩ := List.mem_flatten.mp hy
      obtain ⟨j, hj, hil⟩ := traverse_mem h2 hl
      obtain ⟨p', hp', hr⟩ := traverse_mem hil hm
      obtain ⟨k, hk', hr⟩ := Res.bind_ok hr
      obtain ⟨r, hr, he⟩ := Res.bind_ok hr
      cases he
      obtain ⟨t', ht', hh⟩ := importedPath_head hk'
      cases hh
      have hjo := hother j hj (ht'.trans ht.symm)
      have hpm := List.mem_filter.mp hp'
      have : p' = i.origin := hlong p' hpm.1 (by simpa [Path.startsWith, hjo] using hpm.2)
      rw [this, hrel] at hr
      cases hr
      rfl
  rw [this]
  rfl

/-- `from pkg.sub import C as D` in `pkg`, where `pkg.sub.C` and `pkg.B` are generated types. -/
def exTable : Res LocalTypes :=
  Module.localTypes exEnv [exPath c!"pkg.B", exPath c!"pkg.sub.C"] (exPath c!"pkg") [Import.new (exPath c!"pkg.sub.C") (exPath c!"pkg.D")]

/-- The hypotheses of `C20_own_partial` and `C20_imported_partial`. -/
example : exTable = .ok [(exPath c!"pkg.B", ⟨false, [⟨c!"B"⟩]⟩), (exPath c!"pkg.sub.C", ⟨false, [⟨c!"sub"⟩, ⟨c!"C"⟩]⟩),
      (exPath c!"D", ⟨false, [⟨c!"sub"⟩, ⟨c!"C"⟩]⟩)] ∧
    Spellable exEnv (exPath c!"pkg.sub.C") ∧ Path.fromPy exEnv c!"D" = Path.ofIdent ⟨c!"D"⟩ ∧
    ¬ NumpyArray exEnv c!"D[int]" :=
  ⟨by decide +kernel, exSpellable rfl (by decide) (by decide), by decide, fun h => nomatch h.1⟩

/-- **C20** is false for types of imported modules: after `import pkg.sub as s` (here in `app`) the annotation `s.C` for the generated
type `pkg.sub.C` becomes an arbitrary object, while `s` alone, which names a module, becomes a reference to the class. -/
theorem C20_module_alias_counterexample :
    (Module.localTypes exEnv [exPath c!"pkg.sub.C"] (exPath c!"app") [Import.new (exPath c!"pkg.sub") (exPath c!"app.s")] >>=
      fun lt => intoRs exEnv lt (.other c!"s.C")) = .ok (.bound c!"PyAny", .implIntoPy c!"PyAny") ∧
    (Module.localTypes exEnv [exPath c!"pkg.sub.C"] (exPath c!"app") [Import.new (exPath c!"pkg.sub") (exPath c!"app.s")] >>=
      fun lt => intoRs exEnv lt (.other c!"s")) =
        .ok (.boundLocal ⟨false, [⟨c!"super"⟩, ⟨c!"pkg"⟩, ⟨c!"sub"⟩, ⟨c!"C"⟩]⟩,
          .ref (.boundLocal ⟨false, [⟨c!"super"⟩, ⟨c!"pkg"⟩, ⟨c!"sub"⟩, ⟨c!"C"⟩]⟩)) := by
  constructor <;> decide +kernel

end Bindgen

import Verif.Lemmas.NoPanicGen
import Verif.Props.Classes
import Verif.Props.Parsed
import Verif.Props.Output
import Verif.Props.WorldScopes
/-!
# The engine does not panic (C51)
-/
namespace Bindgen
open Spec

theorem submodule_origin {o t : Path} (h : (Import.new o t).typ = .submoduleReexport) : o.segs ≠ [] := by
  intro ho
  obtain ⟨lc, segs⟩ := t
  cases segs with
  | nil => exact absurd h (by simp [Import.new, ImportType.fromPaths, Path.root])
  | cons s l => exact absurd h (by simp [Import.new, ImportType.fromPaths, Path.root, Path.startsWith, ho])

theorem parse_method {E : Env} {pf : PyFn} {n c : Path} {k : MethodType} {f : Function}
    (h : Function.parse E pf n (.method c k) = .ok f) : f.name = n ∧ ∃ c' k', f.typ = .method c' k' ∧ (c' = c ∨ c' = n) := by
  cases hs : pf.sig with
  | none =>
    obtain ⟨h1, h2, -⟩ := parse_nosig hs h
    exact ⟨h1, c, k, h2, Or.inl rfl⟩
  | some s =>
    obtain ⟨ps, t2, ps2, -, h2, h3, h4, -⟩ := parse_sig hs h
    refine ⟨h3, ?_⟩
    have hi : ∃ k', inferMethod (.method c k) pf.dictKind = .method c k' := by
      unfold inferMethod
      split
      · rename_i h; cases h
        split <;> exact ⟨_, rfl⟩
      · exact ⟨_, rfl⟩
    obtain ⟨k', hk'⟩ := hi
    rw [hk'] at h2
    have ht : ∃ k'', t2 = .method c k'' := by
      have := congrArg Prod.fst h2
      simp only at this
      rw [← this]
      cases k' <;> simp only [selfCheck] <;> first | exact ⟨_, rfl⟩ | (split <;> exact ⟨_, rfl⟩)
    obtain ⟨k'', rfl⟩ := ht
    rw [h4]
    unfold noParamHack
    split
    · rename_i h; cases h
      split
      · exact ⟨_, _, rfl, Or.inr rfl⟩
      · exact ⟨_, _, rfl, Or.inl rfl⟩
    · exact ⟨_, _, rfl, Or.inl rfl⟩

theorem plain_args (E : Env) : PlainTy E argsParam.ann := fun n hn => by simp [argsParam, tyNames, tyNamesList] at hn

theorem plain_kwargs (E : Env) : PlainTy E kwargsParam.ann := fun n hn => by simp [kwargsParam, tyNames] at hn

theorem plain_unknown (E : Env) : PlainTy E .unknown := fun n hn => by simp [tyNames] at hn

theorem plain_selfCheck {E : Env} (t : FnType) {ps : List Param} (h : ∀ p ∈ ps, PlainTy E p.ann) :
    ∀ p ∈ (selfCheck t ps).2, PlainTy E p.ann := by
  have hs : ∀ (t : FnType), ∀ p ∈ (match ps with
      | p :: rest =>
        if p.name.rs = c!"r#self" then
          if p.kind = .positionalOnly || p.kind = .positionalOrKeyword then
            (t, { p with name := Ident.fromRs c!"__unknown_self__", ann := .unknown } :: rest)
          else (t, [argsParam, kwargsParam])
        else (t, ps)
      | [] => (t, ps) : FnType × List Param).2, PlainTy E p.ann := by
    intro t
    cases ps with
    | nil => exact h
    | cons q rest =>
      simp only
      split
      · split
        · intro p hp
          rcases List.mem_cons.mp hp with rfl | hp
          · exact plain_unknown E
          · exact h p (by simp [hp])
        · simp [plain_args, plain_kwargs]
      · exact h
  match t with
  | .method c .instanceMethod => exact h
  | .method c .constructor => exact h
  | .method c .callable => exact h
  | .method c .classMethod => simp only [selfCheck]; split <;> exact h
  | .method c .staticMethod => simp only [selfCheck]; split <;> exact h
  | .method c .unknown => simp only [selfCheck]; split <;> exact h
  | .function => exact hs .function
  | .closure => exact hs .closure

/-- The types in a parsed signature are without `::`. -/
theorem function_plain {E : Env} {pf : PyFn} {n : Path} {t : FnType} {f : Function} (hs : ∀ s, pf.sig = some s → TameSig E s)
    (h : Function.parse E pf n t = .ok f) : FnPlain E f := by
  cases hsig : pf.sig with
  | none =>
    unfold Function.parse at h
    obtain ⟨_, -, h⟩ := Res.bind_ok h
    rw [hsig] at h
    cases h
    exact ⟨by simp [plain_args, plain_kwargs], plain_unknown E⟩
  | some s =>
    obtain ⟨ps, t2, ps2, h1, h2, -, -, h5, -, ps3, h6, h7⟩ := parse_sig hsig h
    refine ⟨?_, plain_readAnn (hs s hsig).ret h5⟩
    have hps : ∀ p ∈ ps, PlainTy E p.ann := by
      intro p hp
      obtain ⟨q, hq, hpq⟩ := traverse_mem h1 hp
      unfold parseParam at hpq
      obtain ⟨_, -, hpq⟩ := Res.bind_ok hpq
      dsimp only at hpq
      split at hpq
      · obtain ⟨t, ht, hpq⟩ := Res.bind_ok hpq
        cases hpq
        cases ht
        exact plain_args E
      · obtain ⟨t, ht, hpq⟩ := Res.bind_ok hpq
        cases hpq
        cases ht
        exact plain_kwargs E
      · obtain ⟨t, ht, hpq⟩ := Res.bind_ok hpq
        cases hpq
        exact plain_readAnn ((hs s hsig).params q hq) ht
    have hps2 : ∀ p ∈ ps2, PlainTy E p.ann := by
      have := plain_selfCheck (inferMethod t pf.dictKind) (ps := ps.filter (fun p => p.name.rs ≠ c!"r#_"))
        fun p hp => hps p (List.mem_of_mem_filter hp)
      rwa [h2] at this
    have hps3 : ∀ p ∈ ps3, PlainTy E p.ann := by
      intro p hp
      refine hps2 p ?_
      unfold dropReceiver at h6
      split at h6
      iterate 3
        split at h6
        · cases h6
        · cases h6; exact List.mem_cons_of_mem _ hp
      cases h6; exact hp
    rw [h7]
    unfold replaceSelf
    split
    · simp [plain_args, plain_kwargs]
    · exact hps3

/-- The type of a parsed property is without `::`. -/
theorem property_plain {E : Env} {o : PyObj} {n : Path} {w : Owner} {p : Property} (ho : TameObj E o)
    (h : Property.parse E o n w = .ok p) : PlainTy E p.ann := by
  unfold Property.parse at h
  split at h
  · obtain ⟨t, ht, h⟩ := Res.bind_ok h
    cases h
    exact plain_ownType ho.own ht
  · obtain ⟨⟨t, d⟩, ht, h⟩ := Res.bind_ok h
    obtain ⟨⟨_, _, _, _⟩, -, h⟩ := Res.bind_ok h
    cases h
    unfold parseGetter at ht
    split at ht
    · rename_i g hg
      dsimp only at ht
      split at ht
      · rename_i r hr
        obtain ⟨u, hu, ht⟩ := Res.bind_ok ht
        obtain ⟨_, -, ht⟩ := Res.bind_ok ht
        cases ht
        exact plain_readAnn (fun x hx => ho.getter g x hg (hx ▸ hr)) hu
      · obtain ⟨u, hu, ht⟩ := Res.bind_ok ht
        obtain ⟨_, -, ht⟩ := Res.bind_ok ht
        cases ht
        exact plain_ownType ho.own hu
    · obtain ⟨u, hu, ht⟩ := Res.bind_ok ht
      cases ht
      exact plain_ownType ho.own hu

theorem class_members {E : Env} {cfg : Config} {pc : PyClass} {n : Path} {c : Class} (hn : n.segs ≠ [])
    (ht : TameClass E pc) (h : Class.parse E cfg pc n = .ok c) :
    (∀ f ∈ c.methods, FnOk f ∧ FnPlain E f) ∧ ∀ p ∈ c.properties, 1 < p.name.segs.length ∧ PlainTy E p.ann := by
  obtain ⟨-, h2, h3, -⟩ := class_parse_exact h
  constructor
  · intro f hf
    obtain ⟨x, hxc, -, hx⟩ := (h2 f).mp hf
    refine ⟨?_, function_plain (ht.objs _ _ (mem_candidates_iff.mp hxc).2.1).sig hx⟩
    obtain ⟨h4, c', k', h5, h6⟩ := parse_method hx
    unfold FnOk
    rw [h5]
    have : (n.join (Path.ofIdent x.1)).segs ≠ [] := by simp [Path.join, Path.ofIdent]
    refine ⟨h4 ▸ this, ?_⟩
    rcases h6 with rfl | rfl
    · exact hn
    · exact this
  · intro p hp
    obtain ⟨x, hxc, -, hx⟩ := (h3 p).mp hp
    refine ⟨?_, property_plain (ht.objs _ _ (mem_candidates_iff.mp hxc).2.1) hx⟩
    rw [(property_parse_name hx).1]
    have := List.length_pos_iff.mpr hn
    simp [Path.join, Path.ofIdent]
    omega

/-- What does not depend on the names under which submodules are merged. -/
def ItemOk (E : Env) : SItem → Prop
  | .import i => i.typ = .submoduleReexport → i.origin.segs ≠ []
  | .class c => (∀ f ∈ c.methods, FnOk f ∧ FnPlain E f) ∧ ∀ p ∈ c.properties, 1 < p.name.segs.length ∧ PlainTy E p.ann
  | .function f => Free f ∧ FnPlain E f
  | .property p => p.owner = .module ∧ PlainTy E p.ann
  | _ => True

theorem parsed_itemOk {E : Env} {cfg : Config} {W : World} {fuel : Nat} (hT : Tame E cfg W fuel) {m : Module}
    (hm : Parsed E cfg W m) {x : SItem} (hx : Has m x) : ItemOk E x := by
  obtain ⟨_, _, hm⟩ := hm
  refine parse_all (Q := ItemOk E) ?_ (fun _ => trivial) ?_ hm x hx
  · intro x t hx
    cases x <;> exact hx
  · intro id pm name i a x hg hc hn
    obtain ⟨-, hc2, -⟩ := mem_candidates hc
    obtain ⟨ho, hcl⟩ := hT.objs _ _ _ _ hg hc2
    cases hn with
    | import' o ho h1 h2 hv => exact submodule_origin
    | class' c hc => exact class_members (by simp [Path.join, Path.ofIdent]) hcl hc
    | typeVar => trivial
    | function t f ht hf => exact ⟨parse_free ht hf, function_plain ho.sig hf⟩
    | property p hp => exact ⟨(property_parse_name hp).2, property_plain ho hp⟩

theorem parsed_path {E : Env} {cfg : Config} {W : World} {fuel : Nat} (hF : Faithful E W) (hT : Tame E cfg W fuel) {m : Module}
    (hm : Parsed E cfg W m) : TypePath E m.name := by
  obtain ⟨f, id, hm⟩ := hm
  cases f with
  | zero => exact absurd hm parse_zero
  | succ f =>
    obtain ⟨p⟩ := parse_parts hm
    obtain ⟨segs, h1, h2, h3, h4⟩ := faithful_name hF p.get p.pmName
    have hn : m.name = ⟨false, segs.map (Ident.fromPy E)⟩ := p.name.trans h4
    rw [hn]
    refine ⟨by simpa using h1, fun i hi => ?_, rfl⟩
    obtain ⟨t, ht, rfl⟩ := List.mem_map.mp hi
    refine ⟨t, h2 t ht, hT.moduleNames id p.nm ⟨p.pm, p.get, p.pmName⟩ t ?_, rfl⟩
    rw [h3, Str.splitChar_join h1 fun s hs => (h2 s hs).1.2.1]
    exact ht

theorem parsed_item {E : Env} {cfg : Config} {W : World} {fuel : Nat} (hF : Faithful E W) (hT : Tame E cfg W fuel) {m : Module}
    (hm : Parsed E cfg W m) {x : SItem} (hx : Has m x) :
    (∃ i, x = .prelude i) ∨ TypePath E (itemName x) ∧ 1 < (itemName x).segs.length := by
  rcases itemName_mem hx with h | h
  · exact Or.inl h
  · right
    have hp := parsed_path hF hT hm
    obtain ⟨f, id, hm⟩ := hm
    cases f with
    | zero => exact absurd hm parse_zero
    | succ f =>
      obtain ⟨p⟩ := parse_parts hm
      obtain ⟨y, hy, h⟩ := parts_itemNames p _ h
      obtain ⟨c1, c2, c3⟩ := mem_candidates hy
      obtain ⟨s, hs, c1⟩ := List.mem_map.mp c1
      have hps := hF.attrs _ _ p.get s hs
      rw [← c1, asPy_ident hps.2] at c2
      rw [← c1] at c3
      have := hT.attrNames _ _ _ _ p.get hs c2 c3
      rw [h]
      refine ⟨⟨by simp [Path.join, Path.ofIdent], fun i hi => ?_, by simpa [Path.join] using hp.2.2⟩, ?_⟩
      · rcases List.mem_append.mp hi with hi | hi
        · exact hp.2.1 i hi
        · simp only [Path.ofIdent, List.mem_singleton] at hi
          exact ⟨s, hps, this, by rw [hi, c1]⟩
      · have := List.length_pos_iff.mpr hp.1
        simp [Path.join, Path.ofIdent]
        omega

theorem prepared_ok {E : Env} {W : World} {fuel : Nat} {c : Codegen} {out : List Module} (hF : Faithful E W)
    (hT : Tame E c.cfg W fuel) (hp : ∀ m ∈ c.modules, Parsed E c.cfg W m) (h : c.prepare E W fuel = .ok out) {M : Module}
    (hM : InTree M out) : ModuleOk E M := by
  have hi : ∀ x, Has M x → ItemOk E x ∧ ((∃ i, x = .prelude i) ∨ TypePath E (itemName x) ∧ 1 < (itemName x).segs.length) := by
    intro x hx
    obtain ⟨m, h1, -, h3⟩ := prepared_has h hp hM hx
    exact ⟨parsed_itemOk hT h1 h3, parsed_item hF hT h1 h3⟩
  have hnm : ∀ {M}, InTree M out → M.name.leadingColon = false ∧ M.name.segs ≠ [] := by
    intro M hM
    obtain ⟨ns, hns⟩ := inTree_nodeAt hM
    obtain ⟨-, h1, h2, -⟩ := prepared_named hF h hp hns
    exact ⟨h1, h2⟩
  refine ⟨(hnm hM).2, (hnm hM).1, fun i h => ?_, fun i h => ?_, fun i h => ?_, fun i h => ?_, fun i h => ?_,
    fun s hs => (hnm (inTree_sub hM s hs)).2⟩
  · obtain ⟨h1, ⟨_, h2⟩ | h2⟩ := hi (.import i) h
    · cases h2
    · exact ⟨h2.1.1, h1⟩
  · obtain ⟨h1, ⟨_, h2⟩ | h2⟩ := hi (.class i) h
    · cases h2
    · exact ⟨h2.1.1, h1.1, h1.2⟩
  · obtain ⟨h1, ⟨_, h2⟩ | h2⟩ := hi (.typeVar i) h
    · cases h2
    · exact h2.1.1
  · obtain ⟨h1, ⟨_, h2⟩ | h2⟩ := hi (.function i) h
    · cases h2
    · refine ⟨?_, h1⟩
      unfold FnOk
      rcases h1.1 with h1 | h1 <;> rw [h1] <;> exact h2.2
  · obtain ⟨h1, ⟨_, h2⟩ | h2⟩ := hi (.property i) h
    · cases h2
    · exact ⟨h2.2, h1⟩

theorem prepared_types {E : Env} {W : World} {fuel : Nat} {c : Codegen} {out : List Module} (hF : Faithful E W)
    (hT : Tame E c.cfg W fuel) (hp : ∀ m ∈ c.modules, Parsed E c.cfg W m) (h : c.prepare E W fuel = .ok out) :
    ∀ p ∈ getAllTypes out, TypePath E p := by
  intro p hpt
  obtain ⟨M, hM, ⟨x, hx, rfl⟩ | ⟨x, hx, rfl⟩⟩ := (mem_typesList out).mp (mem_unique.mp hpt)
  · obtain ⟨m, h1, -, h3⟩ := prepared_has h hp hM (x := .class x) hx
    rcases parsed_item hF hT h1 h3 with ⟨_, h⟩ | h
    · cases h
    · exact h.1
  · obtain ⟨m, h1, -, h3⟩ := prepared_has h hp hM (x := .typeVar x) hx
    rcases parsed_item hF hT h1 h3 with ⟨_, h⟩ | h
    · cases h
    · exact h.1

theorem safe_codegen {E : Env} {W : World} {fuel : Nat} {c : Codegen} (hF : Faithful E W)
    (hT : Tame E c.cfg W fuel) (hp : ∀ m ∈ c.modules, Parsed E c.cfg W m) : Safe (c.generate E W fuel) := by
  unfold Codegen.generate
  split
  · exact safe_orErr (o := none)
  · exact Only.bind (safe_prepare hF hT hp) fun out h =>
      safe_generateList _ _ _ (prepared_types hF hT hp h) _ fun _ hM => prepared_ok hF hT hp h hM

theorem orErr_ok {α : Type} {e : PyBindgenError} {o : Option α} {a : α} (h : Res.orErr e o = .ok a) : o = some a := by
  cases o with
  | none => cases h
  | some b => cases h; rfl

/-- **C51** On a faithful and tame interpreter neither adding modules nor generating the bindings panics. Missing for the full
claim: the interpreters that are not tame, some of which make the engine panic (see the counterexamples). -/
theorem C51_no_panic_partial (E : Env) (W : World) (fuel : Nat) (cfg : Config) (hF : Faithful E W) (hT : Tame E cfg W fuel)
    (srcs : List (Str × Str)) (c : Codegen) (hc : Built E W fuel cfg srcs c) :
    (∀ id, W.get? id ≠ none → ¬ Res.Panics (c.module E W fuel id)) ∧
    (∀ name, ¬ Res.Panics (c.moduleName E W fuel name)) ∧
    (∀ names, ¬ Res.Panics (c.moduleNames E W fuel names)) ∧
    (∀ source name, (∀ id, W.fromCode source name = some id → W.get? id ≠ none) →
      ¬ Res.Panics (c.moduleFromStr E W fuel source name)) ∧
    ¬ Res.Panics (c.generate E W fuel) := by
  have b := built_ok hc
  have hm : ∀ (c : Codegen) id, c.cfg = cfg → W.get? id ≠ none → Safe (c.module E W fuel id) := fun c id hc hid =>
    Only.bind (safe_parse hF (hc ▸ hT) hid) fun _ _ => Only.pure _
  have hn : ∀ (c : Codegen) name, c.cfg = cfg → Safe (c.moduleName E W fuel name) := fun c name hc =>
    Only.bind safe_orErr fun id hid => hm c id hc (by
      obtain ⟨m, hg, -⟩ := hF.imported name id (orErr_ok hid)
      rw [hg]; exact nofun)
  refine ⟨fun id hid => (hm c id b.config hid).not_panics, fun name => (hn c name b.config).not_panics, fun names => ?_,
    fun source name hs => Safe.not_panics (Only.bind safe_orErr fun id hid => hm _ id b.config (hs id (orErr_ok hid))), ?_⟩
  · refine (Safe.foldRes_inv (P := fun c : Codegen => c.cfg = cfg) b.config (fun c hc n _ => hn c n hc) ?_).not_panics
    intro c hc n _ c' h
    obtain ⟨id, -, h⟩ := Res.bind_ok h
    obtain ⟨m, -, h⟩ := Res.bind_ok h
    cases h
    exact hc
  · exact (safe_codegen hF (b.config ▸ hT) (b.config ▸ b.parsed)).not_panics

/-! ## An interpreter that meets the hypotheses -/

def colonsCheck (E : Env) (s : Str) : Bool := !E.debug || !Str.containsSub c!"::" s

theorem noColons_of_check {E : Env} {s : Str} (h : colonsCheck E s = true) : NoColons E s := by
  intro hd hc
  simp [colonsCheck, hd, (containsSub_iff _ _).mpr hc] at h

def readableCheck (E : Env) (a : PyAnn) : Bool := (match fromAnn E a with
  | .ok _ => true
  | .error _ => false) && (annTexts a).all (colonsCheck E)

theorem readable_of_check {E : Env} {a : PyAnn} (h : readableCheck E a = true) : Readable E a := by
  unfold readableCheck at h
  rw [Bool.and_eq_true, List.all_eq_true] at h
  refine ⟨?_, fun s hs => noColons_of_check (h.2 s hs)⟩
  have h := h.1
  split at h
  · rename_i t ht
    exact ⟨t, ht⟩
  · cases h

def annCheck (E : Env) (a : Option PyAnn) : Bool := match a with
  | none => true
  | some a => readableCheck E a

theorem ann_of_check {E : Env} {o : Option PyAnn} (h : annCheck E o = true) : ∀ a, o = some a → Readable E a := by
  rintro a rfl
  exact readable_of_check h

def sigCheck (E : Env) (s : PySig) : Bool := s.params.all (fun p => annCheck E p.ann) && annCheck E s.ret &&
  (!E.debug || s.params.all fun p => !p.name.isEmpty)

def objCheck (E : Env) (o : PyObj) : Bool :=
  (match o.fn.sig with | none => true | some s => sigCheck E s) && readableCheck E (.cls o.typeBases o.typeRepr) &&
  (match o.fget with | none => true | some g => match g.ret with | none => true | some a => annCheck E a) &&
  (match o.fset with
    | none => true
    | some f => match f.params with
      | none => true
      | some (_ :: v :: _) => annCheck E v
      | some _ => false) &&
  (!E.debug || !o.typeName.isEmpty) && colonsCheck E o.typeModule && colonsCheck E o.modPath &&
  (match o.dunderName with | none => true | some n => colonsCheck E n)

theorem obj_of_check {E : Env} {o : PyObj} (h : objCheck E o = true) : TameObj E o := by
  simp only [objCheck, Bool.and_eq_true] at h
  obtain ⟨⟨⟨⟨⟨⟨⟨h1, h2⟩, h3⟩, h4⟩, h5⟩, h6⟩, h7⟩, h8⟩ := h
  refine ⟨fun s hs => ?_, readable_of_check h2, fun g a hg ha => ?_, fun f ps hf hps => ?_, fun hd he => ?_,
    noColons_of_check h6, noColons_of_check h7, fun n hn => ?_⟩
  · rw [hs] at h1
    simp only [sigCheck, Bool.and_eq_true, List.all_eq_true] at h1
    refine ⟨fun p hp => ann_of_check (h1.1.1 p hp), ann_of_check h1.1.2, fun hd p hp he => ?_⟩
    have := h1.2
    simp only [hd, Bool.not_true, Bool.false_or, List.all_eq_true] at this
    have := this p hp
    simp [he] at this
  · rw [hg] at h3
    simp only [ha] at h3
    exact ann_of_check h3 a rfl
  · rw [hf] at h4
    simp only [hps] at h4
    split at h4
    · rename_i he; cases he
    · rename_i r v rest he
      cases he
      exact ⟨r, v, rest, rfl, ann_of_check h4⟩
    · cases h4
  · simp [hd, he] at h5
  · rw [hn] at h8
    exact noColons_of_check h8

def classCheck (E : Env) (pc : PyClass) : Bool := !pc.dirRaises && (!E.debug || !pc.dir.contains []) && pc.attrs.all fun x => objCheck E x.2 &&
  (!(x.1 == c!"__init__" || x.1 == c!"__call__") || match x.2.fn.sig with
    | none => true
    | some sg => sg.params.any fun p => p.name != c!"_" && p.name != c!"r#_")

theorem class_of_check {E : Env} {pc : PyClass} (h : classCheck E pc = true) : TameClass E pc := by
  unfold classCheck at h
  rw [Bool.and_eq_true, Bool.and_eq_true] at h
  obtain ⟨⟨g1, g2⟩, h⟩ := h
  have h := List.all_eq_true.mp h
  refine ⟨⟨by simpa using g1, fun hd hm => by simp [hd, hm] at g2⟩, fun s o ho => ?_, fun s o sg ho hs hsg => ?_⟩
  · have := h _ (lookup_mem ho)
    rw [Bool.and_eq_true] at this
    exact obj_of_check this.1
  · have := h _ (lookup_mem ho)
    rw [Bool.and_eq_true, hsg] at this
    have := this.2
    simp only at this
    rcases hs with rfl | rfl <;> simpa using this

def worldCheck (E : Env) (cfg : Config) (W : World) (fuel : Nat) : Bool := W.mods.all fun m =>
  (match m.name with
    | none => false
    | some n => (Str.splitChar '.' n).all (fun s => !unspellable.contains s) && decide ((Str.splitChar '.' n).length ≤ fuel) &&
      (List.range n.length).all fun k => (n.drop k).head? != some '.' || match W.importMod (n.take k) with
        | none => false
        | some id' => match W.get? id' with
          | none => false
          | some m' => m'.doc.isSome) &&
  (!m.dirRaises && colonsCheck E m.modPath && (!E.debug || !(m.all.getD []).contains [])) &&
  m.attrs.all (fun x => objCheck E x.2.obj && classCheck E x.2.cls &&
    (match x.2.mod with | none => true | some id' => (W.get? id').isSome) &&
    (!m.dir.contains x.1 || !cfg.isAttrAllowed (Ident.fromPy E x.1) (Path.fromPy E x.2.obj.modPath) || !unspellable.contains x.1) &&
    (!cfg.generateDependencies || !m.dir.contains x.1 ||
      !(x.2.obj.isModule || x.2.obj.isClass || x.2.obj.isFunction == some true || x.2.obj.isMethod == some true) ||
      (W.importMod (originRoot x.1 x.2.obj)).isSome))

theorem tame_of_check {E : Env} {cfg : Config} {W : World} {fuel : Nat} (h : worldCheck E cfg W fuel = true) : Tame E cfg W fuel := by
  have hm : ∀ {id m}, W.get? id = some m → _ := fun hg => List.all_eq_true.mp h _ (List.mem_of_getElem? hg)
  simp only [Bool.and_eq_true] at hm
  have hn : ∀ id n, Called W id n → (∀ s ∈ Str.splitChar '.' n, s ∉ unspellable) ∧ (Str.splitChar '.' n).length ≤ fuel ∧
      ∀ p, (p ++ c!".") <+: n → ∃ id' m, W.importMod p = some id' ∧ W.get? id' = some m ∧ m.doc ≠ none := by
    rintro id n ⟨m, hg, hn⟩
    have := (hm hg).1.1
    rw [hn] at this
    simp only [Bool.and_eq_true, decide_eq_true_eq, List.all_eq_true] at this
    obtain ⟨⟨h1, h2⟩, h3⟩ := this
    refine ⟨fun s hs => by simpa using h1 s hs, h2, ?_⟩
    rintro p ⟨r, rfl⟩
    have := h3 p.length (by simp)
    simp only [List.append_assoc, List.drop_left, List.take_left] at this
    simp at this
    split at this
    · cases this
    · rename_i id' hi
      split at this
      · cases this
      · rename_i m' hm'
        exact ⟨id', m', hi, hm', by rintro h; rw [h] at this; cases this⟩
  have ha : ∀ {id m s a}, W.get? id = some m → m.getattr s = some a → _ := fun hg hs =>
    List.all_eq_true.mp (hm hg).2 _ (lookup_mem hs)
  simp only [Bool.and_eq_true] at ha
  refine ⟨fun id m hg hn => ?_, fun id m hg => ⟨by simpa using (hm hg).1.2.1.1, noColons_of_check (hm hg).1.2.1.2,
      fun hd l hl hme => by have := (hm hg).1.2.2; simp [hd, hl, hme] at this⟩, fun id m s a id' hg hs hid => ?_, fun id n p hc => (hn id n hc).2.2 p,
    fun id m s a hg hs => ⟨obj_of_check (ha hg hs).1.1.1.1, class_of_check (ha hg hs).1.1.1.2⟩, fun id n hc => (hn id n hc).1,
    fun id m s a hg hd hs hal => ?_, fun hdeps id m s a hg hd hs hk => ?_, fun id n hc => (hn id n hc).2.1⟩
  · have := (hm hg).1.1
    rw [hn] at this
    cases this
  · have := (ha hg hs).1.1.2
    rw [hid] at this
    simp only at this
    intro he
    rw [he] at this
    cases this
  · have := (ha hg hs).1.2
    simp only [hal] at this
    simpa [hd] using this
  · have := (ha hg hs).2
    intro he
    rw [he] at this
    rcases hk with hk | hk | hk | hk <;> simp [hdeps, hd, hk] at this

theorem exWorld_faithful : Faithful exEnv exWorld := by
  refine faithful_of_check (by decide +kernel) fun s id h => ?_
  simp only [exWorld] at h
  repeat' split at h
  all_goals first
    | (cases h; subst_vars; exact ⟨_, rfl, rfl⟩)
    | cases h

/-- Bindings of a module: the number of items, or why there are none. -/
def exOutcome (cfg : Config) (E : Env) (W : World) (fuel : Nat) (name : Str) : Res Nat :=
  ((Codegen.new cfg).moduleName E W fuel name >>= fun c => c.generate E W fuel).map List.length

/-- The hypotheses of `C51_no_panic_partial`; this interpreter has a package with a submodule, a class, a function that is
imported from elsewhere and a module that is generated because of it. -/
example : Faithful exEnv exWorld ∧ Tame exEnv { generateDependencies := true } exWorld 3 ∧
    exOutcome { generateDependencies := true } exEnv exWorld 3 c!"pkg" = .ok 2 :=
  ⟨exWorld_faithful, tame_of_check (by decide +kernel), by decide +kernel⟩

/-! ## Panics -/

/-- An interpreter whose only module is `pkg`. -/
def exOneWorld (attrs : List (Str × PyAttr)) : World where
  mods := [{ name := some c!"pkg", dir := attrs.map Prod.fst, attrs := attrs }]
  importMod s := if s = c!"pkg" then some 0 else none

theorem exOneWorld_faithful {attrs : List (Str × PyAttr)} (h : (exOneWorld attrs).mods.all (moduleCheck exEnv (exOneWorld attrs)) = true) :
    Faithful exEnv (exOneWorld attrs) := by
  refine faithful_of_check h fun s id h => ?_
  simp only [exOneWorld] at h
  split at h
  · cases h; subst_vars; exact ⟨_, rfl, rfl⟩
  · cases h

/-- `class K: def __init__(ps): ...` -/
def exInitClass (ps : List PyParam) : PyAttr where
  obj := exClsObj c!"pkg"
  cls := { dir := [c!"__init__"], attrs := [(c!"__init__",
    { typeName := c!"function", typeModule := c!"builtins", isFunction := some true, fn := ⟨some c!"None", some ⟨ps, none⟩, some .other⟩ })] }

/-- **C51** fails for a class whose constructor has no parameters, or only one that is called `_`: there is no receiver to take
away from the parameters. -/
theorem C51_constructor_counterexample : ∀ ps ∈ [[], [(⟨c!"_", .positionalOrKeyword, none, false⟩ : PyParam)]],
    Faithful exEnv (exOneWorld [(c!"K", exInitClass ps)]) ∧
    exOutcome {} exEnv (exOneWorld [(c!"K", exInitClass ps)]) 3 c!"pkg" = .error (.panic .index) := by
  intro ps hps
  simp only [List.mem_cons, List.not_mem_nil, or_false] at hps
  rcases hps with rfl | rfl
  · exact ⟨exOneWorld_faithful (by decide +kernel), by decide +kernel⟩
  · exact ⟨exOneWorld_faithful (by decide +kernel), by decide +kernel⟩

/-- `class K: x = property(lambda self: 0, lambda *args: None)` -/
def exSetterClass : PyAttr where
  obj := exClsObj c!"pkg"
  cls := { dir := [c!"x"], attrs := [(c!"x",
    { typeName := c!"property", typeModule := c!"builtins", fget := some ⟨some none, some c!"None"⟩,
      fset := some ⟨some [none], some c!"None"⟩ })] }

/-- **C51** fails for a property whose setter has a single parameter, such as `*args`: the annotation of the second is read. -/
theorem C51_setter_counterexample : Faithful exEnv (exOneWorld [(c!"K", exSetterClass)]) ∧
    exOutcome {} exEnv (exOneWorld [(c!"K", exSetterClass)]) 3 c!"pkg" = .error (.panic .unwrap) :=
  ⟨exOneWorld_faithful (by decide +kernel), by decide +kernel⟩

/-- `def f(x: "s")` of the module `mod` -/
def exAnnFn (mod s : Str) : PyAttr where
  obj := { exFnObj mod with fn := ⟨some c!"None", some ⟨[⟨c!"x", .positionalOrKeyword, some (.str s), false⟩], none⟩, none⟩ }

/-- **C51** fails for a function with the annotation `dict[int]`. -/
theorem C51_annotation_counterexample : Faithful exEnv (exOneWorld [(c!"f", exAnnFn c!"pkg" c!"dict[int]")]) ∧
    exOutcome {} exEnv (exOneWorld [(c!"f", exAnnFn c!"pkg" c!"dict[int]")]) 3 c!"pkg" = .error (.panic .index) :=
  ⟨exOneWorld_faithful (by decide +kernel), by decide +kernel⟩

/-- **C51** fails for a function with a parameter of a class called `Self`: the path of the class is not one of Rust. -/
theorem C51_spelling_counterexample :
    Faithful exEnv (exOneWorld [(c!"Self", { obj := exClsObj c!"pkg" }), (c!"f", exAnnFn c!"pkg" c!"pkg.Self")]) ∧
    exOutcome {} exEnv (exOneWorld [(c!"Self", { obj := exClsObj c!"pkg" }), (c!"f", exAnnFn c!"pkg" c!"pkg.Self")]) 3 c!"pkg" =
      .error (.panic .unwrap) :=
  ⟨exOneWorld_faithful (by decide +kernel), by decide +kernel⟩

/-- **C51** fails, if dependencies are generated, for a function whose `__module__` cannot be imported. -/
theorem C51_origin_counterexample : Faithful exEnv (exOneWorld [(c!"f", { obj := exFnObj c!"gone" })]) ∧
    exOutcome { generateDependencies := true } exEnv (exOneWorld [(c!"f", { obj := exFnObj c!"gone" })]) 3 c!"pkg" =
      .error (.panic .unwrap) :=
  ⟨exOneWorld_faithful (by decide +kernel), by decide +kernel⟩

/-- The module `pkg`, whose attributes cannot be listed: its `__dir__` raises. -/
def exDirWorld : World where
  mods := [{ name := some c!"pkg", dirRaises := true }]
  importMod s := if s = c!"pkg" then some 0 else none

/-- **C51** fails for a module and for a class whose attributes cannot be listed, in every build. -/
theorem C51_dir_counterexample (E : Env) (hE : E = .ascii true false ∨ E = .ascii false false) :
    exOutcome {} E exDirWorld 3 c!"pkg" = .error (.panic .unwrap) ∧
    exOutcome {} E (exOneWorld [(c!"K", { obj := exClsObj c!"pkg", cls := { dirRaises := true } })]) 3 c!"pkg" =
      .error (.panic .unwrap) := by
  rcases hE with rfl | rfl <;> exact ⟨by decide +kernel, by decide +kernel⟩

/-- **C51** fails with debug assertions for an annotation with `::`, which a build without them reads. -/
theorem C51_colons_counterexample :
    Faithful exEnv (exOneWorld [(c!"f", exAnnFn c!"pkg" c!"std::string")]) ∧
    exOutcome {} (.ascii true false) (exOneWorld [(c!"f", exAnnFn c!"pkg" c!"std::string")]) 3 c!"pkg" =
      .error (.panic .assertion) ∧
    exOutcome {} (.ascii false false) (exOneWorld [(c!"f", exAnnFn c!"pkg" c!"std::string")]) 3 c!"pkg" = .ok 1 :=
  ⟨exOneWorld_faithful (by decide +kernel), by decide +kernel, by decide +kernel⟩

/-- **C51** fails with debug assertions for an attribute whose `__module__` has `::`, even if the configuration would leave it
out (`__module__` is read before the configuration is asked). -/
theorem C51_origin_colons_counterexample (name : Str) (h : name = c!"f" ∨ name = c!"_f") :
    Faithful exEnv (exOneWorld [(name, { obj := exFnObj c!"a::b" })]) ∧
    exOutcome {} (.ascii true false) (exOneWorld [(name, { obj := exFnObj c!"a::b" })]) 3 c!"pkg" = .error (.panic .assertion) ∧
    exOutcome {} (.ascii false false) (exOneWorld [(name, { obj := exFnObj c!"a::b" })]) 3 c!"pkg" = .ok 1 := by
  rcases h with rfl | rfl <;> exact ⟨exOneWorld_faithful (by decide +kernel), by decide +kernel, by decide +kernel⟩

/-- **C51**: what the index of a module costs with debug assertions. If dependencies are off and `__all__` lists a private name,
then a module is parsed only if no attribute listed in `__all__` has a `__module__` with `::`. -/
theorem C51_index {E : Env} {cfg : Config} {W : World} {fuel id : Nat} {M : Module} {pm : PyMod} {l : List Str} {s : Str}
    (hd : E.debug = true) (hp : cfg.generatePreludes = true) (hdep : cfg.generateDependencies = false)
    (hg : W.get? id = some pm) (hn : pm.name ≠ some []) (hall : pm.all = some l) (hr : ∀ t ∈ l, ¬ c!"r#" <+: t)
    (hs : s ∈ l) (hpriv : c!"_" <+: s) (h : Module.parse E cfg W fuel id = .ok M) :
    ∀ t ∈ l, ∀ a, pm.attrs.lookup t = some a → ¬ c!"::" <:+: a.obj.modPath := by
  cases fuel with
  | zero => cases h
  | succ fuel =>
    obtain ⟨p⟩ := parse_parts h
    obtain rfl : p.pm = pm := Option.some.inj (p.get.symm.trans hg)
    have hc := p.preludeCheck
    simp only [hp, ifOn, if_true] at hc
    unfold checkPrelude at hc
    obtain ⟨_, _, hc⟩ := Res.bind_ok hc
    obtain ⟨_, _, hc⟩ := Res.bind_ok hc
    have hidx : indexIdents E p.pm = unique (l.map (Ident.fromPy E)) := by
      unfold indexIdents; rw [hall]
    have hpub : indexIsPublic E p.pm = false := by
      unfold indexIsPublic
      rw [hidx]
      rw [Bool.and_eq_false_iff]
      left
      rw [List.all_eq_false]
      refine ⟨Ident.fromPy E s, mem_unique.mpr (List.mem_map_of_mem hs), ?_⟩
      intro hcon
      have := (List.mem_filter.mp (List.contains_iff_mem.mp hcon)).2
      rw [asPy_fromPy E (hr s hs)] at this
      rw [Str.startsWith_iff.mpr hpriv] at this
      cases this
    have hroot : M.name.root.isNone = false := by
      have : M.name.segs ≠ [] := by
        rw [p.name]
        exact fromPy_segs_ne E fun e => hn (by rw [p.pmName, e])
      unfold Path.root
      cases hseg : M.name.segs with
      | nil => exact absurd hseg this
      | cons => rfl
    rw [hpub, hdep, hroot] at hc
    intro t ht a ha
    refine (pathCheck_ok E _).mp hc hd _ (List.mem_map.mpr ⟨a, List.mem_filterMap.mpr ⟨Ident.fromPy E t, ?_, ?_⟩, rfl⟩)
    · rw [hidx]; exact mem_unique.mpr (List.mem_map_of_mem ht)
    · rw [asPy_fromPy E (hr t ht)]; exact ha

/-- The module `pkg` with `__all__ = ["_f"]`, where `_f` comes from `mod`. -/
def exPrivIndexWorld (mod : Str) : World where
  mods := [{ name := some c!"pkg", all := some [c!"_f"], dir := [], attrs := [(c!"_f", { obj := exFnObj mod })] }]
  importMod s := if s = c!"pkg" then some 0 else none

/-- The hypotheses of `C51_index`, and what it excludes. -/
example :
    exOutcome { generateDependencies := false } exEnv (exPrivIndexWorld c!"pkg") 3 c!"pkg" = .ok 1 ∧
    exOutcome { generateDependencies := false } exEnv (exPrivIndexWorld c!"a::b") 3 c!"pkg" = .error (.panic .assertion) :=
  ⟨by decide +kernel, by decide +kernel⟩

/-- **C51**: the index costs nothing of this kind if dependencies are generated: then the `__module__` of what it lists is not
read. -/
theorem C51_index_dependencies {E : Env} {cfg : Config} {m : PyMod} {name : Path} (hdep : cfg.generateDependencies = true)
    (hall : ∀ l, m.all = some l → [] ∉ l) (hdir : m.dirRaises = false) (hne : [] ∉ m.dir) :
    checkPrelude E cfg m name = .ok () := by
  have h1 : Ident.checkPy E (m.all.getD []) = .ok () := by
    refine (identCheck_ok E _).mpr fun _ => ?_
    cases h : m.all with
    | none => exact List.not_mem_nil
    | some l => exact hall l h
  have h2 : checkDir E m.dirRaises m.dir = .ok () := by
    unfold checkDir
    rw [hdir]
    exact (identCheck_ok E _).mpr fun _ => hne
  unfold checkPrelude
  rw [h1, h2, hdep]
  simp only [Res.ok_bind, Bool.or_true, Bool.true_or, if_true]

/-- The hypotheses of `C51_index_dependencies` in an interpreter that `C51_index` excludes. -/
example :
    exOutcome { generateDependencies := true } exEnv (exPrivIndexWorld c!"a::b") 3 c!"pkg" = .ok 1 := by decide +kernel

/-- `pkg.a` can be imported (it is in `sys.modules`), `pkg` cannot. -/
def exOrphanWorld : World where
  mods := [{ name := some c!"pkg.a", dir := [c!"K"], attrs := [(c!"K", { obj := exClsObj c!"pkg.a" })] }]
  importMod s := if s = c!"pkg.a" then some 0 else none

/-- **C51** fails for a module whose parent package cannot be imported. -/
theorem C51_parent_counterexample : Faithful exEnv exOrphanWorld ∧
    exOutcome {} exEnv exOrphanWorld 3 c!"pkg.a" = .error (.panic .unreachable) := by
  refine ⟨faithful_of_check (by decide +kernel) fun s id h => ?_, by decide +kernel⟩
  simp only [exOrphanWorld] at h
  split at h
  · cases h; subst_vars; exact ⟨_, rfl, rfl⟩
  · cases h

/-- The package `pkg`, which is also what `import pkg.q` gives. -/
def exLoopWorld : World where
  mods := [{ name := some c!"pkg", isPackage := true, iterModules := some [c!"q"] }]
  importMod s := if s = c!"pkg" then some 0 else if s = c!"pkg.q" then some 0 else none

theorem loop_parse (fuel : Nat) : Module.parse exEnv {} exLoopWorld fuel 0 = .error (.panic .stackOverflow) := by
  induction fuel with
  | zero => rfl
  | succ n ih =>
    rw [Module.parse]
    generalize hr : Module.parse exEnv {} exLoopWorld n = r at ih ⊢
    have : r = fun i => match i with
        | 0 => .error (.panic .stackOverflow)
        | k + 1 => r (k + 1) := by
      funext i
      cases i with
      | zero => exact ih
      | succ k => rfl
    rw [this]
    rfl

theorem loop_request (fuel : Nat) :
    (Codegen.new {}).moduleName exEnv exLoopWorld fuel c!"pkg" = .error (.panic .stackOverflow) := by
  show (Module.parse exEnv {} exLoopWorld fuel 0 >>= _) = _
  rw [loop_parse]
  rfl

/-- **C51** fails for a package that is its own submodule: the recursion does not end, however large the stack. -/
theorem C51_recursion_counterexample (fuel : Nat) :
    exOutcome {} exEnv exLoopWorld fuel c!"pkg" = .error (.panic .stackOverflow) := by
  have h2 := loop_request fuel
  unfold exOutcome
  rw [h2]
  rfl

end Bindgen

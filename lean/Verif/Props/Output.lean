import Verif.Lemmas.Generate
import Verif.Spec.Items
import Verif.Props.Tree
/-!
# The generated code: C39
-/
namespace Bindgen
open Spec

/-! ## C39: requested modules are generated -/

/-- Every node survives merging with all its items. -/
theorem merge_node (E : Env) (fuel : Nat) (l : List Module) (hd : depthList l ≤ fuel) (ns : List Path) (x : Module)
    (h : NodeAt l ns x) : ∃ M, NodeAt (mergeDuplicates (mergeModules E fuel) l) ns M ∧ (∀ s, Has x s → Has M s) ∧
      ∀ k ∈ x.submodules, ∃ k' ∈ M.submodules, k'.name = k.name := by
  induction fuel generalizing l ns x with
  | zero =>
    obtain ⟨m, hm, -⟩ := nodeAt_mem.mp h
    have h1 := depthList_mem hm
    rw [depth_eq] at h1
    omega
  | succ fuel ih =>
    have key : ∀ m ∈ l, ∃ M ∈ mergeDuplicates (mergeModules E (fuel + 1)) l, M.name = m.name ∧ (∀ s, Has m s → Has M s) ∧
        ∀ ns x, NodeAt m.submodules ns x → ∃ y, NodeAt M.submodules ns y ∧ (∀ s, Has x s → Has y s) ∧
          ∀ k ∈ x.submodules, ∃ k' ∈ y.submodules, k'.name = k.name := by
      intro m hm
      obtain ⟨g, hg, hmg⟩ := exists_run hm
      refine ⟨mergeRun (mergeModules E (fuel + 1)) g, mem_mergeDuplicates.mpr ⟨g, hg, rfl⟩, ?_⟩
      obtain ⟨k, r, rfl, hn⟩ := runs_name hg
      refine ⟨(mergeRun_name (mergeModules_name E _) k r).trans (hn m hmg).symm, ?_⟩
      cases r with
      | nil =>
        rw [List.mem_singleton] at hmg
        subst hmg
        exact ⟨fun _ h => h, fun ns x h => ⟨x, h, fun _ h => h, fun k hk => ⟨k, hk, rfl⟩⟩⟩
      | cons a r =>
        refine ⟨fun s hs => (mergeModules_has E fuel _ s).mpr ⟨m, hmg, hs⟩, fun ns x hx => ?_⟩
        refine ih ((k :: a :: r).flatMap Module.submodules) ?_ ns x ((nodeAt_flatMap _ _ _).mpr ⟨m, hmg, hx⟩)
        refine depthList_sub (Nat.le_trans (depthList_le fun y hy => depthList_mem (mem_run hg hy)) hd)
    match ns, h with
    | [n], h =>
      obtain ⟨M, hM, hn, hs, hsub⟩ := key x h.1
      refine ⟨M, ⟨hM, hn.trans h.2⟩, hs, fun k hk => ?_⟩
      obtain ⟨y, hy, -⟩ := hsub [k.name] k ⟨hk, rfl⟩
      exact ⟨y, hy.1, hy.2⟩
    | n :: n' :: ns, ⟨k, hk, hkn, h⟩ =>
      obtain ⟨M, hM, hn, -, hsub⟩ := key k hk
      obtain ⟨y, hy, hys⟩ := hsub _ _ h
      exact ⟨y, ⟨M, hM, hn.trans hkn, hy⟩, hys⟩

theorem wrapFold_node {W : World} {segs : List Ident} {pkg r : Module} {n : Nat} (h : wrapFold W segs pkg n = .ok r)
    {ns : List Path} {x : Module} (hx : NodeAt [pkg] ns x) : NodeAt [r] (shells segs n ++ ns) x := by
  induction n generalizing pkg ns with
  | zero => cases h; simpa [shells] using hx
  | succ n ih =>
    obtain ⟨p, hp, h⟩ := wrapFold_succ h
    rw [shells_succ, List.append_assoc]
    refine ih h ?_
    rw [List.singleton_append, nodeAt_cons]
    exact ⟨hp.1, Or.inr (hp.2.1 ▸ hx)⟩

/-- A module inside a requested module is in the prepared tree, with all its items. -/
theorem prepared_inner {E : Env} {W : World} {fuel : Nat} {c : Codegen} {out : List Module} (h : c.prepare E W fuel = .ok out)
    {root m : Module} (hr : root ∈ c.modules) {ns : List Path} (hm : NodeAt [root] ns m) :
    ∃ M, NodeAt out (packages root.name ++ ns) M ∧ (∀ s, Has m s → Has M s) ∧
      ∀ k ∈ m.submodules, ∃ k' ∈ M.submodules, k'.name = k.name := by
  obtain ⟨mods, h1, h⟩ := Res.bind_ok h
  obtain ⟨cn, h2, h⟩ := Res.bind_ok h
  cases h
  have hmm : root ∈ mods := by
    rcases ifOn_ok h1 with ⟨-, h1⟩ | ⟨-, rfl⟩
    · obtain ⟨deps, rfl, -⟩ := C48_added E c.cfg W fuel c.modules mods h1
      exact List.mem_append_left _ hr
    · exact hr
  obtain ⟨ws, hw, rfl⟩ := canonicalize_ok h2
  obtain ⟨w, hwm, hmw⟩ := traverse_mem' hw hmm
  rw [wrap_eq] at hmw
  have hn : NodeAt ws (packages root.name ++ ns) m := nodeAt_mem.mpr ⟨w, hwm, wrapFold_node hmw hm⟩
  obtain ⟨M, hM, hs⟩ := merge_node E _ ws (Nat.le_refl _) _ m hn
  refine (embed_has (Q := fun M => (∀ s, Has m s → Has M s) ∧ ∀ k ∈ m.submodules, ∃ k' ∈ M.submodules, k'.name = k.name)
    fun k s => ?_).mpr ⟨M, hM, hs⟩
  refine and_congr (forall_congr' fun x => ?_) Iff.rfl
  cases x <;> exact Iff.rfl

/-- A requested module is in the prepared tree, with all its items. -/
theorem prepared_node {E : Env} {W : World} {fuel : Nat} {c : Codegen} {out : List Module} (h : c.prepare E W fuel = .ok out)
    {m : Module} (hm : m ∈ c.modules) :
    ∃ M, NodeAt out (packages m.name ++ [m.name]) M ∧ (∀ s, Has m s → Has M s) ∧
      ∀ k ∈ m.submodules, ∃ k' ∈ M.submodules, k'.name = k.name :=
  prepared_inner h hm ⟨by simp, rfl⟩

theorem modChain_mono {a b : List Item} {is : List Str} {content : List Item} (h : ∀ x ∈ a, x ∈ b) (hc : ModChain a is content) :
    ModChain b is content := by
  cases hc with
  | here h1 => exact .here (h _ h1)
  | nested h1 h2 => exact .nested (h _ h1) h2

/-- The chain of generated modules for a node; nesting needs the traversal of submodules. -/
theorem generated_chain {E : Env} {cfg : Config} {imp : Str → Bool} {tops : List Module} {ts : List Path} {l : List Module}
    {items : List Item} (h : Res.traverse (Module.generate E cfg imp tops ts) l = .ok items) {ns : List Path} {M : Module}
    (hM : NodeAt l ns M) (ht : cfg.traverseSubmodules = true ∨ ns.length = 1) :
    ∃ idents content, ModChain items idents (embedItems M.name M.source ++ content) ∧
      (∃ c0 cs, M.content E cfg imp tops ts = .ok c0 ∧ content = c0 ++ cs) ∧
      List.Forall₂ (fun n i => ∃ s, n.segs.getLast? = some s ∧ s.toSyn E = some i) ns idents := by
  induction ns generalizing l items with
  | nil => cases hM
  | cons n ns ih =>
    cases ns with
    | nil =>
      obtain ⟨hm, rfl⟩ := hM
      obtain ⟨it, hit, hg⟩ := traverse_mem' h hm
      obtain ⟨p⟩ := generate_parts hg
      refine ⟨[p.ident], p.content ++ p.mods, ?_, ⟨p.content, p.mods, p.contentOk, rfl⟩, ?_⟩
      · rw [← List.append_assoc]
        exact .here (p.item ▸ hit)
      · exact .cons ⟨_, p.lastOk, p.identOk⟩ .nil
    | cons n' ns =>
      obtain ⟨k, hk, rfl, hM⟩ := hM
      have ht : cfg.traverseSubmodules = true := ht.resolve_right (by simp)
      obtain ⟨it, hit, hg⟩ := traverse_mem' h hk
      obtain ⟨p⟩ := generate_parts hg
      have hmods := p.modsOk
      rw [ht] at hmods
      obtain ⟨idents, content, h1, h2, h3⟩ := ih hmods hM (Or.inl ht)
      refine ⟨p.ident :: idents, content, ?_, h2, .cons ⟨_, p.lastOk, p.identOk⟩ h3⟩
      refine .nested (p.item ▸ hit) ?_
      exact modChain_mono (fun x hx => List.mem_append_right _ hx) h1

theorem forall₂_lasts {E : Env} {p : Path} {idents : List Str}
    (h : List.Forall₂ (fun n i => ∃ s, (Path.segs n).getLast? = some s ∧ s.toSyn E = some i) (packages p ++ [p]) idents) :
    List.Forall₂ (fun (s : Ident) i => s.toSyn E = some i) p.segs idents := by
  have hm : (packages p ++ [p]).map (fun n => n.segs.getLast?) = p.segs.map some ∨ p.segs = [] := by
    cases hs : p.segs with
    | nil => exact Or.inr rfl
    | cons a l =>
      left
      refine List.ext_getElem? fun i => ?_
      simp only [packages, hs, List.length_cons, Nat.add_sub_cancel, List.map_append, List.map_map, List.map_cons, List.map_nil]
      rcases Nat.lt_trichotomy i l.length with hi | hi | hi
      · rw [List.getElem?_append_left (by simpa using hi)]
        simp only [List.getElem?_map, List.getElem?_range hi, Option.map_some, Function.comp]
        have : i < (a :: l).length := by simp; omega
        rw [List.getLast?_take, if_neg (by omega), Nat.add_sub_cancel, List.getElem?_eq_getElem this, ← List.map_cons,
          List.getElem?_map, List.getElem?_eq_getElem this]
        rfl
      · subst hi
        rw [List.getElem?_append_right (by simp)]
        simp only [List.length_map, List.length_range, Nat.sub_self, List.getElem?_cons_zero, List.getLast?_eq_getElem?,
          List.length_cons, Nat.add_sub_cancel, ← List.map_cons, List.getElem?_map]
        rw [List.getElem?_eq_getElem (by simp)]
        rfl
      · rw [List.getElem?_eq_none (by simp; omega), List.getElem?_eq_none (by simp; omega)]
  rcases hm with hm | hm
  · have h2 : List.Forall₂ (fun (o : Option Ident) i => ∃ s, o = some s ∧ s.toSyn E = some i) (p.segs.map some) idents := by
      rw [← hm, List.forall₂_map_left_iff]
      exact h
    rw [List.forall₂_map_left_iff] at h2
    refine h2.imp ?_
    rintro a b ⟨s, hs, h⟩
    cases hs
    exact h
  · have : packages p = [] := by simp [packages, hm]
    rw [this] at h
    cases h with
    | cons h1 h2 =>
      obtain ⟨s, hs, -⟩ := h1
      rw [hm] at hs
      cases hs

/-- The generated code contains the nested modules that spell the name of a module inside a requested one; inside is the content
generated for a module of that name that has all its items and submodules. -/
theorem inner_content {E : Env} {W : World} {fuel : Nat} {c : Codegen} {items : List Item} (h : c.generate E W fuel = .ok items)
    {root m : Module} (hr : root ∈ c.modules) {ns : List Path} (hm : NodeAt [root] ns m)
    (hns : packages root.name ++ ns = packages m.name ++ [m.name])
    (ht : c.cfg.traverseSubmodules = true ∨ m.name.segs.length = 1) :
    ∃ idents content, ModChain items idents content ∧
      List.Forall₂ (fun (s : Ident) i => s.toSyn E = some i) m.name.segs idents ∧
      ∃ out M ts own, c.prepare E W fuel = .ok out ∧ InTree M out ∧ M.name = m.name ∧ (∀ x, Has m x → Has M x) ∧
        (∀ k ∈ m.submodules, ∃ k' ∈ M.submodules, k'.name = k.name) ∧ Module.content E c.cfg W.importable out ts M = .ok own ∧ ∀ x ∈ own, x ∈ content := by
  obtain ⟨out, h1, h2⟩ := generate_prepared h
  obtain ⟨M, hM, hs, hk⟩ := prepared_inner h1 hr hm
  rw [hns] at hM
  have hn := nodeAt_name hM
  rw [List.getLast?_append] at hn
  have hn : M.name = m.name := by simpa using hn.symm
  obtain ⟨idents, content, g1, ⟨c0, cs, g2, rfl⟩, g3⟩ := generated_chain h2 hM (ht.imp id fun hl => by simp [packages, hl])
  exact ⟨idents, _, g1, forall₂_lasts g3, out, M, _, c0, h1, nodeAt_inTree hM, hn, hs, hk, g2, fun x hx => by simp [hx]⟩

/-- The generated code contains the nested modules that spell the name of a requested module; inside is the content generated
for a module of that name that has all items and submodules of the requested one. -/
theorem C39_module_partial (E : Env) (W : World) (fuel : Nat) (c : Codegen) (items : List Item)
    (h : c.generate E W fuel = .ok items) (m : Module) (hm : m ∈ c.modules)
    (ht : c.cfg.traverseSubmodules = true ∨ m.name.segs.length = 1) :
    ∃ idents content, ModChain items idents content ∧
      List.Forall₂ (fun (s : Ident) i => s.toSyn E = some i) m.name.segs idents ∧
      ∃ out M ts own, c.prepare E W fuel = .ok out ∧ InTree M out ∧ M.name = m.name ∧ (∀ x, Has m x → Has M x) ∧
        (∀ k ∈ m.submodules, ∃ k' ∈ M.submodules, k'.name = k.name) ∧ Module.content E c.cfg W.importable out ts M = .ok own ∧ ∀ x ∈ own, x ∈ content :=
  inner_content h hm (ns := [m.name]) ⟨by simp, rfl⟩ rfl ht

/-- A function of a module. -/
def Spec.Free (f : Function) : Prop := f.typ = .function ∨ f.typ = .closure

theorem parse_free {E : Env} {pf : PyFn} {name : Path} {typ : FnType} {f : Function} (ht : typ = .function ∨ typ = .closure)
    (h : Function.parse E pf name typ = .ok f) : Free f := by
  have hk : ∀ t, (t = .function ∨ t = .closure) → ∀ l, (selfCheck t l).1 = t := by
    intro t ht l
    rcases hsc : selfCheck t l with ⟨t2, l2⟩
    rcases selfCheck_cases t l t2 l2 hsc with h | ⟨h, -⟩ | ⟨h, -⟩
    · rcases ht with rfl | rfl <;>
        (unfold selfCheck at hsc
         cases l with
         | nil => cases hsc; rfl
         | cons a l =>
           simp only at hsc
           split at hsc
           · split at hsc <;> (cases hsc; rfl)
           · cases hsc; rfl)
    · exact h
    · exact h
  cases hs : pf.sig with
  | none => unfold Free; rw [(parse_nosig hs h).2.1]; exact ht
  | some s =>
    obtain ⟨ps, typ2, ps2, -, h1, -, h2, -⟩ := parse_sig hs h
    have hi : inferMethod typ pf.dictKind = typ := by rcases ht with rfl | rfl <;> rfl
    have h3 := hk typ ht (ps.filter (fun p => p.name.rs ≠ c!"r#_"))
    rw [hi] at h1
    rw [h1] at h3
    simp only at h3
    subst h3
    unfold Free
    rw [h2]
    rcases ht with rfl | rfl <;> simp [noParamHack]

theorem spelled {E : Env} {n : Str} (hid : IsIdent E n) (hs : n ∉ unspellable) :
    ∃ t, (Ident.fromPy E n).toSyn E = some t ∧ unraw t = n := by
  rw [toSyn_ident hid, if_neg hs]
  split
  · exact ⟨_, rfl, (unraw_ident hid).2⟩
  · exact ⟨_, rfl, (unraw_ident hid).1⟩

/-- What the content of a module must hold for each of its items: a class gives a struct bound to the class; a function
gives a function that calls it by its name; a type variable gives a type alias. -/
structure Spec.Emits (E : Env) (cfg : Config) (m : Module) (content : List Item) : Prop where
  classes : cfg.generateClasses = true → ∀ c ∈ m.classes, ∀ n, IsIdent E n → n ∉ unspellable →
    c.name.segs.getLast? = some (Ident.fromPy E n) →
    ∃ k : ClassItem, .class k ∈ content ∧ unraw k.name = n ∧ k.objName = c.name.toPy
  functions : cfg.generateFunctions = true → ∀ f ∈ m.functions, Free f → ∀ n, IsIdent E n → n ∉ unspellable →
    n ∉ reservedFunctions → f.name.segs.getLast? = some (Ident.fromPy E n) →
    ∃ (fn : Fn) (o : Obj) (pos : Option Pos) (kw : Option Kw), .func fn ∈ content ∧ unraw fn.sig.name = n ∧
      fn.body = .call o (some n) pos kw
  typeVars : cfg.generateTypeVars = true → ∀ t ∈ m.typeVars, ∀ n, IsIdent E n → n ∉ unspellable →
    t.name.segs.getLast? = some (Ident.fromPy E n) → ∃ i, .typeAlias i ∈ content ∧ unraw i = n

theorem name_ok {p : Path} {i : Ident} (h : p.segs.getLast? = some i) : p.name = .ok i := by
  unfold Path.name Path.name?
  rw [h]
  rfl

theorem content_emits {E : Env} {cfg : Config} {imp : Str → Bool} {tops : List Module} {ts : List Path} {m : Module}
    {out : List Item} (h : m.content E cfg imp tops ts = .ok out) : Emits E cfg m out := by
  obtain ⟨p⟩ := content_parts h
  constructor
  · intro hc c hcm n hid hs hl
    have := p.classesOk
    rw [hc] at this
    obtain ⟨o, ho, hg⟩ := traverse_mem' this hcm
    obtain ⟨t, ht, hu⟩ := spelled hid hs
    have hci : Class.ident E (Ident.fromPy E n) = some t := by unfold Class.ident; rw [ht]
    cases o with
    | none =>
      unfold Class.generate at hg
      rw [name_ok hl, Res.ok_bind, hci] at hg
      simp only at hg
      obtain ⟨_, -, hg⟩ := Res.bind_ok hg
      obtain ⟨_, -, hg⟩ := Res.bind_ok hg
      obtain ⟨_, -, hg⟩ := Res.bind_ok hg
      obtain ⟨_, -, hg⟩ := Res.bind_ok hg
      cases hg
    | some k =>
      refine ⟨k, ?_, ?_⟩
      · rw [p.content]
        simp only [List.mem_append, List.mem_map, List.mem_filterMap]
        exact Or.inl (Or.inl (Or.inr ⟨k, ⟨some k, ho, rfl⟩, rfl⟩))
      · obtain ⟨name, ident, -, -, -, h1, h2, -, -, -, -, h3, h4, -⟩ := class_generate hg
        rw [name_ok hl] at h1
        cases h1
        rw [hci] at h2
        cases h2
        exact ⟨h3 ▸ hu, h4⟩
  · intro hc f hf hfree n hid hs hr hl
    have := p.functionsOk
    rw [hc] at this
    obtain ⟨l, hlm, hg⟩ := traverse_mem' this hf
    obtain ⟨r, hr1, hr2⟩ := Res.bind_ok hg
    obtain ⟨t, ht, hu⟩ := spelled hid hs
    have hfi : Function.ident E (Ident.fromPy E n) = some t := by
      unfold Function.ident
      rw [ht, asPy_ident hid]
      have : forbiddenFunctionNames.contains n = false := by simpa [forbiddenFunctionNames, reservedFunctions] using hr
      simp only [this, Bool.false_eq_true, if_false]
    unfold Function.generate at hr1
    rw [name_ok hl, Res.ok_bind, hfi] at hr1
    simp only at hr1
    obtain ⟨idents, -, hr1⟩ := Res.bind_ok hr1
    obtain ⟨pres, -, hr1⟩ := Res.bind_ok hr1
    obtain ⟨types, -, hr1⟩ := Res.bind_ok hr1
    obtain ⟨ret, -, hr1⟩ := Res.bind_ok hr1
    obtain ⟨sig, hsig, hr1⟩ := Res.bind_ok hr1
    obtain ⟨obj?, hobj, hr1⟩ := Res.bind_ok hr1
    have hsig' : sig.recv = .py ∧ sig.name = t := by
      unfold Function.contract at hsig
      rcases hfree with hfree | hfree <;> (rw [hfree] at hsig; cases hsig; exact ⟨rfl, rfl⟩)
    have hobj' : ∃ o, obj? = some o := by
      unfold dispatcher at hobj
      rcases hfree with hfree | hfree <;>
        (rw [hfree] at hobj
         obtain ⟨_, -, hobj⟩ := Res.bind_ok hobj
         obtain ⟨_, -, hobj⟩ := Res.bind_ok hobj
         cases hobj
         exact ⟨_, rfl⟩)
    obtain ⟨o, rfl⟩ := hobj'
    simp only at hr1
    obtain ⟨pos, -, hr1⟩ := Res.bind_ok hr1
    obtain ⟨kw, -, hr1⟩ := Res.bind_ok hr1
    rw [hsig'.1] at hr1
    cases hr1
    cases hr2
    have hmem : ∀ fn, .func fn ∈ [Item.func fn] := fun fn => by simp
    have hout : ∀ x l, l ∈ p.functions → x ∈ l → x ∈ out := by
      intro x l hl hx
      rw [p.content]
      simp only [List.mem_append, List.mem_flatten]
      exact Or.inl (Or.inr ⟨l, hl, hx⟩)
    refine ⟨_, o, if kw.isSome && pos.isNone then some .unit else pos, kw, hout _ _ hlm (hmem _), ?_, ?_⟩
    · simp only [hsig'.2]; exact hu
    · simp only [asPy_ident hid]
      rcases hfree with hfree | hfree <;> rw [hfree]
  · intro hc t ht n hid hs hl
    have := p.typeVarsOk
    rw [hc] at this
    obtain ⟨it, hit, hg⟩ := traverse_mem' this ht
    obtain ⟨s, hs1, hs2⟩ := spelled hid hs
    unfold TypeVar.generate at hg
    rw [name_ok hl, Res.ok_bind, Ident.trySyn, hs1] at hg
    cases hg
    refine ⟨s, ?_, hs2⟩
    rw [p.content]
    simp only [List.mem_append]
    exact Or.inl (Or.inl (Or.inl (Or.inr hit)))

theorem emits_mono {E : Env} {cfg : Config} {m M : Module} {own content : List Item} (h6 : Emits E cfg M own)
    (h3 : ∀ x, Has m x → Has M x) (h5 : ∀ x ∈ own, x ∈ content) : Emits E cfg m content := by
  refine ⟨?_, ?_, ?_⟩
  · intro hc k hk n hid hs hl
    obtain ⟨x, hx, hx'⟩ := h6.classes hc k (h3 (.class k) hk) n hid hs hl
    exact ⟨x, h5 _ hx, hx'⟩
  · intro hc k hk hf n hid hs hr hl
    obtain ⟨x, a, b, d, hx, hx'⟩ := h6.functions hc k (h3 (.function k) hk) hf n hid hs hr hl
    exact ⟨x, a, b, d, h5 _ hx, hx'⟩
  · intro hc k hk n hid hs hl
    obtain ⟨x, hx, hx'⟩ := h6.typeVars hc k (h3 (.typeVar k) hk) n hid hs hl
    exact ⟨x, h5 _ hx, hx'⟩

/-- The nested modules hold what the items of the requested module give. Missing: the case that submodules are not traversed and
the name is dotted (`C39_no_traversal_counterexample`). For variables see `C39_accessors_partial`, for re-exports
`C06_present`, for the prelude `C40_partial`. -/
theorem C39_items_partial (E : Env) (W : World) (fuel : Nat) (c : Codegen) (items : List Item)
    (h : c.generate E W fuel = .ok items) (m : Module) (hm : m ∈ c.modules)
    (ht : c.cfg.traverseSubmodules = true ∨ m.name.segs.length = 1) :
    ∃ idents content, ModChain items idents content ∧
      List.Forall₂ (fun (s : Ident) i => s.toSyn E = some i) m.name.segs idents ∧ Emits E c.cfg m content := by
  obtain ⟨idents, content, h1, h2, out, M, ts, own, -, -, -, h3, -, h4, h5⟩ := C39_module_partial E W fuel c items h m hm ht
  exact ⟨idents, content, h1, h2, emits_mono (content_emits h4) h3 h5⟩

/-- Functions of parsed modules are functions, not methods. -/
theorem C39_functions_free (E : Env) (cfg : Config) (W : World) (fuel id : Nat) (M : Module)
    (h : Module.parse E cfg W fuel id = .ok M) : ∀ f ∈ M.functions, Free f := by
  induction fuel generalizing id M with
  | zero => exact absurd h parse_zero
  | succ fuel ih =>
    obtain ⟨p⟩ := parse_parts h
    rw [p.functions]
    refine traversed_invariant p (P := fun st _ => ∀ f ∈ st.functions, Free f) ?_ ?_ fun _ _ _ _ h _ _ => h
    · refine foldRes_invariant (P := fun st : ParseState => ∀ f ∈ st.functions, Free f) (by simp) ?_ p.attributes
      intro st hst x _ st' hx
      cases moduleStep_ok hx with
      | function t f ht hf =>
        intro g hg
        rcases List.mem_append.mp hg with hg | hg
        · exact hst g hg
        · rw [List.mem_singleton] at hg
          exact hg ▸ parse_free ht hf
      | _ => exact hst
    · rintro st l c s i hst - - ⟨id', hs⟩
      intro f hf
      rcases List.mem_append.mp hf with hf | hf
      · exact hst f hf
      · cases hfind : s.functions.find? (fun x => decide (x.name = c.origin)) with
        | none => rw [hfind] at hf; cases hf
        | some g =>
          rw [hfind] at hf
          simp only [Option.map_some, Option.toList_some, List.mem_singleton] at hf
          subst hf
          exact ih id' s hs g (List.mem_of_find?_eq_some hfind)

/-- For a requested module whose Python name is `s1.s2…sk`, dotted identifiers, the output holds modules `s1`, in it `s2`, …,
and the last one holds what the items of the module give. Missing: as in `C39_items_partial`. -/
theorem C39_requested_partial (E : Env) (W : World) (fuel : Nat) (c c1 : Codegen) (names : List Str) (items : List Item)
    (h1 : c.moduleNames E W fuel names = .ok c1) (h2 : c1.generate E W fuel = .ok items)
    (n : Str) (hn : n ∈ names) (id : Nat) (pm : PyMod) (segs : List Str) (hi : W.importMod n = some id)
    (hp : W.get? id = some pm) (hname : pm.name = some (Str.join c!"." segs)) (hne : segs ≠ [])
    (hs : ∀ s ∈ segs, PySegment s ∧ IsIdent E s) (ht : c.cfg.traverseSubmodules = true ∨ segs.length = 1) :
    ∃ m idents content, Module.parse E c.cfg W fuel id = .ok m ∧ ModChain items idents content ∧ idents.map unraw = segs ∧
      Emits E c.cfg m content := by
  obtain ⟨hcfg, -, hmods⟩ := moduleNames_modules h1
  obtain ⟨id', m, hi', hm⟩ := (moduleNames_iff.mp ⟨c1, h1⟩) n hn
  rw [hi] at hi'
  cases hi'
  have hmn : m.name = ⟨false, segs.map (Ident.fromPy E)⟩ := by
    cases fuel with
    | zero => exact absurd hm parse_zero
    | succ fuel =>
      obtain ⟨p⟩ := parse_parts hm
      have hpm := p.get
      rw [hp] at hpm
      cases hpm
      have hnm := p.pmName
      rw [hname] at hnm
      rw [p.name, ← Option.some.inj hnm]
      simpa [dotted] using fromPy_dotted E 0 hne fun s h => (hs s h).1
  obtain ⟨idents, content, g1, g2, g3⟩ := C39_items_partial E W fuel c1 items h2 m ((hmods m).mpr (Or.inr ⟨n, hn, id, hi, hm⟩))
    (by rw [hcfg, hmn]; simpa using ht)
  refine ⟨m, idents, content, hm, g1, ?_, hcfg ▸ g3⟩
  rw [hmn] at g2
  simp only at g2
  rw [List.forall₂_map_left_iff] at g2
  clear g1 hmn hname ht hne hm
  induction g2 with
  | nil => rfl
  | @cons a b l l' h1 h2 ih =>
    rw [List.map_cons, ih fun s h => hs s (List.mem_cons_of_mem _ h), toSyn_unraw (hs a (by simp)).2 h1]

/-- The modules and functions, with their places, up to two levels. -/
def exPlaces (items : List Item) : List (List Str) :=
  items.flatMap fun
    | .mod _ _ i inner => [i] :: inner.flatMap fun
      | .func f => [[i, f.sig.name]]
      | .mod _ _ j inner => [i, j] :: inner.flatMap fun
        | .func f => [[i, j, f.sig.name]]
        | _ => []
      | _ => []
    | _ => []

example : ((Codegen.new {}).moduleNames exEnv exWorld 5 [c!"pkg.sub", c!"other"] >>= fun c => c.generate exEnv exWorld 5).map
    exPlaces = .ok [[c!"other"], [c!"other", c!"h"], [c!"pkg"], [c!"pkg", c!"sub"], [c!"pkg", c!"sub", c!"g"]] := by decide +kernel

/-- With traversal of submodules off, a requested submodule is not generated: only its empty package is. -/
theorem C39_no_traversal_counterexample :
    ((Codegen.new { traverseSubmodules := false }).moduleNames exEnv exWorld 5 [c!"pkg.sub"] >>=
      fun c => c.generate exEnv exWorld 5).map exPlaces = .ok [[c!"pkg"]] := by decide +kernel

end Bindgen

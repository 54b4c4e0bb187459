import Verif.Props.Success
/-! # C76: from the import of a module to the call of a function -/
namespace Bindgen
open Spec

theorem isIdent_segment {E : Env} {s : Str} (h : IsIdent E s) (hs : s ≠ c!"super") : PyIdent E s := by
  have key : ∀ x : Char, x.toNat < 128 → (asciiLetter x || asciiDigit x || x == '_') = false → x ∉ s := by
    obtain ⟨c, cs, rfl, h1, h2⟩ := h
    intro x hx hc hm
    rw [← E.xidContinue_ascii x hx] at hc
    rcases List.mem_cons.mp hm with rfl | hm
    · rcases h1 with rfl | h1
      · rw [E.xidContinue_ascii _ (by decide)] at hc
        revert hc; decide
      · rw [E.start_continue _ h1] at hc
        cases hc
    · rw [h2 _ hm] at hc
      cases hc
  refine ⟨⟨?_, key '.' (by decide) (by decide), fun hp => key '#' (by decide) (by decide) (hp.subset (by simp)), hs⟩, h⟩
  obtain ⟨c, cs, rfl, -⟩ := h
  simp

/-- In a scope without clashes, modules of the same name are the same. -/
theorem mod_unique {scope : List RItem} (h : ((scope.flatMap RItem.types).map unraw).Nodup) {as as' : List RAttr} {pub pub' : Bool}
    {n n' : Str} {inner inner' : List RItem} (h1 : .mod as pub n inner ∈ scope) (h2 : .mod as' pub' n' inner' ∈ scope)
    (hn : unraw n = unraw n') : n = n' ∧ inner = inner' := by
  rw [List.map_flatMap, List.nodup_flatMap] at h
  by_contra hne
  have hsym : Std.Symm (Function.onFun List.Disjoint fun a => (RItem.types a).map unraw) := ⟨fun a b h x hx hy => h hy hx⟩
  have := List.Pairwise.forall h.2 h1 h2 (fun he => hne (by cases he; exact ⟨rfl, rfl⟩))
  exact this (a := unraw n) (by simp [RItem.types]) (by simp [RItem.types, hn])

/-- In a file that compiles, a path of names leads to one scope only. -/
theorem scope_unique {file : List RItem} (hc : ∀ p scope, ScopeAt file p scope → ScopeCompiles file p scope) {p q : List Str}
    {s t : List RItem} (h1 : ScopeAt file p s) (h2 : ScopeAt file q t) (hpq : p.map unraw = q.map unraw) : p = q ∧ s = t := by
  have hf : ∀ p scope, ScopeAt file p scope → ((scope.flatMap RItem.types).map unraw).Nodup := fun p s h => (hc p s h).types
  clear hc
  induction h1 generalizing q with
  | here =>
    cases h2 with
    | here => exact ⟨rfl, rfl⟩
    | mod => simp at hpq
  | mod hm hs ih =>
    cases h2 with
    | here => simp at hpq
    | mod hm' hs' =>
      simp only [List.map_cons, List.cons.injEq] at hpq
      obtain ⟨rfl, rfl⟩ := mod_unique (hf _ _ .here) hm hm' hpq.1
      obtain ⟨rfl, rfl⟩ := ih hs' hpq.2 (fun p s h => hf _ _ (.mod hm h))
      exact ⟨rfl, rfl⟩

/-- What is in the Rust module for the Python module `pm`, called `segs`: for every function of the module that the configuration keeps, a
function of its name that calls it and binds the parameters to the arguments; for every variable, a function of its name that reads it, and one with `set_` in front
that assigns to it; for every class a type of its name, with functions for its members; and for every value of `typing` a type of its name. -/
structure Spec.ModuleBinds (E : Env) (cfg : Config) (imp : Str → Bool) (pm : PyMod) (segs : List Str) (scope : List RItem) : Prop where
  functions : ∀ s ∈ pm.dir, ∀ a, pm.getattr s = some a → Kept E cfg s a.obj → OwnRoutine (Str.join c!"." segs) a.obj ∨ PartialValue a.obj →
    ∃ g fn, .fn g ∈ scope ∧ unraw g.sig.name = s ∧ FileTree g fn ∧ Forwards E imp segs s a.obj.fn fn
  getters : ∀ s ∈ pm.dir, ∀ a, pm.getattr s = some a → Kept E cfg s a.obj → PlainVariable a.obj →
    ∃ g fn, .fn g ∈ scope ∧ unraw g.sig.name = s ∧ FileTree g fn ∧ Reads E imp segs s a.obj fn
  setters : ∀ s ∈ pm.dir, ∀ a, pm.getattr s = some a → Kept E cfg s a.obj → PlainVariable a.obj →
    ∃ g fn ty, .fn g ∈ scope ∧ unraw g.sig.name = c!"set_" ++ s ∧ FileTree g fn ∧ ownType E a.obj = .ok ty ∧ Writes E imp segs s ty fn
  classes : ∀ s ∈ pm.dir, ∀ a, pm.getattr s = some a → Kept E cfg s a.obj → OwnClass (Str.join c!"." segs) a.obj →
    c!"super" ∉ a.cls.dir → ∃ k, (∀ i ∈ k.trees, i ∈ scope) ∧ unraw k.name = s ∧ ClassBinds E cfg imp (segs ++ [s]) a.cls k
  typeVars : ∀ s ∈ pm.dir, ∀ a, pm.getattr s = some a → Kept E cfg s a.obj → TypingValue a.obj →
    ∃ n, .typeAlias [] true n (.path true [.mk c!"pyo3" [], .mk c!"types" [], .mk c!"PyAny" []]) ∈ scope ∧ unraw n = s

/-- **C76** (partial): on an interpreter that is tidy, tame and quiet, with all kinds of items switched on, naming modules that can be imported gives a
Rust file that compiles, and in this file, for every Python module that is reached from the named ones, exactly one Rust module under its
dotted name, with bindings for all that the Python module defines. Missing: other interpreters and configurations (C73, C75), bound methods and methods without a signature (C69). -/
theorem C76_usable_partial (E : Env) (W : World) (fuel : Nat) (cfg : Config) (hW : TidyWorld E cfg W) (hT : Tame E cfg W fuel)
    (hQ : Quiet E W) (hE : Everything cfg) (names : List Str) (hne : names ≠ []) (hn : ∀ n ∈ names, W.importMod n ≠ none) :
    ∃ c items file, (Codegen.new cfg).moduleNames E W fuel names = .ok c ∧ c.generate E W fuel = .ok items ∧
      Parses (Item.toksList items) file ∧ Compiles file ∧
      ∀ id pm, Reached E cfg W names id → W.get? id = some pm →
        ∃ segs p scope, pm.name = some (Str.join c!"." segs) ∧ segs ≠ [] ∧ (∀ s ∈ segs, PyIdent E s) ∧ p.map unraw = segs ∧ ScopeAt file p scope ∧ ModuleBinds E cfg W.importable pm segs scope ∧
          ∀ q t, ScopeAt file q t → q.map unraw = segs → q = p ∧ t = scope := by
  obtain ⟨c, items, file, h1, h2, hpar, hcomp⟩ := C75_compiles_partial E W fuel cfg hW hT hQ hE names hne hn
  refine ⟨c, items, file, h1, h2, hpar, hcomp, fun id pm hr hp => ?_⟩
  have hb : Built E W fuel cfg [] c := .moduleNames names .new h1
  have hs := C52_kinds_partial E W hW.faithful hW.unique fuel cfg hW.collisionless.modules hW.accessors [] c items hb h2
  cases C65_unique _ _ _ hpar (C65_valid E W fuel cfg [] c items hb h2 hs)
  obtain ⟨nm, hnm⟩ := Option.ne_none_iff_exists'.mp (hT.named id pm hp)
  obtain ⟨segs, hsne, hsi, rfl⟩ := hW.faithful.names id pm nm hp hnm
  have hsp : ∀ s ∈ pm.dir, ∀ a, pm.getattr s = some a → Kept E cfg s a.obj → s ∉ unspellable :=
    fun s hsd a ha hk => hT.attrNames id pm s a hp hsd ha hk
  obtain ⟨p, content, hch, hpn, hfun⟩ := C69_functions_partial E W fuel (Codegen.new cfg) c names items h1 h2 id hr pm segs hp hnm hsne hsi
    (.inl hE.submodules) hE.functions
  have huni : ∀ q t, ScopeAt (Item.treesList items) q t → q.map unraw = segs → q = p ∧ t = Item.treesList content := by
    intro q t hq hqs
    exact scope_unique hcomp.scopes hq (chain_scopeAt hch) (hqs.trans hpn.symm)
  have hsame : ∀ {q content'}, ModChain items q content' → q.map unraw = segs → ∀ {x i}, x ∈ content' → i ∈ x.trees →
      i ∈ Item.treesList content := by
    intro q content' hq hqs x i hx hi
    rw [← (huni _ _ (chain_scopeAt hq) hqs).2]
    exact mem_treesList.2 ⟨x, hx, hi⟩
  refine ⟨segs, p, _, hnm, hsne, hsi, hpn, chain_scopeAt hch, ?_, huni⟩
  constructor
  · intro s hsd a ha hk ho
    obtain ⟨fn, e1, e2, e3⟩ := hfun s hsd (hW.faithful.attrs id pm hp s hsd) a ha hk ho
    refine ⟨fn.tree, fn, hsame hch hpn e1 (by simp [Item.trees]), ?_, .inl rfl, e3⟩
    exact e2.trans (if_neg (hsp s hsd a ha hk))
  · intro s hsd a ha hk ho
    obtain ⟨q, content', k1, k2, k3⟩ := C69_variables_partial E W hW.faithful hW.unique fuel cfg [] (Codegen.new cfg) c names items .new h1 h2
      id hr pm segs hp hnm hsne hsi (.inl hE.submodules) hE.properties
    obtain ⟨fn, e1, e2, e3⟩ := (k3 s hsd a ha hk ho).1 (hsp s hsd a ha hk)
    exact ⟨_, fn, hsame k1 k2 e1 (by simp [Item.trees]), e2, .inr rfl, e3⟩
  · intro s hsd a ha hk ho
    obtain ⟨q, content', k1, k2, k3⟩ := C69_variables_partial E W hW.faithful hW.unique fuel cfg [] (Codegen.new cfg) c names items .new h1 h2
      id hr pm segs hp hnm hsne hsi (.inl hE.submodules) hE.properties
    obtain ⟨fn, ty, e1, e2, e3, e4⟩ := (k3 s hsd a ha hk ho).2.2 (.inr hs)
    exact ⟨_, fn, ty, hsame k1 k2 e1 (by simp [Item.trees]), e2, .inr rfl, e3, e4⟩
  · intro s hsd a ha hk ho hsup
    obtain ⟨q, content', k1, k2, k3⟩ := C69_classes_partial E W fuel (Codegen.new cfg) c names items h1 h2
      id hr pm segs hp hnm hsne hsi (.inl hE.submodules) hE.classes
    obtain ⟨k, e1, e2, e3⟩ := k3 s hsd (hW.faithful.attrs id pm hp s hsd) a ha hk ho fun x hx => by
      exact isIdent_segment ((hQ.objs id pm s a hp ha).2.members x hx) fun h => hsup (h ▸ hx)
    exact ⟨k, fun i hi => hsame k1 k2 e1 hi, e2.trans (if_neg (hsp s hsd a ha hk)), e3⟩
  · intro s hsd a ha hk ho
    obtain ⟨q, content', k1, k2, k3⟩ := C69_typeVars_partial E W fuel (Codegen.new cfg) c names items h1 h2
      id hr pm segs hp hnm hsne hsi (.inl hE.submodules) hE.typeVars
    obtain ⟨i, e1, e2⟩ := k3 s hsd (hW.faithful.attrs id pm hp s hsd).2 (hsp s hsd a ha hk) a ha hk ho
    exact ⟨i, hsame k1 k2 e1 (by simp [Item.trees, Bindgen.names]), e2⟩

/-- **C59** (whole runs, partial): in the output of a run, every function of a module that is reached is called on an expression which, in a fresh
interpreter that can import the same modules, is the module if its name has no dot; for a submodule `pkg.m` it can be evaluated if and only if importing the
package binds `m` or loads the submodule. Missing: other packages (`C59_submodule_counterexample`). -/
theorem C59_run_partial (E : Env) (W : World) (fuel : Nat) (c c1 : Codegen) (names : List Str) (items : List Item)
    (h1 : c.moduleNames E W fuel names = .ok c1) (h2 : c1.generate E W fuel = .ok items)
    (id : Nat) (hr : Reached E c.cfg W names id) (pm : PyMod) (segs : List Str)
    (hp : W.get? id = some pm) (hname : pm.name = some (Str.join c!"." segs)) (hne : segs ≠ [])
    (hs : ∀ s ∈ segs, PyIdent E s) (ht : c.cfg.traverseSubmodules = true ∨ segs.length = 1) (hc : c.cfg.generateFunctions = true)
    (R : Runtime) (hR : ∀ n, (R.after n).isSome = (W.importMod n).isSome) :
    ∃ idents content, ModChain items idents content ∧ idents.map unraw = segs ∧
      ∀ s ∈ pm.dir, PyIdent E s → ∀ a, pm.getattr s = some a → Kept E c.cfg s a.obj →
        OwnRoutine (Str.join c!"." segs) a.obj ∨ PartialValue a.obj →
        ∃ fn, .func fn ∈ content ∧ unraw fn.sig.name = rustFunction s ∧
          ∀ args r, Makes fn.tree .py args (some r) → ∃ obj pos kw, r = .call obj (some s) pos kw ∧
            (∀ m L, segs = [m] → R.after m = some L → R.eval obj = some (L, (m, []))) ∧
            ∀ pkg m L, segs = pkg ++ [m] → pkg ≠ [] → R.after (Str.join c!"." pkg) = some L →
              ((R.eval obj).isSome = true ↔ R.binds (Str.join c!"." pkg) [m] = true ∨ (Str.join c!"." pkg ++ '.' :: m) ∈ L) := by
  obtain ⟨idents, content, g1, g2, g3⟩ := C69_functions_partial E W fuel c c1 names items h1 h2 id hr pm segs hp hname hne hs ht hc
  refine ⟨idents, content, g1, g2, fun s hsd hsi a ha hk ho => ?_⟩
  obtain ⟨fn, e1, e2, e3⟩ := g3 s hsd hsi a ha hk ho
  refine ⟨fn, e1, e2, fun args r hm => ?_⟩
  obtain ⟨obj, pos, kw, rfl, hT⟩ := e3.target args r hm
  refine ⟨obj, pos, kw, rfl, fun m L => hT.top R hR m L, fun pkg m L hsm hpk hL => ?_⟩
  cases hb : R.binds (Str.join c!"." pkg) [m] with
  | true => simp [hT.bound R hR pkg m L hsm hpk hL hb]
  | false =>
    by_cases hl : (Str.join c!"." pkg ++ '.' :: m) ∈ L
    · simp [hT.loaded R hR pkg m L hsm hpk hL hb hl, hl]
    · simp [hT.missing R hR pkg m L hsm hpk hL hb hl, hl]

/-- The hypotheses of `C59_run_partial` for the submodule `pkg.sub`, and an interpreter in which the package loads the submodule: the function `g` can be called. -/
example : ∃ c1 items, (Codegen.new {}).moduleNames exEnv exWorld 5 [c!"pkg"] = .ok c1 ∧ c1.generate exEnv exWorld 5 = .ok items ∧
    ∃ idents content fn, ModChain items idents content ∧ idents.map unraw = [c!"pkg", c!"sub"] ∧ .func fn ∈ content ∧ unraw fn.sig.name = c!"g" ∧
      ∀ args r, Makes fn.tree .py args (some r) → ∃ obj pos kw, r = .call obj (some c!"g") pos kw ∧
        (Runtime.eval ⟨fun n => if (exWorld.importMod n).isSome then some [c!"pkg", c!"pkg.sub"] else none, fun _ _ => false⟩ obj).isSome = true := by
  obtain ⟨c1, items, h1, h2⟩ := run_names (E := exEnv) (W := exWorld) (fuel := 5) (cfg := {}) (names := [c!"pkg"]) (by decide +kernel)
  refine ⟨c1, items, h1, h2, ?_⟩
  obtain ⟨idents, content, g1, g2, g3⟩ := C59_run_partial exEnv exWorld 5 _ c1 _ items h1 h2 1 exSub_reached exSub
    [c!"pkg", c!"sub"] rfl rfl (by simp) exSub_ident (Or.inl rfl) rfl
    ⟨fun n => if (exWorld.importMod n).isSome then some [c!"pkg", c!"pkg.sub"] else none, fun _ _ => false⟩ (by intro n; simp only; split <;> simp_all)
  obtain ⟨fn, e1, e2, e3⟩ := g3 c!"g" (by decide) ⟨by unfold PySegment; decide, isIdent_ascii _ _ (by decide) (by decide)⟩ _ rfl
    (by unfold Kept; decide +kernel) (Or.inl ⟨rfl, rfl, Or.inr rfl, Or.inl rfl⟩)
  refine ⟨idents, content, fn, g1, g2, e1, e2, fun args r hm => ?_⟩
  obtain ⟨obj, pos, kw, e, -, e5⟩ := e3 args r hm
  exact ⟨obj, pos, kw, e, (e5 [c!"pkg"] c!"sub" [c!"pkg", c!"pkg.sub"] rfl (by simp) rfl).mpr (.inr (by decide))⟩

/-! ## Example -/

theorem exCompile_reached : Reached exEnv {} exCompileWorld [c!"pkg"] 1 := by
  refine ⟨c!"pkg", by simp, 0, rfl, .sub 0 1 _ [c!"pkg"] [c!"a"] c!"a" .self rfl rfl rfl (by simp) ?_ rfl rfl (by simp) ?_ ?_ ?_ rfl ⟨_, rfl, rfl⟩⟩
  · intro s hs
    rw [List.mem_singleton.mp hs]
    exact ⟨by unfold PySegment; decide, isIdent_ascii _ _ (by decide) (by decide)⟩
  · exact ⟨by unfold PySegment; decide, isIdent_ascii _ _ (by decide) (by decide)⟩
  · exact (C08_filter_iff {} (Ident.fromPy exEnv c!"a") (Path.fromPy exEnv c!"pkg")).mp (by decide +kernel)
  · intro a ha
    cases ha
    exact .submodule rfl rfl rfl

/-- The hypotheses of `C76_usable_partial`, and what it says about one function: the file has a function `pkg::a::run` that forwards to the
Python function `pkg.a.run`, though only `pkg` is requested. -/
example : ∃ c items file, (Codegen.new {}).moduleNames exEnv exCompileWorld 3 [c!"pkg"] = .ok c ∧ c.generate exEnv exCompileWorld 3 = .ok items ∧
    Parses (Item.toksList items) file ∧ Compiles file ∧ ∃ p scope g fn, p.map unraw = [c!"pkg", c!"a"] ∧ ScopeAt file p scope ∧ .fn g ∈ scope ∧
      unraw g.sig.name = c!"run" ∧ FileTree g fn ∧ Forwards exEnv exCompileWorld.importable [c!"pkg", c!"a"] c!"run" (exAnnFn c!"pkg.a" c!"pkg.K").obj.fn fn := by
  obtain ⟨c, items, file, h1, h2, h3, h4, h5⟩ := C76_usable_partial exEnv exCompileWorld 3 {} exCompileWorld_tidy (tame_of_check (by decide +kernel))
    (quiet_of_check (by decide +kernel)) ⟨rfl, rfl, rfl, rfl, rfl⟩ [c!"pkg"] (by simp) (by decide)
  refine ⟨c, items, file, h1, h2, h3, h4, ?_⟩
  obtain ⟨segs, p, scope, e1, hne, hi, e2, e3, e4, -⟩ := h5 1 _ exCompile_reached rfl
  have hsegs := Str.splitChar_join (sep := '.') hne fun s hs => (hi s hs).1.2.1
  rw [← Option.some.inj e1] at hsegs
  obtain rfl : [c!"pkg", c!"a"] = segs := Eq.trans (by decide) hsegs
  obtain ⟨g, fn, k1, k2, k3, k4⟩ := e4.functions c!"run" (by decide) _ rfl (by unfold Kept; decide +kernel) (.inl ⟨rfl, rfl, .inr rfl, .inl rfl⟩)
  exact ⟨p, scope, g, fn, e2, e3, k1, k2, k3, k4⟩

end Bindgen

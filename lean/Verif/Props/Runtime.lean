import Verif.Spec.Runtime
import Verif.Props.Dispatch
import Verif.Props.Accessors
import Verif.Props.WorldScopes
/-!
# Import expressions in a fresh interpreter (C59)
-/
namespace Bindgen
open Spec

/-- The import expression of a dotted name of more than one segment whose packages can be imported. -/
theorem quote_parent (E : Env) {imp : Str → Bool} {segs : List Str} {n : Str} (hne : segs ≠ []) (h : ∀ s ∈ segs ++ [n], PySegment s)
    (hi : imp (Str.join c!"." segs) = true) :
    Path.importQuote imp (Path.fromPy E (Str.join c!"." (segs ++ [n]))) = .ok (.getattr (.import (Str.join c!"." segs)) n) := by
  rw [fromPy_join E (by simp) h]
  have hpy : Path.toPy (Path.ofSegs (segs.map (Ident.fromPy E))) = Str.join c!"." segs := by
    have hs := toPy_segs E 0 (segs := segs) (fun s hs => h s (by simp [hs]))
    simp only [List.replicate_zero, List.nil_append] at hs
    simp only [Path.toPy, Path.ofSegs, hs]
  obtain ⟨a, l, rfl⟩ := List.exists_cons_of_ne_nil hne
  have hlast : Path.lastPackage imp (((a :: l) ++ [n]).map (Ident.fromPy E)) (l.length + 1) = some (l.length + 1) := by
    rw [Path.lastPackage, if_pos]
    rw [← List.map_take, show (((a :: l) ++ [n]).take (l.length + 1)) = a :: l from by
      rw [List.take_append_of_le_length (by simp), List.take_of_length_le (by simp)], hpy]
    exact hi
  have hlen : ((((a :: l) ++ [n]).map (Ident.fromPy E)).length - 1) = l.length + 1 := by simp
  have htake : (((a :: l) ++ [n]).map (Ident.fromPy E)).take (l.length + 1) = (a :: l).map (Ident.fromPy E) := by
    rw [← List.map_take, List.take_append_of_le_length (by simp), List.take_of_length_le (by simp)]
  have hdrop : (((a :: l) ++ [n]).map (Ident.fromPy E)).drop (l.length + 1) = [Ident.fromPy E n] := by
    rw [← List.map_drop, List.drop_append_of_le_length (by simp), List.drop_of_length_le (by simp)]
    rfl
  have hroot : (⟨false, ((a :: l) ++ [n]).map (Ident.fromPy E)⟩ : Path).root = some ⟨false, [Ident.fromPy E a]⟩ := rfl
  rw [Path.importQuote, hroot]
  simp only [hlen, hlast, htake, hdrop, hpy]
  simp [asPy_fromPy E (h n (by simp)).2.2.1]

theorem quote_root (E : Env) (imp : Str → Bool) {n : Str} (h : PySegment n) :
    Path.importQuote imp (Path.fromPy E n) = .ok (.import n) := by
  have := fromPy_join E (segs := [n]) (by simp) (by simpa using h)
  simp only [Str.join, List.map_cons, List.map_nil] at this
  rw [this]
  have hpy : Path.toPy ⟨false, [Ident.fromPy E n]⟩ = n := by
    have hs := toPy_segs E 0 (segs := [n]) (by simpa using h)
    simp only [List.replicate_zero, List.nil_append] at hs
    simp only [Path.toPy]
    rw [show [Ident.fromPy E n] = List.map (Ident.fromPy E) [n] from rfl, hs]
    rfl
  simp [Path.importQuote, Path.root, Path.lastPackage, hpy]

/-- The body of the emitted function operates on this object: calls it or one of its methods, or reads or writes an attribute. -/
def Spec.Uses (fn : Fn) (o : Obj) : Prop :=
  (∃ meth pos kw, fn.body = .call o meth pos kw) ∨ (∃ n, fn.body = .getattr o n) ∨ ∃ n x, fn.body = .setattr o n x

theorem generate_dispatch {E : Env} {cfg : Config} {imp : Str → Bool} {taken : List Ident} {lt : LocalTypes} {f : Function} {r : FnImpl}
    {fn : Fn} (h : f.generate E cfg imp taken lt = .ok r) (hfn : fn ∈ fnsOf r) {o : Obj} (ho : Uses fn o) :
    dispatcher imp f.name f.typ = .ok (some o) := by
  obtain ⟨name, _, _, _, _, _, sig, obj, pos, kw, h0, _, _, _, _, _, _, h6, _, _, rfl, _⟩ := generate_fn h hfn
  rcases ho with ⟨m, p, k, hb⟩ | ⟨n, hb⟩ | ⟨n, x, hb⟩
  · cases hb; exact h6
  · cases hb
  · cases hb

theorem accessor_target {E : Env} {cfg : Config} {imp : Str → Bool} {taken : List Ident} {lt : LocalTypes} {p : Property}
    {l : List (Option Fn)} {fn : Fn} (h : p.generate E cfg imp taken lt = .ok l) (hfn : some fn ∈ l) {o : Obj} (ho : Uses fn o) :
    p.target imp = .ok o := by
  have hget : ∀ {fn : Fn}, p.generateGetter E cfg imp taken lt = .ok (some fn) → Uses fn o → p.target imp = .ok o := by
    intro fn hg ho
    obtain ⟨name, ident, ty, obj, h1, h2, h3, h4, rfl⟩ := getter_fn hg
    rcases ho with ⟨m, p, k, hb⟩ | ⟨n, hb⟩ | ⟨n, x, hb⟩ <;> cases hb
    exact h4
  have hset : ∀ {fn : Fn}, p.generateSetter E cfg imp taken lt = .ok (some fn) → Uses fn o → p.target imp = .ok o := by
    intro fn hg ho
    obtain ⟨name, ident, pre, ty, obj, h1, h2, h3, h4, h5, rfl⟩ := setter_fn hg
    rcases ho with ⟨m, p, k, hb⟩ | ⟨n, hb⟩ | ⟨n, x, hb⟩ <;> cases hb
    exact h5
  unfold Property.generate at h
  obtain ⟨g, hg, h⟩ := Res.bind_ok h
  split at h
  · obtain ⟨s, hs, h⟩ := Res.bind_ok h
    cases h
    simp only [List.mem_cons, List.not_mem_nil, or_false] at hfn
    rcases hfn with rfl | rfl
    · exact hget hg ho
    · exact hset hs ho
  · cases h
    rw [List.mem_singleton] at hfn
    subst hfn
    exact hget hg ho

/-- The expression stands for the module or class with the dotted name `segs`. In a fresh interpreter that can import the modules of `imp`, it is the
module if the name has no dot; otherwise it is what the package binds under the last name, or else the submodule if importing the package
has loaded it, and it raises if neither is the case. -/
structure Spec.Refers (imp : Str → Bool) (segs : List Str) (o : Obj) : Prop where
  denotes : Denotes o segs
  top : ∀ R : Runtime, (∀ n, (R.after n).isSome = imp n) → ∀ m L, segs = [m] → R.after m = some L → R.eval o = some (L, (m, []))
  bound : ∀ R : Runtime, (∀ n, (R.after n).isSome = imp n) → ∀ pkg m L, segs = pkg ++ [m] → pkg ≠ [] →
    R.after (Str.join c!"." pkg) = some L → R.binds (Str.join c!"." pkg) [m] = true → R.eval o = some (L, (Str.join c!"." pkg, [m]))
  loaded : ∀ R : Runtime, (∀ n, (R.after n).isSome = imp n) → ∀ pkg m L, segs = pkg ++ [m] → pkg ≠ [] →
    R.after (Str.join c!"." pkg) = some L → R.binds (Str.join c!"." pkg) [m] = false → (Str.join c!"." pkg ++ '.' :: m) ∈ L →
    R.eval o = some (L, (Str.join c!"." pkg ++ '.' :: m, []))
  missing : ∀ R : Runtime, (∀ n, (R.after n).isSome = imp n) → ∀ pkg m L, segs = pkg ++ [m] → pkg ≠ [] →
    R.after (Str.join c!"." pkg) = some L → R.binds (Str.join c!"." pkg) [m] = false → (Str.join c!"." pkg ++ '.' :: m) ∉ L →
    R.eval o = none

theorem quote_refers (E : Env) {imp : Str → Bool} {segs : List Str} (hne : segs ≠ []) (h : ∀ s ∈ segs, PySegment s)
    {o : Obj} (ho : Path.importQuote imp (Path.fromPy E (Str.join c!"." segs)) = .ok o) : Refers imp segs o := by
  have key : ∀ R : Runtime, (∀ n, (R.after n).isSome = imp n) → ∀ pkg m L, segs = pkg ++ [m] → pkg ≠ [] →
      R.after (Str.join c!"." pkg) = some L → o = .getattr (.import (Str.join c!"." pkg)) m := by
    rintro R hR pkg m L rfl hp hL
    rw [quote_parent E hp h (by rw [← hR, hL]; rfl)] at ho
    cases ho
    rfl
  constructor
  · exact quote_denotes E imp hne h ho
  · rintro R - m L rfl hL
    have := quote_root E imp (h m (by simp))
    rw [show Str.join c!"." [m] = m from rfl, this] at ho
    cases ho
    simp [Runtime.eval, hL]
  · intro R hR pkg m L hs hp hL hb
    rw [key R hR pkg m L hs hp hL]
    simp [Runtime.eval, hL, Runtime.attr, hb]
  · intro R hR pkg m L hs hp hL hb hl
    rw [key R hR pkg m L hs hp hL]
    simp [Runtime.eval, hL, Runtime.attr, hb, hl]
  · intro R hR pkg m L hs hp hL hb hl
    rw [key R hR pkg m L hs hp hL]
    simp [Runtime.eval, hL, Runtime.attr, hb, hl]

/-- **C59** (classes): in a fresh interpreter that imports the same modules, what the constructor and the static and class methods of
a class call on is the class, if its module binds the class when it is imported. -/
theorem C59_class (E : Env) (R : Runtime) (cfg : Config) (taken : List Ident) (lt : LocalTypes) (f : Function) (r : FnImpl) (fn : Fn)
    (h : f.generate E cfg (fun s => (R.after s).isSome) taken lt = .ok r) (hfn : fn ∈ fnsOf r) (mods : List Str) (cls : Str)
    (hne : mods ≠ []) (hm : ∀ s ∈ mods ++ [cls], PySegment s) (k : MethodType)
    (ht : f.typ = .method (Path.fromPy E (Str.join c!"." (mods ++ [cls]))) k) (o : Obj) (ho : Uses fn o) (hself : o ≠ .self)
    (L : List Str) (hi : R.after (Str.join c!"." mods) = some L) (hb : R.binds (Str.join c!"." mods) [cls] = true) :
    R.eval o = some (L, (Str.join c!"." mods, [cls])) := by
  have hd := generate_dispatch h hfn ho
  rw [ht] at hd
  have key : ∀ {x : Res (Option Obj)}, (do return some (← Path.importQuote (fun s => (R.after s).isSome)
      (Path.fromPy E (Str.join c!"." (mods ++ [cls]))))) = x → x = .ok (some o) → R.eval o = some (L, (Str.join c!"." mods, [cls])) := by
    rintro x rfl hx
    rw [quote_parent E hne hm (by simp [hi])] at hx
    cases hx
    simp [Runtime.eval, hi, Runtime.attr, hb]
  cases k with
  | instanceMethod => cases hd; exact absurd rfl hself
  | callable => cases hd; exact absurd rfl hself
  | unknown => cases hd
  | _ => exact key rfl hd

/-- **C59** (functions of submodules, exactly): in a fresh interpreter that imports the same modules, what a function of the module
`pkg.m` calls on can be evaluated if and only if the package binds `m` itself or loads the submodule when it is imported. (The
expression imports the package and reads the attribute; it does not import the submodule.) So the claim fails for other packages,
see `C59_submodule_counterexample`. -/
theorem C59_submodule_function_partial (E : Env) (R : Runtime) (cfg : Config) (taken : List Ident) (lt : LocalTypes) (f : Function)
    (r : FnImpl) (fn : Fn) (h : f.generate E cfg (fun s => (R.after s).isSome) taken lt = .ok r) (hfn : fn ∈ fnsOf r)
    (pkg : List Str) (m n : Str) (hne : pkg ≠ []) (hm : ∀ s ∈ pkg ++ [m], PySegment s) (hn : PySegment n)
    (hname : f.name = Path.fromPy E (Str.join c!"." (pkg ++ [m] ++ [n]))) (ht : f.typ = .function ∨ f.typ = .closure)
    (o : Obj) (ho : Uses fn o) (L : List Str) (hi : R.after (Str.join c!"." pkg) = some L) :
    (R.eval o).isSome = true ↔ R.binds (Str.join c!"." pkg) [m] = true ∨ (Str.join c!"." pkg ++ '.' :: m) ∈ L := by
  have hd := generate_dispatch h hfn ho
  have hq : o = .getattr (.import (Str.join c!"." pkg)) m := by
    obtain ⟨hp, -⟩ := parent_fromPy E (mods := pkg ++ [m]) (by simp) hm hn
    rcases ht with ht | ht <;> rw [ht] at hd <;> simp only [dispatcher, hname, hp, Res.ofOption, Res.ok_bind] at hd <;>
      rw [quote_parent E hne hm (by simp [hi])] at hd <;> cases hd <;> rfl
  subst hq
  simp only [Runtime.eval, hi, Option.map_some, Option.bind_some, Runtime.attr, List.nil_append]
  by_cases hb : R.binds (Str.join c!"." pkg) [m] = true
  · simp [hb]
  · by_cases hl : (Str.join c!"." pkg ++ '.' :: m) ∈ L <;> simp [hb, hl]

/-- **C59** (functions of top-level modules): what they call on is the module. -/
theorem C59_top_function (E : Env) (R : Runtime) (cfg : Config) (taken : List Ident) (lt : LocalTypes) (f : Function)
    (r : FnImpl) (fn : Fn) (h : f.generate E cfg (fun s => (R.after s).isSome) taken lt = .ok r) (hfn : fn ∈ fnsOf r)
    (m n : Str) (hm : PySegment m) (hn : PySegment n) (hname : f.name = Path.fromPy E (Str.join c!"." [m, n]))
    (ht : f.typ = .function ∨ f.typ = .closure) (o : Obj) (ho : Uses fn o) (L : List Str) (hi : R.after m = some L) :
    R.eval o = some (L, (m, [])) := by
  have hd := generate_dispatch h hfn ho
  have hq : o = .import m := by
    obtain ⟨hp, -⟩ := parent_fromPy E (mods := [m]) (by simp) (by simpa using hm) hn
    have hp : (Path.fromPy E (Str.join c!"." [m, n])).parent = some (Path.fromPy E m) := hp
    rcases ht with ht | ht <;> rw [ht] at hd <;> simp only [dispatcher, hname, hp, Res.ofOption, Res.ok_bind] at hd <;>
      rw [quote_root E _ hm] at hd <;> cases hd <;> rfl
  subst hq
  simp [Runtime.eval, hi]

/-- **C59** (attributes of modules): what the accessors of an attribute of a top-level module operate on is the module; for an
attribute of `pkg.m` it can be evaluated if and only if the package binds `m` itself or loads the submodule when it is imported. -/
theorem C59_attributes_partial (E : Env) (R : Runtime) (cfg : Config) (taken : List Ident) (lt : LocalTypes) (p : Property)
    (l : List (Option Fn)) (fn : Fn) (h : p.generate E cfg (fun s => (R.after s).isSome) taken lt = .ok l) (hfn : some fn ∈ l)
    (hown : p.owner = .module) (pkg : List Str) (m n : Str) (hm : ∀ s ∈ pkg ++ [m], PySegment s) (hn : PySegment n)
    (hname : p.name = Path.fromPy E (Str.join c!"." (pkg ++ [m] ++ [n]))) (o : Obj) (ho : Uses fn o) (L : List Str) :
    (pkg = [] → R.after m = some L → R.eval o = some (L, (m, []))) ∧
    (pkg ≠ [] → R.after (Str.join c!"." pkg) = some L →
      ((R.eval o).isSome = true ↔ R.binds (Str.join c!"." pkg) [m] = true ∨ (Str.join c!"." pkg ++ '.' :: m) ∈ L)) := by
  have hd := accessor_target h hfn ho
  obtain ⟨hp, -⟩ := parent_fromPy E (mods := pkg ++ [m]) (by simp) hm hn
  simp only [Property.target, hown, hname, hp, Res.ofOption, Res.ok_bind] at hd
  constructor
  · rintro rfl hi
    have := quote_root E (fun s => (R.after s).isSome) (hm m (by simp))
    simp only [List.nil_append, Str.join] at hd
    rw [this] at hd
    cases hd
    simp [Runtime.eval, hi]
  · intro hne hi
    rw [quote_parent E hne hm (by simp [hi])] at hd
    cases hd
    simp only [Runtime.eval, hi, Option.map_some, Option.bind_some, Runtime.attr, List.nil_append]
    by_cases hb : R.binds (Str.join c!"." pkg) [m] = true
    · simp [hb]
    · by_cases hl : (Str.join c!"." pkg ++ '.' :: m) ∈ L <;> simp [hb, hl]

/-- A fresh interpreter with a package `pkg` that does not import its submodule `pkg.sub`. -/
def exRuntime : Runtime where
  after n := if n = c!"pkg" then some [c!"pkg"] else if n = c!"pkg.sub" then some [c!"pkg", c!"pkg.sub"] else none
  binds n l := (n, l) ∈ [(c!"pkg", [c!"f"]), (c!"pkg", [c!"C"]), (c!"pkg.sub", [c!"g"]), (c!"pkg.sub", [c!"D"])]

theorem exRuntime_lawful : exRuntime.Lawful := by
  constructor
  · intro n L h
    simp only [exRuntime] at h
    split at h
    · cases h; subst_vars; simp
    · split at h
      · cases h; subst_vars; simp
      · cases h
  · have key : ∀ (t p s : Str), p ++ '.' :: s = t → p = t.take p.length ∧ t[p.length]? = some '.' ∧ p.length < t.length := by
      rintro t p s rfl
      simp
    intro p s h
    simp only [exRuntime] at h ⊢
    split at h
    · rename_i he
      obtain ⟨h1, h2, h3⟩ := key _ _ _ he
      exact absurd h2 ((by decide : ∀ k < 3, (c!"pkg")[k]? ≠ some '.') _ h3)
    · split at h
      · rename_i he
        obtain ⟨h1, h2, h3⟩ := key _ _ _ he
        rw [h1, (by decide : ∀ k < 7, (c!"pkg.sub")[k]? = some '.' → (c!"pkg.sub").take k = c!"pkg") _ h3 h2]
        simp
      · exact absurd rfl h

/-- The hypotheses of `C59_class`: a static method of `pkg.sub.D`. -/
example : ∃ r fn, (⟨exPath c!"pkg.sub.D.s", .method (exPath c!"pkg.sub.D") .staticMethod, [], .unknown, none⟩ : Function).generate
      exEnv {} (fun s => (exRuntime.after s).isSome) [] [] = .ok r ∧ fnsOf r = [fn] ∧
    Uses fn (.getattr (.import c!"pkg.sub") c!"D") ∧ exRuntime.after c!"pkg.sub" = some [c!"pkg", c!"pkg.sub"] ∧
    exRuntime.binds c!"pkg.sub" [c!"D"] = true :=
  ⟨_, _, rfl, rfl, Or.inl ⟨_, _, _, rfl⟩, by decide, by decide⟩

/-- The hypotheses of `C59_submodule_function_partial` and `C59_top_function`: `pkg.sub.g` and `pkg.f`. -/
example : (∃ r fn, (⟨exPath c!"pkg.sub.g", .function, [], .unknown, none⟩ : Function).generate
      exEnv {} (fun s => (exRuntime.after s).isSome) [] [] = .ok r ∧ fnsOf r = [fn] ∧ Uses fn (.getattr (.import c!"pkg") c!"sub")) ∧
    (∃ r fn, (⟨exPath c!"pkg.f", .function, [], .unknown, none⟩ : Function).generate
      exEnv {} (fun s => (exRuntime.after s).isSome) [] [] = .ok r ∧ fnsOf r = [fn] ∧ Uses fn (.import c!"pkg")) :=
  ⟨⟨_, _, rfl, rfl, Or.inl ⟨_, _, _, rfl⟩⟩, ⟨_, _, rfl, rfl, Or.inl ⟨_, _, _, rfl⟩⟩⟩

/-- The hypotheses of `C59_attributes_partial`: `pkg.sub.x`. -/
example : ∃ fn l, (⟨exPath c!"pkg.sub.x", .module, false, .unknown, .unknown, none, none⟩ : Property).generate
      exEnv {} (fun s => (exRuntime.after s).isSome) [] [] = .ok (some fn :: l) ∧ Uses fn (.getattr (.import c!"pkg") c!"sub") :=
  ⟨_, _, rfl, Or.inr (Or.inl ⟨_, rfl⟩)⟩

/-- The objects that the functions of a module of the bindings operate on. -/
def exObjs : List Str → List Item → List Obj
  | [], items => items.flatMap fun (x : Item) => match x with
    | .func ⟨_, _, _, _, .call o _ _ _⟩ => [o]
    | _ => []
  | n :: ns, items => items.flatMap fun (x : Item) => match x with
    | .mod _ _ m is => if m = n then exObjs ns is else []
    | _ => []

/-- **C59** fails for functions of submodules: the bindings of `pkg` call `pkg.sub.g` on `import pkg` and its attribute `sub`, which
a fresh interpreter does not have, because nothing imports `pkg.sub`. -/
theorem C59_submodule_counterexample :
    (((Codegen.new {}).moduleName exEnv exWorld 3 c!"pkg" >>= fun c => c.generate exEnv exWorld 3).map (exObjs [c!"pkg", c!"sub"])) =
      .ok [.getattr (.import c!"pkg") c!"sub"] ∧
    exRuntime.Lawful ∧ exRuntime.after c!"pkg.sub" ≠ none ∧ exRuntime.binds c!"pkg.sub" [c!"g"] = true ∧
    exRuntime.eval (.getattr (.import c!"pkg") c!"sub") = none :=
  ⟨by decide +kernel, exRuntime_lawful, by decide, by decide, by decide⟩

end Bindgen

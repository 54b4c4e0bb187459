import Verif.Spec.Eval
import Verif.Spec.Trees
/-!
# Lemmas: evaluating the trees of the emitted functions
-/
namespace Bindgen
open Spec

/-- The identifiers of parameters start with `p_`. -/
def IsParam (x : Str) : Prop := ∃ y, x = 'p' :: '_' :: y

theorem IsParam.ne_py {x : Str} (h : IsParam x) : (x == c!"py") = false := by
  obtain ⟨y, rfl⟩ := h; simp

theorem IsParam.ne_self {x : Str} (h : IsParam x) : (x == c!"self") = false := by
  obtain ⟨y, rfl⟩ := h; simp

theorem IsParam.ne_args {x : Str} (h : IsParam x) : (x == c!"__internal__args") = false := by
  obtain ⟨y, rfl⟩ := h; simp

theorem IsParam.ne_kwargs {x : Str} (h : IsParam x) : (x == c!"__internal__kwargs") = false := by
  obtain ⟨y, rfl⟩ := h; simp

/-- Variables of positional arguments. -/
def Pos.vars : Pos → List Str
  | .unit => []
  | .var x => [x]
  | .tuple xs => xs
  | .tupleVar xs x => x :: xs

/-- Variables of keyword arguments. -/
def Kw.vars : Kw → List Str
  | .fresh => []
  | .var x => [x]
  | .freshSet items => items.map Prod.snd
  | .varSet x items => x :: items.map Prod.snd

/-- Variables of a body. -/
def Body.vars : Body → List Str
  | .call _ _ pos kw => (pos.map Pos.vars).getD [] ++ (kw.map Kw.vars).getD []
  | .getattr _ _ => []
  | .setattr _ _ x => [x]

/-- The object of a body. -/
def Body.obj : Body → Obj
  | .call o _ _ _ => o
  | .getattr o _ => o
  | .setattr o _ _ => o

/-- An object that is reached by an import. -/
def Obj.imported : Obj → Prop
  | .self => False
  | .import _ => True
  | .getattr o _ => o.imported

/-- What the generators make sure of. -/
structure Fn.Sane (f : Fn) : Prop where
  params : ∀ p ∈ f.sig.params, IsParam p.1
  pre : ∀ p ∈ f.pre, p.1 ∈ f.sig.params.map Prod.fst
  body : ∀ x ∈ f.body.vars, x ∈ f.sig.params.map Prod.fst
  recv : (f.sig.recv = .py ∧ f.letPy = false ∧ f.body.obj.imported) ∨
    (f.sig.recv = .self ∧ f.body.obj = .self ∧ (f.letPy = true ∨ f.letPy = false ∧ f.pre = [] ∧ ∃ n, f.body = .getattr .self n))

/-- The Rust variables are those of `Spec.run`, `py` and `self`. -/
structure Corr (s : Option RVal) (env : RVars) (vs : Vars) : Prop where
  self : env.lookup c!"self" = s
  py : env.lookup c!"py" = some .py
  vars : ∀ x, IsParam x → env.lookup x = (vs.lookup x).map .val

theorem eval_var (vs : RVars) (x : Str) : eval vs (var x) = vs.lookup x := rfl

theorem eval_absCall (vs : RVars) (l : List Str) (args : List RExpr) :
    eval vs (absCall l args) = (evalAll vs args).bind (apply true (names l)) := by
  simp only [absCall, eval]

theorem eval_intern {vs : RVars} (h : vs.lookup c!"py" = some .py) (s : Str) : eval vs (internTree s) = some (.str s) := by
  simp only [internTree, eval, evalAll, eval_var, h]
  rfl

theorem Corr.set {s : Option RVal} {env : RVars} {vs : Vars} (h : Corr s env vs) {x : Str} (hx : IsParam x) (v : PyVal) :
    Corr s ((x, .val v) :: env) ((x, v) :: vs) where
  self := by
    rw [List.lookup_cons]
    have : (c!"self" == x) = false := by rw [← Bool.not_eq_true, beq_iff_eq]; rintro rfl; obtain ⟨y, hy⟩ := hx; cases hy
    rw [this]; exact h.self
  py := by
    rw [List.lookup_cons]
    have : (c!"py" == x) = false := by rw [← Bool.not_eq_true, beq_iff_eq]; rintro rfl; obtain ⟨y, hy⟩ := hx; cases hy
    rw [this]; exact h.py
  vars z hz := by
    rw [List.lookup_cons, List.lookup_cons]
    split
    · rfl
    · exact h.vars z hz

/-- Shadowed bindings do not matter. -/
theorem Corr.set2 {s : Option RVal} {env : RVars} {vs : Vars} (h : Corr s env vs) {x : Str} (hx : IsParam x) (u : RVal) (v : PyVal) :
    Corr s ((x, .val v) :: (x, u) :: env) ((x, v) :: vs) where
  self := by
    rw [List.lookup_cons, List.lookup_cons]
    have : (c!"self" == x) = false := by rw [← Bool.not_eq_true, beq_iff_eq]; rintro rfl; obtain ⟨y, hy⟩ := hx; cases hy
    rw [this]; exact h.self
  py := by
    rw [List.lookup_cons, List.lookup_cons]
    have : (c!"py" == x) = false := by rw [← Bool.not_eq_true, beq_iff_eq]; rintro rfl; obtain ⟨y, hy⟩ := hx; cases hy
    rw [this]; exact h.py
  vars z hz := by
    rw [List.lookup_cons, List.lookup_cons, List.lookup_cons]
    split
    · rfl
    · exact h.vars z hz

theorem lookup_skip {x y : Str} {v : RVal} {env : RVars} (h : (x == y) = false) : ((y, v) :: env).lookup x = env.lookup x := by
  rw [List.lookup_cons, h]

/-! ## Conversions -/

theorem eval_intoDict {env : RVars} (hpy : env.lookup c!"py" = some .py) {x : Str} {o : Option PyVal}
    (hx : env.lookup x = o.map .val) : eval env (intoDictTree x) = (o.bind entries).map (fun d => .val (.dict d)) := by
  simp only [intoDictTree, eval_absCall, evalAll, eval_var, hpy, hx]
  cases o <;> rfl

theorem eval_newDict {env : RVars} (hpy : env.lookup c!"py" = some .py) : eval env newDict = some (.val (.dict [])) := by
  simp only [newDict, eval_absCall, evalAll, eval_var, hpy]
  rfl

theorem eval_intoPy {env : RVars} (hpy : env.lookup c!"py" = some .py) (t : Str) {x : Str} {o : Option PyVal}
    (hx : env.lookup x = o.map .val) : eval env (intoPyTree t x) = (o.bind (intoPy t)).map .val := by
  simp only [intoPyTree, eval, evalAll, eval_var, hpy, hx]
  cases o with
  | none => rfl
  | some v =>
    simp only [Option.map_some, Option.bind_some, gen, names, List.map_cons, List.map_nil, List.nil_append, List.cons_append, apply,
      intoPyTarget]
    rfl

theorem eval_method (env : RVars) (e : RExpr) (m : Str) {args : List RExpr} (h : ∀ x b, args ≠ [.closure x b]) :
    eval env (.method e m args) = (eval env e).bind (fun v => (evalAll env args).bind (applyMethod m v)) := by
  rw [eval]
  · cases eval env e <;> rfl
  · exact h

theorem eval_bind {env : RVars} (hpy : env.lookup c!"py" = some .py) {x : Str} {v : PyVal} (hx : env.lookup x = some (.val v)) :
    eval env (.method (var x) c!"bind" [var c!"py"]) = some (.val v) := by
  rw [eval_method _ _ _ (by intro _ _; simp [var])]
  simp only [eval_var, hx, evalAll, hpy]
  rfl

theorem exec_let (env : RVars) (m : Bool) (x : Str) (e : RExpr) (ss : List RStmt) :
    exec env (.let m x e :: ss) = (eval env e).bind (fun v => exec ((x, v) :: env) ss) := by
  rw [exec]

theorem exec_into {s : Option RVal} {env : RVars} {vs : Vars} (h : Corr s env vs) {x : Str} (hx : IsParam x) {v : PyVal} (hv : vs.lookup x = some v)
    (t : Str) (rest : List RStmt) :
    exec env (.let false x (intoPyTree t x) :: .let false x (.method (var x) c!"bind" [var c!"py"]) :: rest) =
      (intoPy t v).bind (fun w => exec ((x, .val w) :: (x, .val w) :: env) rest) := by
  have he : env.lookup x = (some v).map .val := by rw [h.vars x hx, hv]
  rw [exec_let, eval_intoPy h.py t he]
  simp only [Option.bind_some]
  cases intoPy t v with
  | none => rfl
  | some w =>
    simp only [Option.map_some, Option.bind_some]
    rw [exec_let, eval_bind (h.set hx w).py (by rw [List.lookup_cons, beq_self_eq_true])]
    rfl

theorem Corr.same {s : Option RVal} {env : RVars} {vs : Vars} (h : Corr s env vs) {x : Str} {v : PyVal} (hv : vs.lookup x = some v) :
    Corr s env ((x, v) :: vs) where
  self := h.self
  py := h.py
  vars z hz := by
    rw [List.lookup_cons]
    split
    · next e => rw [beq_iff_eq] at e; subst e; rw [h.vars _ hz, hv]
    · exact h.vars z hz

/-- A conversion does what `Spec.conv` says. -/
theorem exec_pre {s : Option RVal} {env : RVars} {vs : Vars} (h : Corr s env vs) {x : Str} (hx : IsParam x) {v : PyVal}
    (hv : vs.lookup x = some v) (p : Pre) (rest : List RStmt) :
    (conv p v = none ∧ exec env (preTree x p ++ rest) = none) ∨
    ∃ w env', conv p v = some w ∧ exec env (preTree x p ++ rest) = exec env' rest ∧ Corr s env' ((x, w) :: vs) := by
  have he : env.lookup x = (some v).map .val := by rw [h.vars x hx, hv]
  cases p with
  | none => exact .inr ⟨v, env, rfl, rfl, h.same hv⟩
  | intoAny =>
    simp only [preTree, List.cons_append, List.nil_append]
    rw [exec_into h hx hv]
    have : intoPy c!"PyAny" v = some v := by cases v <;> rfl
    rw [this]
    exact .inr ⟨v, _, rfl, rfl, h.set2 hx _ _⟩
  | intoTuple =>
    simp only [preTree, List.cons_append, List.nil_append]
    rw [exec_into h hx hv]
    cases v with
    | tuple l => exact .inr ⟨_, _, rfl, rfl, h.set2 hx _ _⟩
    | _ => exact .inl ⟨rfl, rfl⟩
  | intoDict =>
    simp only [preTree, List.cons_append, List.nil_append]
    rw [exec_let, eval_intoDict h.py he]
    cases v with
    | dict d => exact .inr ⟨_, _, rfl, rfl, h.set hx _⟩
    | _ => exact .inl ⟨rfl, rfl⟩
  | optDict =>
    simp only [preTree, List.cons_append, List.nil_append]
    rw [exec_let, eval, eval_var, he]
    have hd : ∀ w : PyVal, eval ((x, .val w) :: env) (.block [] (intoDictTree x)) = (entries w).map (fun d => .val (.dict d)) := by
      intro w
      rw [eval, exec, Option.bind_some, eval_intoDict (h.set hx w).py (o := some w) (by rw [List.lookup_cons, beq_self_eq_true]; rfl)]
      rfl
    have hn : eval env (.block [] newDict) = some (.val (.dict [])) := by rw [eval, exec, Option.bind_some, eval_newDict h.py]
    cases v with
    | none => 
      simp only [Option.map_some, hn, if_true]
      exact .inr ⟨_, _, rfl, rfl, h.set hx _⟩
    | dict d => 
      simp only [Option.map_some, hd, if_true]
      exact .inr ⟨_, _, rfl, rfl, h.set hx _⟩
    | _ => 
      simp only [Option.map_some, hd, if_true]
      exact .inl ⟨rfl, rfl⟩

theorem exec_pres {s : Option RVal} {l : List (Str × Pre)} {names : List Str} (hl : ∀ p ∈ l, p.1 ∈ names) (hn : ∀ x ∈ names, IsParam x) :
    ∀ {env : RVars} {vs : Vars}, Corr s env vs → (∀ x ∈ names, (vs.lookup x).isSome) →
    (runPre vs l = none ∧ exec env (l.flatMap (fun xp => preTree xp.1 xp.2)) = none) ∨
    ∃ vs' env', runPre vs l = some vs' ∧ exec env (l.flatMap (fun xp => preTree xp.1 xp.2)) = some env' ∧ Corr s env' vs' ∧
      ∀ x ∈ names, (vs'.lookup x).isSome := by
  induction l with
  | nil => intro env vs h hv; exact .inr ⟨vs, env, rfl, by simp only [List.flatMap_nil, exec], h, hv⟩
  | cons p l ih =>
    obtain ⟨x, p⟩ := p
    intro env vs h hv
    have hx : x ∈ names := hl (x, p) (by simp)
    obtain ⟨v, hvx⟩ := Option.isSome_iff_exists.1 (hv x hx)
    simp only [List.flatMap_cons]
    rcases exec_pre h (hn x hx) hvx p (l.flatMap (fun xp => preTree xp.1 xp.2)) with ⟨hc, he⟩ | ⟨w, env', hc, he, h'⟩
    · exact .inl ⟨by simp only [runPre, hvx, Option.bind_some, hc], he⟩
    · simp only [runPre, hvx, Option.bind_some, hc, he]
      refine ih (fun q hq => hl q (by simp [hq])) h' ?_
      intro z hz
      rw [List.lookup_cons]
      split
      · rfl
      · exact hv z hz

/-! ## Arguments -/

theorem eval_toObject {env : RVars} (hpy : env.lookup c!"py" = some .py) {x : Str} {o : Option PyVal}
    (hx : env.lookup x = o.map .val) : eval env (toObjectTree x) = o.map .val := by
  simp only [toObjectTree, eval_absCall, evalAll, eval, eval_var, hpy, hx]
  cases o <;> rfl

theorem eval_array {env : RVars} {vs : Vars} (hpy : env.lookup c!"py" = some .py) {xs : List Str}
    (hx : ∀ x ∈ xs, env.lookup x = (vs.lookup x).map .val) : 
    eval env (.array (xs.map toObjectTree)) = (vals vs xs).map .list := by
  rw [eval]
  have : evalAll env (xs.map toObjectTree) = (vals vs xs).map (List.map .val) := by
    induction xs with
    | nil => rfl
    | cons x xs ih =>
      simp only [List.map_cons, evalAll, vals]
      rw [eval_toObject hpy (hx x (by simp)), ih (fun z hz => hx z (by simp [hz]))]
      cases vs.lookup x <;> cases vals vs xs <;> rfl
  rw [this]
  cases vals vs xs with
  | none => rfl
  | some l =>
    simp only [Option.map_some, Option.bind_some]
    have : allVals (l.map .val) = some l := by
      induction l with
      | nil => rfl
      | cons v l ih => simp only [List.map_cons, allVals, ih, Option.map_some]
    rw [this]; rfl

theorem eval_newTuple {env : RVars} (hpy : env.lookup c!"py" = some .py) (e : RExpr) {o : Option (List PyVal)}
    (he : eval env e = o.map .list) : eval env (newTuple e) = o.map (fun l => .val (.tuple l)) := by
  simp only [newTuple, eval_absCall, evalAll, eval_var, hpy, he]
  cases o <;> rfl

theorem exec_extend (env : RVars) (x : Str) (e : RExpr) (ss : List RStmt) {l : List PyVal} (hx : env.lookup x = some (.list l))
    {o : Option (List PyVal)} (he : eval env e = o.map .list) :
    exec env (.expr (.method (var x) c!"extend" [e]) :: ss) = o.bind (fun r => exec ((x, .list (l ++ r)) :: env) ss) := by
  show exec env (.expr (.method (.path false [.mk x []]) c!"extend" [e]) :: ss) = _
  rw [exec, hx, he]
  cases o <;> rfl

theorem exec_setItem {env : RVars} (hpy : env.lookup c!"py" = some .py) (x k : Str) (e : RExpr) (ss : List RStmt)
    {d : List (Str × PyVal)} (hx : env.lookup x = some (.val (.dict d))) {o : Option PyVal} (he : eval env e = o.map .val) :
    exec env (.expr (absCall [c!"pyo3", c!"types", c!"PyDictMethods", c!"set_item"] [.ref (var x), internTree k, e]) :: ss) =
      o.bind (fun v => exec ((x, .val (.dict (setItem d k v))) :: env) ss) := by
  show exec env (.expr (.call (.path true (names [c!"pyo3", c!"types", c!"PyDictMethods", c!"set_item"]))
    [.ref (.path false [.mk x []]), internTree k, e]) :: ss) = _
  rw [exec, hx, he, eval_intern hpy]
  cases o <;> rfl

theorem exec_setItem_bad (env : RVars) (x k : Str) (e : RExpr) (ss : List RStmt) {v : PyVal} (hx : env.lookup x = some (.val v))
    (hv : entries v = none) :
    exec env (.expr (absCall [c!"pyo3", c!"types", c!"PyDictMethods", c!"set_item"] [.ref (var x), internTree k, e]) :: ss) = none := by
  show exec env (.expr (.call (.path true (names [c!"pyo3", c!"types", c!"PyDictMethods", c!"set_item"]))
    [.ref (.path false [.mk x []]), internTree k, e]) :: ss) = _
  rw [exec, hx]
  cases v with
  | dict d => cases hv
  | _ => rfl

theorem mapM_toObject {env : RVars} (hpy : env.lookup c!"py" = some .py) (l : List PyVal) :
    (l.mapM (fun v => eval ((c!"__internal__arg", .val v) :: env) (toObjectTree c!"__internal__arg"))).bind allVals = some l := by
  have : ∀ v : PyVal, eval ((c!"__internal__arg", .val v) :: env) (toObjectTree c!"__internal__arg") = some (.val v) := by
    intro v
    exact eval_toObject (o := some v) (by rw [lookup_skip (by decide), hpy]) (by rw [List.lookup_cons, beq_self_eq_true]; rfl)
  simp only [this]
  induction l with
  | nil => rfl
  | cons v l ih =>
    rw [List.mapM_cons]
    cases h : l.mapM (fun v => some (RVal.val v)) with
    | none => rw [h] at ih; cases ih
    | some r =>
      rw [h] at ih
      simp only [Option.bind_some] at ih
      simp only [Option.bind_eq_bind, Option.bind_some, Option.pure_def, allVals, ih, Option.map_some]

theorem eval_iterMap {env : RVars} (hpy : env.lookup c!"py" = some .py) {x : Str} {o : Option PyVal} (hx : env.lookup x = o.map .val) :
    eval env (.method (absCall [c!"pyo3", c!"types", c!"PyTupleMethods", c!"iter"] [var x]) c!"map"
      [.closure c!"__internal__arg" (toObjectTree c!"__internal__arg")]) = (o.bind elems).map .list := by
  rw [eval, eval_absCall]
  simp only [evalAll, eval_var, hx]
  cases o with
  | none => rfl
  | some v =>
    have : apply true (names [c!"pyo3", c!"types", c!"PyTupleMethods", c!"iter"]) [.val v] = (elems v).map .list := rfl
    simp only [Option.map_some, Option.bind_some, this]
    cases elems v with
    | none => rfl
    | some l =>
      simp only [Option.map_some, if_true, mapM_toObject hpy l]

theorem eval_capacity {env : RVars} {x : Str} {o : Option PyVal} (hx : env.lookup x = o.map .val) (n : Nat) :
    eval env (.call (.path false (names [c!"Vec", c!"with_capacity"]))
      [.add (.num n) (absCall [c!"pyo3", c!"types", c!"PyTupleMethods", c!"len"] [var x])]) = (o.bind elems).map (fun _ => .list []) := by
  simp only [eval, evalAll, eval_absCall, eval_var, hx]
  cases o with
  | none => rfl
  | some v =>
    have : apply true (names [c!"pyo3", c!"types", c!"PyTupleMethods", c!"len"]) [.val v] = (elems v).map (fun l => .num l.length) := rfl
    simp only [Option.map_some, Option.bind_some, this]
    cases elems v <;> rfl

/-- Positional arguments. -/
theorem eval_pos {s : Option RVal} {env : RVars} {vs : Vars} (h : Corr s env vs) (p : Pos) (hp : ∀ x ∈ p.vars, IsParam x) :
    (eval env p.tree).bind callArgs = evalPos vs (some p) := by
  cases p with
  | unit => simp only [Pos.tree, eval]; rfl
  | var x =>
    simp only [Pos.tree, eval_var, h.vars x (hp x (by simp [Pos.vars])), evalPos]
    cases vs.lookup x with
    | none => rfl
    | some v => cases v <;> rfl
  | tuple xs =>
    simp only [Pos.tree, evalPos]
    rw [eval_newTuple h.py _ (eval_array (xs := xs) h.py (fun x hx => h.vars x (hp x hx)))]
    cases vals vs xs <;> rfl
  | tupleVar xs x =>
    have hx : env.lookup x = (vs.lookup x).map .val := h.vars x (hp x (by simp [Pos.vars]))
    simp only [Pos.tree, evalPos]
    rw [eval, exec_let, eval_capacity hx]
    cases hl : (vs.lookup x).bind elems with
    | none => cases vals vs xs <;> rfl
    | some l =>
      simp only [Option.map_some, Option.bind_some]
      have hpy : ∀ u, ((c!"__internal__args", u) :: env).lookup c!"py" = some RVal.py := by
        intro u; rw [lookup_skip (by decide), h.py]
      have hv : ∀ u, ∀ z, IsParam z → ((c!"__internal__args", u) :: env).lookup z = (vs.lookup z).map .val := by
        intro u z hz; rw [lookup_skip hz.ne_args, h.vars z hz]
      rw [exec_extend _ _ _ _ (l := []) (by rw [List.lookup_cons, beq_self_eq_true])
        (eval_array (hpy _) (fun z hz => hv _ z (hp z (by simp [Pos.vars, hz]))))]
      cases vals vs xs with
      | none => rfl
      | some r =>
        simp only [Option.bind_some, List.nil_append]
        rw [exec_extend _ _ _ _ (l := r) (by rw [List.lookup_cons, beq_self_eq_true])
          (eval_iterMap (x := x) (by rw [lookup_skip (by decide), hpy])
            (by rw [lookup_skip (hp x (by simp [Pos.vars])).ne_args, hv _ x (hp x (by simp [Pos.vars]))])), hl]
        simp only [Option.bind_some, exec]
        rw [eval_newTuple (o := some (r ++ l)) (by rw [lookup_skip (by decide), lookup_skip (by decide), hpy]) _
          (by rw [eval_var, List.lookup_cons, beq_self_eq_true]; rfl)]
        rfl

theorem eval_setItems {vs : Vars} (items : List (Str × Str)) (hi : ∀ x ∈ items.map Prod.snd, IsParam x) :
    ∀ {env : RVars} {d : List (Str × PyVal)}, env.lookup c!"py" = some .py → (∀ x, IsParam x → env.lookup x = (vs.lookup x).map .val) →
    env.lookup c!"__internal__kwargs" = some (.val (.dict d)) →
    (exec env (setItemsTree items)).bind (fun e => eval e (var c!"__internal__kwargs")) =
      (setItems vs d items).map (fun d => .val (.dict d)) := by
  induction items with
  | nil => intro env d _ _ hk; simp only [setItemsTree, List.map_nil, exec, Option.bind_some, eval_var, hk, setItems, Option.map_some]
  | cons kx items ih =>
    obtain ⟨k, x⟩ := kx
    intro env d hpy hv hk
    have hx : IsParam x := hi x (by simp)
    simp only [setItemsTree, List.map_cons]
    rw [exec_setItem hpy _ _ _ _ hk (o := vs.lookup x) (by rw [eval_var, hv x hx])]
    simp only [setItems]
    cases vs.lookup x with
    | none => rfl
    | some v =>
      simp only [Option.bind_some]
      exact ih (fun z hz => hi z (by simp only [List.map_cons, List.mem_cons]; exact .inr hz)) (by rw [lookup_skip (by decide), hpy])
        (fun z hz => by rw [lookup_skip hz.ne_kwargs, hv z hz]) (by rw [List.lookup_cons, beq_self_eq_true])

/-- Keyword arguments. -/
theorem eval_kw {s : Option RVal} {env : RVars} {vs : Vars} (h : Corr s env vs) (k : Kw) (hk : ∀ x ∈ k.vars, IsParam x) :
    ∃ o : Option PyVal, eval env k.tree = o.map .val ∧ o.bind entries = evalKw vs (some k) := by
  have skip : ∀ u, ((c!"__internal__kwargs", u) :: env).lookup c!"py" = some RVal.py := by
    intro u; rw [lookup_skip (by decide), h.py]
  have hv : ∀ u, ∀ z, IsParam z → ((c!"__internal__kwargs", u) :: env).lookup z = (vs.lookup z).map .val := by
    intro u z hz; rw [lookup_skip hz.ne_kwargs, h.vars z hz]
  cases k with
  | fresh => exact ⟨some (.dict []), eval_newDict h.py, rfl⟩
  | var x => exact ⟨vs.lookup x, h.vars x (hk x (by simp [Kw.vars])), rfl⟩
  | freshSet items =>
    refine ⟨(setItems vs [] items).map .dict, ?_, ?_⟩
    · simp only [Kw.tree]
      rw [eval, exec_let, eval_newDict h.py, Option.bind_some]
      rw [eval_setItems items hk (skip _) (hv _) (by rw [List.lookup_cons, beq_self_eq_true])]
      cases setItems vs [] items <;> rfl
    · simp only [evalKw]; cases setItems vs [] items <;> rfl
  | varSet x items =>
    have hx := h.vars x (hk x (by simp [Kw.vars]))
    simp only [Kw.tree, evalKw]
    rw [eval, exec_let, eval_var, hx]
    cases vs.lookup x with
    | none => exact ⟨none, rfl, rfl⟩
    | some v =>
      simp only [Option.map_some, Option.bind_some]
      have bad : entries v = none → ∃ o : Option PyVal,
          (exec ((c!"__internal__kwargs", .val v) :: env) (setItemsTree items)).bind (fun e => eval e (var c!"__internal__kwargs")) =
            o.map .val ∧ o.bind entries = none := by
        intro he
        cases items with
        | nil => exact ⟨some v, by simp only [setItemsTree, List.map_nil, exec, Option.bind_some, eval_var, List.lookup_cons, beq_self_eq_true, Option.map_some], he⟩
        | cons i items =>
          refine ⟨none, ?_, rfl⟩
          simp only [setItemsTree, List.map_cons]
          rw [exec_setItem_bad _ _ _ _ _ (by rw [List.lookup_cons, beq_self_eq_true]) he]
          rfl
      cases v with
      | dict d =>
        rw [eval_setItems items (fun z hz => hk z (by simp only [Kw.vars, List.mem_cons]; exact .inr hz)) (skip _) (hv _)
          (by rw [List.lookup_cons, beq_self_eq_true])]
        refine ⟨(setItems vs d items).map .dict, ?_, ?_⟩
        · cases setItems vs d items <;> rfl
        · show _ = setItems vs d items
          cases setItems vs d items <;> rfl
      | _ => exact bad rfl

/-! ## The request -/

/-- An object. -/
theorem eval_obj {env : RVars} (o : Obj) (h : (o.imported ∧ env.lookup c!"py" = some .py) ∨
    (env.lookup c!"py" = some .py ∧ env.lookup c!"self" = some (.obj .self)) ∨ (o = .self ∧ env.lookup c!"self" = some (.obj .self))) :
    eval env o.tree = some (.obj o) := by
  induction o with
  | self =>
    simp only [Obj.tree, eval_var]
    rcases h with ⟨h, _⟩ | ⟨_, h⟩ | ⟨_, h⟩
    · exact h.elim
    · exact h
    · exact h
  | «import» pkg =>
    have hpy : env.lookup c!"py" = some .py := by rcases h with ⟨_, h⟩ | ⟨h, _⟩ | ⟨h, _⟩ <;> first | exact h | cases h
    simp only [Obj.tree]
    rw [eval, eval_method _ _ _ (by intro _ _; simp [internTree])]
    simp only [evalAll, eval_intern hpy, eval_var, hpy]
    rfl
  | getattr o name ih =>
    have hpy : env.lookup c!"py" = some .py := by rcases h with ⟨_, h⟩ | ⟨h, _⟩ | ⟨h, _⟩ <;> first | exact h | cases h
    have h' : eval env o.tree = some (.obj o) := by
      refine ih ?_
      rcases h with h | h | h
      · exact .inl h
      · exact .inr (.inl h)
      · cases h.1
    simp only [Obj.tree, anyCall]
    rw [eval, eval_absCall]
    have ha : eval env (.method o.tree c!"as_any" []) = some (.obj o) := by
      rw [eval_method _ _ _ (by intro _ _; simp), h']
      cases o <;> rfl
    simp only [evalAll, ha, eval_intern hpy]
    rfl

theorem eval_asAny {env : RVars} {o : Obj} (h : eval env o.tree = some (.obj o)) : eval env o.asAny = some (.obj o) := by
  simp only [Obj.asAny]
  rw [eval_method _ _ _ (by intro _ _; simp), h]
  cases o <;> rfl

theorem eval_any (env : RVars) (m : Str) (args : List RExpr) : eval env (anyCall m args) = (evalAll env args).bind (anyMethod m) := by
  rw [anyCall, eval_absCall]
  cases evalAll env args with
  | none => rfl
  | some l => rfl

theorem eval_some {s : Option RVal} {env : RVars} {vs : Vars} (h : Corr s env vs) (k : Kw) (hk : ∀ x ∈ k.vars, IsParam x) :
    (eval env (.call (var c!"Some") [.ref k.tree])).bind callKwargs = evalKw vs (some k) := by
  obtain ⟨o, he, ho⟩ := eval_kw h k hk
  rw [← ho]
  show (eval env (.call (.path false [.mk c!"Some" []]) [.ref k.tree])).bind callKwargs = _
  simp only [eval, evalAll, he]
  cases o with
  | none => rfl
  | some v => cases v <;> rfl

theorem any_call0 (o : Obj) : anyMethod c!"call0" [.obj o] = some (.result (.called (.call o none [] []))) := by
  cases o <;> rfl

theorem any_call1 (o : Obj) (u : RVal) :
    anyMethod c!"call1" [.obj o, u] = (callArgs u).map (fun a => .result (.called (.call o none a []))) := by
  cases u <;> rfl

theorem any_call (o : Obj) (u k : RVal) :
    anyMethod c!"call" [.obj o, u, k] =
      (callArgs u).bind (fun a => (callKwargs k).map (fun k => .result (.called (.call o none a k)))) := by
  cases u with
  | str s => cases k <;> rfl
  | _ =>
    simp only [anyMethod, if_true, Option.bind_eq_bind]
    generalize callKwargs k = y
    generalize callArgs _ = x
    cases x <;> cases y <;> rfl

theorem any_method1 (o : Obj) (m : Str) (u : RVal) :
    anyMethod c!"call_method1" [.obj o, .str m, u] = (callArgs u).map (fun a => .result (.called (.call o (some m) a []))) := by
  cases u <;> rfl

theorem any_method (o : Obj) (m : Str) (u k : RVal) :
    anyMethod c!"call_method" [.obj o, .str m, u, k] =
      (callArgs u).bind (fun a => (callKwargs k).map (fun k => .result (.called (.call o (some m) a k)))) := by
  simp only [anyMethod, if_true, Option.bind_eq_bind]
  generalize callKwargs k = y
  generalize callArgs _ = x
  cases x <;> cases y <;> rfl

theorem bind_two {a b : Option RVal} {x : Option (List PyVal)} {y : Option (List (Str × PyVal))} (ha : a.bind callArgs = x)
    (hb : b.bind callKwargs = y) (f : List PyVal → List (Str × PyVal) → RVal) :
    (a.bind fun u => b.bind fun k => (callArgs u).bind (fun a => (callKwargs k).map (fun k => f a k))) =
      x.bind (fun a => y.map (fun k => f a k)) := by
  subst ha; subst hb
  cases a with
  | none => rfl
  | some u =>
    cases b with
    | none => simp only [Option.bind_some, Option.bind_none]; cases callArgs u <;> rfl
    | some k => simp only [Option.bind_some]

/-- The call. -/
theorem eval_call {s : Option RVal} {env : RVars} {vs : Vars} (h : Corr s env vs) {obj : Obj} (ho : eval env obj.tree = some (.obj obj))
    (meth : Option Str) (pos : Option Pos) (kw : Option Kw) (hv : ∀ x ∈ (Body.call obj meth pos kw).vars, IsParam x) :
    eval env (callTree obj meth pos kw) =
      (evalPos vs pos).bind (fun a => (evalKw vs kw).map (fun k => .result (.called (.call obj meth a k)))) := by
  have ha := eval_asAny ho
  have hk : ∀ k, kw = some k → (eval env (.call (var c!"Some") [.ref k.tree])).bind callKwargs = evalKw vs (some k) := by
    rintro k rfl
    exact eval_some h k (fun x hx => hv x (by simp only [Body.vars, Option.map_some, Option.getD_some, List.mem_append]; exact .inr hx))
  have hp : ∀ p, pos = some p → (eval env p.tree).bind callArgs = evalPos vs (some p) := by
    rintro p rfl
    exact eval_pos h p (fun x hx => hv x (by simp only [Body.vars, Option.map_some, Option.getD_some, List.mem_append]; exact .inl hx))
  have hpu : (eval env (pos.getD .unit).tree).bind callArgs = evalPos vs pos := by
    cases pos with
    | none => simp only [Option.getD_none, Pos.tree, eval]; rfl
    | some p => exact hp p rfl
  cases meth with
  | none =>
    cases kw with
    | some k =>
      simp only [callTree]
      rw [eval_any, ← bind_two hpu (hk k rfl)]
      simp only [evalAll, ha]
      cases eval env (pos.getD .unit).tree with
      | none => rfl
      | some u =>
        cases eval env (.call (var c!"Some") [.ref k.tree]) with
        | none => rfl
        | some k => exact any_call obj u k
    | none =>
      cases pos with
      | some p =>
        simp only [callTree]
        rw [eval_any, ← hp p rfl]
        simp only [evalAll, ha]
        cases eval env p.tree with
        | none => rfl
        | some u =>
          show anyMethod _ _ = _
          rw [any_call1]
          show _ = (callArgs u).bind _
          cases callArgs u <;> rfl
      | none =>
        simp only [callTree]
        rw [eval_any]
        simp only [evalAll, ha]
        exact any_call0 obj
  | some m =>
    cases kw with
    | some k =>
      simp only [callTree]
      rw [eval_any, ← bind_two hpu (hk k rfl)]
      simp only [evalAll, ha, eval_intern h.py]
      cases eval env (pos.getD .unit).tree with
      | none => rfl
      | some u =>
        cases eval env (.call (var c!"Some") [.ref k.tree]) with
        | none => rfl
        | some k => exact any_method obj m u k
    | none =>
      cases pos with
      | some p =>
        simp only [callTree]
        rw [eval_any, ← hp p rfl]
        simp only [evalAll, ha, eval_intern h.py]
        cases eval env p.tree with
        | none => rfl
        | some u =>
          show anyMethod _ _ = _
          rw [any_method1]
          show _ = (callArgs u).bind _
          cases callArgs u <;> rfl
      | none =>
        simp only [callTree]
        rw [eval_any]
        simp only [evalAll, ha, eval_intern h.py]
        rfl

/-- What a body asks for, given the values of the variables. -/
def Body.request (vs : Vars) : Body → Option Request
  | .call obj meth pos kw => do return .call obj meth (← evalPos vs pos) (← evalKw vs kw)
  | .getattr obj name => some (.get obj name)
  | .setattr obj name x => do return .set obj name (← vs.lookup x)

theorem eval_extract (env : RVars) (e : RExpr) {v : RVal} (he : eval env e = some (.result v)) :
    eval env (anyCall c!"extract" [.ref (.try e)]) = anyMethod c!"extract" [v] := by
  rw [eval_any]
  simp only [evalAll]
  rw [eval, eval, he]
  rfl

theorem eval_getSelf {env : RVars} (h : env.lookup c!"self" = some (.obj .self)) (name : Str) :
    eval env (Body.getattr .self name).tree = some (.result (.done (.get .self name))) := by
  simp only [Body.tree]
  refine (eval_extract _ _ (v := .obj (.getattr .self name)) ?_).trans rfl
  rw [eval_any]
  have hpy : eval env (.method (var c!"self") c!"py" []) = some .py := by
    rw [eval_method _ _ _ (by intro _ _; simp), eval_var, h]; rfl
  have ho : eval env Obj.self.tree = some (.obj .self) := eval_obj .self (.inr (.inr ⟨rfl, h⟩))
  have hi : eval env (.mac true (names [c!"pyo3", c!"intern"]) [.method (var c!"self") c!"py" [], .str name]) = some (.str name) := by
    rw [eval]; simp only [evalAll, hpy]; rw [eval]; rfl
  simp only [evalAll, eval_asAny ho, hi]
  rfl

theorem eval_getattr {env : RVars} (hpy : env.lookup c!"py" = some .py) {o : Obj} (ho : eval env o.tree = some (.obj o)) (name : Str) :
    eval env (anyCall c!"getattr" [o.asAny, internTree name]) = some (.result (.obj (.getattr o name))) := by
  rw [eval_any]
  simp only [evalAll, eval_asAny ho, eval_intern hpy]
  rfl

theorem eval_body {s : Option RVal} {env : RVars} {vs : Vars} (h : Corr s env vs) {b : Body}
    (ho : eval env b.obj.tree = some (.obj b.obj)) (hs : b.obj = .self → s = some (.obj .self)) (hv : ∀ x ∈ b.vars, IsParam x) :
    eval env b.tree = (b.request vs).map (fun r => .result (.done r)) := by
  cases b with
  | call obj meth pos kw =>
    simp only [Body.tree, Body.request]
    have hc := eval_call (obj := obj) h ho meth pos kw hv
    cases hp : evalPos vs pos with
    | none =>
      rw [hp] at hc
      rw [eval_any]; simp only [evalAll]; rw [eval, eval, hc]; rfl
    | some a =>
      cases hk : evalKw vs kw with
      | none =>
        rw [hp, hk] at hc
        rw [eval_any]; simp only [evalAll]; rw [eval, eval, hc]; rfl
      | some k =>
        rw [hp, hk] at hc
        exact (eval_extract _ _ hc).trans rfl
  | getattr obj name =>
    cases obj with
    | self => rw [eval_getSelf (h.self.trans (hs rfl))]; rfl
    | «import» pkg => exact (eval_extract _ _ (eval_getattr h.py ho name)).trans rfl
    | getattr o n => exact (eval_extract _ _ (eval_getattr h.py ho name)).trans rfl
  | setattr obj name x =>
    simp only [Body.tree, Body.request]
    rw [eval_any]
    simp only [evalAll, eval_asAny (o := obj) ho, eval_intern h.py, eval_var, h.vars x (hv x (by simp [Body.vars]))]
    cases vs.lookup x <;> rfl

theorem bind_typed (ps : List (Str × RsTy)) (args : List PyVal) :
    bindParams (ps.map (fun p => .typed p.1 p.2.tree)) (args.map .val) =
      if args.length ≠ ps.length then none else some (((ps.map Prod.fst).zip args).map (fun p => (p.1, .val p.2))) := by
  induction ps generalizing args with
  | nil => cases args <;> simp [bindParams]
  | cons p ps ih =>
    cases args with
    | nil => simp [bindParams]
    | cons a args =>
      simp only [List.map_cons, bindParams, ih, List.length_cons, List.zip_cons_cons]
      by_cases h : args.length = ps.length <;> simp [h]

theorem lookup_vals (l : List (Str × PyVal)) (x : Str) :
    (l.map (fun p => (p.1, RVal.val p.2))).lookup x = (l.lookup x).map .val := by
  induction l with
  | nil => rfl
  | cons p l ih =>
    rw [List.map_cons, List.lookup_cons, List.lookup_cons]
    split
    · rfl
    · exact ih

theorem lookup_isSome {l : List Str} {vs : List PyVal} (h : vs.length = l.length) {x : Str} (hx : x ∈ l) :
    ((l.zip vs).lookup x).isSome := by
  induction l generalizing vs with
  | nil => cases hx
  | cons y l ih =>
    cases vs with
    | nil => cases h
    | cons v vs =>
      rw [List.zip_cons_cons, List.lookup_cons]
      split
      · rfl
      · next e =>
        rcases List.mem_cons.1 hx with rfl | hx
        · simp at e
        · exact ih (by simpa using h) hx

/-- The value of the first parameter. -/
def Recv.val : Recv → RVal
  | .py => .py
  | .self => .obj .self

theorem run_eq (f : Fn) (args : List PyVal) : run f args =
    if args.length ≠ f.sig.params.length then none
    else (runPre ((f.sig.params.map Prod.fst).zip args) f.pre).bind f.body.request := by
  rw [run]
  split
  · rfl
  · cases runPre ((f.sig.params.map Prod.fst).zip args) f.pre with
    | none => rfl
    | some vs => cases f.body <;> rfl

/-- Evaluating the tree of an emitted function makes the request of `Spec.run`. -/
theorem eval_fn {f : Fn} (h : f.Sane) (args : List PyVal) :
    RFn.call f.tree (f.sig.recv.val :: args.map .val) = (run f args).map (fun r => .result (.done r)) := by
  rw [run_eq]
  simp only [RFn.call, Fn.tree, Sig.tree]
  have hb : bindParams (f.sig.recv.tree :: f.sig.params.map (fun p => .typed p.1 p.2.tree)) (f.sig.recv.val :: args.map .val) =
      (bindParams (f.sig.params.map (fun p => .typed p.1 p.2.tree)) (args.map .val)).map
        (((match f.sig.recv with | .py => c!"py" | .self => c!"self"), f.sig.recv.val) :: ·) := by
    cases f.sig.recv <;> rfl
  rw [hb, bind_typed]
  by_cases hl : args.length = f.sig.params.length
  · have hl' : ¬ args.length ≠ f.sig.params.length := fun hne => hne hl
    rw [if_neg hl', if_neg hl']
    simp only [Option.map_some, Option.bind_some]
    have hsome : ∀ x ∈ f.sig.params.map Prod.fst, (((f.sig.params.map Prod.fst).zip args).lookup x).isSome :=
      fun x hx => lookup_isSome (by simpa using hl) hx
    have hpar : ∀ x ∈ f.sig.params.map Prod.fst, IsParam x := by
      intro x hx; obtain ⟨p, hp, rfl⟩ := List.mem_map.1 hx; exact h.params p hp
    rcases h.recv with ⟨hr, hlet, hi⟩ | ⟨hr, ho, hlet | ⟨hlet, hpre, n, hbody⟩⟩
    · rw [hr, hlet, eval]
      simp only [Recv.val, Bool.false_eq_true, if_false, List.nil_append]
      have hc : Corr (List.lookup c!"self" ((c!"py", RVal.py) :: (((f.sig.params.map Prod.fst).zip args).map (fun p => (p.1, RVal.val p.2)))))
          ((c!"py", .py) :: (((f.sig.params.map Prod.fst).zip args).map (fun p => (p.1, .val p.2)))) ((f.sig.params.map Prod.fst).zip args) :=
        ⟨rfl, by rw [List.lookup_cons, beq_self_eq_true], fun x hx => by rw [lookup_skip hx.ne_py, lookup_vals]⟩
      rcases exec_pres h.pre hpar hc hsome with ⟨h1, h2⟩ | ⟨vs, env, h1, h2, hc', _⟩
      · rw [h1, h2]; rfl
      · rw [h1, h2]
        simp only [Option.bind_some]
        refine eval_body hc' (eval_obj _ (.inl ⟨hi, hc'.py⟩)) ?_ fun x hx => hpar x (h.body x hx)
        intro e; rw [e] at hi; exact hi.elim
    · rw [hr, hlet, eval]
      simp only [Recv.val, if_true, List.cons_append, List.nil_append]
      rw [exec_let, eval_method _ _ _ (by intro _ _; simp), eval_var, List.lookup_cons, beq_self_eq_true]
      simp only [Option.bind_some, evalAll]
      have hc : Corr (some (.obj .self))
          ((c!"py", .py) :: (c!"self", .obj .self) :: (((f.sig.params.map Prod.fst).zip args).map (fun p => (p.1, .val p.2))))
          ((f.sig.params.map Prod.fst).zip args) :=
        ⟨by rw [lookup_skip (by decide), List.lookup_cons, beq_self_eq_true], by rw [List.lookup_cons, beq_self_eq_true],
          fun x hx => by rw [lookup_skip hx.ne_py, lookup_skip hx.ne_self, lookup_vals]⟩
      have hs : applyMethod c!"py" (.obj .self) [] = some .py := rfl
      rw [hs, Option.bind_some]
      rcases exec_pres h.pre hpar hc hsome with ⟨h1, h2⟩ | ⟨vs, env, h1, h2, hc', _⟩
      · rw [h1, h2]; rfl
      · rw [h1, h2]
        simp only [Option.bind_some]
        refine eval_body hc' (eval_obj _ (.inr (.inl ⟨hc'.py, hc'.self⟩))) (fun _ => rfl) fun x hx => hpar x (h.body x hx)
    · rw [hr, hlet, hpre, hbody, eval]
      simp only [Recv.val, Bool.false_eq_true, if_false, List.nil_append, List.flatMap_nil, exec, Option.bind_some, runPre, Body.request,
        Option.map_some]
      exact eval_getSelf (by rw [List.lookup_cons, beq_self_eq_true]) n
  · rw [if_pos hl, if_pos hl]; rfl

end Bindgen

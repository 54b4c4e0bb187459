import Verif.Spec.Effects
import Verif.Lemmas.Eval
/-!
# The templates of the bindings, evaluated step by step
-/
namespace Bindgen
open Spec

/-- Expressions that ask Python nothing. -/
def Silent (e : RExpr) : Prop := ∀ A vs tr v, eval vs e = some v → go A vs tr e = (tr, .val v)

/-- The same for several expressions. -/
def SilentAll (es : List RExpr) : Prop := ∀ A vs tr l, evalAll vs es = some l → goAll A vs tr es = (tr, .ok l)

/-- The same for statements. -/
def SilentStmts (ss : List RStmt) : Prop := ∀ A vs tr vs', exec vs ss = some vs' → goStmts A vs tr ss = (tr, .ok vs')

theorem silentAll_of {es : List RExpr} (h : ∀ e ∈ es, Silent e) : SilentAll es := by
  induction es with
  | nil => intro A vs tr l hl; rw [evalAll] at hl; cases hl; rw [goAll]
  | cons e es ih =>
    intro A vs tr l hl
    rw [evalAll] at hl
    split at hl
    · rename_i v l' h1 h2
      cases hl
      rw [goAll, h e (by simp) A vs tr v h1]
      simp only
      rw [ih (fun x hx => h x (by simp [hx])) A vs tr l' h2]
    · cases hl

theorem silent_var (x : Str) : Silent (var x) := by
  intro A vs tr v h
  rw [eval_var] at h
  show go A vs tr (.path false [.mk x []]) = _
  rw [go, h]
  rfl

theorem silent_str (s : Str) : Silent (.str s) := by intro A vs tr v h; rw [eval] at h; cases h; rw [go]
theorem silent_num (n : Nat) : Silent (.num n) := by intro A vs tr v h; rw [eval] at h; cases h; rw [go]
theorem silent_unit : Silent .unit := by intro A vs tr v h; rw [eval] at h; cases h; rw [go]
theorem silent_ref {e : RExpr} (he : Silent e) : Silent (.ref e) := by intro A vs tr v h; rw [eval] at h; rw [go, he A vs tr v h]

theorem silent_two {a b : RExpr} (ha : Silent a) (hb : Silent b) : ∀ e ∈ [a, b], Silent e := by
  intro x hx
  rcases List.mem_cons.1 hx with rfl | hx
  · exact ha
  · rw [List.mem_singleton.1 hx]; exact hb

theorem finish_val {A : Answers} {tr : List Step} {v : RVal} (h : ∀ u, v ≠ .result u) : finish A tr (some v) = (tr, .val v) := by
  cases v <;> first | rfl | exact absurd rfl (h _)

theorem silent_call {g : Bool} {segs : List RSeg} {args : List RExpr} (ha : ∀ e ∈ args, Silent e)
    (hr : ∀ l v, apply g segs l ≠ some (.result v)) : Silent (.call (.path g segs) args) := by
  intro A vs tr v h
  rw [eval] at h
  cases hl : evalAll vs args with
  | none => rw [hl] at h; cases h
  | some l =>
    rw [hl] at h
    have h : apply g segs l = some v := h
    rw [go, silentAll_of ha A vs tr l hl]
    simp only
    rw [h]
    exact finish_val fun u hu => hr l u (by rw [h, hu])

/-- The only function beside those of `PyAnyMethods` that gives a result. -/
theorem plainCall_result {g : Bool} {f : List Str} {l : List RVal} {v : RVal} (h : plainCall g f l = some (.result v)) :
    f = [c!"pyo3", c!"types", c!"PyModule", c!"from_code_bound"] := by
  unfold plainCall at h
  split at h
  · split at h <;> cases h
  · split at h <;> cases h
  · split at h <;> cases h
  · split at h
    · rename_i hc; exact hc.2
    · cases h
  · split at h
    · cases h
    · split at h
      · rename_i v _ _
        cases hx : entries v <;> rw [hx] at h <;> cases h
      · cases h
  · rename_i v
    split at h
    · cases hx : elems v <;> rw [hx] at h <;> cases h
    · split at h
      · cases hx : elems v <;> rw [hx] at h <;> cases h
      · split at h <;> cases h
  · cases h

theorem silent_absCall {l : List Str} {args : List RExpr} (ha : ∀ e ∈ args, Silent e)
    (hl : ∀ vs, apply true (names l) vs = plainCall true l vs) (hn : l ≠ [c!"pyo3", c!"types", c!"PyModule", c!"from_code_bound"]) :
    Silent (absCall l args) :=
  silent_call ha fun vs _ h => hn (plainCall_result ((hl vs).symm.trans h))

theorem silent_intern {e : RExpr} (he : Silent e) (s : Str) : Silent (.mac true (names [c!"pyo3", c!"intern"]) [e, .str s]) := by
  intro A vs tr v h
  rw [eval] at h
  cases hl : evalAll vs [e, .str s] with
  | none => rw [hl] at h; cases h
  | some l =>
    rw [hl] at h
    rw [go, silentAll_of (silent_two he (silent_str s)) A vs tr l hl]
    split at h
    · rename_i s' heq
      cases heq
      split at h
      · rename_i hc
        cases h
        simp only [hc, and_self, if_true]
      · cases h
    · cases h

theorem silent_internTree (s : Str) : Silent (internTree s) := silent_intern (silent_var _) s

theorem applyMethod_result {m : Str} {v : RVal} {l : List RVal} {u : RVal} (h : applyMethod m v l = some (.result u)) : m = c!"import_bound" := by
  unfold applyMethod at h
  split at h
  · split at h
    · assumption
    · cases h
  · split at h
    · cases h
    · split at h <;> cases h
  · split at h <;> cases h
  · split at h <;> cases h
  · cases h

theorem silent_method {e : RExpr} {m : Str} {args : List RExpr} (hc : ∀ x b, args ≠ [.closure x b]) (he : Silent e) (ha : ∀ e ∈ args, Silent e)
    (hm : m ≠ c!"import_bound") : Silent (.method e m args) := by
  intro A vs tr v h
  rw [eval_method _ _ _ hc] at h
  cases h1 : eval vs e with
  | none => rw [h1] at h; cases h
  | some u =>
    cases h2 : evalAll vs args with
    | none => rw [h1, h2] at h; cases h
    | some l =>
      rw [h1, h2] at h
      have h : applyMethod m u l = some v := h
      rw [go, he A vs tr u h1]
      · simp only
        rw [silentAll_of ha A vs tr l h2]
        simp only
        rw [h]
        exact finish_val fun w hw => hm (applyMethod_result (by rw [h, hw]))
      · exact hc

theorem silent_intoDict (x : Str) : Silent (intoDictTree x) :=
  silent_absCall (by simp [silent_var]) (fun _ => rfl) (by decide)

theorem silent_newDict : Silent newDict := silent_absCall (by simp [silent_var]) (fun _ => rfl) (by decide)

theorem silent_intoPy (t x : Str) : Silent (intoPyTree t x) := by
  refine silent_call (by simp [silent_var]) fun l v h => ?_
  simp only [gen, names, List.map_cons, List.map_nil, List.nil_append, List.cons_append, apply, intoPyTarget] at h
  split at h
  · rename_i w _
    split at h
    · cases hy : intoPy _ w <;> rw [hy] at h <;> cases h
    · cases h
  · cases h
  · rename_i hx; cases hx

theorem silent_bind (x : Str) : Silent (.method (var x) c!"bind" [var c!"py"]) :=
  silent_method (by intro _ _; simp [var]) (silent_var x) (by simp [silent_var]) (by decide)

theorem silent_let {m : Bool} {x : Str} {e : RExpr} {ss : List RStmt} (he : Silent e) (hs : SilentStmts ss) : SilentStmts (.let m x e :: ss) := by
  intro A vs tr vs' h
  rw [exec_let] at h
  cases h1 : eval vs e with
  | none => rw [h1] at h; cases h
  | some v =>
    rw [h1] at h
    rw [goStmts, he A vs tr v h1]
    exact hs A _ tr vs' h

theorem silent_nil : SilentStmts [] := by intro A vs tr vs' h; rw [exec] at h; cases h; rw [goStmts]

theorem silent_block {ss : List RStmt} {e : RExpr} (hs : SilentStmts ss) (he : Silent e) : Silent (.block ss e) := by
  intro A vs tr v h
  rw [eval] at h
  cases h1 : exec vs ss with
  | none => rw [h1] at h; cases h
  | some vs' =>
    rw [h1] at h
    rw [go, hs A vs tr vs' h1]
    exact he A vs' tr v h

theorem silent_ifLet {c x : Str} {e a b : RExpr} (he : Silent e) (ha : Silent a) (hb : Silent b) : Silent (.ifLet c x e a b) := by
  intro A vs tr v h
  rw [eval] at h
  cases h1 : eval vs e with
  | none => rw [h1] at h; cases h
  | some u =>
    rw [h1] at h
    rw [go, he A vs tr u h1]
    split at h
    · rename_i heq
      cases heq
      split at h
      · rename_i hc
        simp only [hc, if_true]
        exact hb A vs tr v h
      · cases h
    · rename_i w hw heq
      cases heq
      split at h
      · rename_i hc
        have := ha A ((x, .val w) :: vs) tr v h
        cases w with
        | none => exact absurd rfl hw
        | _ => simp only [hc, if_true]; exact this
      · cases h
    · cases h

theorem silent_pre (x : Str) (p : Pre) {ss : List RStmt} (hs : SilentStmts ss) : SilentStmts (preTree x p ++ ss) := by
  cases p with
  | none => exact hs
  | intoDict => exact silent_let (silent_intoDict x) hs
  | intoTuple => exact silent_let (silent_intoPy _ x) (silent_let (silent_bind x) hs)
  | intoAny => exact silent_let (silent_intoPy _ x) (silent_let (silent_bind x) hs)
  | optDict =>
    exact silent_let (silent_ifLet (silent_var x) (silent_block silent_nil (silent_intoDict x)) (silent_block silent_nil silent_newDict)) hs

theorem silent_pres (l : List (Str × Pre)) : SilentStmts (l.flatMap (fun xp => preTree xp.1 xp.2)) := by
  induction l with
  | nil => exact silent_nil
  | cons p l ih => rw [List.flatMap_cons]; exact silent_pre _ _ ih

theorem silent_toObject (x : Str) : Silent (toObjectTree x) :=
  silent_absCall (silent_two (silent_ref (silent_var x)) (silent_var _))
    (fun _ => rfl) (by decide)

theorem silent_array {es : List RExpr} (h : ∀ e ∈ es, Silent e) : Silent (.array es) := by
  intro A vs tr v hv
  rw [eval] at hv
  cases h1 : evalAll vs es with
  | none => rw [h1] at hv; cases hv
  | some l =>
    rw [h1] at hv
    have hv : (allVals l).map .list = some v := hv
    rw [go, silentAll_of h A vs tr l h1]
    simp only
    rw [hv]
    rfl

theorem silent_newTuple {e : RExpr} (he : Silent e) : Silent (newTuple e) :=
  silent_absCall (silent_two (silent_var _) he) (fun _ => rfl) (by decide)

theorem silent_add {a b : RExpr} (ha : Silent a) (hb : Silent b) : Silent (.add a b) := by
  intro A vs tr v h
  rw [eval] at h
  split at h
  · rename_i m n h1 h2
    cases h
    rw [go, ha A vs tr _ h1]
    simp only
    rw [hb A vs tr _ h2]
  · cases h

theorem silent_extend {x : Str} {e : RExpr} {ss : List RStmt} (he : Silent e) (hs : SilentStmts ss) :
    SilentStmts (.expr (.method (var x) c!"extend" [e]) :: ss) := by
  intro A vs tr vs' h
  have h : exec vs (.expr (.method (.path false [.mk x []]) c!"extend" [e]) :: ss) = some vs' := h
  show goStmts A vs tr (.expr (.method (.path false [.mk x []]) c!"extend" [e]) :: ss) = _
  rw [exec] at h
  split at h
  · rename_i l r h1 h2
    rw [if_pos rfl] at h
    rw [goStmts, h1, he A vs tr _ h2]
    simp only [if_true]
    exact hs A _ tr vs' h
  · cases h

theorem foldl_collect {F : List Step × Option (List PyVal) → PyVal → List Step × Option (List PyVal)} {f : PyVal → Option RVal} {tr : List Step}
    (hF : ∀ acc v w, f v = some (.val w) → F (tr, some acc) v = (tr, some (acc ++ [w]))) (l : List PyVal) :
    ∀ (acc ws : List PyVal), (l.mapM f).bind allVals = some ws → l.foldl F (tr, some acc) = (tr, some (acc ++ ws)) := by
  induction l with
  | nil =>
    intro acc ws hw
    simp only [List.mapM_nil, Option.pure_def, Option.bind_some, allVals, Option.some.injEq] at hw
    subst hw
    simp
  | cons u l ih =>
    intro acc ws hw
    rw [List.mapM_cons] at hw
    cases h2 : f u with
    | none => rw [h2] at hw; cases hw
    | some w =>
      cases h3 : l.mapM f with
      | none => rw [h2, h3] at hw; cases hw
      | some r =>
        rw [h2, h3] at hw
        have hw : allVals (w :: r) = some ws := hw
        cases w with
        | val w =>
          rw [allVals] at hw
          cases h4 : allVals r with
          | none => rw [h4] at hw; cases hw
          | some r' =>
            rw [h4] at hw
            obtain rfl : w :: r' = ws := Option.some.inj hw
            rw [List.foldl_cons, hF _ _ _ h2, ih (acc ++ [w]) r' (by rw [h3]; exact h4)]
            simp
        | _ => cases hw

theorem silent_map {e b : RExpr} {x : Str} (he : Silent e) (hb : Silent b) : Silent (.method e c!"map" [.closure x b]) := by
  intro A vs tr v h
  rw [eval] at h
  split at h
  · rename_i l h1
    rw [if_pos rfl] at h
    rw [go, he A vs tr _ h1]
    simp only [if_true]
    cases h5 : (l.mapM (fun v => eval ((x, .val v) :: vs) b)).bind allVals with
    | none => rw [h5] at h; cases h
    | some ws =>
      rw [h5] at h
      cases h
      rw [foldl_collect (f := fun v => eval ((x, .val v) :: vs) b) (tr := tr) ?_ l [] ws h5]
      · rfl
      · intro acc v w hw
        simp only [hb A _ tr _ hw]
  · cases h

theorem silent_pos (p : Pos) : Silent p.tree := by
  cases p with
  | unit => exact silent_unit
  | var x => exact silent_var x
  | tuple xs => exact silent_newTuple (silent_array fun e he => by obtain ⟨x, -, rfl⟩ := List.mem_map.1 he; exact silent_toObject x)
  | tupleVar xs x =>
    refine silent_block (silent_let ?_ (silent_extend ?_ (silent_extend ?_ silent_nil))) (silent_newTuple (silent_var _))
    · refine silent_call ?_ ?_
      · simp only [List.mem_singleton, forall_eq]
        exact silent_add (silent_num _) (silent_absCall (by simp [silent_var]) (fun _ => rfl) (by decide))
      · intro l v h
        exact absurd (plainCall_result (g := false) (f := [c!"Vec", c!"with_capacity"]) (l := l) h) (by decide)
    · exact silent_array fun e he => by obtain ⟨x, -, rfl⟩ := List.mem_map.1 he; exact silent_toObject x
    · exact silent_map (silent_absCall (by simp [silent_var]) (fun _ => rfl) (by decide)) (silent_toObject _)

/-! ## Steps -/

theorem walk_append (A : Answers) (tr S T : List Step) : walk A tr (S ++ T) =
    match walk A tr S with
    | (t, none) => walk A t T
    | (t, some x) => (t, some x) := by
  induction S generalizing tr with
  | nil => rfl
  | cons s S ih =>
    rw [List.cons_append, walk, walk]
    cases A tr s with
    | none => exact ih _
    | some x => rfl

/-- An expression without `?` at its end. -/
def Ends (p : List Step × Out) (q : List Step × Except Exc RVal) : Prop :=
  match q with
  | (t, .ok v) => p = (t, .val (.result v))
  | (t, .error x) => p = (t, .failed x) ∨ p = (t, .ret x)

/-- Asking once. -/
def asked (A : Answers) (tr : List Step) (s : Step) (v : RVal) : List Step × Except Exc RVal :=
  match A tr s with
  | none => (tr ++ [s], .ok v)
  | some x => (tr ++ [s], .error x)

/-- Going on if nothing has failed. -/
def thenOf {α β : Type} (q : List Step × Except Exc α) (k : List Step → α → List Step × Except Exc β) : List Step × Except Exc β :=
  match q with
  | (t, .ok v) => k t v
  | (t, .error x) => (t, .error x)

/-- Steps that end in a value. -/
def reached (w : List Step × Option Exc) (v : RVal) : List Step × Except Exc RVal :=
  match w with
  | (tr, none) => (tr, .ok v)
  | (tr, some x) => (tr, .error x)

/-- The end of an expression with a `?`. -/
def tried (q : List Step × Except Exc RVal) : List Step × Out :=
  match q with
  | (t, .ok v) => (t, .val v)
  | (t, .error x) => (t, .ret x)

theorem go_try {A : Answers} {env : RVars} {tr : List Step} {e : RExpr} {q : List Step × Except Exc RVal} (h : Ends (go A env tr e) q) :
    go A env tr (.try e) = tried q := by
  rw [go]
  obtain ⟨t, v | x⟩ := q
  · rcases h with h | h <;> rw [h] <;> rfl
  · have h : go A env tr e = (t, .val (.result x)) := h
    rw [h]; rfl

theorem ends_finish {A : Answers} {tr : List Step} {w : RVal} {s : Step} (hs : stepOf w = some s) :
    Ends (finish A tr (some (.result w))) (asked A tr s w) := by
  simp only [finish, hs, asked]
  cases A tr s with
  | none => rfl
  | some x => exact .inl rfl

/-- A function whose first argument may fail. -/
theorem go_path {A : Answers} {env : RVars} {tr : List Step} {g : Bool} {segs : List RSeg} {e : RExpr} {es : List RExpr}
    {q : List Step × Except Exc RVal} {T : List Step → List Step} {l : List Step → List RVal} {w : List Step → RVal → RVal}
    {s : List Step → RVal → Step} (h1 : go A env tr e = tried q) (h2 : ∀ t, goAll A env t es = (T t, .ok (l t)))
    (h3 : ∀ t u, q = (t, .ok u) → apply g segs (u :: l t) = some (.result (w t u)) ∧ stepOf (w t u) = some (s t u)) :
    Ends (go A env tr (.call (.path g segs) (e :: es))) (thenOf q (fun t u => asked A (T t) (s t u) (w t u))) := by
  rw [go, goAll, h1]
  obtain ⟨t, x | u⟩ := q
  · exact .inr rfl
  · simp only [tried, h2, thenOf]
    obtain ⟨h3, h4⟩ := h3 t u rfl
    rw [h3]
    exact ends_finish h4

/-- A function of `PyAnyMethods` whose first argument may fail. -/
theorem go_any {A : Answers} {env : RVars} {tr : List Step} {m : Str} {e : RExpr} {es : List RExpr} {q : List Step × Except Exc RVal}
    {T : List Step → List Step} {l : List Step → List RVal} {w : List Step → RVal → RVal} {s : List Step → RVal → Step}
    (h1 : go A env tr e = tried q) (h2 : ∀ t, goAll A env t es = (T t, .ok (l t)))
    (h3 : ∀ t u, q = (t, .ok u) → anyMethod m (u :: l t) = some (.result (w t u)) ∧ stepOf (w t u) = some (s t u)) :
    Ends (go A env tr (anyCall m (e :: es))) (thenOf q (fun t u => asked A (T t) (s t u) (w t u))) := by
  exact go_path h1 h2 h3

theorem go_method (A : Answers) (env : RVars) (tr : List Step) {e : RExpr} {m : Str} {args : List RExpr} (hc : ∀ x b, args ≠ [.closure x b]) :
    go A env tr (.method e m args) =
      match go A env tr e with
      | (tr, .val v) =>
        match goAll A env tr args with
        | (tr, .ok l) => finish A tr (applyMethod m v l)
        | (tr, .error o) => (tr, o)
      | (tr, o) => (tr, o.pass) := by
  rw [go]
  · rfl
  · exact hc

theorem go_asAny {A : Answers} {env : RVars} {tr : List Step} {o : Obj} {w : List Step × Option Exc}
    (h : go A env tr o.tree = tried (reached w (.obj o))) : go A env tr o.asAny = tried (reached w (.obj o)) := by
  rw [Obj.asAny, go_method _ _ _ (by intro _ _ h; cases h), h]
  obtain ⟨t, _ | x⟩ := w
  · simp only [reached, tried, goAll]
    cases o <;> rfl
  · rfl

theorem silentAll_goAll {es : List RExpr} (h : ∀ e ∈ es, Silent e) {env : RVars} {l : List RVal} (hl : evalAll env es = some l) (A : Answers)
    (t : List Step) : goAll A env t es = (t, .ok l) := silentAll_of h A env t l hl

theorem reached_append (A : Answers) (tr S : List Step) (s : Step) (u v : RVal) :
    thenOf (reached (walk A tr S) u) (fun t _ => asked A t s v) = reached (walk A tr (S ++ [s])) v := by
  rw [walk_append]
  cases h : walk A tr S with
  | mk t o =>
    cases o with
    | some x => rfl
    | none =>
      simp only [reached, thenOf, asked, walk]
      cases A t s <;> rfl

/-- An object. -/
theorem go_obj {env : RVars} (A : Answers) (tr : List Step) (o : Obj) (h : (o.imported ∧ env.lookup c!"py" = some .py) ∨
    (env.lookup c!"py" = some .py ∧ env.lookup c!"self" = some (.obj .self)) ∨ (o = .self ∧ env.lookup c!"self" = some (.obj .self))) :
    go A env tr o.tree = tried (reached (walk A tr (reach o)) (.obj o)) := by
  induction o with
  | self =>
    exact silent_var _ A env tr _ (eval_obj .self h)
  | «import» pkg =>
    have hpy : env.lookup c!"py" = some .py := by rcases h with ⟨_, h⟩ | ⟨h, _⟩ | ⟨h, _⟩ <;> first | exact h | cases h
    rw [Obj.tree]
    refine (go_try (q := asked A tr (.import pkg) (.obj (.import pkg))) ?_).trans ?_
    · rw [go_method _ _ _ (by intro _ _ h; cases h), silent_var _ A env tr .py hpy]
      simp only
      rw [silentAll_goAll (l := [.str pkg]) (by simp [silent_internTree]) (by rw [evalAll, evalAll, eval_intern hpy])]
      exact ends_finish rfl
    · simp only [reach, walk, asked]
      cases A tr (.import pkg) <;> rfl
  | getattr o name ih =>
    have hpy : env.lookup c!"py" = some .py := by rcases h with ⟨_, h⟩ | ⟨h, _⟩ | ⟨h, _⟩ <;> first | exact h | cases h
    have h' := go_asAny (ih (by
      rcases h with h | h | h
      · exact .inl h
      · exact .inr (.inl h)
      · cases h.1))
    rw [Obj.tree]
    refine (go_try (go_any (T := fun t => t) (l := fun _ => [.str name]) (w := fun _ _ => .obj (.getattr o name)) (s := fun _ _ => .getattr o name) h'
      (silentAll_goAll (by simp [silent_internTree]) (by rw [evalAll, evalAll, eval_intern hpy]) A) ?_)).trans ?_
    · intro t u hq
      have : u = .obj o := by
        cases hw : walk A tr (reach o) with
        | mk t o => rw [hw] at hq; cases o <;> cases hq; rfl
      subst this
      exact ⟨rfl, rfl⟩
    · rw [reached_append]; rfl

theorem reached_ok {w : List Step × Option Exc} {v u : RVal} {t : List Step} (h : reached w v = (t, .ok u)) : u = v := by
  obtain ⟨t, _ | x⟩ := w <;> cases h
  rfl

/-! ## Keyword arguments -/

/-- The entries for items of keyword arguments. -/
inductive Fetched (vs : Vars) : List (Str × Str) → List (Str × PyVal) → Prop
  | nil : Fetched vs [] []
  | cons {k x : Str} {v : PyVal} {items : List (Str × Str)} {es : List (Str × PyVal)} :
      vs.lookup x = some v → Fetched vs items es → Fetched vs ((k, x) :: items) ((k, v) :: es)

theorem setItems_entries {vs : Vars} {items : List (Str × Str)} : ∀ {d d' : List (Str × PyVal)}, setItems vs d items = some d' →
    ∃ es, Fetched vs items es ∧ d' = putAll d es := by
  induction items with
  | nil => intro d d' h; cases h; exact ⟨[], .nil, rfl⟩
  | cons i items ih =>
    obtain ⟨k, x⟩ := i
    intro d d' h
    rw [setItems] at h
    cases hx : vs.lookup x with
    | none => rw [hx] at h; cases h
    | some v =>
      rw [hx] at h
      obtain ⟨es, he, rfl⟩ := ih h
      exact ⟨(k, v) :: es, .cons hx he, rfl⟩

theorem fetched_keys {vs : Vars} {items : List (Str × Str)} {es : List (Str × PyVal)} (h : Fetched vs items es) :
    es.map Prod.fst = items.map Prod.fst := by
  induction h with
  | nil => rfl
  | cons _ _ ih => rw [List.map_cons, List.map_cons, ih]

theorem go_setItems {vs : Vars} {items : List (Str × Str)} {es : List (Str × PyVal)}
    (he : Fetched vs items es) : (∀ x ∈ items.map Prod.snd, IsParam x) → ∀ (A : Answers)
    {env : RVars} {d : List (Str × PyVal)} (tr : List Step), env.lookup c!"py" = some .py →
    (∀ x, IsParam x → env.lookup x = (vs.lookup x).map .val) → env.lookup c!"__internal__kwargs" = some (.val (.dict d)) →
    ∃ env', goStmts A env tr (setItemsTree items) = ((stored A tr d es).1, .ok env') ∧
      env'.lookup c!"__internal__kwargs" = some (.val (.dict (stored A tr d es).2)) := by
  induction he with
  | nil => intro _ A env d tr _ _ hk; exact ⟨env, by rw [setItemsTree, List.map_nil, goStmts]; rfl, hk⟩
  | @cons k' x v items es hx _ ih =>
    intro hi A env d tr hpy hv hk
    have hxp : IsParam x := hi x (by simp)
    have hx' : env.lookup x = some (.val v) := by rw [hv x hxp, hx]; rfl
    have hi' : ∀ z ∈ items.map Prod.snd, IsParam z := fun z hz => hi z (by simp only [List.map_cons, List.mem_cons]; exact .inr hz)
    have hstep : goStmts A env tr (setItemsTree ((k', x) :: items)) =
        match A tr (.setItem k' v) with
        | none => goStmts A ((c!"__internal__kwargs", .val (.dict (setItem d k' v))) :: env) (tr ++ [.setItem k' v]) (setItemsTree items)
        | some _ => goStmts A env (tr ++ [.setItem k' v]) (setItemsTree items) := by
      show goStmts A env tr (.expr (.call (.path true (names [c!"pyo3", c!"types", c!"PyDictMethods", c!"set_item"]))
        [.ref (.path false [.mk c!"__internal__kwargs" []]), internTree k', var x]) :: setItemsTree items) = _
      rw [goStmts, hk, silent_internTree k' A env tr _ (eval_intern hpy k')]
      simp only
      rw [silent_var x A env tr _ hx']
      rfl
    rw [hstep]
    simp only [stored]
    cases A tr (.setItem k' v) with
    | some _ => exact ih hi' A _ hpy hv hk
    | none =>
      exact ih hi' A _ (by rw [lookup_skip (by decide), hpy]) (fun z hz => by rw [lookup_skip hz.ne_kwargs, hv z hz])
        (by rw [List.lookup_cons, beq_self_eq_true])

/-- Keyword arguments: a dictionary and the entries that are stored in it. -/
theorem go_kw {s : Option RVal} {env : RVars} {vs : Vars} (h : Corr s env vs) (k : Kw) (hk : ∀ x ∈ k.vars, IsParam x) {d' : List (Str × PyVal)}
    (hd : evalKw vs (some k) = some d') (o : Obj) (m : Option Str) (p : Option Pos) :
    ∃ d es, d' = putAll d es ∧ es.map Prod.fst = keysOf (.call o m p (some k)) ∧ ∀ A tr, go A env tr k.tree = ((stored A tr d es).1, .val (.val (.dict (stored A tr d es).2))) := by
  have key : ∀ (e : RExpr) (d : List (Str × PyVal)) (items : List (Str × Str)), (∀ x ∈ items.map Prod.snd, IsParam x) → Silent e →
      eval env e = some (.val (.dict d)) → setItems vs d items = some d' →
      ∃ es, d' = putAll d es ∧ es.map Prod.fst = items.map Prod.fst ∧ ∀ A tr,
      go A env tr (.block (.let false c!"__internal__kwargs" e :: setItemsTree items) (var c!"__internal__kwargs")) =
        ((stored A tr d es).1, .val (.val (.dict (stored A tr d es).2))) := by
    intro e d items hi hs he hd
    obtain ⟨es, hes, rfl⟩ := setItems_entries hd
    refine ⟨es, rfl, fetched_keys hes, fun A tr => ?_⟩
    rw [go, goStmts, hs A env tr _ he]
    simp only
    obtain ⟨env', h1, h2⟩ := go_setItems hes hi A (env := (c!"__internal__kwargs", .val (.dict d)) :: env) (d := d) tr
      (by rw [lookup_skip (by decide), h.py]) (fun z hz => by rw [lookup_skip hz.ne_kwargs, h.vars z hz]) (by rw [List.lookup_cons, beq_self_eq_true])
    rw [h1]
    exact silent_var _ A env' _ _ h2
  have dict : ∀ {v : PyVal} {d : List (Str × PyVal)}, entries v = some d → v = .dict d := by
    intro v d h
    cases v <;> cases h
    rfl
  cases k with
  | fresh => cases hd; exact ⟨[], [], rfl, rfl, fun A tr => silent_newDict A env tr _ (eval_newDict h.py)⟩
  | var x =>
    have hx := h.vars x (hk x (by simp [Kw.vars]))
    simp only [evalKw] at hd
    cases hv : vs.lookup x with
    | none => rw [hv] at hd; cases hd
    | some v =>
      rw [hv] at hd hx
      obtain rfl := dict hd
      exact ⟨d', [], rfl, rfl, fun A tr => silent_var x A env tr _ hx⟩
  | freshSet items =>
    obtain ⟨es, h1, h2, h3⟩ := key newDict [] items hk silent_newDict (eval_newDict h.py) hd
    exact ⟨[], es, h1, h2, h3⟩
  | varSet x items =>
    have hx := h.vars x (hk x (by simp [Kw.vars]))
    simp only [evalKw] at hd
    cases hv : vs.lookup x with
    | none => rw [hv] at hd; cases hd
    | some v =>
      rw [hv] at hd hx
      have hd : (entries v).bind (fun d => setItems vs d items) = some d' := hd
      cases hv' : entries v with
      | none => rw [hv'] at hd; cases hd
      | some d =>
        rw [hv'] at hd
        obtain rfl := dict hv'
        obtain ⟨es, h1, h2, h3⟩ := key (var x) d items (fun z hz => hk z (by simp only [Kw.vars, List.mem_cons]; exact .inr hz)) (silent_var x) hx hd
        exact ⟨d, es, h1, h2, h3⟩

theorem go_some {A : Answers} {env : RVars} {tr tr' : List Step} {e : RExpr} {v : PyVal} (h : go A env tr e = (tr', .val (.val v))) :
    go A env tr (.call (var c!"Some") [.ref e]) = (tr', .val (.some (.val v))) := by
  show go A env tr (.call (.path false [.mk c!"Some" []]) [.ref e]) = _
  rw [go, goAll, go, h]
  simp only [goAll]
  rfl

/-! ## Requests -/

/-- Reaching the object, storing the keyword arguments and calling. -/
def calling (A : Answers) (tr : List Step) (o : Obj) (m : Option Str) (a : List PyVal) (d es : List (Str × PyVal)) : List Step × Except Exc RVal :=
  thenOf (reached (walk A tr (reach o)) (.obj o)) (fun t _ => asked A (stored A t d es).1 (.call (.call o m a (stored A t d es).2))
    (.called (.call o m a (stored A t d es).2)))

theorem go_call {s : Option RVal} {env : RVars} {vs : Vars} (h : Corr s env vs) {obj : Obj}
    (ho : ∀ A tr, go A env tr obj.tree = tried (reached (walk A tr (reach obj)) (.obj obj)))
    (meth : Option Str) (pos : Option Pos) (kw : Option Kw) (hv : ∀ x ∈ (Body.call obj meth pos kw).vars, IsParam x) {a : List PyVal}
    {d' : List (Str × PyVal)} (ha : evalPos vs pos = some a) (hd : evalKw vs kw = some d') :
    ∃ d es, d' = putAll d es ∧ es.map Prod.fst = keysOf (.call obj meth pos kw) ∧ ∀ A tr, Ends (go A env tr (callTree obj meth pos kw)) (calling A tr obj meth a d es) := by
  have hp : ∀ p, pos = some p → ∃ u, callArgs u = some a ∧ eval env p.tree = some u := by
    rintro p rfl
    have := eval_pos h p (fun x hx => hv x (by simp only [Body.vars, Option.map_some, Option.getD_some, List.mem_append]; exact .inl hx))
    rw [ha] at this
    cases hu : eval env p.tree with
    | none => rw [hu] at this; cases this
    | some u => rw [hu] at this; exact ⟨u, this, rfl⟩
  have hpu : ∃ u, callArgs u = some a ∧ eval env (pos.getD .unit).tree = some u := by
    cases pos with
    | none => cases ha; exact ⟨.unit, rfl, by simp only [Option.getD_none, Pos.tree, eval]⟩
    | some p => exact hp p rfl
  cases kw with
  | some k =>
    obtain ⟨d, es, hde, hkeys, hk⟩ := go_kw h k
      (fun x hx => hv x (by simp only [Body.vars, Option.map_some, Option.getD_some, List.mem_append]; exact .inr hx)) hd obj meth pos
    obtain ⟨u, hu, heu⟩ := hpu
    refine ⟨d, es, hde, hkeys, fun A tr => ?_⟩
    have hks : ∀ t, go A env t (.call (var c!"Some") [.ref k.tree]) = ((stored A t d es).1, .val (.some (.val (.dict (stored A t d es).2)))) :=
      fun t => go_some (hk A t)
    cases meth with
    | none =>
      simp only [callTree]
      refine go_any (T := fun t => (stored A t d es).1) (l := fun t => [u, .some (.val (.dict (stored A t d es).2))]) (go_asAny (ho A tr)) ?_ ?_
      · intro t
        rw [goAll, silent_pos _ A env t _ heu]
        simp only [goAll, hks]
      · intro t v hq
        obtain rfl := reached_ok hq
        refine ⟨?_, rfl⟩
        rw [any_call, hu]
        rfl
    | some m =>
      simp only [callTree]
      refine go_any (T := fun t => (stored A t d es).1) (l := fun t => [.str m, u, .some (.val (.dict (stored A t d es).2))]) (go_asAny (ho A tr)) ?_ ?_
      · intro t
        rw [goAll, silent_internTree m A env t _ (eval_intern h.py m)]
        simp only
        rw [goAll, silent_pos _ A env t _ heu]
        simp only [goAll, hks]
      · intro t v hq
        obtain rfl := reached_ok hq
        refine ⟨?_, rfl⟩
        rw [any_method, hu]
        rfl
  | none =>
    cases hd
    refine ⟨[], [], rfl, rfl, fun A tr => ?_⟩
    cases pos with
    | some p =>
      obtain ⟨u, hu, heu⟩ := hp p rfl
      cases meth with
      | none =>
        simp only [callTree]
        refine go_any (T := fun t => t) (l := fun t => [u]) (go_asAny (ho A tr)) ?_ ?_
        · intro t
          rw [goAll, silent_pos _ A env t _ heu]
          simp only [goAll]
        · intro t v hq
          obtain rfl := reached_ok hq
          refine ⟨?_, rfl⟩
          rw [any_call1, hu]
          rfl
      | some m =>
        simp only [callTree]
        refine go_any (T := fun t => t) (l := fun t => [.str m, u]) (go_asAny (ho A tr)) ?_ ?_
        · intro t
          rw [goAll, silent_internTree m A env t _ (eval_intern h.py m)]
          simp only
          rw [goAll, silent_pos _ A env t _ heu]
          simp only [goAll]
        · intro t v hq
          obtain rfl := reached_ok hq
          refine ⟨?_, rfl⟩
          rw [any_method1, hu]
          rfl
    | none =>
      cases ha
      cases meth with
      | none =>
        simp only [callTree]
        refine go_any (T := fun t => t) (l := fun t => []) (go_asAny (ho A tr)) (fun t => by rw [goAll]) ?_
        intro t v hq
        obtain rfl := reached_ok hq
        exact ⟨any_call0 obj, rfl⟩
      | some m =>
        simp only [callTree]
        refine go_any (T := fun t => t) (l := fun t => [.str m]) (go_asAny (ho A tr)) ?_ ?_
        · intro t
          rw [goAll, silent_internTree m A env t _ (eval_intern h.py m)]
          simp only [goAll]
        · intro t v hq
          obtain rfl := reached_ok hq
          exact ⟨rfl, rfl⟩

/-- The request behind a value that is converted. -/
def behind : RVal → Request
  | .called r => r
  | .obj (.getattr o n) => .get o n
  | _ => .get .self []

theorem go_extract {A : Answers} {env : RVars} {tr : List Step} {e : RExpr} {q : List Step × Except Exc RVal} (h : Ends (go A env tr e) q)
    (hq : ∀ t u, q = (t, .ok u) → (∃ o m a k, u = .called (.call o m a k)) ∨ ∃ o n, u = .obj (.getattr o n)) :
    Ends (go A env tr (anyCall c!"extract" [.ref (.try e)])) (thenOf q (fun t u => asked A t (.extract (behind u)) (.done (behind u)))) := by
  refine go_any (T := fun t => t) (l := fun t => []) (by rw [go]; exact go_try h) (fun t => by rw [goAll]) ?_
  intro t u hu
  rcases hq t u hu with ⟨o, m, a, k, rfl⟩ | ⟨o, n, rfl⟩ <;> exact ⟨rfl, rfl⟩

/-- The outcome of a function. -/
def givenOut (q : List Step × Except Exc Request) : List Step × Except Exc RVal :=
  match q with
  | (t, .ok r) => (t, .ok (.done r))
  | (t, .error x) => (t, .error x)

theorem go_get {A : Answers} {env : RVars} {tr : List Step} {o : Obj} {e : RExpr} {n : Str}
    (ho : go A env tr o.tree = tried (reached (walk A tr (reach o)) (.obj o))) (hs : Silent e) (he : eval env e = some (.str n)) :
    Ends (go A env tr (anyCall c!"extract" [.ref (.try (anyCall c!"getattr" [o.asAny, e]))]))
      (givenOut (taking A tr (stepsFor [] (.get o n)) (.get o n))) := by
  have h1 : Ends (go A env tr (anyCall c!"getattr" [o.asAny, e])) (reached (walk A tr (reach o ++ [.getattr o n])) (.obj (.getattr o n))) := by
    rw [← reached_append (u := .obj o)]
    refine go_any (T := fun t => t) (l := fun t => [.str n]) (go_asAny ho) ?_ ?_
    · intro t
      rw [goAll, hs A env t _ he]
      simp only [goAll]
    · intro t v hq
      obtain rfl := reached_ok hq
      exact ⟨rfl, rfl⟩
  have h2 := go_extract h1 (fun t u hu => .inr ⟨o, n, reached_ok hu⟩)
  have : givenOut (taking A tr (stepsFor [] (.get o n)) (.get o n)) = thenOf (reached (walk A tr (reach o ++ [.getattr o n])) (.obj (.getattr o n)))
      (fun t u => asked A t (.extract (behind u)) (.done (behind u))) := by
    rw [taking, stepsFor, show reach o ++ [.getattr o n, .extract (.get o n)] = (reach o ++ [.getattr o n]) ++ [Step.extract (.get o n)] by simp,
      walk_append A tr (reach o ++ [Step.getattr o n])]
    rcases walk A tr (reach o ++ [Step.getattr o n]) with ⟨t, _ | x⟩
    · simp only [walk, reached, thenOf, asked, behind]
      cases A t (.extract (.get o n)) <;> rfl
    · rfl
  rw [this]
  exact h2

theorem go_body {s : Option RVal} {env : RVars} {vs : Vars} (h : Corr s env vs) {b : Body}
    (ho : ∀ A tr, go A env tr b.obj.tree = tried (reached (walk A tr (reach b.obj)) (.obj b.obj)))
    (hs : b.obj = .self → s = some (.obj .self)) (hv : ∀ x ∈ b.vars, IsParam x) {r : Request} (hr : b.request vs = some r) :
    ∃ d es, r.kwargs = putAll d es ∧ es.map Prod.fst = keysOf b ∧ ∀ A, Ends (go A env [] b.tree) (givenOut (conduct A d es r)) := by
  cases b with
  | call obj meth pos kw =>
    simp only [Body.request] at hr
    cases ha : evalPos vs pos with
    | none => rw [ha] at hr; cases hr
    | some a =>
      cases hd : evalKw vs kw with
      | none => rw [ha, hd] at hr; cases hr
      | some k =>
        rw [ha, hd] at hr
        obtain rfl : Request.call obj meth a k = r := Option.some.inj hr
        obtain ⟨d, es, hde, hkeys, hc⟩ := go_call (obj := obj) h ho meth pos kw hv ha hd
        refine ⟨d, es, hde, hkeys, fun A => ?_⟩
        have h2 := go_extract (hc A []) ?_
        · have : givenOut (conduct A d es (.call obj meth a k)) = thenOf (calling A [] obj meth a d es)
              (fun t u => asked A t (.extract (behind u)) (.done (behind u))) := by
            rw [conduct, calling]
            rcases walk A [] (reach obj) with ⟨t, _ | x⟩
            · simp only [taking, walk, reached, thenOf, asked]
              cases A (stored A t d es).1 (.call (.call obj meth a (stored A t d es).2)) with
              | some x => rfl
              | none =>
                simp only [behind]
                cases A ((stored A t d es).1 ++ [.call (.call obj meth a (stored A t d es).2)]) (.extract (.call obj meth a (stored A t d es).2)) <;>
                  rfl
            · rfl
          rw [this]
          exact h2
        · intro t u hu
          left
          rw [calling] at hu
          rcases hw : walk A [] (reach obj) with ⟨t', _ | x⟩
          · rw [hw] at hu
            simp only [reached, thenOf, asked] at hu
            split at hu
            · cases hu; exact ⟨_, _, _, _, rfl⟩
            · cases hu
          · rw [hw] at hu; cases hu
  | getattr obj name =>
    cases hr
    refine ⟨[], [], rfl, rfl, fun A => ?_⟩
    cases obj with
    | self =>
      have hself := h.self.trans (hs rfl)
      have hpy : eval env (.method (var c!"self") c!"py" []) = some .py := by
        rw [eval_method _ _ _ (by intro _ _; simp), eval_var, hself]; rfl
      refine go_get (ho A []) (silent_intern (silent_method (by intro _ _ h; cases h) (silent_var _) (by simp) (by decide)) name) ?_
      rw [eval]; simp only [evalAll, hpy]; rw [eval]; rfl
    | «import» pkg => exact go_get (ho A []) (silent_internTree name) (eval_intern h.py name)
    | getattr o n => exact go_get (ho A []) (silent_internTree name) (eval_intern h.py name)
  | setattr obj name x =>
    simp only [Body.request] at hr
    cases hx : vs.lookup x with
    | none => rw [hx] at hr; cases hr
    | some v =>
      rw [hx] at hr
      obtain rfl : Request.set obj name v = r := Option.some.inj hr
      refine ⟨[], [], rfl, rfl, fun A => ?_⟩
      have hx' : env.lookup x = some (.val v) := by rw [h.vars x (hv x (by simp [Body.vars])), hx]; rfl
      have : givenOut (conduct A [] [] (.set obj name v)) = reached (walk A [] (reach obj ++ [.setattr (.set obj name v)])) (.done (.set obj name v)) := by
        rw [conduct, taking, stepsFor]
        · rcases walk A [] (reach obj ++ [Step.setattr (.set obj name v)]) with ⟨t, _ | x⟩ <;> rfl
        · intro _ _ _ _ h; cases h
      rw [this, ← reached_append (u := .obj obj)]
      refine go_any (T := fun t => t) (l := fun t => [.str name, .val v]) (go_asAny (ho A [])) ?_ ?_
      · intro t
        rw [goAll, silent_internTree name A env t _ (eval_intern h.py name)]
        simp only
        rw [goAll, silent_var x A env t _ hx']
        simp only [goAll]
      · intro t u hq
        obtain rfl := reached_ok hq
        exact ⟨rfl, rfl⟩

theorem perform_of {A : Answers} {f : RFn} {args : List RVal} {env : RVars} {q : List Step × Except Exc Request}
    (hb : bindParams f.sig.params args = some env) (h : Ends (go A env [] f.body) (givenOut q)) :
    f.perform A args = (q.1, some (q.2.map .done)) := by
  rw [RFn.perform, hb]
  simp only
  obtain ⟨t, x | r⟩ := q
  · rcases h with h | h <;> rw [h] <;> rfl
  · have h : go A env [] f.body = (t, .val (.result (.done r))) := h
    rw [h]; rfl

/-- The outcome of an emitted function whatever Python does. -/
theorem perform_fn {f : Fn} (h : f.Sane) (args : List PyVal) {r : Request} (hrun : run f args = some r) :
    ∃ d es, r.kwargs = putAll d es ∧ es.map Prod.fst = keysOf f.body ∧ ∀ A, f.tree.perform A (f.sig.recv.val :: args.map .val) =
      ((conduct A d es r).1, some ((conduct A d es r).2.map .done)) := by
  rw [run_eq] at hrun
  have hl : args.length = f.sig.params.length := by
    by_cases hl : args.length = f.sig.params.length
    · exact hl
    · rw [if_pos hl] at hrun
      cases hrun
  rw [if_neg (fun hne => hne hl)] at hrun
  have hsome : ∀ x ∈ f.sig.params.map Prod.fst, (((f.sig.params.map Prod.fst).zip args).lookup x).isSome :=
    fun x hx => lookup_isSome (by simpa using hl) hx
  have hpar : ∀ x ∈ f.sig.params.map Prod.fst, IsParam x := by
    intro x hx; obtain ⟨p, hp, rfl⟩ := List.mem_map.1 hx; exact h.params p hp
  have hb : bindParams f.tree.sig.params (f.sig.recv.val :: args.map .val) =
      some (((match f.sig.recv with | .py => c!"py" | .self => c!"self"), f.sig.recv.val) ::
        ((f.sig.params.map Prod.fst).zip args).map (fun p => (p.1, .val p.2))) := by
    have : bindParams (f.sig.recv.tree :: f.sig.params.map (fun p => .typed p.1 p.2.tree)) (f.sig.recv.val :: args.map .val) =
      (bindParams (f.sig.params.map (fun p => .typed p.1 p.2.tree)) (args.map .val)).map
        (((match f.sig.recv with | .py => c!"py" | .self => c!"self"), f.sig.recv.val) :: ·) := by
      cases f.sig.recv <;> rfl
    simp only [Fn.tree, Sig.tree]
    rw [this, bind_typed, if_neg (fun hne => hne hl)]
    rfl
  rcases h.recv with ⟨hr, hlet, hi⟩ | ⟨hr, ho, hlet | ⟨hlet, hpre, n, hbody⟩⟩
  · rw [hr] at hb ⊢
    have hc : Corr (List.lookup c!"self" ((c!"py", RVal.py) :: (((f.sig.params.map Prod.fst).zip args).map (fun p => (p.1, RVal.val p.2)))))
        ((c!"py", .py) :: (((f.sig.params.map Prod.fst).zip args).map (fun p => (p.1, .val p.2)))) ((f.sig.params.map Prod.fst).zip args) :=
      ⟨rfl, by rw [List.lookup_cons, beq_self_eq_true], fun x hx => by rw [lookup_skip hx.ne_py, lookup_vals]⟩
    rcases exec_pres h.pre hpar hc hsome with ⟨h1, h2⟩ | ⟨vs, env, h1, h2, hc', _⟩
    · rw [h1] at hrun; cases hrun
    · rw [h1] at hrun
      obtain ⟨d, es, hde, hkeys, hbd⟩ := go_body hc' (fun A tr => go_obj A tr _ (.inl ⟨hi, hc'.py⟩)) (by intro e; rw [e] at hi; exact hi.elim)
        (fun x hx => hpar x (h.body x hx)) hrun
      refine ⟨d, es, hde, hkeys, fun A => perform_of hb ?_⟩
      simp only [Fn.tree, hlet, Bool.false_eq_true, if_false, List.nil_append]
      rw [go, show Recv.py.val = RVal.py from rfl, silent_pres f.pre A _ [] env h2]
      exact hbd A
  · rw [hr] at hb ⊢
    have hc : Corr (some (.obj .self))
        ((c!"py", .py) :: (c!"self", .obj .self) :: (((f.sig.params.map Prod.fst).zip args).map (fun p => (p.1, .val p.2))))
        ((f.sig.params.map Prod.fst).zip args) :=
      ⟨by rw [lookup_skip (by decide), List.lookup_cons, beq_self_eq_true], by rw [List.lookup_cons, beq_self_eq_true],
        fun x hx => by rw [lookup_skip hx.ne_py, lookup_skip hx.ne_self, lookup_vals]⟩
    rcases exec_pres h.pre hpar hc hsome with ⟨h1, h2⟩ | ⟨vs, env, h1, h2, hc', _⟩
    · rw [h1] at hrun; cases hrun
    · rw [h1] at hrun
      obtain ⟨d, es, hde, hkeys, hbd⟩ := go_body hc' (fun A tr => go_obj A tr _ (.inr (.inl ⟨hc'.py, hc'.self⟩))) (fun _ => rfl)
        (fun x hx => hpar x (h.body x hx)) hrun
      refine ⟨d, es, hde, hkeys, fun A => perform_of hb ?_⟩
      simp only [Fn.tree, hlet, if_true, List.cons_append, List.nil_append]
      rw [go, goStmts, silent_method (v := .py) (by intro _ _ h; cases h) (silent_var _) (by simp) (by decide) A _ []
        (by rw [eval_method _ _ _ (by intro _ _; simp), eval_var, List.lookup_cons, beq_self_eq_true]; rfl)]
      simp only [Recv.val]
      rw [silent_pres f.pre A _ [] env h2]
      exact hbd A
  · rw [hr] at hb ⊢
    rw [hpre, hbody] at hrun
    cases hrun
    refine ⟨[], [], rfl, by rw [hbody]; rfl, fun A => perform_of hb ?_⟩
    simp only [Fn.tree, hlet, hpre, hbody, Bool.false_eq_true, if_false, List.nil_append, List.flatMap_nil]
    rw [go, goStmts]
    have hself : ((c!"self", RVal.obj .self) :: ((f.sig.params.map Prod.fst).zip args).map (fun p => (p.1, RVal.val p.2))).lookup c!"self" =
        some (.obj .self) := by rw [List.lookup_cons, beq_self_eq_true]
    refine go_get (go_obj A [] .self (.inr (.inr ⟨rfl, hself⟩)))
      (silent_intern (silent_method (by intro _ _ h; cases h) (silent_var _) (by simp) (by decide)) n) ?_
    have hpy : eval ((c!"self", RVal.obj .self) :: ((f.sig.params.map Prod.fst).zip args).map (fun p => (p.1, RVal.val p.2)))
        (.method (var c!"self") c!"py" []) = some .py := by
      rw [eval_method _ _ _ (by intro _ _; simp), eval_var, hself]; rfl
    rw [eval]; simp only [evalAll, Recv.val, hpy]; rw [eval]; rfl

end Bindgen

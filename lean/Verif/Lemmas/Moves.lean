import Verif.Lemmas.Check
import Verif.Spec.Moves
/-!
# Lemmas: values in the trees of emitted functions
-/
namespace Bindgen
open Spec

/-- The variable has its value. -/
def Has' (vs : MVars) (x : Str) : Prop := ∃ c, vs.lookup x = some (c, true)

/-- The variable has its value and keeps it. -/
def Keeps (vs : MVars) (x : Str) : Prop := vs.lookup x = some (true, true)

theorem Keeps.has {vs : MVars} {x : Str} (h : Keeps vs x) : Has' vs x := ⟨true, h⟩

theorem borrow_has {vs : MVars} {x : Str} (h : Has' vs x) : vs.borrow x = some vs := by
  obtain ⟨c, h⟩ := h
  simp only [MVars.borrow, h]

theorem take_keeps {vs : MVars} {x : Str} (h : Keeps vs x) : vs.take x = some vs := by
  simp only [MVars.take, show vs.lookup x = _ from h]

theorem lookup_lose {vs : MVars} {x y : Str} (h : y ≠ x) : (vs.lose x).lookup y = vs.lookup y := by
  induction vs with
  | nil => rfl
  | cons a vs ih =>
    obtain ⟨z, c, v⟩ := a
    unfold MVars.lose
    split
    · rename_i hz
      subst hz
      rw [List.lookup_cons, List.lookup_cons, beq_false_of_ne h]
    · rw [List.lookup_cons, List.lookup_cons, ih]

theorem length_lose (vs : MVars) (x : Str) : (vs.lose x).length = vs.length := by
  induction vs with
  | nil => rfl
  | cons a vs ih =>
    obtain ⟨z, c, v⟩ := a
    unfold MVars.lose
    split
    · rfl
    · simp only [List.length_cons, ih]

/-- A variable can be used by value; the others stay as they are. -/
theorem take_has {vs : MVars} {x : Str} (h : Has' vs x) : ∃ ws, vs.take x = some ws ∧ ws.length = vs.length ∧
    ∀ y, y ≠ x → ws.lookup y = vs.lookup y := by
  obtain ⟨c, h⟩ := h
  cases c with
  | true => exact ⟨vs, take_keeps h, rfl, fun _ _ => rfl⟩
  | false => exact ⟨vs.lose x, by simp only [MVars.take, h], length_lose vs x, fun y hy => lookup_lose hy⟩

theorem moves_var (vs : MVars) (x : Str) : moves vs (var x) = vs.take x := by
  show moves vs (.path false [.mk x []]) = _
  rw [moves]

theorem moves_refVar (vs : MVars) (x : Str) : moves vs (.ref (var x)) = vs.borrow x := by
  show moves vs (.ref (.path false [.mk x []])) = _
  rw [moves]

theorem moves_absCall (vs : MVars) (l : List Str) (args : List RExpr) : moves vs (absCall l args) = movesAll vs args := by
  unfold absCall
  rw [moves]

theorem moves_intern {vs : MVars} (h : Keeps vs c!"py") (s : Str) : moves vs (internTree s) = some vs := by
  unfold internTree
  rw [moves, movesAll, moves_var, take_keeps h, Option.bind_some, movesAll, moves, Option.bind_some, movesAll]

theorem movesAll_keep {vs : MVars} {e : RExpr} {es : List RExpr} (h : moves vs e = some vs) : movesAll vs (e :: es) = movesAll vs es := by
  rw [movesAll, h, Option.bind_some]

theorem moves_py {vs : MVars} (h : Keeps vs c!"py") : moves vs (var c!"py") = some vs := by rw [moves_var, take_keeps h]

theorem moves_newDict {vs : MVars} (h : Keeps vs c!"py") : moves vs newDict = some vs := by
  unfold newDict
  rw [moves_absCall, movesAll_keep (moves_py h), movesAll]

theorem moves_toObject {vs : MVars} (h : Keeps vs c!"py") {x : Str} (hx : Has' vs x) : moves vs (toObjectTree x) = some vs := by
  unfold toObjectTree
  rw [moves_absCall, movesAll_keep (by rw [moves_refVar, borrow_has hx]), movesAll_keep (moves_py h), movesAll]

theorem movesAll_objects {vs : MVars} (h : Keeps vs c!"py") {xs : List Str} (hx : ∀ x ∈ xs, Has' vs x) :
    movesAll vs (xs.map toObjectTree) = some vs := by
  induction xs with
  | nil => rw [List.map_nil, movesAll]
  | cons x xs ih =>
    rw [List.map_cons, movesAll_keep (moves_toObject h (hx x List.mem_cons_self)), ih fun y hy => hx y (List.mem_cons_of_mem _ hy)]

theorem moves_array {vs : MVars} (h : Keeps vs c!"py") {xs : List Str} (hx : ∀ x ∈ xs, Has' vs x) :
    moves vs (.array (xs.map toObjectTree)) = some vs := by
  rw [moves, movesAll_objects h hx]

theorem moves_method {vs : MVars} {e : RExpr} {m : Str} {args : List RExpr} (he : ∀ x, e ≠ .path false [.mk x []]) :
    moves vs (.method e m args) = (moves vs e).bind (fun vs => movesAll vs args) := by
  rw [moves]
  exact he

theorem moves_ref {vs : MVars} {e : RExpr} (he : ∀ x, e ≠ .path false [.mk x []]) : moves vs (.ref e) = moves vs e := by
  rw [moves]
  exact he

theorem keeps_skip {vs : MVars} {x y : Str} (h : (x == y) = false) (v : Bool × Bool) : Keeps ((y, v) :: vs) x ↔ Keeps vs x := by
  unfold Keeps; rw [List.lookup_cons, h]

theorem has_skip {vs : MVars} {x y : Str} (h : (x == y) = false) (v : Bool × Bool) : Has' ((y, v) :: vs) x ↔ Has' vs x := by
  unfold Has'; rw [List.lookup_cons, h]

theorem param_args {x : Str} (h : IsParam x) : (x == c!"__internal__args") = false ∧ (x == c!"__internal__kwargs") = false ∧
    (x == c!"__internal__arg") = false := by
  obtain ⟨y, rfl⟩ := h
  exact ⟨by simp, by simp, by simp⟩

/-- Positional arguments take no value away. -/
theorem moves_pos {vs : MVars} (h : Keeps vs c!"py") (p : Pos) (hp : ∀ x ∈ p.vars, IsParam x) (hx : ∀ x ∈ p.vars, Has' vs x)
    (hs : ∀ x ∈ p.star, Keeps vs x) : moves vs p.tree = some vs := by
  cases p with
  | unit => rw [Pos.tree, moves]
  | var x => rw [Pos.tree, moves_var, take_keeps (hs x rfl)]
  | tuple xs =>
    rw [Pos.tree, newTuple, moves_absCall, movesAll_keep (moves_py h), movesAll_keep (moves_array h (xs := xs) hx), movesAll]
  | tupleVar xs x =>
    have hk := hs x rfl
    have hxp := param_args (hp x List.mem_cons_self)
    have a1 : moves vs (.call (.path false (names [c!"Vec", c!"with_capacity"]))
        [.add (.num xs.length) (absCall [c!"pyo3", c!"types", c!"PyTupleMethods", c!"len"] [var x])]) = some vs := by
      rw [moves, movesAll_keep, movesAll]
      rw [moves, moves, Option.bind_some, moves_absCall, movesAll_keep (by rw [moves_var, take_keeps hk]), movesAll]
    have hpy : Keeps ((c!"__internal__args", false, true) :: vs) c!"py" := (keeps_skip (by decide) _).2 h
    have hk' : Keeps ((c!"__internal__args", false, true) :: vs) x := (keeps_skip hxp.1 _).2 hk
    have hx' : ∀ y ∈ xs, Has' ((c!"__internal__args", false, true) :: vs) y := fun y hy =>
      (has_skip (param_args (hp y (List.mem_cons_of_mem _ hy))).1 _).2 (hx y (List.mem_cons_of_mem _ hy))
    have ha : Has' ((c!"__internal__args", false, true) :: vs) c!"__internal__args" := ⟨false, by rw [List.lookup_cons]; rfl⟩
    have ext : ∀ e, moves ((c!"__internal__args", false, true) :: vs) e = some ((c!"__internal__args", false, true) :: vs) →
        moves ((c!"__internal__args", false, true) :: vs) (.method (var c!"__internal__args") c!"extend" [e]) =
          some ((c!"__internal__args", false, true) :: vs) := by
      intro e he
      show moves _ (.method (.path false [.mk c!"__internal__args" []]) c!"extend" [e]) = _
      rw [moves, if_pos (by decide), borrow_has ha, Option.bind_some, movesAll_keep he, movesAll]
    have clo : moves ((c!"__internal__args", false, true) :: vs) (.method (absCall [c!"pyo3", c!"types", c!"PyTupleMethods", c!"iter"] [var x]) c!"map"
          [.closure c!"__internal__arg" (toObjectTree c!"__internal__arg")]) = some ((c!"__internal__args", false, true) :: vs) := by
      unfold absCall
      rw [moves_method (by intro _ h; cases h), moves, movesAll_keep (by rw [moves_var, take_keeps hk']), movesAll, Option.bind_some, movesAll_keep,
        movesAll]
      rw [moves, moves_toObject ((keeps_skip (by decide) _).2 hpy) ⟨false, by rw [List.lookup_cons]; rfl⟩]
      simp
    rw [Pos.tree, moves, movesStmts, a1, Option.bind_some, show isCopyExpr _ = false from rfl, movesStmts, ext _ (moves_array hpy hx'), Option.bind_some,
      movesStmts, ext _ clo, Option.bind_some, movesStmts, Option.bind_some, newTuple, moves_absCall, movesAll_keep (moves_py hpy), movesAll, moves_var]
    have : MVars.take ((c!"__internal__args", false, true) :: vs) c!"__internal__args" = some ((c!"__internal__args", false, false) :: vs) := by
      simp only [MVars.take, List.lookup_cons, MVars.lose]
      rfl
    rw [this]
    simp [movesAll]

theorem join_self (vs : MVars) : MVars.join vs vs = vs := by
  induction vs with
  | nil => rfl
  | cons a vs ih => obtain ⟨x, c, v⟩ := a; rw [MVars.join, ih, Bool.and_self]

/-- Conversions give variables new values. -/
theorem moves_pre {vs : MVars} (h : Keeps vs c!"py") {x : Str} (hx : IsParam x) (hv : Has' vs x) (p : Pre) (ss : List RStmt) :
    ∃ ws, movesStmts vs (preTree x p ++ ss) = movesStmts ws ss ∧ Has' ws x ∧ (p = .intoTuple → Keeps ws x) ∧
      ∀ y, y ≠ x → ws.lookup y = vs.lookup y := by
  have hpx : c!"py" ≠ x := fun h => by have := hx.ne_py; rw [← h] at this; exact absurd this (by decide)
  have here : ∀ (ws : MVars) c, Has' ((x, c, true) :: ws) x := fun ws c => ⟨c, by rw [List.lookup_cons, beq_self_eq_true]⟩
  have there : ∀ (ws : MVars) v y, y ≠ x → ((x, v) :: ws).lookup y = ws.lookup y := fun ws v y hy => by
    rw [List.lookup_cons, beq_false_of_ne hy]
  obtain ⟨us, h1, -, h2⟩ := take_has hv
  have hus : Keeps us c!"py" := (h2 _ hpx).trans h
  have call : ∀ f : RExpr, (∃ g segs, f = .path g segs) → moves vs (.call f [var x, var c!"py"]) = some us := by
    rintro _ ⟨g, segs, rfl⟩
    rw [moves, movesAll, moves_var, h1, Option.bind_some, movesAll_keep (moves_py hus), movesAll]
  have conv : ∀ t, movesStmts vs ([.let false x (intoPyTree t x), .let false x (.method (var x) c!"bind" [var c!"py"])] ++ ss) =
      movesStmts ((x, true, true) :: (x, false, true) :: us) ss := by
    intro t
    rw [List.cons_append, movesStmts, intoPyTree, call _ ⟨_, _, rfl⟩, Option.bind_some, show isCopyExpr _ = false from rfl, List.cons_append, movesStmts]
    have : moves ((x, false, true) :: us) (.method (var x) c!"bind" [var c!"py"]) = some ((x, false, true) :: us) := by
      show moves _ (.method (.path false [.mk x []]) c!"bind" [var c!"py"]) = _
      rw [moves, if_pos (by decide), borrow_has (here _ _), Option.bind_some, movesAll_keep, movesAll]
      exact moves_py ((there _ _ _ hpx).trans hus)
    rw [this]
    rfl
  cases p with
  | none => exact ⟨vs, rfl, hv, (fun h => nomatch h), fun _ _ => rfl⟩
  | intoDict =>
    refine ⟨(x, false, true) :: us, ?_, here _ _, (fun h => nomatch h), fun y hy => (there _ _ _ hy).trans (h2 y hy)⟩
    rw [preTree, List.cons_append, movesStmts, intoDictTree, absCall, call _ ⟨_, _, rfl⟩]
    rfl
  | intoTuple =>
    exact ⟨_, conv _, here _ _, fun _ => by unfold Keeps; rw [List.lookup_cons, beq_self_eq_true], fun y hy =>
      (there _ _ _ hy).trans ((there _ _ _ hy).trans (h2 y hy))⟩
  | intoAny =>
    exact ⟨_, conv _, here _ _, (fun h => nomatch h), fun y hy => (there _ _ _ hy).trans ((there _ _ _ hy).trans (h2 y hy))⟩
  | optDict =>
    obtain ⟨ws, hw⟩ : ∃ ws, moves vs (.ifLet c!"Some" x (var x) (.block [] (intoDictTree x)) (.block [] newDict)) = some ws ∧
        ∀ y, y ≠ x → ws.lookup y = vs.lookup y := by
      obtain ⟨vs', hvs', hlen', hl'⟩ := take_has (vs := (x, false, true) :: us) (here _ _)
      have ha : moves ((x, false, true) :: us) (.block [] (intoDictTree x)) = some vs' := by
        have hpy' : Keeps vs' c!"py" := (hl' _ hpx).trans ((there _ _ _ hpx).trans hus)
        rw [moves, movesStmts, Option.bind_some, intoDictTree, moves_absCall, movesAll, moves_var, hvs', Option.bind_some,
          movesAll_keep (moves_py hpy'), movesAll, Option.map_some, hlen']
        simp
      have hb : moves us (.block [] newDict) = some us := by
        rw [moves, movesStmts, Option.bind_some, moves_newDict hus, Option.map_some]
        simp
      have htail : vs'.tail = us := by
        have : MVars.take ((x, false, true) :: us) x = some ((x, false, false) :: us) := by
          simp only [MVars.take, List.lookup_cons, beq_self_eq_true, MVars.lose, if_true]
        rw [this] at hvs'
        cases hvs'
        rfl
      refine ⟨_, by rw [moves, moves_var, h1, Option.bind_some, ha, Option.bind_some, hb, Option.map_some, htail], fun y hy => ?_⟩
      rw [join_self]
      exact h2 y hy
    refine ⟨(x, false, true) :: ws, ?_, here _ _, (fun h => nomatch h), fun y hy => (there _ _ _ hy).trans (hw.2 y hy)⟩
    rw [preTree, List.cons_append, movesStmts, hw.1]
    rfl

/-- All conversions. -/
theorem moves_pres {l : List (Str × Pre)} (hn : (l.map Prod.fst).Nodup) (hp : ∀ e ∈ l, IsParam e.1) {vs : MVars} (h : Keeps vs c!"py")
    (hv : ∀ e ∈ l, Has' vs e.1) : ∃ ws, movesStmts vs (l.flatMap (fun e => preTree e.1 e.2)) = some ws ∧ (∀ e ∈ l, Has' ws e.1) ∧
      (∀ e ∈ l, e.2 = .intoTuple → Keeps ws e.1) ∧ ∀ y, y ∉ l.map Prod.fst → ws.lookup y = vs.lookup y := by
  induction l generalizing vs with
  | nil => exact ⟨vs, by rw [List.flatMap_nil, movesStmts], by simp, by simp, fun _ _ => rfl⟩
  | cons a l ih =>
    obtain ⟨x, p⟩ := a
    rw [List.map_cons, List.nodup_cons] at hn
    have hxp : IsParam x := hp _ List.mem_cons_self
    obtain ⟨us, h1, h2, h3, h4⟩ := moves_pre h hxp (hv _ List.mem_cons_self) p (l.flatMap (fun e => preTree e.1 e.2))
    have hne : ∀ e ∈ l, e.1 ≠ x := fun e he h => hn.1 (h ▸ (List.mem_map_of_mem he : e.1 ∈ l.map Prod.fst))
    have hpx : c!"py" ≠ x := fun h => by have := hxp.ne_py; rw [← h] at this; exact absurd this (by decide)
    obtain ⟨ws, k1, k2, k3, k4⟩ := ih hn.2 (fun e he => hp e (List.mem_cons_of_mem _ he)) (vs := us) ((h4 _ hpx).trans h) (fun e he => by
      obtain ⟨c, hc⟩ := hv e (List.mem_cons_of_mem _ he)
      exact ⟨c, (h4 _ (hne e he)).trans hc⟩)
    refine ⟨ws, by rw [List.flatMap_cons, h1, k1], ?_, ?_, ?_⟩
    · intro e he
      rcases List.mem_cons.1 he with rfl | he
      · obtain ⟨c, hc⟩ := h2
        exact ⟨c, (k4 _ hn.1).trans hc⟩
      · exact k2 e he
    · intro e he hi
      rcases List.mem_cons.1 he with rfl | he
      · exact (k4 _ hn.1).trans (h3 hi)
      · exact k3 e he hi
    · intro y hy
      rw [List.map_cons, List.mem_cons, not_or] at hy
      exact (k4 y hy.2).trans (h4 y hy.1)

/-- The variables of the items are distinct, so each of them still has its value when it is moved into the dictionary. -/
theorem moves_items {items : List (Str × Str)} (hn : (items.map Prod.snd).Nodup) (hp : ∀ e ∈ items, IsParam e.2) {vs : MVars}
    (h : Keeps vs c!"py") (hk : Has' vs c!"__internal__kwargs") (hv : ∀ e ∈ items, Has' vs e.2) :
    ∃ ws, movesStmts vs (setItemsTree items) = some ws ∧ Has' ws c!"__internal__kwargs" := by
  unfold setItemsTree
  induction items generalizing vs with
  | nil => exact ⟨vs, by rw [List.map_nil, movesStmts], hk⟩
  | cons a items ih =>
    obtain ⟨k, x⟩ := a
    rw [List.map_cons, List.nodup_cons] at hn
    have hxp : IsParam x := hp _ List.mem_cons_self
    obtain ⟨us, h1, -, h2⟩ := take_has (hv _ List.mem_cons_self)
    have hne : ∀ y : Str, (x == y) = false → y ≠ x := fun y hy h => by rw [h] at hy; simp at hy
    obtain ⟨ws, k1, k2⟩ := ih hn.2 (fun e he => hp e (List.mem_cons_of_mem _ he)) (vs := us) ((h2 _ (hne _ hxp.ne_py)).trans h)
      (by obtain ⟨c, hc⟩ := hk; exact ⟨c, (h2 _ (hne _ hxp.ne_kwargs)).trans hc⟩) (fun e he => by
        obtain ⟨c, hc⟩ := hv e (List.mem_cons_of_mem _ he)
        exact ⟨c, (h2 _ fun h => hn.1 (h ▸ List.mem_map_of_mem he)).trans hc⟩)
    refine ⟨ws, ?_, k2⟩
    rw [List.map_cons, movesStmts, moves_absCall, movesAll_keep (by rw [moves_refVar, borrow_has hk]), movesAll_keep (moves_intern h k), movesAll,
      moves_var, h1, Option.bind_some, movesAll, Option.bind_some, k1]

/-- Keyword arguments. -/
theorem moves_kw {vs : MVars} (h : Keeps vs c!"py") (k : Kw) (hp : ∀ x ∈ k.vars, IsParam x) (hv : ∀ x ∈ k.vars, Has' vs x)
    (hn : k.vars.Nodup) : ∃ ws, moves vs (.ref k.tree) = some ws := by
  have block : ∀ (e : RExpr) (us : MVars) (items : List (Str × Str)), isCopyExpr e = false → moves vs e = some us → Keeps us c!"py" →
      (items.map Prod.snd).Nodup → (∀ e ∈ items, IsParam e.2) → (∀ e ∈ items, Has' us e.2) →
      ∃ ws, moves vs (.ref (.block (.let false c!"__internal__kwargs" e :: setItemsTree items) (var c!"__internal__kwargs"))) = some ws := by
    intro e us items hc he hpy hn hp hv
    have hin : Has' ((c!"__internal__kwargs", false, true) :: us) c!"__internal__kwargs" := ⟨false, by rw [List.lookup_cons]; rfl⟩
    obtain ⟨ws, k1, k2⟩ := moves_items hn hp (vs := (c!"__internal__kwargs", false, true) :: us) ((keeps_skip (by decide) _).2 hpy) hin
      (fun e he => (has_skip (hp e he).ne_kwargs _).2 (hv e he))
    obtain ⟨xs, h1, -⟩ := take_has k2
    refine ⟨xs.drop (xs.length - vs.length), ?_⟩
    rw [moves_ref (by intro _ h; cases h), moves, movesStmts, he, Option.bind_some, hc, k1, Option.bind_some, moves_var, h1, Option.map_some]
  cases k with
  | fresh =>
    refine ⟨vs, ?_⟩
    rw [Kw.tree, moves, moves_newDict h]
    intro _ h
    cases h
  | var x => exact ⟨vs, by rw [Kw.tree, moves_refVar, borrow_has (hv x List.mem_cons_self)]⟩
  | freshSet items =>
    exact block _ vs items rfl (moves_newDict h) h hn (fun e he => hp _ (List.mem_map_of_mem he)) (fun e he => hv _ (List.mem_map_of_mem he))
  | varSet x items =>
    have hxp : IsParam x := hp x List.mem_cons_self
    rw [Kw.vars, List.nodup_cons] at hn
    obtain ⟨us, h1, -, h2⟩ := take_has (hv x List.mem_cons_self)
    have hpx : c!"py" ≠ x := fun h => by have := hxp.ne_py; rw [← h] at this; exact absurd this (by decide)
    refine block _ us items rfl (by rw [moves_var, h1]) ((h2 _ hpx).trans h) hn.2
      (fun e he => hp _ (List.mem_cons_of_mem _ (List.mem_map_of_mem he))) (fun e he => ?_)
    obtain ⟨c, hc⟩ := hv _ (List.mem_cons_of_mem _ (List.mem_map_of_mem (f := Prod.snd) he))
    exact ⟨c, (h2 _ fun h => hn.1 (h ▸ List.mem_map_of_mem he)).trans hc⟩

theorem obj_notVar (o : Obj) (h : o.imported) : ∀ x, o.tree ≠ .path false [.mk x []] := by
  cases o with
  | self => exact h.elim
  | «import» => exact fun _ h => nomatch h
  | getattr => exact fun _ h => nomatch h

theorem moves_obj {vs : MVars} (h : Keeps vs c!"py") (o : Obj) (ho : o.imported) : moves vs o.tree = some vs := by
  induction o with
  | self => exact ho.elim
  | «import» pkg =>
    rw [Obj.tree, moves]
    show moves vs (.method (.path false [.mk c!"py" []]) c!"import_bound" _) = _
    rw [moves, if_pos (by decide), borrow_has h.has, Option.bind_some, movesAll_keep (moves_intern h pkg), movesAll]
  | getattr o name ih =>
    have hm : moves vs (.method o.tree c!"as_any" []) = some vs := by
      rw [moves_method (obj_notVar o ho), ih ho, Option.bind_some, movesAll]
    rw [Obj.tree, moves, anyCall, moves_absCall, movesAll_keep hm, movesAll_keep (moves_intern h name), movesAll]

/-- The object of a body takes no value away. -/
theorem moves_asAny {vs : MVars} {o : Obj} (h : (o.imported ∧ Keeps vs c!"py") ∨ (o = .self ∧ Has' vs c!"self")) :
    moves vs o.asAny = some vs := by
  unfold Obj.asAny
  rcases h with ⟨h, hpy⟩ | ⟨rfl, hs⟩
  · rw [moves_method (obj_notVar o h), moves_obj hpy o h, Option.bind_some, movesAll]
  · show moves vs (.method (.path false [.mk c!"self" []]) c!"as_any" []) = _
    rw [moves, if_pos (by decide), borrow_has hs, Option.bind_some, movesAll]

theorem moves_extract (vs : MVars) (e : RExpr) : moves vs (anyCall c!"extract" [.ref (.try e)]) = (moves vs e).bind some := by
  rw [anyCall, moves_absCall, movesAll, moves_ref (by intro _ h; cases h), moves]
  simp only [movesAll]

/-- Reading an attribute of `self` only borrows it. -/
theorem moves_getSelf {vs : MVars} (n : Str) (h : Has' vs c!"self") : ∃ ws, moves vs (Body.getattr .self n).tree = some ws := by
  have hself : moves vs (.method (var c!"self") c!"py" []) = some vs := by
    show moves vs (.method (.path false [.mk c!"self" []]) c!"py" []) = _
    rw [moves, if_pos (by decide), borrow_has h, Option.bind_some, movesAll]
  refine ⟨vs, ?_⟩
  rw [Body.tree, moves_extract, anyCall, moves_absCall, movesAll_keep (moves_asAny (.inr ⟨rfl, h⟩)), movesAll_keep, movesAll, Option.bind_some]
  rw [moves, movesAll_keep hself, movesAll, moves, Option.bind_some, movesAll]

/-- The last expression, once the conversions have been made. -/
theorem moves_body {vs : MVars} {b : Body} (h : Keeps vs c!"py") (ho : (b.obj.imported ∧ Keeps vs c!"py") ∨ (b.obj = .self ∧ Has' vs c!"self"))
    (hp : ∀ x ∈ b.vars, IsParam x) (hv : ∀ x ∈ b.vars, Has' vs x) (hs : ∀ x ∈ b.posStar, Keeps vs x) (hn : b.kwVars.Nodup) :
    ∃ ws, moves vs b.tree = some ws := by
  cases b with
  | call o m pos kw =>
    have obj : moves vs o.asAny = some vs := moves_asAny ho
    have hpos : ∀ p, (pos = some p ∨ p = .unit) → moves vs p.tree = some vs := by
      rintro p (rfl | rfl)
      · exact moves_pos h p (fun x hx => hp x (List.mem_append_left _ hx)) (fun x hx => hv x (List.mem_append_left _ hx)) hs
      · rw [Pos.tree, moves]
    have hpos' : moves vs (pos.getD .unit).tree = some vs := by
      cases pos with
      | none => exact hpos _ (.inr rfl)
      | some p => exact hpos _ (.inl rfl)
    have hkw : ∀ k, kw = some k → ∃ ws, movesAll vs [.call (var c!"Some") [.ref k.tree]] = some ws := by
      rintro k rfl
      obtain ⟨ws, hw⟩ := moves_kw h k (fun x hx => hp x (List.mem_append_right _ hx)) (fun x hx => hv x (List.mem_append_right _ hx)) hn
      exact ⟨ws, by rw [movesAll, var, moves, movesAll, hw, Option.bind_some, movesAll, Option.bind_some, movesAll]⟩
    have hcall : ∃ ws, moves vs (callTree o m pos kw) = some ws := by
      cases m with
      | none =>
        cases kw with
        | some k =>
          obtain ⟨ws, hw⟩ := hkw k rfl
          exact ⟨ws, by rw [callTree, anyCall, moves_absCall, movesAll_keep obj, movesAll_keep hpos', hw]⟩
        | none =>
          cases pos with
          | some p => exact ⟨vs, by rw [callTree, anyCall, moves_absCall, movesAll_keep obj, movesAll_keep (hpos p (.inl rfl)), movesAll]⟩
          | none => exact ⟨vs, by rw [callTree, anyCall, moves_absCall, movesAll_keep obj, movesAll]⟩
      | some m =>
        cases kw with
        | some k =>
          obtain ⟨ws, hw⟩ := hkw k rfl
          exact ⟨ws, by rw [callTree, anyCall, moves_absCall, movesAll_keep obj, movesAll_keep (moves_intern h m), movesAll_keep hpos', hw]⟩
        | none =>
          cases pos with
          | some p =>
            exact ⟨vs, by
              rw [callTree, anyCall, moves_absCall, movesAll_keep obj, movesAll_keep (moves_intern h m), movesAll_keep (hpos p (.inl rfl)), movesAll]⟩
          | none => exact ⟨vs, by rw [callTree, anyCall, moves_absCall, movesAll_keep obj, movesAll_keep (moves_intern h m), movesAll]⟩
    obtain ⟨ws, hw⟩ := hcall
    exact ⟨ws, by rw [Body.tree, moves_extract, hw, Option.bind_some]⟩
  | getattr o n =>
    have obj : moves vs o.asAny = some vs := moves_asAny ho
    have other : ∃ ws, moves vs (anyCall c!"extract" [.ref (.try (anyCall c!"getattr" [o.asAny, internTree n]))]) = some ws :=
      ⟨vs, by rw [moves_extract, anyCall, moves_absCall, movesAll_keep obj, movesAll_keep (moves_intern h n), movesAll, Option.bind_some]⟩
    cases o with
    | self =>
      rcases ho with ⟨ho, -⟩ | ⟨-, hself⟩
      · exact ho.elim
      · exact moves_getSelf n hself
    | «import» p => exact other
    | getattr o p => exact other
  | setattr o n x =>
    have obj : moves vs o.asAny = some vs := moves_asAny ho
    obtain ⟨ws, hw, -⟩ := take_has (hv x (List.mem_singleton.2 rfl))
    exact ⟨ws, by
      rw [Body.tree, anyCall, moves_absCall, movesAll_keep obj, movesAll_keep (moves_intern h n), movesAll, moves_var, hw, Option.bind_some, movesAll]⟩

theorem moves_params (ps : List (Str × RsTy)) (vs : MVars) : ∀ x ∈ ps.map Prod.fst,
    Has' ((ps.map (fun p => RParam.typed p.1 p.2.tree)).map RParam.mvar ++ vs) x := by
  induction ps with
  | nil => intro x hx; cases hx
  | cons p ps ih =>
    intro x hx
    rw [List.map_cons, List.map_cons, List.cons_append, RParam.mvar]
    by_cases he : x = p.1
    · subst he
      exact ⟨_, by rw [List.lookup_cons, beq_self_eq_true]⟩
    · rw [has_skip (beq_false_of_ne he)]
      exact ih x ((List.mem_cons.1 hx).resolve_left he)

/-- No function that the generators emit uses a variable after its value has been moved, if the names of its parameters are distinct. -/
theorem affine_fn {f : Fn} (h : f.Typed) (hn : (f.sig.params.map Prod.fst).Nodup) : f.tree.affine = true := by
  obtain ⟨l, hl, hpre, -, hps, -⟩ := h.params
  have hpar : ∀ e ∈ f.pre, IsParam e.1 := by
    intro e he
    obtain ⟨p, hp, h'⟩ := List.mem_map.1 (h.sane.pre e he)
    rw [← h']; exact h.sane.params p hp
  have hvp : ∀ x ∈ f.body.vars, IsParam x := by
    intro x hx
    obtain ⟨p, hp, h'⟩ := List.mem_map.1 (h.sane.body x hx)
    rw [← h']; exact h.sane.params p hp
  have hfst : f.pre.map Prod.fst = f.sig.params.map Prod.fst := by rw [hl, hpre, List.map_map, List.map_map]; rfl
  have hpn : ∀ z, (∀ y, IsParam y → (y == z) = false) → z ∉ f.pre.map Prod.fst := by
    intro z hz hm
    obtain ⟨e, he, rfl⟩ := List.mem_map.1 hm
    have := hz _ (hpar e he)
    simp at this
  -- with the variables before the conversions
  have main : ∀ vs : MVars, Keeps vs c!"py" → (∀ x ∈ f.sig.params.map Prod.fst, Has' vs x) →
      ((f.body.obj.imported ∧ Keeps vs c!"py") ∨ (f.body.obj = .self ∧ Has' vs c!"self")) →
      ∃ ws, (movesStmts vs (f.pre.flatMap (fun xp => preTree xp.1 xp.2))).bind (fun ws => moves ws f.body.tree) = some ws := by
    intro vs hpy hv ho
    obtain ⟨ws, h1, h2, h3, h4⟩ := moves_pres (hfst ▸ hn) hpar hpy (fun e he => hv _ (h.sane.pre e he))
    have hpy' : Keeps ws c!"py" := (h4 _ (hpn _ fun y hy => hy.ne_py)).trans hpy
    rw [h1, Option.bind_some]
    refine moves_body hpy' ?_ hvp (fun x hx => ?_) (fun x hx => h3 _ (hpre ▸ List.mem_map_of_mem (hps x hx)) rfl) (h.once hn)
    · rcases ho with ⟨ho, -⟩ | ⟨ho, c, hc⟩
      · exact .inl ⟨ho, hpy'⟩
      · exact .inr ⟨ho, c, (h4 _ (hpn _ fun y hy => hy.ne_self)).trans hc⟩
    · obtain ⟨e, he, rfl⟩ := List.mem_map.1 (hfst ▸ h.sane.body x hx)
      exact h2 e he
  have hpar' : ∀ x ∈ f.sig.params.map Prod.fst, IsParam x := by
    intro x hx
    obtain ⟨p, hp, rfl⟩ := List.mem_map.1 hx
    exact h.sane.params p hp
  have here := moves_params f.sig.params []
  rw [List.append_nil] at here
  unfold RFn.affine Fn.tree
  simp only [Sig.tree, List.map_cons]
  rw [moves, Option.isSome_map]
  rcases h.sane.recv with ⟨hr, hlet, hi⟩ | ⟨hr, ho, hlet | ⟨hlet, hp, n, hbody⟩⟩
  · rw [hr, hlet]
    have hk : Keeps ((Recv.py.tree.mvar) :: (f.sig.params.map (fun p => RParam.typed p.1 p.2.tree)).map RParam.mvar) c!"py" := rfl
    obtain ⟨ws, hw⟩ := main _ hk (fun x hx => (has_skip (hpar' x hx).ne_py _).2 (here x hx)) (.inl ⟨hi, hk⟩)
    simp only [Bool.false_eq_true, if_false, List.nil_append]
    rw [hw]
    rfl
  · rw [hr, hlet]
    simp only [if_true, List.cons_append, List.nil_append]
    rw [movesStmts]
    have hs : Has' (Recv.self.tree.mvar :: (f.sig.params.map (fun p => RParam.typed p.1 p.2.tree)).map RParam.mvar) c!"self" := ⟨true, rfl⟩
    have hm : moves (Recv.self.tree.mvar :: (f.sig.params.map (fun p => RParam.typed p.1 p.2.tree)).map RParam.mvar) (.method (var c!"self") c!"py" []) =
        some (Recv.self.tree.mvar :: (f.sig.params.map (fun p => RParam.typed p.1 p.2.tree)).map RParam.mvar) := by
      show moves _ (.method (.path false [.mk c!"self" []]) c!"py" []) = _
      rw [moves, if_pos (by decide), borrow_has hs, Option.bind_some, movesAll]
    rw [hm, Option.bind_some]
    obtain ⟨ws, hw⟩ := main ((c!"py", true, true) :: Recv.self.tree.mvar :: (f.sig.params.map (fun p => RParam.typed p.1 p.2.tree)).map RParam.mvar) rfl
      (fun x hx => (has_skip (hpar' x hx).ne_py _).2 ((has_skip (hpar' x hx).ne_self _).2 (here x hx)))
      (.inr ⟨ho, (has_skip (by decide) _).2 hs⟩)
    rw [show isCopyExpr _ = true from rfl, hw]
    rfl
  · rw [hr, hlet, hp, hbody]
    simp only [Bool.false_eq_true, if_false, List.nil_append, List.flatMap_nil]
    obtain ⟨ws, hw⟩ := moves_getSelf (vs := Recv.self.tree.mvar :: (f.sig.params.map (fun p => RParam.typed p.1 p.2.tree)).map RParam.mvar) n ⟨true, rfl⟩
    rw [movesStmts, Option.bind_some, hw]
    rfl

end Bindgen

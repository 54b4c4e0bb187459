import Verif.Lemmas.Eval
import Verif.Spec.Hygiene
import Verif.Spec.Refs
/-!
# Lemmas: the names in the trees of the emitted functions
-/
namespace Bindgen
open Spec

/-! ## Types -/

theorem segUses_names (l : List Str) : RSeg.uses (names l) = [] := by
  unfold names
  induction l with
  | nil => rfl
  | cons s l ih => simp only [List.map_cons, RSeg.uses, RType.usesAll, List.nil_append]; exact ih

theorem segUses_append : ∀ l l' : List RSeg, RSeg.uses (l ++ l') = RSeg.uses l ++ RSeg.uses l'
  | [], _ => rfl
  | .mk _ args :: l, l' => by simp only [List.cons_append, RSeg.uses, segUses_append l l', List.append_assoc]

theorem uses_abs (l : List Str) : (RType.path true (names l)).uses = [] := by
  simp only [RType.uses, headUse, segUses_names, List.nil_append]

theorem uses_one (x : Str) : (RType.path false (names [x])).uses = [.typ x] := rfl

theorem uses_gen (l : List Str) (last : Str) (args : List RType) : (gen true l last args).uses = RType.usesAll args := by
  simp only [gen, RType.uses, headUse, segUses_append, segUses_names, List.nil_append, RSeg.uses, List.append_nil]

theorem uses_life (s : Str) : (RType.life s).uses = [] := rfl

mutual
/-- The names in the tree of a type: those of Rust, and those of references to generated types. -/
theorem ty_uses {u : Use} : ∀ (t : RsTy), u ∈ t.tree.uses → u ∈ builtin ∨ ∃ p, Mentions p t ∧ u ∈ p.tree.uses
  | .bool, h => by rw [RsTy.tree, uses_one, List.mem_singleton] at h; subst h; exact .inl (by decide)
  | .f64, h => by rw [RsTy.tree, uses_one, List.mem_singleton] at h; subst h; exact .inl (by decide)
  | .i64, h => by rw [RsTy.tree, uses_one, List.mem_singleton] at h; subst h; exact .inl (by decide)
  | .u8, h => by rw [RsTy.tree, uses_one, List.mem_singleton] at h; subst h; exact .inl (by decide)
  | .string, h => by rw [RsTy.tree, uses_abs] at h; cases h
  | .strRef, h => by rw [RsTy.tree, RType.uses, uses_one, List.mem_singleton] at h; subst h; exact .inl (by decide)
  | .option t, h => by
    rw [RsTy.tree, uses_gen, RType.usesAll, RType.usesAll, List.append_nil] at h
    exact (ty_uses t h).imp id fun ⟨p, hm, hu⟩ => ⟨p, .option hm, hu⟩
  | .hashMap k v, h => by
    rw [RsTy.tree, uses_gen, RType.usesAll, RType.usesAll, RType.usesAll, List.append_nil, List.mem_append] at h
    rcases h with h | h
    · exact (ty_uses k h).imp id fun ⟨p, hm, hu⟩ => ⟨p, .key hm, hu⟩
    · exact (ty_uses v h).imp id fun ⟨p, hm, hu⟩ => ⟨p, .value hm, hu⟩
  | .hashSet t, h => by
    rw [RsTy.tree, uses_gen, RType.usesAll, RType.usesAll, List.append_nil] at h
    exact (ty_uses t h).imp id fun ⟨p, hm, hu⟩ => ⟨p, .hashSet hm, hu⟩
  | .vec t, h => by
    have he : (RsTy.vec t).tree.uses = .typ c!"Vec" :: t.tree.uses := by
      simp only [RsTy.tree, gen, names, List.map_nil, List.nil_append, RType.uses, headUse, RSeg.uses, RType.usesAll, List.append_nil,
        List.cons_append]
    rw [he, List.mem_cons] at h
    rcases h with rfl | h
    · exact .inl (by decide)
    · exact (ty_uses t h).imp id fun ⟨p, hm, hu⟩ => ⟨p, .vec hm, hu⟩
  | .slice t, h => by
    rw [RsTy.tree, RType.uses, RType.uses] at h
    exact (ty_uses t h).imp id fun ⟨p, hm, hu⟩ => ⟨p, .slice hm, hu⟩
  | .ref t, h => by
    rw [RsTy.tree, RType.uses] at h
    exact (ty_uses t h).imp id fun ⟨p, hm, hu⟩ => ⟨p, .ref hm, hu⟩
  | .tuple ts, h => by
    rw [RsTy.tree, RType.uses] at h
    exact (tys_uses ts h).imp id fun ⟨p, t, ht, hm, hu⟩ => ⟨p, .tuple ht hm, hu⟩
  | .stdNet n, h => by rw [RsTy.tree, uses_abs] at h; cases h
  | .pathBuf, h => by rw [RsTy.tree, uses_abs] at h; cases h
  | .path, h => by rw [RsTy.tree, uses_abs] at h; cases h
  | .bound n, h => by
    rw [RsTy.tree, uses_gen] at h
    simp only [RType.usesAll, uses_life, uses_abs, List.append_nil] at h
    cases h
  | .boundLocal p, h => by
    rw [RsTy.tree, uses_gen] at h
    simp only [RType.usesAll, uses_life, List.append_nil, List.nil_append] at h
    exact .inr ⟨p, .here, h⟩
  | .boundNumpy, h => by
    rw [RsTy.tree, uses_gen] at h
    simp only [RType.usesAll, uses_life, uses_abs, uses_gen, List.append_nil] at h
    cases h
  | .implIntoPy n, h => by
    rw [RsTy.tree, RType.uses, uses_gen] at h
    simp only [RType.usesAll, uses_gen, uses_abs, List.append_nil] at h
    cases h
  | .implIntoPyDict, h => by rw [RsTy.tree, RType.uses, uses_abs] at h; cases h
theorem tys_uses {u : Use} : ∀ (ts : List RsTy), u ∈ RType.usesAll (RsTy.trees ts) →
    u ∈ builtin ∨ ∃ p, ∃ t ∈ ts, Mentions p t ∧ u ∈ p.tree.uses
  | [], h => by cases h
  | t :: ts, h => by
    rw [RsTy.trees, RType.usesAll, List.mem_append] at h
    rcases h with h | h
    · exact (ty_uses t h).imp id fun ⟨p, hm, hu⟩ => ⟨p, t, List.mem_cons_self, hm, hu⟩
    · exact (tys_uses ts h).imp id fun ⟨p, t, ht, hm, hu⟩ => ⟨p, t, List.mem_cons_of_mem _ ht, hm, hu⟩
end

/-! ## Expressions -/

/-- All names are `Some` and `Vec`. -/
def Closed (l : List Use) : Prop := ∀ u ∈ l, u = .val c!"Some" ∨ u = .typ c!"Vec"

theorem Closed.nil : Closed [] := fun _ h => (nomatch h)

theorem Closed.append {l l' : List Use} (h : Closed l) (h' : Closed l') : Closed (l ++ l') :=
  fun u hu => (List.mem_append.1 hu).elim (h u) (h' u)

theorem Closed.some {l : List Use} (h : Closed l) : Closed (.val c!"Some" :: l) :=
  fun u hu => (List.mem_cons.1 hu).elim .inl (h u)

theorem uses_var {locals : List Str} {x : Str} (h : x ∈ locals) : (var x).uses locals = [] := by
  simp only [var, names, List.map_cons, List.map_nil, RExpr.uses, if_pos h, RType.usesAll, List.append_nil]

theorem uses_absCall (locals : List Str) (l : List Str) (args : List RExpr) :
    (absCall l args).uses locals = RExpr.usesAll locals args := by
  rw [absCall, RExpr.uses]
  have : (RExpr.path true (names l)).uses locals = [] := by
    cases l with
    | nil => rfl
    | cons a l =>
      rw [RExpr.uses, headUse, segUses_names]
      · rfl
      all_goals simp
  rw [this, List.nil_append]

theorem uses_intern {locals : List Str} (h : c!"py" ∈ locals) (s : Str) : (internTree s).uses locals = [] := by
  simp only [internTree, RExpr.uses, headUse, segUses_names, RExpr.usesAll, uses_var h, List.append_nil]

theorem usesAll_map {α : Type} (locals : List Str) (f : α → RExpr) (l : List α) (h : ∀ a ∈ l, (f a).uses locals = []) :
    RExpr.usesAll locals (l.map f) = [] := by
  induction l with
  | nil => rfl
  | cons a l ih =>
    rw [List.map_cons, RExpr.usesAll, h a List.mem_cons_self, ih fun b hb => h b (List.mem_cons_of_mem _ hb), List.nil_append]

theorem uses_obj {locals : List Str} (h : c!"py" ∈ locals) : ∀ (o : Obj), o.imported ∨ c!"self" ∈ locals → o.tree.uses locals = []
  | .self, hs => by
    rcases hs with hs | hs
    · exact hs.elim
    · exact uses_var hs
  | .import p, _ => by simp only [Obj.tree, RExpr.uses, RExpr.usesAll, uses_var h, uses_intern h, List.append_nil]
  | .getattr o n, hs => by
    have : o.tree.uses locals = [] := uses_obj h o hs
    simp only [Obj.tree, RExpr.uses, anyCall, uses_absCall, RExpr.usesAll, this, uses_intern h, List.append_nil]

theorem uses_asAny {locals : List Str} {o : Obj} (h : o.tree.uses locals = []) : o.asAny.uses locals = [] := by
  simp only [Obj.asAny, RExpr.uses, h, RExpr.usesAll, List.append_nil]

theorem uses_newDict {locals : List Str} (h : c!"py" ∈ locals) : newDict.uses locals = [] := by
  simp only [newDict, uses_absCall, RExpr.usesAll, uses_var h, List.append_nil]

theorem uses_intoDict {locals : List Str} (h : c!"py" ∈ locals) {x : Str} (hx : x ∈ locals) : (intoDictTree x).uses locals = [] := by
  simp only [intoDictTree, uses_absCall, RExpr.usesAll, uses_var h, uses_var hx, List.append_nil]

theorem uses_intoPy {locals : List Str} (h : c!"py" ∈ locals) {x : Str} (hx : x ∈ locals) (t : Str) :
    (intoPyTree t x).uses locals = [] := by
  simp only [intoPyTree, RExpr.uses, RExpr.usesAll, uses_var h, uses_var hx, List.append_nil, headUse, RSeg.uses, RType.usesAll, uses_gen,
    uses_abs]

theorem uses_toObject {locals : List Str} (h : c!"py" ∈ locals) {x : Str} (hx : x ∈ locals) : (toObjectTree x).uses locals = [] := by
  simp only [toObjectTree, uses_absCall, RExpr.usesAll, RExpr.uses, uses_var h, uses_var hx, List.append_nil]

theorem uses_newTuple {locals : List Str} (h : c!"py" ∈ locals) (e : RExpr) : (newTuple e).uses locals = e.uses locals := by
  simp only [newTuple, uses_absCall, RExpr.usesAll, uses_var h, List.append_nil, List.nil_append]

/-- The names in a conversion. -/
theorem closed_pre {locals : List Str} (h : c!"py" ∈ locals) {x : Str} (hx : x ∈ locals) (p : Pre) :
    Closed (RStmt.uses locals (preTree x p)) ∧ ∀ y ∈ RStmt.binds (preTree x p), y = x := by
  have hx' : x ∈ x :: locals := List.mem_cons_self
  have h' : c!"py" ∈ x :: locals := List.mem_cons_of_mem _ h
  cases p with
  | none => exact ⟨.nil, fun _ h => (nomatch h)⟩
  | intoDict =>
    refine ⟨?_, fun y hy => List.mem_singleton.1 hy⟩
    simp only [preTree, RStmt.uses, uses_intoDict h hx, List.append_nil]
    exact .nil
  | intoTuple =>
    refine ⟨?_, fun y hy => ?_⟩
    · simp only [preTree, RStmt.uses, RExpr.uses, RExpr.usesAll, uses_intoPy h hx, uses_var hx', uses_var h', List.append_nil]
      exact .nil
    · simpa [preTree, RStmt.binds] using hy
  | intoAny =>
    refine ⟨?_, fun y hy => ?_⟩
    · simp only [preTree, RStmt.uses, RExpr.uses, RExpr.usesAll, uses_intoPy h hx, uses_var hx', uses_var h', List.append_nil]
      exact .nil
    · simpa [preTree, RStmt.binds] using hy
  | optDict =>
    refine ⟨?_, fun y hy => List.mem_singleton.1 hy⟩
    simp only [preTree, RStmt.uses, RExpr.uses, uses_var hx, uses_intoDict h' hx', uses_newDict h, RStmt.binds, List.append_nil,
      List.nil_append]
    exact .some .nil

theorem stmtUses_append : ∀ (locals : List Str) (l l' : List RStmt),
    RStmt.uses locals (l ++ l') = RStmt.uses locals l ++ RStmt.uses (RStmt.binds l ++ locals) l'
  | _, [], _ => rfl
  | locals, .let _ x e :: l, l' => by
    simp only [List.cons_append, RStmt.uses, RStmt.binds, stmtUses_append (x :: locals) l l', List.append_assoc,
      List.nil_append]
  | locals, .const x t e :: l, l' => by
    simp only [List.cons_append, RStmt.uses, RStmt.binds, stmtUses_append (x :: locals) l l', List.append_assoc,
      List.nil_append]
  | locals, .expr e :: l, l' => by simp only [List.cons_append, RStmt.uses, RStmt.binds, stmtUses_append locals l l', List.append_assoc]

theorem binds_append : ∀ l l' : List RStmt, RStmt.binds (l ++ l') = RStmt.binds l' ++ RStmt.binds l
  | [], l' => by simp only [List.nil_append, RStmt.binds, List.append_nil]
  | .let _ x e :: l, l' => by simp only [List.cons_append, RStmt.binds, binds_append l l', List.append_assoc]
  | .const x t e :: l, l' => by simp only [List.cons_append, RStmt.binds, binds_append l l', List.append_assoc]
  | .expr e :: l, l' => by simp only [List.cons_append, RStmt.binds, binds_append l l']

/-- The names in the conversions. -/
theorem closed_pres : ∀ {locals : List Str} (_ : c!"py" ∈ locals) (l : List (Str × Pre)) (_ : ∀ p ∈ l, p.1 ∈ locals),
    Closed (RStmt.uses locals (l.flatMap fun xp => preTree xp.1 xp.2))
  | _, _, [], _ => .nil
  | locals, h, p :: l, hl => by
    rw [List.flatMap_cons, stmtUses_append]
    refine (closed_pre h (hl p List.mem_cons_self) p.2).1.append (closed_pres ?_ l ?_)
    · exact List.mem_append_right _ h
    · exact fun q hq => List.mem_append_right _ (hl q (List.mem_cons_of_mem _ hq))

/-- The names in the positional arguments. -/
theorem closed_pos {locals : List Str} (h : c!"py" ∈ locals) (p : Pos) (hp : ∀ x ∈ p.vars, x ∈ locals) : Closed (p.tree.uses locals) := by
  cases p with
  | unit => exact .nil
  | var x => rw [Pos.tree, uses_var (hp x List.mem_cons_self)]; exact .nil
  | tuple xs =>
    rw [Pos.tree, uses_newTuple h, RExpr.uses, usesAll_map locals toObjectTree xs fun x hx => uses_toObject h (hp x hx)]
    exact .nil
  | tupleVar xs x =>
    have hx : x ∈ locals := hp x List.mem_cons_self
    have hxs : ∀ y ∈ xs, y ∈ locals := fun y hy => hp y (List.mem_cons_of_mem _ hy)
    have hc : c!"py" ∈ c!"__internal__args" :: locals := List.mem_cons_of_mem _ h
    have hself : c!"__internal__args" ∈ c!"__internal__args" :: locals := List.mem_cons_self
    have harr : RExpr.usesAll (c!"__internal__args" :: locals) (xs.map toObjectTree) = [] :=
      usesAll_map _ _ _ fun y hy => uses_toObject hc (List.mem_cons_of_mem _ (hxs y hy))
    have hmap : (toObjectTree c!"__internal__arg").uses (c!"__internal__arg" :: c!"__internal__args" :: locals) = [] :=
      uses_toObject (List.mem_cons_of_mem _ hc) List.mem_cons_self
    have hw : ((RExpr.path false (names [c!"Vec", c!"with_capacity"])).uses locals) = [.typ c!"Vec"] := rfl
    have hx' : (Bindgen.var x).uses (c!"__internal__args" :: locals) = [] := uses_var (List.mem_cons_of_mem _ hx)
    simp only [Pos.tree, RExpr.uses, RStmt.uses, RStmt.binds, RExpr.usesAll, uses_absCall, uses_var hx, hx', uses_newTuple hc,
      uses_var hself, harr, hmap, hw, List.append_nil, List.nil_append, List.singleton_append]
    intro u hu
    exact .inr (List.mem_singleton.1 hu)

theorem uses_setItems {locals : List Str} (h : c!"py" ∈ locals) (hk : c!"__internal__kwargs" ∈ locals) :
    ∀ (items : List (Str × Str)) (_ : ∀ x ∈ items.map Prod.snd, x ∈ locals),
      RStmt.uses locals (setItemsTree items) = [] ∧ RStmt.binds (setItemsTree items) = []
  | [], _ => ⟨rfl, rfl⟩
  | (k, x) :: items, hi => by
    obtain ⟨h1, h2⟩ := uses_setItems h hk items fun y hy => hi y (List.mem_cons_of_mem _ hy)
    unfold setItemsTree at h1 h2 ⊢
    simp only [List.map_cons, RStmt.uses, RStmt.binds, uses_absCall, RExpr.usesAll, RExpr.uses, uses_var hk, uses_intern h,
      uses_var (hi x List.mem_cons_self), h1, h2, List.append_nil, and_self]

/-- The names in the keyword arguments. -/
theorem closed_kw {locals : List Str} (h : c!"py" ∈ locals) (k : Kw) (hk : ∀ x ∈ k.vars, x ∈ locals) : k.tree.uses locals = [] := by
  have hc : c!"py" ∈ c!"__internal__kwargs" :: locals := List.mem_cons_of_mem _ h
  have hself : c!"__internal__kwargs" ∈ c!"__internal__kwargs" :: locals := List.mem_cons_self
  cases k with
  | fresh => exact uses_newDict h
  | var x => exact uses_var (hk x List.mem_cons_self)
  | freshSet items =>
    obtain ⟨h1, h2⟩ := uses_setItems hc hself items fun y hy => List.mem_cons_of_mem _ (hk y hy)
    simp only [Kw.tree, RExpr.uses, RStmt.uses, RStmt.binds, uses_newDict h, h1, h2, List.nil_append, List.singleton_append, uses_var hself]
  | varSet x items =>
    obtain ⟨h1, h2⟩ := uses_setItems hc hself items fun y hy => List.mem_cons_of_mem _ (hk y (List.mem_cons_of_mem _ hy))
    simp only [Kw.tree, RExpr.uses, RStmt.uses, RStmt.binds, uses_var (hk x List.mem_cons_self), h1, h2, List.nil_append,
      List.singleton_append, uses_var hself]

/-- The names in a call. -/
theorem closed_call {locals : List Str} (h : c!"py" ∈ locals) {o : Obj} (ho : o.tree.uses locals = []) (m : Option Str) (pos : Option Pos)
    (kw : Option Kw) (hp : ∀ p ∈ pos, ∀ x ∈ p.vars, x ∈ locals) (hk : ∀ k ∈ kw, ∀ x ∈ k.vars, x ∈ locals) :
    Closed ((callTree o m pos kw).uses locals) := by
  have ha := uses_asAny ho
  have hpos : Closed ((pos.getD .unit).tree.uses locals) := by
    cases pos with
    | none => exact .nil
    | some p => exact closed_pos h p (hp p rfl)
  have hsome : ∀ k ∈ kw, Closed ((RExpr.call (var c!"Some") [.ref k.tree]).uses locals) := by
    intro k hkw
    have hu : Closed ((var c!"Some").uses locals) := by
      simp only [var, names, List.map_cons, List.map_nil, RExpr.uses, RType.usesAll, List.append_nil]
      split
      · exact .nil
      · exact .some .nil
    simp only [RExpr.uses, RExpr.usesAll, closed_kw h k (hk k hkw), List.append_nil]
    exact hu
  cases m with
  | none =>
    cases kw with
    | none =>
      cases pos with
      | none => simp only [callTree, anyCall, uses_absCall, RExpr.usesAll, ha, List.append_nil]; exact .nil
      | some p => simp only [callTree, anyCall, uses_absCall, RExpr.usesAll, ha, List.append_nil, List.nil_append]; exact closed_pos h p (hp p rfl)
    | some k =>
      simp only [callTree, anyCall, uses_absCall]
      rw [RExpr.usesAll, RExpr.usesAll, RExpr.usesAll, RExpr.usesAll, ha, List.append_nil, List.nil_append]
      exact hpos.append (hsome k rfl)
  | some m =>
    cases kw with
    | none =>
      cases pos with
      | none => simp only [callTree, anyCall, uses_absCall, RExpr.usesAll, ha, uses_intern h, List.append_nil]; exact .nil
      | some p =>
        simp only [callTree, anyCall, uses_absCall, RExpr.usesAll, ha, uses_intern h, List.append_nil, List.nil_append]
        exact closed_pos h p (hp p rfl)
    | some k =>
      simp only [callTree, anyCall, uses_absCall]
      rw [RExpr.usesAll, RExpr.usesAll, RExpr.usesAll, RExpr.usesAll, RExpr.usesAll, ha, uses_intern h, List.append_nil, List.nil_append,
        List.nil_append]
      exact hpos.append (hsome k rfl)

/-- The names in the last expression. -/
theorem closed_body {locals : List Str} (h : c!"py" ∈ locals) (b : Body) (ho : b.obj.imported ∨ c!"self" ∈ locals)
    (hself : b.obj = .self → c!"self" ∈ locals) (hv : ∀ x ∈ b.vars, x ∈ locals) : Closed (b.tree.uses locals) := by
  have hobj := uses_obj h b.obj ho
  cases b with
  | call o m pos kw =>
    simp only [Body.tree, anyCall, uses_absCall, RExpr.usesAll, RExpr.uses, List.append_nil]
    refine closed_call h hobj m pos kw ?_ ?_
    · rintro p rfl x hx; exact hv x (List.mem_append_left _ hx)
    · rintro k rfl x hx; exact hv x (List.mem_append_right _ hx)
  | getattr o n =>
    have ha := uses_asAny hobj
    cases o with
    | self =>
      simp only [Body.obj] at ha
      have hs := uses_var (hself rfl)
      simp only [Body.tree, anyCall, uses_absCall, RExpr.usesAll, RExpr.uses, ha, headUse, segUses_names, hs, List.append_nil]
      exact .nil
    | «import» p =>
      simp only [Body.obj] at ha
      simp only [Body.tree, anyCall, uses_absCall, RExpr.usesAll, RExpr.uses, ha, uses_intern h, List.append_nil]
      exact .nil
    | getattr o m =>
      simp only [Body.obj] at ha
      simp only [Body.tree, anyCall, uses_absCall, RExpr.usesAll, RExpr.uses, ha, uses_intern h, List.append_nil]
      exact .nil
  | setattr o n x =>
    have ha := uses_asAny hobj
    simp only [Body.obj] at ha
    simp only [Body.tree, anyCall, uses_absCall, RExpr.usesAll, ha, uses_intern h, uses_var (hv x List.mem_cons_self), List.append_nil]
    exact .nil

/-! ## Functions -/

/-- The names in the body of a function. -/
theorem closed_fn {f : Fn} (h : f.Sane) : Closed (f.tree.body.uses (f.tree.sig.params.map RParam.name)) := by
  have hn : f.tree.sig.params.map RParam.name =
      (match f.sig.recv with | .py => c!"py" | .self => c!"self") :: f.sig.params.map Prod.fst := by
    have : (f.sig.params.map fun p => RParam.typed p.1 p.2.tree).map RParam.name = f.sig.params.map Prod.fst := by
      rw [List.map_map]; rfl
    simp only [Fn.tree, Sig.tree, List.map_cons, this]
    cases f.sig.recv <;> rfl
  rw [hn]
  simp only [Fn.tree, RExpr.uses]
  rcases h.recv with ⟨hr, hlet, hi⟩ | ⟨hr, ho, hlet | ⟨hlet, hpre, n, hbody⟩⟩
  · rw [hr, hlet]
    simp only [Bool.false_eq_true, if_false, List.nil_append]
    have hpy : c!"py" ∈ c!"py" :: f.sig.params.map Prod.fst := List.mem_cons_self
    refine (closed_pres hpy f.pre fun p hp => List.mem_cons_of_mem _ (h.pre p hp)).append (closed_body ?_ _ (.inl hi) ?_ ?_)
    · exact List.mem_append_right _ hpy
    · intro he; rw [he] at hi; exact hi.elim
    · exact fun x hx => List.mem_append_right _ (List.mem_cons_of_mem _ (h.body x hx))
  · rw [hr, hlet]
    simp only [if_true, List.singleton_append, RStmt.uses, RStmt.binds]
    have hs : c!"self" ∈ c!"self" :: f.sig.params.map Prod.fst := List.mem_cons_self
    have hpy : c!"py" ∈ c!"py" :: c!"self" :: f.sig.params.map Prod.fst := List.mem_cons_self
    have h1 : (RExpr.method (var c!"self") c!"py" []).uses (c!"self" :: f.sig.params.map Prod.fst) = [] := by
      simp only [RExpr.uses, uses_var hs, RExpr.usesAll, List.append_nil]
    rw [h1, List.nil_append]
    refine (closed_pres hpy f.pre fun p hp => List.mem_cons_of_mem _ (List.mem_cons_of_mem _ (h.pre p hp))).append
      (closed_body ?_ _ (.inr ?_) ?_ ?_)
    · simp
    · simp
    · simp
    · intro x hx; exact List.mem_append_right _ (List.mem_cons_of_mem _ (h.body x hx))
  · rw [hr, hlet, hpre, hbody]
    have hs : c!"self" ∈ c!"self" :: f.sig.params.map Prod.fst := List.mem_cons_self
    simp only [Bool.false_eq_true, if_false, List.nil_append, List.flatMap_nil, RStmt.uses, RStmt.binds, Body.tree, anyCall, uses_absCall,
      RExpr.usesAll, RExpr.uses, Obj.asAny, Obj.tree, headUse, segUses_names, uses_var hs, List.append_nil]
    exact .nil

/-- The names in the signature of a function. -/
theorem sig_uses {s : Sig} {u : Use} (h : u ∈ s.tree.uses) : u ∈ builtin ∨ u = .typ c!"Self" ∨ ∃ p, SigMentions p s ∧ u ∈ p.tree.uses := by
  rcases List.mem_append.1 h with h | h
  · simp only [Sig.tree, List.flatMap_cons, List.mem_append] at h
    rcases h with h | h
    · cases hr : s.recv with
      | self => rw [hr] at h; cases h
      | py =>
        rw [hr] at h
        simp only [Recv.tree, RParam.uses, uses_gen, RType.usesAll, uses_life, List.append_nil] at h
        cases h
    · obtain ⟨q, hq, hu⟩ := List.mem_flatMap.1 h
      obtain ⟨⟨x, t⟩, hp, rfl⟩ := List.mem_map.1 hq
      exact (ty_uses t hu).imp id fun ⟨p, hm, hu⟩ => .inr ⟨p, .inl ⟨x, t, hp, hm⟩, hu⟩
  · simp only [Sig.tree, uses_gen, RType.usesAll, List.append_nil] at h
    cases hr : s.ret with
    | ty t =>
      rw [hr] at h
      exact (ty_uses t h).imp id fun ⟨p, hm, hu⟩ => .inr ⟨p, .inr ⟨t, hr, hm⟩, hu⟩
    | selfBound =>
      rw [hr] at h
      simp only [Ret.tree, uses_gen, RType.usesAll, uses_life, uses_one, List.append_nil, List.nil_append, List.mem_singleton] at h
      exact .inr (.inl h)
    | unit => rw [hr] at h; cases h

/-- The names in a function. -/
theorem fn_uses {f : Fn} (h : f.Sane) {u : Use} (hu : u ∈ f.tree.uses) :
    u ∈ builtin ∨ u = .typ c!"Self" ∨ ∃ p, SigMentions p f.sig ∧ u ∈ p.tree.uses := by
  rcases List.mem_append.1 hu with hu | hu
  · exact sig_uses hu
  · rcases closed_fn h u hu with rfl | rfl
    · exact .inl (by decide)
    · exact .inl (by decide)

/-! ## Variables -/

/-- The variables of the bindings. -/
def OwnVar (x : Str) : Prop := x = c!"py" ∨ IsParam x ∨ c!"__internal__" <+: x

theorem varsAll_nil {α : Type} (f : α → RExpr) (l : List α) (h : ∀ a ∈ l, (f a).vars = []) : RExpr.varsAll (l.map f) = [] := by
  induction l with
  | nil => rfl
  | cons a l ih =>
    rw [List.map_cons, RExpr.varsAll, h a List.mem_cons_self, ih fun b hb => h b (List.mem_cons_of_mem _ hb), List.nil_append]

theorem vars_obj : ∀ (o : Obj), o.tree.vars = []
  | .self => rfl
  | .import _ => rfl
  | .getattr o n => by
    have := vars_obj o
    simp only [Obj.tree, RExpr.vars, anyCall, absCall, internTree, RExpr.varsAll, this, var, List.append_nil]

theorem vars_pos (p : Pos) : ∀ x ∈ p.tree.vars, c!"__internal__" <+: x := by
  have hx : ∀ xs : List Str, RExpr.varsAll (xs.map toObjectTree) = [] := fun xs => varsAll_nil _ _ fun _ _ => rfl
  cases p with
  | unit => exact fun _ h => (nomatch h)
  | var x => exact fun _ h => (nomatch h)
  | tuple xs =>
    simp only [Pos.tree, newTuple, absCall, RExpr.vars, RExpr.varsAll, var, hx, List.append_nil]
    exact fun _ h => (nomatch h)
  | tupleVar xs x =>
    simp only [Pos.tree, newTuple, absCall, RExpr.vars, RStmt.vars, RExpr.varsAll, var, hx, toObjectTree, List.append_nil, List.nil_append]
    intro y hy
    simp only [List.mem_cons, List.not_mem_nil, or_false] at hy
    rcases hy with rfl | rfl <;> exact ⟨_, rfl⟩

theorem vars_setItems (items : List (Str × Str)) : RStmt.vars (setItemsTree items) = [] := by
  unfold setItemsTree
  induction items with
  | nil => rfl
  | cons k items ih => rw [List.map_cons, RStmt.vars, ih]; rfl

theorem vars_kw (k : Kw) : ∀ x ∈ k.tree.vars, c!"__internal__" <+: x := by
  cases k with
  | fresh => exact fun _ h => (nomatch h)
  | var x => exact fun _ h => (nomatch h)
  | freshSet items =>
    simp only [Kw.tree, RExpr.vars, RStmt.vars, newDict, absCall, RExpr.varsAll, var, vars_setItems, List.append_nil]
    intro y hy
    cases List.mem_singleton.1 hy
    exact ⟨_, rfl⟩
  | varSet x items =>
    simp only [Kw.tree, RExpr.vars, RStmt.vars, var, vars_setItems, List.append_nil]
    intro y hy
    cases List.mem_singleton.1 hy
    exact ⟨_, rfl⟩

theorem vars_call (o : Obj) (m : Option Str) (pos : Option Pos) (kw : Option Kw) :
    ∀ x ∈ (callTree o m pos kw).vars, c!"__internal__" <+: x := by
  intro x hx
  have ho := vars_obj o
  have hpos : x ∈ (pos.getD .unit).tree.vars → c!"__internal__" <+: x := vars_pos _ x
  cases m <;> cases kw <;> first
    | (rename_i k
       simp only [callTree, anyCall, absCall, RExpr.vars, RExpr.varsAll, Obj.asAny, ho, internTree, var, List.append_nil, List.nil_append,
         List.mem_append] at hx
       exact hx.elim hpos (vars_kw k x))
    | (cases pos <;>
       simp only [callTree, anyCall, absCall, RExpr.vars, RExpr.varsAll, Obj.asAny, ho, internTree, var, List.append_nil, List.nil_append]
         at hx <;> first
         | cases hx
         | exact vars_pos _ x hx)

theorem vars_body (b : Body) : ∀ x ∈ b.tree.vars, c!"__internal__" <+: x := by
  intro x hx
  cases b with
  | call o m pos kw =>
    simp only [Body.tree, anyCall, absCall, RExpr.vars, RExpr.varsAll, List.append_nil, List.nil_append] at hx
    exact vars_call o m pos kw x hx
  | getattr o n =>
    have ho := vars_obj o
    cases o <;>
      simp only [Body.tree, anyCall, absCall, RExpr.vars, RExpr.varsAll, Obj.asAny, ho, internTree, var, List.append_nil] at hx <;> cases hx
  | setattr o n y =>
    have ho := vars_obj o
    simp only [Body.tree, anyCall, absCall, RExpr.vars, RExpr.varsAll, Obj.asAny, ho, internTree, var, List.append_nil] at hx
    cases hx

theorem vars_pre (x : Str) (p : Pre) : ∀ y ∈ RStmt.vars (preTree x p), y = x := by
  intro y hy
  cases p <;>
    simp [preTree, RStmt.vars, RExpr.vars, RExpr.varsAll, intoDictTree, intoPyTree, newDict, absCall, var] at hy <;> exact hy

theorem stmtVars_append : ∀ l l' : List RStmt, RStmt.vars (l ++ l') = RStmt.vars l ++ RStmt.vars l'
  | [], _ => rfl
  | .let _ x e :: l, l' => by simp only [List.cons_append, RStmt.vars, stmtVars_append l l', List.append_assoc]
  | .const _ _ e :: l, l' => by simp only [List.cons_append, RStmt.vars, stmtVars_append l l', List.append_assoc]
  | .expr e :: l, l' => by simp only [List.cons_append, RStmt.vars, stmtVars_append l l', List.append_assoc]

theorem vars_pres : ∀ (l : List (Str × Pre)), ∀ y ∈ RStmt.vars (l.flatMap fun xp => preTree xp.1 xp.2), y ∈ l.map Prod.fst
  | [], _, h => by cases h
  | p :: l, y, h => by
    rw [List.flatMap_cons, stmtVars_append, List.mem_append] at h
    rcases h with h | h
    · rw [vars_pre _ _ y h]; exact List.mem_cons_self
    · exact List.mem_cons_of_mem _ (vars_pres l y h)

/-- The variables of a function. -/
theorem fn_vars {f : Fn} (h : f.Sane) {x : Str} (hx : x ∈ f.tree.vars) : OwnVar x := by
  rcases List.mem_append.1 hx with hx | hx
  · simp only [Fn.tree, Sig.tree, List.flatMap_cons, List.mem_append] at hx
    rcases hx with hx | hx
    · cases hr : f.sig.recv with
      | self => rw [hr] at hx; cases hx
      | py => rw [hr] at hx; exact .inl (List.mem_singleton.1 hx)
    · obtain ⟨q, hq, hu⟩ := List.mem_flatMap.1 hx
      obtain ⟨p, hp, rfl⟩ := List.mem_map.1 hq
      cases List.mem_singleton.1 hu
      exact .inr (.inl (h.params p hp))
  · simp only [Fn.tree, RExpr.vars, stmtVars_append, List.mem_append] at hx
    rcases hx with (hx | hx) | hx
    · split at hx
      · simp only [RStmt.vars, RExpr.vars, RExpr.varsAll, var, List.append_nil] at hx
        exact .inl (List.mem_singleton.1 hx)
      · cases hx
    · obtain ⟨p, hp, rfl⟩ := List.mem_map.1 (vars_pres _ _ hx)
      obtain ⟨q, hq, he⟩ := List.mem_map.1 (h.pre p hp)
      exact .inr (.inl (he ▸ h.params q hq))
    · exact .inr (.inr (vars_body _ x hx))

end Bindgen

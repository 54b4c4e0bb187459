import Verif.Lemmas.ParseExpr
/-!
# The trees of emitted functions
-/
namespace Bindgen
open Spec

variable {E : Env}

/-- The identifiers of the positional arguments are legal. -/
def Pos.Ok (E : Env) : Pos → Prop
  | .unit => True
  | .var x => IdOk E x
  | .tuple xs => ∀ x ∈ xs, IdOk E x
  | .tupleVar xs x => (∀ x ∈ xs, IdOk E x) ∧ IdOk E x

/-- The identifiers of the keyword arguments are legal. -/
def Kw.Ok (E : Env) : Kw → Prop
  | .fresh => True
  | .var x => IdOk E x
  | .freshSet items => ∀ kx ∈ items, IdOk E kx.2
  | .varSet x items => IdOk E x ∧ ∀ kx ∈ items, IdOk E kx.2

/-- The identifiers of a body are legal. -/
def Body.Ok (E : Env) : Body → Prop
  | .call _ _ pos kw => (∀ p ∈ pos, p.Ok E) ∧ ∀ k ∈ kw, k.Ok E
  | .getattr _ _ => True
  | .setattr _ _ x => IdOk E x

/-! ## They parse -/

theorem PA.more' {ts0 ts e ts' es} (h0 : ts0 = ts ++ .p .comma :: ts') (hs : startU ts = true) (h : PU ts e) (h' : PA ts' es) :
    PA ts0 (e :: es) := h0 ▸ PA.more (by rintro rfl; simp [startU] at hs) (h.toPE hs) h'

theorem PA.last {ts e} (hs : startU ts = true) (h : PU ts e) : PA ts [e] :=
  PA.one (by rintro rfl; simp [startU] at hs) (h.toPE hs)

theorem PA.lastRef {ts e} (h : PU ts e) : PA (.p .amp :: ts) [.ref e] := PA.one (by simp) (PE.ref h)

theorem PU.absCall {ts as : List Tok} {es} (l : List Str) (e : ts = .p .colon2 :: nameToks l ++ [.group .paren as]) (hne : l ≠ [])
    (h : PA as es) : PU ts (Bindgen.absCall l es) := by
  subst e; exact PU.call (PU.abs l rfl hne) h

theorem PA.py : PA [.id c!"py"] [Bindgen.var c!"py"] := PA.last rfl (PU.var _)

theorem PU.intern (name : Str) : PU (internToks name) (internTree name) :=
  PU.mac [c!"pyo3", c!"intern"] rfl (by simp) (PA.more' (ts := [.id c!"py"]) rfl rfl (PU.var _) (PA.last rfl (PU.str name)))

theorem Obj.start (o : Obj) (ts : List Tok) : startU (o.toks ++ ts) = true := by cases o <;> rfl

theorem Obj.parses : ∀ o : Obj, PU o.toks o.tree
  | .self => PU.self
  | .import pkg => PU.try (PU.method c!"import_bound" (PU.var _) (PA.last rfl (PU.intern pkg)))
  | .getattr o name => by
    refine PU.try (PU.absCall [c!"pyo3", c!"types", c!"PyAnyMethods", c!"getattr"] rfl (by simp) ?_)
    refine PA.more' (ts := o.toks ++ [.p .dot, .id c!"as_any", .group .paren []]) ?_ (o.start _)
      (PU.method c!"as_any" (Obj.parses o) PA.nil) (PA.last rfl (PU.intern name))
    simp only [List.append_assoc, List.cons_append, List.nil_append]

theorem Obj.parsesAny (o : Obj) : PU (o.toks ++ [.p .dot, .id c!"as_any", .group .paren []]) o.asAny :=
  PU.method c!"as_any" (Obj.parses o) PA.nil

theorem PU.rel {ts : List Tok} (s : Str) (l : List Str) (e : ts = nameToks (s :: l)) : PU ts (.path false (names (s :: l))) := by
  subst e
  obtain ⟨tl, htl⟩ := nameToks_head s l
  refine PU.of_primary ⟨(s :: l).length, fun n hn rest hr => primary_path (fun _ _ _ _ => ?_) ?_ hr⟩
  · rw [htl]; rfl
  · have := segs_names_turbo (p := pType n) (l := s :: l) (by simp) hn (stopP_T hr)
    rw [htl, List.cons_append] at this ⊢
    simp only [pPath, this]

theorem PU.newDict : PU (t!"::pyo3::types::PyDict::new_bound(py)") newDict :=
  PU.absCall [c!"pyo3", c!"types", c!"PyDict", c!"new_bound"] rfl (by simp) PA.py

theorem PA.xpy {x : Str} : PA [.id x, .p .comma, .id c!"py"] [Bindgen.var x, Bindgen.var c!"py"] :=
  PA.more' (ts := [.id x]) rfl rfl (PU.var x) PA.py

theorem PU.intoDict {x : Str} : PU (t!"::pyo3::types::IntoPyDict::into_py_dict_bound" ++ [.paren [.id x, .p .comma, .id c!"py"]]) (intoDictTree x) :=
  PU.absCall [c!"pyo3", c!"types", c!"IntoPyDict", c!"into_py_dict_bound"] rfl (by simp) PA.xpy

theorem PU.intoPyTuple {x : Str} :
    PU (t!"::pyo3::IntoPy::<::pyo3::Py<::pyo3::types::PyTuple>>::into_py" ++ [.paren [.id x, .p .comma, .id c!"py"]]) (intoPyTree c!"PyTuple" x) :=
  PU.call (PU.turbo c!"pyo3" c!"IntoPy" c!"into_py" rfl
    (PG.one (PT.gen [c!"pyo3"] c!"Py" rfl (PG.one (PT.abs [c!"pyo3", c!"types", c!"PyTuple"] rfl (by simp)))))) PA.xpy

theorem PU.intoPyAny {x : Str} :
    PU (t!"::pyo3::IntoPy::<::pyo3::Py<::pyo3::types::PyAny>>::into_py" ++ [.paren [.id x, .p .comma, .id c!"py"]]) (intoPyTree c!"PyAny" x) :=
  PU.call (PU.turbo c!"pyo3" c!"IntoPy" c!"into_py" rfl
    (PG.one (PT.gen [c!"pyo3"] c!"Py" rfl (PG.one (PT.abs [c!"pyo3", c!"types", c!"PyAny"] rfl (by simp)))))) PA.xpy

theorem PU.bind {x : Str} : PU ([.id x] ++ t!".bind(py)") (.method (Bindgen.var x) c!"bind" [Bindgen.var c!"py"]) :=
  PU.method c!"bind" (PU.var x) PA.py

theorem pre_parses {x : Str} (h : IdOk E x) : ∀ p : Pre, PS (preToks x p) (preTree x p) := by
  replace h := h.1
  intro p
  cases p with
  | none => exact PS.nil
  | intoDict =>
    have := PS.let x (PU.toPE rfl (PU.intoDict (x := x)))
    simp only [preToks, h]
    exact this
  | intoTuple =>
    have := PS.append (PS.let x (PU.toPE rfl (PU.intoPyTuple (x := x)))) (PS.let x (PU.toPE rfl (PU.bind (x := x))))
    simp only [preToks, h]
    exact this
  | intoAny =>
    have := PS.append (PS.let x (PU.toPE rfl (PU.intoPyAny (x := x)))) (PS.let x (PU.toPE rfl (PU.bind (x := x))))
    simp only [preToks, h]
    exact this
  | optDict =>
    have := PS.let x (PE.ifLet c!"Some" x (PU.toPE rfl (PU.var x)) (PBl.of PS.nil rfl (PU.toPE rfl (PU.intoDict (x := x))))
      (PBl.of PS.nil rfl (PU.toPE rfl PU.newDict)))
    simp only [preToks, h]
    exact this

theorem PU.toObject {x : Str} (h : Tok.ident x = .id x) : PU (toObjectToks x) (toObjectTree x) := by
  have : PA ([.p .amp, .id x, .p .comma, .id c!"py"]) [.ref (Bindgen.var x), Bindgen.var c!"py"] :=
    PA.more (ts := [.p .amp, .id x]) (by simp) (PE.ref (PU.var x)) PA.py
  have := PU.absCall [c!"pyo3", c!"ToPyObject", c!"to_object"] rfl (by simp) this
  simp only [toObjectToks, h]
  exact this

theorem PU.toObjects {xs : List Str} (h : ∀ x ∈ xs, IdOk E x) : PU [toObjectsToks xs] (.array (xs.map toObjectTree)) := by
  refine PU.array ?_
  induction xs with
  | nil => exact PA.nil
  | cons x xs ih =>
    refine PA.more' ?_ rfl (PU.toObject (h x (by simp)).1) (ih (fun y hy => h y (by simp [hy])))
    simp only [List.flatMap_cons, List.append_assoc, List.cons_append, List.nil_append]

theorem Pos.parses : ∀ {p : Pos}, p.Ok E → PU p.toks p.tree
  | .unit, _ => PU.unit
  | .var x, h => by
    replace h := h.1
    simp only [Pos.toks, h]
    exact PU.var x
  | .tuple xs, h => by
    refine PU.absCall [c!"pyo3", c!"types", c!"PyTuple", c!"new_bound"] rfl (by simp) ?_
    exact PA.more' (ts := [.id c!"py"]) rfl rfl (PU.var _) (PA.more' (ts := [toObjectsToks xs]) rfl rfl (PU.toObjects h) PA.nil)
  | .tupleVar xs x, h => by
    obtain ⟨h, hx⟩ := h
    have hx' : Tok.ident x = .id x := hx.1
    have s1 := PS.letMut c!"__internal__args" (PU.toPE rfl (PU.call (PU.rel c!"Vec" [c!"with_capacity"] rfl)
      (PA.one (by simp) (PE.add rfl rfl (PU.num xs.length)
        (PU.absCall [c!"pyo3", c!"types", c!"PyTupleMethods", c!"len"] rfl (by simp) (PA.last rfl (PU.var x)))))))
    have s2 := PS.expr rfl (PU.toPE rfl (PU.method c!"extend" (PU.var c!"__internal__args") (PA.last rfl (PU.toObjects h))))
    have s3 := PS.expr rfl (PU.toPE rfl (PU.method c!"extend" (PU.var c!"__internal__args") (PA.last rfl
      (PU.method c!"map" (PU.absCall [c!"pyo3", c!"types", c!"PyTupleMethods", c!"iter"] rfl (by simp) (PA.last rfl (PU.var x)))
        (PA.one (by simp) (PE.closure c!"__internal__arg" (PU.toPE rfl (PU.toObject (x := c!"__internal__arg") (rfl)))))))))
    have s4 : PE (t!"::pyo3::types::PyTuple::new_bound(py, __internal__args,)") (newTuple (Bindgen.var c!"__internal__args")) :=
      PU.toPE rfl (PU.absCall [c!"pyo3", c!"types", c!"PyTuple", c!"new_bound"] rfl (by simp)
        (PA.more' (ts := [.id c!"py"]) rfl rfl (PU.var _) (PA.more' (ts := [.id c!"__internal__args"]) rfl rfl (PU.var _) PA.nil)))
    have := PU.block (PBl.of (PS.append s1 (PS.append s2 s3)) rfl s4)
    simp only [Pos.toks, hx']
    exact this

theorem setItems_parses : ∀ {items : List (Str × Str)}, (∀ kx ∈ items, IdOk E kx.2) → PS (setItemsToks items) (setItemsTree items)
  | [], _ => PS.nil
  | (k, x) :: items, h => by
    have hx : Tok.ident x = .id x := (h (k, x) (by simp)).1
    have s1 : PS (t!"::pyo3::types::PyDictMethods::set_item" ++
        [.paren (t!"&__internal__kwargs," ++ internToks k ++ t!"," ++ [.id x])] ++ t!";") _ :=
      PS.expr rfl (PU.toPE rfl (PU.absCall [c!"pyo3", c!"types", c!"PyDictMethods", c!"set_item"] rfl (by simp)
        (PA.more (ts := [.p .amp, .id c!"__internal__kwargs"]) (by simp) (PE.ref (PU.var _))
          (PA.more' (ts := internToks k) rfl rfl (PU.intern k) (PA.last rfl (PU.var x))))))
    have := PS.append s1 (setItems_parses (items := items) (fun kx hkx => h kx (by simp [hkx])))
    simp only [setItemsToks, setItemsTree, List.flatMap_cons, List.map_cons, hx]
    exact this

theorem Kw.parses : ∀ {k : Kw}, k.Ok E → PU k.toks k.tree
  | .fresh, _ => PU.newDict
  | .var x, h => by
    replace h := h.1
    simp only [Kw.toks, h]
    exact PU.var x
  | .freshSet items, h => by
    have s1 := PS.let c!"__internal__kwargs" (PU.toPE rfl PU.newDict)
    have := PU.block (PBl.of (PS.append s1 (setItems_parses h)) rfl (PU.toPE rfl (PU.var c!"__internal__kwargs")))
    exact this
  | .varSet x items, h => by
    obtain ⟨hx, h⟩ := h
    have hx' : Tok.ident x = .id x := hx.1
    have s1 := PS.let c!"__internal__kwargs" (PU.toPE rfl (PU.var x))
    have := PU.block (PBl.of (PS.append s1 (setItems_parses h)) rfl (PU.toPE rfl (PU.var c!"__internal__kwargs")))
    simp only [Kw.toks, hx']
    exact this

theorem Pos.start {p : Pos} (h : p.Ok E) : startU p.toks = true := by
  cases p <;> try rfl
  case var x =>
    have h : Tok.ident x = .id x := h.1
    simp [Pos.toks, h, startU]

theorem PA.someRef {ts e} (h : PU ts e) : PA (t!"Some" ++ [.paren (t!"&" ++ ts)]) [.call (Bindgen.var c!"Some") [.ref e]] :=
  PA.last rfl (PU.call (PU.var _) (PA.lastRef h))

theorem getD_ok {pos : Option Pos} (h : ∀ p ∈ pos, p.Ok E) : (pos.getD .unit).Ok E := by
  cases pos with
  | none => trivial
  | some p => exact h p rfl

theorem call_parses {obj : Obj} {m : Option Str} {pos : Option Pos} {kw : Option Kw} (hp : ∀ p ∈ pos, p.Ok E) (hk : ∀ k ∈ kw, k.Ok E) :
    PU (callToks obj m pos kw) (callTree obj m pos kw) := by
  match m, pos, kw with
  | none, pos, some kw =>
    refine PU.absCall [c!"pyo3", c!"types", c!"PyAnyMethods", c!"call"] rfl (by simp) ?_
    refine PA.more' (ts := _ ++ _) ?_ (obj.start _) obj.parsesAny
      (PA.more' rfl (Pos.start (getD_ok hp)) (Pos.parses (getD_ok hp)) (PA.someRef (Kw.parses (hk kw rfl))))
    simp only [List.append_assoc, List.cons_append, List.nil_append]
  | none, some pos, none =>
    refine PU.absCall [c!"pyo3", c!"types", c!"PyAnyMethods", c!"call1"] rfl (by simp) ?_
    refine PA.more' (ts := _ ++ _) ?_ (obj.start _) obj.parsesAny (PA.last (Pos.start (hp pos rfl)) (Pos.parses (hp pos rfl)))
    simp only [List.append_assoc, List.cons_append, List.nil_append]
  | none, none, none =>
    refine PU.absCall [c!"pyo3", c!"types", c!"PyAnyMethods", c!"call0"] rfl (by simp) ?_
    exact PA.last (obj.start _) obj.parsesAny
  | some m, pos, some kw =>
    refine PU.absCall [c!"pyo3", c!"types", c!"PyAnyMethods", c!"call_method"] rfl (by simp) ?_
    refine PA.more' (ts := _ ++ _) ?_ (obj.start _) obj.parsesAny (PA.more' (ts := internToks m) rfl rfl (PU.intern m)
      (PA.more' rfl (Pos.start (getD_ok hp)) (Pos.parses (getD_ok hp)) (PA.someRef (Kw.parses (hk kw rfl)))))
    simp only [List.append_assoc, List.cons_append, List.nil_append]
  | some m, some pos, none =>
    refine PU.absCall [c!"pyo3", c!"types", c!"PyAnyMethods", c!"call_method1"] rfl (by simp) ?_
    refine PA.more' (ts := _ ++ _) ?_ (obj.start _) obj.parsesAny (PA.more' (ts := internToks m) rfl rfl (PU.intern m)
      (PA.last (Pos.start (hp pos rfl)) (Pos.parses (hp pos rfl))))
    simp only [List.append_assoc, List.cons_append, List.nil_append]
  | some m, none, none =>
    refine PU.absCall [c!"pyo3", c!"types", c!"PyAnyMethods", c!"call_method0"] rfl (by simp) ?_
    refine PA.more' (ts := _ ++ _) ?_ (obj.start _) obj.parsesAny (PA.last rfl (PU.intern m))
    simp only [List.append_assoc, List.cons_append, List.nil_append]

theorem Body.parses : ∀ {b : Body}, b.Ok E → PU b.toks b.tree ∧ startU b.toks = true
  | .call obj m pos kw, h => by
    refine ⟨?_, rfl⟩
    refine PU.absCall [c!"pyo3", c!"types", c!"PyAnyMethods", c!"extract"] rfl (by simp) ?_
    exact PA.lastRef (PU.try (call_parses h.1 h.2))
  | .getattr .self name, _ => by
    refine ⟨?_, rfl⟩
    refine PU.absCall [c!"pyo3", c!"types", c!"PyAnyMethods", c!"extract"] rfl (by simp) ?_
    refine PA.lastRef (PU.try (PU.absCall [c!"pyo3", c!"types", c!"PyAnyMethods", c!"getattr"] rfl (by simp) ?_))
    refine PA.more' (ts := _ ++ _) rfl rfl (Obj.parsesAny .self) (PA.last rfl (PU.mac [c!"pyo3", c!"intern"] rfl (by simp)
      (PA.more' (ts := [.kw .self] ++ t!".py()") rfl rfl (PU.method c!"py" PU.self PA.nil) (PA.last rfl (PU.str name)))))
  | .getattr (.import a) name, _ => by
    refine ⟨?_, rfl⟩
    refine PU.absCall [c!"pyo3", c!"types", c!"PyAnyMethods", c!"extract"] rfl (by simp) ?_
    refine PA.lastRef (PU.try (PU.absCall [c!"pyo3", c!"types", c!"PyAnyMethods", c!"getattr"] rfl (by simp) ?_))
    refine PA.more' (ts := _ ++ _) ?_ (Obj.start _ _) (Obj.parsesAny _) (PA.last rfl (PU.intern name))
    simp only [List.append_assoc, List.cons_append, List.nil_append]
  | .getattr (.getattr o a) name, _ => by
    refine ⟨?_, rfl⟩
    refine PU.absCall [c!"pyo3", c!"types", c!"PyAnyMethods", c!"extract"] rfl (by simp) ?_
    refine PA.lastRef (PU.try (PU.absCall [c!"pyo3", c!"types", c!"PyAnyMethods", c!"getattr"] rfl (by simp) ?_))
    refine PA.more' (ts := _ ++ _) ?_ (Obj.start _ _) (Obj.parsesAny _) (PA.last rfl (PU.intern name))
    simp only [List.append_assoc, List.cons_append, List.nil_append]
  | .setattr obj name x, h => by
    refine ⟨?_, rfl⟩
    have h : Tok.ident x = .id x := h.1
    refine PU.absCall [c!"pyo3", c!"types", c!"PyAnyMethods", c!"setattr"] rfl (by simp) ?_
    refine PA.more' (ts := _ ++ _) ?_ (Obj.start obj _) (Obj.parsesAny obj) (PA.more' (ts := internToks name) rfl rfl (PU.intern name)
      (PA.last rfl (PU.var x)))
    simp only [List.append_assoc, List.cons_append, List.nil_append, h]

end Bindgen

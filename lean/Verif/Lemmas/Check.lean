import Verif.Spec.Check
import Verif.Spec.Trees
import Verif.Spec.RustTy
import Verif.Lemmas.Eval
/-!
# Lemmas: types of the emitted functions
-/
namespace Bindgen
open Spec

mutual
/-- Rust and pyo3 can do everything with the type that the bindings need: there is such a type, tuples have at most 12 elements, and
hash collections have hashable keys. -/
def Spec.Supported : RsTy → Prop
  | .stdNet _ => False
  | .option t | .vec t | .slice t | .ref t => Supported t
  | .hashSet t => ImplHash t ∧ Supported t
  | .hashMap k v => ImplHash k ∧ Supported k ∧ Supported v
  | .tuple ts => ts.length ≤ 12 ∧ SupportedList ts
  | _ => True
/-- The same on lists. -/
def Spec.SupportedList : List RsTy → Prop
  | [] => True
  | t :: ts => Supported t ∧ SupportedList ts
end

mutual
/-- What the generator makes sure of: it uses classes of pyo3, relative paths, and tuples that are not empty. -/
def RsTy.Named : RsTy → Prop
  | .bound n => n ∈ pyo3Types
  | .boundLocal p => p.leadingColon = false ∧ p.segs ≠ []
  | .implIntoPy n => n = c!"PyTuple" ∨ n = c!"PyAny"
  | .stdNet n => n = c!"IpV4Addr" ∨ n = c!"IpV6Addr"
  | .option t | .vec t | .slice t | .ref t | .hashSet t => t.Named
  | .hashMap k v => k.Named ∧ v.Named
  | .tuple ts => ts ≠ [] ∧ RsTy.NamedList ts
  | _ => True
/-- The same on lists. -/
def RsTy.NamedList : List RsTy → Prop
  | [] => True
  | t :: ts => t.Named ∧ RsTy.NamedList ts
end

/-- The type `t` is read as `r`, with the traits it should have. -/
structure Reads (ls : List Str) (t : RsTy) (r : RTy) : Prop where
  read : readType ls t.tree = some r
  sized : r.sized = true
  from' : r.fromPy = true ↔ Supported t
  to : r.toPy = true ↔ Supported t
  hash : Supported t → (r.hash = true ↔ ImplHash t)

/-- The same on lists. -/
structure ReadsList (ls : List Str) (ts : List RsTy) (rs : List RTy) : Prop where
  read : readTypes ls (RsTy.trees ts) = some rs
  length : rs.length = ts.length
  sized : rs.all RTy.sized = true
  from' : RTy.fromPyAll rs = true ↔ SupportedList ts
  to : RTy.toPyAll rs = true ↔ SupportedList ts
  hash : SupportedList ts → (RTy.hashAll rs = true ↔ ImplHashList ts)

theorem plain_names (l : List Str) : plain (names l) = some l := by
  induction l with
  | nil => rfl
  | cons a l ih =>
    show (plain (names l)).map (a :: ·) = _
    rw [ih]; rfl

theorem readCls_path {p : Path} (h : p.leadingColon = false ∧ p.segs ≠ []) :
    readCls p.tree = some (.here (p.segs.map (fun s => lexTrim s.rs))) := by
  obtain ⟨h1, h2⟩ := h
  unfold Path.tree
  rw [h1, readCls, plain_names]
  cases hs : p.segs with
  | nil => exact absurd hs h2
  | cons a l => rfl

theorem readCls_types {n : Str} (h : n ∈ pyo3Types) : readCls (.path true (names [c!"pyo3", c!"types", n])) = some (.types n) := by
  simp [readCls, readPyo3, names, h]

theorem RsTy.tree_ne_life (t : RsTy) (l : Str) : t.tree ≠ .life l := by
  cases t <;> simp [RsTy.tree, gen]


theorem read_bound {ls : List Str} (hl : c!"py" ∈ ls) {n : Str} (h : n ∈ pyo3Types) :
    readType ls (RsTy.bound n).tree = some (.bound (.types n)) := by
  show (if c!"pyo3" = c!"pyo3" ∧ c!"Bound" = c!"Bound" ∧ c!"py" ∈ ls then _ else none) = _
  rw [if_pos ⟨rfl, rfl, hl⟩, readCls_types h]; rfl

theorem read_local {ls : List Str} (hl : c!"py" ∈ ls) {p : Path} (h : p.leadingColon = false ∧ p.segs ≠ []) :
    readType ls (RsTy.boundLocal p).tree = some (.bound (.here (p.segs.map (fun s => lexTrim s.rs)))) := by
  show (if c!"pyo3" = c!"pyo3" ∧ c!"Bound" = c!"Bound" ∧ c!"py" ∈ ls then _ else none) = _
  rw [if_pos ⟨rfl, rfl, hl⟩, readCls_path h]; rfl

mutual
/-- Owned types are read as they should be, unless there is no such type. -/
theorem reads_owned {ls : List Str} (hl : c!"py" ∈ ls) : ∀ (t : RsTy), Owned t → t.Named →
    (∃ r, Reads ls t r) ∨ (readType ls t.tree = none ∧ ¬ Supported t)
  | .bool, _, _ => .inl ⟨.bool, rfl, rfl, by simp [RTy.fromPy, Supported], by simp [RTy.toPy, Supported], by simp [RTy.hash, ImplHash]⟩
  | .f64, _, _ => .inl ⟨.f64, rfl, rfl, by simp [RTy.fromPy, Supported], by simp [RTy.toPy, Supported], by simp [RTy.hash, ImplHash]⟩
  | .i64, _, _ => .inl ⟨.i64, rfl, rfl, by simp [RTy.fromPy, Supported], by simp [RTy.toPy, Supported], by simp [RTy.hash, ImplHash]⟩
  | .u8, _, _ => .inl ⟨.u8, rfl, rfl, by simp [RTy.fromPy, Supported], by simp [RTy.toPy, Supported], by simp [RTy.hash, ImplHash]⟩
  | .string, _, _ => .inl ⟨.string, rfl, rfl, by simp [RTy.fromPy, Supported], by simp [RTy.toPy, Supported], by simp [RTy.hash, ImplHash]⟩
  | .pathBuf, _, _ => .inl ⟨.pathBuf, rfl, rfl, by simp [RTy.fromPy, Supported], by simp [RTy.toPy, Supported], by simp [RTy.hash, ImplHash]⟩
  | .strRef, h, _ | .slice _, h, _ | .ref _, h, _ | .path, h, _ | .implIntoPy _, h, _ | .implIntoPyDict, h, _ => h.elim
  | .stdNet n, _, h => by
    refine .inr ⟨?_, id⟩
    rcases h with rfl | rfl <;> rfl
  | .bound n, _, h => by
    exact .inl ⟨.bound (.types n), read_bound hl h, rfl, by simp [RTy.fromPy, Supported], by simp [RTy.toPy, Supported], by simp [RTy.hash, ImplHash]⟩
  | .boundLocal p, _, h => by
    exact .inl ⟨.bound (.here (p.segs.map (fun s => lexTrim s.rs))), read_local hl h, rfl, by simp [RTy.fromPy, Supported],
      by simp [RTy.toPy, Supported], by simp [RTy.hash, ImplHash]⟩
  | .boundNumpy, _, _ => by
    refine .inl ⟨.bound .array, ?_, rfl, by simp [RTy.fromPy, Supported], by simp [RTy.toPy, Supported], by simp [RTy.hash, ImplHash]⟩
    show (if c!"pyo3" = c!"pyo3" ∧ c!"Bound" = c!"Bound" ∧ c!"py" ∈ ls then _ else none) = _
    rw [if_pos ⟨rfl, rfl, hl⟩]; rfl
  | .option t, h, hn => by
    have hr : readType ls (RsTy.option t).tree = (readType ls t.tree).bind (readStd1 c!"std" c!"option" c!"Option") := by
      simp only [RsTy.tree, gen, names, List.map_cons, List.map_nil, List.cons_append, List.nil_append]
      rw [readType]
      exact fun l => t.tree_ne_life l
    rcases reads_owned hl t h hn with ⟨r, h⟩ | ⟨h, hs⟩
    · refine .inl ⟨.option r, ?_, rfl, by simpa [RTy.fromPy, Supported] using h.from', by simpa [RTy.toPy, Supported] using h.to,
        by simpa [RTy.hash, ImplHash, Supported] using h.hash⟩
      rw [hr, h.read]; simp [readStd1, h.sized]
    · exact .inr ⟨by rw [hr, h]; rfl, hs⟩
  | .hashSet t, h, hn => by
    have hr : readType ls (RsTy.hashSet t).tree = (readType ls t.tree).bind (readStd1 c!"std" c!"collections" c!"HashSet") := by
      simp only [RsTy.tree, gen, names, List.map_cons, List.map_nil, List.cons_append, List.nil_append]
      rw [readType]
      exact fun l => t.tree_ne_life l
    rcases reads_owned hl t h hn with ⟨r, h⟩ | ⟨h, hs⟩
    · refine .inl ⟨.hashSet r, ?_, rfl, ?_, ?_, by simp [RTy.hash, ImplHash]⟩
      · rw [hr, h.read]; simp [readStd1, h.sized]
      · simp only [RTy.fromPy, Bool.and_eq_true, Supported, h.from']
        exact ⟨fun ⟨a, b⟩ => ⟨(h.hash b).1 a, b⟩, fun ⟨a, b⟩ => ⟨(h.hash b).2 a, b⟩⟩
      · simp only [RTy.toPy, Bool.and_eq_true, Supported, h.to]
        exact ⟨fun ⟨a, b⟩ => ⟨(h.hash b).1 a, b⟩, fun ⟨a, b⟩ => ⟨(h.hash b).2 a, b⟩⟩
    · exact .inr ⟨by rw [hr, h]; rfl, fun h => hs h.2⟩
  | .vec t, h, hn => by
    have hr : readType ls (RsTy.vec t).tree = ((readType ls t.tree).filter RTy.sized).map .vec := by
      simp only [RsTy.tree, gen, names, List.map_nil, List.nil_append]
      rw [readType, if_pos rfl]
    rcases reads_owned hl t h hn with ⟨r, h⟩ | ⟨h, hs⟩
    · refine .inl ⟨.vec r, ?_, rfl, by simpa [RTy.fromPy, Supported] using h.from', by simpa [RTy.toPy, Supported] using h.to,
        by simpa [RTy.hash, ImplHash, Supported] using h.hash⟩
      rw [hr, h.read]; simp [Option.filter, h.sized]
    · exact .inr ⟨by rw [hr, h]; rfl, hs⟩
  | .hashMap k v, h, hn => by
    have hr : readType ls (RsTy.hashMap k v).tree =
        (readType ls k.tree).bind (fun t => (readType ls v.tree).bind (readStd2 c!"std" c!"collections" c!"HashMap" t)) := by
      simp only [RsTy.tree, gen, names, List.map_cons, List.map_nil, List.cons_append, List.nil_append]
      rw [readType]
    rcases reads_owned hl k h.1 hn.1 with ⟨r, hk⟩ | ⟨hk, hs⟩
    · rcases reads_owned hl v h.2 hn.2 with ⟨r', hv⟩ | ⟨hv, hs⟩
      · refine .inl ⟨.hashMap r r', ?_, rfl, ?_, ?_, by simp [RTy.hash, ImplHash]⟩
        · rw [hr, hk.read, Option.bind_some, hv.read]; simp [readStd2, hk.sized, hv.sized]
        · simp only [RTy.fromPy, Bool.and_eq_true, Supported, hk.from', hv.from', and_assoc]
          exact ⟨fun ⟨a, b, c⟩ => ⟨(hk.hash b).1 a, b, c⟩, fun ⟨a, b, c⟩ => ⟨(hk.hash b).2 a, b, c⟩⟩
        · simp only [RTy.toPy, Bool.and_eq_true, Supported, hk.to, hv.to, and_assoc]
          exact ⟨fun ⟨a, b, c⟩ => ⟨(hk.hash b).1 a, b, c⟩, fun ⟨a, b, c⟩ => ⟨(hk.hash b).2 a, b, c⟩⟩
      · exact .inr ⟨by rw [hr, hk.read, Option.bind_some, hv]; rfl, fun h => hs h.2.2⟩
    · exact .inr ⟨by rw [hr, hk]; rfl, fun h => hs h.2.1⟩
  | .tuple ts, h, hn => by
    have hr : readType ls (RsTy.tuple ts).tree = (match readTypes ls (RsTy.trees ts) with
      | some [] => some .unit
      | some ts => if ts.all RTy.sized then some (.tuple ts) else none
      | none => none) := by
      rw [RsTy.tree, readType]; rfl
    rcases reads_list hl ts h hn.2 with ⟨rs, h⟩ | ⟨h, hs⟩
    · have hne : rs ≠ [] := by
        intro he
        have := h.length
        rw [he] at this
        exact hn.1 (List.length_eq_zero_iff.1 this.symm)
      refine .inl ⟨.tuple rs, ?_, rfl, ?_, ?_, ?_⟩
      · rw [hr, h.read]
        cases rs with
        | nil => exact absurd rfl hne
        | cons a l => simp only [h.sized, if_true]
      · simp only [RTy.fromPy, Bool.and_eq_true, decide_eq_true_eq, h.from', h.length, Supported]
      · simp only [RTy.toPy, Bool.and_eq_true, decide_eq_true_eq, h.to, h.length, Supported]
      · intro hs
        have := h.hash hs.2
        simp only [RTy.hash, Bool.and_eq_true, decide_eq_true_eq, h.length, this, ImplHash]
        exact ⟨fun h => h.2, fun h => ⟨hs.1, h⟩⟩
    · exact .inr ⟨by rw [hr, h], fun h => hs h.2⟩
theorem reads_list {ls : List Str} (hl : c!"py" ∈ ls) : ∀ (ts : List RsTy), OwnedList ts → RsTy.NamedList ts →
    (∃ rs, ReadsList ls ts rs) ∨ (readTypes ls (RsTy.trees ts) = none ∧ ¬ SupportedList ts)
  | [], _, _ => .inl ⟨[], rfl, rfl, rfl, by simp [RTy.fromPyAll, SupportedList], by simp [RTy.toPyAll, SupportedList],
      by simp [RTy.hashAll, ImplHashList]⟩
  | t :: ts, h, hn => by
    have hr : readTypes ls (RsTy.trees (t :: ts)) = (readType ls t.tree).bind (fun t => (readTypes ls (RsTy.trees ts)).map (t :: ·)) := by
      rw [RsTy.trees, readTypes]
    rcases reads_owned hl t h.1 hn.1 with ⟨r, h1⟩ | ⟨h1, hs⟩
    · rcases reads_list hl ts h.2 hn.2 with ⟨rs, h2⟩ | ⟨h2, hs⟩
      · refine .inl ⟨r :: rs, ?_, by simp [h2.length], by simp [h1.sized, h2.sized], ?_, ?_, ?_⟩
        · rw [hr, h1.read, Option.bind_some, h2.read]; rfl
        · simp only [RTy.fromPyAll, Bool.and_eq_true, h1.from', h2.from', SupportedList]
        · simp only [RTy.toPyAll, Bool.and_eq_true, h1.to, h2.to, SupportedList]
        · rintro ⟨a, b⟩
          simp only [RTy.hashAll, Bool.and_eq_true, h1.hash a, h2.hash b, ImplHashList]
      · exact .inr ⟨by rw [hr, h1.read, Option.bind_some, h2]; rfl, fun h => hs h.2⟩
    · exact .inr ⟨by rw [hr, h1]; rfl, fun h => hs h.1⟩
end

/-! ## Parameters -/

/-- The conversion belongs to the type of the parameter. -/
inductive Fits : RsTy → Pre → Prop
  | dict : Fits .implIntoPyDict .intoDict
  | tuple : Fits (.implIntoPy c!"PyTuple") .intoTuple
  | any : Fits (.implIntoPy c!"PyAny") .intoAny
  /-- a generic class: the conversion is not needed -/
  | generic (p : Path) : (RsTy.boundLocal p).Named → Fits (.ref (.boundLocal p)) .intoAny
  | optDict : Fits (.option (.bound c!"PyDict")) .optDict
  | plain (t : RsTy) : ParamLegal t → t.Named → conversionFor t = .none → Fits t .none

/-- The type of a parameter after its conversion. -/
def convTy (r : RTy) : Pre → RTy
  | .none => r
  | .intoDict | .optDict => .bound (.types c!"PyDict")
  | .intoTuple => .ref (.bound (.types c!"PyTuple"))
  | .intoAny => .ref (.bound .any)

/-- A value of the type can be converted. -/
def canConv (r : RTy) : Pre → Bool
  | .none => true
  | .intoDict => r.intoDictBound
  | .intoTuple => r.into (.types c!"PyTuple")
  | .intoAny => r.into .any
  | .optDict =>
    match r with
    | .option t => t.intoDictBound
    | _ => false

theorem param_owned {ls : List Str} (hl : c!"py" ∈ ls) {t : RsTy} (h : Owned t) (hn : t.Named) :
    (∃ r, readParam ls t.tree = some r ∧ (r.toPy = true ↔ Supported t)) ∨ (readParam ls t.tree = none ∧ ¬ Supported t) := by
  have hr : readParam ls t.tree = (readType ls t.tree).filter RTy.sized := by
    cases t <;> first | exact h.elim | rfl
  rw [hr]
  rcases reads_owned hl t h hn with ⟨r, h⟩ | ⟨h, hs⟩
  · exact .inl ⟨r, by rw [h.read]; simp [Option.filter, h.sized], h.to⟩
  · exact .inr ⟨by rw [h]; rfl, hs⟩

theorem param_ref {ls : List Str} (hl : c!"py" ∈ ls) {t : RsTy} (h : Owned t) (hn : t.Named) :
    (∃ r, readParam ls (RsTy.ref t).tree = some r ∧ (r.toPy = true ↔ Supported t)) ∨ (readParam ls (RsTy.ref t).tree = none ∧ ¬ Supported t) := by
  have hr : readParam ls (RsTy.ref t).tree = ((readType ls t.tree).map .ref).filter RTy.sized := by
    rw [RsTy.tree, readParam, readType]
    intro b hb; cases hb
  rw [hr]
  rcases reads_owned hl t h hn with ⟨r, h⟩ | ⟨h, hs⟩
  · exact .inl ⟨.ref r, by rw [h.read]; simp [Option.filter, RTy.sized], by simpa [RTy.toPy] using h.to⟩
  · exact .inr ⟨by rw [h]; rfl, hs⟩

/-- What is known of the type of a parameter. -/
theorem reads_param {ls : List Str} (hl : c!"py" ∈ ls) {t : RsTy} {p : Pre} (h : Fits t p) :
    (∃ r, readParam ls t.tree = some r ∧ canConv r p = true ∧ ((convTy r p).toPy = true ↔ Supported t)) ∨
      (readParam ls t.tree = none ∧ ¬ Supported t) := by
  cases h with
  | dict => exact .inl ⟨.intoDict, rfl, rfl, by simp [convTy, RTy.toPy, Supported]⟩
  | tuple => exact .inl ⟨.intoPy (.types c!"PyTuple"), rfl, rfl, by simp [convTy, RTy.toPy, Supported]⟩
  | any => exact .inl ⟨.intoPy .any, rfl, rfl, by simp [convTy, RTy.toPy, Supported]⟩
  | optDict =>
    refine .inl ⟨.option (.bound (.types c!"PyDict")), ?_, rfl, by simp [convTy, RTy.toPy, Supported]⟩
    rw [RsTy.tree, gen, readParam]
    · simp only [names, List.map_cons, List.map_nil, List.cons_append, List.nil_append]
      rw [readType, read_bound hl (n := c!"PyDict") (by decide)]
      · rfl
      · exact fun l => RsTy.tree_ne_life _ l
    · intro b hb; cases hb
  | generic q hq =>
    refine .inl ⟨.ref (.bound (.here (q.segs.map (fun s => lexTrim s.rs)))), ?_, rfl, by simp [convTy, RTy.toPy, Supported]⟩
    rw [RsTy.tree, readParam, readType, read_local hl hq]
    · rfl
    · intro b hb; cases hb
  | plain t hl' hn hc =>
    simp only [convTy, canConv, true_and]
    cases t with
    | strRef => exact .inl ⟨.ref .str, rfl, by simp [RTy.toPy, Supported]⟩
    | implIntoPy n => simp only [conversionFor] at hc; split at hc <;> cases hc
    | implIntoPyDict => cases hc
    | slice t =>
      have hr : readParam ls (RsTy.slice t).tree = ((((readType ls t.tree).filter RTy.sized).map .slice).map .ref).filter RTy.sized := by
        rw [RsTy.tree, readParam, readType, readType]
        intro b hb; cases hb
      rw [hr]
      rcases reads_owned hl t hl' hn with ⟨r, h⟩ | ⟨h, hs⟩
      · exact .inl ⟨.ref (.slice r), by rw [h.read, Option.filter_some, h.sized]; rfl, by simpa [RTy.toPy, Supported] using h.to⟩
      · exact .inr ⟨by rw [h]; rfl, hs⟩
    | ref t =>
      cases t with
      | path => exact .inl ⟨.ref .path, rfl, by simp [RTy.toPy, Supported]⟩
      | _ => exact param_ref hl hl' hn
    | _ => exact param_owned hl hl' hn

/-! ## Expressions -/

/-- The type of a variable. -/
def look (env : TVars) (x : Str) : Option RTy := (env.lookup x).map Prod.snd

theorem typ_var (vs : TVars) (x : Str) : typ vs (var x) = look vs x := rfl

theorem look_here (env : TVars) (x : Str) (b : Bool) (t : RTy) : look ((x, b, t) :: env) x = some t := by
  simp [look]

theorem look_skip {x y : Str} (h : (x == y) = false) (b : Bool) (t : RTy) (env : TVars) : look ((y, b, t) :: env) x = look env x := by
  simp [look, List.lookup_cons, h]

theorem typ_absCall (vs : TVars) (l : List Str) (args : List RExpr) :
    typ vs (absCall l args) = (typAll vs args).bind (applyTy true (names l)) := by
  simp only [absCall, typ]

theorem typ_intern {vs : TVars} (h : look vs c!"py" = some .python) (s : Str) :
    typ vs (internTree s) = some (.ref (.bound (.types c!"PyString"))) := by
  simp only [internTree, typ, typAll, typ_var, h]
  rfl

theorem typ_newDict {env : TVars} (hpy : look env c!"py" = some .python) : typ env newDict = some (.bound (.types c!"PyDict")) := by
  simp only [newDict, typ_absCall, typAll, typ_var, hpy]
  rfl

theorem typ_intoDict {env : TVars} (hpy : look env c!"py" = some .python) {x : Str} {r : RTy} (hx : look env x = some r)
    (h : r.intoDictBound = true) : typ env (intoDictTree x) = some (.bound (.types c!"PyDict")) := by
  simp only [intoDictTree, typ_absCall, typAll, typ_var, hpy, hx, Option.bind_some]
  show plainCallTy true [c!"pyo3", c!"types", c!"IntoPyDict", c!"into_py_dict_bound"] [r, .python] = _
  cases r <;> first | (cases h; done) | rfl | simp [plainCallTy, h]

theorem typ_intoPy {env : TVars} (hpy : look env c!"py" = some .python) {n : Str} (hn : n ∈ pyo3Types) {x : Str} {r : RTy}
    (hx : look env x = some r) (h : r.into (.types n) = true) : typ env (intoPyTree n x) = some (.py (.types n)) := by
  simp only [intoPyTree, typ, typAll, typ_var, hpy, hx, Option.bind_some]
  simp [gen, names, applyTy, intoPyCls, readPyo3, hn, absolute, h]

theorem typ_method (env : TVars) (e : RExpr) (m : Str) {args : List RExpr} (h : ∀ x b, args ≠ [.closure x b]) :
    typ env (.method e m args) = (typ env e).bind (fun t => (typAll env args).bind (methodTy m t)) := by
  rw [typ]
  · cases typ env e <;> rfl
  · exact h

theorem typ_bind {env : TVars} (hpy : look env c!"py" = some .python) {x : Str} {c : RCls} (hx : look env x = some (.py c)) :
    typ env (.method (var x) c!"bind" [var c!"py"]) = some (.ref (.bound c)) := by
  rw [typ_method _ _ _ (by intro _ _; simp [var])]
  simp only [typ_var, hx, typAll, hpy]
  rfl

theorem typStmts_let (env : TVars) (m : Bool) (x : Str) (e : RExpr) (ss : List RStmt) :
    typStmts env (.let m x e :: ss) = (typ env e).bind (fun t => typStmts ((x, m, t) :: env) ss) := by
  rw [typStmts]

theorem typStmts_into {env : TVars} (hpy : look env c!"py" = some .python) {x : Str} (hx : IsParam x) {n : Str} (hn : n ∈ pyo3Types) {r : RTy}
    (hr : look env x = some r) (h : r.into (.types n) = true) (rest : List RStmt) :
    typStmts env (.let false x (intoPyTree n x) :: .let false x (.method (var x) c!"bind" [var c!"py"]) :: rest) =
      typStmts ((x, false, .ref (.bound (.types n))) :: (x, false, .py (.types n)) :: env) rest := by
  rw [typStmts_let, typ_intoPy hpy hn hr h, Option.bind_some, typStmts_let,
    typ_bind (c := .types n) (by rw [look_skip (by obtain ⟨y, rfl⟩ := hx; rfl), hpy]) (look_here _ _ _ _), Option.bind_some]

/-- A conversion. -/
theorem typ_pre {env : TVars} (hpy : look env c!"py" = some .python) {x : Str} (hx : IsParam x) {r : RTy} (hr : look env x = some r) {p : Pre}
    (h : canConv r p = true) (rest : List RStmt) :
    ∃ env', typStmts env (preTree x p ++ rest) = typStmts env' rest ∧ look env' x = some (convTy r p) ∧
      ∀ z, (z == x) = false → look env' z = look env z := by
  cases p with
  | none => exact ⟨env, rfl, hr, fun _ _ => rfl⟩
  | intoAny =>
    exact ⟨_, typStmts_into hpy hx (n := c!"PyAny") (by decide) hr h rest, look_here _ _ _ _, fun z hz => by rw [look_skip hz, look_skip hz]⟩
  | intoTuple =>
    exact ⟨_, typStmts_into hpy hx (n := c!"PyTuple") (by decide) hr h rest, look_here _ _ _ _, fun z hz => by rw [look_skip hz, look_skip hz]⟩
  | intoDict =>
    refine ⟨_, ?_, look_here env x false (.bound (.types c!"PyDict")), fun z hz => look_skip hz _ _ _⟩
    simp only [preTree, List.cons_append, List.nil_append]
    rw [typStmts_let, typ_intoDict hpy hr h]; rfl
  | optDict =>
    cases r with
    | option t =>
      refine ⟨_, ?_, look_here env x false (.bound (.types c!"PyDict")), fun z hz => look_skip hz _ _ _⟩
      simp only [preTree, List.cons_append, List.nil_append]
      have ha : typ ((x, false, t) :: env) (.block [] (intoDictTree x)) = some (.bound (.types c!"PyDict")) := by
        rw [typ, typStmts, Option.bind_some]
        exact typ_intoDict (by rw [look_skip (by obtain ⟨y, rfl⟩ := hx; rfl), hpy]) (look_here _ _ _ _) h
      have hb : typ env (.block [] newDict) = some (.bound (.types c!"PyDict")) := by
        rw [typ, typStmts, Option.bind_some, typ_newDict hpy]
      rw [typStmts_let, typ, typ_var, hr]
      simp only [ha, hb]
      rfl
    | _ => cases h

/-! ## Arguments -/

/-- The variable has a type with `ToPyObject`. -/
def good (env : TVars) (x : Str) : Bool := (look env x).any RTy.toPy

theorem typ_toObject {env : TVars} (hpy : look env c!"py" = some .python) (x : Str) :
    typ env (toObjectTree x) = if good env x then some (.py .any) else none := by
  simp only [toObjectTree, typ_absCall, typAll, typ, typ_var, hpy]
  obtain hl | ⟨r, hl⟩ := Option.eq_none_or_eq_some (look env x)
  · rw [show good env x = false by rw [good, hl]; rfl, hl]; rfl
  · rw [show good env x = r.toPy by rw [good, hl]; rfl, hl]
    simp only [Option.map_some, Option.bind_some]
    show plainCallTy true [c!"pyo3", c!"ToPyObject", c!"to_object"] [.ref r, .python] = _
    simp [plainCallTy]

theorem typAll_objects {env : TVars} (hpy : look env c!"py" = some .python) (xs : List Str) :
    typAll env (xs.map toObjectTree) = if xs.all (good env) then some (List.replicate xs.length (.py .any)) else none := by
  induction xs with
  | nil => rfl
  | cons x xs ih =>
    simp only [List.map_cons, typAll, typ_toObject hpy, ih, List.length_cons]
    rw [show (x :: xs).all (good env) = (good env x && xs.all (good env)) from rfl]
    obtain h | h := Bool.eq_false_or_eq_true (good env x) <;>
    obtain h' | h' := Bool.eq_false_or_eq_true (xs.all (good env)) <;> rw [h, h'] <;> rfl

theorem commonTy_replicate (n : Nat) : commonTy (List.replicate (n + 1) (.py .any)) = some (.py .any) := by
  rw [List.replicate_succ, commonTy, if_pos]
  rw [List.all_eq_true]
  intro t ht
  rw [List.eq_of_mem_replicate ht]
  rfl

theorem typ_objects {env : TVars} (hpy : look env c!"py" = some .python) (xs : List Str) (hne : xs ≠ []) :
    typ env (.array (xs.map toObjectTree)) = if xs.all (good env) then some (.array (.py .any)) else none := by
  rw [typ, typAll_objects hpy]
  cases xs with
  | nil => exact absurd rfl hne
  | cons x xs =>
    obtain h | h := Bool.eq_false_or_eq_true ((x :: xs).all (good env)) <;> rw [h]
    · simp only [if_true, Option.bind_some, List.length_cons, commonTy_replicate, Option.map_some]
    · rfl

theorem typ_newTuple {env : TVars} (hpy : look env c!"py" = some .python) {e : RExpr} {t u : RTy} (he : typ env e = some t)
    (ht : elemTy t = some u) (hu : u.toPy = true) : typ env (newTuple e) = some (.bound (.types c!"PyTuple")) := by
  simp only [newTuple, typ_absCall, typAll, typ_var, hpy, he, Option.bind_some]
  show plainCallTy true [c!"pyo3", c!"types", c!"PyTuple", c!"new_bound"] [.python, t] = _
  cases t <;> first | (cases ht; done) | (cases ht; simp [plainCallTy, elemTy, hu])

theorem typ_newTuple_none {env : TVars} {e : RExpr} (he : typ env e = none) : typ env (newTuple e) = none := by
  simp only [newTuple, typ_absCall, typAll, he]
  cases typ env (var c!"py") <;> rfl

theorem typStmts_extend {env : TVars} {x : Str} {e : RExpr} {ss : List RStmt} {t t' u : RTy} (hx : env.lookup x = some (true, .vec t))
    (he : (typ env e).bind elemTy = some u) (ht : extendTy t u = some t') :
    typStmts env (.expr (.method (var x) c!"extend" [e]) :: ss) = typStmts ((x, true, .vec t') :: env) ss := by
  show typStmts env (.expr (.method (.path false [.mk x []]) c!"extend" [e]) :: ss) = _
  rw [typStmts, hx, he]
  simp only [if_true, ht, Option.bind_some]

theorem typStmts_extend_none {env : TVars} {x : Str} {e : RExpr} {ss : List RStmt} (he : typ env e = none) :
    typStmts env (.expr (.method (var x) c!"extend" [e]) :: ss) = none := by
  show typStmts env (.expr (.method (.path false [.mk x []]) c!"extend" [e]) :: ss) = _
  rw [typStmts, he]
  cases env.lookup x with
  | none => rfl
  | some p => obtain ⟨b, t⟩ := p; cases b <;> cases t <;> rfl

theorem typ_iterMap {env : TVars} (hpy : look env c!"py" = some .python) {x : Str} (hx : look env x = some (.ref (.bound (.types c!"PyTuple")))) :
    typ env (.method (absCall [c!"pyo3", c!"types", c!"PyTupleMethods", c!"iter"] [var x]) c!"map"
      [.closure c!"__internal__arg" (toObjectTree c!"__internal__arg")]) = some (.iter (.py .any)) := by
  rw [typ, typ_absCall]
  simp only [typAll, typ_var, hx, Option.bind_some]
  have : applyTy true (names [c!"pyo3", c!"types", c!"PyTupleMethods", c!"iter"]) [.ref (.bound (.types c!"PyTuple"))] =
    some (.iter (.bound .any)) := rfl
  simp only [this, if_true]
  rw [typ_toObject (by rw [look_skip (by decide), hpy])]
  simp only [good, look_here]
  rfl

theorem typ_capacity {env : TVars} {x : Str} (hx : look env x = some (.ref (.bound (.types c!"PyTuple")))) (n : Nat) :
    typ env (.call (.path false (names [c!"Vec", c!"with_capacity"]))
      [.add (.num n) (absCall [c!"pyo3", c!"types", c!"PyTupleMethods", c!"len"] [var x])]) = some (.vec .unknown) := by
  simp only [typ, typAll, typ_absCall, typ_var, hx, Option.bind_some]
  rfl

/-- Variables that are passed on one by one. -/
def Pos.single : Pos → List Str
  | .unit | .var _ => []
  | .tuple xs | .tupleVar xs _ => xs

/-- The variable with the remaining positional arguments. -/
def Pos.star : Pos → Option Str
  | .unit | .tuple _ => none
  | .var x | .tupleVar _ x => some x

/-- The list of arguments is not empty. -/
def Pos.filled : Pos → Prop
  | .unit | .var _ => True
  | .tuple xs | .tupleVar xs _ => xs ≠ []

/-- Positional arguments. -/
theorem typ_pos {env : TVars} (hpy : look env c!"py" = some .python) (p : Pos) (hp : ∀ x ∈ p.vars, IsParam x) (hf : p.filled)
    (hs : ∀ x ∈ p.star, look env x = some (.ref (.bound (.types c!"PyTuple")))) :
    ∃ t, t.into (.types c!"PyTuple") = true ∧ typ env p.tree = if p.single.all (good env) then some t else none := by
  cases p with
  | unit => exact ⟨.unit, rfl, by simp [Pos.tree, typ, Pos.single]⟩
  | var x => exact ⟨_, rfl, by rw [Pos.tree, typ_var, hs x rfl]; rfl⟩
  | tuple xs =>
    refine ⟨.bound (.types c!"PyTuple"), rfl, ?_⟩
    rw [Pos.tree, show (Pos.tuple xs).single = xs from rfl]
    have h := typ_objects hpy xs hf
    obtain hg | hg := Bool.eq_false_or_eq_true (xs.all (good env)) <;> rw [hg] at h ⊢
    · exact typ_newTuple hpy h rfl rfl
    · exact typ_newTuple_none h
  | tupleVar xs x =>
    refine ⟨.bound (.types c!"PyTuple"), rfl, ?_⟩
    have hx := hs x rfl
    have hpy' : ∀ b u, look ((c!"__internal__args", b, u) :: env) c!"py" = some .python := by
      intro b u; rw [look_skip (by decide), hpy]
    have hgood : ∀ b u, xs.all (good ((c!"__internal__args", b, u) :: env)) = xs.all (good env) := by
      intro b u
      rw [Bool.eq_iff_iff, List.all_eq_true, List.all_eq_true]
      refine forall₂_congr fun z hz => ?_
      rw [good, good, look_skip (hp z (by simp [Pos.vars, hz])).ne_args]
    rw [show (Pos.tupleVar xs x).single = xs from rfl, Pos.tree, typ, typStmts_let, typ_capacity hx, Option.bind_some]
    have h := typ_objects (hpy' true (.vec .unknown)) xs hf
    rw [hgood] at h
    obtain hg | hg := Bool.eq_false_or_eq_true (xs.all (good env)) <;> rw [hg] at h ⊢
    rotate_left
    · rw [typStmts_extend_none h]; rfl
    · have h2 := typ_iterMap (env := (c!"__internal__args", true, .vec (.py .any)) :: (c!"__internal__args", true, .vec .unknown) :: env) (x := x)
        (by rw [look_skip (by decide), hpy'])
        (by rw [look_skip (hp x (by simp [Pos.vars])).ne_args, look_skip (hp x (by simp [Pos.vars])).ne_args, hx])
      rw [typStmts_extend (t' := .py .any) (by rw [List.lookup_cons, beq_self_eq_true]) (by rw [h]; rfl) rfl,
        typStmts_extend (t' := .py .any) (by rw [List.lookup_cons, beq_self_eq_true]) (by rw [h2]; rfl) rfl]
      rw [typStmts, Option.bind_some]
      exact typ_newTuple (by rw [look_skip (by decide), look_skip (by decide), hpy']) (by rw [typ_var, look_here]) rfl rfl

/-- Variables that are passed on one by one. -/
def Kw.single : Kw → List Str
  | .fresh | .var _ => []
  | .freshSet items | .varSet _ items => items.map Prod.snd

/-- The variable with the remaining keyword arguments. -/
def Kw.star : Kw → Option Str
  | .fresh | .freshSet _ => none
  | .var x | .varSet x _ => some x

theorem typStmts_setItem {env : TVars} (hpy : look env c!"py" = some .python)
    (hd : look env c!"__internal__kwargs" = some (.bound (.types c!"PyDict"))) (k x : Str) (ss : List RStmt) :
    typStmts env (.expr (absCall [c!"pyo3", c!"types", c!"PyDictMethods", c!"set_item"]
      [.ref (var c!"__internal__kwargs"), internTree k, var x]) :: ss) = if good env x then typStmts env ss else none := by
  have h : typ env (absCall [c!"pyo3", c!"types", c!"PyDictMethods", c!"set_item"]
      [.ref (var c!"__internal__kwargs"), internTree k, var x]) = if good env x then some (.result .unit) else none := by
    rw [typ_absCall]
    simp only [typAll, typ_intern hpy, typ, typ_var, hd]
    obtain hl | ⟨r, hl⟩ := Option.eq_none_or_eq_some (look env x)
    · rw [show good env x = false by rw [good, hl]; rfl, hl]; rfl
    · rw [show good env x = r.toPy by rw [good, hl]; rfl, hl]
      simp only [Option.map_some, Option.bind_some]
      show plainCallTy true [c!"pyo3", c!"types", c!"PyDictMethods", c!"set_item"]
        [.ref (.bound (.types c!"PyDict")), .ref (.bound (.types c!"PyString")), r] = _
      simp [plainCallTy, RTy.toPy]
  show typStmts env (.expr (.call (.path true (names [c!"pyo3", c!"types", c!"PyDictMethods", c!"set_item"]))
    [.ref (var c!"__internal__kwargs"), internTree k, var x]) :: ss) = _
  rw [typStmts]
  · rw [absCall] at h
    rw [h]
    obtain hg | hg := Bool.eq_false_or_eq_true (good env x) <;> rw [hg] <;> rfl
  · intro x m e h; cases h

theorem typStmts_setItems {env : TVars} (hpy : look env c!"py" = some .python)
    (hd : look env c!"__internal__kwargs" = some (.bound (.types c!"PyDict"))) (items : List (Str × Str)) :
    typStmts env (setItemsTree items) = if (items.map Prod.snd).all (good env) then some env else none := by
  induction items with
  | nil => simp [setItemsTree, typStmts]
  | cons kx items ih =>
    rw [setItemsTree, List.map_cons, typStmts_setItem hpy hd]
    rw [setItemsTree] at ih
    rw [ih, List.map_cons, List.all_cons]
    obtain hg | hg := Bool.eq_false_or_eq_true (good env kx.2) <;> rw [hg] <;> rfl

/-- Keyword arguments. -/
theorem typ_kw {env : TVars} (hpy : look env c!"py" = some .python) (k : Kw) (hk : ∀ x ∈ k.vars, IsParam x)
    (hs : ∀ x ∈ k.star, look env x = some (.bound (.types c!"PyDict"))) :
    typ env k.tree = if k.single.all (good env) then some (.bound (.types c!"PyDict")) else none := by
  have key : ∀ (e : RExpr) (items : List (Str × Str)), typ env e = some (.bound (.types c!"PyDict")) → (∀ x ∈ items.map Prod.snd, IsParam x) →
      typ env (.block (.let false c!"__internal__kwargs" e :: setItemsTree items) (var c!"__internal__kwargs")) =
        if (items.map Prod.snd).all (good env) then some (.bound (.types c!"PyDict")) else none := by
    intro e items he hi
    rw [typ, typStmts_let, he, Option.bind_some, typStmts_setItems (by rw [look_skip (by decide), hpy]) (look_here _ _ _ _)]
    have hgood : (items.map Prod.snd).all (good ((c!"__internal__kwargs", false, .bound (.types c!"PyDict")) :: env)) =
        (items.map Prod.snd).all (good env) := by
      rw [Bool.eq_iff_iff, List.all_eq_true, List.all_eq_true]
      refine forall₂_congr fun z hz => ?_
      rw [good, good, look_skip (hi z hz).ne_kwargs]
    rw [hgood]
    split
    · rw [Option.bind_some, typ_var, look_here]
    · rfl
  cases k with
  | fresh => rw [Kw.tree, typ_newDict hpy]; rfl
  | var x => rw [Kw.tree, typ_var, hs x rfl]; rfl
  | freshSet items => exact key _ items (typ_newDict hpy) hk
  | varSet x items => exact key _ items (by rw [typ_var, hs x rfl]) (fun z hz => hk z (by simp only [Kw.vars, List.mem_cons]; exact .inr hz))

/-! ## Bodies -/

theorem typ_any (env : TVars) (m : Str) (e : RExpr) (args : List RExpr) (he : typ env e = some (.ref (.bound .any))) :
    typ env (anyCall m (e :: args)) = (typAll env args).bind (anyMethodTy m) := by
  rw [anyCall, typ_absCall, typAll, he]
  obtain h | ⟨l, h⟩ := Option.eq_none_or_eq_some (typAll env args)
  · rw [h]; rfl
  · rw [h]; rfl

/-- The object can be used: it is imported, or it is `self`. -/
def Importable (env : TVars) (o : Obj) : Prop :=
  (o.imported ∧ look env c!"py" = some .python) ∨ (o = .self ∧ ∃ c, look env c!"self" = some (.ref (.bound c)))

theorem asAny_bound {env : TVars} {e : RExpr} {c : RCls} (h : typ env e = some (.bound c) ∨ typ env e = some (.ref (.bound c))) :
    typ env (.method e c!"as_any" []) = some (.ref (.bound .any)) := by
  rw [typ_method _ _ _ (by intro _ _; simp)]
  rcases h with h | h <;> rw [h] <;> rfl

theorem typ_obj {env : TVars} (hpy : look env c!"py" = some .python) (o : Obj) (h : o.imported) : ∃ c, typ env o.tree = some (.bound c) := by
  induction o with
  | self => exact h.elim
  | «import» pkg =>
    refine ⟨.types c!"PyModule", ?_⟩
    rw [Obj.tree, typ, typ_method _ _ _ (by intro _ _; simp [internTree])]
    simp only [typAll, typ_intern hpy, typ_var, hpy]
    rfl
  | getattr o name ih =>
    obtain ⟨c, hc⟩ := ih h
    refine ⟨.any, ?_⟩
    rw [Obj.tree, typ, typ_any _ _ _ _ (asAny_bound (.inl hc))]
    simp only [typAll, typ_intern hpy]
    rfl

theorem typ_asAny {env : TVars} {o : Obj} (h : Importable env o) : typ env o.asAny = some (.ref (.bound .any)) := by
  rcases h with ⟨h, hpy⟩ | ⟨rfl, c, hc⟩
  · obtain ⟨c, hc⟩ := typ_obj hpy o h
    exact asAny_bound (.inl hc)
  · exact asAny_bound (c := c) (.inr (by rw [Obj.tree, typ_var, hc]))

/-- Variables that are passed on one by one. -/
def Body.single : Body → List Str
  | .call _ _ pos kw => (pos.map Pos.single).getD [] ++ (kw.map Kw.single).getD []
  | .getattr _ _ => []
  | .setattr _ _ x => [x]

/-- The variable with the remaining positional arguments. -/
def Body.posStar : Body → Option Str
  | .call _ _ pos _ => pos.bind Pos.star
  | _ => none

/-- The variable with the remaining keyword arguments. -/
def Body.kwStar : Body → Option Str
  | .call _ _ _ kw => kw.bind Kw.star
  | _ => none

/-- The variables of the keyword arguments. -/
def Body.kwVars : Body → List Str
  | .call _ _ _ kw => (kw.map Kw.vars).getD []
  | _ => []

/-- Lists of arguments are not empty. -/
def Body.filled : Body → Prop
  | .call _ _ (some pos) _ => pos.filled
  | _ => True

/-- The type of the body. -/
def Body.ty : Body → RTy
  | .setattr _ _ _ => .result .unit
  | _ => .result .extracted

theorem typ_some {env : TVars} {k : Kw} {b : Bool} (h : typ env k.tree = if b then some (.bound (.types c!"PyDict")) else none) :
    typ env (.call (var c!"Some") [.ref k.tree]) = if b then some (.option (.ref (.bound (.types c!"PyDict")))) else none := by
  show typ env (.call (.path false (names [c!"Some"])) [.ref k.tree]) = _
  rw [typ]
  simp only [typAll]
  rw [typ, h]
  cases b <;> rfl

theorem into_string : (RTy.ref (.bound (.types c!"PyString"))).into (.types c!"PyString") = true := rfl

/-- A call. -/
theorem typ_call {env : TVars} (hpy : look env c!"py" = some .python) {o : Obj} (ho : Importable env o) (meth : Option Str) (pos : Option Pos)
    (kw : Option Kw) (hv : ∀ x ∈ (Body.call o meth pos kw).vars, IsParam x) (hf : (Body.call o meth pos kw).filled)
    (hp : ∀ x ∈ (Body.call o meth pos kw).posStar, look env x = some (.ref (.bound (.types c!"PyTuple"))))
    (hk : ∀ x ∈ (Body.call o meth pos kw).kwStar, look env x = some (.bound (.types c!"PyDict"))) :
    typ env (callTree o meth pos kw) =
      if (Body.call o meth pos kw).single.all (good env) then some (.result (.bound .any)) else none := by
  have ha := typ_asAny ho
  have hpos : ∃ t, t.into (.types c!"PyTuple") = true ∧
      typ env (pos.getD .unit).tree = if ((pos.map Pos.single).getD []).all (good env) then some t else none := by
    cases pos with
    | none => exact ⟨.unit, rfl, rfl⟩
    | some p => exact typ_pos hpy p (fun x hx => hv x (by simp [Body.vars, hx])) hf hp
  obtain ⟨t, ht, hpos⟩ := hpos
  have e : (Body.call o meth pos kw).single.all (good env) =
      (((pos.map Pos.single).getD []).all (good env) && ((kw.map Kw.single).getD []).all (good env)) := by
    rw [Body.single, List.all_append]
  rw [e]
  generalize ((pos.map Pos.single).getD []).all (good env) = b at hpos ⊢
  cases kw with
  | some k =>
    have hs := typ_some (typ_kw hpy k (fun x hx => hv x (by simp [Body.vars, hx])) hk)
    rw [show ((some k).map Kw.single).getD [] = k.single from rfl]
    generalize k.single.all (good env) = b' at hs ⊢
    cases meth with
    | none =>
      rw [callTree, typ_any _ _ _ _ ha]
      simp only [typAll, hs, hpos]
      cases b <;> cases b' <;> first | rfl | simp [anyMethodTy, ht, isKwargs]
    | some m =>
      rw [callTree, typ_any _ _ _ _ ha]
      simp only [typAll, hs, hpos, typ_intern hpy]
      cases b <;> cases b' <;> first | rfl | simp [anyMethodTy, ht, isKwargs, into_string]
  | none =>
    rw [show ((none : Option Kw).map Kw.single).getD [] = [] from rfl, List.all_nil, Bool.and_true]
    cases pos with
    | none =>
      have hb : b = true := by
        cases b with
        | true => rfl
        | false => cases hpos
      subst hb
      cases meth with
      | none => rw [callTree, typ_any _ _ _ _ ha]; rfl
      | some m =>
        rw [callTree, typ_any _ _ _ _ ha]
        simp only [typAll, typ_intern hpy]
        rfl
    | some p =>
      have hpos : typ env p.tree = if b then some t else none := hpos
      cases meth with
      | none =>
        rw [callTree, typ_any _ _ _ _ ha]
        simp only [typAll, hpos]
        cases b <;> first | rfl | simp [anyMethodTy, ht]
      | some m =>
        rw [callTree, typ_any _ _ _ _ ha]
        simp only [typAll, hpos, typ_intern hpy]
        cases b <;> first | rfl | simp [anyMethodTy, ht, into_string]

theorem typ_extract {env : TVars} {e : RExpr} {b : Bool} (h : typ env e = if b then some (.result (.bound .any)) else none) :
    typ env (anyCall c!"extract" [.ref (.try e)]) = if b then some (.result .extracted) else none := by
  rw [anyCall, typ_absCall]
  simp only [typAll]
  rw [typ, typ, h]
  cases b <;> rfl

theorem typ_getattr {env : TVars} (hpy : look env c!"py" = some .python) {o : Obj} (ho : Importable env o) (name : Str) :
    typ env (anyCall c!"getattr" [o.asAny, internTree name]) = some (.result (.bound .any)) := by
  rw [typ_any _ _ _ _ (typ_asAny ho)]
  simp only [typAll, typ_intern hpy]
  rfl

theorem typ_getSelf {env : TVars} {c : RCls} (h : look env c!"self" = some (.ref (.bound c))) (name : Str) :
    typ env (Body.getattr .self name).tree = some (.result .extracted) := by
  rw [Body.tree]
  refine typ_extract (b := true) ?_
  rw [typ_any _ _ _ _ (typ_asAny (.inr ⟨rfl, c, h⟩))]
  simp only [typAll]
  rw [typ]
  simp only [typAll]
  rw [typ_method _ _ _ (by intro _ _; simp), typ_var, h]
  rfl

/-- A body. -/
theorem typ_body {env : TVars} (hpy : look env c!"py" = some .python) {b : Body} (ho : Importable env b.obj)
    (hv : ∀ x ∈ b.vars, IsParam x) (hf : b.filled)
    (hp : ∀ x ∈ b.posStar, look env x = some (.ref (.bound (.types c!"PyTuple"))))
    (hk : ∀ x ∈ b.kwStar, look env x = some (.bound (.types c!"PyDict"))) :
    typ env b.tree = if b.single.all (good env) then some b.ty else none := by
  cases b with
  | call obj meth pos kw => exact typ_extract (typ_call hpy ho meth pos kw hv hf hp hk)
  | getattr obj name =>
    rw [show (Body.getattr obj name).single.all (good env) = true from rfl]
    cases obj with
    | self =>
      rcases ho with ⟨h, -⟩ | ⟨-, c, h⟩
      · exact h.elim
      · rw [typ_getSelf h]; rfl
    | «import» pkg => exact typ_extract (b := true) (typ_getattr hpy ho name)
    | getattr o n => exact typ_extract (b := true) (typ_getattr hpy ho name)
  | setattr obj name x =>
    have e : (Body.setattr obj name x).single.all (good env) = good env x := Bool.and_true _
    rw [e, Body.tree, typ_any _ _ _ _ (typ_asAny (o := obj) ho)]
    simp only [typAll, typ_intern hpy, typ_var]
    obtain hl | ⟨r, hl⟩ := Option.eq_none_or_eq_some (look env x)
    · rw [show good env x = false by rw [good, hl]; rfl, hl]; rfl
    · rw [show good env x = r.toPy by rw [good, hl]; rfl, hl]
      show anyMethodTy c!"setattr" [_, r] = _
      simp [anyMethodTy, into_string, Body.ty]

/-! ## Functions -/

/-- What is known of the type of a parameter. -/
def Known (e : Str × RsTy × Pre) (r : RTy) : Prop :=
  readParam [c!"py"] e.2.1.tree = some r ∧ canConv r e.2.2 = true ∧ ((convTy r e.2.2).toPy = true ↔ Supported e.2.1)

theorem params_read (s : Option RTy) : ∀ {l : List (Str × RsTy × Pre)}, (∀ e ∈ l, Fits e.2.1 e.2.2) →
    (paramTys [c!"py"] s (l.map (fun e => .typed e.1 e.2.1.tree)) = none ∧ ∃ e ∈ l, ¬ Supported e.2.1) ∨
    ∃ vs, paramTys [c!"py"] s (l.map (fun e => .typed e.1 e.2.1.tree)) = some vs ∧ vs.map Prod.fst = l.map Prod.fst ∧
      ((l.map Prod.fst).Nodup → ∀ e ∈ l, ∃ r, Known e r ∧ look vs e.1 = some r)
  | [], _ => .inr ⟨[], rfl, rfl, fun _ _ h => nomatch h⟩
  | e :: l, h => by
    have hr : paramTys [c!"py"] s ((e :: l).map (fun e => .typed e.1 e.2.1.tree)) =
        (readParam [c!"py"] e.2.1.tree).bind (fun t => (paramTys [c!"py"] s (l.map (fun e => .typed e.1 e.2.1.tree))).map ((e.1, false, t) :: ·)) := by
      rw [List.map_cons, paramTys]
    rcases reads_param (ls := [c!"py"]) (by simp) (h e (by simp)) with ⟨r, h1, h2, h3⟩ | ⟨h1, h2⟩
    · rcases params_read s (l := l) (fun x hx => h x (by simp [hx])) with ⟨h4, x, hx, h5⟩ | ⟨vs, h4, h5, h6⟩
      · exact .inl ⟨by rw [hr, h1, Option.bind_some, h4]; rfl, x, by simp [hx], h5⟩
      · refine .inr ⟨(e.1, false, r) :: vs, by rw [hr, h1, Option.bind_some, h4]; rfl, by simp [h5], fun hn x hx => ?_⟩
        rw [List.map_cons, List.nodup_cons] at hn
        rcases List.mem_cons.1 hx with rfl | hx
        · exact ⟨r, ⟨h1, h2, h3⟩, look_here _ _ _ _⟩
        · obtain ⟨r', hk, hl⟩ := h6 hn.2 x hx
          refine ⟨r', hk, ?_⟩
          rw [look_skip, hl]
          refine beq_eq_false_iff_ne.2 fun he => hn.1 ?_
          rw [← he]
          exact List.mem_map_of_mem hx
    · exact .inl ⟨by rw [hr, h1]; rfl, e, by simp, h2⟩

theorem conv_all : ∀ {l : List (Str × RsTy × Pre)} {env : TVars}, (l.map Prod.fst).Nodup → (∀ e ∈ l, IsParam e.1) →
    look env c!"py" = some .python → (∀ e ∈ l, ∃ r, Known e r ∧ look env e.1 = some r) →
    ∃ env', typStmts env (l.flatMap (fun e => preTree e.1 e.2.2)) = some env' ∧ (∀ z, z ∉ l.map Prod.fst → look env' z = look env z) ∧
      ∀ e ∈ l, ∃ r, Known e r ∧ look env' e.1 = some (convTy r e.2.2)
  | [], env, _, _, _, _ => ⟨env, rfl, fun _ _ => rfl, fun _ h => nomatch h⟩
  | e :: l, env, hn, hp, hpy, hk => by
    rw [List.map_cons, List.nodup_cons] at hn
    obtain ⟨r, hr, hl⟩ := hk e (by simp)
    obtain ⟨env1, h1, h2, h3⟩ := typ_pre hpy (hp e (by simp)) hl hr.2.1 (l.flatMap (fun e => preTree e.1 e.2.2))
    have hne : ∀ x ∈ l, (x.1 == e.1) = false := by
      intro x hx
      refine beq_eq_false_iff_ne.2 fun he => hn.1 ?_
      rw [← he]
      exact List.mem_map_of_mem hx
    have hpe : (c!"py" == e.1) = false := by obtain ⟨y, hy⟩ := hp e (by simp); rw [hy]; rfl
    obtain ⟨env2, h4, h5, h6⟩ := conv_all (l := l) (env := env1) hn.2 (fun x hx => hp x (by simp [hx])) (by rw [h3 _ hpe, hpy])
      (fun x hx => by
        obtain ⟨r', hr', hl'⟩ := hk x (by simp [hx])
        exact ⟨r', hr', by rw [h3 _ (hne x hx), hl']⟩)
    refine ⟨env2, by rw [List.flatMap_cons, h1, h4], fun z hz => ?_, fun x hx => ?_⟩
    · simp only [List.map_cons, List.mem_cons, not_or] at hz
      rw [h5 z hz.2, h3 z (beq_eq_false_iff_ne.2 hz.1)]
    · rcases List.mem_cons.1 hx with rfl | hx
      · exact ⟨r, hr, by rw [h5 _ hn.1, h2]⟩
      · exact h6 x hx

/-- Rust and pyo3 can do everything with the type of the result that the bindings need. -/
def Spec.SupportedRet : Ret → Prop
  | .ty t => Supported t
  | _ => True

/-- What the generators make sure of. -/
structure Fn.Typed (f : Fn) : Prop where
  sane : f.Sane
  params : ∃ l : List (Str × RsTy × Pre), f.sig.params = l.map (fun e => (e.1, e.2.1)) ∧ f.pre = l.map (fun e => (e.1, e.2.2)) ∧
    (∀ e ∈ l, Fits e.2.1 e.2.2) ∧ (∀ x ∈ f.body.posStar, (x, .implIntoPy c!"PyTuple", .intoTuple) ∈ l) ∧
    ∀ x ∈ f.body.kwStar, (x, .option (.bound c!"PyDict"), .optDict) ∈ l
  ret : ∀ t, f.sig.ret = .ty t → Owned t ∧ t.Named
  unit : f.sig.ret = .unit ↔ ∃ o n x, f.body = .setattr o n x
  filled : f.body.filled
  single : ∀ p ∈ f.sig.params, p.1 ∈ f.body.single ∨ Supported p.2
  once : (f.sig.params.map Prod.fst).Nodup → f.body.kwVars.Nodup

theorem read_ret (r : Ret) (h : ∀ t, r = .ty t → Owned t ∧ t.Named) :
    (readResult [c!"py"] (gen true [c!"pyo3"] c!"PyResult" [r.tree]) = none ∧ ¬ SupportedRet r) ∨
    ∃ t, readResult [c!"py"] (gen true [c!"pyo3"] c!"PyResult" [r.tree]) = some t ∧ (r = .unit → returns t (.result .unit) = true) ∧
      (r ≠ .unit → (returns t (.result .extracted) = true ↔ SupportedRet r)) := by
  have hr : readResult [c!"py"] (gen true [c!"pyo3"] c!"PyResult" [r.tree]) = (readType [c!"py"] r.tree).filter RTy.sized := by
    show (if c!"pyo3" = c!"pyo3" ∧ c!"PyResult" = c!"PyResult" then _ else none) = _
    exact if_pos ⟨rfl, rfl⟩
  rw [hr]
  cases r with
  | unit => exact .inr ⟨.unit, rfl, fun _ => rfl, fun h => absurd rfl h⟩
  | selfBound => exact .inr ⟨.bound (.here [c!"Self"]), rfl, (fun h => nomatch h), fun _ => by simp [returns, RTy.fromPy, SupportedRet]⟩
  | ty t =>
    obtain ⟨h1, h2⟩ := h t rfl
    rcases reads_owned (ls := [c!"py"]) (by simp) t h1 h2 with ⟨r, h⟩ | ⟨h, hs⟩
    · exact .inr ⟨r, by rw [Ret.tree, h.read, Option.filter_some, h.sized]; rfl, (fun h => nomatch h), fun _ => by
        simpa [returns, SupportedRet] using h.from'⟩
    · exact .inl ⟨by rw [Ret.tree, h]; rfl, hs⟩

theorem recv_read {f : Fn} (h : f.Typed) {self : Option RType} (hs : f.sig.recv = .self → ∃ c, self.bind (readType [c!"_"]) = some (.bound c)) :
    ∃ x t, paramTys [c!"py"] (self.bind (readType [c!"_"])) f.sig.tree.params =
        (paramTys [c!"py"] (self.bind (readType [c!"_"])) (f.sig.params.map (fun p => .typed p.1 p.2.tree))).map ((x, false, t) :: ·) ∧
      ((f.sig.recv = .py ∧ x = c!"py" ∧ t = .python) ∨ (f.sig.recv = .self ∧ x = c!"self" ∧ ∃ c, t = .ref (.bound c))) := by
  rcases h.sane.recv with ⟨hr, -⟩ | ⟨hr, -⟩
  · refine ⟨c!"py", .python, ?_, .inl ⟨hr, rfl, rfl⟩⟩
    rw [Sig.tree, hr]
    show paramTys _ _ (.typed _ _ :: _) = _
    rw [paramTys]
    rfl
  · obtain ⟨c, hc⟩ := hs hr
    refine ⟨c!"self", .ref (.bound c), ?_, .inr ⟨hr, rfl, c, rfl⟩⟩
    rw [Sig.tree, hr, hc]
    show paramTys _ _ (.self _ :: _) = _
    rw [paramTys]
    rfl

theorem single_vars {b : Body} {x : Str} (h : x ∈ b.single) : x ∈ b.vars := by
  cases b with
  | call o m pos kw =>
    simp only [Body.single, Body.vars, List.mem_append] at h ⊢
    rcases h with h | h
    · cases pos with
      | none => exact .inl h
      | some p => cases p <;> first | (cases h; done) | exact .inl h | exact .inl (List.mem_cons_of_mem _ h)
    · cases kw with
      | none => exact .inr h
      | some k => cases k <;> first | (cases h; done) | exact .inr h | exact .inr (List.mem_cons_of_mem _ h)
  | getattr o n => exact h
  | setattr o n y => exact h

theorem checks_body {f : Fn} (h : f.Typed) {l : List (Str × RsTy × Pre)} (hl : f.sig.params = l.map (fun e => (e.1, e.2.1)))
    (hpre : f.pre = l.map (fun e => (e.1, e.2.2))) (hps : ∀ x ∈ f.body.posStar, (x, .implIntoPy c!"PyTuple", .intoTuple) ∈ l)
    (hks : ∀ x ∈ f.body.kwStar, (x, .option (.bound c!"PyDict"), .optDict) ∈ l) (hpar : ∀ e ∈ l, IsParam e.1)
    (hvars : ∀ x ∈ f.body.vars, IsParam x) {x : Str} {t : RTy}
    (hx : (f.sig.recv = .py ∧ x = c!"py" ∧ t = .python) ∨ (f.sig.recv = .self ∧ x = c!"self" ∧ ∃ c, t = .ref (.bound c)))
    (hxn : x ∉ l.map Prod.fst) (hn : (l.map Prod.fst).Nodup) {vs : TVars} (hk : ∀ e ∈ l, ∃ r, Known e r ∧ look vs e.1 = some r) {rt : RTy}
    (hu : f.sig.ret = .unit → returns rt (.result .unit) = true)
    (he : f.sig.ret ≠ .unit → (returns rt (.result .extracted) = true ↔ SupportedRet f.sig.ret)) :
    (typ ((x, false, t) :: vs) f.tree.body).any (returns rt) = true ↔ (∀ e ∈ l, Supported e.2.1) ∧ SupportedRet f.sig.ret := by
  -- the result, once the body has its type
  have fin : ∀ b : Bool, (b = true ↔ ∀ e ∈ l, Supported e.2.1) → 
      ((if b then some f.body.ty else none : Option RTy).any (returns rt) = true ↔ (∀ e ∈ l, Supported e.2.1) ∧ SupportedRet f.sig.ret) := by
    intro b hb
    rw [← hb]
    cases b with
    | false => simp
    | true =>
      simp only [if_true, Option.any_some, true_and]
      by_cases hr : f.sig.ret = .unit
      · obtain ⟨o, n, z, hbody⟩ := h.unit.1 hr
        rw [hbody, Body.ty, hu hr, hr]
        simp [SupportedRet]
      · rw [← he hr]
        have : f.body.ty = .result .extracted := by
          cases hbody : f.body with
          | setattr o n z => exact absurd (h.unit.2 ⟨o, n, z, hbody⟩) hr
          | _ => rfl
        rw [this]
  have hpres : f.pre.flatMap (fun xp => preTree xp.1 xp.2) = l.flatMap (fun e => preTree e.1 e.2.2) := by
    rw [hpre, List.flatMap_map]
  -- with the variables before the conversions
  have main : ∀ env : TVars, look env c!"py" = some .python → (∀ e ∈ l, ∃ r, Known e r ∧ look env e.1 = some r) → Importable env f.body.obj →
      (((typStmts env (f.pre.flatMap (fun xp => preTree xp.1 xp.2))).bind (fun vs => typ vs f.body.tree)).any (returns rt) = true ↔
        (∀ e ∈ l, Supported e.2.1) ∧ SupportedRet f.sig.ret) := by
    intro env hpy hk ho
    obtain ⟨env', h1, h2, h3⟩ := conv_all hn hpar hpy hk
    rw [hpres, h1, Option.bind_some]
    have hnot : ∀ z, (∀ y, IsParam y → (y == z) = false) → z ∉ l.map Prod.fst := by
      intro z hz hm
      obtain ⟨e, he, rfl⟩ := List.mem_map.1 hm
      have := hz _ (hpar e he)
      simp at this
    have hpy' : look env' c!"py" = some .python := by rw [h2 _ (hnot _ fun y hy => hy.ne_py), hpy]
    have hself : look env' c!"self" = look env c!"self" := h2 _ (hnot _ fun y hy => hy.ne_self)
    have ho' : Importable env' f.body.obj := by
      rcases ho with ⟨h, -⟩ | ⟨h, c, hc⟩
      · exact .inl ⟨h, hpy'⟩
      · exact .inr ⟨h, c, by rw [hself, hc]⟩
    rw [typ_body hpy' ho' hvars h.filled ?_ ?_]
    · refine fin _ ?_
      rw [List.all_eq_true]
      constructor
      · intro hall e hm
        rcases h.single (e.1, e.2.1) (by rw [hl]; exact List.mem_map_of_mem (f := fun e : Str × RsTy × Pre => (e.1, e.2.1)) hm) with hs | hs
        · obtain ⟨r, hr, hlk⟩ := h3 e hm
          have := hall _ hs
          rw [good, hlk, Option.any_some] at this
          exact hr.2.2.1 this
        · exact hs
      · intro hall z hz
        have hz' : z ∈ f.body.vars := single_vars hz
        have hm := h.sane.body z hz'
        rw [hl, List.map_map] at hm
        obtain ⟨e, hm', rfl⟩ := List.mem_map.1 hm
        obtain ⟨r, hr, hlk⟩ := h3 e hm'
        show good env' e.1 = true
        rw [good, hlk, Option.any_some]
        exact hr.2.2.2 (hall e hm')
    · intro z hz
      obtain ⟨r, hr, hlk⟩ := h3 _ (hps z hz)
      rw [hlk]; rfl
    · intro z hz
      obtain ⟨r, hr, hlk⟩ := h3 _ (hks z hz)
      rw [hlk]; rfl
  have hskip : ∀ e ∈ l, ∀ (y : Str) (u : RTy) (env : TVars), y ∉ l.map Prod.fst → look ((y, false, u) :: env) e.1 = look env e.1 := by
    intro e hm y u env hy
    refine look_skip (beq_eq_false_iff_ne.2 fun he => hy ?_) _ _ _
    rw [← he]
    exact List.mem_map_of_mem hm
  simp only [Fn.tree]
  rw [typ]
  rcases hx with ⟨hr, rfl, rfl⟩ | ⟨hr, rfl, c, rfl⟩
  · rcases h.sane.recv with ⟨-, hlet, hi⟩ | ⟨hr', -⟩
    · rw [hlet]
      refine main _ (look_here _ _ _ _) (fun e hm => ?_) (.inl ⟨hi, look_here _ _ _ _⟩)
      obtain ⟨r, hr, hlk⟩ := hk e hm
      exact ⟨r, hr, by rw [hskip e hm _ _ _ hxn, hlk]⟩
    · rw [hr] at hr'; cases hr'
  · rcases h.sane.recv with ⟨hr', -⟩ | ⟨-, ho, hlet | ⟨hlet, hp, n, hbody⟩⟩
    · rw [hr] at hr'; cases hr'
    · rw [hlet]
      simp only [if_true, List.cons_append, List.nil_append]
      rw [typStmts_let, typ_method _ _ _ (by intro _ _; simp), typ_var, look_here]
      have hpn : c!"py" ∉ l.map Prod.fst := by
        intro hm
        obtain ⟨e, he, hy⟩ := List.mem_map.1 hm
        have := (hpar e he).ne_py
        rw [hy] at this
        exact absurd this (by decide)
      refine main _ (look_here _ _ _ _) (fun e hm => ?_) (.inr ⟨ho, c, ?_⟩)
      · obtain ⟨r, hr, hlk⟩ := hk e hm
        exact ⟨r, hr, by rw [hskip e hm _ _ _ hpn, hskip e hm _ _ _ hxn, hlk]⟩
      · rw [look_skip (by decide), look_here]
    · rw [hlet, hp, hbody]
      simp only [Bool.false_eq_true, if_false, List.nil_append, List.flatMap_nil, typStmts, Option.bind_some]
      rw [typ_getSelf (look_here _ _ _ _)]
      have hlnil : l = [] := by
        rw [hp] at hpre
        exact List.map_eq_nil_iff.1 hpre.symm
      have := fin true (by simp [hlnil])
      rw [hbody] at this
      exact this

/-- When an emitted function type checks. -/
theorem checks_fn {f : Fn} (h : f.Typed) {self : Option RType} (hs : f.sig.recv = .self → ∃ c, self.bind (readType [c!"_"]) = some (.bound c)) :
    f.tree.checks self = true ↔ (f.sig.params.map Prod.fst).Nodup ∧ (∀ p ∈ f.sig.params, Supported p.2) ∧ SupportedRet f.sig.ret := by
  obtain ⟨l, hl, hpre, hfit, hps, hks⟩ := h.params
  have hnames : f.sig.params.map Prod.fst = l.map Prod.fst := by rw [hl, List.map_map]; rfl
  have hsup : (∀ p ∈ f.sig.params, Supported p.2) ↔ ∀ e ∈ l, Supported e.2.1 := by
    rw [hl]; simp only [List.mem_map, forall_exists_index, and_imp, forall_apply_eq_imp_iff₂]
  have hpar : ∀ e ∈ l, IsParam e.1 := by
    intro e he
    exact h.sane.params (e.1, e.2.1) (by rw [hl]; exact List.mem_map_of_mem (f := fun e : Str × RsTy × Pre => (e.1, e.2.1)) he)
  have hvars : ∀ x ∈ f.body.vars, IsParam x := by
    intro x hx
    have := h.sane.body x hx
    rw [hnames] at this
    obtain ⟨e, he, rfl⟩ := List.mem_map.1 this
    exact hpar e he
  rw [hsup, hnames]
  obtain ⟨x, t, hrecv, hx⟩ := recv_read h hs
  have htyped : f.sig.params.map (fun p => RParam.typed p.1 p.2.tree) = l.map (fun e => .typed e.1 e.2.1.tree) := by
    rw [hl, List.map_map]; rfl
  rw [htyped] at hrecv
  unfold RFn.checks
  show (match paramTys [c!"py"] (self.bind (readType [c!"_"])) f.sig.tree.params,
    readResult [c!"py"] (gen true [c!"pyo3"] c!"PyResult" [f.sig.ret.tree]) with
    | some vs, some t => decide (vs.map Prod.fst).Nodup && (typ vs f.tree.body).any (returns t)
    | _, _ => false) = true ↔ _
  rcases params_read (self.bind (readType [c!"_"])) hfit with ⟨h1, e, he, h2⟩ | ⟨vs, h1, h2, h3⟩
  · rw [hrecv, h1]
    simp only [Option.map_none, Bool.false_eq_true, false_iff]
    rintro ⟨-, h, -⟩
    exact h2 (h e he)
  · rw [hrecv, h1]
    simp only [Option.map_some]
    rcases read_ret f.sig.ret h.ret with ⟨h4, h5⟩ | ⟨rt, h4, h5, h6⟩
    · rw [h4]
      simp only [Bool.false_eq_true, false_iff]
      rintro ⟨-, -, h⟩
      exact h5 h
    · rw [h4]
      simp only [Bool.and_eq_true, decide_eq_true_eq, List.map_cons, h2]
      have hxn : x ∉ l.map Prod.fst := by
        intro hm
        obtain ⟨e, he, rfl⟩ := List.mem_map.1 hm
        have hp := hpar e he
        rcases hx with ⟨-, hx, -⟩ | ⟨-, hx, -⟩
        · have := hp.ne_py; rw [hx] at this; exact absurd this (by decide)
        · have := hp.ne_self; rw [hx] at this; exact absurd this (by decide)
      rw [List.nodup_cons]
      constructor
      · rintro ⟨⟨-, hn⟩, hb⟩
        exact ⟨hn, (checks_body h hl hpre hps hks hpar hvars hx hxn hn (h3 hn) h5 h6).1 hb⟩
      · rintro ⟨hn, hb⟩
        exact ⟨⟨hxn, hn⟩, (checks_body h hl hpre hps hks hpar hvars hx hxn hn (h3 hn) h5 h6).2 hb⟩

end Bindgen

import Verif.Spec.RustSyntax
import Verif.Spec.Eval
/-!
# Specification: a type checker for the Rust code of the bindings

The rules are those of Rust for the expressions of `RustSyntax.lean`, with the signatures of the functions of pyo3 0.21 and the
implementations of its traits. An expression that uses something else has no type. Not checked: lifetimes (except that they are declared),
borrows and moves, and which class a relative path stands for (C49).
-/
namespace Bindgen.Spec

/-! ## Types -/

/-- The classes that pointers to Python objects are for. -/
inductive RCls
  /-- `::pyo3::types::n` -/
  | types (n : Str)
  /-- a class of the bindings, by its path -/
  | here (path : List Str)
  /-- `::numpy::PyArray<::pyo3::Py<::pyo3::types::PyAny>, ::numpy::IxDyn>` -/
  | array
  deriving DecidableEq

/-- `PyAny` -/
def RCls.any : RCls := .types c!"PyAny"

/-- Types of expressions. -/
inductive RTy
  | unit | bool | f64 | i64 | u8 | usize | string | pathBuf
  /-- unsized types -/
  | str | path | slice (t : RTy)
  | option (t : RTy) | vec (t : RTy) | array (t : RTy) | hashSet (t : RTy) | hashMap (k v : RTy) | tuple (ts : List RTy)
  | ref (t : RTy)
  /-- an iterator over values of the type -/
  | iter (t : RTy)
  /-- `PyResult<t>` -/
  | result (t : RTy)
  /-- `Python<'py>` -/
  | python
  /-- `Bound<'py, c>` -/
  | bound (c : RCls)
  /-- `Py<c>` -/
  | py (c : RCls)
  /-- `impl IntoPy<Py<c>>` -/
  | intoPy (c : RCls)
  /-- `impl IntoPyDict` -/
  | intoDict
  /-- not known yet -/
  | unknown
  /-- the result of `extract`: any type with `FromPyObject`, as the context wants -/
  | extracted

/-- The type can be that of a variable or an argument. -/
def RTy.sized : RTy → Bool
  | .str | .path | .slice _ => false
  | _ => true

mutual
/-- The same type. -/
def RTy.same : RTy → RTy → Bool
  | .unit, .unit | .bool, .bool | .f64, .f64 | .i64, .i64 | .u8, .u8 | .usize, .usize | .string, .string | .pathBuf, .pathBuf | .str, .str
  | .path, .path | .python, .python => true
  | .slice t, .slice u | .option t, .option u | .vec t, .vec u | .array t, .array u | .hashSet t, .hashSet u | .ref t, .ref u
  | .iter t, .iter u | .result t, .result u => t.same u
  | .hashMap k v, .hashMap k' v' => k.same k' && v.same v'
  | .tuple ts, .tuple us => RTy.sameAll ts us
  | .bound c, .bound d | .py c, .py d => c = d
  | _, _ => false
/-- The same types. -/
def RTy.sameAll : List RTy → List RTy → Bool
  | [], [] => true
  | t :: ts, u :: us => t.same u && RTy.sameAll ts us
  | _, _ => false
end

/-! ## Traits -/

mutual
/-- `Hash + Eq`; the standard library has it for tuples with up to 12 elements. -/
def RTy.hash : RTy → Bool
  | .unit | .bool | .i64 | .u8 | .usize | .string | .pathBuf | .str | .path => true
  | .slice t | .option t | .vec t | .array t | .ref t => t.hash
  | .tuple ts => decide (ts.length ≤ 12) && RTy.hashAll ts
  | _ => false
/-- The same on lists. -/
def RTy.hashAll : List RTy → Bool
  | [] => true
  | t :: ts => t.hash && RTy.hashAll ts
end

mutual
/-- `ToPyObject`; pyo3 has it for tuples with up to 12 elements. -/
def RTy.toPy : RTy → Bool
  | .unit | .bool | .f64 | .i64 | .u8 | .usize | .string | .pathBuf | .str | .path | .bound _ | .py _ => true
  | .slice t | .option t | .vec t | .array t | .ref t => t.toPy
  | .hashSet t => t.hash && t.toPy
  | .hashMap k v => k.hash && k.toPy && v.toPy
  | .tuple ts => decide (ts.length ≤ 12) && RTy.toPyAll ts
  | _ => false
/-- The same on lists. -/
def RTy.toPyAll : List RTy → Bool
  | [] => true
  | t :: ts => t.toPy && RTy.toPyAll ts
end

mutual
/-- `FromPyObject`; pyo3 has it for tuples with up to 12 elements. -/
def RTy.fromPy : RTy → Bool
  | .bool | .f64 | .i64 | .u8 | .usize | .string | .pathBuf | .bound _ | .py _ => true
  | .option t | .vec t => t.fromPy
  | .hashSet t => t.hash && t.fromPy
  | .hashMap k v => k.hash && k.fromPy && v.fromPy
  | .tuple ts => decide (ts.length ≤ 12) && RTy.fromPyAll ts
  | _ => false
/-- The same on lists. -/
def RTy.fromPyAll : List RTy → Bool
  | [] => true
  | t :: ts => t.fromPy && RTy.fromPyAll ts
end

/-- `IntoPy<Py<c>>`; of the classes with more than `IntoPy<Py<PyAny>>` only tuples and strings are used. -/
def RTy.into (c : RCls) : RTy → Bool
  | .intoPy d => c = d
  | .bound d | .ref (.bound d) => c = .any || c = d && (c = .types c!"PyTuple" || c = .types c!"PyString")
  | .py d => c = .any || c = d
  | .unit => c = .any || c = .types c!"PyTuple"
  | .ref .str => c = .any || c = .types c!"PyString"
  | _ => false

/-- `IntoPyDict` -/
def RTy.intoDictBound : RTy → Bool
  | .intoDict => true
  | .bound c => c = .types c!"PyDict"
  | .hashMap k v => k.toPy && v.toPy
  | _ => false

/-! ## Reading types -/

/-- The classes of `pyo3::types`. -/
def pyo3Types : List Str :=
  [c!"PyAny", c!"PyBool", c!"PyByteArray", c!"PyBytes", c!"PyCFunction", c!"PyCapsule", c!"PyCode", c!"PyComplex", c!"PyDate", c!"PyDateTime",
   c!"PyDelta", c!"PyDict", c!"PyEllipsis", c!"PyFloat", c!"PyFrame", c!"PyFrozenSet", c!"PyFunction", c!"PyIterator", c!"PyList", c!"PyLong",
   c!"PyMapping", c!"PyModule", c!"PyNone", c!"PyNotImplemented", c!"PySequence", c!"PySet", c!"PySlice", c!"PyString", c!"PySuper",
   c!"PyTime", c!"PyTraceback", c!"PyTuple", c!"PyType", c!"PyTzInfo"]

/-- A class of pyo3. -/
def readPyo3 : RType → Option RCls
  | .path true [.mk a [], .mk b [], .mk n []] =>
    if a = c!"pyo3" ∧ b = c!"types" ∧ n ∈ pyo3Types then some (.types n) else none
  | _ => none

/-- The type is `::a::b`. -/
def isGlobal (a b : Str) : RType → Bool
  | .path true [.mk x [], .mk y []] => x = a && y = b
  | _ => false

/-- The type is `Py<PyAny>`. -/
def isObject : RType → Bool
  | .path true [.mk a [], .mk b [t]] => a = c!"pyo3" && b = c!"Py" && readPyo3 t = some .any
  | _ => false

/-- A class. -/
def readCls : RType → Option RCls
  | .path true [.mk a [], .mk b [t, d]] =>
    if a = c!"numpy" ∧ b = c!"PyArray" ∧ isObject t ∧ isGlobal c!"numpy" c!"IxDyn" d then some .array else none
  | .path false segs =>
    match plain segs with
    | some (x :: l) => some (.here (x :: l))
    | _ => none
  | t => readPyo3 t

/-- Types that are a single name. -/
def readName (n : Str) : Option RTy :=
  if n = c!"bool" then some .bool else if n = c!"f64" then some .f64 else if n = c!"i64" then some .i64 else if n = c!"u8" then some .u8
  else if n = c!"usize" then some .usize else if n = c!"str" then some .str else none

/-- Types of the standard library without arguments. -/
def readStd (a b c : Str) : Option RTy :=
  if [a, b, c] = [c!"std", c!"string", c!"String"] then some .string
  else if [a, b, c] = [c!"std", c!"path", c!"PathBuf"] then some .pathBuf
  else if [a, b, c] = [c!"std", c!"path", c!"Path"] then some .path
  else none

/-- Types of the standard library with one argument. -/
def readStd1 (a b c : Str) (t : RTy) : Option RTy :=
  if t.sized = false then none
  else if [a, b, c] = [c!"std", c!"option", c!"Option"] then some (.option t)
  else if [a, b, c] = [c!"std", c!"collections", c!"HashSet"] then some (.hashSet t)
  else none

/-- Types of the standard library with two arguments. -/
def readStd2 (a b c : Str) (t u : RTy) : Option RTy :=
  if t.sized && u.sized && [a, b, c] = [c!"std", c!"collections", c!"HashMap"] then some (.hashMap t u) else none

mutual
/-- The meaning of a type, if there is such a type; `ls` are the lifetimes that are declared. -/
def readType (ls : List Str) : RType → Option RTy
  | .path false [.mk n []] => readName n
  | .path false [.mk n [t]] => if n = c!"Vec" then ((readType ls t).filter RTy.sized).map .vec else none
  | .path true [.mk a [], .mk b [], .mk c []] => readStd a b c
  | .path true [.mk a [], .mk b [], .mk c [.life l]] =>
    if [a, b, c] = [c!"pyo3", c!"marker", c!"Python"] ∧ l ∈ ls then some .python else none
  | .path true [.mk a [], .mk b [], .mk c [t]] => (readType ls t).bind (readStd1 a b c)
  | .path true [.mk a [], .mk b [], .mk c [t, u]] => (readType ls t).bind (fun t => (readType ls u).bind (readStd2 a b c t))
  | .path true [.mk a [], .mk b [.life l, t]] => if a = c!"pyo3" ∧ b = c!"Bound" ∧ l ∈ ls then (readCls t).map .bound else none
  | .ref t => (readType ls t).map .ref
  | .slice t => ((readType ls t).filter RTy.sized).map .slice
  | .tuple ts =>
    match readTypes ls ts with
    | some [] => some .unit
    | some ts => if ts.all RTy.sized then some (.tuple ts) else none
    | none => none
  | _ => none
/-- Several types. -/
def readTypes (ls : List Str) : List RType → Option (List RTy)
  | [] => some []
  | t :: ts => (readType ls t).bind (fun t => (readTypes ls ts).map (t :: ·))
end

/-- `impl IntoPy<Py<c>>` and `impl IntoPyDict`, which are possible only as types of parameters. -/
def readImpl : RType → Option RTy
  | .path true [.mk a [], .mk b [.path true [.mk c [], .mk d [t]]]] =>
    if [a, b, c, d] = [c!"pyo3", c!"IntoPy", c!"pyo3", c!"Py"] then (readPyo3 t).map .intoPy else none
  | .path true [.mk a [], .mk b [], .mk c []] => if [a, b, c] = [c!"pyo3", c!"types", c!"IntoPyDict"] then some .intoDict else none
  | _ => none

/-- The type of a parameter. -/
def readParam (ls : List Str) : RType → Option RTy
  | .impl b => readImpl b
  | t => (readType ls t).filter RTy.sized

/-- `t` for the type `PyResult<t>`. -/
def readResult (ls : List Str) : RType → Option RTy
  | .path true [.mk a [], .mk b [t]] => if a = c!"pyo3" ∧ b = c!"PyResult" then (readType ls t).filter RTy.sized else none
  | _ => none

/-! ## Signatures of functions -/

/-- `&Bound<'py, PyAny>`, the receiver of the functions of `PyAnyMethods`. -/
def isAnyRef : RTy → Bool
  | .ref (.bound c) => c = .any
  | _ => false

/-- `Option<&Bound<'py, PyDict>>` -/
def isKwargs : RTy → Bool
  | .option (.ref (.bound c)) => c = .types c!"PyDict"
  | _ => false

/-- The functions of `PyAnyMethods`, after the receiver. -/
def anyMethodTy (m : Str) : List RTy → Option RTy
  | [] =>
    if m = c!"extract" then some (.result .extracted)
    else if m = c!"call0" then some (.result (.bound .any))
    else none
  | [a] =>
    if m = c!"getattr" ∧ a.into (.types c!"PyString") then some (.result (.bound .any))
    else if m = c!"call_method0" ∧ a.into (.types c!"PyString") then some (.result (.bound .any))
    else if m = c!"call1" ∧ a.into (.types c!"PyTuple") then some (.result (.bound .any))
    else none
  | [a, b] =>
    if m = c!"setattr" ∧ a.into (.types c!"PyString") ∧ b.toPy then some (.result .unit)
    else if m = c!"call_method1" ∧ a.into (.types c!"PyString") ∧ b.into (.types c!"PyTuple") then some (.result (.bound .any))
    else if m = c!"call" ∧ a.into (.types c!"PyTuple") ∧ isKwargs b then some (.result (.bound .any))
    else if m = c!"set_item" ∧ a.toPy ∧ b.toPy then some (.result .unit)
    else none
  | [a, b, c] =>
    if m = c!"call_method" ∧ a.into (.types c!"PyString") ∧ b.into (.types c!"PyTuple") ∧ isKwargs c then some (.result (.bound .any))
    else none
  | _ => none

/-- The elements of something that can be iterated over. -/
def elemTy : RTy → Option RTy
  | .array t | .vec t | .iter t => some t
  | _ => none

/-- The other functions, by their paths. -/
def plainCallTy (global : Bool) (f : List Str) : List RTy → Option RTy
  | [.usize] => if global = false ∧ f = [c!"Vec", c!"with_capacity"] then some (.vec .unknown) else none
  | [.python] => if global ∧ f = [c!"pyo3", c!"types", c!"PyDict", c!"new_bound"] then some (.bound (.types c!"PyDict")) else none
  | [.python, t] =>
    if global ∧ f = [c!"pyo3", c!"types", c!"PyTuple", c!"new_bound"] ∧ (elemTy t).any RTy.toPy then some (.bound (.types c!"PyTuple"))
    else none
  | [.python, .ref .str, .ref .str, .ref .str] =>
    if global ∧ f = [c!"pyo3", c!"types", c!"PyModule", c!"from_code_bound"] then some (.result (.bound (.types c!"PyModule"))) else none
  | [t, .python] =>
    if global ∧ f = [c!"pyo3", c!"types", c!"IntoPyDict", c!"into_py_dict_bound"] ∧ t.intoDictBound then some (.bound (.types c!"PyDict"))
    else
      match t with
      | .ref t => if global ∧ f = [c!"pyo3", c!"ToPyObject", c!"to_object"] ∧ t.toPy then some (.py .any) else none
      | _ => none
  | [.ref (.bound c)] =>
    if c = .types c!"PyTuple" then
      if global ∧ f = [c!"pyo3", c!"types", c!"PyTupleMethods", c!"len"] then some .usize
      else if global ∧ f = [c!"pyo3", c!"types", c!"PyTupleMethods", c!"iter"] then some (.iter (.bound .any))
      else if global = false ∧ f = [c!"Some"] then some (.option (.ref (.bound c)))
      else none
    else if global = false ∧ f = [c!"Some"] then some (.option (.ref (.bound c)))
    else none
  | [.ref (.bound d), k, v] =>
    if global ∧ f = [c!"pyo3", c!"types", c!"PyDictMethods", c!"set_item"] ∧ d = .types c!"PyDict" ∧ k.toPy ∧ v.toPy then
      some (.result .unit)
    else none
  | _ => none

/-- `c` in `::pyo3::IntoPy::<::pyo3::Py<c>>::into_py`. -/
def intoPyCls : List RSeg → Option RCls
  | [.mk a [], .mk b [.path true [.mk c [], .mk d [t]]], .mk e []] =>
    if [a, b, c, d, e] = [c!"pyo3", c!"IntoPy", c!"pyo3", c!"Py", c!"into_py"] then readPyo3 t else none
  | _ => none

/-- A call of a function. -/
def applyTy (g : Bool) (segs : List RSeg) (args : List RTy) : Option RTy :=
  let global := absolute g segs
  match intoPyCls segs, args with
  | some c, [t, .python] => if global && t.into c then some (.py c) else none
  | some _, _ => none
  | none, args =>
    match plain segs, args with
    | some [a, b, c, m], t :: args =>
      if global ∧ [a, b, c] = [c!"pyo3", c!"types", c!"PyAnyMethods"] then
        if isAnyRef t then anyMethodTy m args else none
      else plainCallTy global [a, b, c, m] (t :: args)
    | some f, args => plainCallTy global f args
    | none, _ => none

/-- A call of a method. -/
def methodTy (m : Str) : RTy → List RTy → Option RTy
  | .python, [t] => if m = c!"import_bound" ∧ t.into (.types c!"PyString") then some (.result (.bound (.types c!"PyModule"))) else none
  | .bound _, [] => if m = c!"as_any" then some (.ref (.bound .any)) else if m = c!"py" then some .python else none
  | .ref (.bound _), [] => if m = c!"as_any" then some (.ref (.bound .any)) else if m = c!"py" then some .python else none
  | .py c, [.python] => if m = c!"bind" then some (.ref (.bound c)) else none
  | _, _ => none

/-! ## Expressions -/

/-- Variables with their types, and whether they are mutable; the first binding counts. -/
abbrev TVars := List (Str × Bool × RTy)

/-- The type of the elements of an array. -/
def commonTy : List RTy → Option RTy
  | [] => some .unknown
  | t :: ts => if ts.all t.same then some t else none

/-- The elements of a vector after more have been added. -/
def extendTy : RTy → RTy → Option RTy
  | .unknown, t => some t
  | t, .unknown => some t
  | t, u => if t.same u then some t else none

mutual
/-- The type of an expression. -/
def typ (vs : TVars) : RExpr → Option RTy
  | .path false [.mk x []] => (vs.lookup x).map Prod.snd
  | .path _ _ => none
  | .str _ => some (.ref .str)
  | .num _ => some .usize
  | .unit => some .unit
  | .array es => ((typAll vs es).bind commonTy).map .array
  | .ref e => (typ vs e).map .ref
  | .try e =>
    match typ vs e with
    | some (.result .extracted) => none
    | some (.result t) => some t
    | _ => none
  | .call (.path g segs) args => (typAll vs args).bind (applyTy g segs)
  | .call _ _ => none
  | .method e m [.closure x b] =>
    match typ vs e with
    | some (.iter t) => if m = c!"map" then (typ ((x, false, t) :: vs) b).map .iter else none
    | _ => none
  | .method e m args =>
    match typ vs e with
    | some t => (typAll vs args).bind (methodTy m t)
    | none => none
  | .mac g segs args =>
    match typAll vs args with
    | some [.python, .ref .str] =>
      if absolute g segs ∧ plain segs = some [c!"pyo3", c!"intern"] then some (.ref (.bound (.types c!"PyString"))) else none
    | _ => none
  | .closure _ _ => none
  | .add a b =>
    match typ vs a, typ vs b with
    | some .usize, some .usize => some .usize
    | _, _ => none
  | .block ss e => (typStmts vs ss).bind (fun vs => typ vs e)
  | .ifLet ctor x e a b =>
    match typ vs e with
    | some (.option t) =>
      if ctor = c!"Some" then
        match typ ((x, false, t) :: vs) a, typ vs b with
        | some t, some u => if t.same u then some t else none
        | _, _ => none
      else none
    | _ => none
/-- The types of several expressions. -/
def typAll (vs : TVars) : List RExpr → Option (List RTy)
  | [] => some []
  | e :: es =>
    match typ vs e, typAll vs es with
    | some t, some l => some (t :: l)
    | _, _ => none
/-- The variables after statements. `x.extend(e);` needs a mutable vector and may determine its type. -/
def typStmts (vs : TVars) : List RStmt → Option TVars
  | [] => some vs
  | .let m x e :: ss => (typ vs e).bind (fun t => typStmts ((x, m, t) :: vs) ss)
  | .const x t e :: ss =>
    match readType [] t, typ vs e with
    | some t, some u => if t.same u then typStmts ((x, false, t) :: vs) ss else none
    | _, _ => none
  | .expr (.method (.path false [.mk x []]) m [e]) :: ss =>
    match vs.lookup x, (typ vs e).bind elemTy with
    | some (true, .vec t), some u =>
      if m = c!"extend" then (extendTy t u).bind (fun t => typStmts ((x, true, .vec t) :: vs) ss) else none
    | _, _ => none
  | .expr e :: ss => (typ vs e).bind (fun _ => typStmts vs ss)
end

/-! ## Functions and files -/

/-- The variables of the parameters; `self` is the type of the `impl` block. -/
def paramTys (ls : List Str) (self : Option RTy) : List RParam → Option TVars
  | [] => some []
  | .self l :: ps => 
    match self with
    | some t => if l ∈ ls then (paramTys ls self ps).map ((c!"self", false, .ref t) :: ·) else none
    | none => none
  | .typed x t :: ps => (readParam ls t).bind (fun t => (paramTys ls self ps).map ((x, false, t) :: ·))

/-- The body of a function that returns `PyResult<t>` has the type. -/
def returns (t : RTy) : RTy → Bool
  | .result .extracted => t.fromPy
  | .result u => u.same t
  | _ => false

/-- The function type checks; `self` is the type of the `impl` block, if the function is in one. Its parameters have distinct names. -/
def RFn.checks (self : Option RType) (f : RFn) : Bool :=
  match paramTys f.sig.lifetimes (self.bind (readType [c!"_"])) f.sig.params, readResult f.sig.lifetimes f.sig.ret with
  | some vs, some t => decide (vs.map Prod.fst).Nodup && (typ vs f.body).any (returns t)
  | _, _ => false

mutual
/-- Every function in the item type checks. -/
def RItem.checks : RItem → Bool
  | .fn f => f.checks none
  | .impl _ _ self fns => fns.all (fun f => f.checks (some self))
  | .mod _ _ _ items => RItem.checkAll items
  | _ => true
/-- Every function in the items type checks. -/
def RItem.checkAll : List RItem → Bool
  | [] => true
  | i :: is => i.checks && RItem.checkAll is
end

end Bindgen.Spec

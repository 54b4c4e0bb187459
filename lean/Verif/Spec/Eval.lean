import Verif.Spec.RustSyntax
import Verif.Spec.Call
/-!
# Specification: what Rust expressions with calls of pyo3 do

An evaluator for the expressions of `RustSyntax.lean`, written from the reference of Rust and the documentation of pyo3 0.21. Python is
asked at most one thing, the result of the evaluation. Nothing happens that is not written here: an expression that uses another function
or a wrong type has no value.
-/
namespace Bindgen.Spec

/-- Values. References are not distinguished from what they refer to. -/
inductive RVal
  | unit
  /-- the token `Python<'py>` -/
  | py
  | num (n : Nat)
  | str (s : Str)
  /-- a Python object, or a Rust value that converts to it -/
  | val (v : PyVal)
  /-- an array, a vector or an iterator -/
  | list (l : List PyVal)
  /-- `Some(v)` for Rust's own `Option` -/
  | some (v : RVal)
  /-- an object that Python has been asked for: a module, or an attribute of an object; or the receiver -/
  | obj (o : Obj)
  /-- the result of a call -/
  | called (r : Request)
  /-- the converted result of the request; for `setattr` there is none -/
  | done (r : Request)
  /-- a module that is made from a source, with the name of a file and its own name -/
  | module (source file name : Str)
  /-- an item of a container has been set to a module -/
  | stored (o : Obj) (key : Str) (v : RVal)
  /-- a `PyResult` -/
  | result (v : RVal)

/-- Rust variables; the first binding counts. -/
abbrev RVars := List (Str × RVal)

/-- The names of a path without generic arguments. -/
def plain : List RSeg → Option (List Str)
  | [] => some []
  | .mk s [] :: l => (plain l).map (s :: ·)
  | _ => none

/-- The path starts at a crate. A relative path that starts with `pyo3` does, unless an item of that name is in scope. -/
def absolute (global : Bool) : List RSeg → Bool
  | .mk s _ :: _ => global || s = c!"pyo3"
  | [] => false

/-- `T` in `::pyo3::IntoPy::<::pyo3::Py<::pyo3::types::T>>::into_py`. -/
def intoPyTarget : List RSeg → Option Str
  | [.mk a [], .mk b [.path true [.mk c [], .mk d [.path true [.mk e [], .mk f [], .mk t []]]]], .mk g []] =>
    if [a, b, c, d, e, f, g] = [c!"pyo3", c!"IntoPy", c!"pyo3", c!"Py", c!"pyo3", c!"types", c!"into_py"] then some t else none
  | _ => none

/-- `IntoPy::<Py<T>>::into_py(v, py)`. -/
def intoPy (t : Str) : PyVal → Option PyVal
  | .tuple l => if t = c!"PyTuple" ∨ t = c!"PyAny" then some (.tuple l) else none
  | v => if t = c!"PyAny" then some v else none

/-- Positional arguments: `()` or a tuple. -/
def callArgs : RVal → Option (List PyVal)
  | .unit => some []
  | .val (.tuple l) => some l
  | _ => none

/-- Keyword arguments: a dictionary. -/
def callKwargs : RVal → Option (List (Str × PyVal))
  | .some (.val (.dict d)) => some d
  | _ => none

/-- The functions of `PyAnyMethods`. -/
def anyMethod (m : Str) : List RVal → Option RVal
  | [.obj o, .str s] =>
    if m = c!"getattr" then some (.result (.obj (.getattr o s)))
    else if m = c!"call_method0" then some (.result (.called (.call o (some s) [] [])))
    else none
  | [.obj o, .str s, .val v] =>
    if m = c!"setattr" then some (.result (.done (.set o s v)))
    else if m = c!"call_method1" then (callArgs (.val v)).map (fun a => .result (.called (.call o (some s) a [])))
    else none
  | [.obj o, .str s, .module a b c] => if m = c!"set_item" then some (.result (.stored o s (.module a b c))) else none
  | [.obj o, .str s, a] => if m = c!"call_method1" then (callArgs a).map (fun a => .result (.called (.call o (some s) a []))) else none
  | [.obj o, .str s, a, k] =>
    if m = c!"call_method" then do return .result (.called (.call o (some s) (← callArgs a) (← callKwargs k))) else none
  | [.obj o] => 
    match o with
    | .getattr o s =>
      if m = c!"extract" then some (.result (.done (.get o s)))
      else if m = c!"call0" then some (.result (.called (.call (.getattr o s) none [] []))) else none
    | o => if m = c!"call0" then some (.result (.called (.call o none [] []))) else none
  | [.obj o, a] => if m = c!"call1" then (callArgs a).map (fun a => .result (.called (.call o none a []))) else none
  | [.obj o, a, k] => if m = c!"call" then do return .result (.called (.call o none (← callArgs a) (← callKwargs k))) else none
  | [.called r] => if m = c!"extract" then some (.result (.done r)) else none
  | _ => none

/-- The other functions, by their paths. -/
def plainCall (global : Bool) (f : List Str) : List RVal → Option RVal
  | [.num _] => if global = false ∧ f = [c!"Vec", c!"with_capacity"] then some (.list []) else none
  | [.py] => if global ∧ f = [c!"pyo3", c!"types", c!"PyDict", c!"new_bound"] then some (.val (.dict [])) else none
  | [.py, .list l] => if global ∧ f = [c!"pyo3", c!"types", c!"PyTuple", c!"new_bound"] then some (.val (.tuple l)) else none
  | [.py, .str a, .str b, .str c] =>
    if global ∧ f = [c!"pyo3", c!"types", c!"PyModule", c!"from_code_bound"] then some (.result (.module a b c)) else none
  | [.val v, .py] =>
    if global ∧ f = [c!"pyo3", c!"ToPyObject", c!"to_object"] then some (.val v)
    else if global ∧ f = [c!"pyo3", c!"types", c!"IntoPyDict", c!"into_py_dict_bound"] then (entries v).map (fun d => .val (.dict d))
    else none
  | [.val v] =>
    if global ∧ f = [c!"pyo3", c!"types", c!"PyTupleMethods", c!"len"] then (elems v).map (fun l => .num l.length)
    else if global ∧ f = [c!"pyo3", c!"types", c!"PyTupleMethods", c!"iter"] then (elems v).map .list
    else if global = false ∧ f = [c!"Some"] then some (.some (.val v))
    else none
  | _ => none

/-- A function on values. -/
def apply (g : Bool) (segs : List RSeg) (args : List RVal) : Option RVal :=
  let global := absolute g segs
  match intoPyTarget segs, args with
  | some t, [.val v, .py] => if global then (intoPy t v).map .val else none
  | some _, _ => none
  | none, args =>
    match plain segs with
    | some [a, b, c, m] =>
      if global ∧ [a, b, c] = [c!"pyo3", c!"types", c!"PyAnyMethods"] then anyMethod m args else plainCall global [a, b, c, m] args
    | some f => plainCall global f args
    | none => none

/-- A method on values. -/
def applyMethod (m : Str) : RVal → List RVal → Option RVal
  | .py, [.str s] => if m = c!"import_bound" then some (.result (.obj (.import s))) else none
  | .obj .self, [] => if m = c!"as_any" then some (.obj .self) else if m = c!"py" then some .py else none
  | .obj o, [] => if m = c!"as_any" then some (.obj o) else none
  | .val v, [.py] => if m = c!"bind" then some (.val v) else none
  | _, _ => none

/-- The values of all, if they convert to Python. -/
def allVals : List RVal → Option (List PyVal)
  | [] => some []
  | .val v :: l => (allVals l).map (v :: ·)
  | _ => none

mutual
/-- The value of an expression. -/
def eval (vs : RVars) : RExpr → Option RVal
  | .path false [.mk x []] => vs.lookup x
  | .path _ _ => none
  | .str s => some (.str s)
  | .num n => some (.num n)
  | .unit => some .unit
  | .array es => (evalAll vs es).bind (fun l => (allVals l).map .list)
  | .ref e => eval vs e
  | .try e =>
    match eval vs e with
    | some (.result v) => some v
    | _ => none
  | .call (.path g segs) args => (evalAll vs args).bind (apply g segs)
  | .call _ _ => none
  | .method e m [.closure x b] =>
    match eval vs e with
    | some (.list l) =>
      if m = c!"map" then ((l.mapM (fun v => eval ((x, .val v) :: vs) b)).bind allVals).map .list else none
    | _ => none
  | .method e m args =>
    match eval vs e with
    | some v => (evalAll vs args).bind (applyMethod m v)
    | none => none
  | .mac g segs args =>
    match evalAll vs args with
    | some [.py, .str s] => if absolute g segs ∧ plain segs = some [c!"pyo3", c!"intern"] then some (.str s) else none
    | _ => none
  | .closure _ _ => none
  | .add a b =>
    match eval vs a, eval vs b with
    | some (.num m), some (.num n) => some (.num (m + n))
    | _, _ => none
  | .block ss e => (exec vs ss).bind (fun vs => eval vs e)
  | .ifLet ctor x e a b =>
    match eval vs e with
    | some (.val .none) => if ctor = c!"Some" then eval vs b else none
    | some (.val v) => if ctor = c!"Some" then eval ((x, .val v) :: vs) a else none
    | _ => none
/-- The values of several expressions. -/
def evalAll (vs : RVars) : List RExpr → Option (List RVal)
  | [] => some []
  | e :: es =>
    match eval vs e, evalAll vs es with
    | some v, some l => some (v :: l)
    | _, _ => none
/-- The variables after statements. `x.extend(e);` and `set_item(&x, k, v);` change the variable; other statements that are
expressions are not modelled. No dictionary is shared by two variables: the conversions make new ones. -/
def exec (vs : RVars) : List RStmt → Option RVars
  | [] => some vs
  | .let _ x e :: ss => (eval vs e).bind (fun v => exec ((x, v) :: vs) ss)
  | .const x _ e :: ss => (eval vs e).bind (fun v => exec ((x, v) :: vs) ss)
  | .expr (.method (.path false [.mk x []]) m [e]) :: ss =>
    match vs.lookup x, eval vs e with
    | some (.list l), some (.list r) => if m = c!"extend" then exec ((x, .list (l ++ r)) :: vs) ss else none
    | _, _ => none
  | .expr (.call (.path g segs) [.ref (.path false [.mk x []]), k, e]) :: ss =>
    match vs.lookup x, eval vs k, eval vs e with
    | some (.val (.dict d)), some (.str k), some (.val v) =>
      if absolute g segs ∧ plain segs = some [c!"pyo3", c!"types", c!"PyDictMethods", c!"set_item"] then
        exec ((x, .val (.dict (setItem d k v))) :: vs) ss
      else none
    | _, _, _ => none
  | .expr _ :: _ => none
end

/-- Parameters get their values. -/
def bindParams : List RParam → List RVal → Option RVars
  | [], [] => some []
  | .self _ :: ps, v :: vs => (bindParams ps vs).map ((c!"self", v) :: ·)
  | .typed x _ :: ps, v :: vs => (bindParams ps vs).map ((x, v) :: ·)
  | _, _ => none

/-- A call of a Rust function. -/
def RFn.call (f : RFn) (args : List RVal) : Option RVal := (bindParams f.sig.params args).bind (fun vs => eval vs f.body)

end Bindgen.Spec

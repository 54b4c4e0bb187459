import Verif.Spec.Eval
/-!
# Specification: what Rust expressions with calls of pyo3 do when Python raises exceptions

The evaluator of `Eval.lean` assumes that Python does whatever it is asked for. Here Python may raise an exception at every step. The steps are kept
in a trace. `?` returns the exception from the function; a statement `e;` drops it.
-/
namespace Bindgen.Spec

/-- Something Python is asked for that may raise an exception. -/
inductive Step
  | import (pkg : Str)
  | getattr (o : Obj) (name : Str)
  /-- a call -/
  | call (r : Request)
  /-- the conversion of a result -/
  | extract (r : Request)
  /-- an assignment to an attribute -/
  | setattr (r : Request)
  /-- an entry of a dictionary of keyword arguments -/
  | setItem (key : Str) (v : PyVal)
  /-- a module made from a source -/
  | module (source file name : Str)
  /-- an entry of a container is set to the module -/
  | store (o : Obj) (key : Str)

/-- An exception, by its text. -/
abbrev Exc := Str

/-- An interpreter: the exception that it raises at a step, given all steps before. -/
abbrev Answers := List Step → Step → Option Exc

/-- How the evaluation of an expression ends. -/
inductive Out
  | val (v : RVal)
  /-- the value `Err(x)` -/
  | failed (x : Exc)
  /-- the function has returned `Err(x)` -/
  | ret (x : Exc)
  /-- undefined -/
  | stuck

/-- The end of an expression if a part of it ends in this way, without a value that it can use. -/
def Out.pass : Out → Out
  | .ret x => .ret x
  | _ => .stuck

/-- A value, if there is one. -/
def Out.of : Option RVal → Out
  | some v => .val v
  | none => .stuck

/-- The step behind a result. -/
def stepOf : RVal → Option Step
  | .obj (.import s) => some (.import s)
  | .obj (.getattr o s) => some (.getattr o s)
  | .called r => some (.call r)
  | .done (.set o s v) => some (.setattr (.set o s v))
  | .done r => some (.extract r)
  | .module a b c => some (.module a b c)
  | .stored o k _ => some (.store o k)
  | _ => none

/-- The end of a call that, if Python does what it is asked for, has this value. The functions that give a `PyResult` ask Python. -/
def finish (A : Answers) (tr : List Step) : Option RVal → List Step × Out
  | none => (tr, .stuck)
  | some (.result v) =>
    match stepOf v with
    | none => (tr, .stuck)
    | some s =>
      match A tr s with
      | none => (tr ++ [s], .val (.result v))
      | some x => (tr ++ [s], .failed x)
  | some v => (tr, .val v)

mutual
/-- The evaluation of an expression after the steps `tr`. -/
def go (A : Answers) (vs : RVars) (tr : List Step) : RExpr → List Step × Out
  | .path false [.mk x []] => (tr, .of (vs.lookup x))
  | .path _ _ => (tr, .stuck)
  | .str s => (tr, .val (.str s))
  | .num n => (tr, .val (.num n))
  | .unit => (tr, .val .unit)
  | .array es =>
    match goAll A vs tr es with
    | (tr, .ok l) => (tr, .of ((allVals l).map .list))
    | (tr, .error o) => (tr, o)
  | .ref e => go A vs tr e
  | .try e =>
    match go A vs tr e with
    | (tr, .val (.result v)) => (tr, .val v)
    | (tr, .failed x) => (tr, .ret x)
    | (tr, o) => (tr, o.pass)
  | .call (.path g segs) args =>
    match goAll A vs tr args with
    | (tr, .ok l) => finish A tr (apply g segs l)
    | (tr, .error o) => (tr, o)
  | .call _ _ => (tr, .stuck)
  | .method e m [.closure x b] =>
    match go A vs tr e with
    | (tr, .val (.list l)) =>
      if m = c!"map" then
        match l.foldl (fun (acc : List Step × Option (List PyVal)) v =>
          match acc with
          | (tr, none) => (tr, none)
          | (tr, some ws) =>
            match go A ((x, .val v) :: vs) tr b with
            | (tr, .val (.val w)) => (tr, some (ws ++ [w]))
            | (tr, _) => (tr, none)) (tr, some []) with
        | (tr, some ws) => (tr, .val (.list ws))
        | (tr, none) => (tr, .stuck)
      else (tr, .stuck)
    | (tr, o) => (tr, o.pass)
  | .method e m args =>
    match go A vs tr e with
    | (tr, .val v) =>
      match goAll A vs tr args with
      | (tr, .ok l) => finish A tr (applyMethod m v l)
      | (tr, .error o) => (tr, o)
    | (tr, o) => (tr, o.pass)
  | .mac g segs args =>
    match goAll A vs tr args with
    | (tr, .ok [.py, .str s]) => (tr, if absolute g segs ∧ plain segs = some [c!"pyo3", c!"intern"] then .val (.str s) else .stuck)
    | (tr, .ok _) => (tr, .stuck)
    | (tr, .error o) => (tr, o)
  | .closure _ _ => (tr, .stuck)
  | .add a b =>
    match go A vs tr a with
    | (tr, .val (.num m)) =>
      match go A vs tr b with
      | (tr, .val (.num n)) => (tr, .val (.num (m + n)))
      | (tr, o) => (tr, o.pass)
    | (tr, o) => (tr, o.pass)
  | .block ss e =>
    match goStmts A vs tr ss with
    | (tr, .ok vs) => go A vs tr e
    | (tr, .error o) => (tr, o)
  | .ifLet ctor x e a b =>
    match go A vs tr e with
    | (tr, .val (.val .none)) => if ctor = c!"Some" then go A vs tr b else (tr, .stuck)
    | (tr, .val (.val v)) => if ctor = c!"Some" then go A ((x, .val v) :: vs) tr a else (tr, .stuck)
    | (tr, o) => (tr, o.pass)
/-- The evaluation of several expressions, from left to right. -/
def goAll (A : Answers) (vs : RVars) (tr : List Step) : List RExpr → List Step × Except Out (List RVal)
  | [] => (tr, .ok [])
  | e :: es =>
    match go A vs tr e with
    | (tr, .val v) =>
      match goAll A vs tr es with
      | (tr, .ok l) => (tr, .ok (v :: l))
      | (tr, .error o) => (tr, .error o)
    | (tr, o) => (tr, .error o.pass)
/-- The variables after statements. If `set_item(&x, k, v);` fails, the dictionary stays as it is and the evaluation goes on: the statement drops the
exception. -/
def goStmts (A : Answers) (vs : RVars) (tr : List Step) : List RStmt → List Step × Except Out RVars
  | [] => (tr, .ok vs)
  | .let _ x e :: ss =>
    match go A vs tr e with
    | (tr, .val v) => goStmts A ((x, v) :: vs) tr ss
    | (tr, o) => (tr, .error o.pass)
  | .const x _ e :: ss =>
    match go A vs tr e with
    | (tr, .val v) => goStmts A ((x, v) :: vs) tr ss
    | (tr, o) => (tr, .error o.pass)
  | .expr (.method (.path false [.mk x []]) m [e]) :: ss =>
    match vs.lookup x, go A vs tr e with
    | some (.list l), (tr, .val (.list r)) => if m = c!"extend" then goStmts A ((x, .list (l ++ r)) :: vs) tr ss else (tr, .error .stuck)
    | _, (tr, o) => (tr, .error o.pass)
  | .expr (.call (.path g segs) [.ref (.path false [.mk x []]), k, e]) :: ss =>
    match vs.lookup x, go A vs tr k with
    | some (.val (.dict d)), (tr, .val (.str k)) =>
      match go A vs tr e with
      | (tr, .val (.val v)) =>
        if absolute g segs ∧ plain segs = some [c!"pyo3", c!"types", c!"PyDictMethods", c!"set_item"] then
          match A tr (.setItem k v) with
          | none => goStmts A ((x, .val (.dict (setItem d k v))) :: vs) (tr ++ [.setItem k v]) ss
          | some _ => goStmts A vs (tr ++ [.setItem k v]) ss
        else (tr, .error .stuck)
      | (tr, o) => (tr, .error o.pass)
    | _, (tr, o) => (tr, .error o.pass)
  | .expr _ :: _ => (tr, .error .stuck)
end

/-- A call of a Rust function that returns a `PyResult`: the steps, and the result or the exception. -/
def RFn.perform (A : Answers) (f : RFn) (args : List RVal) : List Step × Option (Except Exc RVal) :=
  match bindParams f.sig.params args with
  | none => ([], none)
  | some vs =>
    match go A vs [] f.body with
    | (tr, .val (.result v)) => (tr, some (.ok v))
    | (tr, .failed x) => (tr, some (.error x))
    | (tr, .ret x) => (tr, some (.error x))
    | (tr, _) => (tr, none)

/-- Taking steps one by one until one fails: the steps that have been taken, and the exception. -/
def walk (A : Answers) (tr : List Step) : List Step → List Step × Option Exc
  | [] => (tr, none)
  | s :: ss =>
    match A tr s with
    | none => walk A (tr ++ [s]) ss
    | some x => (tr ++ [s], some x)

/-- The steps to reach an object: the import, then the attributes. -/
def reach : Obj → List Step
  | .self => []
  | .import pkg => [.import pkg]
  | .getattr o name => reach o ++ [.getattr o name]

/-- Storing entries in a dictionary one by one; an entry is left out if Python raises an exception. -/
def stored (A : Answers) (tr : List Step) (d : List (Str × PyVal)) : List (Str × PyVal) → List Step × List (Str × PyVal)
  | [] => (tr, d)
  | e :: es =>
    match A tr (.setItem e.1 e.2) with
    | none => stored A (tr ++ [.setItem e.1 e.2]) (setItem d e.1 e.2) es
    | some _ => stored A (tr ++ [.setItem e.1 e.2]) d es

/-- A dictionary with all these entries stored. -/
def putAll (d es : List (Str × PyVal)) : List (Str × PyVal) := es.foldl (fun d e => setItem d e.1 e.2) d

/-- The keyword arguments of a request. -/
def Request.kwargs : Request → List (Str × PyVal)
  | .call _ _ _ k => k
  | _ => []

/-- The names of the keyword arguments that a body stores one by one. -/
def keysOf : Body → List Str
  | .call _ _ _ (some (.freshSet items)) => items.map Prod.fst
  | .call _ _ _ (some (.varSet _ items)) => items.map Prod.fst
  | _ => []

/-- The outcome of taking the steps one by one, if it is `v` when none fails. -/
def taking (A : Answers) (tr steps : List Step) (v : Request) : List Step × Except Exc Request :=
  match walk A tr steps with
  | (tr, none) => (tr, .ok v)
  | (tr, some x) => (tr, .error x)

/-- The steps that a request takes: reaching the object, storing the keyword arguments `es`, asking, converting what has been answered. -/
def stepsFor (es : List (Str × PyVal)) : Request → List Step
  | .call o m a k => reach o ++ es.map (fun e => .setItem e.1 e.2) ++ [.call (.call o m a k), .extract (.call o m a k)]
  | .get o n => reach o ++ [.getattr o n, .extract (.get o n)]
  | .set o n v => reach o ++ [.setattr (.set o n v)]

/-- Making a request: reaching the object; storing the keyword arguments `es` in the dictionary `d`, whether Python raises exceptions or not; asking;
converting what has been answered. -/
def conduct (A : Answers) (d es : List (Str × PyVal)) : Request → List Step × Except Exc Request
  | .call o m a _ =>
    match walk A [] (reach o) with
    | (tr, some x) => (tr, .error x)
    | (tr, none) =>
      let r := .call o m a (stored A tr d es).2
      taking A (stored A tr d es).1 [.call r, .extract r] r
  | r => taking A [] (stepsFor [] r) r

end Bindgen.Spec

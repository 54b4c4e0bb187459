import Verif.Spec.RustSyntax
/-!
# Specification: values are not used after they have been moved

In Rust, an argument, the right-hand side of a `let` and the result of a block take the value of a variable away from it, unless the type of
the variable is `Copy`; `&x` and the receivers of the methods below borrow it. A variable without a value cannot be used. The rules are for the expressions
of `RustSyntax.lean` in the order in which they are evaluated. They are strict: variables of a `let` are taken to be `Copy` only if they
are references or tokens for the interpreter. Not checked: how long borrows last.
-/
namespace Bindgen.Spec

/-- Variables, the innermost first: the name, whether its type is `Copy`, and whether it has its value. -/
abbrev MVars := List (Str × Bool × Bool)

/-- Borrow the variable: it must have its value. -/
def MVars.borrow (vs : MVars) (x : Str) : Option MVars :=
  match vs.lookup x with
  | some (_, true) => some vs
  | _ => none

/-- The variable has lost its value; the innermost of this name counts. -/
def MVars.lose (x : Str) : MVars → MVars
  | [] => []
  | (y, c, v) :: vs => if x = y then (y, c, false) :: vs else (y, c, v) :: MVars.lose x vs

/-- Use the variable by value: it must have its value, and loses it unless it is `Copy`. -/
def MVars.take (vs : MVars) (x : Str) : Option MVars :=
  match vs.lookup x with
  | some (true, true) => some vs
  | some (false, true) => some (vs.lose x)
  | _ => none

/-- After two branches, a variable has its value if it has in both. -/
def MVars.join : MVars → MVars → MVars
  | (x, c, v) :: vs, (_, _, w) :: ws => (x, c, v && w) :: MVars.join vs ws
  | _, _ => []

/-- Methods that borrow their receiver. -/
def borrowers : List Str := [c!"as_any", c!"bind", c!"py", c!"import_bound", c!"extend"]

/-- The result is a reference, or a token for the interpreter. -/
def isCopyExpr : RExpr → Bool
  | .method _ m _ => m = c!"bind" || m = c!"py"
  | _ => false

/-- The type is a reference, a number, a truth value, or a token for the interpreter. -/
def isCopyType : RType → Bool
  | .ref _ => true
  | .path false [.mk n []] => n ∈ [c!"bool", c!"f64", c!"i64", c!"u8"]
  | .path true [.mk a [], .mk b [], .mk c [.life _]] => [a, b, c] = [c!"pyo3", c!"marker", c!"Python"]
  | _ => false

mutual
/-- The variables after an expression has been evaluated; nothing, if it uses a variable without its value. -/
def moves (vs : MVars) : RExpr → Option MVars
  | .path false [.mk x []] => vs.take x
  | .path _ _ => none
  | .str _ => some vs
  | .num _ => some vs
  | .unit => some vs
  | .array es => movesAll vs es
  | .ref (.path false [.mk x []]) => vs.borrow x
  | .ref e => moves vs e
  | .try e => moves vs e
  | .call (.path _ _) args => movesAll vs args
  | .call _ _ => none
  | .method (.path false [.mk x []]) m args => if m ∈ borrowers then (vs.borrow x).bind (fun vs => movesAll vs args) else none
  | .method e _ args => (moves vs e).bind (fun vs => movesAll vs args)
  | .mac _ _ args => movesAll vs args
  /- called any number of times: outside of its own variable, nothing may be moved -/
  | .closure x e => ((moves ((x, false, true) :: vs) e).filter (fun ws => decide (ws.tail = vs))).map List.tail
  | .add a b => (moves vs a).bind (fun vs => moves vs b)
  | .block ss e => ((movesStmts vs ss).bind (fun ws => moves ws e)).map (fun ws => ws.drop (ws.length - vs.length))
  | .ifLet _ x e a b =>
    (moves vs e).bind (fun vs => (moves ((x, false, true) :: vs) a).bind (fun ws => (moves vs b).map (fun us => MVars.join ws.tail us)))
/-- The same for several expressions, from left to right. -/
def movesAll (vs : MVars) : List RExpr → Option MVars
  | [] => some vs
  | e :: es => (moves vs e).bind (fun vs => movesAll vs es)
/-- The same for statements. -/
def movesStmts (vs : MVars) : List RStmt → Option MVars
  | [] => some vs
  | .let _ x e :: ss => (moves vs e).bind (fun vs => movesStmts ((x, isCopyExpr e, true) :: vs) ss)
  | .const x _ e :: ss => (moves vs e).bind (fun vs => movesStmts ((x, true, true) :: vs) ss)
  | .expr e :: ss => (moves vs e).bind (fun vs => movesStmts vs ss)
end

/-- The variable of a parameter. -/
def RParam.mvar : RParam → Str × Bool × Bool
  | .self _ => (c!"self", true, true)
  | .typed x t => (x, isCopyType t, true)

/-- No variable of the function is used without its value. -/
def RFn.affine (f : RFn) : Bool := (moves (f.sig.params.map RParam.mvar) f.body).isSome

mutual
/-- The same for all functions of an item. -/
def RItem.affine : RItem → Bool
  | .fn f => f.affine
  | .impl _ _ _ fns => fns.all RFn.affine
  | .mod _ _ _ items => RItem.affineAll items
  | _ => true
/-- The same for items. -/
def RItem.affineAll : List RItem → Bool
  | [] => true
  | i :: is => i.affine && RItem.affineAll is
end

end Bindgen.Spec

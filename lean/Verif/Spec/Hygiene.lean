import Verif.Spec.RustSyntax
import Verif.Spec.Names
/-!
# Specification: the names that Rust code uses without saying where they come from

Rust looks such a name up among the local variables, then among the items of the enclosing module, and only then among what the
language and its prelude provide.
-/
namespace Bindgen.Spec

/-- A name that stands alone or at the start of a relative path: among the values (variables, functions, constructors) or among the types
and modules. -/
inductive Use
  | val (x : Str)
  | typ (x : Str)
  deriving DecidableEq

/-- The start of a relative path to a type, module, or something in them. -/
def headUse : Bool → List RSeg → List Use
  | false, .mk n _ :: _ => [.typ n]
  | _, _ => []

mutual
/-- The names in a type. -/
def RType.uses : RType → List Use
  | .path g segs => headUse g segs ++ RSeg.uses segs
  | .life _ => []
  | .ref t => t.uses
  | .slice t => t.uses
  | .tuple ts => RType.usesAll ts
  | .impl t => t.uses
/-- The names in types. -/
def RType.usesAll : List RType → List Use
  | [] => []
  | t :: ts => t.uses ++ RType.usesAll ts
/-- The names in the arguments of the segments of a path. -/
def RSeg.uses : List RSeg → List Use
  | [] => []
  | .mk _ args :: segs => RType.usesAll args ++ RSeg.uses segs
end

mutual
/-- The names in an expression that are not among the local variables. -/
def RExpr.uses (locals : List Str) : RExpr → List Use
  | .path false [.mk x args] => (if x ∈ locals then [] else [.val x]) ++ RType.usesAll args
  | .path g segs => headUse g segs ++ RSeg.uses segs
  | .str _ => []
  | .num _ => []
  | .unit => []
  | .array es => RExpr.usesAll locals es
  | .ref e => e.uses locals
  | .try e => e.uses locals
  | .call f args => f.uses locals ++ RExpr.usesAll locals args
  | .method e _ args => e.uses locals ++ RExpr.usesAll locals args
  | .mac g segs args => headUse g segs ++ RSeg.uses segs ++ RExpr.usesAll locals args
  | .closure x e => e.uses (x :: locals)
  | .add a b => a.uses locals ++ b.uses locals
  | .block ss e => RStmt.uses locals ss ++ e.uses (RStmt.binds ss ++ locals)
  | .ifLet ctor x e a b => .val ctor :: (e.uses locals ++ a.uses (x :: locals) ++ b.uses locals)
/-- The names in expressions. -/
def RExpr.usesAll (locals : List Str) : List RExpr → List Use
  | [] => []
  | e :: es => e.uses locals ++ RExpr.usesAll locals es
/-- The names in statements. -/
def RStmt.uses (locals : List Str) : List RStmt → List Use
  | [] => []
  | .let _ x e :: ss => e.uses locals ++ RStmt.uses (x :: locals) ss
  | .const x t e :: ss => t.uses ++ e.uses [] ++ RStmt.uses (x :: locals) ss
  | .expr e :: ss => e.uses locals ++ RStmt.uses locals ss
/-- The variables (and constants) of statements. -/
def RStmt.binds : List RStmt → List Str
  | [] => []
  | .let _ x _ :: ss => RStmt.binds ss ++ [x]
  | .const x _ _ :: ss => RStmt.binds ss ++ [x]
  | .expr _ :: ss => RStmt.binds ss
end

mutual
/-- The variables that are bound by patterns in an expression. Rust rejects such a variable if a tuple struct of its name is in scope. -/
def RExpr.vars : RExpr → List Str
  | .path _ _ => []
  | .str _ => []
  | .num _ => []
  | .unit => []
  | .array es => RExpr.varsAll es
  | .ref e => e.vars
  | .try e => e.vars
  | .call f args => f.vars ++ RExpr.varsAll args
  | .method e _ args => e.vars ++ RExpr.varsAll args
  | .mac _ _ args => RExpr.varsAll args
  | .closure x e => x :: e.vars
  | .add a b => a.vars ++ b.vars
  | .block ss e => RStmt.vars ss ++ e.vars
  | .ifLet _ x e a b => x :: (e.vars ++ a.vars ++ b.vars)
/-- The variables bound in expressions. -/
def RExpr.varsAll : List RExpr → List Str
  | [] => []
  | e :: es => e.vars ++ RExpr.varsAll es
/-- The variables bound in statements. -/
def RStmt.vars : List RStmt → List Str
  | [] => []
  | .let _ x e :: ss => x :: (e.vars ++ RStmt.vars ss)
  | .const _ _ e :: ss => e.vars ++ RStmt.vars ss
  | .expr e :: ss => e.vars ++ RStmt.vars ss
end

/-- The name of a parameter. -/
def RParam.name : RParam → Str
  | .self _ => c!"self"
  | .typed x _ => x

/-- The names in the type of a parameter. -/
def RParam.uses : RParam → List Use
  | .self _ => []
  | .typed _ t => t.uses

/-- The names in a signature. -/
def RSig.uses (s : RSig) : List Use := s.params.flatMap RParam.uses ++ s.ret.uses

/-- The names in a function. -/
def RFn.uses (f : RFn) : List Use := f.sig.uses ++ f.body.uses (f.sig.params.map RParam.name)

/-- The variables bound in a function. `self` is a keyword. -/
def RFn.vars (f : RFn) : List Str :=
  f.sig.params.flatMap (fun p => match p with | .self _ => [] | .typed x _ => [x]) ++ f.body.vars

/-- The name under which a path is imported. -/
def importedName (path : List Str) (as : Option Str) : List Str :=
  match as with
  | some a => [a]
  | none => path.getLast?.toList

/-- The names that an item defines or imports among the types and modules of its scope. What an import refers to is not looked up. -/
def RItem.types : RItem → List Str
  | .use _ _ _ path as => importedName path as
  | .useGroup _ _ _ _ names => names
  | .mod _ _ n _ => [n]
  | .typeAlias _ _ n _ => [n]
  | .struct _ _ n _ => [n]
  | .trait _ _ n _ => [n]
  | _ => []

/-- The names that an item defines or imports among the values of its scope; `struct C(T);` defines a constructor. -/
def RItem.values : RItem → List Str
  | .use _ _ _ path as => importedName path as
  | .useGroup _ _ _ _ names => names
  | .struct _ _ n _ => [n]
  | .fn f => [f.sig.name]
  | _ => []

/-- The names of tuple structs that an item defines, and the names of its imports, which may be tuple structs. -/
def RItem.tupleStructs : RItem → List Str
  | .use _ _ _ path as => importedName path as
  | .useGroup _ _ _ _ names => names
  | .struct _ _ n _ => [n]
  | _ => []

/-- The functions with a body of an item, not of modules inside it. -/
def RItem.fns : RItem → List RFn
  | .fn f => [f]
  | .impl _ _ _ fns => fns
  | _ => []

/-- Nothing in the scope has this name (`r#` aside). -/
def Unshadowed (scope : List RItem) : Use → Prop
  | .val x => ∀ i ∈ scope, x ∉ i.values.map unraw
  | .typ x => ∀ i ∈ scope, x ∉ i.types.map unraw

/-- The names that Rust provides and the bindings use: of types, of a constructor, and of a crate. -/
def builtin : List Use :=
  [.typ c!"bool", .typ c!"f64", .typ c!"i64", .typ c!"u8", .typ c!"str", .typ c!"Vec", .val c!"Some", .typ c!"pyo3"]

/-- In this scope the names that Rust provides mean what Rust provides, and variables can be bound. -/
def Hygienic (scope : List RItem) : Prop :=
  ∀ i ∈ scope, ∀ f ∈ i.fns,
    (∀ u ∈ f.uses, u ∈ builtin → Unshadowed scope u) ∧ ∀ x ∈ f.vars, ∀ j ∈ scope, x ∉ j.tupleStructs.map unraw

/-- The scopes of a file: the items of the file, and of its modules. -/
inductive ScopeOf (scope : List RItem) : List RItem → Prop
  | here : ScopeOf scope scope
  | mod {l inner : List RItem} (as : List RAttr) (pub : Bool) (n : Str) : .mod as pub n inner ∈ l → ScopeOf scope inner → ScopeOf scope l

end Bindgen.Spec

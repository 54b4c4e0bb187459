import Verif.Model.Emit
import Verif.Spec.RustSyntax
/-!
# Specification: what the emitted items say in Rust

For every emitted type, expression, function and item, the syntax tree it stands for.
-/
namespace Bindgen
open Spec

/-! ## Types -/

/-- A path of identifiers. -/
def names (l : List Str) : List RSeg := l.map (fun s => .mk s [])

/-- A type with arguments. -/
def gen (g : Bool) (l : List Str) (last : Str) (args : List RType) : RType := .path g (names l ++ [.mk last args])

/-- The tree of a path. -/
def Path.tree (p : Path) : RType := .path p.leadingColon (names (p.segs.map (fun s => lexTrim s.rs)))

mutual
/-- The tree of a type. -/
def RsTy.tree : RsTy → RType
  | .bool => .path false (names [c!"bool"])
  | .f64 => .path false (names [c!"f64"])
  | .i64 => .path false (names [c!"i64"])
  | .u8 => .path false (names [c!"u8"])
  | .string => .path true (names [c!"std", c!"string", c!"String"])
  | .strRef => .ref (.path false (names [c!"str"]))
  | .option t => gen true [c!"std", c!"option"] c!"Option" [t.tree]
  | .hashMap k v => gen true [c!"std", c!"collections"] c!"HashMap" [k.tree, v.tree]
  | .hashSet t => gen true [c!"std", c!"collections"] c!"HashSet" [t.tree]
  | .vec t => gen false [] c!"Vec" [t.tree]
  | .slice t => .ref (.slice t.tree)
  | .ref t => .ref t.tree
  | .tuple ts => .tuple (RsTy.trees ts)
  | .stdNet n => .path true (names [c!"std", c!"net", n])
  | .pathBuf => .path true (names [c!"std", c!"path", c!"PathBuf"])
  | .path => .path true (names [c!"std", c!"path", c!"Path"])
  | .bound n => gen true [c!"pyo3"] c!"Bound" [.life c!"py", .path true (names [c!"pyo3", c!"types", n])]
  | .boundLocal p => gen true [c!"pyo3"] c!"Bound" [.life c!"py", p.tree]
  | .boundNumpy =>
    gen true [c!"pyo3"] c!"Bound" [.life c!"py", gen true [c!"numpy"] c!"PyArray"
      [gen true [c!"pyo3"] c!"Py" [.path true (names [c!"pyo3", c!"types", c!"PyAny"])], .path true (names [c!"numpy", c!"IxDyn"])]]
  | .implIntoPy n =>
    .impl (gen true [c!"pyo3"] c!"IntoPy" [gen true [c!"pyo3"] c!"Py" [.path true (names [c!"pyo3", c!"types", n])]])
  | .implIntoPyDict => .impl (.path true (names [c!"pyo3", c!"types", c!"IntoPyDict"]))
/-- The trees of types. -/
def RsTy.trees : List RsTy → List RType
  | [] => []
  | t :: ts => t.tree :: RsTy.trees ts
end

/-! ## Expressions -/

/-- A variable. -/
def var (x : Str) : RExpr := .path false (names [x])

/-- `::a::b(args)` -/
def absCall (l : List Str) (args : List RExpr) : RExpr := .call (.path true (names l)) args

/-- A function of `::pyo3::types::PyAnyMethods`. -/
def anyCall (m : Str) (args : List RExpr) : RExpr := absCall [c!"pyo3", c!"types", c!"PyAnyMethods", m] args

/-- `::pyo3::intern!(py, name)` -/
def internTree (name : Str) : RExpr := .mac true (names [c!"pyo3", c!"intern"]) [var c!"py", .str name]

/-- The tree of a receiver. -/
def Obj.tree : Obj → RExpr
  | .self => var c!"self"
  | .import pkg => .try (.method (var c!"py") c!"import_bound" [internTree pkg])
  | .getattr o name => .try (anyCall c!"getattr" [.method o.tree c!"as_any" [], internTree name])

/-- `o.as_any()` -/
def Obj.asAny (o : Obj) : RExpr := .method o.tree c!"as_any" []

/-- `::pyo3::types::PyDict::new_bound(py)` -/
def newDict : RExpr := absCall [c!"pyo3", c!"types", c!"PyDict", c!"new_bound"] [var c!"py"]

/-- `into_py_dict_bound(x, py)` -/
def intoDictTree (x : Str) : RExpr := absCall [c!"pyo3", c!"types", c!"IntoPyDict", c!"into_py_dict_bound"] [var x, var c!"py"]

/-- `IntoPy::<Py<t>>::into_py(x, py)` -/
def intoPyTree (t x : Str) : RExpr :=
  .call (.path true [.mk c!"pyo3" [], .mk c!"IntoPy" [gen true [c!"pyo3"] c!"Py" [.path true (names [c!"pyo3", c!"types", t])]],
    .mk c!"into_py" []]) [var x, var c!"py"]

/-- The trees of a conversion. -/
def preTree (x : Str) : Pre → List RStmt
  | .none => []
  | .intoDict => [.let false x (intoDictTree x)]
  | .intoTuple => [.let false x (intoPyTree c!"PyTuple" x), .let false x (.method (var x) c!"bind" [var c!"py"])]
  | .intoAny => [.let false x (intoPyTree c!"PyAny" x), .let false x (.method (var x) c!"bind" [var c!"py"])]
  | .optDict => [.let false x (.ifLet c!"Some" x (var x) (.block [] (intoDictTree x)) (.block [] newDict))]

/-- `to_object(&x, py)` -/
def toObjectTree (x : Str) : RExpr := absCall [c!"pyo3", c!"ToPyObject", c!"to_object"] [.ref (var x), var c!"py"]

/-- `PyTuple::new_bound(py, e)` -/
def newTuple (e : RExpr) : RExpr := absCall [c!"pyo3", c!"types", c!"PyTuple", c!"new_bound"] [var c!"py", e]

/-- The tree of the positional arguments. -/
def Pos.tree : Pos → RExpr
  | .unit => .unit
  | .var x => Bindgen.var x
  | .tuple xs => newTuple (.array (xs.map toObjectTree))
  | .tupleVar xs x => .block
      [.let true c!"__internal__args" (.call (.path false (names [c!"Vec", c!"with_capacity"]))
        [.add (.num xs.length) (absCall [c!"pyo3", c!"types", c!"PyTupleMethods", c!"len"] [Bindgen.var x])]),
       .expr (.method (Bindgen.var c!"__internal__args") c!"extend" [.array (xs.map toObjectTree)]),
       .expr (.method (Bindgen.var c!"__internal__args") c!"extend"
        [.method (absCall [c!"pyo3", c!"types", c!"PyTupleMethods", c!"iter"] [Bindgen.var x]) c!"map"
          [.closure c!"__internal__arg" (toObjectTree c!"__internal__arg")]])]
      (newTuple (Bindgen.var c!"__internal__args"))

/-- The trees of the `set_item` statements. -/
def setItemsTree (items : List (Str × Str)) : List RStmt :=
  items.map (fun kx => .expr (absCall [c!"pyo3", c!"types", c!"PyDictMethods", c!"set_item"]
    [.ref (var c!"__internal__kwargs"), internTree kx.1, var kx.2]))

/-- The tree of the keyword arguments. -/
def Kw.tree : Kw → RExpr
  | .fresh => newDict
  | .var x => Bindgen.var x
  | .freshSet items => .block (.let false c!"__internal__kwargs" newDict :: setItemsTree items) (Bindgen.var c!"__internal__kwargs")
  | .varSet x items => .block (.let false c!"__internal__kwargs" (Bindgen.var x) :: setItemsTree items) (Bindgen.var c!"__internal__kwargs")

/-- The tree of the call. -/
def callTree (obj : Obj) : Option Str → Option Pos → Option Kw → RExpr
  | none, pos, some kw => anyCall c!"call" [obj.asAny, (pos.getD .unit).tree, .call (var c!"Some") [.ref kw.tree]]
  | none, some pos, none => anyCall c!"call1" [obj.asAny, pos.tree]
  | none, none, none => anyCall c!"call0" [obj.asAny]
  | some m, pos, some kw =>
    anyCall c!"call_method" [obj.asAny, internTree m, (pos.getD .unit).tree, .call (var c!"Some") [.ref kw.tree]]
  | some m, some pos, none => anyCall c!"call_method1" [obj.asAny, internTree m, pos.tree]
  | some m, none, none => anyCall c!"call_method0" [obj.asAny, internTree m]

/-- The tree of the last expression. -/
def Body.tree : Body → RExpr
  | .call obj meth pos kw => anyCall c!"extract" [.ref (.try (callTree obj meth pos kw))]
  | .getattr .self name =>
    anyCall c!"extract" [.ref (.try (anyCall c!"getattr" [Obj.asAny .self,
      .mac true (names [c!"pyo3", c!"intern"]) [.method (var c!"self") c!"py" [], .str name]]))]
  | .getattr obj name => anyCall c!"extract" [.ref (.try (anyCall c!"getattr" [obj.asAny, internTree name]))]
  | .setattr obj name x => anyCall c!"setattr" [obj.asAny, internTree name, var x]

/-! ## Items -/

/-- `name` or `name` with arguments, as an attribute. -/
def attr (name : Str) (args : List Tok) : RAttr := ⟨names [name], args⟩

/-- `#[doc = …]`, if there is documentation. -/
def docTrees : Option Str → List RAttr
  | none => []
  | some d => [attr c!"doc" [.p .eq, .str d]]

/-- The tree of the first parameter. -/
def Recv.tree : Recv → RParam
  | .py => .typed c!"py" (gen true [c!"pyo3", c!"marker"] c!"Python" [.life c!"py"])
  | .self => .self c!"py"

/-- The tree of the result type. -/
def Ret.tree : Ret → RType
  | .ty t => t.tree
  | .selfBound => gen true [c!"pyo3"] c!"Bound" [.life c!"py", .path false (names [c!"Self"])]
  | .unit => .tuple []

/-- The tree of a signature. -/
def Sig.tree (s : Sig) : RSig :=
  ⟨s.pub, s.name, [c!"py"], s.recv.tree :: s.params.map (fun p => .typed p.1 p.2.tree), gen true [c!"pyo3"] c!"PyResult" [s.ret.tree]⟩

/-- The tree of a function. -/
def Fn.tree (f : Fn) : RFn :=
  ⟨docTrees f.doc, f.sig.tree,
    .block ((if f.letPy then [.let false c!"py" (.method (var c!"self") c!"py" [])] else []) ++ f.pre.flatMap (fun xp => preTree xp.1 xp.2))
      f.body.tree⟩

/-- First line of the documentation of the trait of a class. -/
def traitDoc1 : Str := c!" These methods are defined for the `Bound<'py, T>` smart pointer, so to use"
/-- Second line. -/
def traitDoc2 : Str := c!" method call syntax these methods are separated into a trait, because stable"
/-- Third line. -/
def traitDoc3 : Str := c!" Rust does not yet support `arbitrary_self_types`."

/-- The trees of a class. -/
def ClassItem.trees (c : ClassItem) : List RItem :=
  [.struct (docTrees c.doc ++ [attr c!"repr" t!"(transparent)"]) true c.name [.path true (names [c!"pyo3", c!"PyAny"])],
   .mac true (names [c!"pyo3", c!"pyobject_native_type_named"]) [.id c.name],
   .mac true (names [c!"pyo3", c!"pyobject_native_type_info"]) ([.id c.name] ++
      t!", ::pyo3::pyobject_native_static_type_object!(::pyo3::ffi::PyBaseObject_Type), ::std::option::Option::Some" ++
      [.paren [.str c.objName]]),
   .impl [attr c!"automatically_derived" []] none (.path false (names [c.name])) (c.inherent.map Fn.tree),
   .trait (docTrees (some traitDoc1) ++ docTrees (some traitDoc2) ++ docTrees (some traitDoc3) ++
      [attr c!"doc" [.paren (t!"alias =" ++ [.str c.name])], attr c!"automatically_derived" []]) true c.traitName
      (c.traitSigs.map Sig.tree),
   .impl [attr c!"automatically_derived" []] (some (.path false (names [c.traitName])))
     (gen true [c!"pyo3"] c!"Bound" [.life c!"_", .path false (names [c.name])]) (c.traitImpls.map Fn.tree)]

/-- The tree of the function that embeds a source. -/
def embedTree (source name file : Str) : RFn :=
  ⟨docTrees (some c!" Embed the Python source code of the module into the Python interpreter") ++
    docTrees (some c!" in order to enable the use of the generated Rust bindings."),
   ⟨true, c!"pyo3_embed_python_source_code", [c!"py"],
    [.typed c!"py" (gen true [c!"pyo3", c!"marker"] c!"Python" [.life c!"py"])], gen true [c!"pyo3"] c!"PyResult" [.tuple []]⟩,
   .block [.const c!"SOURCE_CODE" (.ref (.path false (names [c!"str"]))) (.str source)]
    (.call (.path false (names [c!"pyo3", c!"types", c!"PyAnyMethods", c!"set_item"]))
      [.ref (.try (.call (.path false (names [c!"pyo3", c!"types", c!"PyAnyMethods", c!"getattr"]))
        [.method (.try (.method (var c!"py") c!"import_bound" [.mac false (names [c!"pyo3", c!"intern"]) [var c!"py", .str c!"sys"]]))
          c!"as_any" [], .mac false (names [c!"pyo3", c!"intern"]) [var c!"py", .str c!"modules"]])),
       .str name,
       .try (.call (.path false (names [c!"pyo3", c!"types", c!"PyModule", c!"from_code_bound"]))
        [var c!"py", var c!"SOURCE_CODE", .str file, .str name])])⟩

/-- The lints that are switched off in top-level modules. -/
def lintAttr : List RAttr :=
  [attr c!"allow" t!"(clippy::all, clippy::nursery, clippy::pedantic, non_camel_case_types, non_snake_case, non_upper_case_globals, unused)"]

mutual
/-- The trees of an item. -/
def Item.trees : Item → List RItem
  | .use p a => [.use [] true p.leadingColon (p.segs.map (fun s => lexTrim s.rs)) a]
  | .prelude n es => [.mod [] true n [.useGroup [] true false [c!"super"] es]]
  | .typeAlias n => [.typeAlias [] true n (.path true (names [c!"pyo3", c!"types", c!"PyAny"]))]
  | .class c => c.trees
  | .func f => [.fn f.tree]
  | .prop f => [.fn { f.tree with sig := { f.sig.tree with pub := true } }]
  | .strayPub => []
  | .embed source name file => [.fn (embedTree source name file)]
  | .mod top doc n items => [.mod ((if top then lintAttr else []) ++ docTrees doc) true n (Item.treesList items)]
/-- The trees of items. -/
def Item.treesList : List Item → List RItem
  | [] => []
  | i :: is => i.trees ++ Item.treesList is
end

end Bindgen

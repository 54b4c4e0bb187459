import Verif.Model.Emit
import Verif.Model.Token
/-!
# The token streams of the emitted items

What the `quote!` templates expand to, for the syntax trees of `Rust.lean` and `Emit.lean`.
-/
namespace Bindgen

/-- The segments of a `syn::Path` — path.rs:260-272: white space around a segment is dropped by the lexer. -/
def segToks : List Ident → List Tok
  | [] => []
  | [s] => [Tok.ident (lexTrim s.rs)]
  | s :: ss => Tok.ident (lexTrim s.rs) :: t!"::" ++ segToks ss

/-- `#path` for a `syn::Path` — path.rs:260-272. -/
def Path.toks (p : Path) : List Tok := (if p.leadingColon then t!"::" else []) ++ segToks p.segs

mutual
/-- The types — into_rs.rs:99-368. -/
def RsTy.toks : RsTy → List Tok
  | .bool => t!"bool"
  | .f64 => t!"f64"
  | .i64 => t!"i64"
  | .u8 => t!"u8"
  | .string => t!"::std::string::String"
  | .strRef => t!"&str"
  | .option t => t!"::std::option::Option<" ++ t.toks ++ t!">"
  | .hashMap k v => t!"::std::collections::HashMap<" ++ k.toks ++ t!"," ++ v.toks ++ t!">"
  | .hashSet t => t!"::std::collections::HashSet<" ++ t.toks ++ t!">"
  | .vec t => t!"Vec<" ++ t.toks ++ t!">"
  | .slice t => t!"&" ++ [.bracket t.toks]
  | .ref t => t!"&" ++ t.toks
  | .tuple ts => [.paren (RsTy.toksList ts)]
  | .stdNet n => t!"::std::net::" ++ [Tok.ident n]
  | .pathBuf => t!"::std::path::PathBuf"
  | .path => t!"::std::path::Path"
  | .bound n => t!"::pyo3::Bound<'py, ::pyo3::types::" ++ [Tok.ident n] ++ t!">"
  | .boundLocal p => t!"::pyo3::Bound<'py," ++ p.toks ++ t!">"
  | .boundNumpy =>
    t!"::pyo3::Bound<'py, ::numpy::PyArray<::pyo3::Py<::pyo3::types::PyAny>, ::numpy::IxDyn>,>"
  | .implIntoPy n => t!"impl ::pyo3::IntoPy<::pyo3::Py<::pyo3::types::" ++ [Tok.ident n] ++ t!">>"
  | .implIntoPyDict => t!"impl ::pyo3::types::IntoPyDict"

/-- `#(#inner_types),*` — into_rs.rs:200. -/
def RsTy.toksList : List RsTy → List Tok
  | [] => []
  | [t] => t.toks
  | t :: u :: ts => t.toks ++ t!"," ++ RsTy.toksList (u :: ts)
end

/-- `#[doc = #docstring]` — function.rs:332-334, class.rs:156-158, module.rs:345-347, property.rs:208-210, 299-301. -/
def docToks : Option Str → List Tok
  | some d => t!"#" ++ [.bracket (t!"doc =" ++ [.str d])]
  | none => []

/-- The first parameter — function.rs:397, 422, 447, 455, property.rs:256, 270, 333, 349. -/
def Recv.toks : Recv → List Tok
  | .py => t!"py: ::pyo3::marker::Python<'py>"
  | .self => t!"&'py self"

/-- The type in `::pyo3::PyResult<…>` — function.rs:399, 424, 449, 457, property.rs:257, 271, 335, 351. -/
def Ret.toks : Ret → List Tok
  | .ty t => t.toks
  | .selfBound => t!"::pyo3::Bound<'py, Self>"
  | .unit => t!"()"

/-- `#(#param_idents: #param_types),*` — function.rs:398, 423, 448, 456. -/
def paramToks : List (Str × RsTy) → List Tok
  | [] => []
  | [(x, t)] => [Tok.ident x] ++ t!":" ++ t.toks
  | (x, t) :: ps => [Tok.ident x] ++ t!":" ++ t.toks ++ t!"," ++ paramToks ps

/-- A signature — function.rs:395-458, property.rs:255-257, 269-271, 332-335, 348-351. A setter (it returns `()`) has a comma
after its last parameter. -/
def Sig.toks (s : Sig) : List Tok :=
  (if s.pub then t!"pub" else []) ++ t!"fn" ++ [Tok.ident s.name] ++ t!"<'py>" ++
    [.paren (s.recv.toks ++ t!"," ++ paramToks s.params ++ (if s.ret = .unit then t!"," else []))] ++
    t!"-> ::pyo3::PyResult<" ++ s.ret.toks ++ t!">"

/-- `::pyo3::intern!(py, #name)` — path.rs:222-224, function.rs:587-639, property.rs:259, 337, 356. -/
def internToks (name : Str) : List Tok := t!"::pyo3::intern!" ++ [.paren (t!"py," ++ [.str name])]

/-- The receiver of the call — path.rs:220-226, function.rs:490-492. -/
def Obj.toks : Obj → List Tok
  | .self => t!"self"
  | .import pkg => t!"py.import_bound" ++ [.paren (internToks pkg)] ++ t!"?"
  | .getattr o name =>
    t!"::pyo3::types::PyAnyMethods::getattr" ++ [.paren (o.toks ++ t!".as_any()," ++ internToks name)] ++ t!"?"

/-- The conversion of a parameter — into_rs.rs:36-92. -/
def preToks (x : Str) : Pre → List Tok
  | .none => []
  | .intoDict =>
    t!"let" ++ [Tok.ident x] ++ t!"= ::pyo3::types::IntoPyDict::into_py_dict_bound" ++ [.paren ([Tok.ident x] ++ t!", py")] ++ t!";"
  | .intoTuple =>
    t!"let" ++ [Tok.ident x] ++ t!"= ::pyo3::IntoPy::<::pyo3::Py<::pyo3::types::PyTuple>>::into_py" ++
      [.paren ([Tok.ident x] ++ t!", py")] ++ t!";" ++
    t!"let" ++ [Tok.ident x] ++ t!"=" ++ [Tok.ident x] ++ t!".bind(py);"
  | .intoAny =>
    t!"let" ++ [Tok.ident x] ++ t!"= ::pyo3::IntoPy::<::pyo3::Py<::pyo3::types::PyAny>>::into_py" ++
      [.paren ([Tok.ident x] ++ t!", py")] ++ t!";" ++
    t!"let" ++ [Tok.ident x] ++ t!"=" ++ [Tok.ident x] ++ t!".bind(py);"
  | .optDict =>
    t!"let" ++ [Tok.ident x] ++ t!"= if let Some" ++ [.paren [Tok.ident x]] ++ t!"=" ++ [Tok.ident x] ++
      [.brace (t!"::pyo3::types::IntoPyDict::into_py_dict_bound" ++ [.paren ([Tok.ident x] ++ t!", py")])] ++
      t!"else { ::pyo3::types::PyDict::new_bound(py) };"

/-- `::pyo3::ToPyObject::to_object(&x, py)` — function.rs:536-537, 553. -/
def toObjectToks (x : Str) : List Tok := t!"::pyo3::ToPyObject::to_object" ++ [.paren (t!"&" ++ [Tok.ident x] ++ t!", py")]

/-- `[#(::pyo3::ToPyObject::to_object(&#x, py),)*]` — function.rs:536, 553. -/
def toObjectsToks (xs : List Str) : Tok := .bracket (xs.flatMap (fun x => toObjectToks x ++ t!","))

/-- The positional arguments — function.rs:526-556. -/
def Pos.toks : Pos → List Tok
  | .unit => t!"()"
  | .var x => [Tok.ident x]
  | .tuple xs => t!"::pyo3::types::PyTuple::new_bound" ++ [.paren (t!"py," ++ [toObjectsToks xs] ++ t!",")]
  | .tupleVar xs x =>
    [.brace (
      t!"let mut __internal__args = Vec::with_capacity" ++
        [.paren ([.num xs.length] ++ t!"+ ::pyo3::types::PyTupleMethods::len" ++ [.paren [Tok.ident x]])] ++ t!";" ++
      t!"__internal__args.extend" ++ [.paren [toObjectsToks xs]] ++ t!";" ++
      t!"__internal__args.extend" ++ [.paren (t!"::pyo3::types::PyTupleMethods::iter" ++ [.paren [Tok.ident x]] ++ t!".map" ++
        [.paren (t!"|__internal__arg|" ++ toObjectToks c!"__internal__arg")])] ++ t!";" ++
      t!"::pyo3::types::PyTuple::new_bound(py, __internal__args,)")]

/-- The `set_item` statements — function.rs:586-588, 601-603. -/
def setItemsToks (items : List (Str × Str)) : List Tok :=
  items.flatMap (fun (k, x) =>
    t!"::pyo3::types::PyDictMethods::set_item" ++
      [.paren (t!"&__internal__kwargs," ++ internToks k ++ t!"," ++ [Tok.ident x])] ++ t!";")

/-- The keyword arguments — function.rs:577-607. -/
def Kw.toks : Kw → List Tok
  | .fresh => t!"::pyo3::types::PyDict::new_bound(py)"
  | .var x => [Tok.ident x]
  | .freshSet items =>
    [.brace (t!"let __internal__kwargs = ::pyo3::types::PyDict::new_bound(py);" ++ setItemsToks items ++ t!"__internal__kwargs")]
  | .varSet x items =>
    [.brace (t!"let __internal__kwargs =" ++ [Tok.ident x] ++ t!";" ++ setItemsToks items ++ t!"__internal__kwargs")]

/-- The call — function.rs:608-642. -/
def callToks (obj : Obj) : Option Str → Option Pos → Option Kw → List Tok
  | none, pos, some kw =>
    t!"::pyo3::types::PyAnyMethods::call" ++
      [.paren (obj.toks ++ t!".as_any()," ++ (pos.getD .unit).toks ++ t!", Some" ++ [.paren (t!"&" ++ kw.toks)])]
  | none, some pos, none => t!"::pyo3::types::PyAnyMethods::call1" ++ [.paren (obj.toks ++ t!".as_any()," ++ pos.toks)]
  | none, none, none => t!"::pyo3::types::PyAnyMethods::call0" ++ [.paren (obj.toks ++ t!".as_any()")]
  | some m, pos, some kw =>
    t!"::pyo3::types::PyAnyMethods::call_method" ++
      [.paren (obj.toks ++ t!".as_any()," ++ internToks m ++ t!"," ++ (pos.getD .unit).toks ++ t!", Some" ++
        [.paren (t!"&" ++ kw.toks)])]
  | some m, some pos, none =>
    t!"::pyo3::types::PyAnyMethods::call_method1" ++ [.paren (obj.toks ++ t!".as_any()," ++ internToks m ++ t!"," ++ pos.toks)]
  | some m, none, none =>
    t!"::pyo3::types::PyAnyMethods::call_method0" ++ [.paren (obj.toks ++ t!".as_any()," ++ internToks m)]

/-- The last expression of a body — function.rs:649-651, property.rs:258-260, 276-278, 337, 356. -/
def Body.toks : Body → List Tok
  | .call obj meth pos kw => t!"::pyo3::types::PyAnyMethods::extract" ++ [.paren (t!"&" ++ callToks obj meth pos kw ++ t!"?")]
  | .getattr .self name =>
    t!"::pyo3::types::PyAnyMethods::extract" ++
      [.paren (t!"& ::pyo3::types::PyAnyMethods::getattr" ++
        [.paren (t!"self.as_any(), ::pyo3::intern!" ++ [.paren (t!"self.py()," ++ [.str name])])] ++ t!"?")]
  | .getattr obj name =>
    t!"::pyo3::types::PyAnyMethods::extract" ++
      [.paren (t!"& ::pyo3::types::PyAnyMethods::getattr" ++ [.paren (obj.toks ++ t!".as_any()," ++ internToks name)] ++ t!"?")]
  | .setattr obj name x =>
    t!"::pyo3::types::PyAnyMethods::setattr" ++ [.paren (obj.toks ++ t!".as_any()," ++ internToks name ++ t!"," ++ [Tok.ident x])]

/-- A function — function.rs:326-653, property.rs:204-280, 295-358. -/
def Fn.toks (f : Fn) : List Tok :=
  docToks f.doc ++ f.sig.toks ++
    [.brace ((if f.letPy then t!"let py = self.py();" else []) ++ f.pre.flatMap (fun (x, p) => preToks x p) ++ f.body.toks)]

/-- First line of the documentation of the trait — class.rs:288. -/
def methodsDoc1 : Str := c!" These methods are defined for the `Bound<'py, T>` smart pointer, so to use"
/-- Second line — class.rs:289. -/
def methodsDoc2 : Str := c!" method call syntax these methods are separated into a trait, because stable"
/-- Third line — class.rs:290. -/
def methodsDoc3 : Str := c!" Rust does not yet support `arbitrary_self_types`."

/-- The structure of a class — class.rs:154-160, 188-191. -/
def ClassItem.structToks (c : ClassItem) : List Tok :=
  docToks c.doc ++ t!"#[repr(transparent)] pub struct" ++ [Tok.ident c.name] ++ t!"(::pyo3::PyAny);"

/-- The macros of pyo3 for a class — class.rs:197. -/
def ClassItem.namedToks (c : ClassItem) : List Tok :=
  t!"::pyo3::pyobject_native_type_named!" ++ [.paren [Tok.ident c.name]] ++ t!";"

/-- The macros of pyo3 for a class — class.rs:198-202. -/
def ClassItem.infoToks (c : ClassItem) : List Tok :=
  t!"::pyo3::pyobject_native_type_info!" ++
    [.paren ([Tok.ident c.name] ++
      t!", ::pyo3::pyobject_native_static_type_object!(::pyo3::ffi::PyBaseObject_Type), ::std::option::Option::Some" ++
      [.paren [.str c.objName]])] ++ t!";"

/-- The methods without `self` — class.rs:276-281. -/
def ClassItem.implToks (c : ClassItem) : List Tok :=
  t!"#[automatically_derived] impl" ++ [Tok.ident c.name] ++ [.brace (c.inherent.flatMap Fn.toks)]

/-- The trait — class.rs:288-295. -/
def ClassItem.traitToks (c : ClassItem) : List Tok :=
  docToks (some methodsDoc1) ++ docToks (some methodsDoc2) ++ docToks (some methodsDoc3) ++
  t!"#" ++ [.bracket (t!"doc" ++ [.paren (t!"alias =" ++ [.str c.name])])] ++
  t!"#[automatically_derived] pub trait" ++ [Tok.ident c.traitName] ++
    [.brace (c.traitSigs.flatMap (fun s => s.toks ++ t!";"))]

/-- The methods of the trait — class.rs:296-299. -/
def ClassItem.traitImplToks (c : ClassItem) : List Tok :=
  t!"#[automatically_derived] impl" ++ [Tok.ident c.traitName] ++ t!"for ::pyo3::Bound<'_," ++ [Tok.ident c.name] ++ t!">" ++
    [.brace (c.traitImpls.flatMap Fn.toks)]

/-- A class — class.rs:150-302. -/
def ClassItem.toks (c : ClassItem) : List Tok :=
  c.structToks ++ (c.namedToks ++ (c.infoToks ++ (c.implToks ++ (c.traitToks ++ c.traitImplToks))))

/-- `#[allow(…)]` of top-level modules — module.rs:329-339. -/
def allowToks : List Tok :=
  t!"#[allow(clippy::all, clippy::nursery, clippy::pedantic, non_camel_case_types, non_snake_case, non_upper_case_globals, unused)]"

/-- The function that embeds a source — module.rs:482-501. -/
def embedToks (source name file : Str) : List Tok :=
  docToks (some c!" Embed the Python source code of the module into the Python interpreter") ++
  docToks (some c!" in order to enable the use of the generated Rust bindings.") ++
  t!"pub fn pyo3_embed_python_source_code<'py>(py: ::pyo3::marker::Python<'py>) -> ::pyo3::PyResult<()>" ++
  [.brace (
    t!"const SOURCE_CODE: &str =" ++ [.str source] ++ t!";" ++
    t!"pyo3::types::PyAnyMethods::set_item" ++ [.paren (
      t!"& pyo3::types::PyAnyMethods::getattr(py.import_bound(pyo3::intern!(py, \"sys\"))?.as_any(), pyo3::intern!(py, \"modules\"),)?," ++
      [.str name] ++
      t!", pyo3::types::PyModule::from_code_bound" ++ [.paren (t!"py, SOURCE_CODE," ++ [.str file] ++ t!"," ++ [.str name] ++ t!",")] ++
      t!"?,")])]

mutual
/-- An item — import.rs:60-62, module.rs:319-521, 666-670, type_var.rs:16-18, property.rs:163, 170. -/
def Item.toks : Item → List Tok
  | .use p none => t!"pub use" ++ p.toks ++ t!";"
  | .use p (some a) => t!"pub use" ++ p.toks ++ t!"as" ++ [Tok.ident a] ++ t!";"
  | .prelude n exports =>
    t!"pub mod" ++ [Tok.ident n] ++
      [.brace (t!"pub use super::" ++ [.brace (exports.flatMap (fun e => [Tok.ident e] ++ t!","))] ++ t!";")]
  | .typeAlias n => t!"pub type" ++ [Tok.ident n] ++ t!"= ::pyo3::types::PyAny;"
  | .class c => c.toks
  | .func f => f.toks
  | .prop f => t!"pub" ++ f.toks
  | .strayPub => t!"pub"
  | .embed source name file => embedToks source name file
  | .mod allow doc name items =>
    (if allow then allowToks else []) ++ docToks doc ++ t!"pub mod" ++ [Tok.ident name] ++ [.brace (Item.toksList items)]

/-- Items in order — codegen.rs:144-156, module.rs:352-477. -/
def Item.toksList : List Item → List Tok
  | [] => []
  | i :: is => i.toks ++ Item.toksList is
end

end Bindgen

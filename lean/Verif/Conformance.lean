import Verif.Model.Io
import Verif.Model.Print
import Verif.Spec.Lexer
/-!
# The tests of the repository, run on the model

The three tests of pyo3_bindgen_engine/tests/bindgen.rs:36-308 compare the bindings of a Python source with a Rust file.  Here the same
comparison is made for the model.  These are tests, not proofs: they show that the model, the templates in `Model/Render.lean` and the
snapshots are what the authors of the code expect.

The snapshots were written by `tools/snapshot.py` with a real interpreter, from the Python sources of the tests; the Rust files are
copied from the tests.  As in the tests, the comparison ignores what `prettyplease` decides: white space, commas before a closing bracket,
and the form of documentation comments.
-/
namespace Bindgen.Conformance
open Bindgen.Spec

/-- Tokens of formatted Rust text: as `Spec.tokens`, but operators may touch what follows and `/// …` is `#[doc = " …"]`. -/
def read (E : Env) : Nat → Str → Option (List Tok × Str)
  | 0, _ => none
  | _ + 1, [] => some ([], [])
  | n + 1, '/' :: '/' :: '/' :: r =>
    (read E n (r.dropWhile (· != '\n'))).map (fun x =>
      (.p .hash :: .group .bracket [.id c!"doc", .p .eq, .str (r.takeWhile (· != '\n'))] :: x.1, x.2))
  | n + 1, c :: r =>
    if lexWs c then read E n r
    else if isClose c then some ([], c :: r)
    else
      match brackets.lookup c with
      | some (d, close) =>
        match read E n r with
        | some (inner, c' :: r') =>
          if c' = close then (read E n r').map (fun x => (.group d inner :: x.1, x.2)) else none
        | _ => none
      | none =>
        match punct (c :: r) with
        | some (p, r) => (read E n r).map (fun x => (.p p :: x.1, x.2))
        | none =>
          match token E (c :: r) with
          | some (t, r) => (read E n r).map (fun x => (t :: x.1, x.2))
          | none => none

mutual
/-- Without commas before a closing bracket, which the formatter adds and removes. -/
def norm : Tok → Tok
  | .group d ts => .group d (normList ts)
  | t => t
/-- The same on lists. -/
def normList : List Tok → List Tok
  | [] => []
  | [.p .comma] => []
  | [.p .comma, .p .gt] => [.p .gt]
  | .p .comma :: .p .gt :: l => .p .gt :: normList l
  | t :: l => norm t :: normList l
end

/-- Equal texts. -/
def sameStr : Str → Str → Bool
  | [], [] => true
  | a :: s, b :: t => a.toNat == b.toNat && sameStr s t
  | _, _ => false

mutual
/-- Equal tokens. -/
def same : Tok → Tok → Bool
  | .kw k, .kw l => sameStr k.text l.text
  | .id s, .id t => sameStr s t
  | .life s, .life t => sameStr s t
  | .p q, .p r => sameStr q.text r.text
  | .str s, .str t => sameStr s t
  | .num m, .num n => m == n
  | .group d ts, .group e us => sameStr [d.opening] [e.opening] && sameList ts us
  | _, _ => false
/-- The same on lists. -/
def sameList : List Tok → List Tok → Bool
  | [], [] => true
  | t :: ts, u :: us => same t u && sameList ts us
  | _, _ => false
end

/-- The bindings of a module given as source code — tests/bindgen.rs:17-22. -/
def bindings (W : World) (source name : Str) : Option (List Tok) :=
  (({} : Codegen).moduleFromStr (.ascii true false) W 10 source name).toOption.bind (fun c =>
    (c.generate (.ascii true false) W 10).toOption.map Item.toksList)

/-- The bindings consist of the tokens of the file — tests/bindgen.rs:24-33. -/
def matchesFile (W : World) (source name golden : Str) : Bool :=
  match bindings W source name, read (.ascii true false) 100000 golden with
  | some ts, some (us, []) => sameList (normList ts) (normList us)
  | _, _ => false

/-- The module `mod_bindgen_property` (Python 3.11). -/
def propertyMod0 : PyMod :=
  { name := (some c!"mod_bindgen_property"), all := (some []), dir := [c!"__annotations__", c!"__builtins__", c!"__doc__", c!"__file__", c!"__loader__", c!"__name__", c!"__package__", c!"__spec__", c!"my_property"], attrs := [
    (c!"__annotations__", { obj := { modPath := c!"", typeName := c!"dict", typeModule := c!"builtins", dunderName := none, typeBases := [.dict], typeRepr := c!"<class 'dict'>", fget := none, fset := none } }),
    (c!"__builtins__", { obj := { modPath := c!"", typeName := c!"dict", typeModule := c!"builtins", dunderName := none, typeBases := [.dict], typeRepr := c!"<class 'dict'>", fget := none, fset := none } }),
    (c!"__doc__", { obj := { modPath := c!"", typeName := c!"NoneType", typeModule := c!"builtins", dunderName := none, typeBases := [], typeRepr := c!"<class 'NoneType'>", fget := none, fset := none } }),
    (c!"__file__", { obj := { modPath := c!"", typeName := c!"str", typeModule := c!"builtins", dunderName := none, typeBases := [.string], typeRepr := c!"<class 'str'>", fget := none, fset := none } }),
    (c!"__loader__", { obj := { modPath := c!"", typeName := c!"NoneType", typeModule := c!"builtins", dunderName := none, typeBases := [], typeRepr := c!"<class 'NoneType'>", fget := none, fset := none } }),
    (c!"__name__", { obj := { modPath := c!"", typeName := c!"str", typeModule := c!"builtins", dunderName := none, typeBases := [.string], typeRepr := c!"<class 'str'>", fget := none, fset := none } }),
    (c!"__package__", { obj := { modPath := c!"", typeName := c!"NoneType", typeModule := c!"builtins", dunderName := none, typeBases := [], typeRepr := c!"<class 'NoneType'>", fget := none, fset := none } }),
    (c!"__spec__", { obj := { modPath := c!"", typeName := c!"NoneType", typeModule := c!"builtins", dunderName := none, typeBases := [], typeRepr := c!"<class 'NoneType'>", fget := none, fset := none } }),
    (c!"my_property", { obj := { modPath := c!"", typeName := c!"float", typeModule := c!"builtins", dunderName := none, typeBases := [.float], typeRepr := c!"<class 'float'>", fget := none, fset := none } })], isPackage := false, iterModules := some [], doc := (some c!"None"), modPath := c!"" }

/-- The interpreter. -/
def propertyWorld : World where
  mods := [propertyMod0]
  importMod s := if s = c!"mod_bindgen_property" then some 0 else none
  fromCode _ _ := some 0

/-- The Python source — tests/bindgen.rs:36-92. -/
def propertySource : Str := c! r#"my_property: float = 0.42
"#

/-- The expected file — tests/bindgen.rs:36-92. -/
def propertyGolden : Str := c! r###"#[allow(
    clippy::all,
    clippy::nursery,
    clippy::pedantic,
    non_camel_case_types,
    non_snake_case,
    non_upper_case_globals,
    unused
)]
pub mod mod_bindgen_property {
    /// Embed the Python source code of the module into the Python interpreter
    /// in order to enable the use of the generated Rust bindings.
    pub fn pyo3_embed_python_source_code<'py>(
        py: ::pyo3::marker::Python<'py>,
    ) -> ::pyo3::PyResult<()> {
        const SOURCE_CODE: &str = "my_property: float = 0.42\n";
        pyo3::types::PyAnyMethods::set_item(
            &pyo3::types::PyAnyMethods::getattr(
                py.import_bound(pyo3::intern!(py, "sys"))?.as_any(),
                pyo3::intern!(py, "modules"),
            )?,
            "mod_bindgen_property",
            pyo3::types::PyModule::from_code_bound(
                py,
                SOURCE_CODE,
                "mod_bindgen_property/__init__.py",
                "mod_bindgen_property",
            )?,
        )
    }
    pub fn my_property<'py>(py: ::pyo3::marker::Python<'py>) -> ::pyo3::PyResult<f64> {
        ::pyo3::types::PyAnyMethods::extract(
            &::pyo3::types::PyAnyMethods::getattr(
                py.import_bound(::pyo3::intern!(py, "mod_bindgen_property"))?.as_any(),
                ::pyo3::intern!(py, "my_property"),
            )?,
        )
    }
    pub fn set_my_property<'py>(
        py: ::pyo3::marker::Python<'py>,
        p_value: f64,
    ) -> ::pyo3::PyResult<()> {
        ::pyo3::types::PyAnyMethods::setattr(
            py.import_bound(::pyo3::intern!(py, "mod_bindgen_property"))?.as_any(),
            ::pyo3::intern!(py, "my_property"),
            p_value,
        )
    }
}
"###

example : matchesFile propertyWorld propertySource c!"mod_bindgen_property" propertyGolden = true := by decide +kernel

/-- The module `mod_bindgen_function` (Python 3.11). -/
def functionMod0 : PyMod :=
  { name := (some c!"mod_bindgen_function"), all := (some []), dir := [c!"__builtins__", c!"__doc__", c!"__file__", c!"__loader__", c!"__name__", c!"__package__", c!"__spec__", c!"my_function"], attrs := [
    (c!"__builtins__", { obj := { modPath := c!"", typeName := c!"dict", typeModule := c!"builtins", dunderName := none, typeBases := [.dict], typeRepr := c!"<class 'dict'>", fget := none, fset := none } }),
    (c!"__doc__", { obj := { modPath := c!"", typeName := c!"NoneType", typeModule := c!"builtins", dunderName := none, typeBases := [], typeRepr := c!"<class 'NoneType'>", fget := none, fset := none } }),
    (c!"__file__", { obj := { modPath := c!"", typeName := c!"str", typeModule := c!"builtins", dunderName := none, typeBases := [.string], typeRepr := c!"<class 'str'>", fget := none, fset := none } }),
    (c!"__loader__", { obj := { modPath := c!"", typeName := c!"NoneType", typeModule := c!"builtins", dunderName := none, typeBases := [], typeRepr := c!"<class 'NoneType'>", fget := none, fset := none } }),
    (c!"__name__", { obj := { modPath := c!"", typeName := c!"str", typeModule := c!"builtins", dunderName := none, typeBases := [.string], typeRepr := c!"<class 'str'>", fget := none, fset := none } }),
    (c!"__package__", { obj := { modPath := c!"", typeName := c!"NoneType", typeModule := c!"builtins", dunderName := none, typeBases := [], typeRepr := c!"<class 'NoneType'>", fget := none, fset := none } }),
    (c!"__spec__", { obj := { modPath := c!"", typeName := c!"NoneType", typeModule := c!"builtins", dunderName := none, typeBases := [], typeRepr := c!"<class 'NoneType'>", fget := none, fset := none } }),
    (c!"my_function", { obj := { modPath := c!"mod_bindgen_function", typeName := c!"function", typeModule := c!"builtins", isFunction := some true, dunderName := (some c!"my_function"), typeBases := [.function], typeRepr := c!"<class 'function'>", fn := ⟨(some c!"My docstring for `my_function`"), (some ⟨[⟨c!"my_arg1", .positionalOrKeyword, (some (.cls [.string] c!"<class 'str'>")), false⟩], (some (.cls [.long] c!"<class 'int'>"))⟩), none⟩, fget := none, fset := none } })], isPackage := false, iterModules := some [], doc := (some c!"None"), modPath := c!"" }

/-- The interpreter. -/
def functionWorld : World where
  mods := [functionMod0]
  importMod s := if s = c!"mod_bindgen_function" then some 0 else none
  fromCode _ _ := some 0

/-- The Python source — tests/bindgen.rs:94-145. -/
def functionSource : Str := c! r#"def my_function(my_arg1: str) -> int:
    """My docstring for `my_function`"""
    ...
"#

/-- The expected file — tests/bindgen.rs:94-145. -/
def functionGolden : Str := c! r###"#[allow(
    clippy::all,
    clippy::nursery,
    clippy::pedantic,
    non_camel_case_types,
    non_snake_case,
    non_upper_case_globals,
    unused
)]
pub mod mod_bindgen_function {
    /// Embed the Python source code of the module into the Python interpreter
    /// in order to enable the use of the generated Rust bindings.
    pub fn pyo3_embed_python_source_code<'py>(
        py: ::pyo3::marker::Python<'py>,
    ) -> ::pyo3::PyResult<()> {
        const SOURCE_CODE: &str = "def my_function(my_arg1: str) -> int:\n    \"\"\"My docstring for `my_function`\"\"\"\n    ...\n";
        pyo3::types::PyAnyMethods::set_item(
            &pyo3::types::PyAnyMethods::getattr(
                py.import_bound(pyo3::intern!(py, "sys"))?.as_any(),
                pyo3::intern!(py, "modules"),
            )?,
            "mod_bindgen_function",
            pyo3::types::PyModule::from_code_bound(
                py,
                SOURCE_CODE,
                "mod_bindgen_function/__init__.py",
                "mod_bindgen_function",
            )?,
        )
    }
    /// My docstring for `my_function`
    pub fn my_function<'py>(
        py: ::pyo3::marker::Python<'py>,
        p_my_arg1: &str,
    ) -> ::pyo3::PyResult<i64> {
        ::pyo3::types::PyAnyMethods::extract(
            &::pyo3::types::PyAnyMethods::call_method1(
                py.import_bound(::pyo3::intern!(py, "mod_bindgen_function"))?.as_any(),
                ::pyo3::intern!(py, "my_function"),
                ::pyo3::types::PyTuple::new_bound(
                    py,
                    [::pyo3::ToPyObject::to_object(&p_my_arg1, py)],
                ),
            )?,
        )
    }
}
"###

example : matchesFile functionWorld functionSource c!"mod_bindgen_function" functionGolden = true := by decide +kernel

/-- The module `mod_bindgen_class` (Python 3.11). -/
def classMod0 : PyMod :=
  { name := (some c!"mod_bindgen_class"), all := (some []), dir := [c!"Dict", c!"MyClass", c!"Optional", c!"__builtins__", c!"__doc__", c!"__file__", c!"__loader__", c!"__name__", c!"__package__", c!"__spec__", c!"my_function_with_class_param", c!"my_function_with_class_return"], attrs := [
    (c!"Dict", { obj := { modPath := c!"typing", typeName := c!"_SpecialGenericAlias", typeModule := c!"typing", dunderName := (some c!"Dict"), typeBases := [], typeRepr := c!"<class 'typing._SpecialGenericAlias'>", fget := none, fset := none } }),
    (c!"MyClass", { obj := { modPath := c!"mod_bindgen_class", typeName := c!"type", typeModule := c!"builtins", isClass := true, dunderName := (some c!"MyClass"), typeBases := [.type], typeRepr := c!"<class 'type'>", fget := none, fset := none }, cls := { dir := [c!"__class__", c!"__delattr__", c!"__dict__", c!"__dir__", c!"__doc__", c!"__eq__", c!"__format__", c!"__ge__", c!"__getattribute__", c!"__getstate__", c!"__gt__", c!"__hash__", c!"__init__", c!"__init_subclass__", c!"__le__", c!"__lt__", c!"__module__", c!"__ne__", c!"__new__", c!"__reduce__", c!"__reduce_ex__", c!"__repr__", c!"__setattr__", c!"__sizeof__", c!"__str__", c!"__subclasshook__", c!"__weakref__", c!"my_method", c!"my_property"], attrs := [(c!"__class__", { modPath := c!"builtins", typeName := c!"type", typeModule := c!"builtins", isClass := true, dunderName := (some c!"type"), typeBases := [.type], typeRepr := c!"<class 'type'>", fget := none, fset := none }), (c!"__delattr__", { modPath := c!"", typeName := c!"wrapper_descriptor", typeModule := c!"builtins", dunderName := (some c!"__delattr__"), typeBases := [], typeRepr := c!"<class 'wrapper_descriptor'>", fget := none, fset := none }), (c!"__dict__", { modPath := c!"", typeName := c!"mappingproxy", typeModule := c!"builtins", dunderName := none, typeBases := [], typeRepr := c!"<class 'mappingproxy'>", fget := none, fset := none }), (c!"__dir__", { modPath := c!"", typeName := c!"method_descriptor", typeModule := c!"builtins", dunderName := (some c!"__dir__"), typeBases := [], typeRepr := c!"<class 'method_descriptor'>", fget := none, fset := none }), (c!"__doc__", { modPath := c!"", typeName := c!"str", typeModule := c!"builtins", dunderName := none, typeBases := [.string], typeRepr := c!"<class 'str'>", fget := none, fset := none }), (c!"__eq__", { modPath := c!"", typeName := c!"wrapper_descriptor", typeModule := c!"builtins", dunderName := (some c!"__eq__"), typeBases := [], typeRepr := c!"<class 'wrapper_descriptor'>", fget := none, fset := none }), (c!"__format__", { modPath := c!"", typeName := c!"method_descriptor", typeModule := c!"builtins", dunderName := (some c!"__format__"), typeBases := [], typeRepr := c!"<class 'method_descriptor'>", fget := none, fset := none }), (c!"__ge__", { modPath := c!"", typeName := c!"wrapper_descriptor", typeModule := c!"builtins", dunderName := (some c!"__ge__"), typeBases := [], typeRepr := c!"<class 'wrapper_descriptor'>", fget := none, fset := none }), (c!"__getattribute__", { modPath := c!"", typeName := c!"wrapper_descriptor", typeModule := c!"builtins", dunderName := (some c!"__getattribute__"), typeBases := [], typeRepr := c!"<class 'wrapper_descriptor'>", fget := none, fset := none }), (c!"__getstate__", { modPath := c!"", typeName := c!"method_descriptor", typeModule := c!"builtins", dunderName := (some c!"__getstate__"), typeBases := [], typeRepr := c!"<class 'method_descriptor'>", fget := none, fset := none }), (c!"__gt__", { modPath := c!"", typeName := c!"wrapper_descriptor", typeModule := c!"builtins", dunderName := (some c!"__gt__"), typeBases := [], typeRepr := c!"<class 'wrapper_descriptor'>", fget := none, fset := none }), (c!"__hash__", { modPath := c!"", typeName := c!"wrapper_descriptor", typeModule := c!"builtins", dunderName := (some c!"__hash__"), typeBases := [], typeRepr := c!"<class 'wrapper_descriptor'>", fget := none, fset := none }), (c!"__init__", { modPath := c!"mod_bindgen_class", typeName := c!"function", typeModule := c!"builtins", isFunction := some true, dunderName := (some c!"__init__"), typeBases := [.function], typeRepr := c!"<class 'function'>", fn := ⟨(some c!"My docstring for __init__"), (some ⟨[⟨c!"self", .positionalOrKeyword, none, false⟩, ⟨c!"my_arg1", .positionalOrKeyword, (some (.cls [.string] c!"<class 'str'>")), false⟩, ⟨c!"my_arg2", .positionalOrKeyword, (some (.typingArgs (.typingPlain c!"typing.Union") [(.cls [.long] c!"<class 'int'>"), (.cls [] c!"<class 'NoneType'>")])), true⟩], none⟩), (some .other)⟩, fget := none, fset := none }), (c!"__init_subclass__", { modPath := c!"None", typeName := c!"builtin_function_or_method", typeModule := c!"builtins", isCFunction := true, dunderName := (some c!"__init_subclass__"), typeBases := [.cFunction], typeRepr := c!"<class 'builtin_function_or_method'>", fn := ⟨(some c!"This method is called when a class is subclassed.\n\nThe default implementation does nothing. It may be\noverridden to extend subclasses.\n"), none, none⟩, fget := none, fset := none }), (c!"__le__", { modPath := c!"", typeName := c!"wrapper_descriptor", typeModule := c!"builtins", dunderName := (some c!"__le__"), typeBases := [], typeRepr := c!"<class 'wrapper_descriptor'>", fget := none, fset := none }), (c!"__lt__", { modPath := c!"", typeName := c!"wrapper_descriptor", typeModule := c!"builtins", dunderName := (some c!"__lt__"), typeBases := [], typeRepr := c!"<class 'wrapper_descriptor'>", fget := none, fset := none }), (c!"__module__", { modPath := c!"", typeName := c!"str", typeModule := c!"builtins", dunderName := none, typeBases := [.string], typeRepr := c!"<class 'str'>", fget := none, fset := none }), (c!"__ne__", { modPath := c!"", typeName := c!"wrapper_descriptor", typeModule := c!"builtins", dunderName := (some c!"__ne__"), typeBases := [], typeRepr := c!"<class 'wrapper_descriptor'>", fget := none, fset := none }), (c!"__new__", { modPath := c!"None", typeName := c!"builtin_function_or_method", typeModule := c!"builtins", isCFunction := true, dunderName := (some c!"__new__"), typeBases := [.cFunction], typeRepr := c!"<class 'builtin_function_or_method'>", fn := ⟨(some c!"Create and return a new object.  See help(type) for accurate signature."), (some ⟨[⟨c!"args", .varPositional, none, false⟩, ⟨c!"kwargs", .varKeyword, none, false⟩], none⟩), none⟩, fget := none, fset := none }), (c!"__reduce__", { modPath := c!"", typeName := c!"method_descriptor", typeModule := c!"builtins", dunderName := (some c!"__reduce__"), typeBases := [], typeRepr := c!"<class 'method_descriptor'>", fget := none, fset := none }), (c!"__reduce_ex__", { modPath := c!"", typeName := c!"method_descriptor", typeModule := c!"builtins", dunderName := (some c!"__reduce_ex__"), typeBases := [], typeRepr := c!"<class 'method_descriptor'>", fget := none, fset := none }), (c!"__repr__", { modPath := c!"", typeName := c!"wrapper_descriptor", typeModule := c!"builtins", dunderName := (some c!"__repr__"), typeBases := [], typeRepr := c!"<class 'wrapper_descriptor'>", fget := none, fset := none }), (c!"__setattr__", { modPath := c!"", typeName := c!"wrapper_descriptor", typeModule := c!"builtins", dunderName := (some c!"__setattr__"), typeBases := [], typeRepr := c!"<class 'wrapper_descriptor'>", fget := none, fset := none }), (c!"__sizeof__", { modPath := c!"", typeName := c!"method_descriptor", typeModule := c!"builtins", dunderName := (some c!"__sizeof__"), typeBases := [], typeRepr := c!"<class 'method_descriptor'>", fget := none, fset := none }), (c!"__str__", { modPath := c!"", typeName := c!"wrapper_descriptor", typeModule := c!"builtins", dunderName := (some c!"__str__"), typeBases := [], typeRepr := c!"<class 'wrapper_descriptor'>", fget := none, fset := none }), (c!"__subclasshook__", { modPath := c!"None", typeName := c!"builtin_function_or_method", typeModule := c!"builtins", isCFunction := true, dunderName := (some c!"__subclasshook__"), typeBases := [.cFunction], typeRepr := c!"<class 'builtin_function_or_method'>", fn := ⟨(some c!"Abstract classes can override this to customize issubclass().\n\nThis is invoked early on by abc.ABCMeta.__subclasscheck__().\nIt should return True, False or NotImplemented.  If it returns\nNotImplemented, the normal algorithm is used.  Otherwise, it\noverrides the normal algorithm (and the outcome is cached).\n"), none, none⟩, fget := none, fset := none }), (c!"__weakref__", { modPath := c!"", typeName := c!"getset_descriptor", typeModule := c!"builtins", dunderName := (some c!"__weakref__"), typeBases := [], typeRepr := c!"<class 'getset_descriptor'>", fget := none, fset := none }), (c!"my_method", { modPath := c!"mod_bindgen_class", typeName := c!"function", typeModule := c!"builtins", isFunction := some true, dunderName := (some c!"my_method"), typeBases := [.function], typeRepr := c!"<class 'function'>", fn := ⟨(some c!"My docstring for `my_method`"), (some ⟨[⟨c!"self", .positionalOrKeyword, none, false⟩, ⟨c!"my_arg1", .positionalOrKeyword, (some (.typingArgs (.cls [.dict] c!"<class 'dict'>") [(.cls [.string] c!"<class 'str'>"), (.cls [.long] c!"<class 'int'>")])), false⟩, ⟨c!"kwargs", .varKeyword, none, false⟩], none⟩), (some .other)⟩, fget := none, fset := none }), (c!"my_property", { modPath := c!"", typeName := c!"property", typeModule := c!"builtins", dunderName := none, typeBases := [], typeRepr := c!"<class 'property'>", fget := (some ⟨(some (some (.cls [.long] c!"<class 'int'>"))), (some c!"None")⟩), fset := (some ⟨(some [none, (some (.cls [.long] c!"<class 'int'>"))]), (some c!"None")⟩) })], doc := (some c!"My docstring for `MyClass`") } }),
    (c!"Optional", { obj := { modPath := c!"typing", typeName := c!"_SpecialForm", typeModule := c!"typing", dunderName := (some c!"Optional"), typeBases := [], typeRepr := c!"<class 'typing._SpecialForm'>", fget := none, fset := none } }),
    (c!"__builtins__", { obj := { modPath := c!"", typeName := c!"dict", typeModule := c!"builtins", dunderName := none, typeBases := [.dict], typeRepr := c!"<class 'dict'>", fget := none, fset := none } }),
    (c!"__doc__", { obj := { modPath := c!"", typeName := c!"NoneType", typeModule := c!"builtins", dunderName := none, typeBases := [], typeRepr := c!"<class 'NoneType'>", fget := none, fset := none } }),
    (c!"__file__", { obj := { modPath := c!"", typeName := c!"str", typeModule := c!"builtins", dunderName := none, typeBases := [.string], typeRepr := c!"<class 'str'>", fget := none, fset := none } }),
    (c!"__loader__", { obj := { modPath := c!"", typeName := c!"NoneType", typeModule := c!"builtins", dunderName := none, typeBases := [], typeRepr := c!"<class 'NoneType'>", fget := none, fset := none } }),
    (c!"__name__", { obj := { modPath := c!"", typeName := c!"str", typeModule := c!"builtins", dunderName := none, typeBases := [.string], typeRepr := c!"<class 'str'>", fget := none, fset := none } }),
    (c!"__package__", { obj := { modPath := c!"", typeName := c!"NoneType", typeModule := c!"builtins", dunderName := none, typeBases := [], typeRepr := c!"<class 'NoneType'>", fget := none, fset := none } }),
    (c!"__spec__", { obj := { modPath := c!"", typeName := c!"NoneType", typeModule := c!"builtins", dunderName := none, typeBases := [], typeRepr := c!"<class 'NoneType'>", fget := none, fset := none } }),
    (c!"my_function_with_class_param", { obj := { modPath := c!"mod_bindgen_class", typeName := c!"function", typeModule := c!"builtins", isFunction := some true, dunderName := (some c!"my_function_with_class_param"), typeBases := [.function], typeRepr := c!"<class 'function'>", fn := ⟨(some c!"None"), (some ⟨[⟨c!"my_arg1", .positionalOrKeyword, (some (.cls [] c!"<class 'mod_bindgen_class.MyClass'>")), false⟩], none⟩), none⟩, fget := none, fset := none } }),
    (c!"my_function_with_class_return", { obj := { modPath := c!"mod_bindgen_class", typeName := c!"function", typeModule := c!"builtins", isFunction := some true, dunderName := (some c!"my_function_with_class_return"), typeBases := [.function], typeRepr := c!"<class 'function'>", fn := ⟨(some c!"None"), (some ⟨[], (some (.cls [] c!"<class 'mod_bindgen_class.MyClass'>"))⟩), none⟩, fget := none, fset := none } })], isPackage := false, iterModules := some [], doc := (some c!"None"), modPath := c!"" }

/-- The interpreter. -/
def classWorld : World where
  mods := [classMod0]
  importMod s := if s = c!"mod_bindgen_class" then some 0 else none
  fromCode _ _ := some 0

/-- The Python source — tests/bindgen.rs:147-308. -/
def classSource : Str := c! r#"from typing import Dict, Optional
class MyClass:
    """My docstring for `MyClass`"""
    def __init__(self, my_arg1: str, my_arg2: Optional[int] = None):
        """My docstring for __init__"""
        ...
    def my_method(self, my_arg1: Dict[str, int], **kwargs):
        """My docstring for `my_method`"""
        ...
    @property
    def my_property(self) -> int:
        ...
    @my_property.setter
    def my_property(self, value: int):
        ...

def my_function_with_class_param(my_arg1: MyClass):
    ...

def my_function_with_class_return() -> MyClass:
    ...
"#

/-- The expected file — tests/bindgen.rs:147-308. -/
def classGolden : Str := c! r###"#[allow(
    clippy::all,
    clippy::nursery,
    clippy::pedantic,
    non_camel_case_types,
    non_snake_case,
    non_upper_case_globals,
    unused
)]
pub mod mod_bindgen_class {
    /// Embed the Python source code of the module into the Python interpreter
    /// in order to enable the use of the generated Rust bindings.
    pub fn pyo3_embed_python_source_code<'py>(
        py: ::pyo3::marker::Python<'py>,
    ) -> ::pyo3::PyResult<()> {
        const SOURCE_CODE: &str = "from typing import Dict, Optional\nclass MyClass:\n    \"\"\"My docstring for `MyClass`\"\"\"\n    def __init__(self, my_arg1: str, my_arg2: Optional[int] = None):\n        \"\"\"My docstring for __init__\"\"\"\n        ...\n    def my_method(self, my_arg1: Dict[str, int], **kwargs):\n        \"\"\"My docstring for `my_method`\"\"\"\n        ...\n    @property\n    def my_property(self) -> int:\n        ...\n    @my_property.setter\n    def my_property(self, value: int):\n        ...\n\ndef my_function_with_class_param(my_arg1: MyClass):\n    ...\n\ndef my_function_with_class_return() -> MyClass:\n    ...\n";
        pyo3::types::PyAnyMethods::set_item(
            &pyo3::types::PyAnyMethods::getattr(
                py.import_bound(pyo3::intern!(py, "sys"))?.as_any(),
                pyo3::intern!(py, "modules"),
            )?,
            "mod_bindgen_class",
            pyo3::types::PyModule::from_code_bound(
                py,
                SOURCE_CODE,
                "mod_bindgen_class/__init__.py",
                "mod_bindgen_class",
            )?,
        )
    }
    /// My docstring for `MyClass`
    #[repr(transparent)]
    pub struct MyClass(::pyo3::PyAny);
    ::pyo3::pyobject_native_type_named!(MyClass);
    ::pyo3::pyobject_native_type_info!(
        MyClass,
        ::pyo3::pyobject_native_static_type_object!(::pyo3::ffi::PyBaseObject_Type),
        ::std::option::Option::Some("mod_bindgen_class.MyClass")
    );
    #[automatically_derived]
    impl MyClass {
        /// My docstring for __init__
        pub fn new<'py>(
            py: ::pyo3::marker::Python<'py>,
            p_my_arg1: &str,
            p_my_arg2: ::std::option::Option<i64>,
        ) -> ::pyo3::PyResult<::pyo3::Bound<'py, Self>> {
            ::pyo3::types::PyAnyMethods::extract(
                &::pyo3::types::PyAnyMethods::call1(
                    ::pyo3::types::PyAnyMethods::getattr(
                            py
                                .import_bound(::pyo3::intern!(py, "mod_bindgen_class"))?
                                .as_any(),
                            ::pyo3::intern!(py, "MyClass"),
                        )?
                        .as_any(),
                    ::pyo3::types::PyTuple::new_bound(
                        py,
                        [
                            ::pyo3::ToPyObject::to_object(&p_my_arg1, py),
                            ::pyo3::ToPyObject::to_object(&p_my_arg2, py),
                        ],
                    ),
                )?,
            )
        }
    }
    /// These methods are defined for the `Bound<'py, T>` smart pointer, so to use
    /// method call syntax these methods are separated into a trait, because stable
    /// Rust does not yet support `arbitrary_self_types`.
    #[doc(alias = "MyClass")]
    #[automatically_derived]
    pub trait MyClassMethods {
        fn my_method<'py>(
            &'py self,
            p_my_arg1: &::std::collections::HashMap<::std::string::String, i64>,
            p_kwargs: ::std::option::Option<::pyo3::Bound<'py, ::pyo3::types::PyDict>>,
        ) -> ::pyo3::PyResult<::pyo3::Bound<'py, ::pyo3::types::PyAny>>;
        fn my_property<'py>(&'py self) -> ::pyo3::PyResult<i64>;
        fn set_my_property<'py>(&'py self, p_value: i64) -> ::pyo3::PyResult<()>;
    }
    #[automatically_derived]
    impl MyClassMethods for ::pyo3::Bound<'_, MyClass> {
        /// My docstring for `my_method`
        fn my_method<'py>(
            &'py self,
            p_my_arg1: &::std::collections::HashMap<::std::string::String, i64>,
            p_kwargs: ::std::option::Option<::pyo3::Bound<'py, ::pyo3::types::PyDict>>,
        ) -> ::pyo3::PyResult<::pyo3::Bound<'py, ::pyo3::types::PyAny>> {
            let py = self.py();
            let p_kwargs = if let Some(p_kwargs) = p_kwargs {
                ::pyo3::types::IntoPyDict::into_py_dict_bound(p_kwargs, py)
            } else {
                ::pyo3::types::PyDict::new_bound(py)
            };
            ::pyo3::types::PyAnyMethods::extract(
                &::pyo3::types::PyAnyMethods::call_method(
                    self.as_any(),
                    ::pyo3::intern!(py, "my_method"),
                    ::pyo3::types::PyTuple::new_bound(
                        py,
                        [::pyo3::ToPyObject::to_object(&p_my_arg1, py)],
                    ),
                    Some(&p_kwargs),
                )?,
            )
        }
        fn my_property<'py>(&'py self) -> ::pyo3::PyResult<i64> {
            ::pyo3::types::PyAnyMethods::extract(
                &::pyo3::types::PyAnyMethods::getattr(
                    self.as_any(),
                    ::pyo3::intern!(self.py(), "my_property"),
                )?,
            )
        }
        fn set_my_property<'py>(&'py self, p_value: i64) -> ::pyo3::PyResult<()> {
            let py = self.py();
            ::pyo3::types::PyAnyMethods::setattr(
                self.as_any(),
                ::pyo3::intern!(py, "my_property"),
                p_value,
            )
        }
    }
    pub fn my_function_with_class_param<'py>(
        py: ::pyo3::marker::Python<'py>,
        p_my_arg1: &::pyo3::Bound<'py, MyClass>,
    ) -> ::pyo3::PyResult<::pyo3::Bound<'py, ::pyo3::types::PyAny>> {
        ::pyo3::types::PyAnyMethods::extract(
            &::pyo3::types::PyAnyMethods::call_method1(
                py.import_bound(::pyo3::intern!(py, "mod_bindgen_class"))?.as_any(),
                ::pyo3::intern!(py, "my_function_with_class_param"),
                ::pyo3::types::PyTuple::new_bound(
                    py,
                    [::pyo3::ToPyObject::to_object(&p_my_arg1, py)],
                ),
            )?,
        )
    }
    pub fn my_function_with_class_return<'py>(
        py: ::pyo3::marker::Python<'py>,
    ) -> ::pyo3::PyResult<::pyo3::Bound<'py, MyClass>> {
        ::pyo3::types::PyAnyMethods::extract(
            &::pyo3::types::PyAnyMethods::call_method0(
                py.import_bound(::pyo3::intern!(py, "mod_bindgen_class"))?.as_any(),
                ::pyo3::intern!(py, "my_function_with_class_return"),
            )?,
        )
    }
}
"###

example : matchesFile classWorld classSource c!"mod_bindgen_class" classGolden = true := by decide +kernel

end Bindgen.Conformance

import Verif.Model.IntoRs
/-!
# Abstract syntax of the emitted items

One constructor per `quote!` template.  Attributes that do not depend on the input
(`#[automatically_derived]`, `#[repr(transparent)]`, the `pyobject_native_type_*` macros) are implied.
-/
namespace Bindgen

/-- First parameter of an emitted function: `py: Python<'py>` or `&'py self` — function.rs:395-458. -/
inductive Recv
  | py
  | self
  deriving DecidableEq, Repr

/-- `::pyo3::PyResult<…>` of an emitted function — function.rs:399-457, property.rs:257-352. -/
inductive Ret
  /-- a value of this type — function.rs:399, 424, 457 -/
  | ty (t : RsTy)
  /-- `::pyo3::Bound<'py, Self>` — function.rs:449 -/
  | selfBound
  /-- `()` — property.rs:335, 346 -/
  | unit
  deriving DecidableEq, Repr

/-- Signature `[pub] fn name<'py>(recv, params) -> PyResult<ret>` — function.rs:390-460, property.rs:254-357. -/
structure Sig where
  pub : Bool
  name : Str
  recv : Recv
  params : List (Str × RsTy)
  ret : Ret
  deriving DecidableEq, Repr

/-- Positional arguments of the emitted call — function.rs:506-556. -/
inductive Pos
  /-- `()` -/
  | unit
  /-- `p_args` -/
  | var (x : Str)
  /-- `PyTuple::new_bound(py, [to_object(&p_a, py), …])` -/
  | tuple (xs : List Str)
  /-- the same followed by the elements of `p_args` -/
  | tupleVar (xs : List Str) (x : Str)
  deriving DecidableEq, Repr

/-- Keyword arguments of the emitted call — function.rs:557-607. -/
inductive Kw
  /-- `PyDict::new_bound(py)` -/
  | fresh
  /-- `p_kwargs` -/
  | var (x : Str)
  /-- a new dictionary with `set_item(name, ident)` for each pair -/
  | freshSet (items : List (Str × Str))
  /-- the dictionary `p_kwargs` with `set_item(name, ident)` for each pair -/
  | varSet (x : Str) (items : List (Str × Str))
  deriving DecidableEq, Repr

/-- The last expression of an emitted body — function.rs:608-653, property.rs:258-278, 337-355. -/
inductive Body
  /-- `extract(&PyAnyMethods::call…(obj, [name,] [pos,] [Some(&kw)])?)` — function.rs:608-653: the method name is
  absent for `call`, `call1`, `call0` -/
  | call (obj : Obj) (meth : Option Str) (pos : Option Pos) (kw : Option Kw)
  /-- `extract(&PyAnyMethods::getattr(obj, name)?)` — property.rs:258-260, 276-278 -/
  | getattr (obj : Obj) (name : Str)
  /-- `PyAnyMethods::setattr(obj, name, x)` — property.rs:337, 355 -/
  | setattr (obj : Obj) (name : Str) (x : Str)
  deriving DecidableEq, Repr

/-- An emitted function with its body — function.rs:390-460, 608-653, property.rs:254-280, 332-357. -/
structure Fn where
  /-- `#[doc = …]` -/
  doc : Option Str
  sig : Sig
  /-- `let py = self.py();` -/
  letPy : Bool
  /-- conversion statements, in order -/
  pre : List (Str × Pre)
  body : Body
  deriving DecidableEq, Repr

/-- `FunctionImplementation` — function_definition.rs:1-29. A token stream is the list of its functions. -/
inductive FnImpl
  | func (fns : List Fn)
  | method (traitFns : List Sig) (implFns : List Fn)
  deriving DecidableEq, Repr

/-- Everything emitted for one class — class.rs:150-302. -/
structure ClassItem where
  doc : Option Str
  /-- `pub struct name(::pyo3::PyAny);` and `impl name { inherent }` -/
  name : Str
  /-- `Some(object_name)` in `pyobject_native_type_info!` -/
  objName : Str
  inherent : List Fn
  /-- `pub trait traitName { traitSigs }` and `impl traitName for Bound<'_, name> { traitImpls }` -/
  traitName : Str
  traitSigs : List Sig
  traitImpls : List Fn
  deriving DecidableEq, Repr

/-- Emitted items — module.rs:319-521. -/
inductive Item
  /-- `pub use path [as alias];` — import.rs:60-62 -/
  | use (path : Path) (alias : Option Str)
  /-- `pub mod name { pub use super::{exports}; }` — module.rs:666-670 -/
  | prelude (name : Str) (exports : List Str)
  /-- `pub type name = ::pyo3::types::PyAny;` — type_var.rs:16-18 -/
  | typeAlias (name : Str)
  | class (c : ClassItem)
  /-- a function of `Function::generate` -/
  | func (f : Fn)
  /-- `pub` followed by a property accessor — property.rs:163, 170 -/
  | prop (f : Fn)
  /-- `pub` followed by nothing — property.rs:163, 170 with an empty accessor -/
  | strayPub
  /-- `pyo3_embed_python_source_code` — module.rs:479-504 -/
  | embed (source name file : Str)
  /-- `[#[allow(…)]] [#[doc = …]] pub mod name { items }` — module.rs:507-519 -/
  | mod (allow : Bool) (doc : Option Str) (name : Str) (items : List Item)
  deriving Repr

end Bindgen

import Verif.Model.Str
/-!
# Results, errors and panics
-/
namespace Bindgen

/-- Error values of the engine: `utils/error.rs:3-18` (variants that the modelled code can produce). -/
inductive PyBindgenError
  | ioError
  | pyError
  | synError
  | codegenError (msg : Str)
  deriving DecidableEq, Repr

/-- Where the code can panic; each kind names the Rust expression: codegen.rs:205-266, from_py.rs:137-518,
path.rs:30, 199-211, ident.rs:12, module.rs:87, 173, 438-465, 581, class.rs:34, property.rs:98, 251, 328, function.rs:130, 479. -/
inductive PanicSite
  /-- `unwrap_or_else(|| unreachable!())` and friends -/
  | unreachable
  /-- `unwrap()` on `None`/`Err` -/
  | unwrap
  /-- slice or `Vec` index out of bounds, `Vec::remove(0)` on an empty vector -/
  | index
  /-- `usize` subtraction overflow with overflow checks on -/
  | overflow
  /-- unbounded recursion of `Module::parse` -/
  | stackOverflow
  /-- `debug_assert!` with debug assertions on -/
  | assertion
  deriving DecidableEq, Repr

/-- How a computation can fail: it returns an `Err` (`utils/error.rs:3-18`) or panics (not a value in Rust). -/
inductive Fail
  | err (e : PyBindgenError)
  | panic (p : PanicSite)
  deriving DecidableEq, Repr

/-- `crate::Result<T>` (`utils/result.rs`) extended with an explicit panic outcome. -/
abbrev Res (α : Type) := Except Fail α

-- Decidable equality of results.
deriving instance DecidableEq for Except

namespace Res

/-- The computation panics (`unwrap`, `unreachable!` and indexing, e.g. codegen.rs:205-208). -/
def Panics {α : Type} (r : Res α) : Prop := ∃ p, r = .error (.panic p)

/-- The computation returns an `Err` (`utils/result.rs:1-4`). -/
def Errs {α : Type} (r : Res α) : Prop := ∃ e, r = .error (.err e)

/-- `Option::unwrap`, `unwrap_or_else(|| unreachable!())` — e.g. codegen.rs:205-208, from_py.rs:258-260. -/
def ofOption {α : Type} (site : PanicSite) : Option α → Res α
  | some a => .ok a
  | none => .error (.panic site)

/-- `Option::ok_or(err)?` and `?` on a `PyResult` — e.g. codegen.rs:81, 102-107. -/
def orErr {α : Type} (e : PyBindgenError) : Option α → Res α
  | some a => .ok a
  | none => .error (.err e)

end Res
end Bindgen

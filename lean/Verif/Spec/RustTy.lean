import Verif.Model.Rust
import Verif.Model.IntoRs
/-!
# What Rust and pyo3 accept (specification)

Legality of types in return and parameter position, `Hash`, and extraction of Python values (pyo3 0.21).
-/
namespace Bindgen.Spec

/-- One character from each list. -/
def Letters : Str → List Str → Prop
  | [], [] => True
  | c :: s, l :: ls => c ∈ l ∧ Letters s ls
  | _, _ => False

/-- The opaque name is that of numpy arrays, and the feature is on: `ndarray` in any case, after dots and before brackets. -/
def NumpyArray (E : Env) (n : Str) : Prop := E.numpy = true ∧ ∃ pre nm rest, n = pre ++ nm ++ rest ∧
  Letters nm [c!"nN", c!"dD", c!"aA", c!"rR", c!"rR", c!"aA", c!"yY"] ∧ (pre = [] ∨ pre.getLast? = some '.') ∧ '[' ∉ pre ∧
  (rest = [] ∨ rest.head? = some '[')

mutual
/-- No `impl Trait`, no reference and no unsized type at any depth: legal as a return type. -/
def Owned : RsTy → Prop
  | .bool | .f64 | .i64 | .u8 | .string | .stdNet _ | .pathBuf | .bound _ | .boundLocal _ | .boundNumpy => True
  | .strRef | .slice _ | .ref _ | .path | .implIntoPy _ | .implIntoPyDict => False
  | .option t | .hashSet t | .vec t => Owned t
  | .hashMap k v => Owned k ∧ Owned v
  | .tuple ts => OwnedList ts
/-- The same on lists. -/
def OwnedList : List RsTy → Prop
  | [] => True
  | t :: ts => Owned t ∧ OwnedList ts
end

/-- Legal as a parameter type: owned, or one outermost reference or `impl Trait`. -/
def ParamLegal : RsTy → Prop
  | .strRef | .implIntoPy _ | .implIntoPyDict => True
  | .slice t => Owned t
  | .ref .path => True
  | .ref t => Owned t
  | t => Owned t

/-- The conversion a parameter of this type needs before it can be passed on. -/
def conversionFor : RsTy → Pre
  | .implIntoPyDict => .intoDict
  | .implIntoPy n => if n = c!"PyTuple" then .intoTuple else .intoAny
  | _ => .none

mutual
/-- Rust types that implement `Hash + Eq`. (`f64`, `HashMap`, `HashSet` and `Bound` do not.) -/
def ImplHash : RsTy → Prop
  | .bool | .i64 | .u8 | .string | .strRef | .pathBuf | .path | .stdNet _ => True
  | .option t | .vec t | .slice t | .ref t => ImplHash t
  | .tuple ts => ImplHashList ts
  | _ => False
/-- The same on lists. -/
def ImplHashList : List RsTy → Prop
  | [] => True
  | t :: ts => ImplHash t ∧ ImplHashList ts
end

mutual
/-- Every `HashMap` key and `HashSet` element type implements `Hash + Eq`. -/
def HashOk : RsTy → Prop
  | .hashMap k v => ImplHash k ∧ HashOk k ∧ HashOk v
  | .hashSet t => ImplHash t ∧ HashOk t
  | .option t | .vec t | .slice t | .ref t => HashOk t
  | .tuple ts => HashOkList ts
  | _ => True
/-- The same on lists. -/
def HashOkList : List RsTy → Prop
  | [] => True
  | t :: ts => HashOk t ∧ HashOkList ts
end

/-! ## Python values -/

/-- Python values, as far as extraction looks at them. -/
inductive Val
  | none
  | bool (b : Bool)
  | int (i : Int)
  | float
  /-- a `str`; whether it is encodable as UTF-8 (no lone surrogates) -/
  | str (utf8 : Bool)
  | bytes (len : Nat)
  | byteArray (len : Nat)
  | list (l : List Val)
  | tuple (l : List Val)
  | dict (l : List (Val × Val))
  | set (l : List Val)
  | frozenSet (l : List Val)
  /-- an object with `__fspath__` -/
  | path
  /-- any other object: the builtin classes (as named by pyo3) that it is an instance of -/
  | inst (classes : List Str)

/-- The number fits in `i64`. -/
def FitsI64 (i : Int) : Prop := -9223372036854775808 ≤ i ∧ i ≤ 9223372036854775807

/-- pyo3's `FromPyObject` (0.21): the value is accepted by `extract::<T>()`. -/
inductive Extracts : Val → RsTy → Prop
  | bool b : Extracts (.bool b) .bool
  | float : Extracts .float .f64
  | floatInt i : FitsI64 i → Extracts (.int i) .f64
  | floatBool b : Extracts (.bool b) .f64
  | int i : FitsI64 i → Extracts (.int i) .i64
  | intBool b : Extracts (.bool b) .i64
  /-- an element of a list that is extracted as bytes -/
  | u8 i : 0 ≤ i → i ≤ 255 → Extracts (.int i) .u8
  | str : Extracts (.str true) .string
  | bytes n : Extracts (.bytes n) (.vec .u8)
  | byteArray n : Extracts (.byteArray n) (.vec .u8)
  | optNone t : Extracts .none (.option t)
  | optSome v t : Extracts v t → Extracts v (.option t)
  | vecList l t : (∀ v ∈ l, Extracts v t) → Extracts (.list l) (.vec t)
  | vecTuple l t : (∀ v ∈ l, Extracts v t) → Extracts (.tuple l) (.vec t)
  | hashMap l k t : (∀ p ∈ l, Extracts p.1 k) → (∀ p ∈ l, Extracts p.2 t) → Extracts (.dict l) (.hashMap k t)
  | hashSet l t : (∀ v ∈ l, Extracts v t) → Extracts (.set l) (.hashSet t)
  | hashFrozen l t : (∀ v ∈ l, Extracts v t) → Extracts (.frozenSet l) (.hashSet t)
  | tuple l ts : l.length = ts.length → (∀ p ∈ l.zip ts, Extracts p.1 p.2) → Extracts (.tuple l) (.tuple ts)
  | pathStr : Extracts (.str true) .pathBuf
  | path : Extracts .path .pathBuf
  | any v : Extracts v (.bound c!"PyAny")
  | dict l : Extracts (.dict l) (.bound c!"PyDict")
  | set l : Extracts (.set l) (.bound c!"PySet")
  | frozenSet l : Extracts (.frozenSet l) (.bound c!"PyFrozenSet")
  | pyTuple l : Extracts (.tuple l) (.bound c!"PyTuple")
  | inst cs n : n ∈ cs → Extracts (.inst cs) (.bound n)
  /-- the generated classes are declared with the type object of `object`, so the check always passes -/
  | boundLocal v p : Extracts v (.boundLocal p)
  | ndarray cs : c!"PyArray" ∈ cs → Extracts (.inst cs) .boundNumpy

/-- The builtin class a type stands for, if any. -/
def instClass : PyTy → Option Str
  | .slice => some c!"PySlice" | .complex => some c!"PyComplex" | .date => some c!"PyDate"
  | .dateTime => some c!"PyDateTime" | .time => some c!"PyTime" | .tzInfo => some c!"PyTzInfo"
  | .capsule => some c!"PyCapsule" | .cFunction => some c!"PyCFunction" | .code => some c!"PyCode"
  | .frame => some c!"PyFrame" | .function _ _ => some c!"PyFunction" | .module => some c!"PyModule"
  | .super => some c!"PySuper" | .traceback => some c!"PyTraceback" | .type => some c!"PyType"
  | _ => none

/-- The value is an instance of the (concrete) type; integers fit in 64 bits and strings are encodable.
There is no rule for IP addresses. `array` says which opaque names are numpy arrays. -/
inductive HasTy (array : Str → Prop) : PyTy → Val → Prop
  | any v : HasTy array .any v
  | unknown v : HasTy array .unknown v
  | other n v : ¬ array n → HasTy array (.other n) v
  | ndarray n cs : array n → c!"PyArray" ∈ cs → HasTy array (.other n) (.inst cs)
  | bool b : HasTy array .bool (.bool b)
  | byteArray n : HasTy array .byteArray (.byteArray n)
  | bytes n : HasTy array .bytes (.bytes n)
  | float : HasTy array .float .float
  /-- an `int` is acceptable where a `float` is expected (PEP 484) -/
  | floatInt i : FitsI64 i → HasTy array .float (.int i)
  | long i : FitsI64 i → HasTy array .long (.int i)
  | longBool b : HasTy array .long (.bool b)
  | string : HasTy array .string (.str true)
  | optNone t : HasTy array (.optional t) .none
  | optSome t v : HasTy array t v → HasTy array (.optional t) v
  | union ts t v : t ∈ ts → HasTy array t v → HasTy array (.union ts) v
  | none : HasTy array .none .none
  | dict k t l : (∀ p ∈ l, HasTy array k p.1) → (∀ p ∈ l, HasTy array t p.2) → HasTy array (.dict k t) (.dict l)
  | frozenSet t l : (∀ v ∈ l, HasTy array t v) → HasTy array (.frozenSet t) (.frozenSet l)
  | set t l : (∀ v ∈ l, HasTy array t v) → HasTy array (.set t) (.set l)
  | list t l : (∀ v ∈ l, HasTy array t v) → HasTy array (.list t) (.list l)
  | tuple ts l : l.length = ts.length → (ts.length = 2 → .ellipsis ∉ ts) → (∀ p ∈ ts.zip l, HasTy array p.1 p.2) →
      HasTy array (.tuple ts) (.tuple l)
  /-- `tuple[T, ...]` -/
  | tupleOf t l : (∀ v ∈ l, HasTy array t v) → HasTy array (.tuple [t, .ellipsis]) (.tuple l)
  /-- the bare class `tuple` -/
  | anyTuple l : HasTy array (.tuple [.unknown]) (.tuple l)
  | path : HasTy array .path .path
  | delta v : HasTy array .delta v
  | ellipsis v : HasTy array .ellipsis v
  | inst t n cs : instClass t = some n → n ∈ cs → HasTy array t (.inst cs)

end Bindgen.Spec

import Verif.Spec.RustTy
/-!
# Specification: how Rust arguments arrive in Python

Written from the documentation of pyo3 0.21. The templates pass every positional argument through `ToPyObject` (function.rs:536-553), and so do
`set_item` for keyword arguments and `setattr` for accessors; `impl` parameters have been converted with `IntoPy` before.
-/
namespace Bindgen.Spec

/-- The Python values that Rust values of a type are converted to, when they are passed to a call or stored in an attribute. The
conversion of slices and vectors makes lists, also if the elements are bytes; the conversion of hash sets makes sets; paths become strings (only paths that are Unicode are considered). -/
inductive Passed : RsTy → Val → Prop
  | bool b : Passed .bool (.bool b)
  | f64 : Passed .f64 .float
  | i64 i : FitsI64 i → Passed .i64 (.int i)
  | u8 i : 0 ≤ i → i ≤ 255 → Passed .u8 (.int i)
  | string : Passed .string (.str true)
  | strRef : Passed .strRef (.str true)
  | pathBuf : Passed .pathBuf (.str true)
  | path : Passed .path (.str true)
  | optNone t : Passed (.option t) .none
  | optSome t v : Passed t v → Passed (.option t) v
  | vec t l : (∀ v ∈ l, Passed t v) → Passed (.vec t) (.list l)
  | slice t l : (∀ v ∈ l, Passed t v) → Passed (.slice t) (.list l)
  | ref t v : Passed t v → Passed (.ref t) v
  | hashMap k t l : (∀ p ∈ l, Passed k p.1) → (∀ p ∈ l, Passed t p.2) → Passed (.hashMap k t) (.dict l)
  | hashSet t l : (∀ v ∈ l, Passed t v) → Passed (.hashSet t) (.set l)
  | tuple ts l : l.length = ts.length → (∀ p ∈ ts.zip l, Passed p.1 p.2) → Passed (.tuple ts) (.tuple l)
  | any v : Passed (.bound c!"PyAny") v
  | dict l : Passed (.bound c!"PyDict") (.dict l)
  | set l : Passed (.bound c!"PySet") (.set l)
  | frozenSet l : Passed (.bound c!"PyFrozenSet") (.frozenSet l)
  | pyTuple l : Passed (.bound c!"PyTuple") (.tuple l)
  /-- an object of another builtin class -/
  | inst cs n : n ∈ cs → n ∉ [c!"PyDict", c!"PySet", c!"PyFrozenSet", c!"PyTuple"] → Passed (.bound n) (.inst cs)
  /-- whatever has been extracted as the generated class -/
  | boundLocal p v : Passed (.boundLocal p) v
  | ndarray cs : c!"PyArray" ∈ cs → Passed .boundNumpy (.inst cs)
  | intoAny v : Passed (.implIntoPy c!"PyAny") v
  | intoTuple l : Passed (.implIntoPy c!"PyTuple") (.tuple l)
  | intoDict l : Passed .implIntoPyDict (.dict l)

/-- Values that Python takes for equal: `True` and `1`, an integer and the float of the same value, and collections of equal values, where a
frozen set may be equal to a set. (The order of the elements of sets is kept here.) -/
inductive Equals : Val → Val → Prop
  | refl v : Equals v v
  | boolInt b : Equals (.bool b) (.int (if b then 1 else 0))
  | intFloat i : Equals (.int i) .float
  | list l m : l.length = m.length → (∀ p ∈ l.zip m, Equals p.1 p.2) → Equals (.list l) (.list m)
  | tuple l m : l.length = m.length → (∀ p ∈ l.zip m, Equals p.1 p.2) → Equals (.tuple l) (.tuple m)
  | set l m : l.length = m.length → (∀ p ∈ l.zip m, Equals p.1 p.2) → Equals (.set l) (.set m)
  | frozenSet l m : l.length = m.length → (∀ p ∈ l.zip m, Equals p.1 p.2) → Equals (.frozenSet l) (.frozenSet m)
  | frozenSetSet l m : l.length = m.length → (∀ p ∈ l.zip m, Equals p.1 p.2) → Equals (.frozenSet l) (.set m)
  | dict l m : l.length = m.length → (∀ p ∈ l.zip m, Equals p.1.1 p.2.1) → (∀ p ∈ l.zip m, Equals p.1.2 p.2.2) → Equals (.dict l) (.dict m)

/-- Annotations that admit every value. `array` says which opaque names are numpy arrays. -/
def Loose (array : Str → Prop) : PyTy → Prop
  | .any | .unknown | .ellipsis => True
  | .other n => ¬ array n
  | _ => False

/-- The types of keys and elements whose values arrive as what they are annotated as. -/
def scalar : PyTy → Bool
  | .bool | .long | .string => true
  | _ => false

mutual
/-- Annotations all parts of which are scalars, floats, lists, sets, dictionaries, tuples of fixed length and builtin objects. -/
def Solid : PyTy → Prop
  | .bool | .long | .string | .float => True
  | .optional t | .list t => Solid t
  | .set t => scalar t = true
  | .dict k v => scalar k = true ∧ Solid v
  | .tuple ts => 2 ≤ ts.length ∧ SolidList ts
  | .slice | .complex | .date | .dateTime | .time | .tzInfo | .capsule | .cFunction | .code | .frame | .function _ _ | .module
  | .super | .traceback | .type => True
  | _ => False
/-- The same on lists. -/
def SolidList : List PyTy → Prop
  | [] => True
  | t :: ts => Solid t ∧ SolidList ts
end

mutual
/-- Annotations for which the Rust parameter is as tight as the annotation: solid parts, and parts that admit every value. -/
def Tight (array : Str → Prop) : PyTy → Prop
  | .any | .unknown | .ellipsis | .delta | .other _ => True
  | .bool | .long | .string | .float => True
  | .optional t | .list t => Tight array t
  | .set t => scalar t = true ∨ Loose array t
  | .frozenSet t => Loose array t
  | .dict k v => (scalar k = true ∧ Solid v) ∨ (Loose array k ∧ Loose array v)
  | .tuple ts => ts = [.unknown] ∨ (2 ≤ ts.length ∧ (ts.length = 2 → .ellipsis ∉ ts) ∧ TightList array ts)
  | .slice | .complex | .date | .dateTime | .time | .tzInfo | .capsule | .cFunction | .code | .frame | .function _ _ | .module
  | .super | .traceback | .type => True
  | _ => False
/-- The same on lists. -/
def TightList (array : Str → Prop) : List PyTy → Prop
  | [] => True
  | t :: ts => Tight array t ∧ TightList array ts
end

mutual
/-- Annotations all values of which a Rust caller can pass: without bytes, paths, IP addresses and tuples of any length in places that are converted. -/
def Passable : PyTy → Prop
  | .bytes | .byteArray | .path | .ipV4 | .ipV6 => False
  | .optional t | .list t => Passable t
  | .set t | .frozenSet t => t.isHashable = false ∨ Passable t
  | .dict k v => k.isHashable = false ∨ (Passable k ∧ Passable v)
  | .tuple ts => ts.length < 2 ∨ ((ts.length = 2 → .ellipsis ∉ ts) ∧ PassableList ts)
  | _ => True
/-- The same on lists. -/
def PassableList : List PyTy → Prop
  | [] => True
  | t :: ts => Passable t ∧ PassableList ts
end

mutual
/-- The annotations all values of which a Rust caller can pass, exactly. `any v`: the Rust type of `v` has an arbitrary object in it (such
values make a dictionary a Python object). -/
def Sendable (any : PyTy → Prop) : PyTy → Prop
  | .bytes | .byteArray | .path | .ipV4 | .ipV6 => False
  | .optional t | .list t => Sendable any t
  | .set t | .frozenSet t => t.isHashable = false ∨ Sendable any t
  | .dict k v => k.isHashable = false ∨ any v ∨ (Sendable any k ∧ Sendable any v)
  | .tuple ts => ts.length < 2 ∨ ((ts.length = 2 → .ellipsis ∉ ts) ∧ SendableAll any ts)
  | _ => True
/-- The same on lists. -/
def SendableAll (any : PyTy → Prop) : List PyTy → Prop
  | [] => True
  | t :: ts => Sendable any t ∧ SendableAll any ts
end

/-- The parts of a collection. -/
def elements : PyTy → List PyTy
  | .optional t | .frozenSet t | .list t | .set t => [t]
  | .tuple ts => ts
  | .dict k v => [k, v]
  | _ => []

/-- The annotation and its parts have values. -/
inductive Peopled (array : Str → Prop) : PyTy → Prop
  | mk t v : HasTy array t v → (∀ s ∈ elements t, Peopled array s) → Peopled array t

end Bindgen.Spec

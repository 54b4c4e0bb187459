import Verif.Model.Config
/-!
# Python types: `typing/mod.rs`
-/
namespace Bindgen

/-- `pub enum Type` — typing/mod.rs:4-72 (all variants; `Py_LIMITED_API` and PyPy are off). -/
inductive PyTy
  | any
  | other (name : Str)
  | unknown
  | bool
  | byteArray
  | bytes
  | float
  | long
  | string
  | optional (t : PyTy)
  | union (ts : List PyTy)
  | none
  | dict (key value : PyTy)
  | frozenSet (t : PyTy)
  | list (t : PyTy)
  | set (t : PyTy)
  | tuple (ts : List PyTy)
  | ipV4
  | ipV6
  | path
  | slice
  | complex
  | date
  | dateTime
  | delta
  | time
  | tzInfo
  | capsule
  | cFunction
  | code
  | ellipsis
  | frame
  | function (params : List PyTy) (ret : PyTy)
  | module
  | super
  | traceback
  | type
  deriving Repr

mutual
/-- Decidable equality (derived `PartialEq`/`Eq`, typing/mod.rs:5). -/
def PyTy.decEq (a b : PyTy) : Decidable (a = b) :=
  match a with
  | .any => by cases b <;> first | exact isTrue rfl | exact isFalse nofun
  | .unknown => by cases b <;> first | exact isTrue rfl | exact isFalse nofun
  | .bool => by cases b <;> first | exact isTrue rfl | exact isFalse nofun
  | .byteArray => by cases b <;> first | exact isTrue rfl | exact isFalse nofun
  | .bytes => by cases b <;> first | exact isTrue rfl | exact isFalse nofun
  | .float => by cases b <;> first | exact isTrue rfl | exact isFalse nofun
  | .long => by cases b <;> first | exact isTrue rfl | exact isFalse nofun
  | .string => by cases b <;> first | exact isTrue rfl | exact isFalse nofun
  | .none => by cases b <;> first | exact isTrue rfl | exact isFalse nofun
  | .ipV4 => by cases b <;> first | exact isTrue rfl | exact isFalse nofun
  | .ipV6 => by cases b <;> first | exact isTrue rfl | exact isFalse nofun
  | .path => by cases b <;> first | exact isTrue rfl | exact isFalse nofun
  | .slice => by cases b <;> first | exact isTrue rfl | exact isFalse nofun
  | .complex => by cases b <;> first | exact isTrue rfl | exact isFalse nofun
  | .date => by cases b <;> first | exact isTrue rfl | exact isFalse nofun
  | .dateTime => by cases b <;> first | exact isTrue rfl | exact isFalse nofun
  | .delta => by cases b <;> first | exact isTrue rfl | exact isFalse nofun
  | .time => by cases b <;> first | exact isTrue rfl | exact isFalse nofun
  | .tzInfo => by cases b <;> first | exact isTrue rfl | exact isFalse nofun
  | .capsule => by cases b <;> first | exact isTrue rfl | exact isFalse nofun
  | .cFunction => by cases b <;> first | exact isTrue rfl | exact isFalse nofun
  | .code => by cases b <;> first | exact isTrue rfl | exact isFalse nofun
  | .ellipsis => by cases b <;> first | exact isTrue rfl | exact isFalse nofun
  | .frame => by cases b <;> first | exact isTrue rfl | exact isFalse nofun
  | .module => by cases b <;> first | exact isTrue rfl | exact isFalse nofun
  | .super => by cases b <;> first | exact isTrue rfl | exact isFalse nofun
  | .traceback => by cases b <;> first | exact isTrue rfl | exact isFalse nofun
  | .type => by cases b <;> first | exact isTrue rfl | exact isFalse nofun
  | .other s => by
    cases b
    case other s' => exact (if h : s = s' then isTrue (by rw [h]) else isFalse (by intro e; cases e; exact h rfl))
    all_goals exact isFalse nofun
  | .optional x0 => by
    cases b
    case optional y0 => exact (match PyTy.decEq x0 y0 with | isTrue h0 => isTrue (by subst h0; rfl) | isFalse h => isFalse (by intro e; cases e; exact h rfl))
    all_goals exact isFalse nofun
  | .union x0 => by
    cases b
    case union y0 => exact (match PyTy.decEqList x0 y0 with | isTrue h0 => isTrue (by subst h0; rfl) | isFalse h => isFalse (by intro e; cases e; exact h rfl))
    all_goals exact isFalse nofun
  | .dict x0 x1 => by
    cases b
    case dict y0 y1 => exact (match PyTy.decEq x0 y0 with | isTrue h0 => (match PyTy.decEq x1 y1 with | isTrue h1 => isTrue (by subst h0 h1; rfl) | isFalse h => isFalse (by intro e; cases e; exact h rfl)) | isFalse h => isFalse (by intro e; cases e; exact h rfl))
    all_goals exact isFalse nofun
  | .frozenSet x0 => by
    cases b
    case frozenSet y0 => exact (match PyTy.decEq x0 y0 with | isTrue h0 => isTrue (by subst h0; rfl) | isFalse h => isFalse (by intro e; cases e; exact h rfl))
    all_goals exact isFalse nofun
  | .list x0 => by
    cases b
    case list y0 => exact (match PyTy.decEq x0 y0 with | isTrue h0 => isTrue (by subst h0; rfl) | isFalse h => isFalse (by intro e; cases e; exact h rfl))
    all_goals exact isFalse nofun
  | .set x0 => by
    cases b
    case set y0 => exact (match PyTy.decEq x0 y0 with | isTrue h0 => isTrue (by subst h0; rfl) | isFalse h => isFalse (by intro e; cases e; exact h rfl))
    all_goals exact isFalse nofun
  | .tuple x0 => by
    cases b
    case tuple y0 => exact (match PyTy.decEqList x0 y0 with | isTrue h0 => isTrue (by subst h0; rfl) | isFalse h => isFalse (by intro e; cases e; exact h rfl))
    all_goals exact isFalse nofun
  | .function x0 x1 => by
    cases b
    case function y0 y1 => exact (match PyTy.decEqList x0 y0 with | isTrue h0 => (match PyTy.decEq x1 y1 with | isTrue h1 => isTrue (by subst h0 h1; rfl) | isFalse h => isFalse (by intro e; cases e; exact h rfl)) | isFalse h => isFalse (by intro e; cases e; exact h rfl))
    all_goals exact isFalse nofun
/-- The same on lists (typing/mod.rs:5). -/
def PyTy.decEqList (a b : List PyTy) : Decidable (a = b) :=
  match a with
  | [] => by cases b <;> first | exact isTrue rfl | exact isFalse nofun
  | x :: xs => by
    cases b
    case nil => exact isFalse nofun
    case cons y ys => exact (match PyTy.decEq x y with
      | isTrue h => (match PyTy.decEqList xs ys with
        | isTrue h' => isTrue (by subst h h'; rfl)
        | isFalse h' => isFalse (by intro e; cases e; exact h' rfl))
      | isFalse h => isFalse (by intro e; cases e; exact h rfl))
end

instance : DecidableEq PyTy := PyTy.decEq

/-- `Type::is_hashable` — typing/mod.rs:75-89. -/
def PyTy.isHashable : PyTy → Bool
  | .bool | .ipV4 | .ipV6 | .path | .delta | .dict _ _ | .frozenSet _ | .long | .set _ | .string => true
  | _ => false

/-- The builtin classes tested by `is_subclass_of` — from_py.rs:50-105. -/
inductive PyBase
  | bool | byteArray | bytes | float | long | string | dict | frozenSet | list | set | tuple
  | slice | complex | date | dateTime | delta | time | tzInfo | capsule | cFunction | code
  | frame | function | module | super | traceback | type
  deriving DecidableEq, Repr

/-- A Python annotation object, as far as `Type::try_from` (from_py.rs:7-43) can see it. -/
inductive PyAnn
  /-- the object `None` -/
  | none
  /-- an instance of `type`; the builtin classes it derives from and its `str()` -/
  | cls (supers : List PyBase) (repr : Str)
  /-- an object of a class of module `typing` without `__origin__` -/
  | typingPlain (repr : Str)
  /-- the same with `__origin__`, but no tuple `__args__` -/
  | typingOrigin (origin : PyAnn)
  /-- the same with `__origin__` and tuple `__args__` -/
  | typingArgs (origin : PyAnn) (args : List PyAnn)
  /-- a `str` -/
  | str (s : Str)
  /-- anything else; its `str()` -/
  | other (repr : Str)
  deriving Repr

end Bindgen

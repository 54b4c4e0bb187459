import Verif.Spec.Annot
/-!
# Python type annotations as objects (specification)

The annotations that a Python module carries when they are not stored as text: classes and the generics of module
`typing`. For each of them, how CPython presents it (`__origin__`, `__args__`, `str()`), and the type it denotes.
-/
namespace Bindgen.Spec

/-- The tested builtin classes that a builtin class derives from, itself included (Python data model: `bool` is a
subclass of `int`, `datetime.datetime` one of `datetime.date`; the others are unrelated). -/
def ancestors : PyBase → List PyBase
  | .bool => [.bool, .long]
  | .dateTime => [.dateTime, .date]
  | b => [b]

/-- The type whose values are the instances of a builtin class. -/
def classType : PyBase → PyTy
  | .bool => .bool | .byteArray => .byteArray | .bytes => .bytes | .float => .float | .long => .long
  | .string => .string | .dict => .dict .unknown .unknown | .frozenSet => .frozenSet .unknown
  | .list => .list .unknown | .set => .set .unknown | .tuple => .tuple [.unknown] | .slice => .slice
  | .complex => .complex | .date => .date | .dateTime => .dateTime | .delta => .delta | .time => .time
  | .tzInfo => .tzInfo | .capsule => .capsule | .cFunction => .cFunction | .code => .code | .frame => .frame
  | .function => .function [.ellipsis] .unknown | .module => .module | .super => .super
  | .traceback => .traceback | .type => .type

/-- How the classes that have a name of their own are written in a program. -/
def className : PyBase → Option Str
  | .bool => some c!"bool" | .byteArray => some c!"bytearray" | .bytes => some c!"bytes" | .float => some c!"float"
  | .long => some c!"int" | .string => some c!"str" | .dict => some c!"dict" | .frozenSet => some c!"frozenset"
  | .list => some c!"list" | .set => some c!"set" | .tuple => some c!"tuple" | .slice => some c!"slice"
  | .complex => some c!"complex" | .date => some c!"datetime.date" | .dateTime => some c!"datetime.datetime"
  | .delta => some c!"datetime.timedelta" | .time => some c!"datetime.time" | .tzInfo => some c!"datetime.tzinfo"
  | .super => some c!"super" | .type => some c!"type"
  | _ => none

/-- Abstract collections with one parameter. -/
inductive Abstract
  | sequence | iterable | iterator
  deriving DecidableEq, Repr

def Abstract.text : Abstract → Str
  | .sequence => c!"Sequence" | .iterable => c!"Iterable" | .iterator => c!"Iterator"

/-- Annotation objects. -/
inductive AnnObj
  /-- a builtin class -/
  | builtin (b : PyBase)
  /-- the class of `None` -/
  | noneType
  /-- another class, deriving from no builtin class; its dotted name -/
  | user (s : Str)
  /-- `typing.Any` -/
  | any
  /-- the `...` of `Callable[..., T]` and `Tuple[T, ...]` -/
  | ellipsis
  /-- `List[a]` -/
  | list (a : AnnObj)
  /-- `Set[a]` -/
  | set (a : AnnObj)
  /-- `FrozenSet[a]` -/
  | frozenset (a : AnnObj)
  /-- `Sequence[a]`, `Iterable[a]`, `Iterator[a]` -/
  | abstract (g : Abstract) (a : AnnObj)
  /-- `Dict[k, v]` -/
  | dict (k v : AnnObj)
  /-- `Mapping[k, v]` -/
  | mapping (k v : AnnObj)
  /-- `Tuple[as]` -/
  | tuple (as : List AnnObj)
  /-- `Callable[ps, r]` -/
  | callable (ps : List AnnObj) (r : AnnObj)
  /-- `Union[a, b, l...]`; `Optional[a]` is `Union[a, None]` -/
  | union (a b : AnnObj) (l : List AnnObj)
  /-- a class of that dotted name that derives from builtin classes, at least `b` -/
  | derived (b : PyBase) (bs : List PyBase) (s : Str)
  /-- an object of module `typing` without arguments that prints like this, such as a type variable -/
  | plain (s : Str)
  /-- `Type[a]` -/
  | type (a : AnnObj)

/-- A class with its `str()`. -/
def classRepr (s : Str) : Str := c!"<class '" ++ s ++ c!"'>"

mutual
/-- The annotation as the interpreter presents it. -/
def AnnObj.py : AnnObj → PyAnn
  | .builtin b => .cls (ancestors b) (classRepr ((className b).getD []))
  | .noneType => .cls [] (classRepr c!"NoneType")
  | .user s => .cls [] (classRepr s)
  | .any => .typingPlain c!"typing.Any"
  | .ellipsis => .other c!"Ellipsis"
  | .list a => .typingArgs (.cls [.list] (classRepr c!"list")) [a.py]
  | .set a => .typingArgs (.cls [.set] (classRepr c!"set")) [a.py]
  | .frozenset a => .typingArgs (.cls [.frozenSet] (classRepr c!"frozenset")) [a.py]
  | .abstract g a => .typingArgs (.cls [] (classRepr (c!"collections.abc." ++ g.text))) [a.py]
  | .dict k v => .typingArgs (.cls [.dict] (classRepr c!"dict")) [k.py, v.py]
  | .mapping k v => .typingArgs (.cls [] (classRepr c!"collections.abc.Mapping")) [k.py, v.py]
  | .tuple as => .typingArgs (.cls [.tuple] (classRepr c!"tuple")) (AnnObj.pyList as)
  | .callable ps r => .typingArgs (.cls [] (classRepr c!"collections.abc.Callable")) (AnnObj.pyList ps ++ [r.py])
  | .union a b l => .typingArgs (.typingPlain c!"typing.Union") (a.py :: b.py :: AnnObj.pyList l)
  | .derived b bs s => .cls (b :: bs) (classRepr s)
  | .plain s => .typingPlain s
  | .type a => .typingArgs (.cls [.type] (classRepr c!"type")) [a.py]
/-- The same on lists. -/
def AnnObj.pyList : List AnnObj → List PyAnn
  | [] => []
  | a :: l => a.py :: AnnObj.pyList l
end

/-- Whether this is the class of `None`. -/
def AnnObj.isNone : AnnObj → Bool
  | .noneType => true
  | _ => false

mutual
/-- The type an annotation object denotes. -/
def AnnObj.denote : AnnObj → PyTy
  | .builtin b => classType b
  | .noneType => .none
  | .user s => nameType s
  | .any => .any
  | .ellipsis => .ellipsis
  | .list a | .abstract _ a => .list a.denote
  | .set a => .set a.denote
  | .frozenset a => .frozenSet a.denote
  | .dict k v | .mapping k v => .dict k.denote v.denote
  | .tuple as => .tuple (AnnObj.denoteList as)
  | .callable ps r => .function (AnnObj.denoteList ps) r.denote
  | .union a b [] =>
    if b.isNone then .optional a.denote
    else if a.isNone then .optional b.denote
    else .union [a.denote, b.denote]
  | .union a b (c :: l) => .union (a.denote :: b.denote :: c.denote :: AnnObj.denoteList l)
  | .derived _ _ s => nameType s
  | .plain s => nameType s
  | .type _ => .type
/-- The same on lists. -/
def AnnObj.denoteList : List AnnObj → List PyTy
  | [] => []
  | a :: l => a.denote :: AnnObj.denoteList l
end

mutual
/-- Well-formed annotation objects without the class `datetime.datetime`, `Type[T]` and classes that derive from builtin classes:
names of classes are ordinary names, no other class is called `NoneType` or `None`, and `Union[None, None]` does not occur
(Python reduces it to `None`). -/
def AnnObj.Valid : AnnObj → Prop
  | .builtin b => b ≠ .dateTime
  | .noneType | .any | .ellipsis => True
  | .user s | .plain s => IsName s ∧ s ≠ c!"None" ∧ s ≠ c!"NoneType"
  | .derived _ _ _ | .type _ => False
  | .list a | .set a | .frozenset a | .abstract _ a => a.Valid
  | .dict k v | .mapping k v => k.Valid ∧ v.Valid
  | .tuple as => AnnObj.ValidList as
  | .callable ps r => AnnObj.ValidList ps ∧ r.Valid
  | .union a b l => a.Valid ∧ b.Valid ∧ AnnObj.ValidList l ∧ ¬ (a.isNone = true ∧ b.isNone = true)
/-- The same on lists. -/
def AnnObj.ValidList : List AnnObj → Prop
  | [] => True
  | a :: l => a.Valid ∧ AnnObj.ValidList l
end

/-- Whether this is the class of `None`, or a `Type[…]` around it. -/
def AnnObj.noneLike : AnnObj → Bool
  | .noneType => true
  | .type a => a.noneLike
  | _ => false

mutual
/-- Well-formed annotation objects: names of classes are ordinary names, no other class is called `NoneType` or `None`, and no
union consists of two alternatives that are the class of `None` or a `Type[…]` around it. -/
def AnnObj.Shaped : AnnObj → Prop
  | .builtin _ | .noneType | .any | .ellipsis | .derived _ _ _ => True
  | .user s | .plain s => IsName s ∧ s ≠ c!"None" ∧ s ≠ c!"NoneType"
  | .list a | .set a | .frozenset a | .abstract _ a | .type a => a.Shaped
  | .dict k v | .mapping k v => k.Shaped ∧ v.Shaped
  | .tuple as => AnnObj.ShapedList as
  | .callable ps r => AnnObj.ShapedList ps ∧ r.Shaped
  | .union a b l => a.Shaped ∧ b.Shaped ∧ AnnObj.ShapedList l ∧ (l = [] → ¬ (a.noneLike = true ∧ b.noneLike = true))
/-- The same on lists. -/
def AnnObj.ShapedList : List AnnObj → Prop
  | [] => True
  | a :: l => a.Shaped ∧ AnnObj.ShapedList l
end

end Bindgen.Spec

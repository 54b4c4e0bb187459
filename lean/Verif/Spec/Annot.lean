import Verif.Model.Typing
/-!
# Python type annotations as text (specification)

A grammar of annotations, how Python prints them, and what type each of them denotes.
-/
namespace Bindgen.Spec

/-- Generic classes with one parameter. -/
inductive Unary
  | list | sequence | iterable | iterator | set | frozenset | type
  deriving DecidableEq, Repr

/-- Generic classes with any positive number of parameters. -/
inductive Multi
  | tuple | callable
  deriving DecidableEq, Repr

/-- Packages that may qualify a name. -/
inductive Pkg
  | typing | collectionsAbc | collections
  deriving DecidableEq, Repr

/-- Annotations without `|`. -/
inductive Ann
  | name (s : Str)
  | unary (g : Unary) (a : Ann)
  | dict (k v : Ann)
  | multi (g : Multi) (a : Ann) (as : List Ann)
  | qualified (p : Pkg) (a : Ann)

def Unary.text : Unary → Str
  | .list => c!"list" | .sequence => c!"Sequence" | .iterable => c!"Iterable" | .iterator => c!"Iterator"
  | .set => c!"set" | .frozenset => c!"frozenset" | .type => c!"type"

def Multi.text : Multi → Str
  | .tuple => c!"tuple" | .callable => c!"Callable"

def Pkg.text : Pkg → Str
  | .typing => c!"typing." | .collectionsAbc => c!"collections.abc." | .collections => c!"collections."

mutual
/-- The text of an annotation, `sep` between arguments. -/
def Ann.show (sep : Str) : Ann → Str
  | .name s => s
  | .unary g a => g.text ++ c!"[" ++ a.show sep ++ c!"]"
  | .dict k v => c!"dict[" ++ (k.show sep ++ sep ++ v.show sep) ++ c!"]"
  | .multi g a as => g.text ++ c!"[" ++ (a.show sep ++ Ann.showTail sep as) ++ c!"]"
  | .qualified p a => p.text ++ a.show sep
/-- Further arguments, each after a separator. -/
def Ann.showTail (sep : Str) : List Ann → Str
  | [] => []
  | a :: as => sep ++ a.show sep ++ Ann.showTail sep as
end

/-- Names with a fixed meaning. -/
def builtins : List (Str × PyTy) := [
  (c!"Any", .any), (c!"bool", .bool), (c!"bytearray", .byteArray), (c!"bytes", .bytes),
  (c!"float", .float), (c!"int", .long), (c!"str", .string),
  (c!"Union", .union [.unknown]), (c!"", .none), (c!"None", .none), (c!"NoneType", .none),
  (c!"dict", .dict .unknown .unknown), (c!"Dict", .dict .unknown .unknown),
  (c!"Mapping", .dict .unknown .unknown), (c!"list", .list .unknown),
  (c!"Sequence", .list .unknown), (c!"Iterable", .list .unknown), (c!"Iterator", .list .unknown),
  (c!"tuple", .tuple [.unknown]), (c!"ipaddress.IPv4Address", .ipV4),
  (c!"ipaddress.IPv6Address", .ipV6), (c!"os.PathLike", .path), (c!"pathlib.Path", .path),
  (c!"slice", .slice), (c!"complex", .complex), (c!"datetime.date", .date),
  (c!"datetime.datetime", .dateTime), (c!"timedelta", .delta), (c!"datetime.time", .time),
  (c!"datetime.tzinfo", .tzInfo), (c!"capsule", .capsule), (c!"cfunction", .cFunction),
  (c!"code", .code), (c!"Ellipsis", .ellipsis), (c!"...", .ellipsis), (c!"frame", .frame),
  (c!"function", .function [.ellipsis] .unknown), (c!"Callable", .function [.ellipsis] .unknown),
  (c!"callable", .function [.ellipsis] .unknown), (c!"module", .module), (c!"super", .super),
  (c!"traceback", .traceback)]

/-- Names that stand for no particular type. -/
def opaqueNames : List Str := [c!"_collections._tuplegetter", c!"AsyncState", c!"getset_descriptor",
  c!"member_descriptor", c!"method_descriptor", c!"property", c!"py"]

/-- The type a plain name denotes. -/
def nameType (s : Str) : PyTy :=
  match builtins.lookup s with
  | some t => t
  | none => if s ∈ opaqueNames then .any else .other s

mutual
/-- The type an annotation denotes. -/
def Ann.denote : Ann → PyTy
  | .name s => nameType s
  | .unary .list a | .unary .sequence a | .unary .iterable a | .unary .iterator a => .list a.denote
  | .unary .set a => .set a.denote
  | .unary .frozenset a => .frozenSet a.denote
  | .unary .type a => a.denote
  | .dict k v => .dict k.denote v.denote
  | .multi .tuple a as => .tuple (a.denote :: Ann.denoteList as)
  | .multi .callable a as =>
    .function ((a.denote :: Ann.denoteList as).dropLast) ((a.denote :: Ann.denoteList as).getLast (by simp))
  | .qualified _ a => a.denote
/-- The same on lists. -/
def Ann.denoteList : List Ann → List PyTy
  | [] => []
  | a :: as => a.denote :: Ann.denoteList as
end

/-- A text that can be a plain name: no bracket, comma, bar or white space; not the `repr` of a class; and not
qualified by one of the packages of `Pkg`. -/
def IsName (s : Str) : Prop :=
  s ≠ [] ∧ (∀ c ∈ s, c ≠ '[' ∧ c ≠ ']' ∧ c ≠ ',' ∧ c ≠ '|' ∧ Str.isWs c = false) ∧ s.head? ≠ some '<' ∧
  (∀ p : Pkg, ¬ p.text <+: s)

mutual
/-- All names are plain names, and `collections.` is not followed by `abc.`. -/
def Ann.Valid : Ann → Prop
  | .name s => IsName s
  | .unary _ a => a.Valid
  | .dict k v => k.Valid ∧ v.Valid
  | .multi _ a as => a.Valid ∧ Ann.ValidList as
  | .qualified p a => a.Valid ∧ (p = .collections → ¬ c!"abc." <+: a.show c!",")
/-- The same on lists. -/
def Ann.ValidList : List Ann → Prop
  | [] => True
  | a :: as => a.Valid ∧ Ann.ValidList as
end

mutual
/-- Number of commas in the text of an annotation. -/
def Ann.commas : Ann → Nat
  | .name _ => 0
  | .unary _ a => a.commas
  | .dict k v => k.commas + 1 + v.commas
  | .multi _ a as => a.commas + Ann.commasTail as
  | .qualified _ a => a.commas
/-- Further arguments, one comma in front of each. -/
def Ann.commasTail : List Ann → Nat
  | [] => 0
  | a :: as => 1 + a.commas + Ann.commasTail as
end

/-- Argument lists that the comma repair gets right, by the number of commas inside each argument: an argument
with commas inside is followed by more comma-separated pieces than it has commas, or by no further argument with
commas. -/
def separable : List Nat → Bool
  | [] => true
  | c :: cs => (c == 0 || c < (cs.map (· + 1)).sum || cs.all (· == 0)) && separable cs

mutual
/-- Every argument list in the annotation is separable. -/
def Ann.clear : Ann → Bool
  | .name _ => true
  | .unary _ a => a.clear
  | .dict k v => separable [k.commas, v.commas] && (k.clear && v.clear)
  | .multi _ a as => separable (a.commas :: as.map Ann.commas) && (a.clear && Ann.clearList as)
  | .qualified _ a => a.clear
/-- The same on lists. -/
def Ann.clearList : List Ann → Bool
  | [] => true
  | a :: as => a.clear && Ann.clearList as
end

end Bindgen.Spec

import Verif.Model.FromPy
/-! # Specification: the names in types and the texts of annotations -/
namespace Bindgen.Spec

mutual
/-- The names of classes in a type. -/
def tyNames : PyTy → List Str
  | .other n => [n]
  | .optional t => tyNames t
  | .union ts => tyNamesList ts
  | .dict k v => tyNames k ++ tyNames v
  | .frozenSet t => tyNames t
  | .list t => tyNames t
  | .set t => tyNames t
  | .tuple ts => tyNamesList ts
  | .function ps r => tyNamesList ps ++ tyNames r
  | _ => []

/-- The names of classes in a list of types. -/
def tyNamesList : List PyTy → List Str
  | [] => []
  | t :: ts => tyNames t ++ tyNamesList ts
end

mutual
/-- The texts that say what an annotation is: what is in quotes, or what is printed. Classes that derive from builtin classes
are known without a text. -/
def annTexts : PyAnn → List Str
  | .none => []
  | .cls supers repr => if supers = [] then [repr] else []
  | .typingPlain repr => [repr]
  | .typingOrigin o => annTexts o
  | .typingArgs o args => annTexts o ++ annTextsList args
  | .str s => [s]
  | .other repr => [repr]

/-- The texts of a list of annotations. -/
def annTextsList : List PyAnn → List Str
  | [] => []
  | a :: l => annTexts a ++ annTextsList l
end

end Bindgen.Spec

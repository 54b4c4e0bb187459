import Verif.Model.Python
/-!
# Classification of attributes: `syntax/common/attribute_variant.rs`
-/
namespace Bindgen

/-- `enum AttributeVariant` — attribute_variant.rs:7-16. -/
inductive Variant
  | import | module | class | function | method | closure | typeVar | property
  deriving DecidableEq, Repr

/-- The debug assertions on the name and the module of the type — attribute_variant.rs:30-36. -/
def checkType (E : Env) (o : PyObj) : Res Unit := do
  Ident.checkPy E [o.typeName]
  Path.checkPy E [o.typeModule]

/-- `AttributeVariant::determine` — attribute_variant.rs:19-86. The type name is read through
`Ident::from_py(..).as_py()`, the modules through `Path::from_py(..).to_py()`. -/
def determine (E : Env) (o : PyObj) (attrModule owner : Path) (considerImport : Bool) : Res Variant := do
  checkType E o
  let typeName := (Ident.fromPy E o.typeName).asPy
  let typeModule := (Path.fromPy E o.typeModule).toPy
  let isFunction ← Res.orErr .pyError o.isFunction
  let isMethod ← Res.orErr .pyError o.isMethod
  let isClosure := typeModule = c!"functools" && typeName = c!"partial"
  let isType := [c!"typing", c!"types"].contains typeModule
  let isInLocals := Str.containsSub c!"<locals>" o.repr
  let isExternal := !isInLocals && decide (attrModule ≠ owner)
  let isImported := isExternal && (o.isModule || o.isClass || isFunction || isMethod)
  return if considerImport && isImported then .import
    else if o.isModule then .module
    else if o.isClass then .class
    else if o.isCFunction || isFunction then .function
    else if isMethod then .method
    else if isClosure then .closure
    else if isType then .typeVar
    else .property

end Bindgen

import Verif.Spec.Faithful
import Verif.Spec.TypeNames
/-! # Specification: interpreters on which the engine does not panic -/
namespace Bindgen.Spec

/-- Without `::`, if debug assertions are on. -/
def NoColons (E : Env) (s : Str) : Prop := E.debug = true → ¬ c!"::" <:+: s

/-- The annotation can be read (C15 says when), and the texts in it are without `::`, if debug assertions are on. -/
structure Readable (E : Env) (a : PyAnn) : Prop where
  read : ∃ t, fromAnn E a = .ok t
  texts : ∀ s ∈ annTexts a, NoColons E s

/-- The annotations of a signature can be read; if debug assertions are on, the parameters have names. -/
structure TameSig (E : Env) (s : PySig) : Prop where
  params : ∀ p ∈ s.params, ∀ a, p.ann = some a → Readable E a
  ret : ∀ a, s.ret = some a → Readable E a
  names : E.debug = true → ∀ p ∈ s.params, p.name ≠ []

/-- The annotations of the object and of its getter and setter can be read, and so can its type; a setter has a parameter for the
value. If debug assertions are on, its type has a name, and there is no `::` in what the object says about its origin. -/
structure TameObj (E : Env) (o : PyObj) : Prop where
  sig : ∀ s, o.fn.sig = some s → TameSig E s
  own : Readable E (.cls o.typeBases o.typeRepr)
  getter : ∀ g a, o.fget = some g → g.ret = some (some a) → Readable E a
  setter : ∀ f ps, o.fset = some f → f.params = some ps → ∃ r v rest, ps = r :: v :: rest ∧ ∀ a, v = some a → Readable E a
  typed : E.debug = true → o.typeName ≠ []
  texts : NoColons E o.typeModule ∧ NoColons E o.modPath ∧ ∀ n, o.dunderName = some n → NoColons E n

/-- A class whose members are tame and can be listed, and whose constructor and call operator have a parameter other than `_`. -/
structure TameClass (E : Env) (pc : PyClass) : Prop where
  listed : pc.dirRaises = false ∧ (E.debug = true → [] ∉ pc.dir)
  objs : ∀ s o, pc.getattr s = some o → TameObj E o
  special : ∀ s o sg, pc.getattr s = some o → s = c!"__init__" ∨ s = c!"__call__" → o.fn.sig = some sg →
    ∃ p ∈ sg.params, p.name ≠ c!"_" ∧ p.name ≠ c!"r#_"

/-- The text of the path an attribute comes from, up to the first dot: its `__module__`, or its `__name__`, or its name. -/
def originRoot (s : Str) (o : PyObj) : Str :=
  Str.beforeChar '.' (if o.modPath = [] then o.dunderName.getD s else o.modPath)

/-- An interpreter on which the engine does not panic: modules have names and can be listed, the packages around a module can be imported and have a
docstring that can be read, attributes and classes are tame, names that the configuration lets through can be spelled, what
is imported from elsewhere comes from something that can be imported (if dependencies are generated), and no module is nested
deeper than the stack allows. -/
structure Tame (E : Env) (cfg : Config) (W : World) (fuel : Nat) : Prop where
  named : ∀ id m, W.get? id = some m → m.name ≠ none
  listed : ∀ id m, W.get? id = some m → m.dirRaises = false ∧ NoColons E m.modPath ∧
    (E.debug = true → ∀ l, m.all = some l → [] ∉ l)
  handles : ∀ id m s a id', W.get? id = some m → m.getattr s = some a → a.mod = some id' → W.get? id' ≠ none
  packages : ∀ id n p, Called W id n → (p ++ c!".") <+: n →
    ∃ id' m, W.importMod p = some id' ∧ W.get? id' = some m ∧ m.doc ≠ none
  objs : ∀ id m s a, W.get? id = some m → m.getattr s = some a → TameObj E a.obj ∧ TameClass E a.cls
  moduleNames : ∀ id n, Called W id n → ∀ s ∈ Str.splitChar '.' n, s ∉ unspellable
  attrNames : ∀ id m s a, W.get? id = some m → s ∈ m.dir → m.getattr s = some a →
    cfg.isAttrAllowed (Ident.fromPy E s) (Path.fromPy E a.obj.modPath) = true → s ∉ unspellable
  origins : cfg.generateDependencies = true → ∀ id m s a, W.get? id = some m → s ∈ m.dir → m.getattr s = some a →
    a.obj.isModule = true ∨ a.obj.isClass = true ∨ a.obj.isFunction = some true ∨ a.obj.isMethod = some true →
    W.importMod (originRoot s a.obj) ≠ none
  depth : ∀ id n, Called W id n → (Str.splitChar '.' n).length ≤ fuel

end Bindgen.Spec

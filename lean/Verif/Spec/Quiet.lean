import Verif.Spec.Faithful
/-! # Specification: interpreters that answer every question -/
namespace Bindgen.Spec

/-- The object can be asked whether it is a function or a method; docstrings can be read; parameters have names that are identifiers. -/
structure QuietObj (E : Env) (o : PyObj) : Prop where
  kind : o.isFunction ≠ none ∧ o.isMethod ≠ none
  doc : o.fn.doc ≠ none
  getter : ∀ g, o.fget = some g → g.doc ≠ none
  setter : ∀ f, o.fset = some f → f.doc ≠ none
  params : ∀ s, o.fn.sig = some s → ∀ p ∈ s.params, IsIdent E p.name

/-- The docstring of the class can be read, its members have names that are identifiers, and they are quiet. -/
structure QuietClass (E : Env) (c : PyClass) : Prop where
  doc : c.doc ≠ none
  members : ∀ s ∈ c.dir, IsIdent E s
  objs : ∀ s o, c.getattr s = some o → QuietObj E o

/-- An interpreter that raises nothing that the engine reports as an error: docstrings of modules can be read, the submodules of
packages can be listed, and attributes and classes are quiet. -/
structure Quiet (E : Env) (W : World) : Prop where
  docs : ∀ id m, W.get? id = some m → m.doc ≠ none
  submodules : ∀ id m, W.get? id = some m → m.isPackage = true → m.iterModules ≠ none
  objs : ∀ id m s a, W.get? id = some m → m.getattr s = some a → QuietObj E a.obj ∧ QuietClass E a.cls

end Bindgen.Spec

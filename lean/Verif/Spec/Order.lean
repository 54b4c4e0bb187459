import Verif.Model.Env
/-! # Specification: environments that differ in the iteration order of hash sets -/
namespace Bindgen.Spec

/-- The two environments differ at most in the order in which hash sets are iterated. -/
structure SameButOrder (E E' : Env) : Prop where
  xidStart : E'.xidStart = E.xidStart
  xidContinue : E'.xidContinue = E.xidContinue
  alnum : E'.alnum = E.alnum
  debug : E'.debug = E.debug
  numpy : E'.numpy = E.numpy

end Bindgen.Spec

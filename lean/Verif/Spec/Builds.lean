import Verif.Model.Env
import Verif.Model.Res
/-! # Specification: the two build profiles of the engine -/
namespace Bindgen.Spec

/-- The same machine with the engine built in the release profile: no overflow checks, no debug assertions. -/
def releaseOf (E : Env) : Env := { E with debug := false }

/-- The failures that exist in the debug profile only: an overflow check or a debug assertion. -/
inductive DebugOnly : Fail → Prop
  | overflow : DebugOnly (.panic .overflow)
  | assertion : DebugOnly (.panic .assertion)

/-- What the debug build does (`r`) given what the release build does (`r'`): the same, or it stops at a check. -/
def SameOrCheck {α : Type} (r r' : Res α) : Prop := r = r' ∨ ∃ f, DebugOnly f ∧ r = .error f

end Bindgen.Spec

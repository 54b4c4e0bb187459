import Verif.Spec.Tree
import Verif.Spec.Deps
import Verif.Spec.Names
/-! # Specification: interpreters whose modules have the names they are imported by -/
namespace Bindgen.Spec

/-- A name of Python that is an identifier (and not `super`, which the code confuses with the Rust keyword). -/
def PyIdent (E : Env) (s : Str) : Prop := PySegment s ∧ IsIdent E s

/-- The interpreter is faithful to its names: names are identifiers; what is imported as `a.b` calls itself `a.b`; and if the
attribute `i` of a module `n` is a module that cannot be imported as `n.i`, then it calls itself `n.i`, or it is plainly
something from elsewhere (`n` neither lists a submodule `i` nor is the `__module__` of the attribute). -/
structure Faithful (E : Env) (W : World) : Prop where
  names : ∀ id m n, W.get? id = some m → m.name = some n →
    ∃ segs : List Str, segs ≠ [] ∧ (∀ s ∈ segs, PyIdent E s) ∧ n = Str.join c!"." segs
  attrs : ∀ id m, W.get? id = some m → ∀ s ∈ m.dir, PyIdent E s
  listed : ∀ id m l, W.get? id = some m → m.iterModules = some l → ∀ s ∈ l, PyIdent E s
  imported : ∀ s id, W.importMod s = some id → Called W id s
  modules : ∀ id m n i a id', W.get? id = some m → m.name = some n → m.getattr i = some a → a.mod = some id' →
    W.importMod (n ++ '.' :: i) = none → Called W id' (n ++ '.' :: i) ∨
      ((∀ l, m.iterModules = some l → i ∉ l) ∧ Path.fromPy E a.obj.modPath ≠ Path.fromPy E n ∧
        Str.containsSub c!"<locals>" a.obj.repr = false)

end Bindgen.Spec

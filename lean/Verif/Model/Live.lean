import Verif.Model.Session
/-!
# Runs in an interpreter that changes

The other files read every module from one snapshot of the interpreter. Here each request has its own snapshot: loading modules
for one request changes what the next one sees.
-/
namespace Bindgen

/-- The requests of an engine, each in the interpreter as it is at that time, and the generation in the last one —
codegen.rs:63-110, 136-163. Simplification: within a request a module is read from one snapshot. -/
def runLive (E : Env) (fuel : Nat) (cfg : Config) (steps : List (World × Request)) (W : World) : Res (List Item) := do
  let c ← foldRes (fun c s => c.request E s.1 fuel s.2) (Codegen.new cfg) steps
  c.generate E W fuel

/-- The list that `module.index()` (pyo3 0.21.2) stores as `__all__` in a module without it — module.rs:567. -/
def newIndex : PyAttr where
  obj := { typeName := c!"list", typeModule := c!"builtins", repr := c!"[]", typeBases := [.list], typeRepr := c!"<class 'list'>" }

/-- A module after `module.index()` — module.rs:567: `__all__` is there. Simplification: `dir()` lists it first (the real
`dir()` is sorted). -/
def PyMod.indexed (m : PyMod) : PyMod :=
  match m.getattr c!"__all__" with
  | some _ => m
  | none => { m with dir := c!"__all__" :: m.dir, attrs := (c!"__all__", newIndex) :: m.attrs }

/-- The attribute that a package gets when a submodule is imported for the first time, as by module.rs:223-231, 278-285.
Simplification: `str()` leaves out the name and the file. -/
def submoduleAttr (full : Str) (id : Nat) : PyAttr where
  obj := { typeName := c!"module", typeModule := c!"builtins", repr := c!"<module>", isModule := true,
           dunderName := some full, typeRepr := c!"<class 'module'>" }
  mod := some id

/-- A package after the import of a submodule — module.rs:223-231, 278-285. -/
def PyMod.bound (m : PyMod) (pkg sub : Str) (id : Nat) : PyMod :=
  { m with dir := m.dir ++ [sub], attrs := m.attrs ++ [(sub, submoduleAttr (pkg ++ c!"." ++ sub) id)] }

end Bindgen

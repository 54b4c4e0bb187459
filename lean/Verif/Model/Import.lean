import Verif.Model.Emit
import Verif.Model.Config
/-!
# Imports and type variables: `syntax/import.rs`, `syntax/type_var.rs`
-/
namespace Bindgen

/-- `enum ImportType` — import.rs:69-74. -/
inductive ImportType
  | external | packageReexport | submoduleReexport
  deriving DecidableEq, Repr

/-- `ImportType::from_paths` — import.rs:77-92. The last arm of the match is unreachable by construction
(`is_submodule_reexport` implies `is_package_reexport`). -/
def ImportType.fromPaths (origin target : Path) : ImportType :=
  let isPackage := match target.root with | some r => origin.startsWith r | none => false
  let isSubmodule := isPackage && match target.parent with | some p => origin.startsWith p | none => false
  if isSubmodule then .submoduleReexport else if isPackage then .packageReexport else .external

/-- `struct Import` — import.rs:4-9. -/
structure Import where
  origin : Path
  target : Path
  typ : ImportType
  deriving DecidableEq, Repr

/-- `Import::new` — import.rs:12-19. -/
def Import.new (origin target : Path) : Import := ⟨origin, target, ImportType.fromPaths origin target⟩

/-- `Import::is_external` — import.rs:21-23. -/
def Import.isExternal (i : Import) : Bool := i.typ = .external

/-- `Import::generate` — import.rs:25-66: the emitted `use` item, if any. -/
def Import.generate (E : Env) (i : Import) : Res (Option Item) :=
  if i.typ ≠ .submoduleReexport then .ok none
  else if i.origin = i.target then .ok none
  else do
    let rel ← ((i.target.parent).getD Path.empty).relativeTo i.origin true
    if rel.synOk E then do
      let o ← i.origin.name
      let t ← i.target.name
      if o = t then return some (.use rel none)
      else return some (.use rel (some (← t.trySyn E)))
    else return none

/-- `struct TypeVar` — type_var.rs:4-7. -/
structure TypeVar where
  name : Path
  deriving DecidableEq, Repr

/-- `TypeVar::generate` — type_var.rs:14-19. -/
def TypeVar.generate (E : Env) (t : TypeVar) : Res Item := do
  return .typeAlias (← (← t.name.name).trySyn E)

end Bindgen

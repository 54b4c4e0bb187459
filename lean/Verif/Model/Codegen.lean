import Verif.Model.Module
/-!
# The engine: `codegen.rs`

The interpreter is one snapshot `W` for the whole life of an engine (see DESIGN.md).  `fuel` bounds the recursion depth of
`Module::parse`.
-/
namespace Bindgen

/-- `struct Codegen` — codegen.rs:44-50; the hash map is the list of its insertions (a later insertion wins). -/
structure Codegen where
  cfg : Config := {}
  modules : List Module := []
  embedded : List (Str × Str) := []

namespace Codegen

/-- `Codegen::new` — codegen.rs:53-60. -/
def new (cfg : Config) : Codegen := { cfg := cfg }

/-- `Codegen::module` — codegen.rs:63-74, without the handling of standard output (`Model/Io.lean`). -/
def module (E : Env) (W : World) (fuel : Nat) (c : Codegen) (id : Nat) : Res Codegen := do
  let m ← Module.parse E c.cfg W fuel id
  return { c with modules := c.modules ++ [m] }

/-- `Codegen::module_name` — codegen.rs:77-84. -/
def moduleName (E : Env) (W : World) (fuel : Nat) (c : Codegen) (name : Str) : Res Codegen := do
  c.module E W fuel (← Res.orErr .pyError (W.importMod name))

/-- `Codegen::module_from_str` — codegen.rs:96-110. Simplification: the snapshot contains the effects of running the source
(the new module is in `sys.modules`). -/
def moduleFromStr (E : Env) (W : World) (fuel : Nat) (c : Codegen) (source name : Str) : Res Codegen := do
  let c := { c with embedded := c.embedded ++ [(name, source)] }
  c.module E W fuel (← Res.orErr .pyError (W.fromCode source name))

/-- `Codegen::modules` — codegen.rs:113-123. -/
def addModules (E : Env) (W : World) (fuel : Nat) (c : Codegen) (ids : List Nat) : Res Codegen :=
  foldRes (fun c id => c.module E W fuel id) c ids

/-- `Codegen::module_names` — codegen.rs:126-133. -/
def moduleNames (E : Env) (W : World) (fuel : Nat) (c : Codegen) (names : List Str) : Res Codegen :=
  foldRes (fun c n => c.moduleName E W fuel n) c names

end Codegen

/-! ## Dependencies -/

mutual
/-- `get_imports_recursive` for one module — codegen.rs:175-183. -/
def Module.externalImports : Module → List Import
  | ⟨_, _, imports, subs, _, _, _, _, _, _, _⟩ => imports.filter Import.isExternal ++ externalImportsList subs
/-- `get_imports_recursive` — codegen.rs:172-186. -/
def externalImportsList : List Module → List Import
  | [] => []
  | m :: l => m.externalImports ++ externalImportsList l
end

/-- The loop over `import[1..]` — codegen.rs:209-219: follow attributes as long as they are modules. -/
def walkModules (W : World) (id : Nat) : List Ident → Nat
  | [] => id
  | i :: rest =>
    match (W.get? id).bind (fun m => (m.getattr i.asPy).bind (fun a => a.mod)) with
    | some id' => walkModules W id' rest
    | none => id

/-- The last module within the path of an import — codegen.rs:200-221. -/
def lastModule (W : World) (origin : Path) : Res Nat := do
  let root ← Res.ofOption .unreachable origin.root
  let id ← Res.ofOption .unwrap (W.importMod root.toPy)
  return walkModules W id (origin.segs.drop 1)

/-- The debug assertions on the name and the `__module__` of a module — codegen.rs:228-234. -/
def checkDep (E : Env) (m : PyMod) (name : Str) : Res Unit := do
  Ident.checkPy E [name]
  Path.checkPy E [m.modPath]

/-- One external import — codegen.rs:196-248 (the iterator is lazy: an import is resolved after the previous one has been
parsed); the state is the names seen by `unique_by` and the modules of the engine. -/
def depStep (E : Env) (cfg : Config) (W : World) (fuel : Nat) (st : List Str × List Module) (origin : Path) :
    Res (List Str × List Module) := do
  let id ← lastModule W origin
  let m ← Res.ofOption .unreachable (W.get? id)
  let name ← Res.ofOption .unwrap m.name
  if st.1.contains name then return st
  else do
    checkDep E m name
    if cfg.isAttrAllowed (Ident.fromPy E name) (Path.fromPy E m.modPath) then do
      let parsed ← Module.parse E cfg W fuel id
      return (st.1 ++ [name], st.2 ++ [parsed])
    else return (st.1 ++ [name], st.2)

/-- `Codegen::parse_dependencies` — codegen.rs:171-251. -/
def parseDependencies (E : Env) (cfg : Config) (W : World) (fuel : Nat) (mods : List Module) : Res (List Module) := do
  let origins := unique ((externalImportsList mods).map Import.origin)
  let (_, mods) ← foldRes (depStep E cfg W fuel) ([], mods) origins
  return mods

/-! ## Canonicalisation -/

/-- `unwrap_or_else(|_| unreachable!())` on a result — codegen.rs:266. -/
def orUnreachable {α : Type} : Res α → Res α
  | .error (.err _) => .error (.panic .unreachable)
  | r => r

/-- Embedding a module into its parent packages — codegen.rs:259-270. -/
def Module.wrap (W : World) (m : Module) : Res Module :=
  if m.name.segs.length > 1 then
    foldRes (fun pkg i => do
      let parent ← orUnreachable (Module.empty W (Path.ofSegs (m.name.segs.take (i + 1))))
      return { parent with submodules := parent.submodules ++ [pkg] }) m (List.range (m.name.segs.length - 1)).reverse
  else .ok m

/-- Insertion in front of the first module that is not smaller; one step of the sort at codegen.rs:280. -/
def insertMod (m : Module) : List Module → List Module
  | [] => [m]
  | x :: l => if m.name.le x.name then m :: x :: l else x :: insertMod m l

/-- `modules.sort_by(|a, b| a.name.cmp(&b.name))` (stable) — codegen.rs:280. -/
def sortMods : List Module → List Module
  | [] => []
  | m :: l => insertMod m (sortMods l)

/-- The loop of `get_duplicate_modules` — codegen.rs:281-296; `i` is the position of the list in the whole, the fuel its
length. -/
def dupRanges : Nat → Nat → List Module → List (Nat × Nat)
  | 0, _, _ => []
  | _, _, [] => []
  | fuel + 1, i, m :: l =>
    let span := 1 + (l.takeWhile (fun x => x.name = m.name)).length
    (if span > 1 then [(i, i + span)] else []) ++ dupRanges fuel (i + span) ((m :: l).drop span)

/-- `modules[start] = merge(&modules[start..end]); modules.drain(start + 1..end)` — codegen.rs:325-329, 370-374. -/
def mergeRange (merge : List Module → Module) (l : List Module) (r : Nat × Nat) : List Module :=
  l.take r.1 ++ merge ((l.drop r.1).take (r.2 - r.1)) :: l.drop r.2

/-- Sorting and merging duplicates, ranges from the back to the front — codegen.rs:322-331, 368-375. -/
def mergeDuplicates (merge : List Module → Module) (l : List Module) : List Module :=
  let sorted := sortMods l
  (dupRanges sorted.length 0 sorted).reverse.foldl (mergeRange merge) sorted

/-- `merge_duplicate_submodules_recursive` — codegen.rs:298-366. The fuel bounds the nesting depth (`C36`: the depth of the
input is enough). `input` is never empty. -/
def mergeModules (E : Env) : Nat → List Module → Module
  | 0, input => input.headD default
  | fuel + 1, input =>
    { input.headD default with
      prelude := E.setOrder (input.flatMap Module.prelude)
      imports := E.setOrder (input.flatMap Module.imports)
      submodules := mergeDuplicates (mergeModules E fuel) (input.flatMap Module.submodules)
      classes := E.setOrder (input.flatMap Module.classes)
      functions := E.setOrder (input.flatMap Module.functions)
      typeVars := E.setOrder (input.flatMap Module.typeVars)
      properties := E.setOrder (input.flatMap Module.properties) }

mutual
/-- Nesting depth of a module; measure of the recursion at codegen.rs:298-366. -/
def Module.depth : Module → Nat
  | ⟨_, _, _, subs, _, _, _, _, _, _, _⟩ => depthList subs + 1
/-- Nesting depth of a forest; measure of the recursion at codegen.rs:298-366. -/
def depthList : List Module → Nat
  | [] => 0
  | m :: l => max m.depth (depthList l)
end

/-- `merge_duplicate_modules` — codegen.rs:278-376. -/
def mergeTop (E : Env) (mods : List Module) : List Module := mergeDuplicates (mergeModules E (depthList mods)) mods

/-- `Codegen::canonicalize` — codegen.rs:253-276. -/
def canonicalize (E : Env) (W : World) (mods : List Module) : Res (List Module) := do
  return mergeTop E (← Res.traverse (Module.wrap W) mods)

/-! ## Generation -/

mutual
/-- Types of one module — codegen.rs:381-391. -/
def Module.types : Module → List Path
  | ⟨_, _, _, subs, cs, ts, _, _, _, _, _⟩ => cs.map Class.name ++ ts.map TypeVar.name ++ typesList subs
/-- `get_types_recursive` — codegen.rs:379-393. -/
def typesList : List Module → List Path
  | [] => []
  | m :: l => m.types ++ typesList l
end

/-- `Codegen::get_all_types` — codegen.rs:378-398. -/
def getAllTypes (mods : List Module) : List Path := unique (typesList mods)

/-- Embedding the source code — codegen.rs:152-156. -/
def embedSources (embedded : List (Str × Str)) (mods : List Module) : List Module :=
  mods.map (fun m => match embedded.reverse.lookup m.name.toRs with
    | some s => { m with source := some s }
    | none => m)

/-- The error of an engine without modules — codegen.rs:137-141. -/
def noModulesError : PyBindgenError := .codegenError c!"There are no modules for which to generate bindings"

/-- The modules that are generated: dependencies, canonical form, sources — codegen.rs:143-156. -/
def Codegen.prepare (E : Env) (W : World) (fuel : Nat) (c : Codegen) : Res (List Module) := do
  let mods ← ifOn c.cfg.generateDependencies (parseDependencies E c.cfg W fuel c.modules) c.modules
  let mods ← canonicalize E W mods
  return embedSources c.embedded mods

/-- `Codegen::generate` — codegen.rs:136-163. -/
def Codegen.generate (E : Env) (W : World) (fuel : Nat) (c : Codegen) : Res (List Item) :=
  if c.modules.isEmpty then .error (.err noModulesError)
  else do
    let mods ← c.prepare E W fuel
    Module.generateList E c.cfg W.importable mods (getAllTypes mods) mods

end Bindgen

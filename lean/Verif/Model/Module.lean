import Verif.Model.Class
import Verif.Model.Import
/-!
# Modules: `syntax/module.rs`
-/
namespace Bindgen

/-- `struct Module` — module.rs:10-23. -/
structure Module where
  name : Path
  prelude : List Ident := []
  imports : List Import := []
  submodules : List Module := []
  classes : List Class := []
  typeVars : List TypeVar := []
  functions : List Function := []
  properties : List Property := []
  doc : Option Str := none
  isPackage : Bool := true
  source : Option Str := none
  deriving Repr

instance : Inhabited Module := ⟨{ name := Path.empty }⟩

mutual
/-- `#[derive(PartialEq)]` — module.rs:10. -/
def Module.decEq (a b : Module) : Decidable (a = b) :=
  match a, b with
  | ⟨n, p, i, ss, c, t, f, q, d, k, s⟩, ⟨n', p', i', ss', c', t', f', q', d', k', s'⟩ =>
    if h : n = n' ∧ p = p' ∧ i = i' ∧ c = c' ∧ t = t' ∧ f = f' ∧ q = q' ∧ d = d' ∧ k = k' ∧ s = s' then
      match Module.decEqList ss ss' with
      | isTrue h' => isTrue (by obtain ⟨rfl, rfl, rfl, rfl, rfl, rfl, rfl, rfl, rfl, rfl⟩ := h; subst h'; rfl)
      | isFalse h' => isFalse (fun e => h' (by injection e))
    else isFalse (fun e => h (by injection e; exact ⟨by assumption, by assumption, by assumption, by assumption,
      by assumption, by assumption, by assumption, by assumption, by assumption, by assumption⟩))
/-- The same on lists — module.rs:10 (derived). -/
def Module.decEqList (a b : List Module) : Decidable (a = b) :=
  match a, b with
  | [], [] => isTrue rfl
  | [], _ :: _ => isFalse nofun
  | _ :: _, [] => isFalse nofun
  | x :: xs, y :: ys =>
    match Module.decEq x y with
    | isTrue h => match Module.decEqList xs ys with
      | isTrue h' => isTrue (by subst h h'; rfl)
      | isFalse h' => isFalse (fun e => h' (by injection e))
    | isFalse h => isFalse (fun e => h (by injection e))
end

instance : DecidableEq Module := Module.decEq

/-- `Module::empty` — module.rs:26-52. -/
def Module.empty (W : World) (name : Path) : Res Module := do
  let id ← Res.orErr .pyError (W.importMod name.toPy)
  let m ← Res.ofOption .unreachable (W.get? id)
  let doc ← readDoc m.doc
  return { name := name, doc := doc }

/-! ## Parsing -/

/-- `Module::extract_submodules` — module.rs:524-559: the names as a list without order (the result is a hash set). -/
def extractSubmodules (E : Env) (cfg : Config) (m : PyMod) (name : Path) : Res (List Ident) := do
  let names ← Res.orErr .pyError m.iterModules
  Ident.checkPy E names
  return (names.map (Ident.fromPy E)).filter (fun i => cfg.isAttrAllowed i name)

/-- The index of a module — module.rs:567-575. -/
def indexIdents (E : Env) (m : PyMod) : List Ident :=
  match m.all with
  | some l => unique (l.map (Ident.fromPy E))
  | none => []

/-- The index is the set of public names (equality of the two hash sets) — module.rs:579-591. -/
def indexIsPublic (E : Env) (m : PyMod) : Bool :=
  let index := indexIdents E m
  let pub := (m.dir.map (Ident.fromPy E)).filter (fun i => !Str.startsWith i.asPy c!"_")
  index.all (fun i => pub.contains i) && pub.all (fun i => index.contains i)

/-- The panics of `Module::extract_prelude` — module.rs:561-624: the debug assertions on the index (570), `dir` (581-583), the
debug assertions on the `__module__` of what the index lists (598; evaluated if dependencies are off and the index is kept). -/
def checkPrelude (E : Env) (cfg : Config) (m : PyMod) (name : Path) : Res Unit := do
  Ident.checkPy E (m.all.getD [])
  checkDir E m.dirRaises m.dir
  if indexIsPublic E m || cfg.generateDependencies || name.root.isNone then .ok ()
  else Path.checkPy E (((indexIdents E m).filterMap (fun i => m.getattr i.asPy)).map (fun a => a.obj.modPath))

/-- `Module::extract_prelude` — module.rs:561-624, without its panics (`checkPrelude`). -/
def extractPrelude (E : Env) (cfg : Config) (m : PyMod) (name : Path) : List Ident :=
  let index := indexIdents E m
  if indexIsPublic E m then []
  else
    let index := if cfg.generateDependencies then index
      else index.filter (fun i => match m.getattr i.asPy with
        | some a => match name.root with
          | some r => (Path.fromPy E a.obj.modPath).startsWith r
          | none => false
        | none => false)
    index.filter (fun i => match m.getattr i.asPy with
      | some _ => cfg.isAttrAllowed i name
      | none => false)

/-- The lists filled while parsing a module — module.rs:77-83 and `submodules_to_process` (70-75). -/
structure ParseState where
  subs : List Ident := []
  imports : List Import := []
  conflicts : List Import := []
  classes : List Class := []
  typeVars : List TypeVar := []
  functions : List Function := []
  properties : List Property := []

/-- Every segment of the origin of an import is allowed — module.rs:139-149. -/
def originAllowed (cfg : Config) (origin : Path) : Bool :=
  (List.range origin.segs.length).all (fun i =>
    match origin.segs[i]? with
    | some s => cfg.isAttrAllowed s (Path.ofSegs (origin.segs.take i))
    | none => true)

/-- The attributes that are parsed — module.rs:85-119. -/
def moduleCandidates (E : Env) (cfg : Config) (m : PyMod) : List (Ident × PyAttr) :=
  (unique (m.dir.map (Ident.fromPy E))).filterMap (fun i =>
    match m.getattr i.asPy with
    | none => none
    | some a => if cfg.isAttrAllowed i (Path.fromPy E a.obj.modPath) then some (i, a) else none)

/-- An attribute that is imported from elsewhere — module.rs:126-166. -/
def stepImport (E : Env) (cfg : Config) (name : Path) (st : ParseState) (i : Ident) (a : PyAttr) : ParseState :=
  let full := name.join (Path.ofIdent i)
  let origin := (Path.fromPy E a.obj.modPath).join (Path.fromPy E (a.obj.dunderName.getD i.asPy))
  if origin = full then st
  else if !originAllowed cfg origin then st
  else if st.subs.contains i then { st with conflicts := st.conflicts ++ [Import.new origin full] }
  else { st with imports := st.imports ++ [Import.new origin full] }

/-- The panics while listing the attributes — module.rs:86-105: `dir` raises, and the debug assertions on the names and on the
`__module__` of each attribute. Simplification: they come before the first attribute is parsed (the iterator is lazy). -/
def checkAttrs (E : Env) (m : PyMod) : Res Unit := do
  checkDir E m.dirRaises m.dir
  Path.checkPy E (((m.dir.map (Ident.fromPy E)).filterMap (fun i => m.getattr i.asPy)).map (fun a => a.obj.modPath))

/-- One attribute — module.rs:121-209. -/
def moduleStep (E : Env) (cfg : Config) (name : Path) (st : ParseState) (m : Ident × PyAttr) : Res ParseState := do
  let full := name.join (Path.ofIdent m.1)
  match ← determine E m.2.obj (Path.fromPy E m.2.obj.modPath) name true with
  | .import => do
    -- the debug assertion at 127
    Path.checkPy E [m.2.obj.dunderName.getD m.1.asPy]
    return stepImport E cfg name st m.1 m.2
  | .module => return { st with subs := st.subs ++ [m.1] }
  | .class => do
    let c ← Class.parse E cfg m.2.cls full
    return { st with classes := st.classes ++ [c] }
  | .typeVar => return { st with typeVars := st.typeVars ++ [⟨full⟩] }
  | .function => do
    let f ← Function.parse E m.2.obj.fn full .function
    return { st with functions := st.functions ++ [f] }
  | .method => return st
  | .closure => do
    let f ← Function.parse E m.2.obj.fn full .closure
    return { st with functions := st.functions ++ [f] }
  | .property => do
    let p ← Property.parse E m.2.obj full .module
    return { st with properties := st.properties ++ [p] }

/-- The items that an import that overwrites a submodule is replaced by — module.rs:233-274: the items of the shadowed
submodule that the import refers to, under the name of the import. -/
def takeOver (st : ParseState) (c : Import) (s : Module) : ParseState where
  subs := st.subs
  conflicts := st.conflicts
  imports := st.imports ++ ((s.imports.find? (fun i => i.target = c.origin)).map (fun i => { i with target := c.target })).toList
  classes := st.classes ++ ((s.classes.find? (fun x => x.name = c.origin)).map (fun x => { x with name := c.target })).toList
  typeVars := st.typeVars ++ ((s.typeVars.find? (fun x => x.name = c.origin)).map (fun x => { x with name := c.target })).toList
  functions := st.functions ++ ((s.functions.find? (fun x => x.name = c.origin)).map (fun x => { x with name := c.target })).toList
  properties := st.properties ++ ((s.properties.find? (fun x => x.name = c.origin)).map (fun x => { x with name := c.target })).toList

/-- `if let Ok(x) = …` (module.rs:223) and `extend(Result)` (module.rs:410): an `Err` is dropped, a panic is not. -/
def okOrDrop {α : Type} : Res α → Res (Option α)
  | .ok a => .ok (some a)
  | .error (.err _) => .ok none
  | .error (.panic p) => .error (.panic p)

/-- The module imported for a submodule name: as a module, else as an attribute of the package — module.rs:278-285. -/
def submoduleId (W : World) (m : PyMod) (name : Path) (i : Ident) : Option Nat :=
  match W.importMod (name.join (Path.ofIdent i)).toPy with
  | some id => some id
  | none => (m.getattr i.asPy).bind (fun a => a.mod)

/-- One submodule — module.rs:215-287; `rec` is the recursive call of `Module::parse`. -/
def submoduleStep (W : World) (m : PyMod) (name : Path) (rec : Nat → Res Module) (acc : ParseState × List Module)
    (i : Ident) : Res (ParseState × List Module) :=
  let full := name.join (Path.ofIdent i)
  match acc.1.conflicts.find? (fun c => c.target = full) with
  | some c =>
    match W.importMod full.toPy with
    | none => .ok acc
    | some id => do
      match ← okOrDrop (rec id) with
      | some s => return (takeOver acc.1 c s, acc.2)
      | none => return acc
  | none =>
    match submoduleId W m name i with
    | none => .ok acc
    | some id => do
      let s ← rec id
      return (acc.1, acc.2 ++ [s])

/-- A step that a flag switches on, with the value when it is off — `if flag { … } else { default }`,
module.rs:65-75, 211-290, 392-467. -/
def ifOn {α : Type} (flag : Bool) (r : Res α) (off : α) : Res α := if flag then r else .ok off

/-- `Module::parse` — module.rs:54-316. The fuel bounds the recursion depth: running out stands for a stack overflow (the
Rust recursion is unbounded). Simplifications: `hasattr(module, "__path__")` does not raise. -/
def Module.parse (E : Env) (cfg : Config) (W : World) : Nat → Nat → Res Module
  | 0, _ => .error (.panic .stackOverflow)
  | fuel + 1, id => do
    let m ← Res.ofOption .unreachable (W.get? id)
    let n ← Res.ofOption .unwrap m.name
    Path.checkPy E [n]
    let name := Path.fromPy E n
    ifOn cfg.generatePreludes (checkPrelude E cfg m name) ()
    let prelude := if cfg.generatePreludes then extractPrelude E cfg m name else []
    let subs ← ifOn m.isPackage (extractSubmodules E cfg m name) []
    checkAttrs E m
    let st ← foldRes (moduleStep E cfg name) { subs := subs } (moduleCandidates E cfg m)
    let (st, mods) ← ifOn cfg.traverseSubmodules
      (foldRes (submoduleStep W m name (Module.parse E cfg W fuel)) (st, []) (E.setOrder st.subs)) (st, [])
    let doc ← readDoc m.doc
    return { name := name, prelude := prelude, imports := st.imports, submodules := mods, classes := st.classes,
             typeVars := st.typeVars, functions := st.functions, properties := st.properties, doc := doc,
             isPackage := m.isPackage, source := none }

/-! ## Generation -/

mutual
/-- `Module::check_path_exists_recursive` with `consider_imports = false` (its only use) — module.rs:673-687. -/
def Module.pathExists (p : Path) : Module → Bool
  | ⟨_, _, _, subs, cs, ts, fs, ps, _, _, _⟩ =>
    nameExists p subs || cs.any (fun c => c.name = p) || fs.any (fun f => f.name = p) ||
      ts.any (fun t => t.name = p) || ps.any (fun q => q.name = p) || pathExistsList p subs
/-- `self.submodules.iter().any(|module| module.name == *path)` — module.rs:675. -/
def nameExists (p : Path) : List Module → Bool
  | [] => false
  | m :: l => decide (m.name = p) || nameExists p l
/-- The recursive calls — module.rs:683-686. -/
def pathExistsList (p : Path) : List Module → Bool
  | [] => false
  | m :: l => m.pathExists p || pathExistsList p l
end

/-- The names `check_ident_exists_immediate` compares with, in order — module.rs:689-712. -/
def Module.immediateNames (m : Module) (considerImports : Bool) : List Path :=
  (if considerImports then m.imports.map Import.target else []) ++ m.submodules.map Module.name ++
    m.classes.map Class.name ++ m.functions.map Function.name ++ m.typeVars.map TypeVar.name ++
    m.properties.map Property.name

/-- `any(|x| x.name.name() == ident)`, stopping at the first match; `name()` panics on an empty path —
module.rs:690-711. -/
def anyName (i : Ident) : List Path → Res Bool
  | [] => .ok false
  | p :: l => do if (← p.name) = i then return true else anyName i l

/-- `Module::check_ident_exists_immediate` — module.rs:689-712. -/
def Module.identExists (m : Module) (i : Ident) (considerImports : Bool) : Res Bool :=
  anyName i (m.immediateNames considerImports)

/-- The exports of the prelude — module.rs:633-644: names that exist in the module, as identifiers; the first name that is
not one ends it with an error. -/
def Module.preludeExports (E : Env) (m : Module) : List Ident → Res (List Str)
  | [] => .ok []
  | i :: l => do
    if ← m.identExists i false then do
      let s ← i.trySyn E
      return s :: (← m.preludeExports E l)
    else m.preludeExports E l

/-- `Module::generate_prelude` — module.rs:626-671. The search (652-664) compares an accepted candidate with every name, so
all names are computed first. -/
def Module.generatePrelude (E : Env) (m : Module) : Res (Option Item) :=
  if m.prelude.isEmpty then .ok none
  else do
    let exports ← m.preludeExports E m.prelude
    if exports.isEmpty then return none
    else do
      let names ← Res.traverse Path.name (m.immediateNames true)
      let ident ← (← fresh E c!"call" names).trySyn E
      return some (.prelude ident exports)

/-- The path under which a type from an imported module or item is looked up — module.rs:373-385. -/
def importedPath (E : Env) (i : Import) (path : Path) : Res Path :=
  match Str.stripPrefix (i.origin.toPy ++ c!".") path.toPy with
  | some stripped => do
    Path.checkPy E [stripped]
    match (Path.fromPy E stripped).segs with
    | [] => .error (.panic .index)
    | _ :: rest => do return ⟨false, (← i.target.name) :: rest⟩
  | none => do return Path.ofIdent (← i.target.name)

/-- `local_types` — module.rs:359-390. -/
def Module.localTypes (E : Env) (allTypes : List Path) (name : Path) (imports : List Import) : Res LocalTypes := do
  let own ← Res.traverse (fun p => do return (p, ← name.relativeTo p false)) allTypes
  let imported ← Res.traverse (fun (i : Import) =>
    Res.traverse (fun p => do return (← importedPath E i p, ← name.relativeTo p false))
      (allTypes.filter (fun p => p.startsWith i.origin))) imports
  return own ++ imported.flatten

/-- The functions of a module implementation; `unreachable!("Methods in modules are not possible")` — module.rs:438-444. -/
def moduleFns : FnImpl → Res (List Item)
  | .func fns => .ok (fns.map Item.func)
  | .method _ _ => .error (.panic .unreachable)

/-- Accessors of a module property, each after `pub` — property.rs:156-174, module.rs:457-463. The owner of a property in a
module is `Module`; a class property there hits the same `unreachable!`. -/
def moduleProps (owner : Owner) (l : List (Option Fn)) : Res (List Item) :=
  match owner with
  | .module => .ok (l.map (fun f => match f with
    | some f => Item.prop f
    | none => Item.strayPub))
  | .class => .error (.panic .unreachable)

/-- The doc comment of `pyo3_embed_python_source_code` and its body — module.rs:478-504. -/
def embedItems (name : Path) : Option Str → List Item
  | some s => [.embed s name.toRs (name.toRs ++ c!"/__init__.py")]
  | none => []

/-- The content of a generated module except its submodules — module.rs:352-467. -/
def Module.content (E : Env) (cfg : Config) (importable : Str → Bool) (tops : List Module) (allTypes : List Path)
    (m : Module) : Res (List Item) := do
  let taken ← Res.traverse (fun (f : Function) => f.name.name) m.functions
  let lt ← Module.localTypes E allTypes m.name m.imports
  let imports ← ifOn cfg.generateImports
    (Res.traverse (Import.generate E) (m.imports.filter (fun i => pathExistsList i.origin tops))) []
  let prelude ← ifOn cfg.generatePreludes (okOrDrop (m.generatePrelude E)) none
  let typeVars ← ifOn cfg.generateTypeVars (Res.traverse (TypeVar.generate E) m.typeVars) []
  let classes ← ifOn cfg.generateClasses (Res.traverse (Class.generate E cfg importable lt) m.classes) []
  let functions ← ifOn cfg.generateFunctions
    (Res.traverse (fun f => do moduleFns (← Function.generate E cfg importable taken lt f)) m.functions) []
  let properties ← ifOn cfg.generateProperties
    (Res.traverse (fun p => do moduleProps p.owner (← Property.generate E cfg importable taken lt p)) m.properties) []
  return imports.filterMap id ++ (prelude.bind id).toList ++ typeVars ++ (classes.filterMap id).map Item.class ++
    functions.flatten ++ properties.flatten

/-- The error of an unspellable module name — module.rs:507-513. -/
def moduleNameError : PyBindgenError := .codegenError c!"Failed to convert module name"

mutual
/-- `Module::generate` — module.rs:318-522. -/
def Module.generate (E : Env) (cfg : Config) (importable : Str → Bool) (tops : List Module) (allTypes : List Path) :
    Module → Res Item
  | ⟨name, prelude, imports, subs, cs, ts, fs, ps, doc, pkg, src⟩ => do
    let content ← Module.content E cfg importable tops allTypes ⟨name, prelude, imports, subs, cs, ts, fs, ps, doc, pkg, src⟩
    let mods ← ifOn cfg.traverseSubmodules (Module.generateList E cfg importable tops allTypes subs) []
    let ident ← Res.orErr moduleNameError ((← name.name).toSyn E)
    return .mod (tops.contains ⟨name, prelude, imports, subs, cs, ts, fs, ps, doc, pkg, src⟩) (docAttr cfg doc) ident
      (embedItems name src ++ content ++ mods)
/-- The submodules in order — module.rs:469-476. -/
def Module.generateList (E : Env) (cfg : Config) (importable : Str → Bool) (tops : List Module) (allTypes : List Path) :
    List Module → Res (List Item)
  | [] => .ok []
  | m :: l => do
    let i ← Module.generate E cfg importable tops allTypes m
    let is ← Module.generateList E cfg importable tops allTypes l
    return i :: is
end

end Bindgen

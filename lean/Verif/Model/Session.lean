import Verif.Model.Io
/-!
# A whole run of the engine with the standard streams: `codegen.rs` together with `utils/io.rs`

`Model/Codegen.lean` runs the engine on one snapshot of the interpreter.  Here the answers of the interpreter may depend on the
standard streams (`W : Sys → World`), and each step says which streams are in place: requests and look-ups run with the
current streams, only `Module::parse` runs with the replacements.
-/
namespace Bindgen

/-- A step of a run: the new streams and the outcome (`Python::with_gil(|py| …)`, codegen.rs:80, 101, 196). -/
abbrev Step (α : Type) := Sys → Sys × Res α

namespace Step

/-- `?` between two steps (codegen.rs:81-82, 119-121, 143-145): a failure ends the run with the streams as they are. -/
def bind {α β : Type} (x : Step α) (f : α → Step β) : Step β := fun s =>
  match x s with
  | (s', .ok a) => f a s'
  | (s', .error e) => (s', .error e)

/-- Something that only looks at the interpreter (codegen.rs:81, 200-235, 259-276). -/
def look {α : Type} (f : Sys → Res α) : Step α := fun s => (s, f s)

/-- `for x in xs { state = step(state, x)?; }` — codegen.rs:119-121, 129-131, 238-248. -/
def fold {α β : Type} (f : α → β → Step α) : α → List β → Step α
  | a, [] => look (fun _ => .ok a)
  | a, b :: l => bind (f a b) (fun a' => fold f a' l)

end Step

/-- `Codegen::module_name` — codegen.rs:77-84: the import runs before the streams are replaced. Simplification: the import itself
leaves `sys.stdout` and `sys.stderr` alone. -/
def Codegen.moduleNameIo (E : Env) (W : Sys → World) (fuel : Nat) (c : Codegen) (name : Str) : Step Codegen :=
  Step.bind (Step.look fun s => Res.orErr .pyError ((W s).importMod name)) (fun id => c.moduleIo E W fuel id)

/-- `Codegen::module_from_str` — codegen.rs:96-110; the source runs before the streams are replaced. Same simplification. -/
def Codegen.moduleFromStrIo (E : Env) (W : Sys → World) (fuel : Nat) (c : Codegen) (source name : Str) : Step Codegen :=
  Step.bind (Step.look fun s => Res.orErr .pyError ((W s).fromCode source name))
    (fun id => { c with embedded := c.embedded ++ [(name, source)] }.moduleIo E W fuel id)

/-- `Codegen::module_names` — codegen.rs:126-133. -/
def Codegen.moduleNamesIo (E : Env) (W : Sys → World) (fuel : Nat) (c : Codegen) (names : List Str) : Step Codegen :=
  Step.fold (fun c n => c.moduleNameIo E W fuel n) c names

/-- What is found out about one external import before anything is parsed: its module and name — codegen.rs:200-224. -/
def depLook (W : World) (origin : Path) : Res (Nat × PyMod × Str) := do
  let id ← lastModule W origin
  let m ← Res.ofOption .unreachable (W.get? id)
  let name ← Res.ofOption .unwrap m.name
  return (id, m, name)

/-- One external import — codegen.rs:196-248: only the parsing at lines 239-246 runs with replaced streams. -/
def depStepIo (E : Env) (cfg : Config) (W : Sys → World) (fuel : Nat) (st : List Str × List Module) (origin : Path) :
    Step (List Str × List Module) :=
  Step.bind (Step.look fun s => depLook (W s) origin) fun d =>
    if st.1.contains d.2.2 then Step.look fun _ => .ok st
    else Step.bind (Step.look fun _ => checkDep E d.2.1 d.2.2) fun _ =>
    if cfg.isAttrAllowed (Ident.fromPy E d.2.2) (Path.fromPy E d.2.1.modPath) then
      Step.bind (withSuppressed cfg.suppressPythonStdout cfg.suppressPythonStderr
          (Step.look fun s => Module.parse E cfg (W s) fuel d.1))
        fun parsed => Step.look fun _ => .ok (st.1 ++ [d.2.2], st.2 ++ [parsed])
    else Step.look fun _ => .ok (st.1 ++ [d.2.2], st.2)

/-- `Codegen::parse_dependencies` — codegen.rs:171-251. -/
def parseDependenciesIo (E : Env) (cfg : Config) (W : Sys → World) (fuel : Nat) (mods : List Module) : Step (List Module) :=
  Step.bind (Step.fold (depStepIo E cfg W fuel) ([], mods) (unique ((externalImportsList mods).map Import.origin)))
    fun st => Step.look fun _ => .ok st.2

/-- `Codegen::generate` — codegen.rs:136-163. -/
def Codegen.generateIo (E : Env) (W : Sys → World) (fuel : Nat) (c : Codegen) : Step (List Item) :=
  if c.modules.isEmpty then Step.look fun _ => .error (.err noModulesError)
  else
    Step.bind (if c.cfg.generateDependencies then parseDependenciesIo E c.cfg W fuel c.modules
      else Step.look fun _ => .ok c.modules) fun mods =>
    Step.look fun s => do
      let mods := embedSources c.embedded (← canonicalize E (W s) mods)
      Module.generateList E c.cfg (W s).importable mods (getAllTypes mods) mods

/-- A request to the engine: the public methods that add modules — codegen.rs:63-133. -/
inductive Request
  /-- `module` -/
  | handle (id : Nat)
  /-- `module_name` -/
  | name (n : Str)
  /-- `module_from_str` -/
  | source (code name : Str)
  deriving DecidableEq, Repr

/-- Carrying out one request — codegen.rs:63-110. -/
def Codegen.requestIo (E : Env) (W : Sys → World) (fuel : Nat) (c : Codegen) : Request → Step Codegen
  | .handle id => c.moduleIo E W fuel id
  | .name n => c.moduleNameIo E W fuel n
  | .source code n => c.moduleFromStrIo E W fuel code n

/-- The same on one snapshot — codegen.rs:63-110. -/
def Codegen.request (E : Env) (W : World) (fuel : Nat) (c : Codegen) : Request → Res Codegen
  | .handle id => c.module E W fuel id
  | .name n => c.moduleName E W fuel n
  | .source code n => c.moduleFromStr E W fuel code n

/-- A run: a new engine, requests with `?` between them, generation — as in the examples of codegen.rs:9-43. -/
def runIo (E : Env) (W : Sys → World) (fuel : Nat) (cfg : Config) (rs : List Request) : Step (List Item) :=
  Step.bind (Step.fold (fun c r => c.requestIo E W fuel r) (Codegen.new cfg) rs) (fun c => c.generateIo E W fuel)

/-- The same on one snapshot — codegen.rs:9-43. -/
def run (E : Env) (W : World) (fuel : Nat) (cfg : Config) (rs : List Request) : Res (List Item) := do
  let c ← foldRes (fun c r => c.request E W fuel r) (Codegen.new cfg) rs
  c.generate E W fuel

end Bindgen

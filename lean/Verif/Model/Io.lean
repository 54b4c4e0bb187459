import Verif.Model.Codegen
import Verif.Model.Render
/-!
# Standard output, files and the front ends: `utils/io.rs`, `codegen.rs`, the CLI and the macro
-/
namespace Bindgen

/-- An object bound to `sys.stdout`/`sys.stderr`: one that was there before, or the replacement —
io.rs:20-37. -/
inductive Stream
  | obj (n : Nat)
  /-- the value of the expression at io.rs:24 -/
  | sink
  deriving DecidableEq, Repr

/-- The attributes `sys.stdout` and `sys.stderr`; `none` if deleted — io.rs:17-21. -/
structure Sys where
  stdout : Option Stream
  stderr : Option Stream
  deriving DecidableEq, Repr

/-- `with_suppressed_python_output` — io.rs:4-44, as a function of the state of `sys`; the body `f` may change it too.
`import sys`, the evaluation of the replacement and `setattr` on `sys` are assumed to succeed. A panic of `f` unwinds. -/
def withSuppressed {α : Type} (so se : Bool) (f : Sys → Sys × Res α) (s : Sys) : Sys × Res α :=
  if !so && !se then f s
  else match s.stdout, s.stderr with
  | some o, some e =>
    let s1 : Sys := ⟨if so then some .sink else s.stdout, if se then some .sink else s.stderr⟩
    match f s1 with
    | (s2, .error x) => (s2, .error x)
    | (s2, .ok a) => (⟨if so then some o else s2.stdout, if se then some e else s2.stderr⟩, .ok a)
  | _, _ => (s, .error (.err .pyError))

/-- `Codegen::module` with the handling of standard output — codegen.rs:63-74. What Python code does may depend on the
standard streams, so the snapshot is a function of them; parsing itself leaves them alone. -/
def Codegen.moduleIo (E : Env) (W : Sys → World) (fuel : Nat) (c : Codegen) (id : Nat) (s : Sys) : Sys × Res Codegen :=
  withSuppressed c.cfg.suppressPythonStdout c.cfg.suppressPythonStderr (fun s => (s, c.module E (W s) fuel id)) s

/-! ## The replacement of the streams

Enough of Python's attribute lookup to tell what printing to the replacement does. -/

/-- Python values that occur in the expression at io.rs:24. -/
inductive SinkVal
  /-- `lambda: result` -/
  | lambda (result : SinkVal)
  /-- a class with these methods and their numbers of parameters, `self` included -/
  | cls (methods : List (Str × Nat))
  /-- an instance of such a class -/
  | inst (methods : List (Str × Nat))

/-- The value that `sys.stdout` and `sys.stderr` are set to — io.rs:24. -/
def sinkValue : SinkVal := .lambda (.cls [(c!"write", 2), (c!"flush", 1)])

/-- Calling the value of io.rs:24 without arguments. -/
def SinkVal.call : SinkVal → Option SinkVal
  | .lambda r => some r
  | .cls ms => some (.inst ms)
  | .inst _ => none

/-- Whether `value.name(a1, …, an)` returns normally: a function has no such attribute, a class does not pass `self`
(value of io.rs:24). -/
def SinkVal.methodOk (name : Str) (args : Nat) : SinkVal → Bool
  | .lambda _ => false
  | .cls ms => ms.lookup name = some args
  | .inst ms => ms.lookup name = some (args + 1)

/-- Whether `print` to this object returns normally (`print` calls `file.write(text)`); the original streams work
(io.rs:20-30). -/
def Stream.writeOk : Stream → Bool
  | .obj _ => true
  | .sink => sinkValue.methodOk c!"write" 1

/-- Whether Python code that prints `n` times returns normally (a deleted `sys.stdout` makes `print` raise); the
callers are the modules imported under io.rs:36. -/
def printsOk (s : Sys) : Nat → Bool
  | 0 => true
  | n + 1 => (match s.stdout with | some o => o.writeOk | none => false) && printsOk s n

/-! ## Files -/

/-- Contents of files by path — codegen.rs:168, cli/main.rs:26-38. -/
abbrev Files := Str → Option Str

/-- The outside world of the front ends: `std::fs::write` and `create_dir_all` (new state and success), the text of a token
stream, and `prettyplease::unparse(&syn::parse2(tokens)?)` — codegen.rs:168, cli/main.rs:20-38. -/
structure Outside where
  write : Files → Str → Str → Files × Bool
  createDirAll : Files → Str → Files × Bool
  text : List Tok → Str
  pretty : List Tok → Option Str

/-- `Codegen::build` — codegen.rs:167-169. -/
def Codegen.build (E : Env) (W : World) (fuel : Nat) (O : Outside) (c : Codegen) (path : Str) (fs : Files) : Files × Res Unit :=
  match c.generate E W fuel with
  | .error e => (fs, .error e)
  | .ok items =>
    match O.write fs path (O.text (Item.toksList items)) with
    | (fs', true) => (fs', .ok ())
    | (fs', false) => (fs', .error (.err .ioError))

/-- How a front end ends — cli/main.rs:6-40, macros/lib.rs:37-61. -/
inductive Exit
  /-- a panic: a non-zero exit code, or a compile error for the macro -/
  | panicked
  /-- the text is printed -/
  | printed (text : Str)
  /-- a file has been written -/
  | wrote
  deriving DecidableEq, Repr

/-- The loop over the names in the CLI — main.rs:12-18: an error panics. -/
def cliFold (E : Env) (W : World) (fuel : Nat) : Codegen → List Str → Option Codegen
  | c, [] => some c
  | c, n :: ns =>
    match c.moduleName E W fuel n with
    | .ok c' => cliFold E W fuel c' ns
    | .error _ => none

/-- The bindings computed by the CLI, formatted — main.rs:10-24. -/
def cliBindings (E : Env) (W : World) (fuel : Nat) (O : Outside) (names : List Str) : Option Str :=
  match cliFold E W fuel {} names with
  | none => none
  | some c =>
    match c.generate E W fuel with
    | .error _ => none
    | .ok items => O.pretty (Item.toksList items)

/-- The CLI after argument parsing — main.rs:6-40; `parent` is `output.parent()`. -/
def cliMain (E : Env) (W : World) (fuel : Nat) (O : Outside) (names : List Str) (output : Option (Str × Option Str))
    (fs : Files) : Files × Exit :=
  match cliBindings E W fuel O names with
  | none => (fs, .panicked)
  | some text =>
    match output with
    | none => (fs, .printed text)
    | some (path, parent) =>
      let (fs, dirOk) := match parent with
        | some p => O.createDirAll fs p
        | none => (fs, true)
      if dirOk then
        match O.write fs path text with
        | (fs, true) => (fs, .wrote)
        | (fs, false) => (fs, .panicked)
      else (fs, .panicked)

/-- The macro `import_python!("name")` — macros/lib.rs:37-61; `none` is a panic, reported as a compile error. -/
def macroTokens (E : Env) (W : World) (fuel : Nat) (name : Str) : Option (List Tok) :=
  match ({} : Codegen).moduleName E W fuel name with
  | .error _ => none
  | .ok c =>
    match c.generate E W fuel with
    | .error _ => none
    | .ok items => some (Item.toksList items)

end Bindgen

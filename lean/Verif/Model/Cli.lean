import Verif.Model.Io
/-!
# The command line

The arguments of the CLI (main.rs:42-52) are read by the crate `clap` (4.5), which is not in /repo; this is what it does for the two options of
`Args`. Arguments are Unicode strings here (`clap` also takes others as paths). Help, version and usage errors all end the process before
`main` goes on, so they are not told apart.
-/
namespace Bindgen

/-- `struct Args` — main.rs:42-52. -/
structure CliArgs where
  moduleNames : List Str
  output : Option Str
  deriving DecidableEq, Repr

/-- What one argument is to `clap`, given the options of main.rs:45-51: `--`, an option with the value that is attached to it, a word that
ends the process (`-h`, `--help`, `-V`, `--version` from `#[command(version)]`, or an unknown option), or a value. -/
inductive CliWord
  | escape
  | module (attached : Option Str)
  | output (attached : Option Str)
  | stop
  | value
  deriving DecidableEq, Repr

/-- `split_once('=')` — how `clap` reads `--option=value` (main.rs:8). -/
def splitEq : Str → Str × Option Str
  | [] => ([], none)
  | c :: cs => if c = '=' then ([], some cs) else let (f, v) := splitEq cs; (c :: f, v)

/-- The value attached to a short option, as in `-mos` and `-m=os` (main.rs:8). -/
def shortValue : Str → Option Str
  | [] => none
  | c :: cs => if c = '=' then some cs else some (c :: cs)

/-- The class of an argument — `short='m', long="module-name"` of main.rs:45 and `short, long` of main.rs:48 (`-o`, `--output`). -/
def cliWord (a : Str) : CliWord :=
  match Str.stripPrefix c!"--" a with
  | some [] => .escape
  | some rest =>
    let (flag, v) := splitEq rest
    if flag = c!"module-name" then .module v else if flag = c!"output" then .output v else .stop
  | none =>
    match a with
    | '-' :: 'm' :: rest => .module (shortValue rest)
    | '-' :: 'o' :: rest => .output (shortValue rest)
    | '-' :: _ :: _ => .stop
    | _ => .value

/-- Whether an option waits for values: `--module-name` for one or more (`num_args=1..`, main.rs:45), `--output` for one (main.rs:48). -/
inductive Wait
  | done
  | firstModule
  | nextModule
  | output
  deriving DecidableEq, Repr

/-- The state of `Args::parse` — main.rs:8. -/
structure CliState where
  names : List Str
  output : Option Str
  wait : Wait
  deriving DecidableEq, Repr

/-- A value for `--output`: given once, and a `PathBuf` is not empty — main.rs:48-50. -/
def CliState.setOutput (s : CliState) (v : Str) : Option CliState :=
  if s.output.isSome || v.isEmpty then none else some ⟨s.names, some v, .done⟩

/-- One argument — main.rs:8; `none` if the process ends. An option that begins ends the values of the one before, which must have enough. -/
def CliState.step (s : CliState) (a : Str) : Option CliState :=
  let ready := s.wait = .done || s.wait = .nextModule
  match cliWord a with
  | .escape | .stop => none
  | .module none => if ready then some { s with wait := .firstModule } else none
  | .module (some v) => if ready then some { s with names := s.names ++ [v], wait := .done } else none
  | .output none => if ready then some { s with wait := .output } else none
  | .output (some v) => if ready then s.setOutput v else none
  | .value =>
    match s.wait with
    | .done => none
    | .firstModule | .nextModule => some { s with names := s.names ++ [a], wait := .nextModule }
    | .output => s.setOutput a

/-- The end of the arguments: no option waits, and `--module-name` is required — main.rs:45. -/
def CliState.finish (s : CliState) : Option CliArgs :=
  if (s.wait = .done || s.wait = .nextModule) && !s.names.isEmpty then some ⟨s.names, s.output⟩ else none

/-- `Args::parse` — main.rs:8; there are no positional arguments, so nothing may follow `--`. -/
def cliGo : CliState → List Str → Option CliArgs
  | s, [] => s.finish
  | s, a :: as =>
    match cliWord a with
    | .escape => if as.isEmpty then s.finish else none
    | _ =>
      match s.step a with
      | some s' => cliGo s' as
      | none => none

/-- `Args::parse` on the arguments after the name of the program — main.rs:8. -/
def cliArgs (argv : List Str) : Option CliArgs := cliGo ⟨[], none, .done⟩ argv

/-- The components of a path as the standard library of Rust sees them on Unix: empty ones and `.` are left out, except a `.` in front
(`output.parent()` of main.rs:28). -/
def pathComponents (p : Str) : List Str :=
  match Str.splitChar '/' p with
  | [] => []
  | s :: rest => (if s.isEmpty then [] else [s]) ++ rest.filter (fun c => c ≠ [] ∧ c ≠ c!".")

/-- `Path::parent` on Unix — main.rs:28. The result is normalised: `a` for `a//b`, which is the same path to the standard library. -/
def pathParent (p : Str) : Option Str :=
  let cs := pathComponents p
  let root := Str.startsWith p c!"/"
  if cs.isEmpty then none else some ((if root then c!"/" else []) ++ Str.join c!"/" cs.dropLast)

/-- The CLI — main.rs:6-40; `none` if `clap` ends the process. -/
def cliRun (E : Env) (W : World) (fuel : Nat) (O : Outside) (argv : List Str) (fs : Files) : Files × Option Exit :=
  match cliArgs argv with
  | none => (fs, none)
  | some a =>
    let r := cliMain E W fuel O a.moduleNames (a.output.map (fun p => (p, pathParent p))) fs
    (r.1, some r.2)

/-- `Args::parse` of the macro — macros/parser.rs:14-20, and `parse_macro_input!`, which wants the end of the input — macros/lib.rs:39: the
argument is one string literal. -/
def macroArgs : List Tok → Option Str
  | [.str s] => some s
  | _ => none

/-- The macro with its argument — macros/lib.rs:37-61; `none` is a compile error. Loading the symbols of `libpython` (macros/utils.rs:19-38) can fail,
which is only reported — macros/lib.rs:42-47; it is left out here and added in `Libpython.lean`. -/
def macroRun (E : Env) (W : World) (fuel : Nat) (input : List Tok) : Option (List Tok) :=
  match macroArgs input with
  | none => none
  | some name => macroTokens E W fuel name

end Bindgen

import Verif.Model.Cli
/-!
# Loading the symbols of libpython

The macro runs inside the compiler, which loads it with its symbols hidden. Before it asks Python anything about a module it loads the shared library of
Python again, with visible symbols — macros/utils.rs and macros/lib.rs:42-48.
-/
namespace Bindgen

/-- What a Python call returns, as far as `to_string` sees it — utils.rs:27-28: `None`, a string, or another value with what it prints as. -/
inductive ConfigVar
  | none
  | str (s : Str)
  | other (shown : Str)
  deriving DecidableEq, Repr

/-- `to_string` — utils.rs:27-28: `str()` of the value. -/
def ConfigVar.toString : ConfigVar → Str
  | .none => c!"None"
  | .str s => s
  | .other s => s

/-- The process the macro runs in. `getConfigVar` is the attribute of `sysconfig`, if the module can be imported and has it — utils.rs:24-26;
calling it gives a value or raises — utils.rs:27-28. `dlopen` says whether the library of this path can be loaded — utils.rs:31-34. What the
interpreter does afterwards depends on the libraries that have been loaded, oldest first: an extension module can be imported only if the symbols it needs are there. -/
structure Host where
  getConfigVar : Option (Str → Option ConfigVar)
  dlopen : Str → Bool
  world : List Str → World

/-- `Path::join` on Unix — utils.rs:29: an absolute path replaces, and the separator is added unless it is there or there is nothing before it. -/
def pathJoin (dir name : Str) : Str :=
  if Str.startsWith name c!"/" then name
  else if dir = [] ∨ dir.getLast? = some '/' then dir ++ name
  else dir ++ '/' :: name

/-- `CString::new` — utils.rs:32; the text may not contain the character that ends it. The path is text already, so `to_string_lossy` changes nothing. -/
def cString (s : Str) : Option Str :=
  if s.contains (Char.ofNat 0) then none else some s

/-- What `dlopen` has loaded — utils.rs:31-34; the result is not looked at. -/
def dlopened (H : Host) (path : Str) : List Str := if H.dlopen path then [path] else []

/-- `try_load_libpython_symbols` — utils.rs:19-38: the path that is given to `dlopen`, or `none` for an error. -/
def libpythonPath (H : Host) : Option Str := do
  let f ← H.getConfigVar
  let dir ← f c!"LIBDIR"
  let name ← f c!"INSTSONAME"
  cString (pathJoin dir.toString name.toString)

/-- What a run of the macro leaves: its tokens (`none` is a compile error), whether the message of lib.rs:45-47 was printed, and the path that
was given to `dlopen`. -/
structure MacroResult where
  tokens : Option (List Tok)
  warned : Bool
  opened : Option Str

/-- `import_python` — macros/lib.rs:37-61; `unix` is `cfg(unix)` of lib.rs:43. -/
def macroIn (E : Env) (H : Host) (unix : Bool) (fuel : Nat) (input : List Tok) : MacroResult :=
  match macroArgs input with
  | none => ⟨none, false, none⟩
  | some name =>
    if unix then
      match libpythonPath H with
      | none => ⟨macroTokens E (H.world []) fuel name, true, none⟩
      | some path => ⟨macroTokens E (H.world (dlopened H path)) fuel name, false, some path⟩
    else ⟨macroTokens E (H.world []) fuel name, false, none⟩

end Bindgen

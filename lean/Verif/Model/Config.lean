import Verif.Model.Path
/-!
# Configuration: `config.rs`
-/
namespace Bindgen

/-- `FORBIDDEN_FUNCTION_NAMES` — config.rs:4. -/
def forbiddenFunctionNames : List Str := [c!"get_type", c!"obj", c!"py", c!"repr", c!"str"]

/-- `FORBIDDEN_TYPE_NAMES` — config.rs:6-14. -/
def forbiddenTypeNames : List Str := [c!"_collections._tuplegetter", c!"AsyncState",
  c!"getset_descriptor", c!"member_descriptor", c!"method_descriptor", c!"property", c!"py"]

/-- `DEFAULT_BLOCKLIST_ATTRIBUTE_NAMES` — config.rs:17. -/
def defaultBlocklist : List Str := [c!"builtins", c!"testing", c!"tests", c!"test"]

/-- `pub struct Config` — config.rs:20-69; the default values are the builder defaults. -/
structure Config where
  traverseSubmodules : Bool := true
  generatePreludes : Bool := true
  generateImports : Bool := true
  generateClasses : Bool := true
  generateTypeVars : Bool := true
  generateFunctions : Bool := true
  generateProperties : Bool := true
  generateDocs : Bool := true
  blocklistNames : List Str := defaultBlocklist
  includePrivate : Bool := false
  generateDependencies : Bool := false
  suppressPythonStdout : Bool := true
  suppressPythonStderr : Bool := true
  deriving DecidableEq, Repr

/-- `Config::is_attr_allowed` — config.rs:78-104 (the attribute type is ignored by the code). -/
def Config.isAttrAllowed (cfg : Config) (attrName : Ident) (attrModule : Path) : Bool :=
  if forbiddenFunctionNames.contains attrName.asPy ||
    (!cfg.includePrivate &&
      (Str.startsWith attrName.asPy c!"_" ||
        attrModule.segs.any (fun s => Str.startsWith s.asPy c!"_"))) ||
    cfg.blocklistNames.any (fun b => attrName.asPy = b) ||
    attrModule.segs.any (fun s => s.asPy = c!"__future__") ||
    attrModule.segs.any (fun s => s.asPy = c!"typing")
  then false else true

end Bindgen

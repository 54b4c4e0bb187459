import Verif.Model.Codegen
/-! # Specification: engines made by builder calls -/
namespace Bindgen.Spec

/-- The engine is the result of successful builder calls on a new one; the list holds the names and sources of the modules
given as source code, in the order of the calls. -/
inductive Built (E : Env) (W : World) (fuel : Nat) (cfg : Config) : List (Str × Str) → Codegen → Prop
  | new : Built E W fuel cfg [] (Codegen.new cfg)
  | module {srcs : List (Str × Str)} {c c' : Codegen} (id : Nat) : Built E W fuel cfg srcs c →
      c.module E W fuel id = .ok c' → Built E W fuel cfg srcs c'
  | moduleName {srcs : List (Str × Str)} {c c' : Codegen} (name : Str) : Built E W fuel cfg srcs c →
      c.moduleName E W fuel name = .ok c' → Built E W fuel cfg srcs c'
  | moduleFromStr {srcs : List (Str × Str)} {c c' : Codegen} (source name : Str) : Built E W fuel cfg srcs c →
      c.moduleFromStr E W fuel source name = .ok c' → Built E W fuel cfg (srcs ++ [(name, source)]) c'
  | addModules {srcs : List (Str × Str)} {c c' : Codegen} (ids : List Nat) : Built E W fuel cfg srcs c →
      c.addModules E W fuel ids = .ok c' → Built E W fuel cfg srcs c'
  | moduleNames {srcs : List (Str × Str)} {c c' : Codegen} (names : List Str) : Built E W fuel cfg srcs c →
      c.moduleNames E W fuel names = .ok c' → Built E W fuel cfg srcs c'

/-- The module is what the parser makes of some module of the interpreter. -/
def Parsed (E : Env) (cfg : Config) (W : World) (M : Module) : Prop := ∃ fuel id, Module.parse E cfg W fuel id = .ok M

end Bindgen.Spec

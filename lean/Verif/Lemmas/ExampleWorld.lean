import Verif.Model.Io
/-! # A small interpreter state used in examples -/
namespace Bindgen

/-- A function `def f(x: int) -> str` of module `mod`. -/
def exFnObj (mod : Str) : PyObj where
  modPath := mod
  typeName := c!"function"
  typeModule := c!"builtins"
  isFunction := some true
  fn := ⟨some c!"A function.", some ⟨[⟨c!"x", .positionalOrKeyword, some (.cls [.long] c!"<class 'int'>"), false⟩],
    some (.cls [.string] c!"<class 'str'>")⟩, none⟩

/-- A class of module `mod`. -/
def exClsObj (mod : Str) : PyObj where
  modPath := mod
  typeName := c!"type"
  typeModule := c!"builtins"
  isClass := true

/-- A module object. -/
def exModObj : PyObj where
  typeName := c!"module"
  typeModule := c!"builtins"
  isModule := true

/-- An integer. -/
def exIntObj : PyObj where
  typeName := c!"int"
  typeModule := c!"builtins"
  typeBases := [.long]
  typeRepr := c!"<class 'int'>"

/-- The package `pkg`. -/
def exPkg : PyMod where
  name := some c!"pkg"
  all := some [c!"f"]
  dir := [c!"C", c!"VALUE", c!"f", c!"_hidden"]
  attrs := [(c!"f", { obj := exFnObj c!"pkg" }), (c!"C", { obj := exClsObj c!"pkg" }), (c!"VALUE", { obj := exIntObj }),
    (c!"_hidden", { obj := exFnObj c!"pkg" })]
  isPackage := true
  iterModules := some [c!"sub"]

/-- The module `pkg.sub`. -/
def exSub : PyMod where
  name := some c!"pkg.sub"
  dir := [c!"D", c!"g", c!"h"]
  attrs := [(c!"g", { obj := exFnObj c!"pkg.sub" }), (c!"D", { obj := exClsObj c!"pkg.sub" }),
    (c!"h", { obj := { exFnObj c!"other" with dunderName := some c!"h" } })]

/-- The module `other`. -/
def exOther : PyMod where
  name := some c!"other"
  dir := [c!"h"]
  attrs := [(c!"h", { obj := exFnObj c!"other" })]

/-- `pkg`, `pkg.sub` and `other` can be imported. -/
def exWorld : World where
  mods := [exPkg, exSub, exOther]
  importMod s := if s = c!"pkg" then some 0 else if s = c!"pkg.sub" then some 1 else if s = c!"other" then some 2 else none

/-- The environment of the examples. -/
def exEnv : Env := .ascii true false

end Bindgen

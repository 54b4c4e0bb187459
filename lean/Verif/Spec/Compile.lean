import Verif.Spec.Check
import Verif.Spec.Hygiene
import Verif.Spec.Moves
import Verif.Spec.Resolve
/-!
# Specification: what a Rust compiler asks of the names in the bindings

The checks are made on syntax trees, scope by scope.  A scope is the content of a module; its path says where it is.
-/
namespace Bindgen.Spec

/-- The items at the end of a path of modules; the empty path is for the file. -/
inductive ScopeAt : List RItem → List Str → List RItem → Prop
  | here {file : List RItem} : ScopeAt file [] file
  | mod {file inner scope : List RItem} {as : List RAttr} {pub : Bool} {n : Str} {p : List Str} :
      .mod as pub n inner ∈ file → ScopeAt inner p scope → ScopeAt file (n :: p) scope

/-! ## The paths in types -/

/-- The names in the segments of a path. -/
def segNames : List RSeg → List Str
  | [] => []
  | .mk n _ :: segs => n :: segNames segs

mutual
/-- The relative paths in a type. -/
def RType.paths : RType → List (List Str)
  | .path g segs => (if g then [] else [segNames segs]) ++ RSeg.paths segs
  | .life _ => []
  | .ref t => t.paths
  | .slice t => t.paths
  | .tuple ts => RType.pathsAll ts
  | .impl t => t.paths
/-- The relative paths in types. -/
def RType.pathsAll : List RType → List (List Str)
  | [] => []
  | t :: ts => t.paths ++ RType.pathsAll ts
/-- The relative paths in the arguments of the segments of a path. -/
def RSeg.paths : List RSeg → List (List Str)
  | [] => []
  | .mk _ args :: segs => RType.pathsAll args ++ RSeg.paths segs
end

/-- The relative paths in the type of a parameter. -/
def RParam.paths : RParam → List (List Str)
  | .self _ => []
  | .typed _ t => t.paths

/-- The relative paths in a signature. -/
def RSig.paths (s : RSig) : List (List Str) := s.params.flatMap RParam.paths ++ s.ret.paths

/-- The relative paths in the types of an item, not in modules inside it. `Self` is a type in the functions of a structure. -/
def RItem.paths : RItem → List (List Str)
  | .typeAlias _ _ _ t => t.paths
  | .struct _ _ _ ts => RType.pathsAll ts
  | .trait _ _ _ sigs => sigs.flatMap RSig.paths
  | .impl _ none t fns => t.paths ++ (fns.flatMap fun f => f.sig.paths).filter (fun r => decide (r ≠ [c!"Self"]))
  | .impl _ (some _) t fns => t.paths ++ fns.flatMap fun f => f.sig.paths
  | .fn f => f.sig.paths
  | _ => []

/-! ## Definitions -/

/-- The types that an item defines. -/
def RItem.typeDefs : RItem → List Str
  | .typeAlias _ _ n _ => [n]
  | .struct _ _ n _ => [n]
  | _ => []

/-- All that an item defines. -/
def RItem.defs : RItem → List Str
  | .mod _ _ n _ => [n]
  | .typeAlias _ _ n _ => [n]
  | .struct _ _ n _ => [n]
  | .trait _ _ n _ => [n]
  | .fn f => [f.sig.name]
  | _ => []

/-- The item can be used from other modules. -/
def RItem.isPub : RItem → Bool
  | .use _ b _ _ _ => b
  | .useGroup _ b _ _ _ => b
  | .mod _ b _ _ => b
  | .typeAlias _ b _ _ => b
  | .struct _ b _ _ => b
  | .trait _ b _ _ => b
  | .fn f => f.sig.pub
  | .impl _ _ _ _ => true
  | .mac _ _ _ => true

/-- The names of the functions in a trait or an implementation. -/
def RItem.members : RItem → List Str
  | .trait _ _ _ sigs => sigs.map RSig.name
  | .impl _ _ _ fns => fns.map fun f => f.sig.name
  | _ => []

/-- What an item imports: whether the path is absolute, and its segments. -/
def RItem.imports : RItem → List (Bool × List Str)
  | .use _ _ g path _ => [(g, path)]
  | .useGroup _ _ g path ns => ns.map fun n => (g, path ++ [n])
  | _ => []

/-- Types that Rust provides without a path. -/
def primTypes : List Str := [c!"bool", c!"f64", c!"i64", c!"u8", c!"str", c!"Vec"]

/-- The relative path, in the module at `p`, leads to a type that the file defines. -/
def NamesType (file : List RItem) (p r : List Str) : Prop :=
  ∃ q n inner, resolve p r = some (q ++ [n]) ∧ r.getLast? = some n ∧ ScopeAt file q inner ∧ n ∈ inner.flatMap RItem.typeDefs

/-- The relative path, in the module at `p`, leads to something that the file defines. -/
def NamesItem (file : List RItem) (p r : List Str) : Prop :=
  ∃ q n inner, resolve p r = some (q ++ [n]) ∧ r.getLast? = some n ∧ ScopeAt file q inner ∧ n ∈ inner.flatMap RItem.defs

/-- The conditions on one scope of a file. -/
structure ScopeCompiles (file : List RItem) (p : List Str) (scope : List RItem) : Prop where
  /-- everything is public -/
  isPub : ∀ i ∈ scope, i.isPub = true
  /-- no two types, modules or imports have the same name -/
  types : ((scope.flatMap RItem.types).map unraw).Nodup
  /-- no two functions, constructors or imports have the same name -/
  values : ((scope.flatMap RItem.values).map unraw).Nodup
  /-- no two functions of a trait or of an implementation have the same name -/
  members : ∀ i ∈ scope, (i.members.map unraw).Nodup
  /-- imports name something that is defined -/
  imports : ∀ i ∈ scope, ∀ u ∈ i.imports, u.1 = false ∧ NamesItem file p u.2
  /-- types are those of Rust, or defined -/
  paths : ∀ i ∈ scope, ∀ r ∈ i.paths, (∃ x ∈ primTypes, r = [x] ∧ Unshadowed scope (.typ x)) ∨ NamesType file p r
  /-- names that Rust provides mean what Rust provides -/
  hygienic : Hygienic scope
  /-- functions are implemented for a structure of the same scope -/
  inherent : ∀ as t fns, .impl as none t fns ∈ scope → ∃ n as' fs, t = .path false [.mk n []] ∧ .struct as' true n fs ∈ scope
  /-- traits of the same scope are implemented, function by function -/
  traits : ∀ as tr t fns, .impl as (some tr) t fns ∈ scope → ∃ n as' sigs, tr = .path false [.mk n []] ∧ .trait as' true n sigs ∈ scope ∧
    fns.map RFn.sig = sigs ∧ ∀ s ∈ sigs, s.pub = false ∧ ∃ l ps, s.params = .self l :: ps
  /-- macros are those of pyo3, for a structure of the same scope -/
  macros : ∀ g segs ts, .mac g segs ts ∈ scope → ∃ m n rest as' fs, g = true ∧ segs = [.mk c!"pyo3" [], .mk m []] ∧
    m ∈ [c!"pyobject_native_type_named", c!"pyobject_native_type_info"] ∧ ts = .id n :: rest ∧ .struct as' true n fs ∈ scope

/-- The functions type check, they use no value that has been moved, and in every scope all names are right. -/
structure Compiles (file : List RItem) : Prop where
  checks : RItem.checkAll file = true
  moves : RItem.affineAll file = true
  scopes : ∀ p scope, ScopeAt file p scope → ScopeCompiles file p scope

end Bindgen.Spec

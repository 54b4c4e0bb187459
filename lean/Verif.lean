import Verif.Model.Str
import Verif.Model.Res
import Verif.Model.Env
import Verif.Model.Ident
import Verif.Model.Path
import Verif.Model.Text
import Verif.Model.Config
import Verif.Model.Typing
import Verif.Model.FromPy
import Verif.Model.Rust
import Verif.Model.IntoRs
import Verif.Model.Emit
import Verif.Model.Python
import Verif.Model.Function
import Verif.Model.Property
import Verif.Model.Attr
import Verif.Model.Class
import Verif.Model.Import
import Verif.Model.Module
import Verif.Model.Codegen
import Verif.Model.Io
import Verif.Model.Session
import Verif.Props.Names
import Verif.Props.Paths
import Verif.Props.Filter
import Verif.Props.Docs
import Verif.Props.Annotations
import Verif.Props.RustTypes
import Verif.Props.Hashing
import Verif.Spec.Passed
import Verif.Props.Passed
import Verif.Props.RoundTrip
import Verif.Props.Imports
import Verif.Props.Functions
import Verif.Props.Dispatch
import Verif.Props.Accessors
import Verif.Props.Arrival
import Verif.Props.Engine
import Verif.Props.Session
import Verif.Props.Deps
import Verif.Props.Tree
import Verif.Lemmas.Generate
import Verif.Spec.Items
import Verif.Props.Output
import Verif.Spec.Built
import Verif.Lemmas.Prepared
import Verif.Props.Flags
import Verif.Lemmas.Fuel
import Verif.Lemmas.ParseItems
import Verif.Lemmas.Submodules
import Verif.Props.Parsed
import Verif.Props.Submodules
import Verif.Props.Prelude
import Verif.Props.Sources
import Verif.Spec.Order
import Verif.Lemmas.Order
import Verif.Props.Order
import Verif.Props.Classes
import Verif.Spec.Faithful
import Verif.Spec.Refs
import Verif.Lemmas.Placed
import Verif.Lemmas.Refs
import Verif.Lemmas.FaithfulCheck
import Verif.Props.Types
import Verif.Props.Reexports
import Verif.Props.Siblings
import Verif.Spec.Scopes
import Verif.Props.ClassScopes
import Verif.Props.Scopes
import Verif.Props.WorldScopes
import Verif.Props.UseNames
import Verif.Spec.Kinds
import Verif.Lemmas.ParseComplete
import Verif.Props.Reached
import Verif.Props.Complete
import Verif.Props.CompleteClasses
import Verif.Props.Stray
import Verif.Spec.Tame
import Verif.Spec.TypeNames
import Verif.Lemmas.NoPanic
import Verif.Lemmas.NoPanicGen
import Verif.Props.Panics
import Verif.Spec.Runtime
import Verif.Lemmas.Numpy
import Verif.Props.Runtime
import Verif.Spec.AnnObj
import Verif.Props.AnnObjects
import Verif.Props.Readable
import Verif.Props.TypeNames
import Verif.Props.OutputAccessors
import Verif.Model.Live
import Verif.Spec.Live
import Verif.Props.Live
import Verif.Props.PreludeNames
import Verif.Props.Termination
import Verif.Spec.Builds
import Verif.Lemmas.Builds
import Verif.Props.Builds
import Verif.Model.Token
import Verif.Model.Render
import Verif.Spec.RustSyntax
import Verif.Spec.Trees
import Verif.Lemmas.ParseType
import Verif.Lemmas.ParseExpr
import Verif.Lemmas.ParseBody
import Verif.Lemmas.ParseItem
import Verif.Lemmas.Legal
import Verif.Props.Syntax
import Verif.Spec.Eval
import Verif.Spec.Effects
import Verif.Lemmas.Eval
import Verif.Lemmas.Effects
import Verif.Lemmas.Sane
import Verif.Props.Eval
import Verif.Spec.Hygiene
import Verif.Lemmas.Hygiene
import Verif.Props.Hygiene
import Verif.Model.Print
import Verif.Spec.Lexer
import Verif.Lemmas.Print
import Verif.Lemmas.PrintItem
import Verif.Props.Print
import Verif.Model.Cli
import Verif.Spec.Cli
import Verif.Props.Cli
import Verif.Spec.Check
import Verif.Lemmas.Check
import Verif.Spec.Moves
import Verif.Spec.Compile
import Verif.Spec.Quiet
import Verif.Lemmas.Moves
import Verif.Lemmas.Compile
import Verif.Lemmas.NoErr
import Verif.Lemmas.Typed
import Verif.Props.Check
import Verif.Props.Moves
import Verif.Props.Compile
import Verif.Props.Success
import Verif.Props.Use
import Verif.Model.Libpython
import Verif.Props.Libpython
import Verif.Props.PassedExact
import Verif.Props.Errors
import Verif.Props.Restrict
import Verif.Props.Preludes
import Verif.Props.Hidden
import Verif.Conformance

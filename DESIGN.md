# Formal model of pyo3_bindgen in Lean 4

## What is modelled

The subject is the binding generator (`pyo3_bindgen_engine`) plus its CLI and macro front ends.  The
model is a function-by-function transcription into total Lean functions:

| Lean module | models |
|---|---|
| `Verif/Model/Str.lean` | Rust `str` operations used by the code (`split`, `trim`, `lines`, `matches`, ...), on `List Char` |
| `Verif/Model/Res.lean` | `Result` plus explicit panic sites |
| `Verif/Model/Env.lean` | external parameters: Unicode tables, hash iteration order, cargo features, debug/overflow checks |
| `Verif/Model/Ident.lean`, `Path.lean` | `syntax/common/ident.rs`, `path.rs` |
| `Verif/Model/Text.lean` | `utils/text.rs` |
| `Verif/Model/Config.lean` | `config.rs` |
| `Verif/Model/Typing.lean`, `FromPy.lean`, `IntoRs.lean` | `typing/*.rs` |
| `Verif/Model/Rust.lean` | abstract syntax of the emitted Rust code (one constructor per `quote!` template) |
| `Verif/Model/Import.lean`, `Function.lean`, `Property.lean`, `Class.lean`, `Module.lean` | `syntax/*.rs` |
| `Verif/Model/Python.lean` | introspection snapshot of the Python interpreter |
| `Verif/Model/Attr.lean`, `Emit.lean` | `AttributeVariant` (`syntax/common/attribute_variant.rs`); common parts of the emitted functions |
| `Verif/Model/Token.lean`, `Render.lean` | token streams; the `quote!` templates of `syntax/*.rs` and `typing/into_rs.rs`, token by token |
| `Verif/Model/Print.lean` | the text of a token stream (`to_string` in `codegen.rs: build`; the `Display` of proc-macro2) |
| `Verif/Model/Codegen.lean`, `Io.lean` | `codegen.rs`; `utils/io.rs`, `build`, CLI `main.rs`, macro `lib.rs` |
| `Verif/Model/Cli.lean` | the arguments of the CLI (`Args` in `main.rs`) and of the macro (`parser.rs`); the directory of the output file |
| `Verif/Model/Libpython.lean` | loading the symbols of libpython in the macro (`macros/utils.rs`); what the interpreter does may depend on it |
| `Verif/Model/Session.lean` | `codegen.rs` once more, with the standard streams as state: whole runs of the engine |
| `Verif/Model/Live.lean` | runs in an interpreter that changes from request to request |
| `Verif/Spec/*.lean` | independent specifications: Rust path resolution, Python argument binding, evaluation of emitted bodies, value extraction, annotation grammars (text and objects), a fresh interpreter that runs the bindings, scopes and names of the output, a grammar of the Rust the templates use, an evaluator of its expressions |
| `Verif/Lemmas/*.lean` | helper lemmas |
| `Verif/Props/*.lean` | the property theorems (`C01_...`) and, beside each, examples that its hypotheses are met |

## Trusted base

* Lean 4.33 kernel.  Theorems depend at most on `propext`, `Classical.choice`, `Quot.sound`
  (`tools/axioms.sh` prints the axioms of every property theorem).  No `sorry`, no own axioms, no `native_decide`/`bv_decide`.
* The reading of /repo: every model definition cites the lines it models and states its simplifications.
* Assumed behaviour of externals (not in /repo):
  * `syn 2.0.87`/`proc-macro2 1.0.89`: `syn::parse_str::<Ident>` accepts optional white space around one
    (possibly raw) identifier that is not in syn's keyword table; raw `_ self Self super crate` are rejected.
    Comments around an identifier are not modelled.  Files are parsed as in `Spec/RustSyntax.lean` (only C65_cli uses this).  `syn::Path` accepts `::`-separated identifiers or path keywords.
    `TokenStream::to_string` prints as in `Model/Print.lean`; which characters `escape_debug` leaves alone is a parameter.
  * Unicode tables `XID_Start`, `XID_Continue`, `is_alphanumeric` are parameters constrained only on ASCII.
    `char::is_whitespace` is written out (25 code points).
  * hash set iteration order is a parameter: any duplicate-free enumeration.
  * `clap 4.5` reads the options of the CLI as in `Model/Cli.lean` (arguments are Unicode; `--help`, `--version` and usage errors all end the
    process).  `Path::parent` splits paths as on Unix.
  * `itertools::unique` keeps first occurrences; `slice::sort_by` is stable.
  * pyo3 0.21: conversion/extraction (`Spec/RustTy.lean`, `Spec/Passed.lean`) and `call`/`getattr`/`setattr` semantics as written in `Verif/Spec`; the types of its functions as
    in `Spec/Check.lean` and the rules for moves in `Spec/Moves.lean` (how long borrows last and trait resolution beyond the listed conversions are
    not checked).  Exceptions come from the functions that return a `PyResult` (`Spec/Effects.lean`); the other conversions, which panic if Python has
    no memory left, do not fail.
  * Python: `inspect.signature`, `pkgutil.iter_modules`, `dir`, `getattr` results form a *snapshot* (pure
    functions).  Re-entrancy of Python code is not modelled.  Two changes that the code itself makes are modelled in
    `Live.lean`: importing a submodule binds it in its package, and `PyModule::index` of pyo3 0.21 stores an empty
    `__all__` in modules without one.  C61 says when they do not matter.
* cfgs: CPython, not `Py_LIMITED_API`, not PyPy.  The `numpy` feature is a parameter.
* Not modelled: warnings on stderr, performance, macro expansion of the emitted
  `pyobject_native_type_*` macros, prettyplease formatting,
  the `debug_assert!` of `Ident::from_rs` (its callers pass literals and non-empty segments) and the `debug_assert_eq!` of
  `from_typing` (its caller has just made the same comparison).

## Overflow and debug assertions

`repair_complex_sequence` subtracts `usize` values.  `Env.debug` selects overflow checks: on = panic, off = wrapping
(modelled by integers, exact because counts are far below 2^63).

`Env.debug` also selects the `debug_assert!`s of `Ident::from_py` (no empty name, ident.rs:12) and `Path::from_py` (no `::`,
path.rs:30).  `Ident.fromPy` and `Path.fromPy` are pure; the assertions are evaluated by `checkPy` beside the uses that can
violate them.  Simplification: the assertions on a listing of attributes, and the panic of pyo3's `dir()` when `dir(x)` raises,
come before the first attribute is parsed (in the code the iterator is lazy, so attributes that come before the offending one
are parsed first; a different panic or error of one of them would come first).

## Properties and plan

* **C01 Python names survive the trip through Rust identifiers** — `Ident.fromPy/asPy` over `List Char`; prefix reasoning on `r#`. Proved for every lexer (Unicode tables are a parameter).
* **C02 Every Python identifier except five becomes a legal Rust identifier** — `synIdent` models proc-macro2's identifier lexer + syn's keyword table; full characterisation by case analysis on the keyword table.
* **C03 Dotted Python paths survive parsing and printing** — `Path.fromPy/toPy`; split/join inversion lemmas by induction. Segment `super` and all-dots paths are counterexamples (proved).
* **C04 Sorting modules groups equal modules together** — Lexicographic order on code points proved total/antisymmetric; `cmp = eq ↔ names equal` from C03.
* **C05 Relative Rust paths resolve to their target** — Independent resolver `Rust.resolve` (self/super/ident) in Spec; induction on the common prefix.
* **C06 Re-exports point at the right item under the right name** — `Import.generate` + resolver; classification lemmas on prefixes.
* **C07 Generated import expressions walk exactly the Python path** — `importQuote` with an arbitrary importability oracle; evaluation function of the emitted expression.
* **C08 Attribute filter does exactly what the configuration says** — `Config.isAttrAllowed` against a Prop-level spec.
* **C09 No filtered attribute reaches the bindings at any depth** — Invariant over the monadic folds of `Class.parse`/`Module.parse`, induction on the recursion fuel.
* **C10 Docstring shape** — `formatDocstring` on `List Char`, step-wise lemmas.
* **C11 Docstrings cannot open a backtick code fence** — Same; the dedup pass leaves no adjacent pair and later steps only drop/append newlines at the ends.
* **C12 Docstring lines carry no surrounding whitespace** — Same; invariant `TrimmedLines` through each step.
* **C13 Docstring text is preserved** — Same; filter-invariance of each step plus sublist relation.
* **C14 Type annotations always parse to something** — `fromStr` with fuel; a size measure decreases in every recursive call, so the fuel never runs out and its amount does not matter; no error branch.
* **C15 Annotation strings do not crash the generator** — Grammar of annotation expressions with a printer; no panic for all of them; concrete panics proved.
* **C16 Nested generic annotations keep their structure** — Same grammar; `fromStr (print a) = meaning a` when every argument list is `separable`, a condition on the numbers of commas that is proved exact for tuples; counterexamples otherwise.
* **C17 Separator repair loses no text** — Loop invariant: intercalated text constant, length non-increasing.
* **C18 Return types are legal in return position** — Induction on `PyType`.
* **C19 Argument conversion agrees with the parameter type** — Case analysis + induction; counterexample for names with `[`.
* **C20 Annotations naming generated classes use those classes, others fall back to any object** — Association-list lookup (last insertion wins).
* **C21 A value of the annotated type can be extracted** — Python value universe + extraction relation (pyo3 contract) in Spec; induction on the type.
* **C22 Optional only when None is an alternative** — String-level theorem; counterexamples (substring `None`).
* **C23 Hash collections have hashable keys** — Rust-side `implHash` predicate; counterexample + partial; `C23_exact` is the exact condition on the annotation.
* **C24 Arguments are forwarded completely and in order** — Small-step evaluator of the emitted body; list reasoning. `Spec.arrival` is what arrives for a value, as a function of the Rust type alone.
* **C25 The forwarded call binds every Python parameter to its Rust argument** — Python argument binding modelled independently (`PyBind`), composition theorem by induction on the signature.
* **C26 Receiver parameters are handled** — `Function.parse` on signature snapshots.
* **C27 Calls are dispatched to the right object** — `Function.generate` dispatcher + evaluation; counterexample for the no-parameter instance method.
* **C28 Generated helper names are fresh and the search terminates** — Search proved to succeed by pigeonhole; minimality.
* **C29 Reserved function names are never defined** — Case analysis on naming.
* **C30 Accessors read and write the attribute of the same Python name** — Evaluator of getter/setter bodies.
* **C31 Accessors do not clash with functions** — Name lemmas; counterexamples for property/property clashes go to C50.
* **C32 Property mutability, types and docs follow the Python property** — `Property.parse` on snapshots.
* **C33 Every trait method is implemented and vice versa** — Fold invariant in `Class.generate`.
* **C34 Top level of the output is canonical** — `canonicalize`: merge sort + run merging.
* **C35 Merging neither loses nor invents items** — Membership relation `Has` over forests; well-founded induction on forest size.
* **C36 No two sibling modules with the same name** — Recursive sibling-uniqueness invariant.
* **C37 The order of requests does not matter** — Corollary of C34/C35, plus order independence of the dependencies when names are unique.
* **C38 Requesting a module twice changes nothing** — Corollary of C35 + nodup of merged items.
* **C39 Every requested module is in the output** — Path-existence in the emitted tree; counterexample with traversal off.
* **C40 Prelude exports exist** — Declared-name function on the emitted tree; partial + counterexample with flags off.
* **C41 Embedded source code is emitted for modules built from source** — Builder state machine + generate; counterexamples for dotted and keyword names.
* **C42 Configuration flags switch off their item kind everywhere** — Induction over the module tree.
* **C43 Generating nothing is an error** — Direct.
* **C44 Batch requests equal single requests** — Induction on the list.
* **C45 A failed build leaves the output file untouched** — File system as a function; `build` as state transformer.
* **C46 Python stdout and stderr are restored** — `withSuppressed` as state transformer with arbitrary body, whole runs as sequences of such steps; counterexample on failure.
* **C47 Suppressing output is transparent to Python code** — Sink capability model; negation proved; otherwise a run with streams refines the run on one snapshot.
* **C48 Dependencies: exactly the modules of external imports, once** — `parseDependencies` fold; panic when a root is not importable.
* **C49 Type references resolve to emitted types** — `getAllTypes` + `localTypes`; partial (names legal, flags on), counterexample with flags off.
* **C50 No two definitions of the same name in one scope** — Declared names per namespace; negation with witnesses; partial results for functions/accessors and struct/trait.
* **C51 Generation does not panic on importable modules** — Negation with witnesses (typing.Counter[str], dict[int], `def __init__(_)`), partial theorems characterising panic-freedom per function.
* **C52 The output is syntactically complete** — Emitted AST has an explicit dangling-`pub` node; the condition for it, in terms of the kinds of the Python values, proved from both sides (`Props/Stray.lean`): no variable `x` beside a function `set_x`, and always a dangling `pub` otherwise.
* **C53 Imports that overwrite a submodule replace it** — Fold invariant in `Module.parse`.
* **C54 Attributes are classified by one fixed priority** — `AttributeVariant.determine` decision table.
* **C55 CLI and macro produce what the engine produces** — Fold of the CLI vs. `module_names`; I/O as state transformer.
* **C56 Sanitised names** — Naming functions.
* **C57 Hash iteration order does not change what is generated** — The hash order is a parameter of the model; two orders give `Has`-equivalent forests.
* **C58 Parsed module trees mirror the Python package structure** — Induction on fuel.
* **C59 Generated calls reach their objects in a fresh interpreter** — A small specification of Python's import system (`Spec/Runtime.lean`): importing a module loads a set of modules; attributes of a package are its own bindings and the loaded submodules.
* **C60 Annotation objects keep their structure** — A grammar of annotation objects with the way CPython presents them (`Spec/AnnObj.lean`); structural induction.
* **C61 Bindings do not depend on what the interpreter has loaded before** — A relation between an interpreter and its later states
  (`Spec/Live.lean`); every function of the engine returns the same in both.
* **C62 Preludes export the index of the module** — Filters on identifiers become statements on Python names; completeness through the
  prepared tree.
* **C63 Parsing ends, and the depth of the recursion does not matter** — Well-founded induction along submodules (finitely many per module), then
  congruence of whole runs in the parser; in faithful interpreters names get longer at every step.
* **C64 The build profile does not change the bindings** — A relation between outcomes (`Spec/Builds.lean`: the same, or stopped at a check)
  that every function of the engine preserves.
* **C65 The bindings are syntactically valid Rust** — A parser with one bound for depth and length (`Spec/RustSyntax.lean`); for every
  template a lemma that its tokens parse as the intended tree whatever follows, from a bound on; names are legal because `syn` accepted them.
* **C66 The Rust code of a binding makes the intended request** — An evaluator of Rust expressions with pyo3's functions
  (`Spec/Eval.lean`) on the syntax trees; simulation of `Spec.run` by induction on conversions, arguments and objects; the invariant that
  parameters start with `p_` rules out capture.
* **C67 The bindings do not capture the names Rust provides** — The free names and bound variables of syntax trees, and the names that
  items define (`Spec/Hygiene.lean`); every template is computed, every name of an item is traced to an attribute or submodule.
* **C68 The written file reads back as the bindings** — A lexer (`Spec/Lexer.lean`), independent of the printer; induction on the stream:
  whatever follows a token is a space, a closing bracket or a second `>`; induction on strings and digits for the literals.
* **C69 Every definition of a requested module and its submodules has its binding** — Kinds of values (`Spec/Kinds.lean`) and the modules a
  request reaches (`Spec.Reached`, induction along C58) as the interpreter sees them; no step of the parser removes an item, and names of items are distinct; then the provenance lemmas of C39 backwards, and C25, C27, C30 and C66.
* **C70 The CLI and the macro do what their arguments say** — A grammar of command lines (`Spec/Cli.lean`); the automaton accepts exactly its
  words: one statement per state, induction on the arguments.  Then C55.
* **C71 The Rust code of the bindings type checks** — A type checker for the expressions the generator uses (`Spec/Check.lean`), run on the
  trees of C65; types of Rust paths are told apart by their printed form, so an invariant that local types contain no brackets; simulation of
  the checker over conversions, arguments and objects by induction; then provenance of functions as in C66.
* **C72 Every re-export names something the bindings define** — `pathExistsList` as presence in the prepared forest; an item present
  there is emitted at its own path (lemmas of C40), and the relative path resolves to that path (C05).
* **C73 The bindings compile** — `Spec/Compile.lean` says for every scope of the syntax tree what a compiler asks of its names.  A scope at a
  path is the content of one prepared module (C36, C50); then C49, C50, C52, C67, C71, C72 and C74, and the shape of classes and preludes.
* **C74 No value is used after it has been moved** — An analysis of moves on the syntax trees (`Spec/Moves.lean`); conversions give a
  variable a new value, positional arguments only borrow, and keyword arguments are distinct variables because parameters are.
* **C75 The engine succeeds on well-behaved interpreters** — Every function ends in a value, an error or a panic; C51 excludes panics, and
  `NoErr` (the only failures are panics) is proved function by function, so that a value is left. Names of parsed items stay identifiers.
* **C76 What a Python module defines can be used from Rust** — C75 gives the file and C73 that it compiles; C69 gives the bindings of each
  reached module. What remains is that the four theorems of C69 speak of the same Rust module: in a file without clashes a path of names leads
  to one scope only (`scope_unique`). `Spec.ModuleBinds` states on syntax trees what a scope has for a Python module;
  `Spec.Refers` says what the expressions the calls start from are in a fresh interpreter, so that C59 is part of C69 and C76.
* **C77 The macro works with the library of its interpreter** — A host gives the answers of `sysconfig` and `dlopen` and the interpreter that
  results; then C70 and C75 apply to that interpreter. Joining paths is compared with the parts between separators.
* **C78 Arguments and results have the annotated types** — `Spec.Passed` says which Python values the Rust values of a type are converted to,
  `Spec.HasTy` (of C21) which values an annotation admits. Induction on the type that the annotation is read as, for the annotations whose Rust types
  are as tight (`Spec.Tight`); for others counterexamples. `C78_exact` says exactly for which annotations it holds (`Spec.Arrives`), among those
  whose Rust types can be compiled: an annotation that is not among them has a value, other than `None`, that breaks it. C69 and C76 carry it to the functions and accessors of whole runs.
* **C79 Every value of the annotated type can be passed** — The converse of C78, up to Python's equality (`Spec.Equals`: `True` is passed as `1`).
  Induction on the type; elements of containers are chosen one by one. False for bytes, paths and tuples of any length (a frozen set is equal to the
  set that is passed for it). `C79_exact` says exactly for which annotations it holds (`Spec.Sendable`), among those that have values.
* **C80 What a setter stores the getter can read** — `Spec.Passed` of the parameter type into `Spec.Extracts` of the return type, by induction on the
  type, for all annotations.
* **C81 Exceptions of Python reach the Rust caller** — A second evaluator (`Spec/Effects.lean`) for the same syntax trees, with an interpreter that may
  raise an exception at each step, depending on all steps before; `?` returns the exception and a statement `e;` drops it. The two evaluators agree on
  expressions that ask nothing (`Silent`); the others are followed template by template. Exceptions from storing keyword arguments are dropped by the
  emitted code, so the theorem leaves them out and `C81_dropped_counterexample` shows one; `C81_exact` shows that this happens for exactly the callables
  with keyword-only parameters.
* **C82 Switching a kind of item off takes these items away and changes nothing else** — `Spec.restrictItems` filters a tree of items. Parsing and
  preparing modules do not read the six flags (equality of the functions), each generator gives what it gave up to documentation, and induction on the
  module tree puts the filtered parts together. Names that accessors avoid are collected from all functions whether these are emitted or not.
  The flag of preludes is read by the parser: `C82_preludes` follows modules without their preludes (`bareMod`) through parsing, merging and generation,
  with a relation that says nothing after a panic (`UnlessPanic`).
* **C83 Hidden attributes have no influence** — Noninterference: `Spec.SameShownWorld` relates two interpreters; everything that is read of a module or class is
  shown to be the same, with C09 for the packages on the way to the origin of an import.

## Assumptions on the interpreter

A `World` is a snapshot: modules by number, what `import_module` returns, what running source code returns. Nothing is assumed of it in
most theorems. Where a theorem needs more, it says so with one of these predicates of `Verif/Spec`:

* `OrdinaryWorld`: module names are non-empty dotted names without `super`.
* `UniqueNames`: different modules have different names.
* `Faithful`: names are identifiers, and what is imported as `a.b` calls itself `a.b`.
* `Collisionless`: none of the name patterns that make the code define a name twice (C50), among the attributes that the
  configuration keeps.
* `ForeignApart`: no attribute from another module is called like an accessor or a trait (C50).
* `Unreserved`: no attribute and no submodule has a name that the code of the bindings uses (C67).
* `TidyWorld`: all of these but `OrdinaryWorld`, no function named like an accessor (C52), and annotations that Rust can express (C71); for C73.
* `Tame`: none of the situations that make the code panic (C51).
* `Quiet`: the interpreter raises nothing that the engine reports as an error, and parameters and members are called by identifiers (C75).

`FaithfulCheck.lean` and the examples in `Props` show concrete interpreters that meet them.

## Tests of the model

These are tests, not proofs; they guard against a wrong reading of the code.

* `Verif/Conformance.lean`: the three tests of `pyo3_bindgen_engine/tests/bindgen.rs`, run on the model: for the Python sources of the
  tests, the model generates the tokens of the expected Rust files.
* `tools/snapshot.py` writes modules of a real interpreter, with their submodules, as a `World`; what they import from elsewhere is
  not part of it.  This was done for 41 packages and modules of the standard library of Python 3.11 (among them `os`, `json`, `html`,
  `email`, `xml`, `asyncio`).  The script fails on `ctypes`, whose objects load libraries when asked for attributes.  On the other 40 the
  model ends without error or panic with default settings, with and without debug assertions, and the checks for `Faithful`,
  `Tame` and `Collisionless` succeed.  The survey is not part of the build.

## Conventions

* `..._partial`: the theorem covers part of the property; its comment says what is missing.
* `..._counterexample`: a proof that the full property is false of the code, with a concrete witness.
* `seeded/LOG.jsonl`: mutation tests of the model; one line per edit, with the theorems that failed.
* `tools/manifest.py` collects the theorems `Cnn_...` and the notes in `tools/notes.json` into `MANIFEST.json`.

## Disagreements between code and property

All are proved. By area (file of the theorem in `Props`):

* Names and paths: a module segment `super` is lost (C03, Paths); the empty module name stays without a place (C34, Tree); names with
  white space around become reserved names (C29, Dispatch, Accessors).
* Annotations: the comma repair uses a stale index (C16), alternatives inside brackets fall apart (C16), `List[int]` as text is unknown
  (C16), ordinary annotations panic (C15), the substring `None` makes an annotation optional (C22) — Annotations; the class
  `datetime.datetime` is read as a date, `Type[int]` as `int`, the texts `set`, `frozenset`, `datetime.timedelta`, `type` as
  unknown classes (C60), `Optional[Type[None]]` panics (C15, Readable), classes that derive from a builtin class are read as the builtin class (C20) — AnnObjects.
* Rust types: abstract annotations become concrete types (C21), IP address types do not exist in Rust (C21, C71), unhashable keys (C23, C71), tuples of more than 12 elements are not converted (C71),
  generic local classes get the wrong conversion (C19), `None` for an optional dictionary becomes `{}` (C19, C24, C30) — RustTypes,
  Functions, Accessors; `bytes`, `bytearray` and `tuple[T, ...]` parameters arrive as lists, paths as strings and frozen sets as sets (C78, Passed);
  types of imported modules are not found and module aliases are taken for types (C20) — Types.
* Functions: parameters `_` shift arguments (C25), receivers `_` (C26), duplicate parameter names (C26), methods without parameters are
  called on themselves (C27), builtin methods are not generated (C27) — Functions, Dispatch; the setter's annotation is ignored (C32).
* Scopes: accessors, sanitised names, call operators, classes and submodules, traits clash (C31, C50) — Accessors, ClassScopes,
  WorldScopes; re-exports clash with accessors and traits (C50) and stay if their items are switched off (C72) — UseNames;
  a dangling `pub` (C52) — Flags, Stray; preludes export things that are switched off (C40) — Prelude;
  one unspellable name suppresses a prelude, re-exports and plain values are left out (C62) — PreludeNames; classes named like a
  built-in type, a function `Some`, a class `p_x` and an embedded class `pyo3` capture names of the templates (C67) — Hygiene.
* A package whose submodule is the package itself (`sys.modules["pkg.q"] = pkg`) is parsed forever (C51, C63) — Panics, Termination.
* Modules: aliases give equal siblings (C36), without traversal requested submodules are missing (C39), functions that overwrite a
  submodule are lost (C53), dependencies: private modules are admitted (C48), of equal names the first wins (C37).
* Engine: sources of dotted or keyword modules are not embedded (C41), streams stay replaced after a failure (C46), modules that print
  fail under suppression (C47), iteration order of hash sets changes types and success (C57), panics (C51), references to classes that
  are not generated (C49), requesting a package again adds a prelude because its submodules are loaded by then (C38, C61), private
  names then include a made-up `__all__`, and a dependency is a package or only its submodule (C61) — Live; functions of submodules cannot be called in a fresh interpreter (C59).

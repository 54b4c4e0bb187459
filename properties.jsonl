{"id": "C01", "title": "Python names survive the trip through Rust identifiers", "statement": "Converting a Python attribute name to a Rust identifier and reading it back as Python gives the same name, so every getattr/call string in the bindings is the original Python name; two different Python names never get the same Rust identifier.", "quantifier": "every string that does not itself start with the raw-identifier prefix `r#` (no Python identifier does), and every pair of such strings", "why_tests_cant": "Unit tests check two literals; the claim is about all strings, including every Rust keyword and every non-ASCII name.", "anchors": ["pyo3_bindgen_engine/src/syntax/common/ident.rs: Ident::from_py, as_py, py_to_rs, rs_as_py"]}
{"id": "C02", "title": "Every Python identifier except five becomes a legal Rust identifier", "statement": "The identifier produced for a Python identifier is accepted by the Rust lexer as one identifier token (escaped with r# when it is a keyword), except for exactly `_`, `self`, `Self`, `super` and `crate`, which are never accepted.", "quantifier": "every Python identifier (XID start/continue string)", "why_tests_cant": "Infinite set of names; the exceptional set must be complete.", "anchors": ["pyo3_bindgen_engine/src/syntax/common/ident.rs: Ident::py_to_rs, TryFrom<Ident> for syn::Ident"]}
{"id": "C03", "title": "Dotted Python paths survive parsing and printing", "statement": "Parsing a dotted Python path and printing it back gives the same text, including leading dots of relative paths; distinct dotted names stay distinct.", "quantifier": "every absolute dotted path with non-empty segments, and every relative path with leading dots followed by at least one segment, of any length", "why_tests_cant": "Unbounded number of segments; the known failure (a segment literally named `super`) is only visible when the claim is stated for all names.", "anchors": ["pyo3_bindgen_engine/src/syntax/common/path.rs: Path::from_py, to_py, from_rs, to_rs"]}
{"id": "C04", "title": "Sorting modules groups equal modules together", "statement": "The order used to sort modules is a total order on the printed Python path, and two module paths compare equal exactly when they are the same module path, so duplicate modules always end up adjacent.", "quantifier": "every list of modules with ordinary Python names, of any length", "why_tests_cant": "Duplicate detection only looks at adjacent entries; correctness is an argument about all sorted lists.", "anchors": ["pyo3_bindgen_engine/src/syntax/common/path.rs: Ord for Path", "pyo3_bindgen_engine/src/codegen.rs: get_duplicate_modules"]}
{"id": "C05", "title": "Relative Rust paths resolve to their target", "statement": "The relative path generated for referring to item T from inside module M, resolved by the Rust rules for self/super/names starting at M, is T; it never climbs above the root of the generated tree.", "quantifier": "every module path M and non-empty target path T, in both disambiguation modes", "why_tests_cant": "Pairs of paths of unbounded length; off-by-one in the number of `super` is input dependent.", "anchors": ["pyo3_bindgen_engine/src/syntax/common/path.rs: Path::relative_to"]}
{"id": "C06", "title": "Re-exports point at the right item under the right name", "statement": "Every `pub use` emitted for a Python import, placed in the module that does the import, resolves to the item the import came from and binds exactly the Python name of the import; it is emitted only for items from inside that module's own subtree, and never for a self-import.", "quantifier": "every import (origin path, target path)", "why_tests_cant": "Combination of prefix classification, relative path and aliasing over unbounded paths.", "anchors": ["pyo3_bindgen_engine/src/syntax/import.rs: Import::generate, ImportType::from_paths"]}
{"id": "C07", "title": "Generated import expressions walk exactly the Python path", "statement": "The expression emitted to reach a Python module or class imports a package and then reads attributes such that package name followed by attribute names is exactly the Python path; the package is the longest proper prefix that was importable at generation time, else the first segment.", "quantifier": "every non-empty path and every set of importable modules", "why_tests_cant": "Depends on an arbitrary interpreter state and path length.", "anchors": ["pyo3_bindgen_engine/src/syntax/common/path.rs: Path::import_quote"]}
{"id": "C08", "title": "Attribute filter does exactly what the configuration says", "statement": "An attribute is kept iff its name is not reserved, is not blocklisted, is not private while private attributes are excluded (its own name or any segment of its module), and its module does not mention __future__ or typing.", "quantifier": "every configuration, attribute name and module path", "why_tests_cant": "Arbitrary user blocklists and names.", "anchors": ["pyo3_bindgen_engine/src/config.rs: Config::is_attr_allowed"]}
{"id": "C09", "title": "No filtered attribute reaches the bindings at any depth", "statement": "For every module that parses, every function, class, type variable, property, import and prelude entry of it and of all its submodules has a name the configuration allows; class members too, except the constructor and call operator.", "quantifier": "every Python module graph, configuration and recursion depth", "why_tests_cant": "Needs induction over the recursive traversal, including the path that rewrites imports that overwrite submodules.", "anchors": ["pyo3_bindgen_engine/src/syntax/module.rs: Module::parse, extract_prelude", "pyo3_bindgen_engine/src/syntax/class.rs: Class::parse"]}
{"id": "C10", "title": "Docstring shape", "statement": "A formatted docstring starts with one padding space; if it spans several lines it ends with exactly one newline, and a docstring without a newline gets none.", "quantifier": "every docstring", "why_tests_cant": "All strings, including empty, all-newline and all-slash ones.", "anchors": ["pyo3_bindgen_engine/src/utils/text.rs: format_docstring"]}
{"id": "C11", "title": "Docstrings cannot open a backtick code fence", "statement": "A formatted docstring never contains two adjacent backticks, so no Python docstring turns into a backtick-fenced Rust doctest.", "quantifier": "every docstring", "why_tests_cant": "All strings; later steps of the formatter could re-create adjacent backticks.", "anchors": ["pyo3_bindgen_engine/src/utils/text.rs: format_docstring, conditioned_dedup"]}
{"id": "C12", "title": "Docstring lines carry no surrounding whitespace", "statement": "No line of a formatted docstring has leading or trailing whitespace except the padding space of the first line, and no whitespace character other than newline is directly repeated; so no line is an indented code block.", "quantifier": "every docstring", "why_tests_cant": "All strings and all Unicode white space.", "anchors": ["pyo3_bindgen_engine/src/utils/text.rs: format_docstring"]}
{"id": "C13", "title": "Docstring text is preserved", "statement": "Formatting a docstring keeps its characters in order: only white space, repeated backticks and trailing slashes are removed.", "quantifier": "every docstring", "why_tests_cant": "A sampled docstring cannot show that nothing is lost for others.", "anchors": ["pyo3_bindgen_engine/src/utils/text.rs: format_docstring, conditioned_dedup"]}
{"id": "C14", "title": "Type annotations always parse to something", "statement": "Interpreting a type annotation string terminates on every input and never reports an error: it yields a type, falling back to an opaque type, or panics.", "quantifier": "every string", "why_tests_cant": "Termination of a recursive descent over all strings.", "anchors": ["pyo3_bindgen_engine/src/typing/from_py.rs: FromStr for Type"]}
{"id": "C15", "title": "Annotation strings do not crash the generator", "statement": "Interpreting a type annotation whose brackets nest properly and whose dict annotations have two arguments does not panic.", "quantifier": "every well-formed annotation expression of any nesting depth", "why_tests_cant": "Index and unsigned-subtraction panics depend on nesting and separators.", "anchors": ["pyo3_bindgen_engine/src/typing/from_py.rs: FromStr for Type, repair_complex_sequence"]}
{"id": "C16", "title": "Nested generic annotations keep their structure", "statement": "Interpreting the text of a nested generic annotation gives the type with the same nesting: each container has exactly the element types written between its brackets.", "quantifier": "every annotation expression built from names and list/set/frozenset/dict/tuple/Sequence/Iterable/Iterator, of any nesting depth", "why_tests_cant": "Unbounded nesting; the separator repair has an index that goes stale only for particular shapes.", "anchors": ["pyo3_bindgen_engine/src/typing/from_py.rs: FromStr for Type, repair_complex_sequence"]}
{"id": "C17", "title": "Separator repair loses no text", "statement": "Regrouping the comma-separated pieces of a nested annotation keeps the concatenated text unchanged and never yields more pieces than before.", "quantifier": "every list of pieces and separator", "why_tests_cant": "Loop with restarts over arbitrary lists.", "anchors": ["pyo3_bindgen_engine/src/typing/from_py.rs: repair_complex_sequence"]}
{"id": "C18", "title": "Return types are legal in return position", "statement": "The Rust type generated for a return value contains no `impl Trait` and no reference at any depth; parameter types use `impl Trait` or a reference only at the outermost position.", "quantifier": "every Python type of any nesting depth and every set of known local types", "why_tests_cant": "Induction over all types.", "anchors": ["pyo3_bindgen_engine/src/typing/into_rs.rs: Type::into_rs, into_rs_owned, into_rs_borrowed"]}
{"id": "C19", "title": "Argument conversion agrees with the parameter type", "statement": "The conversion statement emitted for a parameter matches the parameter's Rust type: a dictionary conversion exactly for parameters accepting any dictionary, a tuple conversion exactly for parameters accepting any tuple, an object conversion exactly for parameters accepting any object, none otherwise.", "quantifier": "every Python type and every set of known local types", "why_tests_cant": "Two separately written case analyses over an unbounded type language must agree.", "anchors": ["pyo3_bindgen_engine/src/typing/into_rs.rs: Type::preprocess_borrowed, Type::into_rs"]}
{"id": "C20", "title": "Annotations naming generated classes use those classes, others fall back to any object", "statement": "An annotation naming a class or type variable that bindings are generated for becomes a reference to that Rust type by its relative path (also with type arguments, and also under the name it was imported as); an unknown annotation becomes an arbitrary Python object.", "quantifier": "every annotation name and every set of generated types", "why_tests_cant": "Lookup in arbitrary tables.", "anchors": ["pyo3_bindgen_engine/src/typing/into_rs.rs: Type::map_type", "pyo3_bindgen_engine/src/syntax/module.rs: Module::generate (local_types)"]}
{"id": "C21", "title": "A value of the annotated type can be extracted", "statement": "If a Python value really has the annotated type and its integers fit in 64 bits, converting it to the generated Rust return type succeeds.", "quantifier": "every type of any nesting depth and every value of it", "why_tests_cant": "Structural induction over types and values.", "anchors": ["pyo3_bindgen_engine/src/typing/into_rs.rs: Type::into_rs"]}
{"id": "C22", "title": "Optional only when None is an alternative", "statement": "An annotation string is read as Optional[T] only if one of the two alternatives is None, and then T is the other alternative.", "quantifier": "every annotation string with one `|`", "why_tests_cant": "The code counts occurrences of the substring `None`.", "anchors": ["pyo3_bindgen_engine/src/typing/from_py.rs: FromStr for Type"]}
{"id": "C23", "title": "Hash collections have hashable keys", "statement": "Every HashMap key type and HashSet element type that is emitted implements Hash and Eq, so the bindings compile.", "quantifier": "every Python type of any nesting depth", "why_tests_cant": "Depends on nested element types.", "anchors": ["pyo3_bindgen_engine/src/typing/mod.rs: Type::is_hashable", "pyo3_bindgen_engine/src/typing/into_rs.rs: Type::into_rs"]}
{"id": "C24", "title": "Arguments are forwarded completely and in order", "statement": "Calling a generated function passes to Python: the positional parameters in declaration order followed by the elements of *args, and as keywords every keyword-only parameter under its Python name together with the entries of **kwargs.", "quantifier": "every parameter list and every argument tuple", "why_tests_cant": "Unbounded parameter lists with all kind combinations.", "anchors": ["pyo3_bindgen_engine/src/syntax/function.rs: Function::generate"]}
{"id": "C25", "title": "The forwarded call binds every Python parameter to its Rust argument", "statement": "Python's own argument binding accepts the forwarded call and gives each Python parameter the value supplied for it on the Rust side.", "quantifier": "every well-formed Python signature without a parameter named `_` and every argument tuple", "why_tests_cant": "Composition of the wrapper with Python's binding algorithm over unbounded signatures.", "anchors": ["pyo3_bindgen_engine/src/syntax/function.rs: Function::parse, Function::generate"]}
{"id": "C26", "title": "Receiver parameters are handled", "statement": "Instance methods, constructors and call operators drop exactly the first Python parameter; no other parameter is dropped except ones named `_`; no generated function has a parameter called self; Rust parameter names are pairwise distinct.", "quantifier": "every signature and method kind", "why_tests_cant": "Case analysis over arbitrary parameter lists.", "anchors": ["pyo3_bindgen_engine/src/syntax/function.rs: Function::parse"]}
{"id": "C27", "title": "Calls are dispatched to the right object", "statement": "Module functions are called on their module, class and static methods and constructors on their class, instance methods and call operators on self, under the Python name of the function.", "quantifier": "every function and interpreter state", "why_tests_cant": "One code path stores the wrong class path, visible only for a special signature.", "anchors": ["pyo3_bindgen_engine/src/syntax/function.rs: Function::parse, Function::generate"]}
{"id": "C28", "title": "Generated helper names are fresh and the search terminates", "statement": "The names chosen for the constructor, the call operator and the prelude module are different from all existing names they are checked against, are the first free candidate, and a free candidate is always found.", "quantifier": "every set of existing names", "why_tests_cant": "Termination of an unbounded search for all sets of names.", "anchors": ["pyo3_bindgen_engine/src/syntax/function.rs: Function::generate", "pyo3_bindgen_engine/src/syntax/module.rs: generate_prelude"]}
{"id": "C29", "title": "Reserved function names are never defined", "statement": "No generated free function, method, getter or setter is called get_type, obj, py, repr or str.", "quantifier": "every function, class and property", "why_tests_cant": "All input names, including ones renamed by sanitising or prefixing.", "anchors": ["pyo3_bindgen_engine/src/syntax/function.rs: Function::generate", "pyo3_bindgen_engine/src/syntax/property.rs: generate_getter, generate_setter"]}
{"id": "C30", "title": "Accessors read and write the attribute of the same Python name", "statement": "A property getter reads, and a setter writes, the attribute whose name is the Python name of the property, on the module or on self; a setter is emitted only for mutable properties.", "quantifier": "every property", "why_tests_cant": "All names, including keywords and renamed accessors.", "anchors": ["pyo3_bindgen_engine/src/syntax/property.rs: generate, generate_getter, generate_setter"]}
{"id": "C31", "title": "Accessors do not clash with functions", "statement": "No getter or setter has the same Rust name as a function (or method) of the same scope.", "quantifier": "every module and class", "why_tests_cant": "Renaming by get_/set_ prefixes over arbitrary name sets.", "anchors": ["pyo3_bindgen_engine/src/syntax/property.rs: generate_getter, generate_setter"]}
{"id": "C32", "title": "Property mutability, types and docs follow the Python property", "statement": "Module attributes are mutable with setter type equal to getter type; class properties are mutable iff they have a non-None setter; each accessor is documented by its own docstring or, if missing, the other's.", "quantifier": "every Python attribute", "why_tests_cant": "Case analysis over all combinations of getter, setter, annotation and docstring.", "anchors": ["pyo3_bindgen_engine/src/syntax/property.rs: Property::parse"]}
{"id": "C33", "title": "Every trait method is implemented and vice versa", "statement": "For every generated class, the methods declared in its trait and those defined in the trait implementation have the same signatures in the same order.", "quantifier": "every class", "why_tests_cant": "Methods and properties with arbitrary skip/rename decisions.", "anchors": ["pyo3_bindgen_engine/src/syntax/class.rs: Class::generate", "pyo3_bindgen_engine/src/syntax/function.rs: Function::generate", "pyo3_bindgen_engine/src/syntax/property.rs: Property::generate"]}
{"id": "C34", "title": "Top level of the output is canonical", "statement": "Before generation every top-level module has a one-segment name, the top level is sorted by Python name, and no two top-level modules have the same name.", "quantifier": "every sequence of requested modules", "why_tests_cant": "Arbitrary multisets of dotted names.", "anchors": ["pyo3_bindgen_engine/src/codegen.rs: canonicalize, merge_duplicate_modules"]}
{"id": "C35", "title": "Merging neither loses nor invents items", "statement": "After canonicalisation an item (import, class, function, type variable, property, prelude name) is present in the module with a given path iff some module with that path had it before.", "quantifier": "every forest of modules of any depth", "why_tests_cant": "Recursive merge over unbounded trees.", "anchors": ["pyo3_bindgen_engine/src/codegen.rs: canonicalize, merge_duplicate_modules"]}
{"id": "C36", "title": "No two sibling modules with the same name", "statement": "After canonicalisation no module has two direct submodules with the same name, at any depth.", "quantifier": "every forest whose input modules individually have that property", "why_tests_cant": "Recursive merge over unbounded trees.", "anchors": ["pyo3_bindgen_engine/src/codegen.rs: merge_duplicate_modules"]}
{"id": "C37", "title": "The order of requests does not matter", "statement": "Requesting the same modules in another order produces a tree with the same modules and the same items at the same paths, and the same order of top-level modules.", "quantifier": "every permutation of every request sequence", "why_tests_cant": "Factorially many orders.", "anchors": ["pyo3_bindgen_engine/src/codegen.rs: generate, canonicalize"]}
{"id": "C38", "title": "Requesting a module twice changes nothing", "statement": "Requesting a module again produces the same items at the same paths, each item once.", "quantifier": "every request sequence", "why_tests_cant": "Arbitrary histories of requests.", "anchors": ["pyo3_bindgen_engine/src/codegen.rs: module, merge_duplicate_modules"]}
{"id": "C39", "title": "Every requested module is in the output", "statement": "For every requested module name a.b.c the generated code contains `pub mod a { pub mod b { pub mod c { ... } } }` with the content of that module.", "quantifier": "every request sequence and configuration", "why_tests_cant": "Interaction of wrapping, merging and configuration flags.", "anchors": ["pyo3_bindgen_engine/src/codegen.rs: canonicalize", "pyo3_bindgen_engine/src/syntax/module.rs: Module::generate"]}
{"id": "C40", "title": "Prelude exports exist", "statement": "Every name re-exported by a generated prelude module is defined in the enclosing generated module.", "quantifier": "every module and configuration", "why_tests_cant": "Arbitrary __all__ lists and flags.", "anchors": ["pyo3_bindgen_engine/src/syntax/module.rs: generate_prelude, extract_prelude"]}
{"id": "C41", "title": "Embedded source code is emitted for modules built from source", "statement": "A module added from source code gets a pyo3_embed_python_source_code function carrying exactly that source (the last one given for that name); no other module gets one.", "quantifier": "every history of builder calls", "why_tests_cant": "Arbitrary histories and names.", "anchors": ["pyo3_bindgen_engine/src/codegen.rs: module_from_str, generate", "pyo3_bindgen_engine/src/syntax/module.rs: Module::generate"]}
{"id": "C42", "title": "Configuration flags switch off their item kind everywhere", "statement": "With a generate_* flag off, no item of that kind is emitted at any depth; with docs off, no doc attribute derived from Python is emitted; with submodule traversal off, no nested module is emitted.", "quantifier": "every module tree and configuration", "why_tests_cant": "Unbounded depth.", "anchors": ["pyo3_bindgen_engine/src/syntax/module.rs: Module::generate", "pyo3_bindgen_engine/src/config.rs: Config"]}
{"id": "C43", "title": "Generating nothing is an error", "statement": "generate() on an engine without modules fails with a codegen error; with at least one module it does not fail for that reason.", "quantifier": "every configuration and builder history", "why_tests_cant": "All histories leading to an empty engine.", "anchors": ["pyo3_bindgen_engine/src/codegen.rs: generate"]}
{"id": "C44", "title": "Batch requests equal single requests", "statement": "module_names([a,b,...]) behaves like module_name(a) then module_name(b)...; it stops at the first failure and reports that failure; the same for modules().", "quantifier": "every list of names and interpreter state", "why_tests_cant": "Unbounded lists and failure positions.", "anchors": ["pyo3_bindgen_engine/src/codegen.rs: modules, module_names"]}
{"id": "C45", "title": "A failed build leaves the output file untouched", "statement": "build(path) writes the file only if generation succeeded, and then writes exactly the generated text.", "quantifier": "every engine state, file system content and failure point", "why_tests_cant": "All failure points.", "anchors": ["pyo3_bindgen_engine/src/codegen.rs: build"]}
{"id": "C46", "title": "Python stdout and stderr are restored", "statement": "After adding a module, sys.stdout and sys.stderr are the objects they were before.", "quantifier": "every combination of suppression flags, interpreter state and outcome of the parse", "why_tests_cant": "The failing path skips the restore.", "anchors": ["pyo3_bindgen_engine/src/utils/io.rs: with_suppressed_python_output"]}
{"id": "C47", "title": "Suppressing output is transparent to Python code", "statement": "With suppression on, Python code that prints while being inspected runs as it would without suppression, only silently.", "quantifier": "every Python module", "why_tests_cant": "The replacement object must support what print needs.", "anchors": ["pyo3_bindgen_engine/src/utils/io.rs: with_suppressed_python_output"]}
{"id": "C48", "title": "Dependencies: exactly the modules of external imports, once", "statement": "With dependency generation on, the modules added are exactly the allowed modules that external imports of the requested modules come from, each once.", "quantifier": "every module forest and interpreter state", "why_tests_cant": "Unbounded import graphs.", "anchors": ["pyo3_bindgen_engine/src/codegen.rs: parse_dependencies"]}
{"id": "C49", "title": "Type references resolve to emitted types", "statement": "Every reference to a generated type in a signature resolves to a struct or type alias that is emitted.", "quantifier": "every module forest and configuration", "why_tests_cant": "Cross-module references over unbounded trees.", "anchors": ["pyo3_bindgen_engine/src/codegen.rs: get_all_types", "pyo3_bindgen_engine/src/syntax/module.rs: Module::generate"]}
{"id": "C50", "title": "No two definitions of the same name in one scope", "statement": "No generated module defines two types/modules or two functions of the same name, and no generated trait or impl block defines two methods of the same name.", "quantifier": "every module", "why_tests_cant": "Arbitrary sets of Python names with prefixes and suffixes added by the generator.", "anchors": ["pyo3_bindgen_engine/src/syntax/module.rs: Module::generate", "pyo3_bindgen_engine/src/syntax/class.rs: Class::generate", "pyo3_bindgen_engine/src/syntax/property.rs"]}
{"id": "C51", "title": "Generation does not panic on importable modules", "statement": "If the target module can be imported, adding it and generating bindings does not panic.", "quantifier": "every Python module graph", "why_tests_cant": "Panic sites are input dependent.", "anchors": ["README.md: Status", "pyo3_bindgen_engine/src/syntax/function.rs: Function::parse", "pyo3_bindgen_engine/src/typing/from_py.rs", "pyo3_bindgen_engine/src/codegen.rs"]}
{"id": "C52", "title": "The output is syntactically complete", "statement": "The generated token stream has no dangling visibility keyword: every `pub` is followed by an item.", "quantifier": "every module", "why_tests_cant": "Depends on which accessors are skipped.", "anchors": ["pyo3_bindgen_engine/src/syntax/property.rs: Property::generate"]}
{"id": "C53", "title": "Imports that overwrite a submodule replace it", "statement": "When an imported attribute has the same name as a submodule of the package, the bindings contain the imported item under that name and no submodule of that name.", "quantifier": "every package", "why_tests_cant": "Arbitrary combinations of imports and submodules.", "anchors": ["pyo3_bindgen_engine/src/syntax/module.rs: Module::parse"]}
{"id": "C54", "title": "Attributes are classified by one fixed priority", "statement": "Each attribute becomes exactly one of import, module, class, function, method, closure, type variable, property, by the documented priority; imports are only considered for modules and only for attributes defined elsewhere.", "quantifier": "every attribute", "why_tests_cant": "All combinations of attribute traits.", "anchors": ["pyo3_bindgen_engine/src/syntax/common/attribute_variant.rs: AttributeVariant::determine"]}
{"id": "C55", "title": "CLI and macro produce what the engine produces", "statement": "The CLI with names n1..nk and the macro with one name produce exactly the engine's output for these names with the default configuration, and any engine error aborts before anything is written.", "quantifier": "every argument list and interpreter state", "why_tests_cant": "All argument lists and failure points.", "anchors": ["pyo3_bindgen_cli/src/main.rs: main", "pyo3_bindgen_macros/src/lib.rs: import_python"]}
{"id": "C56", "title": "Sanitised names", "statement": "A function or class whose name is not a legal Rust identifier is emitted under f_/s_ plus its name with non-alphanumeric characters replaced by underscores, or skipped if even that is not legal; no illegal identifier is ever emitted.", "quantifier": "every function and class name", "why_tests_cant": "All strings.", "anchors": ["pyo3_bindgen_engine/src/syntax/function.rs: Function::generate", "pyo3_bindgen_engine/src/syntax/class.rs: Class::generate"]}
{"id": "C57", "title": "Hash iteration order does not change what is generated", "statement": "Whatever order hash sets are iterated in, the same items are generated at the same paths; only the order of items may differ.", "quantifier": "every iteration order", "why_tests_cant": "Order is an implementation detail of the hasher.", "anchors": ["pyo3_bindgen_engine/src/codegen.rs: merge_duplicate_submodules_recursive", "pyo3_bindgen_engine/src/syntax/module.rs: Module::parse"]}
{"id": "C58", "title": "Parsed module trees mirror the Python package structure", "statement": "Each parsed submodule corresponds to an importable, allowed submodule of its package; non-packages and runs with traversal off have no pkgutil submodules.", "quantifier": "every package graph and recursion depth", "why_tests_cant": "Induction over the recursive traversal.", "anchors": ["pyo3_bindgen_engine/src/syntax/module.rs: Module::parse, extract_submodules"]}
{"id": "C59", "title": "Generated calls reach their objects in a fresh interpreter", "statement": "In a fresh interpreter with the same modules, the import expression in the body of a generated function, method or accessor evaluates (without ImportError or AttributeError) to the module or class that the item belongs to.", "quantifier": "every path, every interpreter (what each import loads and binds)", "why_tests_cant": "During generation every submodule has already been imported, so an attribute access that needs an earlier import always works there; only a model of what each import loads covers all programs that use the bindings.", "anchors": ["pyo3_bindgen_engine/src/syntax/common/path.rs: Path::import_quote", "pyo3_bindgen_engine/src/syntax/function.rs: Function::generate", "pyo3_bindgen_engine/src/syntax/property.rs: Property::generate_getter"]}
{"id": "C60", "title": "Annotation objects keep their structure", "statement": "An annotation that is a Python object (a class or a generic of module typing) is interpreted as the type with the same nesting: a builtin class as its own type (the same as when its name is given as text), another class by its name, a container with the types of its arguments, a union with None as an optional.", "quantifier": "every annotation object built from classes and List/Set/FrozenSet/Sequence/Iterable/Iterator/Dict/Mapping/Tuple/Callable/Union/Type, of any nesting depth", "why_tests_cant": "Unbounded nesting, and the outcome for a class depends on the order of 27 subclass tests.", "anchors": ["pyo3_bindgen_engine/src/typing/from_py.rs: TryFrom<Bound<PyAny>> for Type, TryFrom<Bound<PyType>> for Type, Type::from_typing"]}
{"id": "C61", "title": "Bindings do not depend on what the interpreter has loaded before", "statement": "A module is parsed to the same, and a whole run yields the same bindings, whether or not earlier requests have left traces in the interpreter: submodules that are bound in their packages because they have been imported, and the empty __all__ that looking for an index creates.", "quantifier": "every interpreter, every set of traces, every sequence of requests each in its own state of the interpreter", "why_tests_cant": "Depends on the history of the process: any subset of submodules may have been imported before.", "anchors": ["pyo3_bindgen_engine/src/syntax/module.rs: Module::parse, extract_prelude", "pyo3_bindgen_engine/src/codegen.rs: module_name, generate"]}
{"id": "C62", "title": "Preludes export the index of the module", "statement": "The prelude of a generated module exports exactly the names of __all__ that are allowed, come from the same package and are bound in the module, each once; there is no prelude if __all__ just names the public attributes.", "quantifier": "every interpreter, configuration and module", "why_tests_cant": "Depends on every combination of index, attributes, configuration and spelling; one bad name can affect all others.", "anchors": ["pyo3_bindgen_engine/src/syntax/module.rs: extract_prelude, generate_prelude, check_ident_exists_immediate"]}
{"id": "C63", "title": "Parsing ends, and the depth of the recursion does not matter", "statement": "Following submodules ends: there is a recursion depth from which on no run, whatever its requests, exhausts the stack, and all depths from there on give the same outcome.", "quantifier": "every interpreter, configuration and list of requests", "why_tests_cant": "No test can show that a recursion ends for every package layout, nor that a larger stack never changes an outcome.", "anchors": ["pyo3_bindgen_engine/src/syntax/module.rs: parse", "pyo3_bindgen_engine/src/codegen.rs: module, parse_dependencies, generate"]}
{"id": "C64", "title": "The build profile does not change the bindings", "statement": "A run of the engine built in the debug profile ends like the same run in the release profile: with the same bindings, the same error and the same standard streams. The only other outcome is that it stops at an overflow check or a debug assertion, which the release build never does.", "quantifier": "every machine, interpreter (also one that changes between requests), configuration and list of requests", "why_tests_cant": "Tests run in one profile on a few modules; wrapping arithmetic and compiled-out assertions could change any result silently.", "anchors": ["pyo3_bindgen_engine/src/typing/from_py.rs: repair_complex_sequence", "pyo3_bindgen_engine/src/syntax/common/ident.rs: from_py", "pyo3_bindgen_engine/src/syntax/common/path.rs: from_py", "pyo3_bindgen_engine/src/codegen.rs: module, parse_dependencies, generate"]}
{"id": "C65", "title": "The bindings are syntactically valid Rust", "statement": "The generated token stream is a Rust file, and its syntax tree is the one that the emitted items stand for. The only exception: if a variable's getter or setter cannot be named, a `pub` without an item is left behind, and then the whole stream is rejected (and the command-line tool panics).", "quantifier": "every interpreter, configuration and list of requests for which generation succeeds", "why_tests_cant": "A template with an unbalanced or misplaced token, or a name that is a keyword, shows only for the one combination of parameter kinds, types and names that reaches it.", "anchors": ["pyo3_bindgen_engine/src/syntax/function.rs: generate", "pyo3_bindgen_engine/src/syntax/class.rs: generate", "pyo3_bindgen_engine/src/syntax/module.rs: generate", "pyo3_bindgen_engine/src/syntax/property.rs: generate", "pyo3_bindgen_engine/src/typing/into_rs.rs: into_rs_owned", "pyo3_bindgen_cli/src/main.rs: main"]}
{"id": "C66", "title": "The Rust code of a binding makes the intended request", "statement": "Evaluated by the rules of Rust and pyo3, the code of every generated function, method, constructor and accessor asks Python exactly once for what it stands for: the object reached by its import expression is called, read or written under the Python name with the converted arguments, in their order, `*args` appended and keyword arguments set. Every variable of a body is bound (no parameter is shadowed by `py`, `self` or an internal variable), and every fallible step is propagated. A function that embeds a source registers a module made from exactly that source in `sys.modules`.", "quantifier": "every interpreter, configuration, generated function and argument values", "why_tests_cant": "A template that swaps two arguments, misses a `?` or captures a variable compiles or fails only for particular combinations of parameter kinds and names; tests run a handful of functions.", "anchors": ["pyo3_bindgen_engine/src/syntax/function.rs: generate", "pyo3_bindgen_engine/src/syntax/property.rs: generate_getter, generate_setter", "pyo3_bindgen_engine/src/syntax/class.rs: generate", "pyo3_bindgen_engine/src/syntax/common/path.rs: import_quote", "pyo3_bindgen_engine/src/typing/into_rs.rs: preprocess_borrowed", "pyo3_bindgen_engine/src/syntax/module.rs: generate"]}
{"id": "C67", "title": "The bindings do not capture the names Rust provides", "statement": "The functions of the bindings use few names without saying where they come from: built-in types of Rust, Vec, Some, the crate pyo3 (only where a source is embedded), Self, and the first segments of references to generated types; their variables are py or begin with p_ or __internal__. In the module in which they stand, those names mean what Rust provides, and no tuple struct has the name of a variable, unless the Python module has such a name itself.", "quantifier": "every interpreter, configuration, embedded sources, and every function and module of the generated file", "why_tests_cant": "Capture needs a Python name that coincides with a name in a template; whether any template uses an unqualified name in any combination of types and parameter kinds is a statement about all of them.", "anchors": ["pyo3_bindgen_engine/src/typing/into_rs.rs: into_rs_owned, into_rs_borrowed, preprocess_borrowed", "pyo3_bindgen_engine/src/syntax/function.rs: generate", "pyo3_bindgen_engine/src/syntax/property.rs: generate_getter, generate_setter", "pyo3_bindgen_engine/src/syntax/module.rs: generate (478-502)", "pyo3_bindgen_engine/src/config.rs: is_attr_allowed"]}
{"id": "C68", "title": "The written file reads back as the bindings", "statement": "The text that `build` writes is split by the Rust lexer into exactly the generated tokens: no name, documentation string or embedded source changes or swallows what follows, every string literal stands for the string put in, and different bindings have different texts. Hence the file parses as the Rust file that the items stand for (with the exception of C65).", "quantifier": "every interpreter, configuration, embedded sources (arbitrary strings) and table of printable characters", "why_tests_cant": "Escaping goes wrong for single characters or pairs of characters (quotes, NUL before a digit, control and combining characters) that tests with ordinary documentation never contain.", "anchors": ["pyo3_bindgen_engine/src/codegen.rs: build", "pyo3_bindgen_engine/src/syntax/module.rs: generate", "pyo3_bindgen_engine/src/syntax/function.rs: generate", "pyo3_bindgen_engine/src/syntax/class.rs: generate"]}
{"id": "C69", "title": "Every definition of a requested module and its submodules has its binding", "statement": "If a Python module is requested, or is an allowed and importable submodule of one that is, at any depth, then every function it defines that the configuration keeps (and every functools.partial) has a Rust function of its name that forwards its arguments to it; every class it defines has a Rust type, with a constructor and methods that forward their arguments, and accessors for its other members; every variable has an accessor that reads it and one that writes it; every type variable has a type. All are in the nested Rust modules that spell the name of the Python module.", "quantifier": "every interpreter, configuration, list of requested modules, module reached from one of them and attribute of it", "why_tests_cant": "An attribute is lost when it meets another one under some name (an accessor, an import, a submodule), or when the interpreter gives no signature: the combinations of kinds, names, flags and requests are unbounded, and a missing binding makes no test fail.", "anchors": ["pyo3_bindgen_engine/src/syntax/module.rs: parse, generate", "pyo3_bindgen_engine/src/syntax/common/attribute_variant.rs: determine", "pyo3_bindgen_engine/src/syntax/class.rs: parse, generate", "pyo3_bindgen_engine/src/syntax/function.rs: parse, generate", "pyo3_bindgen_engine/src/syntax/property.rs: generate", "pyo3_bindgen_engine/src/codegen.rs: module_names, generate"]}
{"id": "C70", "title": "The CLI and the macro do what their arguments say", "statement": "The CLI goes on exactly if its command line is one of the documented grammar (options -m/--module-name with one or more names, -o/--output with one path, values attached or not, -- at the end) with at least one name and at most one output; it then uses the names of all options in order. Without an output file it prints the formatted bindings of these modules and touches no file; with one it makes the directory that contains the file and writes them there. Any other command line ends it before it touches anything. A command line has one reading only. The macro gives code exactly if its argument is one string literal naming a module that has bindings, and gives these bindings.", "quantifier": "every list of arguments, interpreter, file system and token list", "why_tests_cant": "The tests of the CLI try three command lines; the order, number and spelling of options and values is unbounded, and a name lost between two options still gives a plausible output.", "anchors": ["pyo3_bindgen_cli/src/main.rs: main, Args", "pyo3_bindgen_macros/src/parser.rs: Args::parse", "pyo3_bindgen_macros/src/lib.rs: import_python"]}
{"id": "C71", "title": "The Rust code of the bindings type checks", "statement": "The generated tokens are a Rust file whose functions all type check against the signatures of pyo3 0.21: every expression uses variables that are in scope, calls functions and methods that its receiver has with arguments of the right types, converts arguments that need it, uses `?` on results and on nothing else, and gives the declared return type; every declared type exists, is converted by pyo3, and parameters are distinct. It type checks exactly if every generated function has distinct parameters and types that exist and are converted.", "quantifier": "every interpreter, configuration, embedded sources and request", "why_tests_cant": "The tests compile no bindings; which conversions, borrows and types meet in a body depends on the unbounded combinations of parameter kinds, annotations, local classes and receivers, and one ill-typed function makes the whole file fail to compile.", "anchors": ["pyo3_bindgen_engine/src/syntax/function.rs: generate", "pyo3_bindgen_engine/src/syntax/property.rs: generate", "pyo3_bindgen_engine/src/syntax/class.rs: generate", "pyo3_bindgen_engine/src/typing/into_rs.rs: into_rs, preprocess_borrowed", "pyo3_bindgen_engine/src/codegen.rs: generate"]}
{"id": "C72", "title": "Every re-export names something the bindings define", "statement": "Every `pub use` in the generated file resolves, from the module it is written in, to the path of a class, function, accessor, type variable or module that the same file defines at that path.", "quantifier": "every interpreter, configuration, request and every `use` item in the output", "why_tests_cant": "The target of a re-export lies anywhere in an arbitrary module tree, is parsed, merged and filtered separately from the import, and is emitted by another part of the generator.", "anchors": ["pyo3_bindgen_engine/src/syntax/import.rs: Import::generate", "pyo3_bindgen_engine/src/syntax/module.rs: Module::generate, Module::check_path_exists_recursive"]}
{"id": "C73", "title": "The bindings compile", "statement": "The generated tokens are a Rust file that a compiler accepts as far as names, types and moves go: functions type check and use no value that has been moved; in every module no name is defined twice, every relative path in a type, every import and every prelude leads to a public definition of the file, names of Rust's own prelude are not hidden, inherent implementations and macros are for a structure of the same module, and every trait is implemented function by function as it is declared.", "quantifier": "every interpreter without the listed clashes, every environment, request, embedded source and every module of the output", "why_tests_cant": "Whether one module compiles depends on the names, types and submodules of all the others; the claim ranges over all trees of modules, classes and annotations, while a test compiles the bindings of one package.", "anchors": ["pyo3_bindgen_engine/src/codegen.rs: Codegen::generate", "pyo3_bindgen_engine/src/syntax/module.rs: Module::generate", "pyo3_bindgen_engine/src/syntax/class.rs: Class::generate", "pyo3_bindgen_engine/src/syntax/function.rs: Function::generate", "pyo3_bindgen_engine/src/syntax/import.rs: Import::generate"]}
{"id": "C74", "title": "No value is used after it has been moved", "statement": "In every function of the generated file, including the one that embeds a source, no variable is used, by value or by reference, after its value has been moved to a call, a `let` or a dictionary of keyword arguments, provided that the parameters of the function have distinct names (which type checking the file includes).", "quantifier": "every faithful interpreter, environment, configuration, request and every function of the output, for any number and kinds of parameters", "why_tests_cant": "Whether a variable is moved twice depends on how positional, starred and keyword parameters, their types and their conversions combine; tests compile a few signatures.", "anchors": ["pyo3_bindgen_engine/src/syntax/function.rs: Function::generate", "pyo3_bindgen_engine/src/syntax/property.rs: Property::generate", "pyo3_bindgen_engine/src/typing/into_rs.rs: Type::preprocess_borrowed", "pyo3_bindgen_engine/src/syntax/module.rs: Module::generate"]}
{"id": "C75", "title": "The engine succeeds on well-behaved interpreters", "statement": "A module can be added to the code generator exactly if Python can import it, and bindings can be generated exactly if a module has been added: there is no other error and no panic. Hence the macro yields Rust code and the CLI prints or writes it whenever the named modules can be imported.", "quantifier": "every environment, configuration, sequence of requests, and every interpreter that is faithful, has no values the code panics on, and answers the questions that the engine asks", "why_tests_cant": "An error may come from any of the several dozen fallible calls on any attribute of any module of the package; a test shows that some modules get through, not that nothing else is needed for success.", "anchors": ["pyo3_bindgen_engine/src/codegen.rs: Codegen::module, Codegen::module_name, Codegen::module_names, Codegen::module_from_str, Codegen::generate", "pyo3_bindgen_engine/src/syntax/module.rs: Module::parse", "pyo3_bindgen_engine/src/syntax/class.rs: Class::parse", "pyo3_bindgen_engine/src/syntax/function.rs: Function::parse", "pyo3_bindgen_engine/src/syntax/property.rs: Property::parse", "pyo3_bindgen_cli/src/main.rs: main", "pyo3_bindgen_macros/src/lib.rs: import_python"]}
{"id": "C76", "title": "What a Python module defines can be used from Rust", "statement": "Naming modules that Python can import gives a Rust file that compiles, and the file has, for every module reached from the named ones, exactly one Rust module under its dotted name. In it every function of the Python module is a Rust function of its name that calls it with the arguments bound to the parameters; every variable has a function that reads it and one that assigns to it; every class is a type of its name with bindings for its members; and every value of typing is a type of its name.", "quantifier": "every environment, list of names, configuration with all kinds of items switched on, and every interpreter that is tidy, tame and quiet", "why_tests_cant": "The claim joins parsing, generation, printing, name resolution, typing and what the generated code does; a test looks at the bindings of some package, where a definition that is shadowed, dropped or bound to the wrong object in another package would not show.", "anchors": ["pyo3_bindgen_engine/src/codegen.rs: Codegen::module_names, Codegen::generate", "pyo3_bindgen_engine/src/syntax/module.rs: Module::parse, Module::generate", "pyo3_bindgen_engine/src/syntax/function.rs: Function::generate", "pyo3_bindgen_engine/src/syntax/property.rs: Property::generate", "pyo3_bindgen_engine/src/syntax/class.rs: Class::generate"]}
{"id": "C77", "title": "The macro works with the library of its interpreter", "statement": "Before it asks Python about a module, the macro loads the shared library that sysconfig names from the directory that sysconfig names, and what it expands to is what the engine makes of the module in the interpreter with this library. It prints its warning if and only if the library could not be loaded; a warning does not keep it from expanding.", "quantifier": "every interpreter and dynamic linker, every answer of sysconfig, every argument of the macro", "why_tests_cant": "The outcome depends on how Python was built and installed on the machine of the user; a test sees one installation, where the library is usually found or not needed.", "anchors": ["pyo3_bindgen_macros/src/utils.rs: try_load_libpython_symbols", "pyo3_bindgen_macros/src/lib.rs: import_python"]}
{"id": "C78", "title": "Arguments and results have the annotated types", "statement": "Whatever Rust value the type of a parameter or of the argument of a setter lets a caller pass, the Python value that arrives has the type of the annotation; and a result, or a value of an attribute, that has the type of its annotation can be extracted into the Rust return type.", "quantifier": "every environment, every annotation and the type it is read as, every Rust value of the parameter type and every Python value", "why_tests_cant": "A round trip test passes one value of each type; what arrives depends on the conversions of nested containers, where a wrong choice shows only for some element types, such as bytes in a slice.", "anchors": ["pyo3_bindgen_engine/src/typing/into_rs.rs: Type::into_rs, Type::into_rs_owned, Type::into_rs_borrowed", "pyo3_bindgen_engine/src/syntax/function.rs: Function::generate", "pyo3_bindgen_engine/src/syntax/property.rs: Property::generate_getter, Property::generate_setter"]}
{"id": "C79", "title": "Every value of the annotated type can be passed", "statement": "For every Python value of the type of an annotation there is a Rust value of the parameter type that arrives as an equal Python value, so that Rust callers can make every call, and every assignment to an attribute, that the annotations allow.", "quantifier": "every environment, every annotation and the type it is read as, every Python value of this type whose integers fit in 64 bits", "why_tests_cant": "A parameter type that leaves out some values, for example of a nested collection, is noticed only by a caller who needs these values.", "anchors": ["pyo3_bindgen_engine/src/typing/into_rs.rs: Type::into_rs, Type::into_rs_borrowed", "pyo3_bindgen_engine/src/syntax/function.rs: Function::generate", "pyo3_bindgen_engine/src/syntax/property.rs: Property::generate_setter"]}
{"id": "C80", "title": "What a setter stores the getter can read", "statement": "Whatever Rust value the setter of an attribute lets a caller store, the Python value that arrives in the attribute can be extracted into the return type of the getter of the attribute; also the empty dictionary that is stored for None.", "quantifier": "every environment, configuration and attribute with both accessors, every annotation, every Rust value of the parameter type", "why_tests_cant": "Parameter and return types of one annotation are chosen by separate code for each of some forty types and their nesting; a test stores and reads values of some of them.", "anchors": ["pyo3_bindgen_engine/src/typing/into_rs.rs: Type::into_rs, Type::into_rs_owned, Type::into_rs_borrowed", "pyo3_bindgen_engine/src/syntax/property.rs: Property::generate_getter, Property::generate_setter"]}
{"id": "C81", "title": "Exceptions of Python reach the Rust caller", "statement": "When Python raises an exception anywhere in a call of a generated function (importing the module, reaching the object, storing arguments, calling, converting the result), the function returns this exception, the first one, to its caller and asks Python for nothing afterwards; if Python raises none, the function returns the converted result.", "quantifier": "every environment, interpreter snapshot and generated function, all arguments, every interpreter that may raise any exception at any step depending on all steps before", "why_tests_cant": "Exceptions must be raised at each of the steps of each template; tests run the bindings with an interpreter that raises none, and rarely can make Python fail at a chosen step.", "anchors": ["pyo3_bindgen_engine/src/syntax/function.rs: Function::generate", "pyo3_bindgen_engine/src/syntax/property.rs: Property::generate_getter, Property::generate_setter", "pyo3_bindgen_engine/src/syntax/module.rs: Module::generate"]}
{"id": "C82", "title": "Switching a kind of item off takes these items away and changes nothing else", "statement": "If the flag for imports, classes, type variables, functions, properties, preludes or documentation is switched off, a run that succeeded still succeeds, and what it emits is exactly what it emitted before without the items of this kind (or without the documentation): the same names, types, bodies and order of everything else, at every depth (for preludes: apart from lint attributes on modules). Suppressing the output of Python while parsing changes nothing that is emitted.", "quantifier": "every environment and interpreter snapshot, every pair of configurations that differ in these flags, every sequence of requests", "why_tests_cant": "There are 128 combinations of these flags, each with every module; names that are avoided and types that are looked up are collected from all kinds of items, so that a flag read one step too early changes items of other kinds in modules that tests do not contain.", "anchors": ["pyo3_bindgen_engine/src/config.rs: Config", "pyo3_bindgen_engine/src/syntax/module.rs: Module::generate, Module::parse", "pyo3_bindgen_engine/src/syntax/class.rs: Class::generate", "pyo3_bindgen_engine/src/codegen.rs: Codegen::generate"]}
{"id": "C83", "title": "Hidden attributes have no influence", "statement": "Attributes of modules, and members of classes other than __init__ and __call__, whose name is private, blocked or reserved have no influence on a run in the release profile: two interpreters that differ only in the values of such attributes, or in whether there are any, give the same bindings, or the same failure.", "quantifier": "every environment of the release profile, every configuration, every pair of interpreter snapshots that differ in such attributes only, every sequence of requests", "why_tests_cant": "It compares runs on pairs of interpreters; attributes are read in five places (listing, index, submodules, resolving dependencies, debug checks), and a place that reads before filtering shows only with a private attribute of a special kind.", "anchors": ["pyo3_bindgen_engine/src/syntax/module.rs: Module::parse, Module::extract_prelude", "pyo3_bindgen_engine/src/syntax/class.rs: Class::parse", "pyo3_bindgen_engine/src/codegen.rs: Codegen::parse_dependencies", "pyo3_bindgen_engine/src/config.rs: Config::is_attr_allowed"]}

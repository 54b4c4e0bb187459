{
 "C01": {
  "note": "Full claim. C01_raw_counterexample shows that the excluded prefix r# (not possible in a Python identifier) really is lost."
 },
 "C02": {
  "note": "Full claim, for every Unicode table that agrees with ASCII. Assumes the modelled identifier lexer of proc-macro2/syn (Model/Ident.lean)."
 },
 "C03": {
  "note": "Exact: a dotted name survives printing iff it has no segment called super (C03_roundtrip_iff); segments and injectivity hold for all segments. Missing: super, for which the claim is false (C03_super_counterexample)."
 },
 "C04": {
  "note": "Full claim. `sortBy` (stable insertion sort) stands for slice::sort_by."
 },
 "C05": {
  "note": "Full claim; C05_python discharges the hypotheses for all absolute dotted names. The empty target panics."
 },
 "C06": {
  "note": "Full claim for all imports between dotted Python identifiers (C06_reexport); C06_output/C06_present carry it to the generated file for interpreters faithful to their names (Spec/Faithful.lean)."
 },
 "C07": {
  "note": "Full claim; `importable` is an arbitrary oracle, as at generation time. What the expression evaluates to later is C59."
 },
 "C08": {
  "note": "Full claim for every configuration, identifier and path; C08_default spells out the default configuration."
 },
 "C09": {
  "note": "Full claim, for the parsed tree (items, import origins, class members) and for the generated code."
 },
 "C10": {
  "note": "Full claim."
 },
 "C11": {
  "note": "Full claim (backticks). C11_tilde_fence_survives records that the other Markdown fence passes."
 },
 "C12": {
  "note": "Full claim."
 },
 "C13": {
  "note": "Full claim. C13_not_idempotent records that formatting twice can remove more."
 },
 "C14": {
  "note": "Full claim; recursion is modelled with fuel, which never runs out (C14_total) and whose amount does not matter (C14_fuel)."
 },
 "C15": {
  "note": "Proved for printed annotations with separable argument lists, and in release builds for all texts without dict[ and without empty class reprs. False in general: C15_index/overflow/object_counterexample, and Optional[Type[None]] panics too (C15_optional_type_counterexample). Annotation objects that are read without panic: C51_readable."
 },
 "C16": {
  "note": "Proved for separable argument lists, with an exactness result for tuples (C16_exact), and for alternatives at top level. False in general: C16_counterexample (stale index in the repair), C16_bar_inside_counterexample, C16_typing_counterexample. Nothing is made up: what occurs in the name of a class in the type occurs in a text of the annotation (C16_names_partial; commas excepted, C16_comma_counterexample)."
 },
 "C17": {
  "note": "Full claim."
 },
 "C18": {
  "note": "Full claim."
 },
 "C19": {
  "note": "Exact (C19_exact): the conversion is the right one iff the type is not Option<Bound<PyDict>> and a name with a bracket names a generated class whenever the name in front of the bracket does. False otherwise (C19_generic_counterexample, C19_optional_dict_counterexample)."
 },
 "C20": {
  "note": "Known, unknown, numpy and imported names, and classes as annotation objects. Missing: names through imported modules (C20_module_alias_counterexample) and classes deriving from a builtin class (C20_builtin_subclass_counterexample), for which it is false; in debug builds names with :: panic (C20_colons_panic)."
 },
 "C21": {
  "note": "Proved for values of the concrete Python type the annotation is read as. False for abstract annotations, big integers, type[...] (C21_counterexamples) and IP addresses, whose Rust type names do not exist (C21_ip_counterexample)."
 },
 "C22": {
  "note": "Exact conditions (C22_optional_conditions), the claim where None is only a whole alternative, and for Union objects. False when None is part of a word or inside brackets (C22_counterexample)."
 },
 "C23": {
  "note": "Proved when no key is itself a dict, set, frozenset or timedelta. C23_exact says for which annotations it holds and for which it fails (an equivalence); C23_counterexample are two annotations as Python prints them."
 },
 "C24": {
  "note": "C24_forwarding says for all signatures and arguments what arrives; C24_exact: everything supplied arrives iff no None is supplied for a parameter of the type Option<Bound<PyDict>>, for which {} arrives (C24_none_counterexample)."
 },
 "C25": {
  "note": "Proved against an independent model of Python's argument binding, for all arguments in terms of what arrives for them (C25_arrivals_partial; C24_exact says when this is what was supplied). Missing: parameters named _ (C25_underscore_counterexample), signatures in which self is left over (replaced by *args, see C26). C25_rust_partial starts from the evaluated Rust code (C66)."
 },
 "C26": {
  "note": "Proved except for a receiver named _ (C26_receiver_counterexample) and a parameter called __unknown_self__ (C26_distinct_counterexample)."
 },
 "C27": {
  "note": "Dispatch proved for all emitted functions; the kind of a method is exact except for methods without used parameters (C27_no_parameters_counterexample); methods without signature are not generated (C27_no_signature_counterexample)."
 },
 "C28": {
  "note": "Full claim."
 },
 "C29": {
  "note": "Proved for all attributes whose names are Python identifiers. False for names with white space around (C29_space_counterexample, C29_accessor_space_counterexample)."
 },
 "C30": {
  "note": "Getters: full claim. Setters: C30_setter says for all values what is stored, and that it is the value supplied iff this is not None for a parameter of the type Option<Bound<PyDict>> (C30_none_counterexample)."
 },
 "C31": {
  "note": "Proved for functions emitted under their own name and for call operators without a method call; false otherwise (C31_sanitized_counterexample, C31_call_counterexample)."
 },
 "C32": {
  "note": "Full claim. C32_setter_type_ignored records that the setter annotation of a class property has no effect."
 },
 "C33": {
  "note": "Full claim; the hypothesis holds for every parsed class (C33_owners)."
 },
 "C34": {
  "note": "Proved for modules with ordinary names. Missing: an empty module name, for which it is false (C34_empty_name_counterexample)."
 },
 "C35": {
  "note": "Full claim, for every forest."
 },
 "C36": {
  "note": "Full claim as quantified (inputs that individually have the property); C36_output for the generated file, in interpreters faithful to their names. C36_alias_counterexample shows that the proviso is needed."
 },
 "C37": {
  "note": "Proved without dependencies for interpreters whose modules have ordinary names, with dependencies if module names are unique; false otherwise (C37_order_counterexample)."
 },
 "C38": {
  "note": "Full in an interpreter that stays the same (modules with ordinary dotted names): C38_again_partial, C38_once. Loading changes the interpreter: proved across traces of the first request without preludes next to imported submodules (C38_live_partial), false with them (C38_live_counterexample)."
 },
 "C39": {
  "note": "Proved for classes, functions, type variables and accessors of module variables when submodules are traversed or the name has no dot (C39_no_traversal_counterexample otherwise). An accessor is missing if a function has its name (C39_accessor_counterexample). Re-exports: C06_present; prelude: C40."
 },
 "C40": {
  "note": "Proved with all kinds of items switched on; false with a kind switched off (C40_flags_counterexample)."
 },
 "C41": {
  "note": "No other module embeds a source (full). Every module from source embeds it, except dotted names and Rust keywords, for which it is false (C41_dotted_counterexample, C41_keyword_counterexample), and sources that rename the module."
 },
 "C42": {
  "note": "Full claim."
 },
 "C43": {
  "note": "Full claim."
 },
 "C44": {
  "note": "Full claim."
 },
 "C45": {
  "note": "Full claim; the file system is a function and the write an arbitrary honest operation."
 },
 "C46": {
  "note": "Proved when parsing succeeds, for single requests and for whole runs (any requests, generation, dependencies); false when it fails (C46_counterexample, C46_run_counterexample), where exactly the suppressed streams stay replaced (C46_failure_leaves_sink, C46_run_streams)."
 },
 "C47": {
  "note": "Proved for interpreters that do not observe the replacement, for single requests and whole runs; false for modules that print (C47_counterexample), because the sink is a class factory that is never instantiated (C47_what_is_missing). Requested modules are imported before suppression starts (C47_import_unsuppressed)."
 },
 "C48": {
  "note": "Everything added is justified (C48_added, no conditions). That everything justified is added is proved for unique module names. Private modules of packages are admitted (C48_private_counterexample)."
 },
 "C49": {
  "note": "Proved with classes, type variables and traversal on, for faithful interpreters, except when a type has the full name of a module (C49_clash); false with a kind off (C49_classes_off)."
 },
 "C50": {
  "note": "Proved for faithful interpreters without the name patterns listed in Collisionless (among the attributes that the configuration keeps); each pattern has a counterexample. C50_uses_partial adds the names bound by re-exports (against definitions and each other) for interpreters that also satisfy ForeignApart; C50_reexport_counterexample shows the clash otherwise."
 },
 "C51": {
  "note": "Proved for faithful and tame interpreters (Spec/Tame.lean), with a counterexample for each way of not being tame, in debug builds also names with :: (C51_colons_counterexample, C51_origin_colons_counterexample) and attributes that cannot be listed (C51_dir_counterexample). The condition on annotations is met by every annotation object made of classes, names and typing forms other than Optional/Union of a type read as None, and by separable texts (C51_readable)."
 },
 "C52": {
  "note": "Proved if no variable x stands beside a function set_x, or get_x for the five x that Rust cannot spell (C52_kinds_partial). False in exactly that case: a requested module or submodule with such a function always gives a dangling pub, which no Rust file can contain (C52_stray, C52_stray_counterexample)."
 },
 "C53": {
  "note": "Removal is proved; replacement is proved for imports of items of the overwritten submodule. False for items from elsewhere and without traversal (C53_elsewhere_counterexample, C53_no_traversal_counterexample)."
 },
 "C54": {
  "note": "Full claim, for objects whose type has an ordinary name and module; in debug builds a type with an empty name or with :: in its module panics, which the statement excludes."
 },
 "C55": {
  "note": "Full claim; formatting, directory creation and writing are arbitrary operations of the environment."
 },
 "C56": {
  "note": "Full claim."
 },
 "C57": {
  "note": "The prepared forest is the same in every iteration order in which preparation succeeds. False for the generated types (C57_types_counterexample) and for success itself (C57_panic_counterexample)."
 },
 "C58": {
  "note": "Full claim, plus completeness (C58_complete)."
 },
 "C59": {
  "note": "Exact for functions and attributes of submodules: they work iff the package binds or loads the submodule; classes and top-level modules always work. False in general (C59_submodule_counterexample). C59_run_partial says the same of the functions in the output of a run, for every module that is reached; C69 and C76 carry it for variables and classes (Spec.Refers)."
 },
 "C60": {
  "note": "Proved for all annotation objects without the class datetime.datetime and Type[T], for which it is false (C60_datetime_counterexample, C60_type_counterexample); class and name agree except for five classes (C60_text_counterexample). Subclasses, plain texts and Type[T] are part of the annotation objects, so the excluded cases are named by Valid."
 },
 "C61": {
  "note": "Proved without private names, if preludes are off or only private submodules were imported, and dependencies are off or no submodule was imported. False otherwise: C61_prelude_counterexample, C61_private_counterexample, C61_dependency_counterexample."
 },
 "C62": {
  "note": "Exact for parsed modules (C62_parsed). In the output: everything exported belongs there (C62_exports); everything defined in the module is exported if all names of the index can be spelled. False otherwise: one unspellable name suppresses the whole prelude (C62_unspellable_counterexample), re-exports and plain values are left out (C62_reexport_counterexample)."
 },
 "C63": {
  "note": "Proved for interpreters in which submodules cannot be followed forever (C63_terminates, C63_run_partial), in particular for all faithful ones (C63_faithful). False for a package that is its own submodule (C63_loop_counterexample)."
 },
 "C64": {
  "note": "Proved for whole runs, the command-line tool, the macro and the standard streams. C64_profiles_differ shows the two kinds of checks that stop a debug build where the release build generates bindings."
 },
 "C65": {
  "note": "Both directions: C65_valid (the tokens parse as the trees of Spec/Trees.lean) and C65_invalid (a stray pub makes the file invalid). C65_ordinary gives a condition on the Python names alone, C65_cli the consequence for the command-line tool. The grammar of Spec/RustSyntax.lean covers the part of Rust the templates use."
 },
 "C66": {
  "note": "C66_function: the evaluator of Spec/Eval.lean on the syntax trees of Spec/Trees.lean agrees with Spec.run for all arguments, including undefinedness. C66_file: the same for every function of the file that the emitted tokens parse to (with C65). C66_embed: embedded sources. Python's binding of the request is C25_rust_partial."
 },
 "C67": {
  "note": "C67_uses and C67_variables are unconditional. C67_hygienic_partial assumes a faithful interpreter in which no attribute of a module is named bool, f64, i64, u8, Vec, pyo3, Some, or p_…, __internal__…, and no submodule is named like a type; it fails for such names (C67_type_counterexample, C67_some_counterexample, C67_variable_counterexample, C67_crate_counterexample). What a reference to a generated type means is C59; imports are taken to bind all namespaces."
 },
 "C68": {
  "note": "Unconditional given that to_string prints tokens as proc-macro2 1.0.89 does (HonestText, Model/Print.lean) and that fs::write writes (HonestWrite). The lexer of the specification (Spec/Lexer.lean) reads a part of Rust and rejects the rest. The parse of C68_build excludes the stray `pub` of C65, for which it shows the file invalid. The printed text of the CLI goes through prettyplease, which is not modelled."
 },
 "C69": {
  "note": "Proved for functions, partials, classes with their members (what constructors, methods and accessors do is stated through the evaluated Rust code and Python's rules for binding arguments), variables and type variables of every requested module and of every submodule reached from it (Spec.Reached: listed, allowed, importable, and not replaced by an import), when submodules are traversed or the name has no dot (C39_no_traversal_counterexample otherwise). Missing: bound methods as attributes of modules, for which the code prints a warning (C69_bound_counterexample); methods of classes whose signature the interpreter does not give have no binding (C69_method_counterexample); an accessor is missing beside a function of its name (C39_accessor_counterexample, C52_stray_counterexample)."
 },
 "C70": {
  "note": "Unconditional given that clap 4.5 reads options as in Model/Cli.lean and that Path::parent works as on Unix. Help, version and usage errors are not told apart."
 },
 "C71": {
  "note": "C71_exact says when the file type checks, given no stray pub (C52, C65). C71_expressible_partial gives it for expressible annotations and distinct parameters. Missing because false: the types IpV4Addr and IpV6Addr do not exist in Rust, pyo3 converts tuples of at most 12 elements, keys and set elements may not implement Hash (counterexamples), and two parameters may get one name (C71_names_counterexample). Moves are the subject of C74; how long borrows last and the expansion of pyo3's macros are not checked; the types of pyo3's functions are those of Spec/Check.lean."
 },
 "C72": {
  "note": "Proved for faithful interpreters when all kinds of items are generated and submodules traversed; C72_flags_counterexample: with functions switched off, their re-exports stay and dangle."
 },
 "C73": {
  "note": "Proved for tidy interpreters (TidyWorld: faithful, unique names, no clashes, no reserved names, annotations that Rust can express) with all kinds of items switched on. False otherwise: C73_trait_counterexample, C73_flags_counterexample and the counterexamples of C40, C49, C50, C52, C67, C71, C72. How long borrows last and macro expansion are not checked."
 },
 "C74": {
  "note": "Proved for every function with distinct parameter names (C26 says when they are), and for whole files that type check. The rules for moves are those of Spec/Moves.lean, which are stricter than Rust's; how long borrows last is not checked."
 },
 "C75": {
  "note": "Proved as an equivalence for interpreters that are faithful (C01), tame (C51: no input on which the code panics) and quiet (Spec/Quiet.lean: docstrings can be read, submodules listed, parameters and members have identifiers as names). The full claim is false: the counterexamples show that one attribute whose docstring cannot be read, one parameter or one property with a name that is not an identifier leaves the user with an error and no bindings. C75_compiles_partial and C75_frontends_partial add that the result is a Rust file that compiles as far as C73 says, for tidy interpreters."
 },
 "C76": {
  "note": "Proved end to end, from the names to the syntax trees of the file and what their bodies do, for interpreters that are tidy (C73), tame (C51) and quiet (C75) and configurations with all kinds of items switched on. Missing: other interpreters, for which the counterexamples of C73 and C75 leave no file or one that does not compile, and the definitions without a binding that the counterexamples of C69 show (bound methods, methods without a signature). What the functions are called on, and when that can be evaluated in a fresh interpreter, is part of the statement (Spec.Refers, C59)."
 },
 "C77": {
  "note": "Proved: the path that is opened, exactly when there is a warning, what the macro expands to in each case, and that it expands to a file that compiles when the library is found (with C75). The warning half of the claim is false: the result of dlopen is not looked at (C77_silent_counterexample), and an unknown LIBDIR is taken for a directory called None (C77_unknown_counterexample)."
 },
 "C78": {
  "note": "Proved for every annotation that is tight (Spec.Tight: scalars, lists, sets and dictionaries of scalars, tuples of fixed length, builtin objects, anything); the result half is C21_extract_partial. C69_functions_partial, C69_variables_partial, C69_classes_partial and C76_usable_partial carry both halves to the functions and accessors of whole runs (fields typed and returns of Spec.ForwardsTo, Spec.ReadsFrom, Spec.WritesTo). False for bytes, byte arrays, paths, frozen sets and tuples of any length, for which no argument arrives as annotated (C78_never), and for annotations that are wider than Rust types (C78_loose_counterexample). C78_exact decides the claim for all annotations whose Rust types can be compiled: it holds if and only if the annotation is one of Spec.Arrives."
 },
 "C79": {
  "note": "Proved for every passable annotation (Spec.Passable), on types, and through C78_parameters_partial and C69 for the parameters of functions and setters of whole runs. C79_exact decides the claim for all annotations that have values, as have their parts: it holds if and only if the annotation is one of Spec.Sendable. False for bytes, byte arrays, paths and tuples of any length, and collections of these: their values arrive as lists and strings."
 },
 "C80": {
  "note": "Proved for all annotations (C80_back) and for the accessors of an attribute (C80_accessors)."
 },
 "C81": {
  "note": "C81_outcome says for every interpreter what a call does. C81_errors_partial: every exception reaches the caller except while keyword arguments are stored. False there: the templates call PyDictMethods::set_item without `?` (function.rs:587 and 602), so the exception is dropped and the call is made without the argument (C81_dropped_counterexample). C81_exact: for a callable, all exceptions reach the caller if and only if it has no keyword-only parameters. No exception is lost where none are stored (C81_no_keywords) and in functions that embed sources (C81_embed). C81_file_partial: the same for the functions of the parsed file."
 },
 "C82": {
  "note": "For whole runs (any requests, with or without dependencies and submodules). C82_flags: any subset of the six flags besides preludes. C82_preludes: the flag of preludes, which is also read while parsing; a run with preludes off can succeed where debug assertions on __all__ panic with preludes on, so the claim starts from the run with preludes on. The allow attribute is left out there, because the comparison that decides on it (module.rs:327) includes the prelude."
 },
 "C83": {
  "note": "For whole runs, with or without dependencies. Covers module attributes and class members. C83_names says which names are hidden. In debug builds a hidden attribute can stop the run: C83_debug_counterexample. Names in dir() and __all__ are the same in both interpreters."
 }
}
{
 "claims": [
  {
   "property": "C01",
   "status": "proved",
   "theorems": [
    "Bindgen.C01_roundtrip",
    "Bindgen.C01_injective",
    "Bindgen.C01_identifiers",
    "Bindgen.C01_raw_counterexample"
   ],
   "note": "Full claim. C01_raw_counterexample shows that the excluded prefix r# (not possible in a Python identifier) really is lost."
  },
  {
   "property": "C02",
   "status": "proved",
   "theorems": [
    "Bindgen.C02_legal",
    "Bindgen.C02_exceptions",
    "Bindgen.C02_accepted_is_legal"
   ],
   "note": "Full claim, for every Unicode table that agrees with ASCII. Assumes the modelled identifier lexer of proc-macro2/syn (Model/Ident.lean)."
  },
  {
   "property": "C03",
   "status": "partial",
   "theorems": [
    "Bindgen.C03_python_roundtrip_partial",
    "Bindgen.C03_roundtrip_iff",
    "Bindgen.C03_segments",
    "Bindgen.C03_injective",
    "Bindgen.C03_rust_roundtrip",
    "Bindgen.C03_super_counterexample"
   ],
   "note": "Exact: a dotted name survives printing iff it has no segment called super (C03_roundtrip_iff); segments and injectivity hold for all segments. Missing: super, for which the claim is false (C03_super_counterexample)."
  },
  {
   "property": "C04",
   "status": "proved",
   "theorems": [
    "Bindgen.C04_total_order",
    "Bindgen.C04_equal_iff",
    "Bindgen.C04_sorted_groups",
    "Bindgen.C04_sort_groups"
   ],
   "note": "Full claim. `sortBy` (stable insertion sort) stands for slice::sort_by."
  },
  {
   "property": "C05",
   "status": "proved",
   "theorems": [
    "Bindgen.C05_relative_resolves",
    "Bindgen.C05_python",
    "Bindgen.C05_empty_target_panics"
   ],
   "note": "Full claim; C05_python discharges the hypotheses for all absolute dotted names. The empty target panics."
  },
  {
   "property": "C06",
   "status": "proved",
   "theorems": [
    "Bindgen.C06_reexport",
    "Bindgen.C06_emitted_iff",
    "Bindgen.C06_self_import",
    "Bindgen.C06_unspellable_counterexample",
    "Bindgen.C06_output",
    "Bindgen.C06_present"
   ],
   "note": "Full claim for all imports between dotted Python identifiers (C06_reexport); C06_output/C06_present carry it to the generated file for interpreters faithful to their names (Spec/Faithful.lean)."
  },
  {
   "property": "C07",
   "status": "proved",
   "theorems": [
    "Bindgen.C07_import_walks_path",
    "Bindgen.C07_python_path",
    "Bindgen.C07_empty_panics"
   ],
   "note": "Full claim; `importable` is an arbitrary oracle, as at generation time. What the expression evaluates to later is C59."
  },
  {
   "property": "C08",
   "status": "proved",
   "theorems": [
    "Bindgen.C08_filter_iff",
    "Bindgen.C08_filter_python_names",
    "Bindgen.C08_default"
   ],
   "note": "Full claim for every configuration, identifier and path; C08_default spells out the default configuration."
  },
  {
   "property": "C09",
   "status": "proved",
   "theorems": [
    "Bindgen.C09_items",
    "Bindgen.C09_origins",
    "Bindgen.C09_members",
    "Bindgen.C09_output",
    "Bindgen.C09_members_output"
   ],
   "note": "Full claim, for the parsed tree (items, import origins, class members) and for the generated code."
  },
  {
   "property": "C10",
   "status": "proved",
   "theorems": [
    "Bindgen.C10_shape"
   ],
   "note": "Full claim."
  },
  {
   "property": "C11",
   "status": "proved",
   "theorems": [
    "Bindgen.C11_no_backtick_fence",
    "Bindgen.C11_tilde_fence_survives"
   ],
   "note": "Full claim (backticks). C11_tilde_fence_survives records that the other Markdown fence passes."
  },
  {
   "property": "C12",
   "status": "proved",
   "theorems": [
    "Bindgen.C12_trimmed_lines"
   ],
   "note": "Full claim."
  },
  {
   "property": "C13",
   "status": "proved",
   "theorems": [
    "Bindgen.C13_text_preserved",
    "Bindgen.C13_not_idempotent"
   ],
   "note": "Full claim. C13_not_idempotent records that formatting twice can remove more."
  },
  {
   "property": "C14",
   "status": "proved",
   "theorems": [
    "Bindgen.C14_total",
    "Bindgen.C14_fuel",
    "Bindgen.C14_total_objects"
   ],
   "note": "Full claim; recursion is modelled with fuel, which never runs out (C14_total) and whose amount does not matter (C14_fuel)."
  },
  {
   "property": "C15",
   "status": "partial",
   "theorems": [
    "Bindgen.C15_no_panic_partial",
    "Bindgen.C15_no_panic_without_dict_partial",
    "Bindgen.C15_index_counterexample",
    "Bindgen.C15_overflow_counterexample",
    "Bindgen.C15_object_counterexample",
    "Bindgen.C15_optional_type_counterexample"
   ],
   "note": "Proved for printed annotations with separable argument lists, and in release builds for all texts without dict[ and without empty class reprs. False in general: C15_index/overflow/object_counterexample, and Optional[Type[None]] panics too (C15_optional_type_counterexample). Annotation objects that are read without panic: C51_readable."
  },
  {
   "property": "C16",
   "status": "partial",
   "theorems": [
    "Bindgen.C16_typing_counterexample",
    "Bindgen.C16_structure_partial",
    "Bindgen.C16_exact",
    "Bindgen.C16_counterexample",
    "Bindgen.C16_bar_inside_counterexample",
    "Bindgen.C16_union",
    "Bindgen.C16_optional",
    "Bindgen.C16_names_partial",
    "Bindgen.C16_comma_counterexample"
   ],
   "note": "Proved for separable argument lists, with an exactness result for tuples (C16_exact), and for alternatives at top level. False in general: C16_counterexample (stale index in the repair), C16_bar_inside_counterexample, C16_typing_counterexample. Nothing is made up: what occurs in the name of a class in the type occurs in a text of the annotation (C16_names_partial; commas excepted, C16_comma_counterexample)."
  },
  {
   "property": "C17",
   "status": "proved",
   "theorems": [
    "Bindgen.C17_repair_keeps_text",
    "Bindgen.C17_empty_panics"
   ],
   "note": "Full claim."
  },
  {
   "property": "C18",
   "status": "proved",
   "theorems": [
    "Bindgen.C18_types_legal"
   ],
   "note": "Full claim."
  },
  {
   "property": "C19",
   "status": "partial",
   "theorems": [
    "Bindgen.C19_exact",
    "Bindgen.C19_conversion_partial",
    "Bindgen.C19_optional_dict_counterexample",
    "Bindgen.C19_generic_counterexample"
   ],
   "note": "Exact (C19_exact): the conversion is the right one iff the type is not Option<Bound<PyDict>> and a name with a bracket names a generated class whenever the name in front of the bracket does. False otherwise (C19_generic_counterexample, C19_optional_dict_counterexample)."
  },
  {
   "property": "C20",
   "status": "partial",
   "theorems": [
    "Bindgen.C20_object_partial",
    "Bindgen.C20_builtin_subclass_counterexample",
    "Bindgen.C20_known",
    "Bindgen.C20_unknown",
    "Bindgen.C20_colons_panic",
    "Bindgen.C20_numpy",
    "Bindgen.C20_illegal_path_panics",
    "Bindgen.C20_own_partial",
    "Bindgen.C20_imported_partial",
    "Bindgen.C20_module_alias_counterexample"
   ],
   "note": "Known, unknown, numpy and imported names, and classes as annotation objects. Missing: names through imported modules (C20_module_alias_counterexample) and classes deriving from a builtin class (C20_builtin_subclass_counterexample), for which it is false; in debug builds names with :: panic (C20_colons_panic)."
  },
  {
   "property": "C21",
   "status": "partial",
   "theorems": [
    "Bindgen.C21_extract_partial",
    "Bindgen.C21_counterexamples",
    "Bindgen.C21_ip_counterexample"
   ],
   "note": "Proved for values of the concrete Python type the annotation is read as. False for abstract annotations, big integers, type[...] (C21_counterexamples) and IP addresses, whose Rust type names do not exist (C21_ip_counterexample)."
  },
  {
   "property": "C22",
   "status": "partial",
   "theorems": [
    "Bindgen.C22_optional_conditions",
    "Bindgen.C22_optional_partial",
    "Bindgen.C22_counterexample",
    "Bindgen.C22_union_objects"
   ],
   "note": "Exact conditions (C22_optional_conditions), the claim where None is only a whole alternative, and for Union objects. False when None is part of a word or inside brackets (C22_counterexample)."
  },
  {
   "property": "C23",
   "status": "partial",
   "theorems": [
    "Bindgen.C23_exact",
    "Bindgen.C23_hashable_partial",
    "Bindgen.C23_exact_set",
    "Bindgen.C23_counterexample"
   ],
   "note": "Proved when no key is itself a dict, set, frozenset or timedelta. C23_exact says for which annotations it holds and for which it fails (an equivalence); C23_counterexample are two annotations as Python prints them."
  },
  {
   "property": "C24",
   "status": "partial",
   "theorems": [
    "Bindgen.C24_forwarding",
    "Bindgen.C24_exact",
    "Bindgen.C24_forwarding_partial",
    "Bindgen.C24_none_counterexample"
   ],
   "note": "C24_forwarding says for all signatures and arguments what arrives; C24_exact: everything supplied arrives iff no None is supplied for a parameter of the type Option<Bound<PyDict>>, for which {} arrives (C24_none_counterexample)."
  },
  {
   "property": "C25",
   "status": "partial",
   "theorems": [
    "Bindgen.C25_arrivals_partial",
    "Bindgen.C25_rust_partial",
    "Bindgen.C25_binding_partial",
    "Bindgen.C25_underscore_counterexample"
   ],
   "note": "Proved against an independent model of Python's argument binding, for all arguments in terms of what arrives for them (C25_arrivals_partial; C24_exact says when this is what was supplied). Missing: parameters named _ (C25_underscore_counterexample), signatures in which self is left over (replaced by *args, see C26). C25_rust_partial starts from the evaluated Rust code (C66)."
  },
  {
   "property": "C26",
   "status": "partial",
   "theorems": [
    "Bindgen.C26_parameters_partial",
    "Bindgen.C26_self_replaced",
    "Bindgen.C26_no_self",
    "Bindgen.C26_wellformed",
    "Bindgen.C26_distinct",
    "Bindgen.C26_receiver_counterexample",
    "Bindgen.C26_distinct_counterexample"
   ],
   "note": "Proved except for a receiver named _ (C26_receiver_counterexample) and a parameter called __unknown_self__ (C26_distinct_counterexample)."
  },
  {
   "property": "C27",
   "status": "partial",
   "theorems": [
    "Bindgen.C27_special",
    "Bindgen.C27_dispatch",
    "Bindgen.C27_kind_partial",
    "Bindgen.C27_no_parameters_counterexample",
    "Bindgen.C27_no_signature_counterexample"
   ],
   "note": "Dispatch proved for all emitted functions; the kind of a method is exact except for methods without used parameters (C27_no_parameters_counterexample); methods without signature are not generated (C27_no_signature_counterexample)."
  },
  {
   "property": "C28",
   "status": "proved",
   "theorems": [
    "Bindgen.C28_search",
    "Bindgen.C28_helper_names",
    "Bindgen.C28_prelude"
   ],
   "note": "Full claim."
  },
  {
   "property": "C29",
   "status": "partial",
   "theorems": [
    "Bindgen.C29_accessors_partial",
    "Bindgen.C29_accessor_space_counterexample",
    "Bindgen.C29_functions_partial",
    "Bindgen.C29_space_counterexample"
   ],
   "note": "Proved for all attributes whose names are Python identifiers. False for names with white space around (C29_space_counterexample, C29_accessor_space_counterexample)."
  },
  {
   "property": "C30",
   "status": "partial",
   "theorems": [
    "Bindgen.C30_getter",
    "Bindgen.C30_setter_partial",
    "Bindgen.C30_none_counterexample",
    "Bindgen.C30_immutable",
    "Bindgen.C30_setter"
   ],
   "note": "Getters: full claim. Setters: C30_setter says for all values what is stored, and that it is the value supplied iff this is not None for a parameter of the type Option<Bound<PyDict>> (C30_none_counterexample)."
  },
  {
   "property": "C31",
   "status": "partial",
   "theorems": [
    "Bindgen.C31_no_clash_partial",
    "Bindgen.C31_call",
    "Bindgen.C31_sanitized_counterexample",
    "Bindgen.C31_call_counterexample"
   ],
   "note": "Proved for functions emitted under their own name and for call operators without a method call; false otherwise (C31_sanitized_counterexample, C31_call_counterexample)."
  },
  {
   "property": "C32",
   "status": "proved",
   "theorems": [
    "Bindgen.C32_module",
    "Bindgen.C32_class",
    "Bindgen.C32_setter_type_ignored"
   ],
   "note": "Full claim. C32_setter_type_ignored records that the setter annotation of a class property has no effect."
  },
  {
   "property": "C33",
   "status": "proved",
   "theorems": [
    "Bindgen.C33_trait_impl",
    "Bindgen.C33_owners"
   ],
   "note": "Full claim; the hypothesis holds for every parsed class (C33_owners)."
  },
  {
   "property": "C34",
   "status": "partial",
   "theorems": [
    "Bindgen.C34_canonical_partial",
    "Bindgen.C34_prepared_partial",
    "Bindgen.C34_empty_name_counterexample"
   ],
   "note": "Proved for modules with ordinary names. Missing: an empty module name, for which it is false (C34_empty_name_counterexample)."
  },
  {
   "property": "C35",
   "status": "proved",
   "theorems": [
    "Bindgen.C35_items",
    "Bindgen.C35_items_by_name",
    "Bindgen.C35_modules"
   ],
   "note": "Full claim, for every forest."
  },
  {
   "property": "C36",
   "status": "proved",
   "theorems": [
    "Bindgen.C36_output",
    "Bindgen.C36_distinct",
    "Bindgen.C36_alias_counterexample"
   ],
   "note": "Full claim as quantified (inputs that individually have the property); C36_output for the generated file, in interpreters faithful to their names. C36_alias_counterexample shows that the proviso is needed."
  },
  {
   "property": "C37",
   "status": "partial",
   "theorems": [
    "Bindgen.C37_order_partial",
    "Bindgen.C37_order_counterexample"
   ],
   "note": "Proved without dependencies for interpreters whose modules have ordinary names, with dependencies if module names are unique; false otherwise (C37_order_counterexample)."
  },
  {
   "property": "C38",
   "status": "partial",
   "theorems": [
    "Bindgen.C38_live_partial",
    "Bindgen.C38_live_counterexample",
    "Bindgen.C38_again_partial",
    "Bindgen.C38_once"
   ],
   "note": "Full in an interpreter that stays the same (modules with ordinary dotted names): C38_again_partial, C38_once. Loading changes the interpreter: proved across traces of the first request without preludes next to imported submodules (C38_live_partial), false with them (C38_live_counterexample)."
  },
  {
   "property": "C39",
   "status": "partial",
   "theorems": [
    "Bindgen.C39_module_partial",
    "Bindgen.C39_items_partial",
    "Bindgen.C39_functions_free",
    "Bindgen.C39_requested_partial",
    "Bindgen.C39_no_traversal_counterexample",
    "Bindgen.C39_accessors_partial",
    "Bindgen.C39_accessor_counterexample"
   ],
   "note": "Proved for classes, functions, type variables and accessors of module variables when submodules are traversed or the name has no dot (C39_no_traversal_counterexample otherwise). An accessor is missing if a function has its name (C39_accessor_counterexample). Re-exports: C06_present; prelude: C40."
  },
  {
   "property": "C40",
   "status": "partial",
   "theorems": [
    "Bindgen.C40_partial",
    "Bindgen.C40_flags_counterexample"
   ],
   "note": "Proved with all kinds of items switched on; false with a kind switched off (C40_flags_counterexample)."
  },
  {
   "property": "C41",
   "status": "partial",
   "theorems": [
    "Bindgen.C41_only",
    "Bindgen.C41_embedded_partial",
    "Bindgen.C41_keyword_counterexample",
    "Bindgen.C41_dotted_counterexample"
   ],
   "note": "No other module embeds a source (full). Every module from source embeds it, except dotted names and Rust keywords, for which it is false (C41_dotted_counterexample, C41_keyword_counterexample), and sources that rename the module."
  },
  {
   "property": "C42",
   "status": "proved",
   "theorems": [
    "Bindgen.C42_kinds",
    "Bindgen.C42_submodules",
    "Bindgen.C42_docs"
   ],
   "note": "Full claim."
  },
  {
   "property": "C43",
   "status": "proved",
   "theorems": [
    "Bindgen.C43_empty_is_error",
    "Bindgen.C43_otherwise_other_errors"
   ],
   "note": "Full claim."
  },
  {
   "property": "C44",
   "status": "proved",
   "theorems": [
    "Bindgen.C44_names",
    "Bindgen.C44_modules",
    "Bindgen.C44_names_added",
    "Bindgen.C44_modules_added",
    "Bindgen.C44_stops_at_first_failure"
   ],
   "note": "Full claim."
  },
  {
   "property": "C45",
   "status": "proved",
   "theorems": [
    "Bindgen.C45_failed_generation",
    "Bindgen.C45_success",
    "Bindgen.C45_writes"
   ],
   "note": "Full claim; the file system is a function and the write an arbitrary honest operation."
  },
  {
   "property": "C46",
   "status": "partial",
   "theorems": [
    "Bindgen.C46_success_restores",
    "Bindgen.C46_module_restores_partial",
    "Bindgen.C46_no_suppression",
    "Bindgen.C46_failure_leaves_sink",
    "Bindgen.C46_counterexample",
    "Bindgen.C46_run_partial",
    "Bindgen.C46_run_streams",
    "Bindgen.C46_run_unsuppressed",
    "Bindgen.C46_run_counterexample"
   ],
   "note": "Proved when parsing succeeds, for single requests and for whole runs (any requests, generation, dependencies); false when it fails (C46_counterexample, C46_run_counterexample), where exactly the suppressed streams stay replaced (C46_failure_leaves_sink, C46_run_streams)."
  },
  {
   "property": "C47",
   "status": "partial",
   "theorems": [
    "Bindgen.C47_printing",
    "Bindgen.C47_unsuppressed",
    "Bindgen.C47_what_is_missing",
    "Bindgen.C47_counterexample",
    "Bindgen.C47_transparent_partial",
    "Bindgen.C47_run_partial",
    "Bindgen.C47_import_unsuppressed",
    "Bindgen.C47_missing_stream"
   ],
   "note": "Proved for interpreters that do not observe the replacement, for single requests and whole runs; false for modules that print (C47_counterexample), because the sink is a class factory that is never instantiated (C47_what_is_missing). Requested modules are imported before suppression starts (C47_import_unsuppressed)."
  },
  {
   "property": "C48",
   "status": "partial",
   "theorems": [
    "Bindgen.C48_added",
    "Bindgen.C48_exactly_partial",
    "Bindgen.C48_succeeds_partial",
    "Bindgen.C48_off",
    "Bindgen.C48_private_counterexample"
   ],
   "note": "Everything added is justified (C48_added, no conditions). That everything justified is added is proved for unique module names. Private modules of packages are admitted (C48_private_counterexample)."
  },
  {
   "property": "C49",
   "status": "partial",
   "theorems": [
    "Bindgen.C49_resolves_partial",
    "Bindgen.C49_classes_off",
    "Bindgen.C49_clash"
   ],
   "note": "Proved with classes, type variables and traversal on, for faithful interpreters, except when a type has the full name of a module (C49_clash); false with a kind off (C49_classes_off)."
  },
  {
   "property": "C50",
   "status": "partial",
   "theorems": [
    "Bindgen.C50_class_partial",
    "Bindgen.C50_accessor_counterexample",
    "Bindgen.C50_sanitized_counterexample",
    "Bindgen.C50_call_counterexample",
    "Bindgen.C50_uses_partial",
    "Bindgen.C50_reexport_counterexample",
    "Bindgen.C50_scopes_partial",
    "Bindgen.C50_top",
    "Bindgen.C50_setter_counterexample",
    "Bindgen.C50_shadow_counterexample",
    "Bindgen.C50_trait_counterexample"
   ],
   "note": "Proved for faithful interpreters without the name patterns listed in Collisionless (among the attributes that the configuration keeps); each pattern has a counterexample. C50_uses_partial adds the names bound by re-exports (against definitions and each other) for interpreters that also satisfy ForeignApart; C50_reexport_counterexample shows the clash otherwise."
  },
  {
   "property": "C51",
   "status": "partial",
   "theorems": [
    "Bindgen.C51_no_panic_partial",
    "Bindgen.C51_constructor_counterexample",
    "Bindgen.C51_setter_counterexample",
    "Bindgen.C51_annotation_counterexample",
    "Bindgen.C51_spelling_counterexample",
    "Bindgen.C51_origin_counterexample",
    "Bindgen.C51_dir_counterexample",
    "Bindgen.C51_colons_counterexample",
    "Bindgen.C51_origin_colons_counterexample",
    "Bindgen.C51_index",
    "Bindgen.C51_index_dependencies",
    "Bindgen.C51_parent_counterexample",
    "Bindgen.C51_recursion_counterexample",
    "Bindgen.C51_readable"
   ],
   "note": "Proved for faithful and tame interpreters (Spec/Tame.lean), with a counterexample for each way of not being tame, in debug builds also names with :: (C51_colons_counterexample, C51_origin_colons_counterexample) and attributes that cannot be listed (C51_dir_counterexample). The condition on annotations is met by every annotation object made of classes, names and typing forms other than Optional/Union of a type read as None, and by separable texts (C51_readable)."
  },
  {
   "property": "C52",
   "status": "partial",
   "theorems": [
    "Bindgen.C52_partial",
    "Bindgen.C52_stray_counterexample",
    "Bindgen.C52_names_partial",
    "Bindgen.C52_kinds_partial",
    "Bindgen.C52_stray"
   ],
   "note": "Proved if no variable x stands beside a function set_x, or get_x for the five x that Rust cannot spell (C52_kinds_partial). False in exactly that case: a requested module or submodule with such a function always gives a dangling pub, which no Rust file can contain (C52_stray, C52_stray_counterexample)."
  },
  {
   "property": "C53",
   "status": "partial",
   "theorems": [
    "Bindgen.C53_item_partial",
    "Bindgen.C53_gone",
    "Bindgen.C53_elsewhere_counterexample",
    "Bindgen.C53_no_traversal_counterexample"
   ],
   "note": "Removal is proved; replacement is proved for imports of items of the overwritten submodule. False for items from elsewhere and without traversal (C53_elsewhere_counterexample, C53_no_traversal_counterexample)."
  },
  {
   "property": "C54",
   "status": "proved",
   "theorems": [
    "Bindgen.C54_priority",
    "Bindgen.C54_total",
    "Bindgen.C54_not_import"
   ],
   "note": "Full claim, for objects whose type has an ordinary name and module; in debug builds a type with an empty name or with :: in its module panics, which the statement excludes."
  },
  {
   "property": "C55",
   "status": "proved",
   "theorems": [
    "Bindgen.C55_cli_stdout",
    "Bindgen.C55_cli_file",
    "Bindgen.C55_cli_aborts",
    "Bindgen.C55_macro"
   ],
   "note": "Full claim; formatting, directory creation and writing are arbitrary operations of the environment."
  },
  {
   "property": "C56",
   "status": "proved",
   "theorems": [
    "Bindgen.C56_class_name",
    "Bindgen.C56_class_legal",
    "Bindgen.C56_function_name",
    "Bindgen.C56_function_legal"
   ],
   "note": "Full claim."
  },
  {
   "property": "C57",
   "status": "partial",
   "theorems": [
    "Bindgen.C57_parse",
    "Bindgen.C57_tree_partial",
    "Bindgen.C57_types_counterexample",
    "Bindgen.C57_panic_counterexample"
   ],
   "note": "The prepared forest is the same in every iteration order in which preparation succeeds. False for the generated types (C57_types_counterexample) and for success itself (C57_panic_counterexample)."
  },
  {
   "property": "C58",
   "status": "proved",
   "theorems": [
    "Bindgen.C58_submodules",
    "Bindgen.C58_complete"
   ],
   "note": "Full claim, plus completeness (C58_complete)."
  },
  {
   "property": "C59",
   "status": "partial",
   "theorems": [
    "Bindgen.C59_class",
    "Bindgen.C59_submodule_function_partial",
    "Bindgen.C59_top_function",
    "Bindgen.C59_attributes_partial",
    "Bindgen.C59_submodule_counterexample",
    "Bindgen.C59_run_partial"
   ],
   "note": "Exact for functions and attributes of submodules: they work iff the package binds or loads the submodule; classes and top-level modules always work. False in general (C59_submodule_counterexample). C59_run_partial says the same of the functions in the output of a run, for every module that is reached; C69 and C76 carry it for variables and classes (Spec.Refers)."
  },
  {
   "property": "C60",
   "status": "partial",
   "theorems": [
    "Bindgen.C60_structure_partial",
    "Bindgen.C60_subclass",
    "Bindgen.C60_text_partial",
    "Bindgen.C60_datetime_counterexample",
    "Bindgen.C60_text_counterexample",
    "Bindgen.C60_type_counterexample",
    "Bindgen.C60_forward_counterexample"
   ],
   "note": "Proved for all annotation objects without the class datetime.datetime and Type[T], for which it is false (C60_datetime_counterexample, C60_type_counterexample); class and name agree except for five classes (C60_text_counterexample). Subclasses, plain texts and Type[T] are part of the annotation objects, so the excluded cases are named by Valid."
  },
  {
   "property": "C61",
   "status": "partial",
   "theorems": [
    "Bindgen.C61_parse",
    "Bindgen.C61_live_partial",
    "Bindgen.C61_prelude_counterexample",
    "Bindgen.C61_dependency_counterexample",
    "Bindgen.C61_private_counterexample"
   ],
   "note": "Proved without private names, if preludes are off or only private submodules were imported, and dependencies are off or no submodule was imported. False otherwise: C61_prelude_counterexample, C61_private_counterexample, C61_dependency_counterexample."
  },
  {
   "property": "C62",
   "status": "partial",
   "theorems": [
    "Bindgen.C62_parsed",
    "Bindgen.C62_output_partial",
    "Bindgen.C62_exports",
    "Bindgen.C62_unspellable_counterexample",
    "Bindgen.C62_reexport_counterexample"
   ],
   "note": "Exact for parsed modules (C62_parsed). In the output: everything exported belongs there (C62_exports); everything defined in the module is exported if all names of the index can be spelled. False otherwise: one unspellable name suppresses the whole prelude (C62_unspellable_counterexample), re-exports and plain values are left out (C62_reexport_counterexample)."
  },
  {
   "property": "C63",
   "status": "partial",
   "theorems": [
    "Bindgen.C63_terminates",
    "Bindgen.C63_parse_stable",
    "Bindgen.C63_run_partial",
    "Bindgen.C63_faithful",
    "Bindgen.C63_loop_counterexample"
   ],
   "note": "Proved for interpreters in which submodules cannot be followed forever (C63_terminates, C63_run_partial), in particular for all faithful ones (C63_faithful). False for a package that is its own submodule (C63_loop_counterexample)."
  },
  {
   "property": "C64",
   "status": "proved",
   "theorems": [
    "Bindgen.C64_builds",
    "Bindgen.C64_bindings",
    "Bindgen.C64_errors",
    "Bindgen.C64_converse",
    "Bindgen.C64_release_unchecked",
    "Bindgen.C64_streams",
    "Bindgen.C64_cli",
    "Bindgen.C64_macro",
    "Bindgen.C64_profiles_differ"
   ],
   "note": "Proved for whole runs, the command-line tool, the macro and the standard streams. C64_profiles_differ shows the two kinds of checks that stop a debug build where the release build generates bindings."
  },
  {
   "property": "C65",
   "status": "proved",
   "theorems": [
    "Bindgen.C65_unique",
    "Bindgen.C65_exclusive",
    "Bindgen.C65_valid",
    "Bindgen.C65_invalid",
    "Bindgen.C65_dangling",
    "Bindgen.C65_ordinary",
    "Bindgen.C65_cli",
    "Bindgen.C65_stray_counterexample"
   ],
   "note": "Both directions: C65_valid (the tokens parse as the trees of Spec/Trees.lean) and C65_invalid (a stray pub makes the file invalid). C65_ordinary gives a condition on the Python names alone, C65_cli the consequence for the command-line tool. The grammar of Spec/RustSyntax.lean covers the part of Rust the templates use."
  },
  {
   "property": "C66",
   "status": "proved",
   "theorems": [
    "Bindgen.C66_function",
    "Bindgen.C66_file",
    "Bindgen.C66_embed"
   ],
   "note": "C66_function: the evaluator of Spec/Eval.lean on the syntax trees of Spec/Trees.lean agrees with Spec.run for all arguments, including undefinedness. C66_file: the same for every function of the file that the emitted tokens parse to (with C65). C66_embed: embedded sources. Python's binding of the request is C25_rust_partial."
  },
  {
   "property": "C67",
   "status": "partial",
   "theorems": [
    "Bindgen.C67_uses",
    "Bindgen.C67_variables",
    "Bindgen.C67_hygienic_partial",
    "Bindgen.C67_type_counterexample",
    "Bindgen.C67_variable_counterexample",
    "Bindgen.C67_some_counterexample",
    "Bindgen.C67_crate_counterexample"
   ],
   "note": "C67_uses and C67_variables are unconditional. C67_hygienic_partial assumes a faithful interpreter in which no attribute of a module is named bool, f64, i64, u8, Vec, pyo3, Some, or p_\u2026, __internal__\u2026, and no submodule is named like a type; it fails for such names (C67_type_counterexample, C67_some_counterexample, C67_variable_counterexample, C67_crate_counterexample). What a reference to a generated type means is C59; imports are taken to bind all namespaces."
  },
  {
   "property": "C68",
   "status": "proved",
   "theorems": [
    "Bindgen.C68_unique",
    "Bindgen.C68_literal",
    "Bindgen.C68_text",
    "Bindgen.C68_build",
    "Bindgen.C68_injective"
   ],
   "note": "Unconditional given that to_string prints tokens as proc-macro2 1.0.89 does (HonestText, Model/Print.lean) and that fs::write writes (HonestWrite). The lexer of the specification (Spec/Lexer.lean) reads a part of Rust and rejects the rest. The parse of C68_build excludes the stray `pub` of C65, for which it shows the file invalid. The printed text of the CLI goes through prettyplease, which is not modelled."
  },
  {
   "property": "C69",
   "status": "partial",
   "theorems": [
    "Bindgen.C69_parsed",
    "Bindgen.C69_functions_partial",
    "Bindgen.C69_variables_partial",
    "Bindgen.C69_classes_partial",
    "Bindgen.C69_typeVars_partial",
    "Bindgen.C69_method_counterexample",
    "Bindgen.C69_bound_counterexample"
   ],
   "note": "Proved for functions, partials, classes with their members (what constructors, methods and accessors do is stated through the evaluated Rust code and Python's rules for binding arguments), variables and type variables of every requested module and of every submodule reached from it (Spec.Reached: listed, allowed, importable, and not replaced by an import), when submodules are traversed or the name has no dot (C39_no_traversal_counterexample otherwise). Missing: bound methods as attributes of modules, for which the code prints a warning (C69_bound_counterexample); methods of classes whose signature the interpreter does not give have no binding (C69_method_counterexample); an accessor is missing beside a function of its name (C39_accessor_counterexample, C52_stray_counterexample)."
  },
  {
   "property": "C70",
   "status": "proved",
   "theorems": [
    "Bindgen.C70_args",
    "Bindgen.C70_unique",
    "Bindgen.C70_stdout",
    "Bindgen.C70_file",
    "Bindgen.C70_refused",
    "Bindgen.C70_refused_files",
    "Bindgen.C70_parent",
    "Bindgen.C70_macro"
   ],
   "note": "Unconditional given that clap 4.5 reads options as in Model/Cli.lean and that Path::parent works as on Unix. Help, version and usage errors are not told apart."
  },
  {
   "property": "C71",
   "status": "partial",
   "theorems": [
    "Bindgen.C71_annotation",
    "Bindgen.C71_exact",
    "Bindgen.C71_file_partial",
    "Bindgen.C71_signature",
    "Bindgen.C71_accessor",
    "Bindgen.C71_expressible_partial",
    "Bindgen.C71_address_counterexample",
    "Bindgen.C71_tuple_counterexample",
    "Bindgen.C71_hash_counterexample",
    "Bindgen.C71_names_counterexample"
   ],
   "note": "C71_exact says when the file type checks, given no stray pub (C52, C65). C71_expressible_partial gives it for expressible annotations and distinct parameters. Missing because false: the types IpV4Addr and IpV6Addr do not exist in Rust, pyo3 converts tuples of at most 12 elements, keys and set elements may not implement Hash (counterexamples), and two parameters may get one name (C71_names_counterexample). Moves are the subject of C74; how long borrows last and the expansion of pyo3's macros are not checked; the types of pyo3's functions are those of Spec/Check.lean."
  },
  {
   "property": "C72",
   "status": "partial",
   "theorems": [
    "Bindgen.C72_defined_partial",
    "Bindgen.C72_flags_counterexample"
   ],
   "note": "Proved for faithful interpreters when all kinds of items are generated and submodules traversed; C72_flags_counterexample: with functions switched off, their re-exports stay and dangle."
  },
  {
   "property": "C73",
   "status": "partial",
   "theorems": [
    "Bindgen.C73_compiles_partial",
    "Bindgen.C73_trait_counterexample",
    "Bindgen.C73_flags_counterexample"
   ],
   "note": "Proved for tidy interpreters (TidyWorld: faithful, unique names, no clashes, no reserved names, annotations that Rust can express) with all kinds of items switched on. False otherwise: C73_trait_counterexample, C73_flags_counterexample and the counterexamples of C40, C49, C50, C52, C67, C71, C72. How long borrows last and macro expansion are not checked."
  },
  {
   "property": "C74",
   "status": "proved",
   "theorems": [
    "Bindgen.C74_function",
    "Bindgen.C74_moves"
   ],
   "note": "Proved for every function with distinct parameter names (C26 says when they are), and for whole files that type check. The rules for moves are those of Spec/Moves.lean, which are stricter than Rust's; how long borrows last is not checked."
  },
  {
   "property": "C75",
   "status": "partial",
   "theorems": [
    "Bindgen.C75_succeeds_partial",
    "Bindgen.C75_compiles_partial",
    "Bindgen.C75_frontends_partial",
    "Bindgen.C75_module_counterexample",
    "Bindgen.C75_attribute_counterexample",
    "Bindgen.C75_class_counterexample"
   ],
   "note": "Proved as an equivalence for interpreters that are faithful (C01), tame (C51: no input on which the code panics) and quiet (Spec/Quiet.lean: docstrings can be read, submodules listed, parameters and members have identifiers as names). The full claim is false: the counterexamples show that one attribute whose docstring cannot be read, one parameter or one property with a name that is not an identifier leaves the user with an error and no bindings. C75_compiles_partial and C75_frontends_partial add that the result is a Rust file that compiles as far as C73 says, for tidy interpreters."
  },
  {
   "property": "C76",
   "status": "partial",
   "theorems": [
    "Bindgen.C76_usable_partial"
   ],
   "note": "Proved end to end, from the names to the syntax trees of the file and what their bodies do, for interpreters that are tidy (C73), tame (C51) and quiet (C75) and configurations with all kinds of items switched on. Missing: other interpreters, for which the counterexamples of C73 and C75 leave no file or one that does not compile, and the definitions without a binding that the counterexamples of C69 show (bound methods, methods without a signature). What the functions are called on, and when that can be evaluated in a fresh interpreter, is part of the statement (Spec.Refers, C59)."
  },
  {
   "property": "C77",
   "status": "partial",
   "theorems": [
    "Bindgen.C77_path_partial",
    "Bindgen.C77_warned",
    "Bindgen.C77_tokens",
    "Bindgen.C77_independent",
    "Bindgen.C77_expands_partial",
    "Bindgen.C77_silent_counterexample",
    "Bindgen.C77_unknown_counterexample"
   ],
   "note": "Proved: the path that is opened, exactly when there is a warning, what the macro expands to in each case, and that it expands to a file that compiles when the library is found (with C75). The warning half of the claim is false: the result of dlopen is not looked at (C77_silent_counterexample), and an unknown LIBDIR is taken for a directory called None (C77_unknown_counterexample)."
  },
  {
   "property": "C78",
   "status": "partial",
   "theorems": [
    "Bindgen.C78_parameters_partial",
    "Bindgen.C78_arguments_partial",
    "Bindgen.C78_never",
    "Bindgen.C78_loose_counterexample",
    "Bindgen.C78_exact"
   ],
   "note": "Proved for every annotation that is tight (Spec.Tight: scalars, lists, sets and dictionaries of scalars, tuples of fixed length, builtin objects, anything); the result half is C21_extract_partial. C69_functions_partial, C69_variables_partial, C69_classes_partial and C76_usable_partial carry both halves to the functions and accessors of whole runs (fields typed and returns of Spec.ForwardsTo, Spec.ReadsFrom, Spec.WritesTo). False for bytes, byte arrays, paths, frozen sets and tuples of any length, for which no argument arrives as annotated (C78_never), and for annotations that are wider than Rust types (C78_loose_counterexample). C78_exact decides the claim for all annotations whose Rust types can be compiled: it holds if and only if the annotation is one of Spec.Arrives."
  },
  {
   "property": "C79",
   "status": "partial",
   "theorems": [
    "Bindgen.C79_exact",
    "Bindgen.C79_passable_partial"
   ],
   "note": "Proved for every passable annotation (Spec.Passable), on types, and through C78_parameters_partial and C69 for the parameters of functions and setters of whole runs. C79_exact decides the claim for all annotations that have values, as have their parts: it holds if and only if the annotation is one of Spec.Sendable. False for bytes, byte arrays, paths and tuples of any length, and collections of these: their values arrive as lists and strings."
  },
  {
   "property": "C80",
   "status": "proved",
   "theorems": [
    "Bindgen.C80_back",
    "Bindgen.C80_accessors"
   ],
   "note": "Proved for all annotations (C80_back) and for the accessors of an attribute (C80_accessors)."
  },
  {
   "property": "C81",
   "status": "partial",
   "theorems": [
    "Bindgen.C81_outcome",
    "Bindgen.C81_errors_partial",
    "Bindgen.C81_no_keywords",
    "Bindgen.C81_exact",
    "Bindgen.C81_file_partial",
    "Bindgen.C81_embed",
    "Bindgen.C81_dropped_counterexample"
   ],
   "note": "C81_outcome says for every interpreter what a call does. C81_errors_partial: every exception reaches the caller except while keyword arguments are stored. False there: the templates call PyDictMethods::set_item without `?` (function.rs:587 and 602), so the exception is dropped and the call is made without the argument (C81_dropped_counterexample). C81_exact: for a callable, all exceptions reach the caller if and only if it has no keyword-only parameters. No exception is lost where none are stored (C81_no_keywords) and in functions that embed sources (C81_embed). C81_file_partial: the same for the functions of the parsed file."
  },
  {
   "property": "C82",
   "status": "proved",
   "theorems": [
    "Bindgen.C82_preludes",
    "Bindgen.C82_flags"
   ],
   "note": "For whole runs (any requests, with or without dependencies and submodules). C82_flags: any subset of the six flags besides preludes. C82_preludes: the flag of preludes, which is also read while parsing; a run with preludes off can succeed where debug assertions on __all__ panic with preludes on, so the claim starts from the run with preludes on. The allow attribute is left out there, because the comparison that decides on it (module.rs:327) includes the prelude."
  },
  {
   "property": "C83",
   "status": "proved",
   "theorems": [
    "Bindgen.C83_names",
    "Bindgen.C83_hidden",
    "Bindgen.C83_debug_counterexample"
   ],
   "note": "For whole runs, with or without dependencies. Covers module attributes and class members. C83_names says which names are hidden. In debug builds a hidden attribute can stop the run: C83_debug_counterexample. Names in dir() and __all__ are the same in both interpreters."
  }
 ]
}
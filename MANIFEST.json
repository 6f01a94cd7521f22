{
 "claims": [
  {
   "property": "C01",
   "status": "proved",
   "theorems": [
    "Astra.Props.createRoutes_exact",
    "Astra.Props.createRoutes_never_denied",
    "Astra.Props.denied_path_absent"
   ],
   "note": "Every route that is kept is not denied by any of the configured rules and every other route is kept, in order."
  },
  {
   "property": "C02",
   "status": "proved",
   "theorems": [
    "Astra.Props.extractParams_exact",
    "Astra.Props.segWild_spec",
    "Astra.Props.extractParams_names"
   ],
   "note": "For every string: names, kinds and order, against a per-segment specification."
  },
  {
   "property": "C03",
   "status": "proved",
   "theorems": [
    "Astra.Props.mapPathParams_segmentwise",
    "Astra.Props.mapPathParams_id",
    "Astra.Props.mapPathParams_only_params"
   ],
   "note": "For every string and every replacement function."
  },
  {
   "property": "C04",
   "status": "partial",
   "theorems": [
    "Astra.Props.template_vars_match_partial",
    "Astra.Props.template_vars_mismatch",
    "Astra.Props.placeholders_openapiPath",
    "Astra.Props.template_vars_match_iff"
   ],
   "note": "Template variables match the parameters when the path has no catch-all; a catch-all yields {name*} but parameter name (negation proved)."
  },
  {
   "property": "C05",
   "status": "partial",
   "theorems": [
    "Astra.Props.openapiPath_injective_partial",
    "Astra.Props.openapiPath_collision",
    "Astra.Props.openapiPath_shared_iff"
   ],
   "note": "Injective on gin paths without braces; a collision witness is proved for paths that contain braces."
  },
  {
   "property": "C06",
   "status": "partial",
   "theorems": [
    "Astra.Props.convertRoute_faithful_partial",
    "Astra.Props.convertRoute_faithful_iff",
    "Astra.Props.convertRoute_typed",
    "Astra.Props.convertRoute_corrupts"
   ],
   "note": "False for a parameter named a, al, alp, alph or alpha after another wildcard: exact (if and only if) for names without } and ?, with a witness."
  },
  {
   "property": "C07",
   "status": "proved",
   "theorems": [
    "Astra.Props.splitHandlerPath_no_dot",
    "Astra.Props.splitHandlerPath_dot",
    "Astra.Props.splitHandlerPath_roundtrip",
    "Astra.Props.splitHandlerPath_no_panic",
    "Astra.Props.split_function_name"
   ],
   "note": "For every handler name; the parts rejoin to the name. The panics of PackageName and FuncName on short names are stated exactly."
  },
  {
   "property": "C08",
   "status": "proved",
   "theorems": [
    "Astra.Props.replaceRoute_absent",
    "Astra.Props.replaceRoute_first",
    "Astra.Props.replaceRoute_keys",
    "Astra.Props.addRoute_appends"
   ],
   "note": "For every list of routes; the first matching entry is replaced, order and length are kept."
  },
  {
   "property": "C09",
   "status": "partial",
   "theorems": [
    "Astra.Props.ginParseRoutes_correct_partial",
    "Astra.Props.ginParseRoutes_exact",
    "Astra.Props.ginParseRoutes_keys",
    "Astra.Props.ginParseRoutes_duplicate_unparsed",
    "Astra.Props.ginParseRoutes_duplicate_witness"
   ],
   "note": "Holds when (method, path) pairs are distinct. Exact for all tables: of the entries with one path and method the first holds the analysis of the last and the others stay unparsed. With several inputs every route is analysed once per input, in the same slot; C85 says what that does."
  },
  {
   "property": "C10",
   "status": "partial",
   "theorems": [
    "Astra.Props.addReturnType1_exact",
    "Astra.Props.addReturnType_keeps_and_adds_partial",
    "Astra.Props.addReturnType_no_duplicate_partial",
    "Astra.Props.addReturnType_duplicates",
    "Astra.Props.addReturnType_sequence",
    "Astra.Props.addReturnType_duplicate_witness"
   ],
   "note": "Entries are kept and every added type is present; duplicates do occur once two different entries are recorded (negation proved)."
  },
  {
   "property": "C11",
   "status": "proved",
   "theorems": [
    "Astra.Props.addComponent_first_wins",
    "Astra.Props.addComponent_prefix_nodup",
    "Astra.Props.addComponent_idempotent"
   ],
   "note": "For every history of additions."
  },
  {
   "property": "C12",
   "status": "proved",
   "theorems": [
    "Astra.Props.chain_reads_in_order",
    "Astra.Props.build_success",
    "Astra.Props.build_complete",
    "Astra.Props.build_error",
    "Astra.Props.leftover_steps_shift_arguments"
   ],
   "note": "A chain started on an empty builder. The steps of several custom functions share one builder: the last theorem shows how leftover steps shift the arguments."
  },
  {
   "property": "C13",
   "status": "partial",
   "theorems": [
    "Astra.Props.context_call_documented_partial",
    "Astra.Props.context_call_exact",
    "Astra.Props.unsupported_call_adds_nothing",
    "Astra.Props.data_never_succeeds"
   ],
   "note": "Data is in the documented table of methods but can never succeed, as data_never_succeeds shows; all other methods are covered in both directions."
  },
  {
   "property": "C14",
   "status": "proved",
   "theorems": [
    "Astra.Props.handler_source_order",
    "Astra.Props.ends_unique",
    "Astra.Props.context_parameter_found",
    "Astra.Props.demo_analysed",
    "Astra.Props.demo_not_followed",
    "Astra.Props.failing_helper_hides_arguments",
    "Astra.Props.not_every_call_documented"
   ],
   "note": "Helpers and custom functions included (C88). Calls whose function is not known (builtin functions, conversions, function values, methods that get the context) are allowed: the analysis goes no further into them and on behind them. What is in their arguments is not documented; two witnesses."
  },
  {
   "property": "C15",
   "status": "partial",
   "theorems": [
    "Astra.Props.analysis_never_panics_partial",
    "Astra.Props.unresolved_status_panics",
    "Astra.Props.unresolved_status_last_panics",
    "Astra.Props.unnamed_context_panics"
   ],
   "note": "False in general: three witnesses. Proved when every context call has resolvable arguments and context parameters are named."
  },
  {
   "property": "C16",
   "status": "partial",
   "theorems": [
    "Astra.Props.handler_error_not_returned",
    "Astra.Props.parseRoute_indep",
    "Astra.Props.routes_analysed_separately_partial",
    "Astra.Props.panicking_handler_ends_run",
    "Astra.Props.lost_handler_ends_run"
   ],
   "note": "False for handlers that panic or cannot be located: both witnesses. Custom functions are allowed if they depend on the call and the route only and do not move the route to another handler or path."
  },
  {
   "property": "C17",
   "status": "partial",
   "theorems": [
    "Astra.Props.helper_traversal_terminates_partial",
    "Astra.Props.recursive_helper_diverges",
    "Astra.Props.helper_cycle_never_completes"
   ],
   "note": "False for recursive helpers: the analysis of a handler in any circle of helpers never completes (helper_cycle_never_completes). Proved when the helper relation is well-founded and the argument types can be translated."
  },
  {
   "property": "C18",
   "status": "partial",
   "theorems": [
    "Astra.Props.translation_terminates_partial",
    "Astra.Props.recursive_type_never_translated",
    "Astra.Props.linked_list_diverges",
    "Astra.Props.translates_unique",
    "Astra.Props.embedded_field_panics"
   ],
   "note": "Recursive types make the traversal diverge and same-package embedding makes it panic (both proved)."
  },
  {
   "property": "C19",
   "status": "partial",
   "theorems": [
    "Astra.Props.components_closed_partial",
    "Astra.Props.named_collection_misplaced",
    "Astra.Props.named_pointer_loses_name"
   ],
   "note": "Named pointers and named collections of foreign types are excluded (negations proved)."
  },
  {
   "property": "C20",
   "status": "proved",
   "theorems": [
    "Astra.Props.unexported_fields_without_effect",
    "Astra.Props.unexported_fields_not_documented",
    "Astra.Props.unexported_fields_ignored",
    "Astra.Props.struct_fields_exact",
    "Astra.Props.struct_entries_exact"
   ],
   "note": "For every struct type, at every depth of anonymous structs."
  },
  {
   "property": "C21",
   "status": "partial",
   "theorems": [
    "Astra.Props.pointers_not_documented_partial",
    "Astra.Props.pointers_transparent_partial",
    "Astra.Props.named_pointer_loses_name"
   ],
   "note": "Named types defined as pointers lose their name (negation proved)."
  },
  {
   "property": "C22",
   "status": "proved",
   "theorems": [
    "Astra.Props.parseResultToField_faithful"
   ],
   "note": "For every result, including nested struct fields."
  },
  {
   "property": "C23",
   "status": "partial",
   "theorems": [
    "Astra.Props.enum_values_exact",
    "Astra.Props.enum_literal_exact",
    "Astra.Props.enum_values_declared_partial",
    "Astra.Props.enum_component",
    "Astra.Props.iota_enum_empty",
    "Astra.Props.negative_enum_missing",
    "Astra.Props.octal_enum_wrong",
    "Astra.Props.raw_string_enum_wrong"
   ],
   "note": "False for constants that are not plain literals with an explicit type (negations proved). Exact for string, integer and boolean types: the list is right if and only if every constant is written as a literal that shows its value, after the name of the type. Floating point literals are left to strconv."
  },
  {
   "property": "C24",
   "status": "proved",
   "theorems": [
    "Astra.Props.parseStructTag_binding",
    "Astra.Props.parseStructTag_unbound",
    "Astra.Props.parseStructTag_validation",
    "Astra.Props.parseStructTag_no_zero",
    "Astra.Props.lookupTag_conventional",
    "Astra.Props.json_dash_comma_hidden",
    "Astra.Props.required_by_substring"
   ],
   "note": "For every tag string, including malformed ones; escape sequences other than quote, backslash, n, t, r count as errors."
  },
  {
   "property": "C25",
   "status": "proved",
   "theorems": [
    "Astra.Props.extractBindingTags_exact",
    "Astra.Props.extractBindingTags_order_independent",
    "Astra.Props.extractBindingTags_zero_tag_order"
   ],
   "note": "The order-independence hypothesis (no zero tags) is discharged by parseStructTag_no_zero."
  },
  {
   "property": "C26",
   "status": "proved",
   "theorems": [
    "Astra.Props.contentTypes_roundtrip",
    "Astra.Props.contentType_listed",
    "Astra.Props.contentTypes_disjoint"
   ],
   "note": "For every content type string and every kind."
  },
  {
   "property": "C27",
   "status": "partial",
   "theorems": [
    "Astra.Props.hidden_field_absent_partial",
    "Astra.Props.hidden_embedded_field_documented",
    "Astra.Props.struct_schema_iff_tagged"
   ],
   "note": "False for embedded fields: witness. Proved for every other hidden field at any depth."
  },
  {
   "property": "C28",
   "status": "partial",
   "theorems": [
    "Astra.Props.schema_order_independent_partial",
    "Astra.Props.embedded_order_matters",
    "Astra.Props.duplicate_name_order_matters"
   ],
   "note": "False for structs with two embedded fields or two fields of one name: witnesses. Proved for all others, at every level."
  },
  {
   "property": "C29",
   "status": "partial",
   "theorems": [
    "Astra.Props.refs_resolve_partial",
    "Astra.Props.emittable_plain",
    "Astra.Props.emittable_uniform",
    "Astra.Props.emittable_untagged",
    "Astra.Props.emittable_one_kind",
    "Astra.Props.reference_dangles",
    "Astra.Props.stale_reference_dangles",
    "Astra.Props.untagged_struct_loses_references"
   ],
   "note": "False for structs whose fields are tagged for different kinds and for stale name tables: witnesses. Proved for every other component list and all routes."
  },
  {
   "property": "C30",
   "status": "partial",
   "theorems": [
    "Astra.Props.schema_names_exact",
    "Astra.Props.schema_names_shared_iff",
    "Astra.Props.schema_names_distinct_partial",
    "Astra.Props.separable_of_unique",
    "Astra.Props.schema_names_collide",
    "Astra.Props.suffix_packages_collide",
    "Astra.Props.schema_name_like_kind"
   ],
   "note": "False in general: three witnesses, and the names exactly (schema_names_exact). Proved when packages of one name differ at one common depth."
  },
  {
   "property": "C31",
   "status": "partial",
   "theorems": [
    "Astra.Props.schema_naming_panics_iff",
    "Astra.Props.schema_naming_ok_iff",
    "Astra.Props.schema_naming_total_partial",
    "Astra.Props.schema_naming_total_two",
    "Astra.Props.schema_naming_panics"
   ],
   "note": "False for three packages of one name with different depths: witness, and exactly when (schema_naming_panics_iff)."
  },
  {
   "property": "C32",
   "status": "proved",
   "theorems": [
    "Astra.Props.custom_mapping_wins",
    "Astra.Props.run_mapping",
    "Astra.Props.default_mapping",
    "Astra.Props.custom_mapping_after_first_lookup_ignored",
    "Astra.Props.builtin_name_ignores_package"
   ],
   "note": "For every custom mapping and every history of lookups."
  },
  {
   "property": "C33",
   "status": "partial",
   "theorems": [
    "Astra.Props.clean_removes_temp_package",
    "Astra.Props.clean_only_renames",
    "Astra.Props.clean_idempotent",
    "Astra.Props.cleanRoute_partial",
    "Astra.Props.clean_misses_headers"
   ],
   "note": "Headers are not cleaned (negation proved)."
  },
  {
   "property": "C34",
   "status": "partial",
   "theorems": [
    "Astra.Props.clean_substitutes_partial",
    "Astra.Props.clean_only_renames",
    "Astra.Props.substituted_iff",
    "Astra.Props.error_field_not_substituted"
   ],
   "note": "A struct field of type error is not substituted because only components carry a name (negation proved)."
  },
  {
   "property": "C35",
   "status": "proved",
   "theorems": [
    "Astra.Props.parse_steps_in_order",
    "Astra.Props.parse_rejects_missing",
    "Astra.Props.outputs_in_order",
    "Astra.Props.parse_log_follows_plan",
    "Astra.Props.generate_only_after_success",
    "Astra.Props.teardown_reports_no_error"
   ],
   "note": "For every list of inputs and outputs, with arbitrary user functions, and every outside failure."
  },
  {
   "property": "C36",
   "status": "proved",
   "theorems": [
    "Astra.Props.teardown_changes_only",
    "Astra.Props.teardown_removes",
    "Astra.Props.parse_leaves_nothing"
   ],
   "note": "Without outside failures; teardown_failure_is_silent shows that a failing removal goes unreported."
  },
  {
   "property": "C37",
   "status": "proved",
   "theorems": [
    "Astra.Props.setup_changes_only",
    "Astra.Props.setup_keeps_gitignore",
    "Astra.Props.setup_dir_changes_only",
    "Astra.Props.setup_dir_succeeds",
    "Astra.Props.setup_dir_idempotent"
   ],
   "note": "If the check for .gitignore fails for another reason than its absence, the file is overwritten (gitignore_overwritten_on_failure); a .gitignore left empty by a crash is never repaired (gitignore_not_repaired)."
  },
  {
   "property": "C38",
   "status": "partial",
   "theorems": [
    "Astra.Props.cache_round_trip_partial",
    "Astra.Props.cache_round_trip_same_path_partial",
    "Astra.Props.not_cache_round_trip",
    "Astra.Props.yaml_cache_fails",
    "Astra.Props.load_missing_cache",
    "Astra.Props.cache_changes_integers"
   ],
   "note": "Proved for every service state and every path ending in .json. Other extensions are written but rejected on load, YAML caches cannot be written, integers in enums come back as floating point numbers: witnesses."
  },
  {
   "property": "C39",
   "status": "partial",
   "theorems": [
    "Astra.Props.cache_crash_partial",
    "Astra.Props.cache_footprint",
    "Astra.Props.cache_removes_directory"
   ],
   "note": "Proved for every crash and error point, every partial write and removal, and every prior content, for JSON caches. The YAML library is not modelled."
  },
  {
   "property": "C40",
   "status": "partial",
   "theorems": [
    "Astra.Props.cli_equals_parse_partial",
    "Astra.Props.not_cli_custom_functions",
    "Astra.Props.not_cli_type_mapping",
    "Astra.Props.not_cli_azure",
    "Astra.Props.not_cli_empty_path",
    "Astra.Props.not_cli_default_flag"
   ],
   "note": "For every list of options that the cache carries over (gin inputs, OpenAPI and JSON outputs with a path, config, deny rules, logging, working directory, a cache path with the extension .json whose directory exists) and every file tree, the two runs end in the same way and leave the same tree outside .astra and outside the cache file. Missing, because false (proved with witnesses): custom functions, custom type mappings, Azure outputs, empty paths; and the command must be given the cache path, since it does not look at the option."
  },
  {
   "property": "C41",
   "status": "partial",
   "theorems": [
    "Astra.Props.rebind_restores_partial",
    "Astra.Props.rebind_rejects_input",
    "Astra.Props.rebind_rejects_output",
    "Astra.Props.rebind_rejects_azure",
    "Astra.Props.not_rebind_restores"
   ],
   "note": "Azure Functions outputs are always rejected (rebind.go tests ok instead of !ok): negation proved."
  },
  {
   "property": "C42",
   "status": "partial",
   "theorems": [
    "Astra.Props.azure_replace_partial",
    "Astra.Props.azure_names_distinct",
    "Astra.Props.azure_succeeds",
    "Astra.Props.azure_tree",
    "Astra.Props.azure_retry_partial",
    "Astra.Props.azure_blocked",
    "Astra.Props.function_file",
    "Astra.Props.not_azure_all_or_nothing",
    "Astra.Props.not_azure_retry",
    "Astra.Props.not_azure_same_name",
    "Astra.Props.azure_deletes_project"
   ],
   "note": "At every crash and error point the output is untouched, absent, complete, or (only while the old one is being removed) a part of the old one; that last case disappears for atomic removals and is shown reachable otherwise. A ready project always gets the complete output. Retry holds after removing the leftover temporary directory; it fails without (proved with a witness)."
  },
  {
   "property": "C43",
   "status": "partial",
   "theorems": [
    "Astra.Props.temp_package_partial",
    "Astra.Props.temp_package_copies",
    "Astra.Props.temp_package_faults_partial",
    "Astra.Props.renamed_once",
    "Astra.Props.renamed_never",
    "Astra.Props.module_line",
    "Astra.Props.temp_import_path",
    "Astra.Props.not_only_clause_renamed",
    "Astra.Props.not_import_path",
    "Astra.Props.not_copy_with_go_directory",
    "Astra.Props.no_copy_without_astra"
   ],
   "note": "Holds for Go files in which the words package main occur at most once and a single go.mod that begins with its plain module line; negations proved for the other cases. Under outside failures nothing else changes, and a reported success means the same."
  },
  {
   "property": "C44",
   "status": "proved",
   "theorems": [
    "Astra.Props.builder_result",
    "Astra.Props.built_config_valid"
   ],
   "note": "For every sequence of setters."
  },
  {
   "property": "C45",
   "status": "proved",
   "theorems": [
    "Astra.Props.operation_of_last_route",
    "Astra.Props.route_has_operation",
    "Astra.Props.demo_generated",
    "Astra.Props.unsupported_method_empty_path"
   ],
   "note": "For every service; the last of several routes with one method and path counts."
  },
  {
   "property": "C46",
   "status": "proved",
   "theorems": [
    "Astra.Props.parameters_sorted_complete",
    "Astra.Props.plain_path_parameter_documented",
    "Astra.Props.equal_names_order_free"
   ],
   "note": "For every arrangement that the sort and the map iteration may choose."
  },
  {
   "property": "C47",
   "status": "partial",
   "theorems": [
    "Astra.Props.responses_exact_partial",
    "Astra.Props.any_response_not_documented"
   ],
   "note": "False for entries without a schema: witness."
  },
  {
   "property": "C48",
   "status": "partial",
   "theorems": [
    "Astra.Props.body_params_documented_partial",
    "Astra.Props.request_body_exact",
    "Astra.Props.form_fields_overwritten",
    "Astra.Props.form_array_documented_as_scalar"
   ],
   "note": "False when two entries share a content type: witness."
  },
  {
   "property": "C49",
   "status": "proved",
   "theorems": [
    "Astra.Props.server_and_info"
   ],
   "note": "For every config."
  },
  {
   "property": "C50",
   "status": "partial",
   "theorems": [
    "Astra.Props.json_location_partial",
    "Astra.Props.openapi_location_partial",
    "Astra.Props.json_second_generation_elsewhere",
    "Astra.Props.openapi_second_generation_elsewhere",
    "Astra.Props.not_location_stable"
   ],
   "note": "Holds for the first generation; every later generation goes to workdir/workdir/path when the work dir is absolute: proved."
  },
  {
   "property": "C51",
   "status": "partial",
   "theorems": [
    "Astra.Props.tree_lookup",
    "Astra.Props.tree_nodes",
    "Astra.Props.tree_node_path",
    "Astra.Props.tree_node_path_partial",
    "Astra.Props.not_tree_path"
   ],
   "note": "A path that ends in a slash loses the slashes (not_tree_path); everything else holds for all histories."
  },
  {
   "property": "C52",
   "status": "proved",
   "theorems": [
    "Astra.Props.concurrent_calls_agree",
    "Astra.Props.no_duplicate_siblings",
    "Astra.Props.finished_call_is_found",
    "Astra.Props.calls_finish"
   ],
   "note": "Each locked section is one step of the pool."
  },
  {
   "property": "C53",
   "status": "proved",
   "theorems": [
    "Astra.Props.loaded_once",
    "Astra.Props.failures_forgotten",
    "Astra.Props.calls_are_requests"
   ],
   "note": "packages.Load is an arbitrary function with state."
  },
  {
   "property": "C54",
   "status": "partial",
   "theorems": [
    "Astra.Props.get_resolves_partial",
    "Astra.Props.get_keeps_tree",
    "Astra.Props.get_again",
    "Astra.Props.gin_loader_path",
    "Astra.Props.chosen_unique",
    "Astra.Props.concurrent_get_doubles_files"
   ],
   "note": "Proved for calls one after the other on node paths without trailing slash. Get takes no lock: two overlapping calls populate a node twice (concurrent_get_doubles_files)."
  },
  {
   "property": "C55",
   "status": "proved",
   "theorems": [
    "Astra.Props.type_doc",
    "Astra.Props.type_doc_missing"
   ],
   "note": "For every package."
  },
  {
   "property": "C56",
   "status": "proved",
   "theorems": [
    "Astra.Props.options_last_wins",
    "Astra.Props.options_cache",
    "Astra.Props.options_accumulate",
    "Astra.Props.options_type_mapping",
    "Astra.Props.options_commute",
    "Astra.Props.options_swap",
    "Astra.Props.options_generator_paths"
   ],
   "note": "For every list of options."
  },
  {
   "property": "C57",
   "status": "proved",
   "theorems": [
    "Astra.Props.query_parameter_style"
   ],
   "note": "For every query parameter of every route."
  },
  {
   "property": "C58",
   "status": "partial",
   "theorems": [
    "Astra.Props.bound_query_spread_partial",
    "Astra.Props.embedded_query_struct_lost",
    "Astra.Props.embedded_query_struct_always_lost",
    "Astra.Props.bound_path_struct_unnamed",
    "Astra.Props.bound_struct_one_parameter"
   ],
   "note": "Holds for the direct properties of the bound struct. False for structs that embed another one, which give no parameter at all, and for structs bound to the path or headers, which become one parameter without name: witnesses, and both in general."
  },
  {
   "property": "C59",
   "status": "proved",
   "theorems": [
    "Astra.Props.responses_carry_headers"
   ],
   "note": "For every route and every recorded status."
  },
  {
   "property": "C60",
   "status": "proved",
   "theorems": [
    "Astra.Props.json_output_mirrors_service"
   ],
   "note": "For services whose maps and numbers have a JSON form."
  },
  {
   "property": "C61",
   "status": "partial",
   "theorems": [
    "Astra.Props.property_schema",
    "Astra.Props.body_schema_partial",
    "Astra.Props.param_schema",
    "Astra.Props.slice_item_format_lost",
    "Astra.Props.array_body_undocumented",
    "Astra.Props.reserved_type_name"
   ],
   "note": "Proved for properties, bodies and parameters; false for the item format of slices in bodies, for Go arrays in bodies and for types named like a reserved word: witnesses."
  },
  {
   "property": "C62",
   "status": "proved",
   "theorems": [
    "Astra.Props.struct_schema_exact"
   ],
   "note": "For structs in which no two fields that are not embedded are shown under one name (see C28)."
  },
  {
   "property": "C63",
   "status": "proved",
   "theorems": [
    "Astra.Props.schemas_exact"
   ],
   "note": "For every list of components, and every kind."
  },
  {
   "property": "C65",
   "status": "proved",
   "theorems": [
    "Astra.Props.load_result",
    "Astra.Props.firstError_none"
   ],
   "note": "For every result of packages.Load."
  },
  {
   "property": "C66",
   "status": "partial",
   "theorems": [
    "Astra.Props.load_from_own_directory_partial",
    "Astra.Props.not_load_from_own_directory"
   ],
   "note": "Violated: the cache of packages is global and keyed by path only. Proved when all loads use one working directory."
  },
  {
   "property": "C67",
   "status": "partial",
   "theorems": [
    "Astra.Props.find_import_partial",
    "Astra.Props.import_nodes",
    "Astra.Props.node_name",
    "Astra.Props.not_find_renamed",
    "Astra.Props.not_find_version",
    "Astra.Props.not_find_raw"
   ],
   "note": "Violated for renamed imports whose path ends in the identifier, paths ending in a version, and raw string paths; proved without these."
  },
  {
   "property": "C68",
   "status": "proved",
   "theorems": [
    "Astra.Props.doc_found",
    "Astra.Props.doc_exact",
    "Astra.Props.doc_stable",
    "Astra.Props.docs_frozen",
    "Astra.Props.comment_text_exact"
   ],
   "note": "docs_frozen records that asking before the package is loaded fixes the answer; the code always loads first."
  },
  {
   "property": "C69",
   "status": "proved",
   "theorems": [
    "Astra.Props.add_file"
   ],
   "note": "For every history of AddFile."
  },
  {
   "property": "C70",
   "status": "partial",
   "theorems": [
    "Astra.Props.status_code_value_partial",
    "Astra.Props.status_literal_exact",
    "Astra.Props.name_literal_exact",
    "Astra.Props.atoi_exact",
    "Astra.Props.name_value_partial",
    "Astra.Props.status_code_sound_partial",
    "Astra.Props.readable_means",
    "Astra.Props.not_status_octal",
    "Astra.Props.not_status_other_literals",
    "Astra.Props.not_name_constant",
    "Astra.Props.name_constant_text",
    "Astra.Props.not_name_long",
    "Astra.Props.not_name_literals",
    "Astra.Props.not_imported_value"
   ],
   "note": "Holds for decimal literals, plain quoted strings, integer constants and variables first in their declaration. Violated (proved): octal literals give another code, other integer literals are not read, every string constant is documented with quotes, raw strings and escapes are not interpreted, constants of other packages are looked up by name among all definitions in map order."
  },
  {
   "property": "C71",
   "status": "partial",
   "theorems": [
    "Astra.Props.expr_type_partial",
    "Astra.Props.call_result_type",
    "Astra.Props.method_result_type",
    "Astra.Props.result_number_only_for_calls",
    "Astra.Props.not_type_builtin",
    "Astra.Props.not_type_shadowed",
    "Astra.Props.not_type_shadowed_panic",
    "Astra.Props.not_type_receive",
    "Astra.Props.not_type_conversion",
    "Astra.Props.not_type_other"
   ],
   "note": "Holds for literals, variables, fields, address and dereference, composite literals, new, make, len and calls. Violated (proved): functions that shadow len, new or make, channel receives; conversions, indexing and operators are not understood."
  },
  {
   "property": "C72",
   "status": "partial",
   "theorems": [
    "Astra.Props.node_at_position",
    "Astra.Props.assigned_value_partial",
    "Astra.Props.declared_value_partial",
    "Astra.Props.declaration_index",
    "Astra.Props.not_second_variable",
    "Astra.Props.not_assigned_later",
    "Astra.Props.not_declared_without_value"
   ],
   "note": "Holds for the first variable of a declaration that is not assigned to again. Violated (proved) for the others."
  },
  {
   "property": "C73",
   "status": "proved",
   "theorems": [
    "Astra.Props.var_name_parts",
    "Astra.Props.var_name_none"
   ],
   "note": "For every expression."
  },
  {
   "property": "C74",
   "status": "partial",
   "theorems": [
    "Astra.Props.helper_found_partial",
    "Astra.Props.passes_context_iff",
    "Astra.Props.not_helper_method",
    "Astra.Props.not_helper_value"
   ],
   "note": "Functions called by name are found with their file. Methods and function values that get the context are not found, and the analysis of the handler fails (proved)."
  },
  {
   "property": "C75",
   "status": "proved",
   "theorems": [
    "Astra.Props.source_call_documented",
    "Astra.Props.source_call_contributes",
    "Astra.Props.context_method_seen"
   ],
   "note": "For arguments of the kinds covered by C70 and C71."
  },
  {
   "property": "C64",
   "status": "proved",
   "theorems": [
    "Astra.Props.parse_changes_only",
    "Astra.Props.new_service_changes_only",
    "Astra.Props.options_shape"
   ],
   "note": "The Azure output is entitled to everything at and below its directory; see C42 for what that means if the directory is the project itself."
  },
  {
   "property": "C76",
   "status": "proved",
   "theorems": [
    "Astra.Props.openapi_file_of_run",
    "Astra.Props.json_file_of_run",
    "Astra.Props.run_documents_router"
   ],
   "note": "The OpenAPI output is the first of its kind, and its place is not one of those of the later outputs, of .astra or of the cache. What is in the text: C80 for JSON, C86 for YAML. Several routers are each analysed once per router (C85). Routers with equal paths and methods: see C09."
  },
  {
   "property": "C77",
   "status": "partial",
   "theorems": [
    "Astra.Props.run_succeeds_partial",
    "Astra.Props.run_success_needs",
    "Astra.Props.run_keeps_order"
   ],
   "note": "Gin inputs, any number; the built-in outputs (JSON, OpenAPI, Azure Functions), any number; each Azure directory apart from .astra, from the other places and from the Go and module files, and no leftover temporary directory; the cache, if any, at its default place or in a JSON file of its own that is not in .astra and not at the place of an output. The packages of the components must be ones that can be named; this, the configuration and the paths of the files are necessary too (run_success_needs)."
  },
  {
   "property": "C78",
   "status": "partial",
   "theorems": [
    "Astra.Props.run_after_attempts_partial",
    "Astra.Props.attempts_keep_order"
   ],
   "note": "As C77. For a service with Azure outputs the user must remove .astra/azure if an attempt has left it there: this is a true exception, since what an interrupted run leaves stops the next one (azure_blocked, C42)."
  },
  {
   "property": "C79",
   "status": "partial",
   "theorems": [
    "Astra.Props.same_outputs_partial"
   ],
   "note": "As C77. The analysis of the handlers, which reads the Go files, is a parameter."
  },
  {
   "property": "C80",
   "status": "proved",
   "theorems": [
    "Astra.Props.openapi_file_shows_document",
    "Astra.Props.run_writes_document",
    "Astra.Props.shown_operation"
   ],
   "note": "JSON files; the text of YAML files is a parameter. Enum values found by the analysis are numbers as Go prints them."
  },
  {
   "property": "C81",
   "status": "partial",
   "theorems": [
    "Astra.Props.same_document_partial",
    "Astra.Props.same_failure_partial",
    "Astra.Props.same_run_partial",
    "Astra.Props.equal_names_documents_differ",
    "Astra.Props.embedded_order_matters",
    "Astra.Props.duplicate_name_order_matters"
   ],
   "note": "False in general: two parameters of one name in one operation, two embedded structs, two fields of one name make the document depend on the runtime (the last three theorems). Proved for components that are settled (distinct names, no dots in names, tidy structs) and operations with distinct parameter names. For whole runs: gin inputs, built-in outputs; the maps of the components are iterated as stored."
  },
  {
   "property": "C82",
   "status": "partial",
   "theorems": [
    "Astra.Props.document_standard_partial",
    "Astra.Props.no_responses_not_standard",
    "Astra.Props.catchAll_not_standard",
    "Astra.Props.query_twice_not_standard",
    "Astra.Props.bound_uri_not_standard",
    "Astra.Props.same_handler_not_standard",
    "Astra.Props.nested_slice_not_standard",
    "Astra.Props.letters_not_standard"
   ],
   "note": "False in general; the last seven theorems are services whose document the standard rejects. Proved in full for orderly services: routes that return something, no catch-all parameters, distinct parameters, no struct bound to the path, handlers registered once, no slices of slices, ASCII names, and the conditions of C29. The standard is stated on the document as a value; C80 relates it to the JSON file."
  },
  {
   "property": "C83",
   "status": "proved",
   "theorems": [
    "Astra.Props.run_documents_handler"
   ],
   "note": "The handler is a declared function or a function literal, with no other function at its line. Structs that are bound to the query or a header are the subject of C58 and C82; what stands under a status code or content type is the subject of C47 and C48. Custom functions are allowed (C88) if they depend on the call and the route only, do not move the route, and read strings by name."
  },
  {
   "property": "C84",
   "status": "proved",
   "theorems": [
    "Astra.Props.openapiPath_iff",
    "Astra.Props.openapiPath_shared_iff",
    "Astra.Props.template_vars_match_iff"
   ],
   "note": "Paths without braces of their own for the last one."
  },
  {
   "property": "C85",
   "status": "partial",
   "theorems": [
    "Astra.Props.second_router_changes_first",
    "Astra.Props.parameters_repeat"
   ],
   "note": "False: a second router, even an empty one, makes every query parameter and header be listed twice. Exact: with n routers, n times as often as the handler reads it (handlers without bound structs; those are covered by C83, which holds for any number of routers)."
  },
  {
   "property": "C86",
   "status": "partial",
   "theorems": [
    "Astra.Props.run_writes_yaml",
    "Astra.Props.yaml_file_shows_document",
    "Astra.Props.forms_agree_partial",
    "Astra.Props.not_forms_agree",
    "Astra.Props.not_forms_agree_components"
   ],
   "note": "False for documents in which a parameter, header or body has the empty schema (type any) or without components: there YAML leaves out what JSON shows. Exact: the forms have the same content if and only if nothing of that kind is empty. How the YAML library prints a tree of values is a parameter."
  },
  {
   "property": "C87",
   "status": "partial",
   "theorems": [
    "Astra.Props.second_parse_documents_blank",
    "Astra.Props.known_routes_documented_blank",
    "Astra.Props.second_parse_lists_twice",
    "Astra.Props.not_parse_idempotent",
    "Astra.Props.demo_second_parse"
   ],
   "note": "False. Exact: whenever the second call succeeds, its OpenAPI document has an operation without anything in it for every entry of the routers, and its JSON output lists every entry a second time, as it was before the analysis. (With an absolute work dir the second call writes elsewhere, or fails: C50.) Built-in inputs and outputs."
  },
  {
   "property": "C88",
   "status": "partial",
   "theorems": [
    "Astra.Props.custom_functions_take_precedence_partial",
    "Astra.Props.first_custom_function_decides",
    "Astra.Props.custom_functions_in_option_order",
    "Astra.Props.custom_error_lost",
    "Astra.Props.custom_error_reported",
    "Astra.Props.returned_route_lost",
    "Astra.Props.builder_func_takes",
    "Astra.Props.builder_func_leaves",
    "Astra.Props.builder_func_stays",
    "Astra.Props.not_custom_error_reported",
    "Astra.Props.not_returned_route_used"
   ],
   "note": "Precedence and order hold. False for errors (lost unless the call is the last node of the body) and for routes of their own (a returned route that is not the builder's, and all that follows it in the function, never reaches the document): both exact, with witnesses."
  },
  {
   "property": "C89",
   "status": "partial",
   "theorems": [
    "Astra.Props.run_describes_types_partial",
    "Astra.Props.document_describes_core",
    "Astra.Props.described_admits",
    "Astra.Props.item_documentable",
    "Astra.Props.item_run_types",
    "Astra.Props.dash_field_missing",
    "Astra.Props.unexported_base_missing",
    "Astra.Props.tagged_base_flattened",
    "Astra.Props.named_slice_loses_reference",
    "Astra.Props.untagged_struct_loses_references",
    "Astra.Props.nested_types_lost"
   ],
   "note": "For the types of a set that is documentable (Spec/JsonDoc.lean): own names and definitions, tags for JSON at most, embedded fields that are exported, untagged and of struct types and hide no field of another type, fields of primitive, defined and interface types and slices, arrays, maps and pointers of these (of slices, maps and structs without a name inside of these only the kind is described). The entry of a type that is used with plainly declared constants only may list them. False in general: the tag -, hides a field, an embedded struct that is unexported is left out and one with a json tag is not a member, a named slice or an untagged struct loses the references to structs that are tagged for JSON, slices of slices and the like lose the inner types (witnesses), and see C19, C20, C29, C30."
  },
  {
   "property": "C90",
   "status": "partial",
   "theorems": [
    "Astra.Props.run_admits_sent_json_partial",
    "Astra.Props.sent_documented",
    "Astra.Props.described_admits",
    "Astra.Props.item_run",
    "Astra.Props.byte_rejected",
    "Astra.Props.bytes_rejected",
    "Astra.Props.nil_rejected",
    "Astra.Props.undeclared_value_rejected",
    "Astra.Props.quoted_field_rejected",
    "Astra.Props.hidden_field_rejected",
    "Astra.Props.marshaled_rejected",
    "Astra.Props.array_not_documented"
   ],
   "note": "For documentable types (C89), values without nil, and handlers that send one type with a code (C48). False in general, with witnesses: bytes, nil values, values that are no declared constants, the option string, fields that hide fields of embedded structs, MarshalJSON, Go arrays."
  },
  {
   "property": "C91",
   "status": "partial",
   "theorems": [
    "Astra.Props.run_admits_bound_json_partial",
    "Astra.Props.bound_documented",
    "Astra.Props.described_admits",
    "Astra.Props.item_run_bound",
    "Astra.Props.byte_rejected",
    "Astra.Props.bytes_rejected",
    "Astra.Props.nil_rejected",
    "Astra.Props.undeclared_value_rejected",
    "Astra.Props.quoted_field_rejected",
    "Astra.Props.hidden_field_rejected",
    "Astra.Props.marshaled_rejected"
   ],
   "note": "As C90, for handlers that read JSON into one type (C47)."
  },
  {
   "property": "C92",
   "status": "proved",
   "theorems": [
    "Astra.Props.written_is_json",
    "Astra.Props.json_output_mirrors_service",
    "Astra.Props.openapi_file_shows_document",
    "Astra.Props.function_file",
    "Astra.Props.cache_file_is_json",
    "Astra.Props.json_is_decoded",
    "Astra.Props.decoded_is_json",
    "Astra.Props.json_unambiguous"
   ],
   "note": "The grammar is Spec/JsonText.lean. Values whose numbers are JSON numbers; escapes of surrogates in pairs are not described (none are written)."
  },
  {
   "property": "C93",
   "status": "partial",
   "theorems": [
    "Astra.Props.load_reads_json_partial",
    "Astra.Props.load_failure_changes_nothing",
    "Astra.Props.load_changes_only",
    "Astra.Props.not_load_reads_json"
   ],
   "note": "A failed load changes nothing, and a file that does not begin with a JSON object or null is refused. Violated (proved): what follows the first value is not looked at, and any object is accepted, by which the service loses its inputs, outputs, routes and configuration."
  },
  {
   "property": "C94",
   "status": "partial",
   "theorems": [
    "Astra.Props.shared_route_documented_blank",
    "Astra.Props.shared_route_witness",
    "Astra.Props.demo_shared_route",
    "Astra.Props.ginParseRoutes_exact",
    "Astra.Props.run_documents_handler"
   ],
   "note": "False. Exact: whenever the run succeeds, the document has an operation without anything in it at the method and path of the last of several equal entries, wherever they are among the entries of the routers. When all entries differ, the document describes the handler (C83)."
  },
  {
   "property": "C95",
   "status": "partial",
   "theorems": [
    "Astra.Props.run_custom_types_partial",
    "Astra.Props.run_mapping",
    "Astra.Props.builtin_mapping_without_effect",
    "Astra.Props.builtin_options_without_effect",
    "Astra.Props.mapping_witness",
    "Astra.Props.demo_custom_types"
   ],
   "note": "Proved for the named types of the components, in whole runs. False for builtin types: exact, entries for accepted names never change the document (unless a type or a field has such a name); witness."
  },
  {
   "property": "C96",
   "status": "partial",
   "theorems": [
    "Astra.Props.run_type_comments",
    "Astra.Props.run_sent_types_commented_partial",
    "Astra.Props.type_comment",
    "Astra.Props.descriptions_of_components",
    "Astra.Props.field_comments_without_effect",
    "Astra.Props.comment_witness",
    "Astra.Props.item_run_comments",
    "Astra.Props.item_run_described",
    "Astra.Props.run_documents_handler"
   ],
   "note": "Proved for types in whole runs: every entry of components.schemas is described by the comment of the type it belongs to, and the types that handlers send and read as JSON have such entries; the comments of handlers are C83. False for struct fields: exact, their comments never have an effect on the document, and no schema but the entries themselves has a description; witness."
  },
  {
   "property": "C97",
   "status": "partial",
   "theorems": [
    "Astra.Props.run_required_partial",
    "Astra.Props.operation_asks",
    "Astra.Props.required_tags_without_effect",
    "Astra.Props.required_witness",
    "Astra.Props.purchase_run"
   ],
   "note": "Proved in whole runs, exact: each operation of the document asks for the `:name` segments of its path and for nothing else, and no response promises a header. False for the rest: no query parameter, header, body or property is ever marked, and what the analysis has recorded of binding:\"required\" and validate:\"required\" has no effect on the document (exact); witness."
  },
  {
   "property": "C98",
   "status": "proved",
   "theorems": [
    "Astra.Props.load_settings_only",
    "Astra.Props.load_empties_missing",
    "Astra.Props.decConfig_same",
    "Astra.Props.decRoute_same",
    "Astra.Props.decField_same",
    "Astra.Props.foldKey_eq_iff"
   ],
   "note": "For JSON caches and every outside failure. The same for the settings inside the configuration, the routes and the described types."
  },
  {
   "property": "C99",
   "status": "partial",
   "theorems": [
    "Astra.Props.run_addresses_partial",
    "Astra.Props.address_right_iff",
    "Astra.Props.documented_address",
    "Astra.Props.builder_base_clean_iff",
    "Astra.Props.builder_default_address",
    "Astra.Props.address_witness",
    "Astra.Props.base_witness"
   ],
   "note": "Exact: right for all values if and only if the base path is empty or begins with a slash, does not end in one and has no two in a row, and the path has no catch-all (paths without braces). False by default: the builder sets the base path to /, so that every address has two slashes after the port (builder_default_address); witnesses."
  },
  {
   "property": "C100",
   "status": "proved",
   "theorems": [
    "Astra.Props.run_query_calls_understood",
    "Astra.Props.run_query_understood",
    "Astra.Props.parameter_understood",
    "Astra.Props.read_back",
    "Astra.Props.query_parameter_style",
    "Astra.Props.comma_separated_misread",
    "Astra.Props.search_run",
    "Astra.Props.search_text"
   ],
   "note": "For parameters that are read by name; a table has distinct keys, which are not empty and have no closing bracket, as gin cannot read others. It holds only because the file leaves out `explode: false` (comma_separated_misread). Structs bound to the query are the subject of C58, forms of C48."
  },
  {
   "property": "C101",
   "status": "partial",
   "theorems": [
    "Astra.Props.run_documents_text_partial",
    "Astra.Props.text_analysed",
    "Astra.Props.written_handler_view",
    "Astra.Props.every_text_read",
    "Astra.Props.shop_run",
    "Astra.Props.shop_text",
    "Astra.Props.shop_written",
    "Astra.Props.not_every_text_call_documented",
    "Astra.Props.not_text_after_helper_of_other_package"
   ],
   "note": "Composition of C70-C75 (expressions), C14 (handlers) and C83 (the run), without custom functions. Missing: context calls in the arguments of a conversion, a builtin function or a function value, and everything after a helper of another file whose analysis fails; both are lost without an error, see the witnesses. Arguments of other kinds are the subject of C70 and C71."
  },
  {
   "property": "C102",
   "status": "partial",
   "theorems": [
    "Astra.Props.formats_described_partial",
    "Astra.Props.shared_type_describes_last_format",
    "Astra.Props.named_slice_describes_last_format",
    "Astra.Props.json_author_schema"
   ],
   "note": "Violated for types with the same tags for several formats that are made of types with differing ones: one schema, that of the last format (witnesses; examples/with-multi-content-types/openapi.generated.yaml shows it, and multi_run_writes_recorded reproduces that file). Proved for types with differing tags, and for types whose parts are encoded alike, without inline structs."
  },
  {
   "property": "C103",
   "status": "proved",
   "theorems": [
    "Astra.Props.recorded_file_leads_back",
    "Astra.Props.recorded_file_name",
    "Astra.Props.handler_file_opened",
    "Astra.Props.routes_created_iff"
   ],
   "note": "For absolute source paths; the name is kept unless the process works in a directory inside of the file, which no file system allows. Relative source paths (-trimpath) make the run fail, exactly then (routes_created_iff). The names of the files of a package are distinct."
  },
  {
   "property": "C104",
   "status": "partial",
   "theorems": [
    "Astra.Props.types_described_separately_partial",
    "Astra.Props.one_component_per_name",
    "Astra.Props.types_of_one_name_described_iff",
    "Astra.Props.first_of_a_name_stays",
    "Astra.Props.types_of_one_name_referred_alike",
    "Astra.Props.run_describes_one_type_per_name",
    "Astra.Props.second_instance_rejected",
    "Astra.Props.run_merges_instances"
   ],
   "note": "False for types of one package and name (instances of a generic type, types declared in functions): they share one schema, that of the first one that was analysed, and the others are not described. Exact: both are described if and only if one component describes both. Proved in full when no two types have the same package and name."
  },
  {
   "property": "C105",
   "status": "partial",
   "theorems": [
    "Astra.Props.other_handlers_not_documented",
    "Astra.Props.method_handlers_witness",
    "Astra.Props.demo_method_handler",
    "Astra.Props.method_value_ends_creation",
    "Astra.Props.run_documents_handler"
   ],
   "note": "False for methods, literals in methods or in package variables and instances of generic functions: if the run succeeds, the operation has exactly the parameters of the path and nothing about the handler. Declared functions and literals in them are documented (C83). Which names and positions the Go runtime reports for functions is taken from Go, not from the code."
  },
  {
   "property": "C106",
   "status": "partial",
   "theorems": [
    "Astra.Props.run_documents_line",
    "Astra.Props.one_line_handlers_merged",
    "Astra.Props.line_view_of_handler",
    "Astra.Props.run_documents_handler"
   ],
   "note": "False: handlers are found by line. Exact (run_documents_line): the operation shows what all function literals at the line do, in the declared function that contains the handler, or, if that function begins at the line, what this function does, and nothing else. True of handlers with the line for themselves (C83)."
  },
  {
   "property": "C107",
   "status": "partial",
   "theorems": [
    "Astra.Props.run_form_calls_understood_partial",
    "Astra.Props.run_form_exact",
    "Astra.Props.documented_table_is_empty",
    "Astra.Props.documented_list_has_one",
    "Astra.Props.list_not_understood",
    "Astra.Props.table_not_understood",
    "Astra.Props.upload_run",
    "Astra.Props.tag_run_misdescribed",
    "Astra.Props.form_text"
   ],
   "note": "False: of the fields of a form the document tells only the last of those read as text, list or table and the last file, and never both in one form; a list or table is documented as a text and never understood. Exact: run_form_exact. True of handlers whose calls read one text, one file or one of each (run_form_calls_understood_partial). How the standard fills in forms and how gin reads them are small models of their documentation, in Spec/Forms."
  },
  {
   "property": "C108",
   "status": "partial",
   "theorems": [
    "Astra.Props.run_headers_exact_partial",
    "Astra.Props.header_understood_iff",
    "Astra.Props.header_shape",
    "Astra.Props.login_run",
    "Astra.Props.login_text"
   ],
   "note": "False for request headers named Accept, Content-Type and Authorization, whose parameters the standard says to ignore, for the fields that net/http takes out of the header (Host, Transfer-Encoding, Trailer), and for the response header Content-Type. Exact: run_headers_exact_partial is an equivalence over all names and values. Headers bound to a struct are the subject of C58. How the standard writes headers and how gin reads them are small models of their documentation, in Spec/Headers."
  },
  {
   "property": "C109",
   "status": "partial",
   "theorems": [
    "Astra.Props.run_path_exact_partial",
    "Astra.Props.filled_path_read",
    "Astra.Props.match_values",
    "Astra.Props.path_told",
    "Astra.Props.path_run",
    "Astra.Props.path_text"
   ],
   "note": "False for paths with a catch-all: the variable of the template is {name*}, the parameter is called name, so no client can fill in the path. Exact: run_path_exact_partial is an equivalence, for paths that gin accepts and that have no braces of their own. Which of several patterns of a router takes a request is not part of it. How gin matches a request is a small model of its documentation, in Spec/PathParams."
  },
  {
   "property": "C110",
   "status": "partial",
   "theorems": [
    "Astra.Props.run_bound_query_understood_partial",
    "Astra.Props.run_bound_headers_untold",
    "Astra.Props.bound_struct_parameters",
    "Astra.Props.bound_field_understood",
    "Astra.Props.kind_struct_schema",
    "Astra.Props.kind_shown_iff",
    "Astra.Props.mixed_struct_lost",
    "Astra.Props.embedded_query_struct_always_lost",
    "Astra.Props.seek_run",
    "Astra.Props.seek_run_headers",
    "Astra.Props.seek_text"
   ],
   "note": "False: a struct bound to the header gives one parameter without a name, so a client is never told of any of its fields (run_bound_headers_untold); a struct with a field that has a tag for another binding but none for forms, or with an embedded struct, gives no query parameters at all, though gin fills it. True of structs whose exported fields have form tags or no tags, with basic types, slices of them and pointers: each field is a parameter under gin's name, each value is understood, and there are no other query parameters. Missing: defined types of fields, maps, slices of bytes. How the standard writes a query and how gin fills a struct are small models of their documentation, in Spec/Query and Spec/BoundQuery."
  },
  {
   "property": "C111",
   "status": "partial",
   "theorems": [
    "Astra.Props.run_body_names_partial",
    "Astra.Props.body_told",
    "Astra.Props.member_named",
    "Astra.Props.kind_entry",
    "Astra.Props.yaml_unnamed",
    "Astra.Props.car_run",
    "Astra.Props.car_text"
   ],
   "note": "False for YAML: astra names a field without a yaml tag by its Go name, gopkg.in/yaml.v3 by its lower-case form, so the key in the body is never a property of the schema. False for XML attributes, character data and paths of elements, which the schema has as elements. True of JSON, of XML elements and of YAML fields named by tags, for structs whose exported fields have a tag for the format or no tags, with basic types, slices of them and pointers; the schemas have no other properties. Missing: defined types of fields, embedded structs, maps. How the encoders name fields is a small model of their documentation, in Spec/BodyNames."
  },
  {
   "property": "C112",
   "status": "partial",
   "theorems": [
    "Astra.Props.run_body_names_partial",
    "Astra.Props.run_missed_bodies_untold",
    "Astra.Props.missed_no_schema",
    "Astra.Props.missed_entry",
    "Astra.Props.never_named",
    "Astra.Props.bill_run",
    "Astra.Props.bill_text"
   ],
   "note": "False as soon as one exported field has tags for other bindings and none for the format: no schema is made for it, so the body has no schema, or a reference to one that does not exist or was made for another binding (run_missed_bodies_untold, for all such structs with simple fields). True of the others (run_body_names_partial). Missing: defined types of fields, embedded structs, maps."
  },
  {
   "property": "C113",
   "status": "partial",
   "theorems": [
    "Astra.Props.run_function_requests_partial",
    "Astra.Props.azure_request_exact",
    "Astra.Props.azure_request_values",
    "Astra.Props.azure_request_only",
    "Astra.Props.azure_route_exact",
    "Astra.Props.azure_ignores_case",
    "Astra.Props.cloud_run",
    "Astra.Props.cloud_text"
   ],
   "note": "False: path parameters are strings and get the constraint alpha, so a value with a digit, a hyphen or a dot never reaches the function, and neither does a catch-all of several segments. Exact: of the requests of the route, the function is called for those with letters only (azure_request_exact), so for all of them if and only if the path has no parameters (azure_route_exact); it is called for no others but for letter case and a slash at the end, without a catch-all (azure_request_only). Composed with the files of a run of C77. Missing: paths with braces and the parameter names of C06. How Azure matches a route is a small model, in Spec/AzureRequests."
  },
  {
   "property": "C114",
   "status": "partial",
   "theorems": [
    "Astra.Props.run_media_types_partial",
    "Astra.Props.answers_told",
    "Astra.Props.told_iff",
    "Astra.Props.answer_source",
    "Astra.Props.answer_sent",
    "Astra.Props.show_run",
    "Astra.Props.show_text"
   ],
   "note": "False: protobuf answers are documented as application/protobuf, while gin sends application/x-protobuf; IndentedJSON, PureJSON, SecureJSON, AsciiJSON, JSONP, TOML and HTML are not known and give no response. Exact for the status codes: the responses are those of the calls of known methods. Sound for the media types but for protobuf. Complete for String, and for JSON, XML and YAML with basic values, slices of them and pointers (C111 has structs, C90 has JSON values of other types). The media types of gin are a table in Spec/MediaTypes, from its documentation."
  },
  {
   "property": "C115",
   "status": "partial",
   "theorems": [
    "Astra.Props.run_mixed_answers_partial",
    "Astra.Props.which_answer",
    "Astra.Props.mixed_told",
    "Astra.Props.encodes_kind",
    "Astra.Props.admits_kind",
    "Astra.Props.query_admits",
    "Astra.Props.pick_run",
    "Astra.Props.pick_text"
   ],
   "note": "False: the response has the schema of one of the types sent, which admits all of its values and none of the values (empty slices aside) of types of another kind (text, truth value, number, or slice of one of these). Proved for handlers that send, with the code, only strings, booleans, integers and floats, slices of them other than byte slices, and pointers to these; no nil values. which_answer says which of the recorded responses is documented, for one route that is analysed once. Missing: types of the same kind, such as int and float64; nested slices, defined types, maps and structs."
  }
 ]
}
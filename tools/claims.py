c("C01","proved","createRoutes_exact createRoutes_never_denied denied_path_absent","Every route that is kept is not denied by any of the configured rules and every other route is kept, in order.")
c("C02","proved","extractParams_exact segWild_spec extractParams_names","For every string: names, kinds and order, against a per-segment specification.")
c("C03","proved","mapPathParams_segmentwise mapPathParams_id mapPathParams_only_params","For every string and every replacement function.")
c("C04","partial","template_vars_match_partial template_vars_mismatch placeholders_openapiPath template_vars_match_iff","Template variables match the parameters when the path has no catch-all; a catch-all yields {name*} but parameter name (negation proved).")
c("C05","partial","openapiPath_injective_partial openapiPath_collision openapiPath_shared_iff","Injective on gin paths without braces; a collision witness is proved for paths that contain braces.")
c("C06","partial","convertRoute_faithful_partial convertRoute_faithful_iff convertRoute_typed convertRoute_corrupts","False for a parameter named a, al, alp, alph or alpha after another wildcard: exact (if and only if) for names without } and ?, with a witness.")
c("C07","proved","splitHandlerPath_no_dot splitHandlerPath_dot splitHandlerPath_roundtrip splitHandlerPath_no_panic split_function_name","For every handler name; the parts rejoin to the name. The panics of PackageName and FuncName on short names are stated exactly.")
c("C08","proved","replaceRoute_absent replaceRoute_first replaceRoute_keys addRoute_appends","For every list of routes; the first matching entry is replaced, order and length are kept.")
c("C09","partial","ginParseRoutes_correct_partial ginParseRoutes_exact ginParseRoutes_keys ginParseRoutes_duplicate_unparsed ginParseRoutes_duplicate_witness","Holds when (method, path) pairs are distinct. Exact for all tables: of the entries with one path and method the first holds the analysis of the last and the others stay unparsed. With several inputs every route is analysed once per input, in the same slot; C85 says what that does.")
c("C10","partial","addReturnType1_exact addReturnType_keeps_and_adds_partial addReturnType_no_duplicate_partial addReturnType_duplicates addReturnType_sequence addReturnType_duplicate_witness","Entries are kept and every added type is present; duplicates do occur once two different entries are recorded (negation proved).")
c("C11","proved","addComponent_first_wins addComponent_prefix_nodup addComponent_idempotent","For every history of additions.")
c("C22","proved","parseResultToField_faithful","For every result, including nested struct fields.")
c("C24","proved","parseStructTag_binding parseStructTag_unbound parseStructTag_validation parseStructTag_no_zero lookupTag_conventional json_dash_comma_hidden required_by_substring","For every tag string, including malformed ones; escape sequences other than quote, backslash, n, t, r count as errors.")
c("C25","proved","extractBindingTags_exact extractBindingTags_order_independent extractBindingTags_zero_tag_order","The order-independence hypothesis (no zero tags) is discharged by parseStructTag_no_zero.")
c("C26","proved","contentTypes_roundtrip contentType_listed contentTypes_disjoint","For every content type string and every kind.")
c("C32","proved","custom_mapping_wins run_mapping default_mapping custom_mapping_after_first_lookup_ignored builtin_name_ignores_package","For every custom mapping and every history of lookups.")
c("C33","partial","clean_removes_temp_package clean_only_renames clean_idempotent cleanRoute_partial clean_misses_headers","Headers are not cleaned (negation proved).")
c("C34","partial","clean_substitutes_partial clean_only_renames substituted_iff error_field_not_substituted","A struct field of type error is not substituted because only components carry a name (negation proved).")
c("C44","proved","builder_result built_config_valid","For every sequence of setters.")
c("C18","partial","translation_terminates_partial recursive_type_never_translated linked_list_diverges translates_unique embedded_field_panics","Recursive types make the traversal diverge and same-package embedding makes it panic (both proved).")
c("C19","partial","components_closed_partial named_collection_misplaced named_pointer_loses_name","Named pointers and named collections of foreign types are excluded (negations proved).")
c("C20","proved","unexported_fields_without_effect unexported_fields_not_documented unexported_fields_ignored struct_fields_exact struct_entries_exact","For every struct type, at every depth of anonymous structs.")
c("C21","partial","pointers_not_documented_partial pointers_transparent_partial named_pointer_loses_name","Named types defined as pointers lose their name (negation proved).")
c("C23","partial","enum_values_exact enum_literal_exact enum_values_declared_partial enum_component iota_enum_empty negative_enum_missing octal_enum_wrong raw_string_enum_wrong","False for constants that are not plain literals with an explicit type (negations proved). Exact for string, integer and boolean types: the list is right if and only if every constant is written as a literal that shows its value, after the name of the type. Floating point literals are left to strconv.")
c("C55","proved","type_doc type_doc_missing","For every package.")
c("C12","proved","chain_reads_in_order build_success build_complete build_error leftover_steps_shift_arguments","A chain started on an empty builder. The steps of several custom functions share one builder: the last theorem shows how leftover steps shift the arguments.")
c("C13","partial","context_call_documented_partial context_call_exact unsupported_call_adds_nothing data_never_succeeds","Data is in the documented table of methods but can never succeed, as data_never_succeeds shows; all other methods are covered in both directions.")
c("C14","proved","handler_source_order ends_unique context_parameter_found demo_analysed demo_not_followed failing_helper_hides_arguments not_every_call_documented","Helpers and custom functions included (C88). Calls whose function is not known (builtin functions, conversions, function values, methods that get the context) are allowed: the analysis goes no further into them and on behind them. What is in their arguments is not documented; two witnesses.")
c("C15","partial","analysis_never_panics_partial unresolved_status_panics unresolved_status_last_panics unnamed_context_panics","False in general: three witnesses. Proved when every context call has resolvable arguments and context parameters are named.")
c("C16","partial","handler_error_not_returned parseRoute_indep routes_analysed_separately_partial panicking_handler_ends_run lost_handler_ends_run","False for handlers that panic or cannot be located: both witnesses. Custom functions are allowed if they depend on the call and the route only and do not move the route to another handler or path.")
c("C17","partial","helper_traversal_terminates_partial recursive_helper_diverges helper_cycle_never_completes","False for recursive helpers: the analysis of a handler in any circle of helpers never completes (helper_cycle_never_completes). Proved when the helper relation is well-founded and the argument types can be translated.")
c("C27","partial","hidden_field_absent_partial hidden_embedded_field_documented struct_schema_iff_tagged","False for embedded fields: witness. Proved for every other hidden field at any depth.")
c("C28","partial","schema_order_independent_partial embedded_order_matters duplicate_name_order_matters","False for structs with two embedded fields or two fields of one name: witnesses. Proved for all others, at every level.")
c("C30","partial","schema_names_exact schema_names_shared_iff schema_names_distinct_partial separable_of_unique schema_names_collide suffix_packages_collide schema_name_like_kind","False in general: three witnesses, and the names exactly (schema_names_exact). Proved when packages of one name differ at one common depth.")
c("C31","partial","schema_naming_panics_iff schema_naming_ok_iff schema_naming_total_partial schema_naming_total_two schema_naming_panics","False for three packages of one name with different depths: witness, and exactly when (schema_naming_panics_iff).")
c("C45","proved","operation_of_last_route route_has_operation demo_generated unsupported_method_empty_path","For every service; the last of several routes with one method and path counts.")
c("C46","proved","parameters_sorted_complete plain_path_parameter_documented equal_names_order_free","For every arrangement that the sort and the map iteration may choose.")
c("C47","partial","responses_exact_partial any_response_not_documented","False for entries without a schema: witness.")
c("C48","partial","body_params_documented_partial request_body_exact form_fields_overwritten form_array_documented_as_scalar","False when two entries share a content type: witness.")
c("C49","proved","server_and_info","For every config.")
c("C57","proved","query_parameter_style","For every query parameter of every route.")
c("C58","partial","bound_query_spread_partial embedded_query_struct_lost embedded_query_struct_always_lost bound_path_struct_unnamed bound_struct_one_parameter","Holds for the direct properties of the bound struct. False for structs that embed another one, which give no parameter at all, and for structs bound to the path or headers, which become one parameter without name: witnesses, and both in general.")
c("C59","proved","responses_carry_headers","For every route and every recorded status.")
c("C29","partial","refs_resolve_partial emittable_plain emittable_uniform emittable_untagged emittable_one_kind reference_dangles stale_reference_dangles untagged_struct_loses_references","False for structs whose fields are tagged for different kinds and for stale name tables: witnesses. Proved for every other component list and all routes.")
c("C61","partial","property_schema body_schema_partial param_schema slice_item_format_lost array_body_undocumented reserved_type_name","Proved for properties, bodies and parameters; false for the item format of slices in bodies, for Go arrays in bodies and for types named like a reserved word: witnesses.")
c("C62","proved","struct_schema_exact","For structs in which no two fields that are not embedded are shown under one name (see C28).")
c("C63","proved","schemas_exact","For every list of components, and every kind.")
c("C38","partial","cache_round_trip_partial cache_round_trip_same_path_partial not_cache_round_trip yaml_cache_fails load_missing_cache cache_changes_integers","Proved for every service state and every path ending in .json. Other extensions are written but rejected on load, YAML caches cannot be written, integers in enums come back as floating point numbers: witnesses.")
c("C39","partial","cache_crash_partial cache_footprint cache_removes_directory","Proved for every crash and error point, every partial write and removal, and every prior content, for JSON caches. The YAML library is not modelled.")
c("C41","partial","rebind_restores_partial rebind_rejects_input rebind_rejects_output rebind_rejects_azure not_rebind_restores","Azure Functions outputs are always rejected (rebind.go tests ok instead of !ok): negation proved.")
c("C50","partial","json_location_partial openapi_location_partial json_second_generation_elsewhere openapi_second_generation_elsewhere not_location_stable","Holds for the first generation; every later generation goes to workdir/workdir/path when the work dir is absolute: proved.")
c("C56","proved","options_last_wins options_cache options_accumulate options_type_mapping options_commute options_swap options_generator_paths","For every list of options.")
c("C60","proved","json_output_mirrors_service","For services whose maps and numbers have a JSON form.")
c("C35","proved","parse_steps_in_order parse_rejects_missing outputs_in_order parse_log_follows_plan generate_only_after_success teardown_reports_no_error","For every list of inputs and outputs, with arbitrary user functions, and every outside failure.")
c("C36","proved","teardown_changes_only teardown_removes parse_leaves_nothing","Without outside failures; teardown_failure_is_silent shows that a failing removal goes unreported.")
c("C37","proved","setup_changes_only setup_keeps_gitignore setup_dir_changes_only setup_dir_succeeds setup_dir_idempotent","If the check for .gitignore fails for another reason than its absence, the file is overwritten (gitignore_overwritten_on_failure); a .gitignore left empty by a crash is never repaired (gitignore_not_repaired).")
c("C43","partial","temp_package_partial temp_package_copies temp_package_faults_partial renamed_once renamed_never module_line temp_import_path not_only_clause_renamed not_import_path not_copy_with_go_directory no_copy_without_astra","Holds for Go files in which the words package main occur at most once and a single go.mod that begins with its plain module line; negations proved for the other cases. Under outside failures nothing else changes, and a reported success means the same.")
c("C51","partial","tree_lookup tree_nodes tree_node_path tree_node_path_partial not_tree_path","A path that ends in a slash loses the slashes (not_tree_path); everything else holds for all histories.")
c("C52","proved","concurrent_calls_agree no_duplicate_siblings finished_call_is_found calls_finish","Each locked section is one step of the pool.")
c("C53","proved","loaded_once failures_forgotten calls_are_requests","packages.Load is an arbitrary function with state.")
c("C54","partial","get_resolves_partial get_keeps_tree get_again gin_loader_path chosen_unique concurrent_get_doubles_files","Proved for calls one after the other on node paths without trailing slash. Get takes no lock: two overlapping calls populate a node twice (concurrent_get_doubles_files).")
c("C65","proved","load_result firstError_none","For every result of packages.Load.")
c("C66","partial","load_from_own_directory_partial not_load_from_own_directory","Violated: the cache of packages is global and keyed by path only. Proved when all loads use one working directory.")
c("C67","partial","find_import_partial import_nodes node_name not_find_renamed not_find_version not_find_raw","Violated for renamed imports whose path ends in the identifier, paths ending in a version, and raw string paths; proved without these.")
c("C68","proved","doc_found doc_exact doc_stable docs_frozen comment_text_exact","docs_frozen records that asking before the package is loaded fixes the answer; the code always loads first.")
c("C69","proved","add_file","For every history of AddFile.")
c("C42","partial","azure_replace_partial azure_names_distinct azure_succeeds azure_tree azure_retry_partial azure_blocked function_file not_azure_all_or_nothing not_azure_retry not_azure_same_name azure_deletes_project","At every crash and error point the output is untouched, absent, complete, or (only while the old one is being removed) a part of the old one; that last case disappears for atomic removals and is shown reachable otherwise. A ready project always gets the complete output. Retry holds after removing the leftover temporary directory; it fails without (proved with a witness).")
c("C40","partial","cli_equals_parse_partial not_cli_custom_functions not_cli_type_mapping not_cli_azure not_cli_empty_path not_cli_default_flag","For every list of options that the cache carries over (gin inputs, OpenAPI and JSON outputs with a path, config, deny rules, logging, working directory, a cache path with the extension .json whose directory exists) and every file tree, the two runs end in the same way and leave the same tree outside .astra and outside the cache file. Missing, because false (proved with witnesses): custom functions, custom type mappings, Azure outputs, empty paths; and the command must be given the cache path, since it does not look at the option.")
c("C70","partial","status_code_value_partial status_literal_exact name_literal_exact atoi_exact name_value_partial status_code_sound_partial readable_means not_status_octal not_status_other_literals not_name_constant name_constant_text not_name_long not_name_literals not_imported_value","Holds for decimal literals, plain quoted strings, integer constants and variables first in their declaration. Violated (proved): octal literals give another code, other integer literals are not read, every string constant is documented with quotes, raw strings and escapes are not interpreted, constants of other packages are looked up by name among all definitions in map order.")
c("C71","partial","expr_type_partial call_result_type method_result_type result_number_only_for_calls not_type_builtin not_type_shadowed not_type_shadowed_panic not_type_receive not_type_conversion not_type_other","Holds for literals, variables, fields, address and dereference, composite literals, new, make, len and calls. Violated (proved): functions that shadow len, new or make, channel receives; conversions, indexing and operators are not understood.")
c("C72","partial","node_at_position assigned_value_partial declared_value_partial declaration_index not_second_variable not_assigned_later not_declared_without_value","Holds for the first variable of a declaration that is not assigned to again. Violated (proved) for the others.")
c("C73","proved","var_name_parts var_name_none","For every expression.")
c("C74","partial","helper_found_partial passes_context_iff not_helper_method not_helper_value","Functions called by name are found with their file. Methods and function values that get the context are not found, and the analysis of the handler fails (proved).")
c("C75","proved","source_call_documented source_call_contributes context_method_seen","For arguments of the kinds covered by C70 and C71.")
c("C64","proved","parse_changes_only new_service_changes_only options_shape","The Azure output is entitled to everything at and below its directory; see C42 for what that means if the directory is the project itself.")
c("C76","proved","openapi_file_of_run json_file_of_run run_documents_router","The OpenAPI output is the first of its kind, and its place is not one of those of the later outputs, of .astra or of the cache. What is in the text: C80 for JSON, C86 for YAML. Several routers are each analysed once per router (C85). Routers with equal paths and methods: see C09.")
c("C77","partial","run_succeeds_partial run_success_needs run_keeps_order","Gin inputs, any number; the built-in outputs (JSON, OpenAPI, Azure Functions), any number; each Azure directory apart from .astra, from the other places and from the Go and module files, and no leftover temporary directory; the cache, if any, at its default place or in a JSON file of its own that is not in .astra and not at the place of an output. The packages of the components must be ones that can be named; this, the configuration and the paths of the files are necessary too (run_success_needs).")
c("C78","partial","run_after_attempts_partial attempts_keep_order","As C77. For a service with Azure outputs the user must remove .astra/azure if an attempt has left it there: this is a true exception, since what an interrupted run leaves stops the next one (azure_blocked, C42).")
c("C79","partial","same_outputs_partial","As C77. The analysis of the handlers, which reads the Go files, is a parameter.")
c("C80","proved","openapi_file_shows_document run_writes_document shown_operation","JSON files; the text of YAML files is a parameter. Enum values found by the analysis are numbers as Go prints them.")
c("C81","partial","same_document_partial same_failure_partial same_run_partial equal_names_documents_differ embedded_order_matters duplicate_name_order_matters","False in general: two parameters of one name in one operation, two embedded structs, two fields of one name make the document depend on the runtime (the last three theorems). Proved for components that are settled (distinct names, no dots in names, tidy structs) and operations with distinct parameter names. For whole runs: gin inputs, built-in outputs; the maps of the components are iterated as stored.")
c("C82","partial","document_standard_partial no_responses_not_standard catchAll_not_standard query_twice_not_standard bound_uri_not_standard same_handler_not_standard nested_slice_not_standard letters_not_standard","False in general; the last seven theorems are services whose document the standard rejects. Proved in full for orderly services: routes that return something, no catch-all parameters, distinct parameters, no struct bound to the path, handlers registered once, no slices of slices, ASCII names, and the conditions of C29. The standard is stated on the document as a value; C80 relates it to the JSON file.")
c("C83","proved","run_documents_handler","The handler is a declared function or a function literal, with no other function at its line. Structs that are bound to the query or a header are the subject of C58 and C82; what stands under a status code or content type is the subject of C47 and C48. Custom functions are allowed (C88) if they depend on the call and the route only, do not move the route, and read strings by name.")
c("C84","proved","openapiPath_iff openapiPath_shared_iff template_vars_match_iff","Paths without braces of their own for the last one.")
c("C85","partial","second_router_changes_first parameters_repeat","False: a second router, even an empty one, makes every query parameter and header be listed twice. Exact: with n routers, n times as often as the handler reads it (handlers without bound structs; those are covered by C83, which holds for any number of routers).")
c("C86","partial","run_writes_yaml yaml_file_shows_document forms_agree_partial not_forms_agree not_forms_agree_components","False for documents in which a parameter, header or body has the empty schema (type any) or without components: there YAML leaves out what JSON shows. Exact: the forms have the same content if and only if nothing of that kind is empty. How the YAML library prints a tree of values is a parameter.")
c("C88","partial","custom_functions_take_precedence_partial first_custom_function_decides custom_functions_in_option_order custom_error_lost custom_error_reported returned_route_lost builder_func_takes builder_func_leaves builder_func_stays not_custom_error_reported not_returned_route_used","Precedence and order hold. False for errors (lost unless the call is the last node of the body) and for routes of their own (a returned route that is not the builder's, and all that follows it in the function, never reaches the document): both exact, with witnesses.")
c("C89","partial","run_describes_types_partial document_describes_core described_admits item_documentable item_run_types dash_field_missing unexported_base_missing tagged_base_flattened named_slice_loses_reference untagged_struct_loses_references nested_types_lost","For the types of a set that is documentable (Spec/JsonDoc.lean): own names and definitions, tags for JSON at most, embedded fields that are exported, untagged and of struct types and hide no field of another type, fields of primitive, defined and interface types and slices, arrays, maps and pointers of these (of slices, maps and structs without a name inside of these only the kind is described). The entry of a type that is used with plainly declared constants only may list them. False in general: the tag -, hides a field, an embedded struct that is unexported is left out and one with a json tag is not a member, a named slice or an untagged struct loses the references to structs that are tagged for JSON, slices of slices and the like lose the inner types (witnesses), and see C19, C20, C29, C30.")
c("C90","partial","run_admits_sent_json_partial sent_documented described_admits item_run byte_rejected bytes_rejected nil_rejected undeclared_value_rejected quoted_field_rejected hidden_field_rejected marshaled_rejected array_not_documented","For documentable types (C89), values without nil, and handlers that send one type with a code (C48). False in general, with witnesses: bytes, nil values, values that are no declared constants, the option string, fields that hide fields of embedded structs, MarshalJSON, Go arrays.")
c("C91","partial","run_admits_bound_json_partial bound_documented described_admits item_run_bound byte_rejected bytes_rejected nil_rejected undeclared_value_rejected quoted_field_rejected hidden_field_rejected marshaled_rejected","As C90, for handlers that read JSON into one type (C47).")
c("C92","proved","written_is_json json_output_mirrors_service openapi_file_shows_document function_file cache_file_is_json json_is_decoded decoded_is_json json_unambiguous","The grammar is Spec/JsonText.lean. Values whose numbers are JSON numbers; escapes of surrogates in pairs are not described (none are written).")
c("C93","partial","load_reads_json_partial load_failure_changes_nothing load_changes_only not_load_reads_json","A failed load changes nothing, and a file that does not begin with a JSON object or null is refused. Violated (proved): what follows the first value is not looked at, and any object is accepted, by which the service loses its inputs, outputs, routes and configuration.")
c("C94","partial","shared_route_documented_blank shared_route_witness demo_shared_route ginParseRoutes_exact run_documents_handler","False. Exact: whenever the run succeeds, the document has an operation without anything in it at the method and path of the last of several equal entries, wherever they are among the entries of the routers. When all entries differ, the document describes the handler (C83).")
c("C95","partial","run_custom_types_partial run_mapping builtin_mapping_without_effect builtin_options_without_effect mapping_witness demo_custom_types","Proved for the named types of the components, in whole runs. False for builtin types: exact, entries for accepted names never change the document (unless a type or a field has such a name); witness.")
c("C87","partial","second_parse_documents_blank known_routes_documented_blank second_parse_lists_twice not_parse_idempotent demo_second_parse","False. Exact: whenever the second call succeeds, its OpenAPI document has an operation without anything in it for every entry of the routers, and its JSON output lists every entry a second time, as it was before the analysis. (With an absolute work dir the second call writes elsewhere, or fails: C50.) Built-in inputs and outputs.")
c("C96","partial","run_type_comments run_sent_types_commented_partial type_comment descriptions_of_components field_comments_without_effect comment_witness item_run_comments item_run_described run_documents_handler","Proved for types in whole runs: every entry of components.schemas is described by the comment of the type it belongs to, and the types that handlers send and read as JSON have such entries; the comments of handlers are C83. False for struct fields: exact, their comments never have an effect on the document, and no schema but the entries themselves has a description; witness.")
c("C97","partial","run_required_partial operation_asks required_tags_without_effect required_witness purchase_run","Proved in whole runs, exact: each operation of the document asks for the `:name` segments of its path and for nothing else, and no response promises a header. False for the rest: no query parameter, header, body or property is ever marked, and what the analysis has recorded of binding:\"required\" and validate:\"required\" has no effect on the document (exact); witness.")
c("C98","proved","load_settings_only load_empties_missing decConfig_same decRoute_same decField_same foldKey_eq_iff","For JSON caches and every outside failure. The same for the settings inside the configuration, the routes and the described types.")
c("C99","partial","run_addresses_partial address_right_iff documented_address builder_base_clean_iff builder_default_address address_witness base_witness","Exact: right for all values if and only if the base path is empty or begins with a slash, does not end in one and has no two in a row, and the path has no catch-all (paths without braces). False by default: the builder sets the base path to /, so that every address has two slashes after the port (builder_default_address); witnesses.")
c("C100","proved","run_query_calls_understood run_query_understood parameter_understood read_back query_parameter_style comma_separated_misread search_run search_text","For parameters that are read by name; a table has distinct keys, which are not empty and have no closing bracket, as gin cannot read others. It holds only because the file leaves out `explode: false` (comma_separated_misread). Structs bound to the query are the subject of C58, forms of C48.")
c("C101","partial","run_documents_text_partial text_analysed written_handler_view every_text_read shop_run shop_text shop_written not_every_text_call_documented not_text_after_helper_of_other_package","Composition of C70-C75 (expressions), C14 (handlers) and C83 (the run), without custom functions. Missing: context calls in the arguments of a conversion, a builtin function or a function value, and everything after a helper of another file whose analysis fails; both are lost without an error, see the witnesses. Arguments of other kinds are the subject of C70 and C71.")
c("C102","partial","formats_described_partial shared_type_describes_last_format named_slice_describes_last_format json_author_schema","Violated for types with the same tags for several formats that are made of types with differing ones: one schema, that of the last format (witnesses; examples/with-multi-content-types/openapi.generated.yaml shows it, and multi_run_writes_recorded reproduces that file). Proved for types with differing tags, and for types whose parts are encoded alike, without inline structs.")
c("C103","proved","recorded_file_leads_back recorded_file_name handler_file_opened routes_created_iff","For absolute source paths; the name is kept unless the process works in a directory inside of the file, which no file system allows. Relative source paths (-trimpath) make the run fail, exactly then (routes_created_iff). The names of the files of a package are distinct.")
c("C104","partial","types_described_separately_partial one_component_per_name types_of_one_name_described_iff first_of_a_name_stays types_of_one_name_referred_alike run_describes_one_type_per_name second_instance_rejected run_merges_instances","False for types of one package and name (instances of a generic type, types declared in functions): they share one schema, that of the first one that was analysed, and the others are not described. Exact: both are described if and only if one component describes both. Proved in full when no two types have the same package and name.")
c("C105","partial","other_handlers_not_documented method_handlers_witness demo_method_handler method_value_ends_creation run_documents_handler","False for methods, literals in methods or in package variables and instances of generic functions: if the run succeeds, the operation has exactly the parameters of the path and nothing about the handler. Declared functions and literals in them are documented (C83). Which names and positions the Go runtime reports for functions is taken from Go, not from the code.")
c("C106","partial","run_documents_line one_line_handlers_merged line_view_of_handler run_documents_handler","False: handlers are found by line. Exact (run_documents_line): the operation shows what all function literals at the line do, in the declared function that contains the handler, or, if that function begins at the line, what this function does, and nothing else. True of handlers with the line for themselves (C83).")
c("C107","partial","run_form_calls_understood_partial run_form_exact documented_table_is_empty documented_list_has_one list_not_understood table_not_understood upload_run tag_run_misdescribed form_text","False: of the fields of a form the document tells only the last of those read as text, list or table and the last file, and never both in one form; a list or table is documented as a text and never understood. Exact: run_form_exact. True of handlers whose calls read one text, one file or one of each (run_form_calls_understood_partial). How the standard fills in forms and how gin reads them are small models of their documentation, in Spec/Forms.")
c("C108","partial","run_headers_exact_partial header_understood_iff header_shape login_run login_text","False for request headers named Accept, Content-Type and Authorization, whose parameters the standard says to ignore, for the fields that net/http takes out of the header (Host, Transfer-Encoding, Trailer), and for the response header Content-Type. Exact: run_headers_exact_partial is an equivalence over all names and values. Headers bound to a struct are the subject of C58. How the standard writes headers and how gin reads them are small models of their documentation, in Spec/Headers.")
c("C109","partial","run_path_exact_partial filled_path_read match_values path_told path_run path_text","False for paths with a catch-all: the variable of the template is {name*}, the parameter is called name, so no client can fill in the path. Exact: run_path_exact_partial is an equivalence, for paths that gin accepts and that have no braces of their own. Which of several patterns of a router takes a request is not part of it. How gin matches a request is a small model of its documentation, in Spec/PathParams.")
c("C110","partial","run_bound_query_understood_partial run_bound_headers_untold bound_struct_parameters bound_field_understood kind_struct_schema kind_shown_iff mixed_struct_lost embedded_query_struct_always_lost seek_run seek_run_headers seek_text","False: a struct bound to the header gives one parameter without a name, so a client is never told of any of its fields (run_bound_headers_untold); a struct with a field that has a tag for another binding but none for forms, or with an embedded struct, gives no query parameters at all, though gin fills it. True of structs whose exported fields have form tags or no tags, with basic types, slices of them and pointers: each field is a parameter under gin's name, each value is understood, and there are no other query parameters. Missing: defined types of fields, maps, slices of bytes. How the standard writes a query and how gin fills a struct are small models of their documentation, in Spec/Query and Spec/BoundQuery.")
c("C111","partial","run_body_names_partial body_told member_named kind_entry yaml_unnamed car_run car_text","False for YAML: astra names a field without a yaml tag by its Go name, gopkg.in/yaml.v3 by its lower-case form, so the key in the body is never a property of the schema. False for XML attributes, character data and paths of elements, which the schema has as elements. True of JSON, of XML elements and of YAML fields named by tags, for structs whose exported fields have a tag for the format or no tags, with basic types, slices of them and pointers; the schemas have no other properties. Missing: defined types of fields, embedded structs, maps. How the encoders name fields is a small model of their documentation, in Spec/BodyNames.")
c("C112","partial","run_body_names_partial run_missed_bodies_untold missed_no_schema missed_entry never_named bill_run bill_text","False as soon as one exported field has tags for other bindings and none for the format: no schema is made for it, so the body has no schema, or a reference to one that does not exist or was made for another binding (run_missed_bodies_untold, for all such structs with simple fields). True of the others (run_body_names_partial). Missing: defined types of fields, embedded structs, maps.")
c("C113","partial","run_function_requests_partial azure_request_exact azure_request_values azure_request_only azure_route_exact azure_ignores_case cloud_run cloud_text","False: path parameters are strings and get the constraint alpha, so a value with a digit, a hyphen or a dot never reaches the function, and neither does a catch-all of several segments. Exact: of the requests of the route, the function is called for those with letters only (azure_request_exact), so for all of them if and only if the path has no parameters (azure_route_exact); it is called for no others but for letter case and a slash at the end, without a catch-all (azure_request_only). Composed with the files of a run of C77. Missing: paths with braces and the parameter names of C06. How Azure matches a route is a small model, in Spec/AzureRequests.")
c("C114","partial","run_media_types_partial answers_told told_iff answer_source answer_sent show_run show_text","False: protobuf answers are documented as application/protobuf, while gin sends application/x-protobuf; IndentedJSON, PureJSON, SecureJSON, AsciiJSON, JSONP, TOML and HTML are not known and give no response. Exact for the status codes: the responses are those of the calls of known methods. Sound for the media types but for protobuf. Complete for String, and for JSON, XML and YAML with basic values, slices of them and pointers (C111 has structs, C90 has JSON values of other types). The media types of gin are a table in Spec/MediaTypes, from its documentation.")
c("C115","partial","run_mixed_answers_partial which_answer mixed_told encodes_kind admits_kind query_admits pick_run pick_text","False: the response has the schema of one of the types sent, which admits all of its values and none of the values (empty slices aside) of types of another kind (text, truth value, number, or slice of one of these). Proved for handlers that send, with the code, only strings, booleans, integers and floats, slices of them other than byte slices, and pointers to these; no nil values. which_answer says which of the recorded responses is documented, for one route that is analysed once. Missing: types of the same kind, such as int and float64; nested slices, defined types, maps and structs.")

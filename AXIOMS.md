# Axioms of the theorems of MANIFEST.json

Written by tools/axioms.py from `#print axioms`. The only axioms that occur are the three
of Lean itself: `propext`, `Classical.choice`, `Quot.sound`.

## no axioms (11)

* `Astra.Props.addReturnType_duplicate_witness`
* `Astra.Props.addRoute_appends`
* `Astra.Props.array_body_undocumented`
* `Astra.Props.custom_mapping_after_first_lookup_ignored`
* `Astra.Props.docs_frozen`
* `Astra.Props.emittable_one_kind`
* `Astra.Props.emittable_uniform`
* `Astra.Props.extractBindingTags_zero_tag_order`
* `Astra.Props.hidden_embedded_field_documented`
* `Astra.Props.leftover_steps_shift_arguments`
* `Astra.Props.openapiPath_collision`

## propext (112)

* `Astra.Props.address_witness`
* `Astra.Props.admits_kind`
* `Astra.Props.answer_sent`
* `Astra.Props.answer_source`
* `Astra.Props.atoi_exact`
* `Astra.Props.azure_deletes_project`
* `Astra.Props.azure_ignores_case`
* `Astra.Props.builder_func_leaves`
* `Astra.Props.builder_func_stays`
* `Astra.Props.builder_result`
* `Astra.Props.built_config_valid`
* `Astra.Props.cache_changes_integers`
* `Astra.Props.cache_removes_directory`
* `Astra.Props.chosen_unique`
* `Astra.Props.clean_misses_headers`
* `Astra.Props.clean_only_renames`
* `Astra.Props.clean_substitutes_partial`
* `Astra.Props.comma_separated_misread`
* `Astra.Props.concurrent_get_doubles_files`
* `Astra.Props.contentType_listed`
* `Astra.Props.contentTypes_disjoint`
* `Astra.Props.contentTypes_roundtrip`
* `Astra.Props.context_method_seen`
* `Astra.Props.convertRoute_corrupts`
* `Astra.Props.doc_exact`
* `Astra.Props.doc_found`
* `Astra.Props.doc_stable`
* `Astra.Props.documented_address`
* `Astra.Props.embedded_field_panics`
* `Astra.Props.encodes_kind`
* `Astra.Props.error_field_not_substituted`
* `Astra.Props.failing_helper_hides_arguments`
* `Astra.Props.first_custom_function_decides`
* `Astra.Props.ginParseRoutes_duplicate_witness`
* `Astra.Props.ginParseRoutes_keys`
* `Astra.Props.gin_loader_path`
* `Astra.Props.hidden_field_absent_partial`
* `Astra.Props.iota_enum_empty`
* `Astra.Props.json_dash_comma_hidden`
* `Astra.Props.line_view_of_handler`
* `Astra.Props.linked_list_diverges`
* `Astra.Props.list_not_understood`
* `Astra.Props.load_changes_only`
* `Astra.Props.load_failure_changes_nothing`
* `Astra.Props.load_missing_cache`
* `Astra.Props.lost_handler_ends_run`
* `Astra.Props.match_values`
* `Astra.Props.named_collection_misplaced`
* `Astra.Props.named_pointer_loses_name`
* `Astra.Props.negative_enum_missing`
* `Astra.Props.no_copy_without_astra`
* `Astra.Props.node_name`
* `Astra.Props.not_assigned_later`
* `Astra.Props.not_azure_all_or_nothing`
* `Astra.Props.not_azure_retry`
* `Astra.Props.not_azure_same_name`
* `Astra.Props.not_copy_with_go_directory`
* `Astra.Props.not_every_text_call_documented`
* `Astra.Props.not_find_raw`
* `Astra.Props.not_find_renamed`
* `Astra.Props.not_find_version`
* `Astra.Props.not_helper_method`
* `Astra.Props.not_helper_value`
* `Astra.Props.not_import_path`
* `Astra.Props.not_imported_value`
* `Astra.Props.not_load_from_own_directory`
* `Astra.Props.not_location_stable`
* `Astra.Props.not_name_literals`
* `Astra.Props.not_name_long`
* `Astra.Props.not_second_variable`
* `Astra.Props.not_status_octal`
* `Astra.Props.not_status_other_literals`
* `Astra.Props.not_tree_path`
* `Astra.Props.not_type_builtin`
* `Astra.Props.not_type_conversion`
* `Astra.Props.not_type_other`
* `Astra.Props.not_type_receive`
* `Astra.Props.not_type_shadowed`
* `Astra.Props.not_type_shadowed_panic`
* `Astra.Props.octal_enum_wrong`
* `Astra.Props.options_cache`
* `Astra.Props.panicking_handler_ends_run`
* `Astra.Props.parseStructTag_no_zero`
* `Astra.Props.raw_string_enum_wrong`
* `Astra.Props.rebind_rejects_input`
* `Astra.Props.replaceRoute_absent`
* `Astra.Props.replaceRoute_first`
* `Astra.Props.replaceRoute_keys`
* `Astra.Props.required_by_substring`
* `Astra.Props.result_number_only_for_calls`
* `Astra.Props.schema_name_like_kind`
* `Astra.Props.schema_names_collide`
* `Astra.Props.segWild_spec`
* `Astra.Props.separable_of_unique`
* `Astra.Props.shown_operation`
* `Astra.Props.splitHandlerPath_dot`
* `Astra.Props.splitHandlerPath_no_dot`
* `Astra.Props.splitHandlerPath_no_panic`
* `Astra.Props.splitHandlerPath_roundtrip`
* `Astra.Props.substituted_iff`
* `Astra.Props.suffix_packages_collide`
* `Astra.Props.table_not_understood`
* `Astra.Props.teardown_reports_no_error`
* `Astra.Props.temp_import_path`
* `Astra.Props.template_vars_mismatch`
* `Astra.Props.translates_unique`
* `Astra.Props.types_of_one_name_referred_alike`
* `Astra.Props.unexported_fields_ignored`
* `Astra.Props.unnamed_context_panics`
* `Astra.Props.unresolved_status_last_panics`
* `Astra.Props.unresolved_status_panics`
* `Astra.Props.unsupported_call_adds_nothing`

## Quot.sound, propext (220)

* `Astra.Props.addComponent_first_wins`
* `Astra.Props.addComponent_idempotent`
* `Astra.Props.addComponent_prefix_nodup`
* `Astra.Props.addReturnType1_exact`
* `Astra.Props.addReturnType_duplicates`
* `Astra.Props.addReturnType_keeps_and_adds_partial`
* `Astra.Props.addReturnType_no_duplicate_partial`
* `Astra.Props.addReturnType_sequence`
* `Astra.Props.add_file`
* `Astra.Props.any_response_not_documented`
* `Astra.Props.array_not_documented`
* `Astra.Props.assigned_value_partial`
* `Astra.Props.azure_blocked`
* `Astra.Props.azure_request_exact`
* `Astra.Props.azure_request_values`
* `Astra.Props.azure_route_exact`
* `Astra.Props.azure_tree`
* `Astra.Props.base_witness`
* `Astra.Props.bill_text`
* `Astra.Props.body_params_documented_partial`
* `Astra.Props.body_schema_partial`
* `Astra.Props.bound_documented`
* `Astra.Props.bound_path_struct_unnamed`
* `Astra.Props.bound_query_spread_partial`
* `Astra.Props.bound_struct_one_parameter`
* `Astra.Props.bound_uri_not_standard`
* `Astra.Props.builder_base_clean_iff`
* `Astra.Props.builder_default_address`
* `Astra.Props.builtin_mapping_without_effect`
* `Astra.Props.builtin_name_ignores_package`
* `Astra.Props.builtin_options_without_effect`
* `Astra.Props.byte_rejected`
* `Astra.Props.bytes_rejected`
* `Astra.Props.cache_footprint`
* `Astra.Props.call_result_type`
* `Astra.Props.calls_are_requests`
* `Astra.Props.calls_finish`
* `Astra.Props.car_text`
* `Astra.Props.catchAll_not_standard`
* `Astra.Props.cleanRoute_partial`
* `Astra.Props.clean_removes_temp_package`
* `Astra.Props.cloud_text`
* `Astra.Props.comment_witness`
* `Astra.Props.components_closed_partial`
* `Astra.Props.context_parameter_found`
* `Astra.Props.convertRoute_faithful_partial`
* `Astra.Props.convertRoute_typed`
* `Astra.Props.createRoutes_never_denied`
* `Astra.Props.custom_functions_in_option_order`
* `Astra.Props.custom_mapping_wins`
* `Astra.Props.dash_field_missing`
* `Astra.Props.declared_value_partial`
* `Astra.Props.default_mapping`
* `Astra.Props.demo_analysed`
* `Astra.Props.demo_generated`
* `Astra.Props.demo_not_followed`
* `Astra.Props.denied_path_absent`
* `Astra.Props.described_admits`
* `Astra.Props.descriptions_of_components`
* `Astra.Props.documented_table_is_empty`
* `Astra.Props.duplicate_name_order_matters`
* `Astra.Props.embedded_order_matters`
* `Astra.Props.embedded_query_struct_always_lost`
* `Astra.Props.embedded_query_struct_lost`
* `Astra.Props.emittable_plain`
* `Astra.Props.emittable_untagged`
* `Astra.Props.ends_unique`
* `Astra.Props.enum_component`
* `Astra.Props.equal_names_documents_differ`
* `Astra.Props.equal_names_order_free`
* `Astra.Props.expr_type_partial`
* `Astra.Props.extractBindingTags_exact`
* `Astra.Props.extractParams_exact`
* `Astra.Props.extractParams_names`
* `Astra.Props.failures_forgotten`
* `Astra.Props.field_comments_without_effect`
* `Astra.Props.find_import_partial`
* `Astra.Props.firstError_none`
* `Astra.Props.first_of_a_name_stays`
* `Astra.Props.form_array_documented_as_scalar`
* `Astra.Props.form_fields_overwritten`
* `Astra.Props.form_text`
* `Astra.Props.ginParseRoutes_correct_partial`
* `Astra.Props.ginParseRoutes_duplicate_unparsed`
* `Astra.Props.handler_error_not_returned`
* `Astra.Props.handler_file_opened`
* `Astra.Props.header_shape`
* `Astra.Props.helper_cycle_never_completes`
* `Astra.Props.helper_found_partial`
* `Astra.Props.import_nodes`
* `Astra.Props.json_location_partial`
* `Astra.Props.letters_not_standard`
* `Astra.Props.load_result`
* `Astra.Props.loaded_once`
* `Astra.Props.login_text`
* `Astra.Props.mapPathParams_id`
* `Astra.Props.mapPathParams_only_params`
* `Astra.Props.mapPathParams_segmentwise`
* `Astra.Props.mapping_witness`
* `Astra.Props.marshaled_rejected`
* `Astra.Props.method_handlers_witness`
* `Astra.Props.method_result_type`
* `Astra.Props.module_line`
* `Astra.Props.name_constant_text`
* `Astra.Props.name_literal_exact`
* `Astra.Props.name_value_partial`
* `Astra.Props.named_slice_describes_last_format`
* `Astra.Props.named_slice_loses_reference`
* `Astra.Props.nested_slice_not_standard`
* `Astra.Props.nested_types_lost`
* `Astra.Props.nil_rejected`
* `Astra.Props.no_responses_not_standard`
* `Astra.Props.node_at_position`
* `Astra.Props.not_cache_round_trip`
* `Astra.Props.not_cli_azure`
* `Astra.Props.not_cli_custom_functions`
* `Astra.Props.not_cli_default_flag`
* `Astra.Props.not_cli_empty_path`
* `Astra.Props.not_cli_type_mapping`
* `Astra.Props.not_declared_without_value`
* `Astra.Props.not_every_call_documented`
* `Astra.Props.not_forms_agree_components`
* `Astra.Props.not_name_constant`
* `Astra.Props.not_only_clause_renamed`
* `Astra.Props.not_parse_idempotent`
* `Astra.Props.not_returned_route_used`
* `Astra.Props.not_text_after_helper_of_other_package`
* `Astra.Props.one_component_per_name`
* `Astra.Props.openapiPath_iff`
* `Astra.Props.openapiPath_injective_partial`
* `Astra.Props.openapiPath_shared_iff`
* `Astra.Props.openapi_location_partial`
* `Astra.Props.operation_asks`
* `Astra.Props.operation_of_last_route`
* `Astra.Props.options_accumulate`
* `Astra.Props.options_commute`
* `Astra.Props.options_generator_paths`
* `Astra.Props.options_shape`
* `Astra.Props.options_swap`
* `Astra.Props.options_type_mapping`
* `Astra.Props.outputs_in_order`
* `Astra.Props.param_schema`
* `Astra.Props.parameters_sorted_complete`
* `Astra.Props.parseResultToField_faithful`
* `Astra.Props.parseRoute_indep`
* `Astra.Props.parseStructTag_binding`
* `Astra.Props.parseStructTag_unbound`
* `Astra.Props.parseStructTag_validation`
* `Astra.Props.parse_rejects_missing`
* `Astra.Props.parse_steps_in_order`
* `Astra.Props.passes_context_iff`
* `Astra.Props.path_text`
* `Astra.Props.path_told`
* `Astra.Props.pick_text`
* `Astra.Props.placeholders_openapiPath`
* `Astra.Props.plain_path_parameter_documented`
* `Astra.Props.pointers_not_documented_partial`
* `Astra.Props.pointers_transparent_partial`
* `Astra.Props.property_schema`
* `Astra.Props.query_admits`
* `Astra.Props.query_parameter_style`
* `Astra.Props.query_twice_not_standard`
* `Astra.Props.rebind_restores_partial`
* `Astra.Props.recorded_file_name`
* `Astra.Props.recursive_helper_diverges`
* `Astra.Props.recursive_type_never_translated`
* `Astra.Props.reference_dangles`
* `Astra.Props.renamed_never`
* `Astra.Props.renamed_once`
* `Astra.Props.request_body_exact`
* `Astra.Props.required_tags_without_effect`
* `Astra.Props.required_witness`
* `Astra.Props.reserved_type_name`
* `Astra.Props.responses_carry_headers`
* `Astra.Props.route_has_operation`
* `Astra.Props.routes_analysed_separately_partial`
* `Astra.Props.run_mapping`
* `Astra.Props.run_merges_instances`
* `Astra.Props.same_handler_not_standard`
* `Astra.Props.schema_naming_panics`
* `Astra.Props.schema_naming_total_partial`
* `Astra.Props.schema_naming_total_two`
* `Astra.Props.schema_order_independent_partial`
* `Astra.Props.schemas_exact`
* `Astra.Props.search_text`
* `Astra.Props.second_router_changes_first`
* `Astra.Props.seek_text`
* `Astra.Props.server_and_info`
* `Astra.Props.setup_keeps_gitignore`
* `Astra.Props.shared_route_witness`
* `Astra.Props.shop_text`
* `Astra.Props.shop_written`
* `Astra.Props.show_text`
* `Astra.Props.slice_item_format_lost`
* `Astra.Props.source_call_contributes`
* `Astra.Props.split_function_name`
* `Astra.Props.stale_reference_dangles`
* `Astra.Props.struct_entries_exact`
* `Astra.Props.struct_fields_exact`
* `Astra.Props.struct_schema_exact`
* `Astra.Props.struct_schema_iff_tagged`
* `Astra.Props.teardown_changes_only`
* `Astra.Props.template_vars_match_iff`
* `Astra.Props.template_vars_match_partial`
* `Astra.Props.text_analysed`
* `Astra.Props.translation_terminates_partial`
* `Astra.Props.type_doc`
* `Astra.Props.type_doc_missing`
* `Astra.Props.types_described_separately_partial`
* `Astra.Props.types_of_one_name_described_iff`
* `Astra.Props.undeclared_value_rejected`
* `Astra.Props.unexported_base_missing`
* `Astra.Props.unexported_fields_not_documented`
* `Astra.Props.unexported_fields_without_effect`
* `Astra.Props.unsupported_method_empty_path`
* `Astra.Props.untagged_struct_loses_references`
* `Astra.Props.var_name_none`
* `Astra.Props.var_name_parts`
* `Astra.Props.written_handler_view`
* `Astra.Props.yaml_cache_fails`

## Classical.choice, Quot.sound, propext (204)

* `Astra.Props.address_right_iff`
* `Astra.Props.analysis_never_panics_partial`
* `Astra.Props.answers_told`
* `Astra.Props.attempts_keep_order`
* `Astra.Props.azure_names_distinct`
* `Astra.Props.azure_replace_partial`
* `Astra.Props.azure_request_only`
* `Astra.Props.azure_retry_partial`
* `Astra.Props.azure_succeeds`
* `Astra.Props.bill_run`
* `Astra.Props.body_told`
* `Astra.Props.bound_field_understood`
* `Astra.Props.bound_struct_parameters`
* `Astra.Props.build_complete`
* `Astra.Props.build_error`
* `Astra.Props.build_success`
* `Astra.Props.builder_func_takes`
* `Astra.Props.cache_crash_partial`
* `Astra.Props.cache_file_is_json`
* `Astra.Props.cache_round_trip_partial`
* `Astra.Props.cache_round_trip_same_path_partial`
* `Astra.Props.car_run`
* `Astra.Props.chain_reads_in_order`
* `Astra.Props.clean_idempotent`
* `Astra.Props.cli_equals_parse_partial`
* `Astra.Props.cloud_run`
* `Astra.Props.comment_text_exact`
* `Astra.Props.concurrent_calls_agree`
* `Astra.Props.context_call_documented_partial`
* `Astra.Props.context_call_exact`
* `Astra.Props.convertRoute_faithful_iff`
* `Astra.Props.createRoutes_exact`
* `Astra.Props.custom_error_lost`
* `Astra.Props.custom_error_reported`
* `Astra.Props.custom_functions_take_precedence_partial`
* `Astra.Props.data_never_succeeds`
* `Astra.Props.decConfig_same`
* `Astra.Props.decField_same`
* `Astra.Props.decRoute_same`
* `Astra.Props.declaration_index`
* `Astra.Props.decoded_is_json`
* `Astra.Props.demo_custom_types`
* `Astra.Props.demo_method_handler`
* `Astra.Props.demo_second_parse`
* `Astra.Props.demo_shared_route`
* `Astra.Props.document_describes_core`
* `Astra.Props.document_standard_partial`
* `Astra.Props.documented_list_has_one`
* `Astra.Props.enum_literal_exact`
* `Astra.Props.enum_values_declared_partial`
* `Astra.Props.enum_values_exact`
* `Astra.Props.every_text_read`
* `Astra.Props.extractBindingTags_order_independent`
* `Astra.Props.filled_path_read`
* `Astra.Props.finished_call_is_found`
* `Astra.Props.foldKey_eq_iff`
* `Astra.Props.formats_described_partial`
* `Astra.Props.forms_agree_partial`
* `Astra.Props.function_file`
* `Astra.Props.generate_only_after_success`
* `Astra.Props.get_again`
* `Astra.Props.get_keeps_tree`
* `Astra.Props.get_resolves_partial`
* `Astra.Props.ginParseRoutes_exact`
* `Astra.Props.handler_source_order`
* `Astra.Props.header_understood_iff`
* `Astra.Props.helper_traversal_terminates_partial`
* `Astra.Props.hidden_field_rejected`
* `Astra.Props.item_documentable`
* `Astra.Props.item_run`
* `Astra.Props.item_run_bound`
* `Astra.Props.item_run_comments`
* `Astra.Props.item_run_described`
* `Astra.Props.item_run_types`
* `Astra.Props.json_author_schema`
* `Astra.Props.json_file_of_run`
* `Astra.Props.json_is_decoded`
* `Astra.Props.json_output_mirrors_service`
* `Astra.Props.json_second_generation_elsewhere`
* `Astra.Props.json_unambiguous`
* `Astra.Props.kind_entry`
* `Astra.Props.kind_shown_iff`
* `Astra.Props.kind_struct_schema`
* `Astra.Props.known_routes_documented_blank`
* `Astra.Props.load_empties_missing`
* `Astra.Props.load_from_own_directory_partial`
* `Astra.Props.load_reads_json_partial`
* `Astra.Props.load_settings_only`
* `Astra.Props.login_run`
* `Astra.Props.lookupTag_conventional`
* `Astra.Props.member_named`
* `Astra.Props.method_value_ends_creation`
* `Astra.Props.missed_entry`
* `Astra.Props.missed_no_schema`
* `Astra.Props.mixed_struct_lost`
* `Astra.Props.mixed_told`
* `Astra.Props.never_named`
* `Astra.Props.new_service_changes_only`
* `Astra.Props.no_duplicate_siblings`
* `Astra.Props.not_custom_error_reported`
* `Astra.Props.not_forms_agree`
* `Astra.Props.not_load_reads_json`
* `Astra.Props.not_rebind_restores`
* `Astra.Props.one_line_handlers_merged`
* `Astra.Props.openapi_file_of_run`
* `Astra.Props.openapi_file_shows_document`
* `Astra.Props.openapi_second_generation_elsewhere`
* `Astra.Props.options_last_wins`
* `Astra.Props.other_handlers_not_documented`
* `Astra.Props.parameter_understood`
* `Astra.Props.parameters_repeat`
* `Astra.Props.parse_changes_only`
* `Astra.Props.parse_leaves_nothing`
* `Astra.Props.parse_log_follows_plan`
* `Astra.Props.path_run`
* `Astra.Props.pick_run`
* `Astra.Props.purchase_run`
* `Astra.Props.quoted_field_rejected`
* `Astra.Props.read_back`
* `Astra.Props.readable_means`
* `Astra.Props.rebind_rejects_azure`
* `Astra.Props.rebind_rejects_output`
* `Astra.Props.recorded_file_leads_back`
* `Astra.Props.refs_resolve_partial`
* `Astra.Props.responses_exact_partial`
* `Astra.Props.returned_route_lost`
* `Astra.Props.routes_created_iff`
* `Astra.Props.run_addresses_partial`
* `Astra.Props.run_admits_bound_json_partial`
* `Astra.Props.run_admits_sent_json_partial`
* `Astra.Props.run_after_attempts_partial`
* `Astra.Props.run_body_names_partial`
* `Astra.Props.run_bound_headers_untold`
* `Astra.Props.run_bound_query_understood_partial`
* `Astra.Props.run_custom_types_partial`
* `Astra.Props.run_describes_one_type_per_name`
* `Astra.Props.run_describes_types_partial`
* `Astra.Props.run_documents_handler`
* `Astra.Props.run_documents_line`
* `Astra.Props.run_documents_router`
* `Astra.Props.run_documents_text_partial`
* `Astra.Props.run_form_calls_understood_partial`
* `Astra.Props.run_form_exact`
* `Astra.Props.run_function_requests_partial`
* `Astra.Props.run_headers_exact_partial`
* `Astra.Props.run_keeps_order`
* `Astra.Props.run_media_types_partial`
* `Astra.Props.run_missed_bodies_untold`
* `Astra.Props.run_mixed_answers_partial`
* `Astra.Props.run_path_exact_partial`
* `Astra.Props.run_query_calls_understood`
* `Astra.Props.run_query_understood`
* `Astra.Props.run_required_partial`
* `Astra.Props.run_sent_types_commented_partial`
* `Astra.Props.run_succeeds_partial`
* `Astra.Props.run_success_needs`
* `Astra.Props.run_type_comments`
* `Astra.Props.run_writes_document`
* `Astra.Props.run_writes_yaml`
* `Astra.Props.same_document_partial`
* `Astra.Props.same_failure_partial`
* `Astra.Props.same_outputs_partial`
* `Astra.Props.same_run_partial`
* `Astra.Props.schema_names_distinct_partial`
* `Astra.Props.schema_names_exact`
* `Astra.Props.schema_names_shared_iff`
* `Astra.Props.schema_naming_ok_iff`
* `Astra.Props.schema_naming_panics_iff`
* `Astra.Props.search_run`
* `Astra.Props.second_instance_rejected`
* `Astra.Props.second_parse_documents_blank`
* `Astra.Props.second_parse_lists_twice`
* `Astra.Props.seek_run`
* `Astra.Props.seek_run_headers`
* `Astra.Props.sent_documented`
* `Astra.Props.setup_changes_only`
* `Astra.Props.setup_dir_changes_only`
* `Astra.Props.setup_dir_idempotent`
* `Astra.Props.setup_dir_succeeds`
* `Astra.Props.shared_route_documented_blank`
* `Astra.Props.shared_type_describes_last_format`
* `Astra.Props.shop_run`
* `Astra.Props.show_run`
* `Astra.Props.source_call_documented`
* `Astra.Props.status_code_sound_partial`
* `Astra.Props.status_code_value_partial`
* `Astra.Props.status_literal_exact`
* `Astra.Props.tag_run_misdescribed`
* `Astra.Props.tagged_base_flattened`
* `Astra.Props.teardown_removes`
* `Astra.Props.temp_package_copies`
* `Astra.Props.temp_package_faults_partial`
* `Astra.Props.temp_package_partial`
* `Astra.Props.told_iff`
* `Astra.Props.tree_lookup`
* `Astra.Props.tree_node_path`
* `Astra.Props.tree_node_path_partial`
* `Astra.Props.tree_nodes`
* `Astra.Props.type_comment`
* `Astra.Props.upload_run`
* `Astra.Props.which_answer`
* `Astra.Props.written_is_json`
* `Astra.Props.yaml_file_shows_document`
* `Astra.Props.yaml_unnamed`

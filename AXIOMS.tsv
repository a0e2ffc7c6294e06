Wot.C01_duplicate_fails	propext, Classical.choice, Quot.sound
Wot.C01_first_duplicate	propext, Classical.choice, Quot.sound
Wot.C01_security_definitions	propext, Classical.choice, Quot.sound
Wot.C02_thing_security	propext, Classical.choice, Quot.sound
Wot.C03_form_security	propext, Classical.choice, Quot.sound
Wot.C03_undefined_error	propext, Classical.choice, Quot.sound
Wot.C03_undefined_fails	propext, Classical.choice, Quot.sound
Wot.C04_bad_form_fails	propext, Classical.choice, Quot.sound
Wot.C04_thing_form_operations	propext, Classical.choice, Quot.sound
Wot.C05_affordance_form_operations	propext, Classical.choice, Quot.sound
Wot.C05_bad_form_error	propext, Classical.choice, Quot.sound
Wot.C05_bad_form_fails	propext, Classical.choice, Quot.sound
Wot.C06_absent	propext, Classical.choice, Quot.sound
Wot.C06_affordance_names	propext, Classical.choice, Quot.sound
Wot.C06_duplicate_fails	propext, Classical.choice, Quot.sound
Wot.C07_built_ranges	propext, Classical.choice, Quot.sound
Wot.C07_empty_range_accepted	propext, Classical.choice, Quot.sound
Wot.C07_integer_acceptance	propext, Classical.choice, Quot.sound
Wot.C07_integer_error	propext, Classical.choice, Quot.sound
Wot.C07_integer_partial	propext, Classical.choice, Quot.sound
Wot.C07_mixed_bounds_rejected	propext, Classical.choice, Quot.sound
Wot.C07_number_acceptance	propext, Classical.choice, Quot.sound
Wot.C07_number_error	propext, Classical.choice, Quot.sound
Wot.C07_number_exclusive_partial	propext, Classical.choice, Quot.sound
Wot.C07_number_partial	propext, Classical.choice, Quot.sound
Wot.C08_accepted	propext, Classical.choice, Quot.sound
Wot.C08_exact	propext, Classical.choice, Quot.sound
Wot.C08_rejected	propext, Classical.choice, Quot.sound
Wot.C09_rules_partial	propext, Classical.choice, Quot.sound
Wot.C09_unchecked	propext, Classical.choice, Quot.sound
Wot.C09_unchecked_positions	propext
Wot.C10_acceptance	propext, Classical.choice, Quot.sound
Wot.C10_bad_multiple_fails	propext, Classical.choice, Quot.sound
Wot.C10_multiple_of	propext, Classical.choice, Quot.sound
Wot.C11_bad_uri_variable_fails	propext, Classical.choice, Quot.sound
Wot.C11_error	propext, Classical.choice, Quot.sound
Wot.C11_hidden_in_oneOf	propext, Classical.choice, Quot.sound
Wot.C11_uri_variables	propext, Classical.choice, Quot.sound
Wot.C12_accepted	propext, Classical.choice, Quot.sound
Wot.C12_error	propext, Classical.choice, Quot.sound
Wot.C12_hreflang	propext, Classical.choice, Quot.sound
Wot.C12_keys	propext, Classical.choice, Quot.sound
Wot.C12_rejected	propext, Classical.choice, Quot.sound
Wot.C13_collision	propext, Classical.choice, Quot.sound
Wot.C13_entries	propext, Classical.choice, Quot.sound
Wot.C13_last	propext, Classical.choice, Quot.sound
Wot.C13_order_matters	propext, Classical.choice, Quot.sound
Wot.C13_preserved	propext, Classical.choice, Quot.sound
Wot.C14_bad_link_fails	propext, Classical.choice, Quot.sound
Wot.C14_link_sizes	propext, Classical.choice, Quot.sound
Wot.C14_links	propext, Classical.choice, Quot.sound
Wot.C15_affordance_forms_unchecked	propext, Classical.choice, Quot.sound
Wot.C15_response_schemas_partial	propext, Classical.choice, Quot.sound
Wot.C15_undeclared_fails	propext, Classical.choice, Quot.sound
Wot.C16_combo_references	propext, Classical.choice, Quot.sound
Wot.C16_undefined_fails	propext, Classical.choice, Quot.sound
Wot.C17_exact	propext, Classical.choice, Quot.sound
Wot.C17_fails	propext, Classical.choice, Quot.sound
Wot.C17_no_panic	propext, Classical.choice, Quot.sound
Wot.C18_complete	propext, Classical.choice, Quot.sound
Wot.C18_truthful	propext, Classical.choice, Quot.sound
Wot.C19_errors	propext, Classical.choice, Quot.sound
Wot.C19_success	propext, Classical.choice, Quot.sound
Wot.C19_thing	propext, Classical.choice, Quot.sound
Wot.C20_affordances	propext, Classical.choice, Quot.sound
Wot.C20_extension	propext, Classical.choice, Quot.sound
Wot.C20_lists	propext, Classical.choice, Quot.sound
Wot.C20_scalars	propext, Classical.choice, Quot.sound
Wot.C20_schemas	propext, Classical.choice, Quot.sound
Wot.C20_securities	propext, Classical.choice, Quot.sound
Wot.C20_translations	propext, Classical.choice, Quot.sound
Wot.C21_context	propext, Classical.choice, Quot.sound
Wot.C21_noop	propext, Classical.choice, Quot.sound
Wot.C22_cross	propext
Wot.C22_elements	propext, Quot.sound
Wot.C22_integer_meaning	propext, Quot.sound
Wot.C22_maximum	propext
Wot.C22_minimum	propext
Wot.C22_mixed_not_transitive	propext, Quot.sound
Wot.C22_number_meaning	propext, Classical.choice, Quot.sound
Wot.C23_integer	propext, Classical.choice, Quot.sound
Wot.C23_number	propext, Classical.choice, Quot.sound
Wot.C23_property	propext, Classical.choice, Quot.sound
Wot.C23_sides_independent	propext, Classical.choice, Quot.sound
Wot.C24_flags	propext, Classical.choice, Quot.sound
Wot.C24_not_both	propext, Classical.choice, Quot.sound
Wot.C25_properties	propext, Classical.choice, Quot.sound
Wot.C25_required	propext, Classical.choice, Quot.sound
Wot.C26_arrays	propext, Classical.choice, Quot.sound
Wot.C26_exclusive	propext, Classical.choice, Quot.sound
Wot.C26_shape	propext, Classical.choice, Quot.sound
Wot.C27_property_information	propext, Classical.choice, Quot.sound
Wot.C28_any_document	propext, Classical.choice, Quot.sound
Wot.C28_built	propext, Classical.choice, Quot.sound
Wot.C28_exact	propext, Classical.choice, Quot.sound
Wot.C28_injective	propext, Classical.choice, Quot.sound
Wot.C28_value_round_trip	propext, Classical.choice, Quot.sound
Wot.C28_what_comes_back	propext, Classical.choice, Quot.sound
Wot.C29_exact	propext, Classical.choice, Quot.sound
Wot.C29_false	propext, Classical.choice, Quot.sound
Wot.C29_text_fails	propext, Classical.choice, Quot.sound
Wot.C29_text_round_trip_partial	propext, Classical.choice, Quot.sound
Wot.C30_exact	propext, Classical.choice, Quot.sound
Wot.C30_infinite	propext, Classical.choice, Quot.sound
Wot.C30_null_const	propext, Classical.choice, Quot.sound
Wot.C30_what_comes_back	propext, Classical.choice, Quot.sound
Wot.C31_display	(none)
Wot.C31_forms	propext, Classical.choice, Quot.sound
Wot.C31_names_distinct	propext, Classical.choice, Quot.sound
Wot.C31_reads	propext, Quot.sound
Wot.C31_reads_element	propext, Quot.sound
Wot.C31_standard	propext, Classical.choice, Quot.sound
Wot.C32_custom	propext, Classical.choice, Quot.sound
Wot.C32_custom_null	propext, Classical.choice, Quot.sound
Wot.C32_custom_taken	propext, Classical.choice, Quot.sound
Wot.C32_custom_written	propext, Quot.sound
Wot.C32_predefined	propext, Classical.choice, Quot.sound
Wot.C33_affordance_read	propext, Classical.choice, Quot.sound
Wot.C33_form_op_read	propext, Quot.sound
Wot.C33_form_read	propext, Quot.sound
Wot.C33_form_response_read	propext, Quot.sound
Wot.C33_form_written	propext, Classical.choice, Quot.sound
Wot.C33_link_read	propext, Quot.sound
Wot.C33_schema_read	propext, Classical.choice, Quot.sound
Wot.C33_scheme_read	propext, Classical.choice, Quot.sound
Wot.C33_security_read	propext, Classical.choice, Quot.sound
Wot.C33_thing_read	propext, Classical.choice, Quot.sound
Wot.C33_thing_written	propext, Classical.choice, Quot.sound
Wot.C34_elements	propext
Wot.C34_non_empty	propext
Wot.C34_reverse	propext
Wot.C34_reverse_reverse	propext
Wot.C34_split_head	(none)
Wot.C34_split_last	propext
Wot.C34_split_last_added	propext
Wot.C34_to_mut	propext
Wot.C34_to_mut_behind	(none)
Wot.C34_to_ref	(none)
Wot.C35_conflict	propext, Classical.choice, Quot.sound
Wot.C35_empty	(none)
Wot.C35_flattened	propext, Quot.sound
Wot.C35_members	propext, Quot.sound
Wot.C35_read_back	propext, Classical.choice, Quot.sound
Wot.C36_forms	propext, Classical.choice, Quot.sound
Wot.C36_text	propext, Classical.choice, Quot.sound
Wot.C36_things	propext, Classical.choice, Quot.sound
Wot.C37_action	propext, Classical.choice, Quot.sound
Wot.C37_additional	propext, Quot.sound
Wot.C37_event	propext, Classical.choice, Quot.sound
Wot.C37_form	propext, Quot.sound
Wot.C37_link	propext, Quot.sound
Wot.C37_property	propext, Classical.choice, Quot.sound
Wot.C37_schema	propext, Classical.choice, Quot.sound
Wot.C37_security	propext, Classical.choice, Quot.sound
Wot.C37_spelled_affordances	propext, Classical.choice, Quot.sound
Wot.C37_spelled_form	propext, Quot.sound
Wot.C37_spelled_parts	propext, Quot.sound
Wot.C37_spelled_schema	propext, Classical.choice, Quot.sound
Wot.C37_spelled_scheme	propext, Classical.choice, Quot.sound
Wot.C37_spelled_security	propext, Classical.choice, Quot.sound
Wot.C37_spelled_thing	propext, Classical.choice, Quot.sound
Wot.C37_thing	propext, Classical.choice, Quot.sound
Wot.C38_affordances_partial	propext, Classical.choice, Quot.sound
Wot.C38_bindings_partial	propext, Classical.choice, Quot.sound
Wot.C38_bound_order	propext, Classical.choice, Quot.sound
Wot.C38_combination_unknown	propext, Classical.choice, Quot.sound
Wot.C38_custom_unknown	propext, Classical.choice, Quot.sound
Wot.C38_first_bound	propext, Classical.choice, Quot.sound
Wot.C38_form	propext, Classical.choice, Quot.sound
Wot.C38_last_translation	propext, Classical.choice, Quot.sound
Wot.C38_link	propext, Classical.choice, Quot.sound
Wot.C38_order_partial	propext, Classical.choice, Quot.sound
Wot.C38_predefined_unknown	propext, Classical.choice, Quot.sound
Wot.C38_schema_partial	propext, Classical.choice, Quot.sound
Wot.C38_security_partial	propext, Classical.choice, Quot.sound
Wot.C38_text_or_value_partial	propext, Classical.choice, Quot.sound
Wot.C38_thing_partial	propext, Classical.choice, Quot.sound
Wot.C38_translation_order	propext, Classical.choice, Quot.sound
Wot.C39_action	propext, Classical.choice, Quot.sound
Wot.C39_event	propext, Classical.choice, Quot.sound
Wot.C39_form	propext, Classical.choice, Quot.sound
Wot.C39_link	propext, Classical.choice, Quot.sound
Wot.C39_parts	propext, Classical.choice, Quot.sound
Wot.C39_property	propext, Classical.choice, Quot.sound
Wot.C39_response	propext, Classical.choice, Quot.sound
Wot.C39_scheme_members	propext, Classical.choice, Quot.sound
Wot.C39_security	propext, Classical.choice, Quot.sound
Wot.C39_thing	propext, Classical.choice, Quot.sound
Wot.C40_members	propext, Classical.choice, Quot.sound
Wot.C40_names	propext, Classical.choice, Quot.sound
Wot.C40_swap	propext, Classical.choice, Quot.sound
Wot.C40_swap_names	propext, Classical.choice, Quot.sound
Wot.C41_action_calls	propext, Classical.choice, Quot.sound
Wot.C41_event_calls	propext, Classical.choice, Quot.sound
Wot.C41_finish	propext, Classical.choice, Quot.sound
Wot.C41_form	(none)
Wot.C41_form_calls	(none)
Wot.C41_history	propext, Classical.choice, Quot.sound
Wot.C41_property_calls	propext, Classical.choice, Quot.sound
Wot.C41_schema	propext, Classical.choice, Quot.sound
Wot.C41_thing	propext, Classical.choice, Quot.sound
Wot.C42_first	propext, Classical.choice, Quot.sound
Wot.C42_phases	propext, Classical.choice, Quot.sound
Wot.C42_reported	propext, Classical.choice, Quot.sound
Wot.C43_property_schema	propext, Classical.choice, Quot.sound
Wot.C43_schema	propext, Classical.choice, Quot.sound
Wot.C44_all	(none)
Wot.C44_form	propext, Classical.choice, Quot.sound
Wot.C45_action	propext, Classical.choice, Quot.sound
Wot.C45_all_actions	propext, Classical.choice, Quot.sound
Wot.C45_all_events	propext, Classical.choice, Quot.sound
Wot.C45_all_properties	propext, Classical.choice, Quot.sound
Wot.C45_event	propext, Classical.choice, Quot.sound
Wot.C45_property	propext, Classical.choice, Quot.sound
Wot.C46_common	propext, Classical.choice, Quot.sound
Wot.C46_kind	propext, Classical.choice, Quot.sound
Wot.C46_psk_identity	propext, Classical.choice, Quot.sound
Wot.C47_built	propext
Wot.C47_link	propext, Quot.sound
Wot.C48_custom_data	propext, Classical.choice, Quot.sound
Wot.C48_writable	propext, Classical.choice, Quot.sound
Wot.C49_built	propext, Classical.choice, Quot.sound
Wot.C49_read	propext, Classical.choice, Quot.sound
Wot.C49_reading	propext, Classical.choice, Quot.sound
Wot.C49_text	propext, Classical.choice, Quot.sound
Wot.C49_value	propext, Classical.choice, Quot.sound
Wot.C50_bindings	propext, Classical.choice, Quot.sound
Wot.C50_extensions	propext, Classical.choice, Quot.sound
Wot.C50_false	propext, Classical.choice, Quot.sound
Wot.C50_repeated	propext, Classical.choice, Quot.sound
Wot.C50_reread	propext, Classical.choice, Quot.sound
Wot.C50_same	propext, Classical.choice, Quot.sound
Wot.C50_settles	propext, Classical.choice, Quot.sound
Wot.C50_text	propext, Classical.choice, Quot.sound
Wot.C51_action	propext, Classical.choice, Quot.sound
Wot.C51_event	propext, Classical.choice, Quot.sound
Wot.C51_form	propext, Classical.choice, Quot.sound
Wot.C51_link	propext, Quot.sound
Wot.C51_property	propext, Classical.choice, Quot.sound
Wot.C51_schema	propext, Classical.choice, Quot.sound
Wot.C51_scheme	propext, Classical.choice, Quot.sound
Wot.C51_security	propext, Classical.choice, Quot.sound
Wot.C51_thing	propext, Classical.choice, Quot.sound
Wot.C52_bindings	propext, Classical.choice, Quot.sound
Wot.C52_bindings_lawful	propext, Quot.sound
Wot.C52_built	propext, Classical.choice, Quot.sound
Wot.C52_read	propext, Classical.choice, Quot.sound
Wot.C52_text	propext, Classical.choice, Quot.sound
Wot.C52_value	propext, Classical.choice, Quot.sound
Wot.C53_elsewhere	propext, Classical.choice, Quot.sound
Wot.C53_last_call	propext, Classical.choice, Quot.sound
Wot.C53_property_string	propext, Classical.choice, Quot.sound
Wot.C54_calls	propext, Classical.choice, Quot.sound
Wot.C54_converts_iff	propext, Classical.choice, Quot.sound
Wot.C54_error	propext, Classical.choice, Quot.sound
Wot.C54_order	propext, Classical.choice, Quot.sound
Wot.C54_result	propext, Classical.choice, Quot.sound
Wot.C54_same_as_build	propext, Classical.choice, Quot.sound
Wot.C54_unchecked	propext, Classical.choice, Quot.sound
Wot.C55_bad_bound	propext, Quot.sound
Wot.C55_integers	propext, Classical.choice, Quot.sound
Wot.C55_property_says	propext, Classical.choice, Quot.sound
Wot.C55_property_type	propext, Classical.choice, Quot.sound
Wot.C55_says	propext, Classical.choice, Quot.sound
Wot.C55_type	propext, Classical.choice, Quot.sound
Wot.C55_untyped	propext, Classical.choice, Quot.sound
Wot.C56_array_bounds	propext, Classical.choice, Quot.sound
Wot.C56_bounds_ignored	propext, Classical.choice, Quot.sound
Wot.C56_data_response	propext, Classical.choice, Quot.sound
Wot.C56_data_response_ignored	propext, Classical.choice, Quot.sound
Wot.C56_false	propext, Classical.choice, Quot.sound
Wot.C56_known_partial	propext
Wot.C56_property_bounds_ignored	propext, Classical.choice, Quot.sound
Wot.C56_schema_partial	propext, Classical.choice, Quot.sound
Wot.C56_written_partial	propext, Classical.choice, Quot.sound
Wot.C57_bindings	propext, Quot.sound
Wot.C57_equal_different	propext, Classical.choice, Quot.sound
Wot.C57_equal_iff	propext, Classical.choice, Quot.sound
Wot.C57_not_reflexive	propext, Classical.choice, Quot.sound
Wot.C57_read	propext, Classical.choice, Quot.sound
Wot.C57_reflexive	propext, Classical.choice, Quot.sound
Wot.C57_round_trip	propext, Classical.choice, Quot.sound
Wot.C57_symmetric	propext, Classical.choice, Quot.sound
Wot.C57_transitive	propext, Classical.choice, Quot.sound
Wot.C58_grammar	propext, Classical.choice, Quot.sound
Wot.C58_last_property	propext, Classical.choice, Quot.sound
Wot.C58_read	propext, Classical.choice, Quot.sound
Wot.C58_schema	propext, Classical.choice, Quot.sound
Wot.C58_unique	propext, Classical.choice, Quot.sound
Wot.C58_written	propext, Classical.choice, Quot.sound
Wot.C59_combination	propext, Classical.choice, Quot.sound
Wot.C59_culprit	propext, Quot.sound
Wot.C59_distinct	propext, Classical.choice, Quot.sound
Wot.C59_listed	propext, Quot.sound
Wot.C59_operation	propext, Quot.sound
Wot.C59_true_partial	propext, Classical.choice, Quot.sound
Wot.C60_action	propext, Classical.choice, Quot.sound
Wot.C60_additional	propext, Quot.sound
Wot.C60_builder	propext, Classical.choice, Quot.sound
Wot.C60_cons	propext, Quot.sound
Wot.C60_context	propext, Classical.choice, Quot.sound
Wot.C60_event	propext, Classical.choice, Quot.sound
Wot.C60_form	propext, Quot.sound
Wot.C60_http_response	propext
Wot.C60_kind_builder	propext, Classical.choice, Quot.sound
Wot.C60_kinds	propext, Classical.choice, Quot.sound
Wot.C60_link	propext, Quot.sound
Wot.C60_nil	(none)
Wot.C60_property	propext, Classical.choice, Quot.sound
Wot.C60_protocols	propext, Quot.sound
Wot.C60_response	propext, Quot.sound
Wot.C60_schema	propext, Classical.choice, Quot.sound
Wot.C60_scheme_builder	propext, Classical.choice, Quot.sound
Wot.C60_security	propext, Classical.choice, Quot.sound
Wot.C60_thing_partial	propext, Classical.choice, Quot.sound
Wot.C60_version	propext, Quot.sound
Wot.C61_behind	propext, Quot.sound
Wot.C61_coap	propext, Quot.sound
Wot.C61_forms	propext, Quot.sound
Wot.C61_http	propext, Quot.sound
Wot.C61_in_form	propext, Quot.sound
Wot.C61_mqtt	propext, Quot.sound
Wot.C61_responses	propext, Quot.sound
Wot.C61_written	propext, Classical.choice, Quot.sound
Wot.C62_any_depth	propext, Classical.choice, Quot.sound
Wot.C62_bindings	propext, Classical.choice, Quot.sound
Wot.C62_bound	propext, Classical.choice, Quot.sound
Wot.C62_limit	propext, Classical.choice, Quot.sound
Wot.C62_limit_needed	propext, Classical.choice, Quot.sound
Wot.C62_read_back	propext, Classical.choice, Quot.sound
Wot.C62_too_deep	propext, Classical.choice, Quot.sound
Wot.C63_forms	propext
Wot.C63_free	propext, Classical.choice, Quot.sound
Wot.C63_links	propext, Classical.choice, Quot.sound
Wot.C63_order	propext, Classical.choice, Quot.sound
Wot.C63_schemas	propext, Classical.choice, Quot.sound
Wot.C63_schemes	propext, Classical.choice, Quot.sound
Wot.C63_things	propext, Classical.choice, Quot.sound
Wot.C64_null_lost	propext, Classical.choice, Quot.sound
Wot.C64_text	propext, Classical.choice, Quot.sound
Wot.C64_value	propext, Classical.choice, Quot.sound
Wot.C65_injective	propext, Classical.choice, Quot.sound
Wot.C65_read	propext, Classical.choice, Quot.sound
Wot.C65_read_back	propext, Classical.choice, Quot.sound
Wot.C65_unambiguous	propext, Classical.choice, Quot.sound
Wot.C65_white_space	propext, Classical.choice, Quot.sound
Wot.C65_written	propext, Classical.choice, Quot.sound
Wot.C66_any_spelling	propext, Classical.choice, Quot.sound
Wot.C66_bindings	propext, Classical.choice, Quot.sound
Wot.C66_built	propext, Classical.choice, Quot.sound
Wot.C66_injective	propext, Classical.choice, Quot.sound
Wot.C66_lasts	propext, Classical.choice, Quot.sound
Wot.C66_law_needed	propext, Classical.choice, Quot.sound
Wot.C66_read_back	propext, Classical.choice, Quot.sound
Wot.C66_reads	propext, Classical.choice, Quot.sound
Wot.C66_reread	propext, Classical.choice, Quot.sound
Wot.C66_written	propext, Classical.choice, Quot.sound
Wot.C67_both	propext, Classical.choice, Quot.sound
Wot.C67_laid_out	propext, Classical.choice, Quot.sound
Wot.C67_one_line	propext, Classical.choice, Quot.sound
Wot.C67_shortest	propext, Classical.choice, Quot.sound
Wot.C68_built	propext, Classical.choice, Quot.sound
Wot.C68_calendar	propext, Classical.choice, Quot.sound
Wot.C68_expressible	propext, Classical.choice, Quot.sound
Wot.C68_injective	propext, Classical.choice, Quot.sound
Wot.C68_laws	propext, Classical.choice, Quot.sound
Wot.C68_read	propext, Classical.choice, Quot.sound
Wot.C68_read_back	propext, Classical.choice, Quot.sound
Wot.C68_readable	propext, Classical.choice, Quot.sound
Wot.C68_refused	propext, Classical.choice, Quot.sound
Wot.C68_settles	propext, Classical.choice, Quot.sound
Wot.C68_thing_read	propext, Classical.choice, Quot.sound
Wot.C68_thing_reread	propext, Classical.choice, Quot.sound
Wot.C68_thing_written	propext, Classical.choice, Quot.sound
Wot.C68_unambiguous	propext, Classical.choice, Quot.sound
Wot.C68_unwritable	propext, Classical.choice, Quot.sound
Wot.C68_written	propext, Classical.choice, Quot.sound
Wot.C69_accepted	propext, Classical.choice, Quot.sound
Wot.C69_built	propext, Classical.choice, Quot.sound
Wot.C69_case	propext, Classical.choice, Quot.sound
Wot.C69_checked	propext, Classical.choice, Quot.sound
Wot.C69_formatted	propext, Classical.choice, Quot.sound
Wot.C69_idempotent	propext, Classical.choice, Quot.sound
Wot.C69_keys	propext, Classical.choice, Quot.sound
Wot.C69_laws	propext, Classical.choice, Quot.sound
Wot.C69_letters	propext, Classical.choice, Quot.sound
Wot.C69_loose	propext, Classical.choice, Quot.sound
Wot.C69_lost	propext, Classical.choice, Quot.sound
Wot.C69_refused	propext, Classical.choice, Quot.sound
Wot.C69_reread	propext, Classical.choice, Quot.sound
Wot.C69_same	propext, Classical.choice, Quot.sound
Wot.C69_stable	propext, Classical.choice, Quot.sound
Wot.C69_stored	propext, Classical.choice, Quot.sound
Wot.C69_thing_read	propext, Classical.choice, Quot.sound
Wot.C69_translations	propext, Classical.choice, Quot.sound
Wot.C69_well_formed	propext, Classical.choice, Quot.sound
Wot.C70_bindings	propext, Classical.choice, Quot.sound
Wot.C70_close	propext, Classical.choice, Quot.sound
Wot.C70_extreme	propext, Classical.choice, Quot.sound
Wot.C70_finite	propext, Classical.choice, Quot.sound
Wot.C70_integers	propext, Classical.choice, Quot.sound
Wot.C70_keeps	propext, Classical.choice, Quot.sound
Wot.C70_lasts	propext, Classical.choice, Quot.sound
Wot.C70_lost	propext, Classical.choice, Quot.sound
Wot.C70_nearest_unique	propext, Classical.choice, Quot.sound
Wot.C70_notation	propext, Classical.choice, Quot.sound
Wot.C70_range_needed	propext, Classical.choice, Quot.sound
Wot.C70_read	propext, Classical.choice, Quot.sound
Wot.C70_read_close	propext, Classical.choice, Quot.sound
Wot.C70_read_large	propext, Classical.choice, Quot.sound
Wot.C70_reread	propext, Classical.choice, Quot.sound
Wot.C70_short_texts	propext, Classical.choice, Quot.sound
Wot.C70_thing_lost	propext, Classical.choice, Quot.sound
Wot.C70_tree	propext, Classical.choice, Quot.sound
Wot.C70_written	propext, Classical.choice, Quot.sound
Wot.C70_zero	propext, Classical.choice, Quot.sound
Wot.C71_bindings	propext, Classical.choice, Quot.sound
Wot.C71_lawful	propext, Classical.choice, Quot.sound
Wot.C71_read	propext, Classical.choice, Quot.sound
Wot.C71_reread	propext, Classical.choice, Quot.sound
Wot.C71_same_texts	propext, Quot.sound
Wot.C72_bindings	propext, Classical.choice, Quot.sound
Wot.C72_drifts	propext, Classical.choice, Quot.sound
Wot.C72_in_range	propext, Classical.choice, Quot.sound
Wot.C72_moves	propext, Classical.choice, Quot.sound
Wot.C72_read_back	propext, Classical.choice, Quot.sound
Wot.C72_read_reloads	propext, Classical.choice, Quot.sound
Wot.C72_reloads	propext, Classical.choice, Quot.sound
Wot.C72_reread	propext, Classical.choice, Quot.sound
Wot.C73_affordances	propext
Wot.C73_clone	propext, Quot.sound
Wot.C73_clone_equal	propext, Classical.choice, Quot.sound
Wot.C73_entries	propext, Classical.choice, Quot.sound
Wot.C73_names	(none)
Wot.C73_shows_all	propext, Classical.choice, Quot.sound
Wot.C74_does_not_matter	propext, Classical.choice, Quot.sound
Wot.C74_elsewhere	propext, Classical.choice, Quot.sound
Wot.C74_links	propext, Classical.choice, Quot.sound
Wot.C74_nothing_new	propext, Classical.choice, Quot.sound
Wot.C74_numbers	propext, Classical.choice, Quot.sound
Wot.C74_ordinary	propext, Classical.choice, Quot.sound
Wot.C74_reads	propext, Classical.choice, Quot.sound
Wot.C74_unambiguous	propext, Classical.choice, Quot.sound
Wot.C74_version	propext, Classical.choice, Quot.sound
Wot.C75_bad_length	propext, Classical.choice, Quot.sound
Wot.C75_inexact_bound	propext, Classical.choice, Quot.sound
Wot.C75_infinite	propext, Classical.choice, Quot.sound
Wot.C75_limit_read	propext, Classical.choice, Quot.sound
Wot.C75_limit_written	propext, Classical.choice, Quot.sound
Wot.C75_null	propext, Classical.choice, Quot.sound
Wot.C75_odd_bound	propext, Classical.choice, Quot.sound
Wot.C75_read	propext, Classical.choice, Quot.sound
Wot.C75_read_partial	propext, Classical.choice, Quot.sound
Wot.C75_thing_read	propext, Classical.choice, Quot.sound
Wot.C75_thing_written	propext, Classical.choice, Quot.sound
Wot.C75_two_bounds	propext, Classical.choice, Quot.sound
Wot.C75_written	propext, Classical.choice, Quot.sound
Wot.C75_written_limits	propext, Classical.choice, Quot.sound
Wot.C75_written_partial	propext, Classical.choice, Quot.sound
Wot.C76_built_partial	propext, Classical.choice, Quot.sound
Wot.C76_custom_name	propext, Classical.choice, Quot.sound
Wot.C76_infinite	propext, Classical.choice, Quot.sound
Wot.C76_no_endpoint	propext, Classical.choice, Quot.sound
Wot.C76_no_forms	propext, Classical.choice, Quot.sound
Wot.C76_no_model	propext, Classical.choice, Quot.sound
Wot.C76_no_security	propext, Classical.choice, Quot.sound
Wot.C76_place	propext, Classical.choice, Quot.sound
Wot.C76_single_combo	propext, Classical.choice, Quot.sound
Wot.C76_undeclared	propext, Classical.choice, Quot.sound
Wot.C76_written	propext, Classical.choice, Quot.sound
Wot.C76_zero_step	propext, Classical.choice, Quot.sound
Wot.C77_action	propext, Classical.choice, Quot.sound
Wot.C77_auto_place	propext, Classical.choice, Quot.sound
Wot.C77_combo_members	propext, Classical.choice, Quot.sound
Wot.C77_data_response	propext, Classical.choice, Quot.sound
Wot.C77_form	propext, Classical.choice, Quot.sound
Wot.C77_link	propext, Quot.sound
Wot.C77_no_qop	propext, Classical.choice, Quot.sound
Wot.C77_property	propext, Classical.choice, Quot.sound
Wot.C77_read	propext, Classical.choice, Quot.sound
Wot.C77_read_partial	propext, Classical.choice, Quot.sound
Wot.C77_schema	propext, Classical.choice, Quot.sound
Wot.C77_scheme	propext, Classical.choice, Quot.sound
Wot.C77_security	propext, Classical.choice, Quot.sound
Wot.C78_operations	propext, Classical.choice, Quot.sound
Wot.C78_rewritten_partial	propext, Classical.choice, Quot.sound
Wot.C78_version	propext, Classical.choice, Quot.sound
Wot.C79_custom	propext, Classical.choice, Quot.sound
Wot.C79_each_other	propext, Classical.choice, Quot.sound
Wot.C79_itself	propext, Classical.choice, Quot.sound
Wot.C79_locked	propext, Classical.choice, Quot.sound
Wot.C79_no_choice	propext, Classical.choice, Quot.sound
Wot.C79_open_partial	propext, Classical.choice, Quot.sound
Wot.C79_read	propext, Classical.choice, Quot.sound
Wot.C79_rewritten	propext, Classical.choice, Quot.sound
Wot.C79_written	propext, Classical.choice, Quot.sound
Wot.C80_built	propext, Classical.choice, Quot.sound
Wot.C80_empty	propext, Classical.choice, Quot.sound
Wot.C80_kind	propext, Classical.choice, Quot.sound
Wot.C80_read	propext, Classical.choice, Quot.sound
Wot.C80_rewritten_partial	propext, Classical.choice, Quot.sound
Wot.C80_written_partial	propext, Classical.choice, Quot.sound
Wot.C81_calls	propext, Classical.choice, Quot.sound
Wot.C81_clash	propext, Classical.choice, Quot.sound
Wot.C81_contents	propext, Classical.choice, Quot.sound
Wot.C81_needed	propext, Classical.choice, Quot.sound
Wot.C81_order	propext, Classical.choice, Quot.sound
Wot.C81_together	propext, Classical.choice, Quot.sound
Wot.C81_without	propext, Classical.choice, Quot.sound
Wot.C82_completable	propext, Classical.choice, Quot.sound
Wot.C82_lasting	propext, Classical.choice, Quot.sound
Wot.C82_variables	propext, Classical.choice, Quot.sound
Wot.C83_accepts	propext, Classical.choice, Quot.sound
Wot.C83_accepts_plain	propext, Classical.choice, Quot.sound
Wot.C83_agree	propext, Classical.choice, Quot.sound
Wot.C83_binding_order	propext, Classical.choice, Quot.sound
Wot.C83_bindings	propext, Quot.sound
Wot.C83_earlier	propext, Classical.choice, Quot.sound
Wot.C83_last	propext, Classical.choice, Quot.sound
Wot.C83_order	propext, Classical.choice, Quot.sound
Wot.C83_order_of_several	propext, Classical.choice, Quot.sound
Wot.C83_order_written	propext, Classical.choice, Quot.sound
Wot.C83_order_written_false	propext, Classical.choice, Quot.sound
Wot.C83_order_written_of_several	propext, Classical.choice, Quot.sound
Wot.C83_plain	propext, Classical.choice, Quot.sound
Wot.C83_read_alike_false	propext, Classical.choice, Quot.sound
Wot.C83_same_value	propext, Classical.choice, Quot.sound
Wot.C83_steps	(none)
Wot.C83_without_binding	propext, Classical.choice, Quot.sound
Wot.C83_written	propext, Classical.choice, Quot.sound
Wot.C83_written_text	propext, Classical.choice, Quot.sound
Wot.C84_earlier	propext, Classical.choice, Quot.sound
Wot.C84_elements	propext
Wot.C84_last	propext, Classical.choice, Quot.sound
Wot.C84_less_steps	propext, Quot.sound
Wot.C84_member	propext
Wot.C84_nothing_missing	propext, Classical.choice, Quot.sound
Wot.C84_nothing_new	propext
Wot.C84_passed_on	propext, Classical.choice, Quot.sound
Wot.C84_plain	propext, Classical.choice, Quot.sound
Wot.C84_scalar	propext
Wot.C84_separate_needed	propext, Classical.choice, Quot.sound
Wot.C84_steps	propext, Classical.choice, Quot.sound
Wot.C84_without_binding	propext, Classical.choice, Quot.sound
Wot.C84_written	propext, Classical.choice, Quot.sound
Wot.C85_access	propext, Classical.choice, Quot.sound
Wot.C85_built	propext, Classical.choice, Quot.sound
Wot.C85_changed	propext, Quot.sound
Wot.C85_changed_built	propext, Classical.choice, Quot.sound
Wot.C85_operations	propext, Quot.sound
Wot.C85_passed_on	propext, Classical.choice, Quot.sound
Wot.C85_readers	propext, Classical.choice, Quot.sound
Wot.C85_values	propext, Classical.choice, Quot.sound
Wot.C86_error	propext, Classical.choice, Quot.sound
Wot.C86_other	propext, Classical.choice, Quot.sound
Wot.C86_phase	propext, Classical.choice, Quot.sound
Wot.C86_succeeds	propext, Classical.choice, Quot.sound
Wot.C86_things	propext, Classical.choice, Quot.sound
Wot.C86_violations	propext, Classical.choice, Quot.sound
Wot.C86_without	propext, Classical.choice, Quot.sound
Wot.C87_affordances	propext, Classical.choice, Quot.sound
Wot.C87_back	propext, Classical.choice, Quot.sound
Wot.C87_calls	propext, Classical.choice, Quot.sound
Wot.C87_entry	propext, Classical.choice, Quot.sound
Wot.C87_error	propext, Classical.choice, Quot.sound
Wot.C87_error_only	propext, Classical.choice, Quot.sound
Wot.C87_faults	propext, Classical.choice, Quot.sound
Wot.C87_nothing_else	propext, Classical.choice, Quot.sound
Wot.C87_succeeds	propext, Classical.choice, Quot.sound
Wot.C87_thing	propext, Classical.choice, Quot.sound
Wot.C88_custom	propext, Classical.choice, Quot.sound
Wot.C88_forms	propext, Classical.choice, Quot.sound
Wot.C88_offers	propext, Classical.choice, Quot.sound
Wot.C88_opens	propext, Classical.choice, Quot.sound
Wot.C88_places	propext, Classical.choice, Quot.sound
Wot.C88_program	propext, Classical.choice, Quot.sound
Wot.C89_always	propext, Classical.choice, Quot.sound
Wot.C89_apart	propext, Classical.choice, Quot.sound
Wot.C89_both	propext, Classical.choice, Quot.sound
Wot.C89_fresh	propext, Classical.choice, Quot.sound
Wot.C89_together	propext, Classical.choice, Quot.sound
Wot.C90_equal	propext, Classical.choice, Quot.sound
Wot.C90_lossless	propext, Classical.choice, Quot.sound
Wot.C90_program	propext, Classical.choice, Quot.sound
Wot.C90_read_back	propext, Classical.choice, Quot.sound
Wot.C90_text	propext, Classical.choice, Quot.sound
Wot.C90_written	propext, Classical.choice, Quot.sound
Wot.C91_calls	propext, Classical.choice, Quot.sound
Wot.C91_less_schema	propext, Classical.choice, Quot.sound
Wot.C91_less_security	propext, Classical.choice, Quot.sound
Wot.C91_schema	propext, Classical.choice, Quot.sound
Wot.C91_security	propext, Classical.choice, Quot.sound
Wot.C92_action	propext, Classical.choice, Quot.sound
Wot.C92_event	propext, Classical.choice, Quot.sound
Wot.C92_form	propext, Classical.choice, Quot.sound
Wot.C92_independent	propext, Classical.choice, Quot.sound
Wot.C92_link	propext, Classical.choice, Quot.sound
Wot.C92_only_one	propext, Classical.choice, Quot.sound
Wot.C92_property	propext, Classical.choice, Quot.sound
Wot.C92_replaced	propext, Classical.choice, Quot.sound
Wot.C93_met	propext, Classical.choice, Quot.sound
Wot.C93_more	propext, Classical.choice, Quot.sound
Wot.C93_opens	propext, Classical.choice, Quot.sound
Wot.C93_same	propext, Classical.choice, Quot.sound
Wot.C94_action	propext, Classical.choice, Quot.sound
Wot.C94_event	propext, Classical.choice, Quot.sound
Wot.C94_property	propext, Classical.choice, Quot.sound
Wot.C94_schema	propext, Classical.choice, Quot.sound
Wot.C94_security	propext, Classical.choice, Quot.sound
Wot.C94_uriVariable	propext, Classical.choice, Quot.sound
Wot.C95_action_offers	propext, Classical.choice, Quot.sound
Wot.C95_action_opens	propext, Classical.choice, Quot.sound
Wot.C95_event_offers	propext, Classical.choice, Quot.sound
Wot.C95_event_opens	propext, Classical.choice, Quot.sound
Wot.C95_property_offers	propext, Classical.choice, Quot.sound
Wot.C95_property_opens	propext, Classical.choice, Quot.sound

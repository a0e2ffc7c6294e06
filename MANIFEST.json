{
 "claims": [
  {
   "property": "C01",
   "status": "proved",
   "theorems": [
    "Wot.C01_security_definitions",
    "Wot.C01_duplicate_fails",
    "Wot.C01_first_duplicate"
   ],
   "note": ""
  },
  {
   "property": "C02",
   "status": "proved",
   "theorems": [
    "Wot.C02_thing_security"
   ],
   "note": ""
  },
  {
   "property": "C03",
   "status": "proved",
   "theorems": [
    "Wot.C03_form_security",
    "Wot.C03_undefined_fails",
    "Wot.C03_undefined_error"
   ],
   "note": ""
  },
  {
   "property": "C04",
   "status": "proved",
   "theorems": [
    "Wot.C04_thing_form_operations",
    "Wot.C04_bad_form_fails"
   ],
   "note": ""
  },
  {
   "property": "C05",
   "status": "proved",
   "theorems": [
    "Wot.C05_affordance_form_operations",
    "Wot.C05_bad_form_fails",
    "Wot.C05_bad_form_error"
   ],
   "note": ""
  },
  {
   "property": "C06",
   "status": "proved",
   "theorems": [
    "Wot.C06_affordance_names",
    "Wot.C06_absent",
    "Wot.C06_duplicate_fails"
   ],
   "note": ""
  },
  {
   "property": "C07",
   "status": "partial",
   "theorems": [
    "Wot.C07_integer_acceptance",
    "Wot.C07_number_acceptance",
    "Wot.C07_integer_error",
    "Wot.C07_number_error",
    "Wot.C07_integer_partial",
    "Wot.C07_number_partial",
    "Wot.C07_number_exclusive_partial",
    "Wot.C07_mixed_bounds_rejected",
    "Wot.C07_empty_range_accepted",
    "Wot.C07_built_ranges"
   ],
   "note": "The property is false of the code. C07_integer_acceptance and C07_number_acceptance give the exact rule; C07_mixed_bounds_rejected and C07_empty_range_accepted are the negations; the C07_*_partial theorems say in which cases acceptance and non-emptiness of the range coincide."
  },
  {
   "property": "C08",
   "status": "proved",
   "theorems": [
    "Wot.C08_accepted",
    "Wot.C08_rejected",
    "Wot.C08_exact"
   ],
   "note": ""
  },
  {
   "property": "C09",
   "status": "partial",
   "theorems": [
    "Wot.C09_unchecked",
    "Wot.C09_unchecked_positions",
    "Wot.C09_rules_partial"
   ],
   "note": "The property is false of the code: C09_unchecked is the negation, for each of the three unchecked positions. C09_rules_partial covers all other positions."
  },
  {
   "property": "C10",
   "status": "proved",
   "theorems": [
    "Wot.C10_multiple_of",
    "Wot.C10_bad_multiple_fails",
    "Wot.C10_acceptance"
   ],
   "note": "A NaN multipleOf is accepted, as the property says (C10_multiple_of)."
  },
  {
   "property": "C11",
   "status": "proved",
   "theorems": [
    "Wot.C11_uri_variables",
    "Wot.C11_bad_uri_variable_fails",
    "Wot.C11_error",
    "Wot.C11_hidden_in_oneOf"
   ],
   "note": "The property as stated is about the type of each URI variable itself. C11_hidden_in_oneOf is the negation for arrays hidden among oneOf alternatives."
  },
  {
   "property": "C12",
   "status": "proved",
   "theorems": [
    "Wot.C12_accepted",
    "Wot.C12_keys",
    "Wot.C12_hreflang",
    "Wot.C12_rejected",
    "Wot.C12_error"
   ],
   "note": ""
  },
  {
   "property": "C13",
   "status": "proved",
   "theorems": [
    "Wot.C13_last",
    "Wot.C13_entries",
    "Wot.C13_preserved",
    "Wot.C13_collision",
    "Wot.C13_order_matters"
   ],
   "note": "C13_collision and C13_order_matters prove the part of the statement about two spellings of the same tag: which text survives depends on the iteration order."
  },
  {
   "property": "C14",
   "status": "proved",
   "theorems": [
    "Wot.C14_link_sizes",
    "Wot.C14_links",
    "Wot.C14_bad_link_fails"
   ],
   "note": ""
  },
  {
   "property": "C15",
   "status": "partial",
   "theorems": [
    "Wot.C15_response_schemas_partial",
    "Wot.C15_undeclared_fails",
    "Wot.C15_affordance_forms_unchecked"
   ],
   "note": "C15_response_schemas_partial holds for Thing-level forms. C15_affordance_forms_unchecked proves that the code never checks the additional responses of affordance forms, in any affordance context."
  },
  {
   "property": "C16",
   "status": "proved",
   "theorems": [
    "Wot.C16_combo_references",
    "Wot.C16_undefined_fails"
   ],
   "note": ""
  },
  {
   "property": "C17",
   "status": "proved",
   "theorems": [
    "Wot.C17_exact",
    "Wot.C17_fails",
    "Wot.C17_no_panic"
   ],
   "note": ""
  },
  {
   "property": "C18",
   "status": "proved",
   "theorems": [
    "Wot.C18_truthful",
    "Wot.C18_complete"
   ],
   "note": ""
  },
  {
   "property": "C19",
   "status": "proved",
   "theorems": [
    "Wot.C19_success",
    "Wot.C19_thing",
    "Wot.C19_errors"
   ],
   "note": ""
  },
  {
   "property": "C20",
   "status": "proved",
   "theorems": [
    "Wot.C20_scalars",
    "Wot.C20_lists",
    "Wot.C20_translations",
    "Wot.C20_schemas",
    "Wot.C20_affordances",
    "Wot.C20_securities",
    "Wot.C20_extension"
   ],
   "note": ""
  },
  {
   "property": "C21",
   "status": "proved",
   "theorems": [
    "Wot.C21_context",
    "Wot.C21_noop"
   ],
   "note": ""
  },
  {
   "property": "C22",
   "status": "proved",
   "theorems": [
    "Wot.C22_minimum",
    "Wot.C22_maximum",
    "Wot.C22_elements",
    "Wot.C22_cross",
    "Wot.C22_integer_meaning",
    "Wot.C22_number_meaning",
    "Wot.C22_mixed_not_transitive"
   ],
   "note": "C22_mixed_not_transitive records that minima and maxima taken together are not ordered transitively; the property does not claim it."
  },
  {
   "property": "C23",
   "status": "proved",
   "theorems": [
    "Wot.C23_number",
    "Wot.C23_integer",
    "Wot.C23_property",
    "Wot.C23_sides_independent"
   ],
   "note": ""
  },
  {
   "property": "C24",
   "status": "proved",
   "theorems": [
    "Wot.C24_not_both",
    "Wot.C24_flags"
   ],
   "note": ""
  },
  {
   "property": "C25",
   "status": "proved",
   "theorems": [
    "Wot.C25_required",
    "Wot.C25_properties"
   ],
   "note": ""
  },
  {
   "property": "C26",
   "status": "proved",
   "theorems": [
    "Wot.C26_shape",
    "Wot.C26_exclusive",
    "Wot.C26_arrays"
   ],
   "note": ""
  },
  {
   "property": "C27",
   "status": "proved",
   "theorems": [
    "Wot.C27_property_information"
   ],
   "note": ""
  },
  {
   "property": "C28",
   "status": "proved",
   "theorems": [
    "Wot.C28_value_round_trip",
    "Wot.C28_what_comes_back",
    "Wot.C28_exact",
    "Wot.C28_built",
    "Wot.C28_injective",
    "Wot.C28_any_document"
   ],
   "note": "C28_what_comes_back says what is read back of every Thing meeting the conditions, C28_exact when this is the Thing itself. The conditions on JSON values (no repeated members) and maps hold of all values of the Rust types."
  },
  {
   "property": "C29",
   "status": "partial",
   "theorems": [
    "Wot.C29_text_fails",
    "Wot.C29_text_round_trip_partial",
    "Wot.C29_exact",
    "Wot.C29_false"
   ],
   "note": "The property is false of the code: C29_false is the negation of the full statement (TextRoundTrip) and C29_text_fails says which Things are never read back. C29_exact is the exact rule and C29_text_round_trip_partial covers the Things without repeated human readable information."
  },
  {
   "property": "C30",
   "status": "proved",
   "theorems": [
    "Wot.C30_what_comes_back",
    "Wot.C30_exact",
    "Wot.C30_null_const",
    "Wot.C30_infinite"
   ],
   "note": ""
  },
  {
   "property": "C31",
   "status": "proved",
   "theorems": [
    "Wot.C31_display",
    "Wot.C31_names_distinct",
    "Wot.C31_reads",
    "Wot.C31_reads_element",
    "Wot.C31_standard",
    "Wot.C31_forms"
   ],
   "note": ""
  },
  {
   "property": "C32",
   "status": "proved",
   "theorems": [
    "Wot.C32_predefined",
    "Wot.C32_custom_written",
    "Wot.C32_custom",
    "Wot.C32_custom_null",
    "Wot.C32_custom_taken"
   ],
   "note": ""
  },
  {
   "property": "C33",
   "status": "proved",
   "theorems": [
    "Wot.C33_thing_written",
    "Wot.C33_form_written",
    "Wot.C33_thing_read",
    "Wot.C33_form_read",
    "Wot.C33_form_op_read",
    "Wot.C33_form_response_read",
    "Wot.C33_link_read",
    "Wot.C33_schema_read",
    "Wot.C33_affordance_read",
    "Wot.C33_security_read",
    "Wot.C33_scheme_read"
   ],
   "note": ""
  },
  {
   "property": "C34",
   "status": "proved",
   "theorems": [
    "Wot.C34_split_head",
    "Wot.C34_elements",
    "Wot.C34_non_empty",
    "Wot.C34_split_last",
    "Wot.C34_split_last_added",
    "Wot.C34_reverse",
    "Wot.C34_reverse_reverse",
    "Wot.C34_to_ref",
    "Wot.C34_to_mut",
    "Wot.C34_to_mut_behind"
   ],
   "note": ""
  },
  {
   "property": "C35",
   "status": "proved",
   "theorems": [
    "Wot.C35_members",
    "Wot.C35_read_back",
    "Wot.C35_empty",
    "Wot.C35_conflict",
    "Wot.C35_flattened"
   ],
   "note": ""
  },
  {
   "property": "C36",
   "status": "proved",
   "theorems": [
    "Wot.C36_forms",
    "Wot.C36_things",
    "Wot.C36_text"
   ],
   "note": "C36_forms and C36_things contain the negation: HTTP responses without headers are written but never read. C36_text: the same for the text a Thing is written as, where besides no property may carry the same information twice."
  },
  {
   "property": "C37",
   "status": "proved",
   "theorems": [
    "Wot.C37_thing",
    "Wot.C37_form",
    "Wot.C37_additional",
    "Wot.C37_link",
    "Wot.C37_schema",
    "Wot.C37_property",
    "Wot.C37_action",
    "Wot.C37_event",
    "Wot.C37_security",
    "Wot.C37_spelled_thing",
    "Wot.C37_spelled_form",
    "Wot.C37_spelled_parts",
    "Wot.C37_spelled_schema",
    "Wot.C37_spelled_affordances",
    "Wot.C37_spelled_security",
    "Wot.C37_spelled_scheme"
   ],
   "note": ""
  },
  {
   "property": "C38",
   "status": "partial",
   "theorems": [
    "Wot.C38_thing_partial",
    "Wot.C38_form",
    "Wot.C38_link",
    "Wot.C38_schema_partial",
    "Wot.C38_affordances_partial",
    "Wot.C38_security_partial",
    "Wot.C38_bindings_partial",
    "Wot.C38_order_partial",
    "Wot.C38_text_or_value_partial",
    "Wot.C38_first_bound",
    "Wot.C38_bound_order",
    "Wot.C38_last_translation",
    "Wot.C38_translation_order",
    "Wot.C38_predefined_unknown",
    "Wot.C38_custom_unknown",
    "Wot.C38_combination_unknown"
   ],
   "note": "The property is false of the code in three cases, which the definition of Edited leaves out: both names of a bound in one schema (C38_bound_order; C38_first_bound is the exact rule), two spellings of a language (C38_translation_order; C38_last_translation is the exact rule), and unknown members of security definitions (C38_predefined_unknown, C38_custom_unknown and C38_combination_unknown say exactly what happens). The _partial theorems cover all other edits, anywhere in the document, done or undone any number of times, for all extensions that read members by name, among them all stacks of the protocol bindings."
  },
  {
   "property": "C39",
   "status": "proved",
   "theorems": [
    "Wot.C39_thing",
    "Wot.C39_form",
    "Wot.C39_response",
    "Wot.C39_link",
    "Wot.C39_property",
    "Wot.C39_action",
    "Wot.C39_event",
    "Wot.C39_security",
    "Wot.C39_parts",
    "Wot.C39_scheme_members"
   ],
   "note": ""
  },
  {
   "property": "C40",
   "status": "proved",
   "theorems": [
    "Wot.C40_members",
    "Wot.C40_swap",
    "Wot.C40_names",
    "Wot.C40_swap_names"
   ],
   "note": ""
  },
  {
   "property": "C41",
   "status": "proved",
   "theorems": [
    "Wot.C41_thing",
    "Wot.C41_finish",
    "Wot.C41_history",
    "Wot.C41_form",
    "Wot.C41_form_calls",
    "Wot.C41_property_calls",
    "Wot.C41_action_calls",
    "Wot.C41_event_calls",
    "Wot.C41_schema"
   ],
   "note": ""
  },
  {
   "property": "C42",
   "status": "proved",
   "theorems": [
    "Wot.C42_first",
    "Wot.C42_reported",
    "Wot.C42_phases"
   ],
   "note": ""
  },
  {
   "property": "C43",
   "status": "proved",
   "theorems": [
    "Wot.C43_schema",
    "Wot.C43_property_schema"
   ],
   "note": ""
  },
  {
   "property": "C44",
   "status": "proved",
   "theorems": [
    "Wot.C44_all",
    "Wot.C44_form"
   ],
   "note": ""
  },
  {
   "property": "C45",
   "status": "proved",
   "theorems": [
    "Wot.C45_all_properties",
    "Wot.C45_all_actions",
    "Wot.C45_all_events",
    "Wot.C45_property",
    "Wot.C45_action",
    "Wot.C45_event"
   ],
   "note": ""
  },
  {
   "property": "C46",
   "status": "proved",
   "theorems": [
    "Wot.C46_kind",
    "Wot.C46_common",
    "Wot.C46_psk_identity"
   ],
   "note": ""
  },
  {
   "property": "C47",
   "status": "proved",
   "theorems": [
    "Wot.C47_link",
    "Wot.C47_built"
   ],
   "note": ""
  },
  {
   "property": "C48",
   "status": "proved",
   "theorems": [
    "Wot.C48_writable",
    "Wot.C48_custom_data"
   ],
   "note": ""
  },
  {
   "property": "C51",
   "status": "proved",
   "theorems": [
    "Wot.C51_thing",
    "Wot.C51_property",
    "Wot.C51_action",
    "Wot.C51_event",
    "Wot.C51_schema",
    "Wot.C51_form",
    "Wot.C51_link",
    "Wot.C51_security",
    "Wot.C51_scheme"
   ],
   "note": ""
  },
  {
   "property": "C50",
   "status": "proved",
   "theorems": [
    "Wot.C50_reread",
    "Wot.C50_same",
    "Wot.C50_extensions",
    "Wot.C50_settles",
    "Wot.C50_text",
    "Wot.C50_bindings",
    "Wot.C50_false",
    "Wot.C50_repeated"
   ],
   "note": "C50_false: without the exception for empty lists of operations the claim is false. C50_repeated: with repeated members the second reading may differ. Hypothesis: the laws of the external functions in SerdeEnv.Stable (language tags and instants that have been read are written and read as themselves). C50_bindings: with any set of protocol bindings, for the value and for the text."
  },
  {
   "property": "C49",
   "status": "proved",
   "theorems": [
    "Wot.C49_value",
    "Wot.C49_text",
    "Wot.C49_built",
    "Wot.C49_read",
    "Wot.C49_reading"
   ],
   "note": ""
  },
  {
   "property": "C52",
   "status": "proved",
   "theorems": [
    "Wot.C52_value",
    "Wot.C52_text",
    "Wot.C52_built",
    "Wot.C52_read",
    "Wot.C52_bindings_lawful",
    "Wot.C52_bindings"
   ],
   "note": "Spec/Written.lean and Spec/WrittenProtocol.lean list the members of each part. The exception for custom security schemes whose data uses names of other members is a hypothesis (OwnNames), met by every Thing that has been read; the last example of Props/Written.lean shows that it cannot be dropped."
  },
  {
   "property": "C53",
   "status": "proved",
   "theorems": [
    "Wot.C53_property_string",
    "Wot.C53_elsewhere",
    "Wot.C53_last_call"
   ],
   "note": "That the calls do not exist on a property builder or after read_only/write_only is read off the trait impls: the model returns none for them (KindBuilder.apply) and excludes them from PartialKindReach."
  },
  {
   "property": "C54",
   "status": "proved",
   "theorems": [
    "Wot.C54_converts_iff",
    "Wot.C54_error",
    "Wot.C54_result",
    "Wot.C54_calls",
    "Wot.C54_order",
    "Wot.C54_same_as_build",
    "Wot.C54_unchecked"
   ],
   "note": "C54_unchecked states that no ranges are checked."
  },
  {
   "property": "C55",
   "status": "proved",
   "theorems": [
    "Wot.C55_type",
    "Wot.C55_property_type",
    "Wot.C55_untyped",
    "Wot.C55_says",
    "Wot.C55_property_says",
    "Wot.C55_bad_bound",
    "Wot.C55_integers"
   ],
   "note": "C55_type: when a type is recognised (and otherwise all of it is dropped, C55_untyped); C55_says: what each constraint is; C55_bad_bound: unreadable bounds; C55_integers: integers as floats. Property affordances: C55_property_type, C55_property_says."
  },
  {
   "property": "C56",
   "status": "partial",
   "theorems": [
    "Wot.C56_written_partial",
    "Wot.C56_schema_partial",
    "Wot.C56_array_bounds",
    "Wot.C56_data_response",
    "Wot.C56_bounds_ignored",
    "Wot.C56_property_bounds_ignored",
    "Wot.C56_data_response_ignored",
    "Wot.C56_known_partial",
    "Wot.C56_false"
   ],
   "note": "False as stated for three members (C56_false): minItems, maxItems (C56_array_bounds, C56_bounds_ignored) and dataResponse (C56_data_response, C56_data_response_ignored). C56_written_partial and C56_known_partial: it holds for all others."
  },
  {
   "property": "C57",
   "status": "proved",
   "theorems": [
    "Wot.C57_equal_iff",
    "Wot.C57_reflexive",
    "Wot.C57_symmetric",
    "Wot.C57_transitive",
    "Wot.C57_bindings",
    "Wot.C57_read",
    "Wot.C57_round_trip",
    "Wot.C57_not_reflexive",
    "Wot.C57_equal_different"
   ],
   "note": "C57_equal_iff: when two Things are equal; C57_reflexive, C57_symmetric, C57_transitive. C57_read, C57_round_trip: Things that are equal to themselves; C57_not_reflexive: a built one that is not. C57_bindings: the condition on extensions."
  },
  {
   "property": "C58",
   "status": "proved",
   "theorems": [
    "Wot.C58_read",
    "Wot.C58_unique",
    "Wot.C58_grammar",
    "Wot.C58_schema",
    "Wot.C58_last_property",
    "Wot.C58_written"
   ],
   "note": "C58_read: the equivalence, against the relation in Spec/Meaning; C58_unique, C58_grammar: it is functional and agrees with C51; C58_schema: data schemas alone; C58_last_property: repeated names; C58_written: the written value means the Thing."
  },
  {
   "property": "C59",
   "status": "partial",
   "theorems": [
    "Wot.C59_distinct",
    "Wot.C59_culprit",
    "Wot.C59_operation",
    "Wot.C59_listed",
    "Wot.C59_true_partial",
    "Wot.C59_combination"
   ],
   "note": "C59_distinct: different errors have different messages; C59_culprit and C59_operation: the name and the operation at fault are quoted; C59_listed: there are no other messages than the sentences in Spec/Message; C59_true_partial: the message of a refused build is true of the calls, unless it is the one about an undeclared data schema caused by a combo scheme, for which C59_combination is the negation with a witness."
  },
  {
   "property": "C60",
   "status": "partial",
   "theorems": [
    "Wot.C60_link",
    "Wot.C60_version",
    "Wot.C60_additional",
    "Wot.C60_response",
    "Wot.C60_form",
    "Wot.C60_schema",
    "Wot.C60_kinds",
    "Wot.C60_property",
    "Wot.C60_action",
    "Wot.C60_event",
    "Wot.C60_security",
    "Wot.C60_thing_partial",
    "Wot.C60_context",
    "Wot.C60_builder",
    "Wot.C60_scheme_builder",
    "Wot.C60_kind_builder",
    "Wot.C60_nil",
    "Wot.C60_cons",
    "Wot.C60_protocols",
    "Wot.C60_http_response"
   ],
   "note": "One theorem for each type, C60_kinds for the kinds of data schemas; C60_builder, C60_scheme_builder and C60_kind_builder for builders; C60_nil, C60_cons, C60_protocols for extensions. C60_thing_partial leaves out the context of a Thing, and C60_context proves that the full statement is false there; C60_http_response is the negation for responses of the HTTP binding."
  },
  {
   "property": "C61",
   "status": "proved",
   "theorems": [
    "Wot.C61_http",
    "Wot.C61_coap",
    "Wot.C61_mqtt",
    "Wot.C61_forms",
    "Wot.C61_responses",
    "Wot.C61_in_form",
    "Wot.C61_written",
    "Wot.C61_behind"
   ],
   "note": "C61_http, C61_coap, C61_mqtt: the equivalence for each binding, against the relations in Spec/MeaningProtocol; C61_forms, C61_responses: for every set of bindings; C61_in_form: in a document; C61_written: for what is written. C61_behind: what other extensions are offered behind a binding."
  },
  {
   "property": "C62",
   "status": "proved",
   "theorems": [
    "Wot.C62_bound",
    "Wot.C62_bindings",
    "Wot.C62_limit",
    "Wot.C62_read_back",
    "Wot.C62_too_deep",
    "Wot.C62_any_depth",
    "Wot.C62_limit_needed"
   ],
   "note": "C62_bound: the bound on nesting; C62_limit: what the limit does; C62_read_back: texts within the bound are read back; C62_too_deep: texts of deeper schemas are refused, while the value is read back; C62_any_depth: built Things of every depth; C62_limit_needed: so the limit is a real restriction. Between the two thresholds it depends on how the schemas nest (oneOf, items and properties add one or two levels). C62_bindings: protocol bindings nest at most two deep, so they do not matter for the bound."
  },
  {
   "property": "C63",
   "status": "proved",
   "theorems": [
    "Wot.C63_things",
    "Wot.C63_order",
    "Wot.C63_forms",
    "Wot.C63_schemes",
    "Wot.C63_links",
    "Wot.C63_schemas",
    "Wot.C63_free"
   ],
   "note": "C63_things: the equivalence, against Buildable in Spec/Buildable; C63_schemas, C63_forms, C63_links, C63_schemes: the same for the parts; C63_order: independence of the iteration order; C63_free: the members that are not restricted. The extension data of a data schema that restricts nothing is arbitrary here, while in the code it is the Default of its type."
  },
  {
   "property": "C64",
   "status": "proved",
   "theorems": [
    "Wot.C64_value",
    "Wot.C64_text",
    "Wot.C64_null_lost"
   ],
   "note": "C64_value and C64_text: the equivalence, for values and for text; C64_null_lost: a Thing for which what is read back cannot be built. Same conditions as C28_built (laws of external functions and extensions)."
  },
  {
   "property": "C65",
   "status": "proved",
   "theorems": [
    "Wot.C65_read",
    "Wot.C65_unambiguous",
    "Wot.C65_white_space",
    "Wot.C65_written",
    "Wot.C65_read_back",
    "Wot.C65_injective"
   ],
   "note": "C65_read: the reader and the grammar of Spec/JsonText are the same relation; C65_unambiguous; C65_white_space; C65_written and C65_read_back: both writers; C65_injective. serde_json is a dependency that is modelled from its documented behaviour (Model/JsonText); conversion of floats is a parameter."
  },
  {
   "property": "C66",
   "status": "proved",
   "theorems": [
    "Wot.C66_reads",
    "Wot.C66_any_spelling",
    "Wot.C66_written",
    "Wot.C66_read_back",
    "Wot.C66_built",
    "Wot.C66_lasts",
    "Wot.C66_reread",
    "Wot.C66_bindings",
    "Wot.C66_injective",
    "Wot.C66_law_needed"
   ],
   "note": "C66_reads, C66_any_spelling: strings and values; C66_written, C66_read_back, C66_built: writing and reading back; C66_reread: what was read, written and read again, if the numbers in the text last (C66_lasts: they do if every float is read as written; C70: otherwise if they are short); C66_injective; C66_law_needed: a float read in a different last place changes the Thing without an error. C66_bindings: C66_reread for any set of protocol bindings, with no condition on them but HTTP headers."
  },
  {
   "property": "C67",
   "status": "proved",
   "theorems": [
    "Wot.C67_both",
    "Wot.C67_laid_out",
    "Wot.C67_one_line",
    "Wot.C67_shortest"
   ],
   "note": "C67_one_line, C67_shortest: the compact string; C67_both, C67_laid_out: the string with line breaks as a function of the compact one (Spec/Layout)."
  },
  {
   "property": "C68",
   "status": "proved",
   "theorems": [
    "Wot.C68_calendar",
    "Wot.C68_read",
    "Wot.C68_unambiguous",
    "Wot.C68_written",
    "Wot.C68_expressible",
    "Wot.C68_readable",
    "Wot.C68_read_back",
    "Wot.C68_injective",
    "Wot.C68_settles",
    "Wot.C68_laws",
    "Wot.C68_thing_read",
    "Wot.C68_refused",
    "Wot.C68_unwritable",
    "Wot.C68_thing_written",
    "Wot.C68_built",
    "Wot.C68_thing_reread"
   ],
   "note": "C68_calendar, C68_read, C68_unambiguous, C68_written, C68_expressible, C68_readable, C68_read_back, C68_injective, C68_settles: texts and instants (Spec/Time); C68_laws: the laws of instants that C28, C50 and others assume; C68_thing_read, C68_refused, C68_thing_written, C68_built, C68_unwritable, C68_thing_reread: the instants of Things. The time crate is modelled from memory (Model/Time)."
  },
  {
   "property": "C69",
   "status": "proved",
   "theorems": [
    "Wot.C69_accepted",
    "Wot.C69_checked",
    "Wot.C69_formatted",
    "Wot.C69_letters",
    "Wot.C69_same",
    "Wot.C69_case",
    "Wot.C69_idempotent",
    "Wot.C69_loose",
    "Wot.C69_well_formed",
    "Wot.C69_laws",
    "Wot.C69_stable",
    "Wot.C69_built",
    "Wot.C69_translations",
    "Wot.C69_lost",
    "Wot.C69_keys",
    "Wot.C69_stored",
    "Wot.C69_reread",
    "Wot.C69_thing_read",
    "Wot.C69_refused"
   ],
   "note": "C69_accepted, C69_checked, C69_formatted, C69_letters, C69_same, C69_case, C69_idempotent, C69_well_formed, C69_loose: texts and tags (Spec/LangTag); C69_laws, C69_stable: the laws of language tags that C28, C38, C50 and others assume; C69_built, C69_translations, C69_lost, C69_keys: builders; C69_thing_read, C69_refused, C69_stored, C69_reread: documents. oxilangtag is modelled from memory (Model/LangTag)."
  },
  {
   "property": "C70",
   "status": "proved",
   "theorems": [
    "Wot.C70_notation",
    "Wot.C70_extreme",
    "Wot.C70_read",
    "Wot.C70_nearest_unique",
    "Wot.C70_finite",
    "Wot.C70_written",
    "Wot.C70_zero",
    "Wot.C70_keeps",
    "Wot.C70_integers",
    "Wot.C70_short_texts",
    "Wot.C70_lasts",
    "Wot.C70_reread",
    "Wot.C70_bindings",
    "Wot.C70_close",
    "Wot.C70_read_close",
    "Wot.C70_read_large",
    "Wot.C70_tree",
    "Wot.C70_lost",
    "Wot.C70_range_needed",
    "Wot.C70_thing_lost"
   ],
   "note": "C70_read, C70_nearest_unique, C70_finite, C70_extreme: reading; C70_written, C70_zero, C70_notation: writing; C70_keeps, C70_integers, C70_short_texts, C70_lasts: what survives; C70_reread, C70_bindings: Things, with texts, floats, languages and instants all as modelled; C70_close, C70_read_close, C70_read_large, C70_tree: how far a number can move; C70_lost, C70_range_needed, C70_thing_lost: what does not survive. serde_json and ryu are modelled from memory (Model/FloatText)."
  },
  {
   "property": "C71",
   "status": "proved",
   "theorems": [
    "Wot.C71_read",
    "Wot.C71_lawful",
    "Wot.C71_same_texts",
    "Wot.C71_reread",
    "Wot.C71_bindings"
   ],
   "note": "C71_read: reading; C71_lawful, C71_same_texts: the law of floats that C65 and C66 assume; C71_reread, C71_bindings: Things. serde_json and ryu are modelled from memory (Model/FloatText)."
  },
  {
   "property": "C72",
   "status": "proved",
   "theorems": [
    "Wot.C72_moves",
    "Wot.C72_in_range",
    "Wot.C72_read_back",
    "Wot.C72_reread",
    "Wot.C72_bindings",
    "Wot.C72_reloads",
    "Wot.C72_read_reloads",
    "Wot.C72_drifts"
   ],
   "note": "C72_moves, C72_in_range: numbers; C72_read_back, C72_reread, C72_bindings: once; C72_reloads, C72_read_reloads: any number of times; C72_drifts: numbers that do not come to rest. serde_json and ryu are modelled from memory (Model/FloatText)."
  },
  {
   "property": "C73",
   "status": "proved",
   "theorems": [
    "Wot.C73_shows_all",
    "Wot.C73_affordances",
    "Wot.C73_names",
    "Wot.C73_entries",
    "Wot.C73_clone",
    "Wot.C73_clone_equal"
   ],
   "note": "C73_shows_all, C73_affordances: nothing is left out; C73_names, C73_entries: names, order and entries; C73_clone, C73_clone_equal: forms. What derived implementations print, and how std lays it out as text, is not modelled."
  },
  {
   "property": "C74",
   "status": "proved",
   "theorems": [
    "Wot.C74_reads",
    "Wot.C74_unambiguous",
    "Wot.C74_does_not_matter",
    "Wot.C74_ordinary",
    "Wot.C74_nothing_new",
    "Wot.C74_links",
    "Wot.C74_version",
    "Wot.C74_elsewhere",
    "Wot.C74_numbers"
   ],
   "note": "C74_reads, C74_unambiguous, C74_ordinary: which texts are read, and as what; C74_does_not_matter, C74_links, C74_version: what is skipped makes no difference; C74_elsewhere, C74_numbers: nothing else is skipped; C74_nothing_new: no new Things."
  },
  {
   "property": "C75",
   "status": "partial",
   "theorems": [
    "Wot.C75_written",
    "Wot.C75_written_partial",
    "Wot.C75_written_limits",
    "Wot.C75_thing_written",
    "Wot.C75_read",
    "Wot.C75_read_partial",
    "Wot.C75_thing_read",
    "Wot.C75_limit_read",
    "Wot.C75_limit_written",
    "Wot.C75_infinite",
    "Wot.C75_null",
    "Wot.C75_two_bounds",
    "Wot.C75_odd_bound",
    "Wot.C75_bad_length",
    "Wot.C75_inexact_bound"
   ],
   "note": "False in general: C75_limit_read, C75_limit_written, C75_infinite, C75_null, C75_two_bounds, C75_odd_bound, C75_bad_length, C75_inexact_bound are the ways in which the values differ. Proved where none of them is present: C75_written_partial and C75_read_partial for a schema, C75_thing_written and C75_thing_read for all schemas of a Thing; C75_written and C75_read without a condition on limits, under the names of the library for them; C75_written_limits: what others see of a schema with limits is the schema without them."
  },
  {
   "property": "C76",
   "status": "partial",
   "theorems": [
    "Wot.C76_written",
    "Wot.C76_built_partial",
    "Wot.C76_no_security",
    "Wot.C76_no_model",
    "Wot.C76_no_forms",
    "Wot.C76_single_combo",
    "Wot.C76_place",
    "Wot.C76_custom_name",
    "Wot.C76_no_endpoint",
    "Wot.C76_undeclared",
    "Wot.C76_infinite",
    "Wot.C76_zero_step"
   ],
   "note": "False in general: C76_no_security, C76_no_model, C76_no_forms, C76_single_combo, C76_place, C76_custom_name, C76_no_endpoint, C76_undeclared, C76_infinite, C76_zero_step are Things that are built and have documents that do not conform. C76_built_partial: these are all the ways, the document conforms if and only if none of them is taken; C76_written: the same for any Thing, however it came about."
  },
  {
   "property": "C77",
   "status": "partial",
   "theorems": [
    "Wot.C77_read_partial",
    "Wot.C77_read",
    "Wot.C77_schema",
    "Wot.C77_property",
    "Wot.C77_action",
    "Wot.C77_form",
    "Wot.C77_link",
    "Wot.C77_security",
    "Wot.C77_scheme",
    "Wot.C77_data_response",
    "Wot.C77_auto_place",
    "Wot.C77_no_qop",
    "Wot.C77_combo_members"
   ],
   "note": "False in general: C77_data_response is a document that conforms and is not read; C77_auto_place, C77_no_qop, C77_combo_members are definitions that are read as custom schemes. C77_read_partial: no other documents are refused (exact condition); C77_read without such members; C77_schema, C77_property, C77_action, C77_form, C77_link, C77_security for the parts; C77_scheme: exactly which definitions are read as predefined. serde_json::from_str also limits the depth, see C62."
  },
  {
   "property": "C78",
   "status": "partial",
   "theorems": [
    "Wot.C78_rewritten_partial",
    "Wot.C78_version",
    "Wot.C78_operations"
   ],
   "note": "False in general: C78_version and C78_operations are documents that conform, are read, and are written as ones that do not. C78_rewritten_partial: these are all the ways (exact condition on the document that is read), for any nesting, custom and predefined schemes, translations, instants and numbers."
  },
  {
   "property": "C79",
   "status": "partial",
   "theorems": [
    "Wot.C79_written",
    "Wot.C79_read",
    "Wot.C79_rewritten",
    "Wot.C79_locked",
    "Wot.C79_open_partial",
    "Wot.C79_itself",
    "Wot.C79_each_other",
    "Wot.C79_no_choice",
    "Wot.C79_custom"
   ],
   "note": "False in general: C79_itself, C79_each_other, C79_no_choice and C79_custom are built Things with a form that no client can use. C79_open_partial: under conditions on the combinations, every form is open to a client with all credentials; C79_locked: the exact rule. Proved in full: C79_written, C79_read and C79_rewritten, that writing and reading open and close nothing."
  },
  {
   "property": "C80",
   "status": "partial",
   "theorems": [
    "Wot.C80_written_partial",
    "Wot.C80_built",
    "Wot.C80_kind",
    "Wot.C80_read",
    "Wot.C80_rewritten_partial",
    "Wot.C80_empty"
   ],
   "note": "False in general: C80_empty is a document that conforms, with a form that offers nothing; read and written again, it offers to subscribe. C80_rewritten_partial and C80_written_partial: this is the only way, exactly for which operations. Proved in full: C80_built, C80_kind and C80_read."
  },
  {
   "property": "C81",
   "status": "proved",
   "theorems": [
    "Wot.C81_calls",
    "Wot.C81_together",
    "Wot.C81_clash",
    "Wot.C81_contents",
    "Wot.C81_order",
    "Wot.C81_without",
    "Wot.C81_needed"
   ],
   "note": "C81_together: when the calls of two Things, made one after the other, build. C81_clash: the error otherwise. C81_contents: what the Thing is. C81_calls: the calls can be made. C81_order, C81_without; C81_needed: why other calls cannot be left out."
  },
  {
   "property": "C82",
   "status": "proved",
   "theorems": [
    "Wot.C82_completable",
    "Wot.C82_lasting",
    "Wot.C82_variables"
   ],
   "note": "C82_completable: some continuation builds iff nothing is wrong for good. C82_lasting: after most errors no continuation builds. C82_variables: the same error with and without a remedy."
  },
  {
   "property": "C83",
   "status": "proved",
   "theorems": [
    "Wot.C83_written",
    "Wot.C83_written_text",
    "Wot.C83_plain",
    "Wot.C83_last",
    "Wot.C83_earlier",
    "Wot.C83_steps",
    "Wot.C83_agree",
    "Wot.C83_order",
    "Wot.C83_order_of_several",
    "Wot.C83_accepts",
    "Wot.C83_accepts_plain",
    "Wot.C83_same_value",
    "Wot.C83_order_written",
    "Wot.C83_order_written_of_several",
    "Wot.C83_read_alike_false",
    "Wot.C83_order_written_false",
    "Wot.C83_bindings",
    "Wot.C83_without_binding",
    "Wot.C83_binding_order"
   ],
   "note": "C83_written and C83_written_text: documents of one program in another. C83_plain, C83_last, C83_earlier, C83_steps: particular programs. C83_agree, C83_order, C83_order_of_several: all documents. C83_accepts, C83_accepts_plain: which documents are read. C83_read_alike_false: documents from elsewhere can be read differently. C83_same_value, C83_order_written, C83_order_written_of_several, C83_order_written_false: what is written. C83_bindings, C83_without_binding, C83_binding_order: protocol bindings."
  },
  {
   "property": "C84",
   "status": "proved",
   "theorems": [
    "Wot.C84_written",
    "Wot.C84_plain",
    "Wot.C84_earlier",
    "Wot.C84_last",
    "Wot.C84_passed_on",
    "Wot.C84_steps",
    "Wot.C84_less_steps",
    "Wot.C84_without_binding",
    "Wot.C84_member",
    "Wot.C84_nothing_new",
    "Wot.C84_elements",
    "Wot.C84_nothing_missing",
    "Wot.C84_scalar",
    "Wot.C84_separate_needed"
   ],
   "note": "C84_written: any two programs related as stated. C84_plain, C84_earlier, C84_last: particular programs. C84_passed_on: reading and writing again. C84_steps, C84_less_steps: several extensions. C84_without_binding: protocol bindings. C84_member, C84_nothing_new, C84_elements, C84_scalar, C84_nothing_missing: what the relation says. C84_separate_needed: names of their own are needed."
  },
  {
   "property": "C85",
   "status": "proved",
   "theorems": [
    "Wot.C85_built",
    "Wot.C85_access",
    "Wot.C85_operations",
    "Wot.C85_values",
    "Wot.C85_changed",
    "Wot.C85_changed_built",
    "Wot.C85_passed_on",
    "Wot.C85_readers"
   ],
   "note": "C85_built, C85_access, C85_operations, C85_values: two Things that differ only in extension values. C85_changed, C85_changed_built: a Thing with other extension values. C85_passed_on, C85_readers: programs that read the same document."
  },
  {
   "property": "C86",
   "status": "proved",
   "theorems": [
    "Wot.C86_violations",
    "Wot.C86_succeeds",
    "Wot.C86_phase",
    "Wot.C86_error",
    "Wot.C86_things",
    "Wot.C86_other",
    "Wot.C86_without"
   ],
   "note": "C86_violations, C86_succeeds, C86_phase, C86_error, C86_things: calls that differ only in extension values. C86_other, C86_without: the same calls in a program with other extensions, or none."
  },
  {
   "property": "C87",
   "status": "proved",
   "theorems": [
    "Wot.C87_calls",
    "Wot.C87_faults",
    "Wot.C87_succeeds",
    "Wot.C87_thing",
    "Wot.C87_error",
    "Wot.C87_error_only",
    "Wot.C87_entry",
    "Wot.C87_nothing_else",
    "Wot.C87_affordances",
    "Wot.C87_back"
   ],
   "note": "C87_calls: the renamed program can be written. C87_faults, C87_succeeds, C87_thing, C87_error, C87_error_only: what its build does. C87_entry, C87_nothing_else, C87_affordances: what is under which name. C87_back: nothing is lost but the names. URI variables are not renamed."
  },
  {
   "property": "C88",
   "status": "proved",
   "theorems": [
    "Wot.C88_forms",
    "Wot.C88_places",
    "Wot.C88_opens",
    "Wot.C88_offers",
    "Wot.C88_program",
    "Wot.C88_custom"
   ],
   "note": "C88_forms, C88_places: which forms are where. C88_opens: who can use them. C88_offers: the operations. C88_program: the same for a program that uses other names. C88_custom: the exception."
  },
  {
   "property": "C89",
   "status": "proved",
   "theorems": [
    "Wot.C89_apart",
    "Wot.C89_together",
    "Wot.C89_both",
    "Wot.C89_fresh",
    "Wot.C89_always"
   ],
   "note": "C89_together: the calls together succeed. C89_both: the names in the result are those of both. C89_apart, C89_fresh, C89_always: new names can always be found."
  },
  {
   "property": "C90",
   "status": "proved",
   "theorems": [
    "Wot.C90_written",
    "Wot.C90_read_back",
    "Wot.C90_lossless",
    "Wot.C90_text",
    "Wot.C90_equal",
    "Wot.C90_program"
   ],
   "note": "C90_written: what can be written. C90_read_back, C90_lossless: what comes back from a value. C90_text: the same for text. C90_equal: comparing. C90_program: for the Things of two programs."
  },
  {
   "property": "C91",
   "status": "proved",
   "theorems": [
    "Wot.C91_calls",
    "Wot.C91_security",
    "Wot.C91_less_security",
    "Wot.C91_schema",
    "Wot.C91_less_schema"
   ],
   "note": "C91_calls: the shorter program can be written. C91_security, C91_schema: when building still succeeds. C91_less_security, C91_less_schema: what is built."
  },
  {
   "property": "C92",
   "status": "proved",
   "theorems": [
    "Wot.C92_independent",
    "Wot.C92_only_one",
    "Wot.C92_property",
    "Wot.C92_action",
    "Wot.C92_event",
    "Wot.C92_form",
    "Wot.C92_link",
    "Wot.C92_replaced"
   ],
   "note": "C92_independent, C92_only_one: the program without the call builds a Thing. C92_property, C92_action, C92_event, C92_form, C92_link: which one. C92_replaced: not so of calls that replace others."
  },
  {
   "property": "C93",
   "status": "proved",
   "theorems": [
    "Wot.C93_met",
    "Wot.C93_opens",
    "Wot.C93_more",
    "Wot.C93_same"
   ],
   "note": "C93_met: what is met under the other names. C93_opens: exactly who can use a form afterwards. C93_more, C93_same: nothing is closed, and when nothing is opened."
  },
  {
   "property": "C94",
   "status": "proved",
   "theorems": [
    "Wot.C94_property",
    "Wot.C94_action",
    "Wot.C94_event",
    "Wot.C94_schema",
    "Wot.C94_uriVariable",
    "Wot.C94_security"
   ],
   "note": "C94_property, C94_action, C94_event, C94_security, C94_schema, C94_uriVariable: for each kind of entry."
  },
  {
   "property": "C95",
   "status": "proved",
   "theorems": [
    "Wot.C95_property_opens",
    "Wot.C95_property_offers",
    "Wot.C95_action_opens",
    "Wot.C95_action_offers",
    "Wot.C95_event_opens",
    "Wot.C95_event_offers"
   ],
   "note": "C95_property_opens, C95_action_opens, C95_event_opens: who can use which forms. C95_property_offers, C95_action_offers, C95_event_offers: what they offer. That Things are built and read with sorted maps, as is assumed here, is C49."
  }
 ]
}
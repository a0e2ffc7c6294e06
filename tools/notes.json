{
 "C11": [
  "proved",
  "The property as stated is about the type of each URI variable itself. C11_hidden_in_oneOf is the negation for arrays hidden among oneOf alternatives."
 ],
 "C15": [
  "partial",
  "C15_response_schemas_partial holds for Thing-level forms. C15_affordance_forms_unchecked proves that the code never checks the additional responses of affordance forms, in any affordance context."
 ],
 "C07": [
  "partial",
  "The property is false of the code. C07_integer_acceptance and C07_number_acceptance give the exact rule; C07_mixed_bounds_rejected and C07_empty_range_accepted are the negations; the C07_*_partial theorems say in which cases acceptance and non-emptiness of the range coincide."
 ],
 "C09": [
  "partial",
  "The property is false of the code: C09_unchecked is the negation, for each of the three unchecked positions. C09_rules_partial covers all other positions."
 ],
 "C10": [
  "proved",
  "A NaN multipleOf is accepted, as the property says (C10_multiple_of)."
 ],
 "C22": [
  "proved",
  "C22_mixed_not_transitive records that minima and maxima taken together are not ordered transitively; the property does not claim it."
 ],
 "C13": [
  "proved",
  "C13_collision and C13_order_matters prove the part of the statement about two spellings of the same tag: which text survives depends on the iteration order."
 ],
 "C29": [
  "partial",
  "The property is false of the code: C29_false is the negation of the full statement (TextRoundTrip) and C29_text_fails says which Things are never read back. C29_exact is the exact rule and C29_text_round_trip_partial covers the Things without repeated human readable information."
 ],
 "C28": [
  "proved",
  "C28_what_comes_back says what is read back of every Thing meeting the conditions, C28_exact when this is the Thing itself. The conditions on JSON values (no repeated members) and maps hold of all values of the Rust types."
 ],
 "C36": [
  "proved",
  "C36_forms and C36_things contain the negation: HTTP responses without headers are written but never read. C36_text: the same for the text a Thing is written as, where besides no property may carry the same information twice."
 ],
 "C38": [
  "partial",
  "The property is false of the code in three cases, which the definition of Edited leaves out: both names of a bound in one schema (C38_bound_order; C38_first_bound is the exact rule), two spellings of a language (C38_translation_order; C38_last_translation is the exact rule), and unknown members of security definitions (C38_predefined_unknown, C38_custom_unknown and C38_combination_unknown say exactly what happens). The _partial theorems cover all other edits, anywhere in the document, done or undone any number of times, for all extensions that read members by name, among them all stacks of the protocol bindings."
 ],
 "C50": [
  "proved",
  "C50_false: without the exception for empty lists of operations the claim is false. C50_repeated: with repeated members the second reading may differ. Hypothesis: the laws of the external functions in SerdeEnv.Stable (language tags and instants that have been read are written and read as themselves). C50_bindings: with any set of protocol bindings, for the value and for the text."
 ],
 "C52": [
  "proved",
  "Spec/Written.lean and Spec/WrittenProtocol.lean list the members of each part. The exception for custom security schemes whose data uses names of other members is a hypothesis (OwnNames), met by every Thing that has been read; the last example of Props/Written.lean shows that it cannot be dropped."
 ],
 "C53": [
  "proved",
  "That the calls do not exist on a property builder or after read_only/write_only is read off the trait impls: the model returns none for them (KindBuilder.apply) and excludes them from PartialKindReach."
 ],
 "C54": [
  "proved",
  "C54_unchecked states that no ranges are checked."
 ],
 "C55": [
  "proved",
  "C55_type: when a type is recognised (and otherwise all of it is dropped, C55_untyped); C55_says: what each constraint is; C55_bad_bound: unreadable bounds; C55_integers: integers as floats. Property affordances: C55_property_type, C55_property_says."
 ],
 "C56": [
  "partial",
  "False as stated for three members (C56_false): minItems, maxItems (C56_array_bounds, C56_bounds_ignored) and dataResponse (C56_data_response, C56_data_response_ignored). C56_written_partial and C56_known_partial: it holds for all others."
 ],
 "C57": [
  "proved",
  "C57_equal_iff: when two Things are equal; C57_reflexive, C57_symmetric, C57_transitive. C57_read, C57_round_trip: Things that are equal to themselves; C57_not_reflexive: a built one that is not. C57_bindings: the condition on extensions."
 ],
 "C58": [
  "proved",
  "C58_read: the equivalence, against the relation in Spec/Meaning; C58_unique, C58_grammar: it is functional and agrees with C51; C58_schema: data schemas alone; C58_last_property: repeated names; C58_written: the written value means the Thing."
 ],
 "C59": [
  "partial",
  "C59_distinct: different errors have different messages; C59_culprit and C59_operation: the name and the operation at fault are quoted; C59_listed: there are no other messages than the sentences in Spec/Message; C59_true_partial: the message of a refused build is true of the calls, unless it is the one about an undeclared data schema caused by a combo scheme, for which C59_combination is the negation with a witness."
 ],
 "C60": [
  "partial",
  "One theorem for each type, C60_kinds for the kinds of data schemas; C60_builder, C60_scheme_builder and C60_kind_builder for builders; C60_nil, C60_cons, C60_protocols for extensions. C60_thing_partial leaves out the context of a Thing, and C60_context proves that the full statement is false there; C60_http_response is the negation for responses of the HTTP binding."
 ],
 "C61": [
  "proved",
  "C61_http, C61_coap, C61_mqtt: the equivalence for each binding, against the relations in Spec/MeaningProtocol; C61_forms, C61_responses: for every set of bindings; C61_in_form: in a document; C61_written: for what is written. C61_behind: what other extensions are offered behind a binding."
 ],
 "C62": [
  "proved",
  "C62_bound: the bound on nesting; C62_limit: what the limit does; C62_read_back: texts within the bound are read back; C62_too_deep: texts of deeper schemas are refused, while the value is read back; C62_any_depth: built Things of every depth; C62_limit_needed: so the limit is a real restriction. Between the two thresholds it depends on how the schemas nest (oneOf, items and properties add one or two levels). C62_bindings: protocol bindings nest at most two deep, so they do not matter for the bound."
 ],
 "C63": [
  "proved",
  "C63_things: the equivalence, against Buildable in Spec/Buildable; C63_schemas, C63_forms, C63_links, C63_schemes: the same for the parts; C63_order: independence of the iteration order; C63_free: the members that are not restricted. The extension data of a data schema that restricts nothing is arbitrary here, while in the code it is the Default of its type."
 ],
 "C64": [
  "proved",
  "C64_value and C64_text: the equivalence, for values and for text; C64_null_lost: a Thing for which what is read back cannot be built. Same conditions as C28_built (laws of external functions and extensions)."
 ],
 "C65": [
  "proved",
  "C65_read: the reader and the grammar of Spec/JsonText are the same relation; C65_unambiguous; C65_white_space; C65_written and C65_read_back: both writers; C65_injective. serde_json is a dependency that is modelled from its documented behaviour (Model/JsonText); conversion of floats is a parameter."
 ],
 "C66": [
  "proved",
  "C66_reads, C66_any_spelling: strings and values; C66_written, C66_read_back, C66_built: writing and reading back; C66_reread: what was read, written and read again, if the numbers in the text last (C66_lasts: they do if every float is read as written; C70: otherwise if they are short); C66_injective; C66_law_needed: a float read in a different last place changes the Thing without an error. C66_bindings: C66_reread for any set of protocol bindings, with no condition on them but HTTP headers."
 ],
 "C67": [
  "proved",
  "C67_one_line, C67_shortest: the compact string; C67_both, C67_laid_out: the string with line breaks as a function of the compact one (Spec/Layout)."
 ],
 "C68": [
  "proved",
  "C68_calendar, C68_read, C68_unambiguous, C68_written, C68_expressible, C68_readable, C68_read_back, C68_injective, C68_settles: texts and instants (Spec/Time); C68_laws: the laws of instants that C28, C50 and others assume; C68_thing_read, C68_refused, C68_thing_written, C68_built, C68_unwritable, C68_thing_reread: the instants of Things. The time crate is modelled from memory (Model/Time)."
 ],
 "C69": [
  "proved",
  "C69_accepted, C69_checked, C69_formatted, C69_letters, C69_same, C69_case, C69_idempotent, C69_well_formed, C69_loose: texts and tags (Spec/LangTag); C69_laws, C69_stable: the laws of language tags that C28, C38, C50 and others assume; C69_built, C69_translations, C69_lost, C69_keys: builders; C69_thing_read, C69_refused, C69_stored, C69_reread: documents. oxilangtag is modelled from memory (Model/LangTag)."
 ],
 "C70": [
  "proved",
  "C70_read, C70_nearest_unique, C70_finite, C70_extreme: reading; C70_written, C70_zero, C70_notation: writing; C70_keeps, C70_integers, C70_short_texts, C70_lasts: what survives; C70_reread, C70_bindings: Things, with texts, floats, languages and instants all as modelled; C70_close, C70_read_close, C70_read_large, C70_tree: how far a number can move; C70_lost, C70_range_needed, C70_thing_lost: what does not survive. serde_json and ryu are modelled from memory (Model/FloatText)."
 ],
 "C71": [
  "proved",
  "C71_read: reading; C71_lawful, C71_same_texts: the law of floats that C65 and C66 assume; C71_reread, C71_bindings: Things. serde_json and ryu are modelled from memory (Model/FloatText)."
 ],
 "C72": [
  "proved",
  "C72_moves, C72_in_range: numbers; C72_read_back, C72_reread, C72_bindings: once; C72_reloads, C72_read_reloads: any number of times; C72_drifts: numbers that do not come to rest. serde_json and ryu are modelled from memory (Model/FloatText)."
 ],
 "C73": [
  "proved",
  "C73_shows_all, C73_affordances: nothing is left out; C73_names, C73_entries: names, order and entries; C73_clone, C73_clone_equal: forms. What derived implementations print, and how std lays it out as text, is not modelled."
 ],
 "C74": [
  "proved",
  "C74_reads, C74_unambiguous, C74_ordinary: which texts are read, and as what; C74_does_not_matter, C74_links, C74_version: what is skipped makes no difference; C74_elsewhere, C74_numbers: nothing else is skipped; C74_nothing_new: no new Things."
 ],
 "C75": [
  "partial",
  "False in general: C75_limit_read, C75_limit_written, C75_infinite, C75_null, C75_two_bounds, C75_odd_bound, C75_bad_length, C75_inexact_bound are the ways in which the values differ. Proved where none of them is present: C75_written_partial and C75_read_partial for a schema, C75_thing_written and C75_thing_read for all schemas of a Thing; C75_written and C75_read without a condition on limits, under the names of the library for them; C75_written_limits: what others see of a schema with limits is the schema without them."
 ],
 "C76": [
  "partial",
  "False in general: C76_no_security, C76_no_model, C76_no_forms, C76_single_combo, C76_place, C76_custom_name, C76_no_endpoint, C76_undeclared, C76_infinite, C76_zero_step are Things that are built and have documents that do not conform. C76_built_partial: these are all the ways, the document conforms if and only if none of them is taken; C76_written: the same for any Thing, however it came about."
 ],
 "C77": [
  "partial",
  "False in general: C77_data_response is a document that conforms and is not read; C77_auto_place, C77_no_qop, C77_combo_members are definitions that are read as custom schemes. C77_read_partial: no other documents are refused (exact condition); C77_read without such members; C77_schema, C77_property, C77_action, C77_form, C77_link, C77_security for the parts; C77_scheme: exactly which definitions are read as predefined. serde_json::from_str also limits the depth, see C62."
 ],
 "C78": [
  "partial",
  "False in general: C78_version and C78_operations are documents that conform, are read, and are written as ones that do not. C78_rewritten_partial: these are all the ways (exact condition on the document that is read), for any nesting, custom and predefined schemes, translations, instants and numbers."
 ],
 "C79": [
  "partial",
  "False in general: C79_itself, C79_each_other, C79_no_choice and C79_custom are built Things with a form that no client can use. C79_open_partial: under conditions on the combinations, every form is open to a client with all credentials; C79_locked: the exact rule. Proved in full: C79_written, C79_read and C79_rewritten, that writing and reading open and close nothing."
 ],
 "C80": [
  "partial",
  "False in general: C80_empty is a document that conforms, with a form that offers nothing; read and written again, it offers to subscribe. C80_rewritten_partial and C80_written_partial: this is the only way, exactly for which operations. Proved in full: C80_built, C80_kind and C80_read."
 ],
 "C81": [
  "proved",
  "C81_together: when the calls of two Things, made one after the other, build. C81_clash: the error otherwise. C81_contents: what the Thing is. C81_calls: the calls can be made. C81_order, C81_without; C81_needed: why other calls cannot be left out."
 ],
 "C82": [
  "proved",
  "C82_completable: some continuation builds iff nothing is wrong for good. C82_lasting: after most errors no continuation builds. C82_variables: the same error with and without a remedy."
 ],
 "C83": [
  "proved",
  "C83_written and C83_written_text: documents of one program in another. C83_plain, C83_last, C83_earlier, C83_steps: particular programs. C83_agree, C83_order, C83_order_of_several: all documents. C83_accepts, C83_accepts_plain: which documents are read. C83_read_alike_false: documents from elsewhere can be read differently. C83_same_value, C83_order_written, C83_order_written_of_several, C83_order_written_false: what is written. C83_bindings, C83_without_binding, C83_binding_order: protocol bindings."
 ],
 "C84": [
  "proved",
  "C84_written: any two programs related as stated. C84_plain, C84_earlier, C84_last: particular programs. C84_passed_on: reading and writing again. C84_steps, C84_less_steps: several extensions. C84_without_binding: protocol bindings. C84_member, C84_nothing_new, C84_elements, C84_scalar, C84_nothing_missing: what the relation says. C84_separate_needed: names of their own are needed."
 ],
 "C85": [
  "proved",
  "C85_built, C85_access, C85_operations, C85_values: two Things that differ only in extension values. C85_changed, C85_changed_built: a Thing with other extension values. C85_passed_on, C85_readers: programs that read the same document."
 ],
 "C86": [
  "proved",
  "C86_violations, C86_succeeds, C86_phase, C86_error, C86_things: calls that differ only in extension values. C86_other, C86_without: the same calls in a program with other extensions, or none."
 ],
 "C87": [
  "proved",
  "C87_calls: the renamed program can be written. C87_faults, C87_succeeds, C87_thing, C87_error, C87_error_only: what its build does. C87_entry, C87_nothing_else, C87_affordances: what is under which name. C87_back: nothing is lost but the names. URI variables are not renamed."
 ],
 "C88": [
  "proved",
  "C88_forms, C88_places: which forms are where. C88_opens: who can use them. C88_offers: the operations. C88_program: the same for a program that uses other names. C88_custom: the exception."
 ],
 "C89": [
  "proved",
  "C89_together: the calls together succeed. C89_both: the names in the result are those of both. C89_apart, C89_fresh, C89_always: new names can always be found."
 ],
 "C90": [
  "proved",
  "C90_written: what can be written. C90_read_back, C90_lossless: what comes back from a value. C90_text: the same for text. C90_equal: comparing. C90_program: for the Things of two programs."
 ],
 "C91": [
  "proved",
  "C91_calls: the shorter program can be written. C91_security, C91_schema: when building still succeeds. C91_less_security, C91_less_schema: what is built."
 ],
 "C92": [
  "proved",
  "C92_independent, C92_only_one: the program without the call builds a Thing. C92_property, C92_action, C92_event, C92_form, C92_link: which one. C92_replaced: not so of calls that replace others."
 ],
 "C93": [
  "proved",
  "C93_met: what is met under the other names. C93_opens: exactly who can use a form afterwards. C93_more, C93_same: nothing is closed, and when nothing is opened."
 ],
 "C94": [
  "proved",
  "C94_property, C94_action, C94_event, C94_security, C94_schema, C94_uriVariable: for each kind of entry."
 ],
 "C95": [
  "proved",
  "C95_property_opens, C95_action_opens, C95_event_opens: who can use which forms. C95_property_offers, C95_action_offers, C95_event_offers: what they offer. That Things are built and read with sorted maps, as is assumed here, is C49."
 ]
}
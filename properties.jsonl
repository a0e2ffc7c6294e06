{"id": "C01", "title": "Security definition names are unique", "statement": "ThingBuilder::build fails with DuplicatedSecurityDefinition(name) whenever two .security(..) calls end up with the same name (explicit or defaulted) and nothing earlier fails; whenever build succeeds, the resulting securityDefinitions map holds exactly one entry per .security(..) call, under that call's name.", "quantifier": "every sequence of builder calls", "why_tests_cant": "The set of name collisions (explicit key against scheme-derived default) is unbounded; tests try one or two.", "anchors": ["src/builder.rs:ThingBuilder::build", "src/builder.rs:ThingBuilder::security"]}
{"id": "C02", "title": "Thing-level security only names defined schemes", "statement": "In every Thing that build returns, each entry of `security` is a key of `securityDefinitions`; `security` lists the names of the required schemes in call order.", "quantifier": "every sequence of builder calls", "why_tests_cant": "Needs an invariant over all call histories.", "anchors": ["src/builder.rs:ThingBuilder::security", "src/builder.rs:ThingBuilder::build"]}
{"id": "C03", "title": "Form security only names defined schemes", "statement": "In every Thing that build returns, every security name used by any form (Thing-level or in any property, action or event) is a key of `securityDefinitions`; an undefined name makes build fail with UndefinedSecurity for an undefined name.", "quantifier": "every builder state, every form in it", "why_tests_cant": "Number of affordances and forms is unbounded.", "anchors": ["src/builder.rs:build_form_from_builder", "src/builder/affordance.rs:check_form_builders"]}
{"id": "C04", "title": "Thing-level forms carry explicit Thing-level operations", "statement": "In every Thing that build returns, every Thing-level form has an explicit operation list whose members are all Thing-level (multi-property, multi-event, all-actions) operations; otherwise build fails with MissingOpInForm or InvalidOpInForm{Thing, op}.", "quantifier": "every builder state, every Thing-level form and every one of its operations", "why_tests_cant": "Unbounded lists of operations.", "anchors": ["src/builder.rs:build_form_from_builder"]}
{"id": "C05", "title": "Affordance forms only carry operations of their kind", "statement": "In every Thing that build returns, every form of a property uses only read/write/observe/unobserveproperty, of an action only invoke/query/cancelaction, of an event only subscribe/unsubscribeevent (or the default operation); otherwise build fails with InvalidOpInForm for that affordance kind.", "quantifier": "every builder state, affordance, form and operation", "why_tests_cant": "Unbounded lists of affordances, forms and operations.", "anchors": ["src/builder.rs:ThingBuilder::build", "src/builder/affordance.rs:check_form_builders"]}
{"id": "C06", "title": "Affordance names are unique per kind and none is lost", "statement": "When build succeeds the names of properties, actions and events are pairwise distinct per kind and the resulting maps have exactly those names; if two affordances of a kind share a name, build fails (with DuplicatedAffordance{kind,name} if nothing earlier fails). An empty list gives an absent member.", "quantifier": "every sequence of property/action/event calls", "why_tests_cant": "A map silently overwriting or dropping an entry on some name pattern cannot be excluded by examples.", "anchors": ["src/builder.rs:try_build_affordance"]}
{"id": "C07", "title": "Numeric range acceptance", "statement": "A number or integer schema with both bounds set is accepted by build exactly when the described range is non-empty (documented: min must be less or equal than max). FALSE of the code: ranges mixing an inclusive and an exclusive bound are always rejected, and exclusive/exclusive ranges with equal bounds, which are empty, are accepted. The exact acceptance rule and both negations are proved.", "quantifier": "all i64 bounds and all f64 bit patterns, both kinds of bound", "why_tests_cant": "2^64 bounds per side, times NaN, infinities, signed zero, times four inclusive/exclusive combinations.", "anchors": ["src/thing.rs:Minimum", "src/thing.rs:Maximum", "src/thing.rs:partial_cmp", "src/builder/data_schema.rs:check_data_schema_subtype"]}
{"id": "C08", "title": "Nested schemas in checked positions are all valid", "statement": "If build succeeds then every data schema reachable (through items, object properties and oneOf, at any depth) from a property, an action input/output, or an event subscription/data/cancellation satisfies the range, NaN and multipleOf rules; if one does not, build fails. The traversal terminates.", "quantifier": "every schema tree of any depth and width, any map iteration order", "why_tests_cant": "Nesting depth and width are unbounded and the traversal is an explicit stack loop.", "anchors": ["src/builder/data_schema.rs:check_data_schema_subtype", "src/builder/data_schema.rs:check_one_of_schema", "src/builder.rs:try_build_affordance"]}
{"id": "C09", "title": "Range rules hold for every data schema of a built Thing", "statement": "Every data schema anywhere in a built Thing satisfies the range, NaN and multipleOf rules. FALSE of the code: schemaDefinitions, uriVariables and an event's dataResponse are never checked; proved as negations with witnesses, together with the exact list of positions where it holds.", "quantifier": "every builder state", "why_tests_cant": "A claim about all positions and all builder states.", "anchors": ["src/builder.rs:ThingBuilder::build", "src/builder/data_schema.rs:CheckableDataSchema"]}
{"id": "C10", "title": "multipleOf is strictly positive", "statement": "A number schema whose multipleOf is zero or negative (including -0.0 and -infinity) in a checked position makes build fail; NaN multipleOf is, however, accepted (documented rule 'strictly greater than 0' is violated for NaN).", "quantifier": "all f64 bit patterns", "why_tests_cant": "All bit patterns of a double.", "anchors": ["src/builder/data_schema.rs:check_data_schema_subtype"]}
{"id": "C11", "title": "URI variables are never arrays or objects", "statement": "In every Thing that build returns no uriVariables entry, at Thing level or in any affordance, has an array or object type; otherwise build fails. An array or object hidden inside a oneOf is not detected (negation proved for 'no value described by a URI variable is an array or object').", "quantifier": "every builder state", "why_tests_cant": "Unbounded number of variables and affordances.", "anchors": ["src/builder.rs:ThingBuilder::build", "src/builder/data_schema.rs:uri_variables_contains_arrays_objects", "src/builder/affordance.rs:CheckableInteractionAffordanceBuilder"]}
{"id": "C12", "title": "Language tags are validated everywhere", "statement": "If build succeeds then every language key given for titles/descriptions anywhere (Thing, affordances, security schemes, all nested data schemas) and every link hreflang was accepted by the language-tag parser, and the built maps are keyed by the parsed tags; if any of them is rejected by the parser build fails, and an InvalidLanguageTag(k) error names a key k that was supplied and is rejected.", "quantifier": "every builder state, any parser", "why_tests_cant": "Keys and nesting are unbounded; the parser is external.", "anchors": ["src/builder.rs:MultiLanguageBuilder::build", "src/builder/data_schema.rs:TryFrom<UncheckedDataSchema>", "src/builder.rs:TryFrom<UncheckedLink>"]}
{"id": "C13", "title": "Translations with distinct tags are all preserved", "statement": "Calling add(lang, text) for several languages keeps, for each language, the last text supplied; build keeps one entry per distinct parsed tag. FALSE when two different spellings parse to the same tag: one entry is lost, and which one depends on the hash map's iteration order (negation proved); with spellings that parse injectively nothing is lost.", "quantifier": "every sequence of add calls, every iteration order", "why_tests_cant": "Depends on hash iteration order.", "anchors": ["src/builder.rs:MultiLanguageBuilder"]}
{"id": "C14", "title": "sizes only on icon links", "statement": "In every Thing that build returns each link with `sizes` has rel \"icon\"; a link with sizes and any other rel makes build fail with SizesWithRelNotIcon if nothing earlier fails. Links keep call order and all supplied fields; an empty hreflang list is absent.", "quantifier": "every sequence of link/link_with calls", "why_tests_cant": "Unbounded sequences of links.", "anchors": ["src/builder.rs:TryFrom<UncheckedLink>", "src/builder.rs:LinkBuilder"]}
{"id": "C15", "title": "Additional responses name declared schemas", "statement": "In every Thing that build returns each `schema` of an additional response is a key of schemaDefinitions. Holds for Thing-level forms; FALSE for forms inside affordances, which are not checked (negation proved).", "quantifier": "every builder state", "why_tests_cant": "Unbounded forms and responses.", "anchors": ["src/builder.rs:build_form_from_builder", "src/builder/affordance.rs:check_form_builders"]}
{"id": "C16", "title": "Combo schemes only reference defined schemes", "statement": "In every Thing that build returns each name listed in a combo security scheme's oneOf/allOf is a key of securityDefinitions (forward references allowed); otherwise build fails. The error reported is MissingSchemaDefinition.", "quantifier": "every sequence of security calls", "why_tests_cant": "Unbounded, order-independent cross references.", "anchors": ["src/builder.rs:ThingBuilder::build"]}
{"id": "C17", "title": "Build is exactly its documented validation", "statement": "build returns Ok if and only if every validation condition (unique names, references, operations, ranges in checked positions, URI-variable types, language tags, link sizes) holds of what was supplied; it has no other way to fail and never panics.", "quantifier": "every reachable builder state, every map iteration order", "why_tests_cant": "A complete characterisation of failure cannot be sampled.", "anchors": ["src/builder.rs:ThingBuilder::build"]}
{"id": "C18", "title": "Errors tell the truth", "statement": "Each error value returned by build describes a violation that is really present in what was supplied (the duplicated name occurs twice, the undefined name is used and undefined, the operation is in a form of that context and not allowed there, the range is in a checked schema, ...).", "quantifier": "every failing builder state", "why_tests_cant": "All failing inputs.", "anchors": ["src/builder.rs:Error", "src/builder.rs:ThingBuilder::build"]}
{"id": "C19", "title": "Build result does not depend on hash-map iteration order", "statement": "Whether build succeeds does not depend on the iteration order of any internal hash map, and if spellings of language tags parse injectively the built Thing is the same for every order; only which of several errors is reported may vary.", "quantifier": "all builder states and all pairs of iteration orders", "why_tests_cant": "The order is randomised per process.", "anchors": ["src/builder.rs:ThingBuilder::build", "src/builder/data_schema.rs:check_data_schema_subtype"]}
{"id": "C20", "title": "Nothing supplied to the builder is lost or altered", "statement": "When build succeeds every member of the Thing equals what the call history prescribes: scalar setters last-wins, attype/profile/security/link/form append in call order, uri_variable/schema_definition last-wins per name, affordances by name with their own fields preserved.", "quantifier": "every sequence of builder calls", "why_tests_cant": "All histories.", "anchors": ["src/builder.rs:ThingBuilder"]}
{"id": "C21", "title": "Context construction", "statement": "The @context of a built Thing is the plain TD 1.1 string if nothing else was added, otherwise an array starting with the TD 1.1 string followed by the added contexts in call order; adding the TD 1.1 context again is a no-op; the construction never panics.", "quantifier": "every sequence of context/context_map calls", "why_tests_cant": "The code contains two unwraps whose safety is an invariant over histories.", "anchors": ["src/builder.rs:ThingBuilder::context", "src/builder.rs:ThingBuilder::context_map", "src/builder.rs:ThingBuilder::build"]}
{"id": "C22", "title": "Bound comparison is a consistent partial order", "statement": "Comparing minima with minima and maxima with maxima is consistent with equality, antisymmetric under swapping, and transitive; comparing a minimum with a maximum and the reverse comparison always agree (duality), and neither ever contradicts equality.", "quantifier": "all bounds over any partial order (i64, f64 with NaN)", "why_tests_cant": "Order laws quantify over pairs and triples of values.", "anchors": ["src/thing.rs:PartialOrd for Minimum", "src/thing.rs:PartialOrd for Maximum", "src/thing.rs:PartialOrd<Maximum> for Minimum"]}
{"id": "C23", "title": "Bounds setters: last call wins, one bound per side", "statement": "After any sequence of minimum/exclusive_minimum/maximum/exclusive_maximum calls, the schema holds for each side exactly the bound of the last call on that side, with that call's inclusive/exclusive kind, independent of the other side's calls.", "quantifier": "every sequence of bound-setter calls", "why_tests_cant": "All interleavings.", "anchors": ["src/builder/data_schema.rs:NumberDataSchemaBuilderLike", "src/builder/data_schema.rs:IntegerDataSchemaBuilderLike"]}
{"id": "C24", "title": "Builder schemas are never both readOnly and writeOnly", "statement": "No data schema produced by the builder, at any depth, has readOnly and writeOnly both true; read_only()/write_only() produce exactly that flag.", "quantifier": "every sequence of data-schema builder calls", "why_tests_cant": "All histories and nestings.", "anchors": ["src/builder/data_schema.rs:ReadableWriteableDataSchema", "src/builder/data_schema.rs:ReadOnly", "src/builder/data_schema.rs:WriteOnly"]}
{"id": "C25", "title": "Object schemas: required is a subset of properties", "statement": "For object schemas produced by the builder, every name in `required` is a key of `properties`; each property maps to the schema of the last call with that name; required keeps call order and multiplicity.", "quantifier": "every sequence of property(name, required, ..) calls", "why_tests_cant": "All histories.", "anchors": ["src/builder/data_schema.rs:ObjectDataSchemaBuilder", "src/builder/data_schema.rs:From<ObjectDataSchemaBuilder>"]}
{"id": "C26", "title": "Schema variants are well-formed", "statement": "Schemas produced by the builder carry a type, or an enum, or a oneOf or a constant consistently: oneOf and enum never occur together nor with a type, and a constant occurs only on untyped or stateless schemas; tuples always have a list of item schemas, vectors at most one.", "quantifier": "every sequence of data-schema builder calls", "why_tests_cant": "All histories and nestings.", "anchors": ["src/builder/data_schema.rs:Specializable", "src/builder/data_schema.rs:EnumerableDataSchema", "src/builder/data_schema.rs:UnionDataSchema"]}
{"id": "C27", "title": "A property's interaction and schema agree", "statement": "In every built property the human-readable members (@type, title, titles, description, descriptions) of the interaction part and of the data-schema part are identical.", "quantifier": "every built Thing", "why_tests_cant": "All histories.", "anchors": ["src/builder/affordance.rs:BuildableAffordance for UsablePropertyAffordanceBuilder"]}
{"id": "C28", "title": "Thing round trip through a JSON value", "statement": "Writing a Thing as a JSON value and reading it back yields the Thing, except that null const/default values, infinite or NaN bounds and multiples are gone, an explicitly empty operation list is the default, a custom security scheme without data has an empty object, and the two parts of a property carry the same human readable information. The very same Thing comes back iff nothing of this kind is in it. It requires that maps are maps, tags and instants parse back, custom schemes use no reserved names and extensions read what they wrote; Things from a builder meet the conditions up to the values handed over.", "quantifier": "all Things of any size, all extension types with their own member names", "why_tests_cant": "Recursive data of unbounded size.", "anchors": ["src/thing.rs:Thing", "src/thing.rs:DataSchema"]}
{"id": "C29", "title": "JSON text round trip", "statement": "Serialising a built Thing to JSON text and parsing it back yields the same Thing. FALSE of the code: a property with @type, title(s) or description(s) emits these members twice (once per flattened part) and the duplicate member makes deserialisation fail; proved as a negation for every such property, and as a round trip for the others.", "quantifier": "all built Things", "why_tests_cant": "Quantifies over all Things; existing tests go through serde_json::Value, which hides duplicate members.", "anchors": ["src/thing.rs:PropertyAffordance"]}
{"id": "C30", "title": "Data schema round trip", "statement": "Every data schema of any nesting depth, with finite numeric bounds and no null const/default, survives serialise/deserialise unchanged; a null const, or an infinite or NaN bound, is silently lost (negations proved).", "quantifier": "all schema trees", "why_tests_cant": "Unbounded recursion.", "anchors": ["src/thing.rs:DataSchema", "src/thing.rs:DataSchemaSubtype", "src/thing.rs:ArraySchema", "src/thing.rs:ObjectSchema", "src/thing.rs:NumberSchema", "src/thing.rs:IntegerSchema"]}
{"id": "C31", "title": "Form operations round trip and names", "statement": "The 18 operation names are pairwise distinct, displayed names equal serialised names, deserialisation accepts exactly those names (as a string, or as the only member of an object with the value null; within a list also with an empty object); a form's operation list survives a round trip iff it is not an explicitly empty list (which turns into the default).", "quantifier": "all operation lists", "why_tests_cant": "Lists are unbounded.", "anchors": ["src/thing.rs:FormOperation", "src/thing.rs:DefaultedFormOperations"]}
{"id": "C32", "title": "Security scheme round trip", "statement": "Every predefined security scheme survives a round trip; a custom scheme survives iff its data is an object without reserved member names and it cannot be read as a predefined scheme; custom schemes with non-object, non-null data cannot be serialised, with null data come back with an empty object (negations proved).", "quantifier": "all security schemes", "why_tests_cant": "Arbitrary JSON data.", "anchors": ["src/thing.rs:SecurityScheme", "src/thing.rs:SecuritySchemeSubtype", "src/thing.rs:UnknownSecuritySchemeSubtype"]}
{"id": "C33", "title": "OneOrMany members", "statement": "Members accepting one-or-many are written as a single value when they have exactly one element and as an array otherwise, and both spellings of a singleton are read back as the same list.", "quantifier": "all lists of strings / operations / tags / responses", "why_tests_cant": "Unbounded lists.", "anchors": ["src/thing.rs:OneOrMany"]}
{"id": "C34", "title": "Heterogeneous list laws", "statement": "For lists of any length: cons/split_head invert each other, split_last returns the first-added element and the rest in order, reverse reverses and is an involution, to_ref/to_mut preserve shape and order.", "quantifier": "heterogeneous lists of any length", "why_tests_cant": "Types of unbounded length.", "anchors": ["src/hlist.rs:Cons", "src/hlist.rs:NonEmptyHList", "src/hlist.rs:HListRef"]}
{"id": "C35", "title": "Extensions are flattened and read back", "statement": "A list of extensions serialises to the concatenation of the members of its components; if components use disjoint member names, every component is read back unchanged, whatever the list's length; the empty list adds nothing and accepts anything.", "quantifier": "extension lists of any length with lawful components", "why_tests_cant": "Any number and kind of extensions.", "anchors": ["src/hlist.rs:Serialize for Nil", "src/hlist.rs:Cons", "src/extend.rs:ExtendableThing"]}
{"id": "C36", "title": "Protocol binding members round trip", "statement": "A form or a built Thing with any set of the HTTP, CoAP and MQTT bindings is always written. It is read back, as much as any Thing is, from every document that says the same, iff every HTTP response in it names at least one header; a form or Thing with an HTTP response without headers can be written but never read. The same holds of the text it is written as, provided that no property carries the same human readable information twice.", "quantifier": "all sets of bindings, all values of the binding types, all built Things", "why_tests_cant": "All integers and strings.", "anchors": ["src/protocol/http.rs:Response", "src/protocol/coap.rs:Form", "src/protocol/mqtt.rs:Form"]}
{"id": "C37", "title": "Defaults on absent members", "statement": "Reading a document lacking optional members yields the documented defaults: @context TD 1.1, readOnly/writeOnly/safe/idempotent false, form op default, security locations header (query for API keys), bearer alg ES256 and format jwt, additional response success false.", "quantifier": "every document lacking those members", "why_tests_cant": "Quantifies over all other members of the document.", "anchors": ["src/thing.rs:default_context", "src/thing.rs:BasicSecurityScheme", "src/thing.rs:BearerSecurityScheme", "src/thing.rs:AdditionalExpectedResponse"]}
{"id": "C38", "title": "Reading ignores member order and unknown members", "statement": "Permuting the members of a JSON object, or adding members with unknown names, does not change what a Thing, form, link or schema is read as (with empty extensions).", "quantifier": "all documents and permutations", "why_tests_cant": "All permutations of all documents.", "anchors": ["src/thing.rs:Thing", "src/thing.rs:Form", "src/thing.rs:Link"]}
{"id": "C39", "title": "Required members are required", "statement": "Reading fails if title, security or securityDefinitions of a Thing, href of a form or link, or forms of an affordance is missing.", "quantifier": "all documents", "why_tests_cant": "All other members arbitrary.", "anchors": ["src/thing.rs:Thing", "src/thing.rs:Form", "src/thing.rs:Link", "src/thing.rs:InteractionAffordance"]}
{"id": "C40", "title": "Independent builder calls commute", "statement": "Two builder calls that concern different members can be swapped anywhere in a history without changing the result of build.", "quantifier": "all histories and all pairs of calls on different members", "why_tests_cant": "All interleavings.", "anchors": ["src/builder.rs:ThingBuilder"]}
{"id": "C41", "title": "Extending keeps what was set", "statement": "Adding an extension to a Thing/form/data-schema builder and finishing the extension phase changes nothing but the extension value: every member set before is in the built result.", "quantifier": "all builders in the extendable phase", "why_tests_cant": "All histories before extension.", "anchors": ["src/builder.rs:ThingBuilder::ext_with", "src/builder.rs:ThingBuilder::finish_extend", "src/builder/data_schema.rs:PartialDataSchemaBuilder::ext_with", "src/extend.rs:Extend"]}
{"id": "C42", "title": "Which error is reported", "statement": "build examines what was supplied in a fixed sequence of phases (security definitions, combo references, schema definitions, Thing forms, URI variable types, URI variable languages, properties, actions, events, links, titles, descriptions); the error returned describes something that is wrong in the first phase in which anything is wrong.", "quantifier": "every failing builder state, every map iteration order", "why_tests_cant": "Ranges over all combinations of simultaneous violations.", "anchors": ["src/builder.rs:ThingBuilder::build"]}
{"id": "C43", "title": "A data schema is exactly what its builder calls say", "statement": "Converting a data schema builder yields the schema described by the sequence of calls alone: the specialising call fixes the type, for each scalar member the last call counts, enumeration values, alternatives, tuple items and required names accumulate in call order, and no call influences a member it does not name. The same holds for the schema of a property.", "quantifier": "every sequence of builder calls that the types allow", "why_tests_cant": "The number and order of calls are unbounded.", "anchors": ["src/builder/data_schema.rs", "src/builder/affordance.rs"]}
{"id": "C44", "title": "A form is exactly what its builder calls say", "statement": "A form passed to a Thing or affordance has the href it was given, the operations in call order (default when none was given), the security names and scopes in call order, for every other member the last value given, the additional responses in call order, and the extension values that were added; no call influences a member it does not name.", "quantifier": "every sequence of calls on a form builder that the types allow", "why_tests_cant": "The number, order and repetition of calls are unbounded; a test fixes one sequence.", "anchors": ["src/builder.rs:FormBuilder", "src/builder.rs:AdditionalExpectedResponseBuilder"]}
{"id": "C45", "title": "An affordance is exactly what its builder calls say", "statement": "The property, action or event description handed to build contains the forms in call order, the URI variables by name with the last one winning, the last value of each of its other members, and for properties the schema described by the schema calls; actions are unsafe, not idempotent and without synchronous information unless a call says otherwise.", "quantifier": "every sequence of calls on a property, action or event builder that the types allow", "why_tests_cant": "The number, order and repetition of calls are unbounded; a test fixes one sequence.", "anchors": ["src/builder/affordance.rs:PropertyAffordanceBuilder", "src/builder/affordance.rs:ActionAffordanceBuilder", "src/builder/affordance.rs:EventAffordanceBuilder"]}
{"id": "C46", "title": "A security scheme is exactly what its builder calls say", "statement": "A security closure chooses the kind of the scheme by exactly one call. The scheme has that kind, the last value given for each member, the TD default for members never given, the combo members in call order, the explicit definition key if one was given, and is marked required iff required was called. A psk scheme never has an identity.", "quantifier": "every sequence of calls on a security scheme builder that the types allow", "why_tests_cant": "The number, order and repetition of calls are unbounded; a test fixes one sequence.", "anchors": ["src/builder.rs:SecuritySchemeBuilder"]}
{"id": "C47", "title": "A link is exactly what its builder calls say", "statement": "A link has the href it was given, the last type, relation, anchor and sizes given whether before or after the href, and the parsed languages in call order; it has no language list iff none was given.", "quantifier": "every sequence of calls on a link builder, every language tag parser", "why_tests_cant": "The number, order and repetition of calls are unbounded; a test fixes one sequence.", "anchors": ["src/builder.rs:LinkBuilder", "src/builder.rs:UncheckedLink"]}
{"id": "C48", "title": "Which Things can be written", "statement": "Writing a Thing, as a JSON value or as text, succeeds iff its instants have an RFC 3339 form, the data of every custom security scheme is an object or null, and every extension value can be written. In particular a custom security scheme whose data is a string, number, boolean or array builds, but can never be written.", "quantifier": "all Things of any size, all extension types", "why_tests_cant": "Quantifies over recursive data of unbounded size; a test writes one Thing.", "anchors": ["src/thing.rs:Thing", "src/thing.rs:SecuritySchemeSubtype", "src/thing.rs:UnknownSecuritySchemeSubtype"]}
{"id": "C51", "title": "Which documents are read", "statement": "A JSON document is read as a Thing iff it follows a fixed grammar: the mandatory members are there once, no other known member is repeated, and every member's value has the form its name demands, at every depth; the same for properties, actions, events, forms, links, schemas and security definitions on their own. A security definition is read as one of the predefined schemes iff its scheme is named (or numbered) like one and has the members that scheme demands; otherwise it is taken as a custom scheme.", "quantifier": "all JSON documents of any size and depth", "why_tests_cant": "Quantifies over every document, also malformed ones, with repeated members, wrong types and unknown members anywhere.", "anchors": ["src/thing.rs:Thing", "src/thing.rs:Form", "src/thing.rs:DataSchema", "src/thing.rs:SecuritySchemeSubtype"]}
{"id": "C50", "title": "Things that have been read can be written and read again", "statement": "Every Thing read from a JSON document without repeated members can be written as a JSON value, and reading that value succeeds; the result is the same Thing, except that a form with an explicitly empty list of operations has the default operations afterwards. Writing and reading it any further number of times changes nothing. The extensions must be able to write what they read and to read what they write; this holds of the protocol bindings, except that an HTTP response with an explicitly empty list of headers is written in a form that cannot be read. The text of such a Thing can be read just when no property has human readable information.", "quantifier": "all JSON documents of any size and depth, all numbers of 64 bits, all extensions, all stacks of protocol bindings", "why_tests_cant": "Quantifies over every document that is read, of unbounded size and nesting, and over any number of rounds; a test loads and saves a few files.", "anchors": ["src/thing.rs:Thing", "src/thing.rs:DefaultedFormOperations", "src/thing.rs:SecuritySchemeSubtype", "src/protocol/http.rs:Response"]}
{"id": "C49", "title": "What is written does not depend on hash-map iteration order", "statement": "For every Thing that has been built or read, two processes that iterate its hash maps in different orders produce the same JSON value, or both fail; their JSON texts differ in the order of members only. Reading does not depend on iteration order either.", "quantifier": "all Things of any size and depth, all pairs of iteration orders of every map, all extensions", "why_tests_cant": "The iteration order of a HashMap is chosen at random per process; a test run sees one order of each map.", "anchors": ["src/thing.rs:Thing", "src/thing.rs:MultiLanguage", "src/thing.rs:ObjectSchema", "src/thing.rs:SecurityScheme"]}
{"id": "C52", "title": "What the written JSON looks like", "statement": "The JSON written for a Thing shows each part of the Thing under the member name that belongs to it and nothing else, at every level: absent optional parts have no member, lists stay lists (a single operation, too), one-or-many strings are a string when there is one of them, default operations are left out, flags of schemas are always there, numeric bounds have the name that says whether they are inclusive, security definitions carry the name of their scheme, properties merge interaction and schema members, and extensions and protocol bindings add their own members. This holds of every Thing that has been read, and of every Thing that has been built unless the data of a custom security scheme uses the name of another member.", "quantifier": "all Things of any size and depth, all extensions whose names are their own, all stacks of different protocol bindings", "why_tests_cant": "Tests compare a few Things with a few expected documents; the claim is about each member of each part at any depth, for all combinations of present and absent parts.", "anchors": ["src/thing.rs:Thing", "src/thing.rs:DataSchema", "src/thing.rs:DefaultedFormOperations", "src/thing.rs:SecurityScheme", "src/protocol/http.rs:Form", "src/protocol/coap.rs:Form"]}
{"id": "C53", "title": "String constraints of data schemas: settable everywhere but on a property itself", "statement": "For every sequence of builder calls, a string data schema carries exactly the last minLength, maxLength, pattern, contentEncoding and contentMediaType that were set, and no such call is possible once read_only or write_only has been called. In every position of a Thing except the data schema of a property itself, every combination of these constraints can be produced. The data schema of a property never carries any of them in a built Thing, because the property builder does not offer the calls.", "quantifier": "all sequences of data schema builder calls, all combinations of string constraints, all positions of a data schema in a Thing, all Things that build returns", "why_tests_cant": "A test exercises a few chains of calls; that no chain can give a property's string a constraint, and that all combinations are possible elsewhere, ranges over all chains.", "anchors": ["src/builder/data_schema.rs: StringDataSchemaBuilderLike, ReadOnly, WriteOnly", "src/builder/affordance.rs: PropertyAffordanceBuilder"]}
{"id": "C54", "title": "Converting a data schema builder into a data schema", "statement": "Converting a data schema builder directly into a DataSchema succeeds if and only if every language key in it, at any nesting depth, is a valid language tag; the only possible error is InvalidLanguageTag with a rejected key. The result is the data schema described by the calls, with each language key replaced by its tag and nothing else changed, and does not depend on the iteration order of maps when no two keys of a group denote the same tag. The data schemas of a built Thing are exactly what the supplied ones convert to. The conversion checks no ranges: it succeeds for schemas that ThingBuilder::build rejects.", "quantifier": "all data schemas the builder API can produce, at any nesting depth, all language tag parsers and all iteration orders", "why_tests_cant": "Nesting depth, numbers of translations and iteration orders are unbounded.", "anchors": ["src/builder/data_schema.rs: TryFrom<UncheckedDataSchema> for DataSchema, TryFrom<...Builder> for DataSchema", "src/builder.rs:MultiLanguageBuilder"]}
{"id": "C55", "title": "The type and the constraints a data schema is read with", "statement": "A data schema that is read from JSON has a type if and only if there is exactly one member `type` that names it (or is its number) and all members that constrain this type (lengths, item counts, items, properties, required, multipleOf, patterns) are well-formed; one ill-formed constraint silently drops the type and all constraints. When there is a type, every constraint is exactly what its member says. Of `minimum` and `exclusiveMinimum` (and of the maxima) the first member decides; a value that is not a number, or not a 64-bit integer in an integer schema, silently drops the bound. An integer in a number schema is read as the double nearest to it, ties to even, and exactly if it has less than 54 bits.", "quantifier": "all JSON objects, all nested schemas, all numbers a JSON text can hold, all extensions", "why_tests_cant": "The set of documents and of 64-bit numbers is far too large to enumerate; the claim is an equivalence over all of them.", "anchors": ["src/thing.rs:DataSchema", "src/thing.rs:DataSchemaSubtype", "src/thing.rs:Maximum", "src/thing.rs:Minimum", "src/thing.rs:NumberSchema", "src/thing.rs:IntegerSchema"]}
{"id": "C56", "title": "Documents use the vocabulary of the Recommendation", "statement": "Every member of a written Thing Description, at any depth, is one that the W3C Thing Description 1.1 Recommendation defines for its place, and every member that the Recommendation defines is not ignored when a document is read. (False of the code for three members: minItems and maxItems of array schemas are written and read as min_items and max_items, and dataResponse of events as data_response, so that the members the Recommendation defines are silently ignored.)", "quantifier": "all Things without extensions, all documents, all nested data schemas, forms and security definitions", "why_tests_cant": "Nested schemas and combinations of members are unbounded; the claim is about every member of every document.", "anchors": ["src/thing.rs:ArraySchema", "src/thing.rs:EventAffordance", "src/thing.rs:Thing", "src/thing.rs:DataSchema", "src/thing.rs:Form", "src/thing.rs:SecurityScheme"]}
{"id": "C57", "title": "What it means that two Things are equal", "statement": "Two Things compare equal with == if and only if no number in them is NaN and they agree in everything but the sign of zeros and the UTC offset in which an instant is given; the order in which names were inserted into maps does not matter. Hence == is symmetric and transitive on all Things, and a Thing equals itself if and only if NaN is not in it: this holds of every Thing that has been read, and a storable Thing without NaN equals what is read back from its JSON value. But a Thing can be built that does not equal itself, because multipleOf can be NaN. The protocol bindings compare all their fields, so this holds with every list of them.", "quantifier": "all Things with maps as hash maps, all nested schemas and values, all extensions whose == is exact, all lists of protocol bindings, all documents", "why_tests_cant": "An equivalence over all pairs of Things, with unbounded nesting; a field left out of a hand-written comparison shows only on a pair that differs just there.", "anchors": ["src/thing.rs:Thing", "src/thing.rs:InteractionAffordance", "src/thing.rs:DataSchema", "src/thing.rs:Form", "src/thing.rs:SecurityScheme", "src/protocol/http.rs", "src/protocol/coap.rs", "src/protocol/mqtt.rs"]}
{"id": "C58", "title": "What is read is what the document says", "statement": "Reading a JSON document yields a Thing exactly if the document describes it, where the relation between documents and Things is given member by member: which members are required, which may be absent or null and what then counts, how every value is spelled (one or many, arrays in place of objects, names or numbers of schemes and types, the nearest float of an integer), which security schemes are predefined and which custom, which data schemas keep their type, and what extensions are given. No document describes two Things, and what describes one is exactly what the grammar of C51 admits. If a name is repeated in a map, such as two properties with one name, all of them must be readable and the last one counts. The JSON value written for a storable Thing describes that Thing.", "quantifier": "all documents whose numbers are in the range of serde_json, all Things, all nested data schemas, all extensions, all parsers of language tags and dates", "why_tests_cant": "An equivalence between unbounded documents and unbounded Things: every combination of members, spellings, repetitions and nesting.", "anchors": ["src/thing.rs:Thing", "src/thing.rs:InteractionAffordance", "src/thing.rs:DataSchema", "src/thing.rs:DataSchemaSubtype", "src/thing.rs:Form", "src/thing.rs:Link", "src/thing.rs:SecurityScheme", "src/thing.rs:VersionInfo", "src/extend.rs:ExtendablePiece"]}
{"id": "C59", "title": "An error message says what is wrong", "statement": "The messages of two errors are the same only if the errors are, so that the kind of the error and the names it carries can be told from its text. The message quotes the name that is at fault. The message of a refused build is true of the calls: a message about an undefined security name, a duplicated name, an unsupported form operation, a missing one, bounds and so on is shown only if this is the case for what it names. (False of the code in one case: an undefined name in a combo security scheme is reported as the use of an undeclared data schema.)", "quantifier": "all errors, all names in them, all histories of builder calls", "why_tests_cant": "A claim about the texts for all names, including those that look like a part of a message, and about every way a build can fail.", "anchors": ["src/builder.rs:Error", "src/builder.rs:FormContext", "src/builder.rs:AffordanceType", "src/builder.rs:ThingBuilder::build"]}
{"id": "C60", "title": "Default values are what is given when nothing is said", "statement": "The Default value of a type is what one gets by saying nothing: reading an object in which all optional members are left out, or null, gives the Default value but for the required members, for links, version information, responses, forms, data schemas and their kinds, properties, actions, events, security schemes and the predefined schemes; a builder on which only the required calls are made builds it as well. This holds for every list of extensions each of which does so, and the protocol bindings do, except that the responses of the HTTP binding cannot be read without headers. (False of the code for Things in one point: the context of Thing::default() is null, which no build produces and no document without a context.)", "quantifier": "all documents in which nothing optional is said, all required members, all extensions with this property, all lists of them", "why_tests_cant": "Ranges over all documents that leave the members out, with whatever else is in them, and over all extensions.", "anchors": ["src/thing.rs:Thing", "src/thing.rs:InteractionAffordance", "src/thing.rs:PropertyAffordance", "src/thing.rs:BearerSecurityScheme", "src/thing.rs:DataSchema", "src/thing.rs:Form", "src/builder.rs:ThingBuilder", "src/protocol/mqtt.rs:Form"]}
{"id": "C61", "title": "What the members of protocol bindings mean", "statement": "In a form or a response, the members of the HTTP, CoAP and MQTT bindings mean what their definition says: which are required, how methods, control packets, qualities of service, block sizes, headers and numbers are spelled, in which order the fields come if a header or the block sizes are given as an array, what counts if a member is left out or null, and that a number must fit its field. Such members are accepted exactly if they mean something. With any set of bindings each one finds its own members whatever the others are and in whatever order they were added. An extension of any other kind that was added before a binding is offered exactly the members that are not part of the vocabulary of the binding. The value written for a form says again what the form says, provided that its HTTP response names headers.", "quantifier": "all members of forms and responses, all sets and orders of bindings, all forms", "why_tests_cant": "All combinations of members, spellings, numbers and bindings, for documents of any size.", "anchors": ["src/protocol/http.rs", "src/protocol/coap.rs", "src/protocol/mqtt.rs", "src/hlist.rs:Cons"]}
{"id": "C62", "title": "How deep documents nest, and what from_str accepts", "statement": "A Thing whose schemas nest at most h deep, and whose free JSON values nest at most m deep, is written as a text whose arrays and objects nest at most 2h+m+4 deep. serde_json::from_str gives up on texts that nest more than 127 deep, but otherwise reads what is there; so a Thing with 2h+m at most 123 is read back from its text. A Thing with 126 or more schemas nested in each other can be built and written, and is read back from its value, but never from its text; and the builder yields such Things for every depth.", "quantifier": "all Things, all depths of schemas and values, all texts", "why_tests_cant": "Schemas of every depth and shape in every position; the limit is never met in a test.", "anchors": ["src/thing.rs:Thing", "src/thing.rs:DataSchema", "src/thing.rs:ArraySchema", "src/thing.rs:ObjectSchema", "src/builder/data_schema.rs"]}
{"id": "C63", "title": "Which Things can be built", "statement": "A Thing can be built by some sequence of builder calls exactly if it keeps the following rules, all said of the Thing: its context is that of TD 1.1, alone or followed by others; lists and maps that are there are not empty; languages are tags the parser yields; links with sizes are icons; forms have operations of their place, those of the Thing explicit ones, and name defined security and declared schemas; security names are distinct and defined, and so are the members of combos; pre-shared keys have no identity; data schemas have one way of restricting values (a type, oneOf, enum or const), bounds in order where they are checked, and no other members if they restrict nothing; URI variables are no arrays or objects; both parts of a property agree, and it has no string constraints. All other members are free. The same for the parts: forms, links, security schemes, data schemas. Which Things can be built does not depend on the order in which maps are iterated.", "quantifier": "all Things, whether or not they come from a builder, all sequences of builder calls, all extension types, all parsers of language tags, all iteration orders", "why_tests_cant": "An exact description: for every Thing outside of it that no sequence of calls, however long, builds it, and for every Thing in it that some sequence does.", "anchors": ["src/builder.rs:ThingBuilder", "src/builder.rs:ThingBuilder::build", "src/builder/data_schema.rs", "src/builder/affordance.rs", "src/builder.rs:FormBuilder", "src/builder.rs:LinkBuilder", "src/builder.rs:SecuritySchemeBuilder"]}
{"id": "C64", "title": "What was built, written and read back can be built again", "statement": "If a Thing comes from a builder, is written and is read back, then what is read is itself a Thing that some sequence of builder calls builds, so that it passes the validation of build, exactly if no data schema in the Thing, at any depth, has the constant null. A null constant is lost, and leaves a read-only data schema that no builder makes. This holds for JSON values, and for JSON text whenever the text can be read at all.", "quantifier": "all sequences of builder calls that build a Thing, all extension types and their serialisers that keep their members apart, all iteration orders; all sequences of calls that might build what is read", "why_tests_cant": "It says of every built Thing that some sequence of calls builds what is read back, and of every Thing with a null constant, at any depth, that no sequence does.", "anchors": ["src/builder.rs:ThingBuilder::build", "src/thing.rs:Thing", "src/data_schema.rs:DataSchema", "src/builder/data_schema.rs:SpecializableDataSchema::constant"]}
{"id": "C65", "title": "Which JSON texts are read, and what they mean", "statement": "A text is read as a JSON value exactly if it follows the grammar of JSON (RFC 8259), and then as the value the grammar says: white space around and between tokens does not matter, strings may use any escape including surrogate pairs, integers in the range of 64 bits are integers and all other numbers floats. No text has two readings. What is written for a value, compact or with line breaks, is a text of that value, so that it is read back, and different values have different texts; the only condition is that floats are read as they were written.", "quantifier": "all texts, all JSON values of any depth and size, all ways of writing and reading floats", "why_tests_cant": "It is a statement about all texts: every text that is not in the grammar is refused, and no text, however long or deeply nested, has a second reading.", "anchors": ["src/thing.rs:Thing", "Cargo.toml:serde_json"]}
{"id": "C66", "title": "Things survive the way through a string", "statement": "A Thing is read from a string exactly if the string follows the grammar of JSON and the Thing is read from the value it means, within the limit on nesting; how the value is spelled does not matter. The string that is written for a Thing, compact or with line breaks, is a text of its value. So a Thing from a builder, written to either string, is read back as what is left of a stored Thing (C28, C29), if it nests at most so deep (C62), no property has human readable information twice and floats are read as they were written; the last condition is needed. A Thing that was read from a string is read again from the string that is written for it under the same conditions; with the protocol bindings, if every HTTP response names headers, and otherwise nothing is read. Things with the same string are stored alike.", "quantifier": "all strings, all Things and all sequences of builder calls, all extension types and their serialisers that keep their members apart, all iteration orders, all ways of writing and reading floats", "why_tests_cant": "It relates every string to every Thing: no special character in any text of a Thing, and no spelling of a document, may change what is read.", "anchors": ["src/thing.rs:Thing", "src/data_schema.rs:DataSchema", "Cargo.toml:serde_json"]}
{"id": "C67", "title": "What the strings of Things look like", "statement": "The compact string of a Thing is a single line: whatever its texts contain, no control character is in it. No text of the same JSON value is shorter, if no text of a float in it is shorter than the one that is written. The string with line breaks can be written exactly if the compact one can, and is the compact one laid out: a line break and two spaces for every open bracket after each opening bracket and comma and before each closing bracket, except in empty arrays and objects, a space after each colon, and nothing else; inside quotation marks nothing changes.", "quantifier": "all Things, all extension types and serialisers, all ways of writing floats", "why_tests_cant": "Titles, descriptions, names and free JSON values can contain any character: brackets, quotation marks, line breaks. That none of them breaks the line or disturbs the layout has to hold for all of them, at every depth.", "anchors": ["src/thing.rs:Thing", "Cargo.toml:serde_json"]}
{"id": "C68", "title": "Instants survive the text", "statement": "The creation and modification instants of a Thing are written after RFC 3339, in one way each: four digits for the year, capital T, no trailing zeros in the fraction, Z exactly for the offset 0. The instants that can be written are those with a year from 0 to 9999 at their offset and an offset of whole minutes of less than a day; a Thing with another one cannot be written. What is written is read back as the same instant at the same offset, so different ones have different texts. The texts that are read are exactly those of RFC 3339, and what is read is the instant they denote in the Gregorian calendar: small t and z are accepted, digits after the ninth do not count, a leap second at the end of a month is the nanosecond before it ends, all else is refused and the document with it. What has been read can be written, and is read back.", "quantifier": "all strings, all instants and offsets (unbounded integers), all Things, documents and extension types", "why_tests_cant": "Leap years, the ends of months and years, instants before 1970, offsets that change the day and fractions of any length: a calendar computation is wrong at few of its infinitely many days, and a parser on few of its texts.", "anchors": ["src/thing.rs:Thing (created, modified: time::serde::rfc3339::option)", "src/builder.rs:ThingBuilder (created, modified)", "Cargo.toml:time"]}
{"id": "C69", "title": "Languages are language tags, whatever their case", "statement": "A language given to a builder, of translations at any depth or of a link, is accepted exactly when it is a well-formed language tag of RFC 5646 (a language with script, region, variants, extensions and private use, or one of the grandfathered tags), in any case; besides, after x- any letters, digits and hyphens are accepted. What is in the Thing is the same text in the case that RFC 5646 recommends, so translations for languages that differ in case only are the same translation and all but one are lost, and no others are. An error about a language names one that was given and is not accepted. Documents with other languages are refused; those accepted are kept as they are written. A tag that is in a Thing that has been built is read back as it is.", "quantifier": "all strings, all builder call sequences, all documents, Things and extension types", "why_tests_cant": "The grammar has unboundedly many variants, extensions and private subtags, and the state machine that reads it treats a subtag by all that came before; tests try a few short tags.", "anchors": ["src/builder.rs:MultiLanguageBuilder::build", "src/builder.rs:TryFrom<UncheckedLink> for Link (hreflang)", "src/thing.rs:MultiLanguage", "src/thing.rs:Link (hreflang)", "Cargo.toml:oxilangtag"]}
{"id": "C70", "title": "Numbers of up to 15 digits survive the text", "statement": "Where a JSON text is read, a number with a significand below 2^53 and a power of ten between -22 and 22 becomes the nearest floating point number (half to even), whatever its notation, and no text becomes infinite or NaN. A floating point number other than zero is written as a decimal number with a point or an exponent to which it is the nearest, with as few digits as possible and as close as possible; zeros keep their sign. Numbers from 10^-5 up to 10^16 are written without exponent, others with one, and never with superfluous zeros. Numbers too small are read as zero with their sign and numbers too large are refused, also if the exponent has more than 32 bits. So bounds and other numbers of up to 15 digits, with up to 22 decimals, up to 9*10^14 in size or from 2*10^16 to 10^22, are read back bit by bit, and a Thing that was read from a text with such numbers is read back from what is written for it. Beyond that numbers can change, but never by much: every finite floating point number is read back from its text with the same sign and at most three steps away (fewer than three floating point numbers lie between), any text of a number, with any number of digits and any exponent, is read at most three steps from the nearest number (only numbers within three steps of the largest may be refused instead; what is too large for any is refused or read as one of the three largest), and a document is read back from its text as it was but for such a shift of its floating point numbers, the same wherever a number occurs. They do change: a Thing with the bound 2^53-1 is written and read back with the bound 2^53-2, without an error.", "quantifier": "all decimal texts, all 64-bit floating point numbers, all documents, Things, extension types and sets of protocol bindings", "why_tests_cant": "There are 2^64 floating point numbers and infinitely many texts; two roundings fall together for almost all of them and differ for a few, so tests with usual numbers pass whether or not the claim holds.", "anchors": ["src/thing.rs:NumberSchema (maximum, minimum, multiple_of)", "src/thing.rs:DataSchema (constant, default, enumeration)", "Cargo.toml:serde_json"]}
{"id": "C71", "title": "With exact reading every number survives the text", "statement": "If serde_json is built with its feature float_roundtrip, which any crate of a build can turn on, a decimal text is read as the floating point number nearest to it (half to even), and refused if there is no finite one, whatever the number of its digits and the size of its exponent. The texts that are written are the same as without. Then every finite floating point number is read back bit by bit, and a Thing that was read from any text without repeated names is read back from what is written for it, as it is stored, just when no property has human readable information (and, with the HTTP binding, every response names headers).", "quantifier": "all decimal texts, all 64-bit floating point numbers, all documents, Things, extension types and sets of protocol bindings", "why_tests_cant": "There are 2^64 floating point numbers and infinitely many texts, arbitrarily close to the middles between numbers, where one more digit decides.", "anchors": ["src/thing.rs:NumberSchema (maximum, minimum, multiple_of)", "src/thing.rs:DataSchema (constant, default, enumeration)", "Cargo.toml:serde_json"]}
{"id": "C72", "title": "A Thing with any numbers survives the text but for last places, and drifts when saved again and again", "statement": "Whatever numbers a Thing has (integers of 64 bits and finite floating point numbers), from both strings that are written for it the same Thing is read, as it is stored, except that every floating point number in its schemas, custom security schemes and context has become the number that is read from its own text: at most three steps away, with the same sign, unchanged if it is short or otherwise kept, and never infinite. Nothing is read just when a property repeats human readable information (or, with the HTTP binding, a response names no headers). A Thing of which nothing else is lost can be written and read any number n of times, and the result is the Thing with its floating point numbers moved n times and nothing else changed. Three steps is no bound for that: a Thing exists whose lower bound goes down by one step each time, nine times, and whose upper bound goes to and fro between two values for ever.", "quantifier": "all Things, all numbers in them, all extension types and sets of protocol bindings, all orders of hash maps, any number of times of writing and reading", "why_tests_cant": "There are 2^64 floating point numbers in any place of any Thing; most come to rest after one time, and a test that reads once cannot see the others drift.", "anchors": ["src/thing.rs:Thing (Serialize, Deserialize)", "src/thing.rs:NumberSchema (maximum, minimum, multiple_of)", "src/thing.rs:DataSchema (constant, default, enumeration)", "src/thing.rs:UnknownSecuritySchemeSubtype", "Cargo.toml:serde_json"]}
{"id": "C73", "title": "What is printed for debugging shows all of a Thing, and a cloned form is the same form", "statement": "What {:?} prints for a Thing or an affordance contains each of its fields, under the declared name and in the declared order, and every property, action and event under its name. So two Things for which the same is printed are the same, however their hash maps are iterated (as far as this holds for the derived implementations in them), and a failed assertion on two Things shows where they differ. The clone of a form is equal to the form, if the clones of its extensions are.", "quantifier": "all Things, affordances and forms, all extension types, all orders of iteration", "why_tests_cant": "These implementations are written by hand, field by field: a field that is left out is noticed only by a test with two values that differ in nothing else.", "anchors": ["src/thing.rs:impl Debug for Thing", "src/thing.rs:impl Debug for InteractionAffordance", "src/thing.rs:impl Debug for PropertyAffordance", "src/thing.rs:impl Debug for ActionAffordance", "src/thing.rs:impl Debug for EventAffordance", "src/thing.rs:impl Clone for Form"]}
{"id": "C74", "title": "What is skipped in the text of a Thing does not matter", "statement": "serde_json::from_str skips the values of members of the version information and of links that the TD specification does not name: they may be any values of RFC 8259, with numbers of any size, with escapes that denote no characters and nested however deep, and the result is the same as without them. Everything else in the text is looked at: numbers must be in range, escapes must denote characters, and arrays and objects must not nest more than 127 deep. A text determines what is looked at in it, the result depends on nothing else, and no Thing can be read in this way that cannot be read from an ordinary text.", "quantifier": "all strings, all extension types, all ways to read and write floats", "why_tests_cant": "Which parts of an untrusted text are checked and which are not is a statement about all texts; the loop that skips a value keeps its own stack of brackets, so that only arbitrary nesting shows that it stops at the right place.", "anchors": ["src/thing.rs:Thing", "src/thing.rs:VersionInfo", "src/thing.rs:Link"]}
{"id": "C75", "title": "A data schema admits the same values here and for others", "statement": "A data schema says which JSON values a property, an action or an event takes or yields. The values that a schema admits, going by the fields of the library, are those that its JSON form admits, going by the W3C Thing Description 1.1 Recommendation and JSON Schema: for what the library writes, and for what it reads, at every place of a Thing Description where a data schema may be. This is false of the code: limits on the number of items are neither written nor read under their names, infinite bounds are not written, and a constant null, a second minimum or maximum, bounds that are not numbers of the right kind and types with an ill-fitting member are dropped or rounded when a document is read. It holds, in both directions and with all nested schemas, where none of these is present.", "quantifier": "all data schemas and all documents, however nested, all JSON values they are asked about, all extension types, all rules for equality of values, patterns and formats, all iteration orders", "why_tests_cant": "Whether two descriptions admit the same values is a statement about all values and all nestings of schemas; a test compares members of single documents, not what they mean.", "anchors": ["src/thing.rs:DataSchema", "src/thing.rs:DataSchemaSubtype", "src/thing.rs:ArraySchema", "src/thing.rs:NumberSchema", "src/thing.rs:IntegerSchema", "src/thing.rs:Minimum", "src/thing.rs:Maximum", "src/thing.rs:ObjectSchema"]}
{"id": "C76", "title": "What is written is a Thing Description of the Recommendation", "statement": "The document that is written for a Thing that was built conforms to the W3C Recommendation Thing Description 1.1: mandatory members are there, members of the vocabulary have values of the right type and range, names of security schemes and of schemas refer to definitions of the document, forms have operations of their place, only icons have sizes, URI variables are no arrays or objects. This is false of the code. The document conforms if and only if the user has taken care of what building does not check: a version has a model, a security scheme is required, combinations of schemes have two members, credentials are in places of the scheme and OAuth2 endpoints fit the flow, affordances have forms, schemas named by their responses are defined, and bounds and steps are finite and steps positive.", "quantifier": "all histories of builder calls, all extension types whose members have names of their own, all iteration orders, all sets of strings that count as language tags and instants as far as they cover what the library makes", "why_tests_cant": "Conformity is about all places of all documents that the library can produce; a validator run on example documents says nothing about others, and shows no missing check that the examples do not happen to need.", "anchors": ["src/builder.rs:ThingBuilder::build", "src/thing.rs:Thing", "src/thing.rs:VersionInfo", "src/thing.rs:SecurityScheme", "src/thing.rs:InteractionAffordance", "src/thing.rs:Form", "src/thing.rs:Link", "src/thing.rs:DataSchema"]}
{"id": "C77", "title": "Thing Descriptions of the Recommendation are read", "statement": "A document that conforms to the W3C Recommendation Thing Description 1.1 is read without an error, whatever further members it has: mandatory members are there, so reading does not miss anything, and no value that the Recommendation allows is refused. Security definitions with the name of a predefined scheme are read as definitions of it. This is false of the code in two ways. A member data_response of an event, which the Recommendation does not know, must be a data schema; apart from this, all documents that conform are read. And a definition is read as that of a custom scheme if credentials are in the place auto, if a digest scheme leaves out the quality of protection, or if a combination has further members; these are all the cases.", "quantifier": "all JSON documents without repeated members that conform, with any further members and any nesting, all extension types that accept any members, all sets of strings that count as language tags and instants as far as the parsers read them", "why_tests_cant": "The documents of the Recommendation are an infinite family; a test corpus has a few of them, and the values that are refused are those that nobody thought of.", "anchors": ["src/thing.rs:Thing", "src/thing.rs:EventAffordance", "src/thing.rs:SecurityScheme", "src/thing.rs:SecuritySchemeSubtype", "src/thing.rs:SecurityAuthenticationLocation", "src/thing.rs:DigestSecurityScheme", "src/thing.rs:ComboSecurityScheme"]}
{"id": "C78", "title": "A Thing Description of the Recommendation stays one", "statement": "A document that conforms to the W3C Recommendation Thing Description 1.1 still conforms after it has been read as a Thing and written again: no mandatory member is lost, no value is replaced by one that is not allowed, and references still have a target. This is false of the code: a version without a model and an empty list of operations, both allowed, are written as null. It holds of exactly those documents in which the version, if there is one, has a model and no form has an empty list of operations.", "quantifier": "all JSON documents without repeated members that conform and are read, with any further members and any nesting, all extension types whose members have names of their own, all iteration orders, all sets of strings that count as language tags and instants as far as reading and writing them stays in the set", "why_tests_cant": "Losing conformity on the way through the library can happen at any member of any document; a round trip of example documents shows it only for the members they have.", "anchors": ["src/thing.rs:Thing", "src/thing.rs:VersionInfo", "src/thing.rs:Form", "src/thing.rs:DefaultedFormOperations", "src/thing.rs:SecurityScheme", "src/thing.rs:UnknownSecuritySchemeSubtype", "src/thing.rs:NumberSchema"]}
{"id": "C79", "title": "Who can use the forms of a Thing", "statement": "Each form names the security schemes a client must satisfy, or takes those of the Thing; a scheme asks for nothing, for credentials, for one or for all of a set of other schemes. Writing a Thing and reading a document change this for no client and no form: a form is open to a client with certain credentials according to the document if and only if it is according to the Thing, also with custom schemes, and so reading and writing a document again neither opens nor closes anything. Every form of a built Thing can be used by a client that has credentials for all schemes. This last part is false of the code: combinations may contain themselves or each other, have no alternative, or be custom schemes that refer to nothing. It holds if combinations are well-founded, have an alternative and are not made as custom schemes; and a form is closed to a client exactly if it names a scheme in a set of schemes that lock each other.", "quantifier": "all Things and documents that conform to the Recommendation, all histories of builder calls, all sets of credentials, all forms of the Thing and of its affordances, combinations nested to any depth", "why_tests_cant": "Access is a recursive condition over combinations of any depth and any set of credentials; a test compares members of one document and does not show that no client gains or loses access.", "anchors": ["src/thing.rs:SecurityScheme", "src/thing.rs:ComboSecurityScheme", "src/thing.rs:Form", "src/thing.rs:Thing", "src/builder.rs:ThingBuilder::build", "src/builder.rs:SecurityScheme"]}
{"id": "C80", "title": "What a client can do with the forms of a Thing", "statement": "A form offers the operations it names or, if it names none, the defaults of its place: reading and writing a property as far as its flags allow, invoking an action, subscribing to an event. The document of a built Thing offers, at each form, exactly what the Thing offers, and only operations for this place; a Thing read from a document that conforms to the Recommendation offers what the document offers; and reading a document and writing it again changes for no form what it offers. The last part is false of the code: a form with an empty list of operations, which offers nothing, is written with null, so that afterwards the defaults apply. Nothing else changes.", "quantifier": "all histories of builder calls, all Things, all JSON documents without repeated members that conform, all forms of the Thing and of its affordances, all operations", "why_tests_cant": "Which operations are offered depends on the place of the form, its own member and flags of the property around it; a test compares a few forms and cannot show that no operation appears or disappears for any document.", "anchors": ["src/thing.rs:Form", "src/thing.rs:DefaultedFormOperations", "src/thing.rs:FormOperation", "src/thing.rs:PropertyAffordance", "src/builder.rs:ThingBuilder::build", "src/builder.rs:FormBuilder"]}
{"id": "C81", "title": "Things can be put together from parts", "statement": "If two sequences of builder calls each give a Thing, then making both, one after the other, gives a Thing exactly if the two Things share no name of a security definition, property, action or event; otherwise the error names one of the shared names. The Thing together has everything of both: lists one after the other, the affordances and security definitions of both, and for the other members the later value. The order of the parts does not matter for whether this works. Leaving out calls that add affordances, forms or links never makes a build fail; leaving out others can, because a later call can take back what an earlier one did.", "quantifier": "all pairs of histories of builder calls that build, all environments (language tag parser, iteration order of maps), all selections of calls to leave out", "why_tests_cant": "The checks of build look at the whole of what was supplied; that no check connects two independent parts except through names has to be shown for every pair of histories.", "anchors": ["src/builder.rs:ThingBuilder::build", "src/builder.rs:ThingBuilder", "src/builder.rs:try_build_affordance", "src/builder.rs:Error"]}
{"id": "C82", "title": "Which builders can still be completed", "statement": "Whatever has been supplied to a builder, there are further calls after which build succeeds exactly if nothing is wrong for good: no name is used twice, every form has operations of its place, every schema of an affordance is in range, no URI variable of an affordance is an array or object, only icons have sizes, and every language tag outside the translations, URI variables and schema definitions of the Thing itself is accepted. After an error of most kinds no further calls help; missing definitions can be added, and what is wrong with translations, URI variables and schema definitions of the Thing can be replaced.", "quantifier": "all histories of builder calls, all continuations, all environments, all extensions whose data schema extension has a value", "why_tests_cant": "That no continuation helps is a statement about infinitely many continuations; that one always exists otherwise has to be shown for every combination of what is missing.", "anchors": ["src/builder.rs:ThingBuilder::build", "src/builder.rs:ThingBuilder", "src/builder.rs:Error", "src/builder.rs:ThingBuilder::security", "src/builder.rs:ThingBuilder::schema_definition", "src/builder.rs:ThingBuilder::uri_variable"]}
{"id": "C83", "title": "Programs with different extensions can exchange documents", "statement": "A Thing written by a program with extensions is read by a program without them, with only the extension added last, or with only those added before it, as the same Thing without what the reader does not know, provided that extensions do not look at each other's members. The order in which extensions were added makes no difference to what is read from any document, nor, if they have no member in common, to the JSON value that is written; with a member in common, the extension added first wins. Whatever document can be read with extensions can be read without. But of a document from elsewhere the two may see different data schemas: where an extension cannot read its part of a schema, the schema loses its type, while a program without the extension sees it.", "quantifier": "all Things, all documents, all pairs of extension types and codecs related as stated, all lists of protocol bindings", "why_tests_cant": "Extensions are type parameters with arbitrary readers and writers; tests use one or two of them and a few documents.", "anchors": ["src/extend.rs:ExtendableThing", "src/hlist.rs:Cons", "src/hlist.rs:Nil", "src/thing.rs:Thing", "src/thing.rs:DataSchema", "src/thing.rs:DataSchemaSubtype", "src/protocol/http.rs:HttpProtocol", "src/protocol/coap.rs:CoapProtocol"]}
{"id": "C84", "title": "A program with fewer extensions passes on everything but their members", "statement": "If a Thing can be written by a program with extensions, it can be written by a program that lacks some of them, and the two JSON values are the same except that members of the missing extensions are missing, at any depth: nothing else is lost, nothing is added, and lists keep their length. The same holds of a document written by the one, read and written again by both. This needs extensions that write members of their own, with names that nothing else in the same object uses.", "quantifier": "all Things, all pairs of extension types and codecs related as stated, all depths of nested data schemas, all iteration orders of hash maps, all lists of protocol bindings", "why_tests_cant": "Extensions are type parameters at ten places, flattened into objects that other types write too; a test fixes one extension and one Thing.", "anchors": ["src/extend.rs:ExtendableThing", "src/hlist.rs:Cons", "src/hlist.rs:Nil", "src/thing.rs:Thing", "src/thing.rs:InteractionAffordance", "src/thing.rs:PropertyAffordance", "src/thing.rs:DataSchema", "src/thing.rs:Form", "src/protocol/http.rs:HttpProtocol", "src/protocol/coap.rs:CoapProtocol"]}
{"id": "C85", "title": "Extension values make no difference to anything else", "statement": "Of two Things that differ only in their extension values, possibly of different types, one can be built just when the other can; the same clients can use their forms, these offer the same operations, and their data schemas admit the same values. In particular a Thing that can be built with extensions can be built without; and a program without extensions that reads the document of a Thing built with extensions sees the same forms, with the same access and operations.", "quantifier": "all pairs of Things and of extension types, all sequences of builder calls, all clients, all places of forms and data schemas, all values", "why_tests_cant": "Extension types are parameters at ten places; that nothing looks at their values is a statement about all types and all values.", "anchors": ["src/extend.rs:ExtendableThing", "src/extend.rs:Extendable", "src/builder.rs:ThingBuilder::build", "src/builder/data_schema.rs:check_data_schema_subtype", "src/builder/affordance.rs:BuildableAffordance", "src/thing.rs:Thing", "src/thing.rs:Form", "src/thing.rs:DataSchema"]}
{"id": "C86", "title": "Extension values make no difference to building", "statement": "Two programs, possibly with different extension types, whose builder calls differ only in extension values have the same violations in what they supplied; build succeeds for one just when it does for the other, the Things built differ only in their extension values, and if build fails, both report something that is wrong in the same phase of the validation (the same error if only one thing is wrong). Whatever calls one program makes, a program with other extensions, or with none, can make as well, and gets the corresponding Thing.", "quantifier": "all pairs of extension types, all sequences of builder calls with all their arguments, all iteration orders", "why_tests_cant": "Extension types are parameters of every builder; that no check of build looks at their values is a statement about all types, all values and all call sequences.", "anchors": ["src/builder.rs:ThingBuilder::build", "src/builder.rs:ThingBuilder::ext_with", "src/builder.rs:FormBuilder", "src/builder/affordance.rs:PropertyAffordanceBuilder", "src/builder/affordance.rs:ActionAffordanceBuilder", "src/builder/affordance.rs:EventAffordanceBuilder", "src/builder/data_schema.rs:UncheckedDataSchema", "src/extend.rs:ExtendableThing"]}
{"id": "C87", "title": "Names are only names", "statement": "Giving other names to the affordances, the security definitions and the schema definitions of a Thing, with different names for different ones, in the calls that register them and wherever a form, an additional response or a combination of security schemes refers to them, makes no difference but for the names: the same things are wrong in the same phases of the validation, build succeeds just when it did before, the Thing built is the same under the new names, and an error names the new one where it named the old.", "quantifier": "all injective renamings, all sequences of builder calls with all their arguments, all extension types, all iteration orders", "why_tests_cant": "No test can show that no name is treated differently from another; it needs all names, all renamings and all call sequences.", "anchors": ["src/builder.rs:ThingBuilder::build", "src/builder.rs:ThingBuilder::security", "src/builder.rs:ThingBuilder::property", "src/builder.rs:ThingBuilder::action", "src/builder.rs:ThingBuilder::event", "src/builder.rs:ThingBuilder::schema_definition", "src/builder.rs:FormBuilder::security", "src/builder.rs:FormBuilder::additional_response", "src/builder.rs:Error"]}
{"id": "C88", "title": "What clients can do does not depend on names", "statement": "If the affordances and security definitions of a Thing are renamed, the renamed Thing has the renamed forms in the renamed places and no others; a client with credentials for some security definitions can use a form just when one with credentials for the renamed definitions can use the renamed one; and the forms offer the same operations. The only exception are custom security schemes that have the name of the scheme for combinations: what they combine is not understood, so it is not renamed, and clients may be locked out.", "quantifier": "all Things that have been built or read, all injective renamings, all sets of credentials, all places and operations, all extension types", "why_tests_cant": "Security definitions can combine each other in any way, and a test sees one Thing, one renaming and one client.", "anchors": ["src/thing.rs:Thing", "src/thing.rs:SecurityScheme", "src/thing.rs:ComboSecurityScheme", "src/thing.rs:Form", "src/builder.rs:ThingBuilder::build", "src/builder.rs:ThingBuilder::security"]}
{"id": "C89", "title": "Any two Things can be put together under new names", "statement": "If two sequences of builder calls each build a Thing, then for every injective renaming whose new names the first Thing does not use, the calls of the first followed by the renamed calls of the second build a Thing, which has the affordances, security definitions and schema definitions of the first as they were, those of the second under their new names, and no others. Such a renaming always exists: some prefix before every name is enough.", "quantifier": "all pairs of sequences of builder calls that build a Thing, all injective renamings to unused names, all extension types, all iteration orders", "why_tests_cant": "A test puts two particular Things together; that nothing but a shared name can stand in the way is a statement about all pairs of call sequences.", "anchors": ["src/builder.rs:ThingBuilder::build", "src/builder.rs:ThingBuilder::security", "src/builder.rs:ThingBuilder::property", "src/builder.rs:ThingBuilder::action", "src/builder.rs:ThingBuilder::event", "src/builder.rs:ThingBuilder::schema_definition"]}
{"id": "C90", "title": "Writing, reading and comparing do not depend on names", "statement": "A Thing whose affordances, security definitions and schema definitions have been given other names (different ones for different ones) can be written just when it can be written under the old names, as a value and as text. What is read back is what is read back under the old names, but for the names; something is lost, or the text cannot be read back at all, just when this is so under the old names. Two Things are equal under new names just when they are under the old ones.", "quantifier": "all injective renamings, all Things that have been built or read and whose values survive storing, all extension types and their codecs, all iteration orders", "why_tests_cant": "Names become member names of JSON objects; that none of them collides with a member of the format, gets lost or is read as something else is a statement about all names and all Things.", "anchors": ["src/thing.rs:Thing", "src/thing.rs:SecurityScheme", "src/thing.rs:Form", "src/thing.rs:PropertyAffordance", "src/builder.rs:ThingBuilder::build"]}
{"id": "C91", "title": "What a Thing does not use can be left out", "statement": "If a program that builds a Thing is run without one of its calls that define a security scheme, building succeeds just when no form of the Thing names that scheme and no other scheme combines it. What is built then is the same Thing without that definition, and without it among the schemes required by default. Likewise for a call that defines a schema, when no other call uses its name: building succeeds just when no additional response of a form of the Thing itself names it, and what is built is the Thing without it.", "quantifier": "all programs that build a Thing, all places of the call among the others, all extension types, all iteration orders", "why_tests_cant": "That nothing else depends on a definition, whatever the rest of the program does and wherever the call stands, is a statement about all programs.", "anchors": ["src/builder.rs:ThingBuilder::build", "src/builder.rs:ThingBuilder::security", "src/builder.rs:ThingBuilder::schema_definition", "src/builder.rs:ThingBuilder::form"]}
{"id": "C92", "title": "Affordances and other calls that stand on their own can be left out", "statement": "If a program builds a Thing, then it still does without any one of its calls that add an affordance, a form, a link, a profile, a type, a context or one of the plain texts, URIs and dates. Without the call that adds a property, an action, an event, a form or a link, what is built is the same Thing without it. URI variables and titles and descriptions in several languages can be left out if no other call is for the same name or place; otherwise the call may replace an invalid one, and cannot be left out in general.", "quantifier": "all programs that build a Thing, all places of the call among the others, all extension types, all iteration orders", "why_tests_cant": "That no other call depends on the one left out is a statement about all programs.", "anchors": ["src/builder.rs:ThingBuilder::build", "src/builder.rs:ThingBuilder::property", "src/builder.rs:ThingBuilder::action", "src/builder.rs:ThingBuilder::event", "src/builder.rs:ThingBuilder::form", "src/builder.rs:ThingBuilder::uri_variable"]}
{"id": "C93", "title": "Leaving out a security definition closes nothing", "statement": "If a program that builds a Thing also builds one without one of its calls that define a security scheme, every client that can use a form of the first Thing can use the same form of the second. Clients that could not use it before can now only if the scheme was required for all forms and the form does not name schemes of its own. (Custom schemes that call themselves combo are left out of this: what they combine is not checked.)", "quantifier": "all programs that build a Thing, all places of the call, all forms, all sets of credentials of a client, all extension types, all iteration orders", "why_tests_cant": "Whether a scheme is met depends on other schemes, to any depth; that no path leads through the one left out is a statement about all combinations and all clients.", "anchors": ["src/builder.rs:ThingBuilder::build", "src/builder.rs:ThingBuilder::security", "src/thing.rs:SecurityScheme", "src/thing.rs:Form"]}
{"id": "C94", "title": "What is taken out of a document is taken out of the Thing", "statement": "If a document is read as a Thing and a property, an action, an event, a security definition, a schema definition or a URI variable is taken out of it, it is still read, as the same Thing without that one; nothing else of the Thing changes. (References to what has been taken out are not checked in reading.)", "quantifier": "all documents that are read, all names, all extension types and their codecs", "why_tests_cant": "That neither the other members, nor what extensions find in the document, depend on the one taken out is a statement about all documents.", "anchors": ["src/thing.rs:Thing", "src/thing.rs:PropertyAffordance", "src/thing.rs:ActionAffordance", "src/thing.rs:EventAffordance", "src/thing.rs:SecurityScheme"]}
{"id": "C95", "title": "Leaving out an affordance changes nothing for the clients of the others", "statement": "If a property, an action or an event is left out of a Thing, whether it is built without it or read from a document without it, clients can use just those of the forms elsewhere in the Thing that they could use before, and these offer the same operations, given or by default.", "quantifier": "all Things that are built or read, all names, all places of forms, all sets of credentials of a client, all operations", "why_tests_cant": "It is about every other form of every Thing and about every client.", "anchors": ["src/builder.rs:ThingBuilder::build", "src/thing.rs:Thing", "src/thing.rs:Form", "src/thing.rs:FormOperation"]}

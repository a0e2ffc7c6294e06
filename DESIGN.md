# Formal model of wot-td in Lean 4

The subject is the crate in `/repo` (`src/**/*.rs`, non-test code). Properties are in `properties.jsonl`;
`MANIFEST.json` maps each to its theorems. Wrong programs the theorems were tried on are in
`seeded/LOG.jsonl`.

## Layout

| directory | content |
|---|---|
| `lean/Verif/Model/` | the model: one definition per Rust function or type, each with a comment citing file and lines |
| `lean/Verif/Spec/` | the vocabulary of the property statements; it does not call the functions of the model |
| `lean/Verif/Lemmas/` | helper lemmas |
| `lean/Verif/Props/` | the property theorems `Cnn_…`, with `example`s beside them that meet the hypotheses |
| `lean/Verif/Conformance/` | the crate's own unit tests, run on the model (see *Model validation*) |
| `AXIOMS.tsv` | the axioms each theorem depends on |
| `tools/` | `axioms.py` writes `AXIOMS.tsv`, `imports.py` writes `Verif.lean`, `manifest.py` writes `MANIFEST.json` from the theorem names and `notes.json` |

How to read a property: look up its theorems in `MANIFEST.json`, read the header of the file in `Props/`,
then the definitions of `Spec/` the statement uses. `Model/` is needed only to know what the calls are
(`ThingOp`, `FormOp`, `KindOp`, … list the builder calls; `Reachable X title h b` says that the builder
`b` is the result of the calls `h`).

## What is modelled

| code | model |
|---|---|
| `builder.rs` `ThingBuilder` and its calls, `build` with its phases in the order of the code, `ext`, `finish_extend` | `Model/Thing`, `Model/Reach` |
| `builder.rs` `FormBuilder`, `LinkBuilder`, `AdditionalExpectedResponseBuilder`, `MultiLanguageBuilder` | `Model/Form`, `Model/Prelude` |
| `builder.rs` `SecuritySchemeBuilder` and all subtype builders | `Model/Security` |
| `builder/affordance.rs` property, action, event builders, their checks and conversions | `Model/Affordance` |
| `builder/data_schema.rs` all builders and their conversions, `check` (explicit stack), `TryFrom` into `DataSchema` | `Model/SchemaBuilder`, `Model/SchemaCheck` |
| `builder/human_readable_info.rs` | `Model/SchemaBuilder` |
| `thing.rs` all types, `Minimum`/`Maximum` and their comparisons, `DefaultedFormOperations`, `Display` and `FromStr`-like parts of `FormOperation` | `Model/Bounds`, `Schema`, `Form`, `Security`, `Affordance`, `Thing` |
| `thing.rs` all `Serialize`/`Deserialize` impls, derived and hand-written | `Model/Serde`, `Model/Codec` |
| `PartialEq` of Things, of all their parts, of `HList` cells and of the protocol bindings | `Model/Equality` |
| `hlist.rs`, `extend.rs` | `Model/HList` |
| `protocol/{http,coap,mqtt}.rs` types, `Serialize`/`Deserialize`, extension of Things | `Model/Protocol` |
| `builder.rs` the texts of `Error` | `Model/Message` |
| `thing.rs`, `protocol/*.rs` the `Default` impls | `Model/Default` |
| the nesting limit of `serde_json::from_str` | `Model/Text` |
| the characters of JSON texts: `serde_json::to_string`, `to_string_pretty`, `from_str` | `Model/JsonText` |
| the texts of `created` and `modified`: `time::serde::rfc3339` | `Model/Time` |
| language tags: `oxilangtag` | `Model/LangTag` |
| the decimal texts of `f64`: `ryu`, `serde_json::de` | `Model/FloatText` |

Not modelled: derived `Debug` and `Clone` (those written by hand are: C73), `PartialEq` of builders and errors, `Hash`, `Default` of builders (where it is part of a
modelled function, its value is written out), `SerdeError` texts (reading yields a value or fails, errors are not told
apart), rustc, std, allocation and stack limits, the serde_json recursion limit (128) except in C62 and C66, the
conversion between floats and decimal text (serde_json without `float_roundtrip` may be off by one unit in the last place when it reads
a float): in C65 and C66 it is a parameter, C70 to C72 are about it.

## Modelling decisions

* **HashMap.** A finite map is its strictly key-sorted association list, so that two maps with the same
  content are the same model value. Iteration order, which in Rust is arbitrary, is supplied by the
  environment: `Env.iter m` is any permutation of the entries. All theorems quantify over `Env`.
  Simplification: `iter` is a function of the content, so one run iterates two maps with the same content
  in the same order; every order of every single map is covered.
* **Language tags.** `oxilangtag` is external: `Env.langParse : String → Option String` is the text of the
  parsed tag, or `none`. No law is assumed unless a theorem states it as a hypothesis. C69 is about `oxilangtag` itself.
* **f64.** A 64-bit pattern; `is_nan`, `partial_cmp` and `<= 0.` are defined on the pattern as in IEEE 754.
  `Spec/Float` gives the denoted numbers, and C22/C07 relate the two. Casts from integers are defined on patterns
  (`F64.ofInt`) and proved to give the nearest number, half to even (C55).
* **i64, u32, u16, u8, NonZeroU64.** Bounded integers as subtypes of `Int`/`Nat`.
* **serde_json.** `Json` is a tree whose objects are lists of members. A JSON *text* is a tree that may
  repeat a member and keeps its order; a `serde_json::Value` is a tree in normal form (`Json.norm`: sorted, last of repeated members
  wins, because `Map` is a `BTreeMap` without `preserve_order`). Numbers are trees too. `Model/JsonText` relates trees to
  strings of characters (C65, C66). `Thing.fromString` finds the tree of what is looked at first (`Thing.parse`) and reads the Thing from
  it, while serde_json does both in one pass. What serde_json skips without looking at it - the values of unknown members of `version`
  and of the elements of `links`, since all other structs collect unknown members or go through a buffer - is skipped in the
  same way (`skipValue`, C74).
* **serde.** `Model/Serde` states what derive macros, `flatten`, `tag`, `untagged`, `default`, `skip_serializing_if`,
  `serde_with` (`OneOrMany`, `skip_serializing_none`) do. Of the details: flattened fields see the
  members the struct does not know itself; structs may be read from arrays except when they have flattened fields; a
  unit as flattened field accepts and writes nothing; internally tagged enums are read through `Content`.
* **Extensions.** The associated types of `ExtendableThing` are type parameters (`ExtTypes`). For
  serialisation a component comes with a codec `ExtCodec`: the names it writes, a writer, a reader and the
  names its reader removes. Laws needed (`Separate`, `WriteOnce`, `Local`, `Orderless`, `Tidy`, `Lawful`,
  `Own`) are hypotheses, and are proved for the empty extension and every stack of different protocol bindings.
* **Errors.** `Result<_, Error>` is `Except Error _`; a panic is a separate outcome (`Failure.panic`), so
  that "never panics" (C17) is a theorem and not an artefact of totality.
* **Closures** passed to builder methods are modelled by the value they produce or the calls they make.
* **Type state.** A call that does not type check in Rust is `none` or is not a constructor of the
  respective reachability relation.
* **DateTime.** `OffsetDateTime` is an abstract type with formatter and parser in `SerdeEnv`.

## Plan per property

* **C01** Security definition names are unique. The names reported by `build` against the `security` calls: inversion of the security phase, induction over the definitions; which duplicate is reported by induction on the first repeated name.
* **C02** Thing-level security only names defined schemes. Inversion of the security phase.
* **C03** Form security only names defined schemes. Inversion of the form phases at Thing and affordance level; failure by the exact characterisation (C17).
* **C04** Thing-level forms carry explicit Thing-level operations. As C03, against the operation lists of the TD specification in `Spec/Build`.
* **C05** Affordance forms only carry operations of their kind. As C04, per kind of affordance.
* **C06** Affordance names are unique per kind and none is lost. Keys of the collected maps against the names in the calls; failure by C17.
* **C07** Numeric range acceptance. Exact acceptance rule from the decision logic of the checks; FALSE as stated, negations by witness, `_partial` theorems for the cases where it holds.
* **C08** Nested schemas in checked positions are all valid. The loop with explicit stack is defined by well-founded recursion and shown equivalent to a rule on everything `Within` (inductive relation) the schema.
* **C09** Range rules hold for every data schema of a built Thing. FALSE as stated: three unchecked positions, each with a witness; `_partial` for all other positions.
* **C10** multipleOf is strictly positive. From the number rule and C08.
* **C11** URI variables are never arrays or objects. Inversion of the URI variable checks; the hidden case in `oneOf` is proved possible.
* **C12** Language tags are validated everywhere. Induction over schemas and lists: each language key is visited.
* **C13** Translations with distinct tags are all preserved. `collect` of the parsed keys; two environments for the negative part.
* **C14** sizes only on icon links. Inversion of the link phase.
* **C15** Additional responses name declared schemas. FALSE for affordance forms (witness in each context); `_partial` for Thing-level forms.
* **C16** Combo schemes only reference defined schemes. Inversion of the security phase, against the `References` relation of `Spec`.
* **C17** Build is exactly its documented validation. One exact theorem: success iff `History.Valid`; by composing the outcomes of all phases (`Lemmas/Outcome`, `Lemmas/Build`, `Lemmas/Valid`).
* **C18** Errors tell the truth. Per-error truth, `History.Violates`, from the same outcomes.
* **C19** Build result does not depend on hash-map iteration order. From C17 and C20: validity does not mention the environment's order; congruence of the result.
* **C20** Nothing supplied to the builder is lost or altered. Induction over histories: the builder state, then the Thing, member by member, as a function of the calls.
* **C21** Context construction. As C20.
* **C22** Bound comparison is a consistent partial order. Partial order laws for any lawful comparison, then instantiated to i64 and f64; meaning through the denoted numbers.
* **C23** Bounds setters: last call wins, one bound per side. Induction over call chains.
* **C24** Builder schemas are never both readOnly and writeOnly. Invariant of the reachable builders (`Lemmas/SchemaReach`), then through `build`.
* **C25** Object schemas: required is a subset of properties. As C24.
* **C26** Schema variants are well-formed. As C24.
* **C27** A property's interaction and schema agree. Inversion of the property conversion.
* **C28** Thing round trip through a JSON value. Writer and reader composed, by induction on schemas and lists (`Lemmas/Codec*`); what comes back is the function `stored` of `Spec/Stored`.
* **C29** JSON text round trip. FALSE as stated: a property repeats the human readable members in text; exact rule and `_partial` theorem.
* **C30** Data schema round trip. Induction on schemas.
* **C31** Form operations round trip and names. By cases on the operations.
* **C32** Security scheme round trip. By cases on the schemes; custom schemes against `LooksPredefined`.
* **C33** OneOrMany members. Reader on both spellings, per member.
* **C34** Heterogeneous list laws. Induction on typed heterogeneous lists.
* **C35** Extensions are flattened and read back. Induction on lists of codecs.
* **C36** Protocol binding members round trip. Composition of the readers and writers of each binding, for all stacks; the headers of HTTP responses are the exception stated in the theorems.
* **C37** Defaults on absent members. Reader on documents without the member, and on documents with the default spelled out.
* **C38** Reading ignores member order and unknown members. An equivalence generated by edits at any depth (`Spec/Edits`); the reader is invariant under one step. FALSE in three cases, each with exact rule; `_partial` theorems for all other edits.
* **C39** Required members are required. From C51.
* **C40** Independent builder calls commute. Induction over histories; calls that concern different members commute.
* **C41** Extending keeps what was set. Histories before and after `ext` compared.
* **C42** Which error is reported. The phases of `Spec/Phases` in order: the first one with a fault decides.
* **C43** A data schema is exactly what its builder calls say. Induction over call chains: the converted schema as a function of the calls (`Spec/SchemaHistory`).
* **C44** A form is exactly what its builder calls say. Induction over call lists (`Spec/Calls`).
* **C45** An affordance is exactly what its builder calls say. As C44.
* **C46** A security scheme is exactly what its builder calls say. As C44.
* **C47** A link is exactly what its builder calls say. As C44.
* **C48** Which Things can be written. The writer fails only in the stated cases: induction over the Thing.
* **C49** What is written does not depend on hash-map iteration order. Two environments: trees equal up to the order of members (`Unordered`), hence equal values.
* **C50** Things that have been read can be written and read again. The reader's results meet the conditions of C28 (`Lemmas/Reread`), under the laws `SerdeEnv.Stable` of the external functions.
* **C51** Which documents are read. A grammar (`Spec/Grammar`) shown equivalent to success of the reader.
* **C52** What the written JSON looks like. Relations between Thing and document, part by part (`Spec/Written`), hold of the writer's output.
* **C53** String constraints of data schemas: settable everywhere but on a property itself. Invariant of the property's schema builder; call histories for the rest.
* **C54** Converting a data schema builder into a data schema. Outcome of the conversion by induction on schemas (`Lemmas/Convert`).
* **C55** The type and the constraints a data schema is read with. Inversion of the reader of the subtype against an independent grammar with meanings (`Spec/Typed`); correctness of integer to float rounding (`Lemmas/Round`).
* **C56** Documents use the vocabulary of the Recommendation. Term lists in `Spec/Vocabulary`; members of the written document from C52 by induction on schemas. FALSE for three members (witness); `_partial` for all others.
* **C57** What it means that two Things are equal. `==` with all impls it calls (`Model/Equality`) against equality of canonical forms (`Spec/Equality`), by induction on schemas and JSON values.
* **C58** What is read is what the document says. A relation between documents and Things, one clause for each member (`Spec/Meaning`), shown equal to the reader's graph; nested schemas by induction on the depth of the document (`Lemmas/Meaning`).
* **C59** An error message says what is wrong. `Model/Message` has the texts of `thiserror`; distinctness by comparing the fixed parts of the texts and cancelling them; truth from C18. False for combo schemes (`C59_combination`).
* **C60** Default values are what is given when nothing is said. `Model/Default` has the `Default` impls; by the inversion lemmas of the reader. False for the context of a Thing and for HTTP responses (`C60_context`, `C60_http_response`).
* **C61** What the members of protocol bindings mean. As C58, one relation for each binding (`Spec/MeaningProtocol`); lists of bindings by induction, because bindings read members of their own only.
* **C62** How deep documents nest, and what `from_str` accepts. The limit is modelled in `Model/Text`; upper bound by induction over the depth of schemas, lower bound by induction over a chain of nested schemas, then through every place of a Thing where a schema can stand. Example Things of every depth in `Props/DemoDeep`.
* **C63**: `Buildable` (Spec/Buildable) says of a Thing alone what the builders can make. One direction collects what is
  known of built Things; for the other one a history is written down for every such Thing, its parts are made call by
  call (Lemmas/BuildableSchema, BuildableParts), and the result of the history is computed (Lemmas/BuildableThing).
* **C64** What was built, written and read back can be built again. By C28 what is read is `Thing.stored`; that keeps every rule of `Buildable` unless the constant of a schema is lost (Lemmas/BuildableStored). Then by C63.
* **C65** Which JSON texts are read, and what they mean. `Model/JsonText` is a reader with fuel and two writers; `Spec/JsonText` the
  grammar of RFC 8259 as an inductive relation. Completeness by induction over the derivation, for any continuation of the text;
  soundness by induction over the fuel; the writers by induction over trees (Lemmas/JsonNumber, JsonString, JsonValue, JsonText).
* **C66** Things survive the way through a string. C65 on top of C29, C50 and C62; that all numbers in the text of a Thing are read back
  is a walk through the whole writer (Lemmas/Numbers).
* **C67** What the strings of Things look like. `Spec/Layout` lays out a text character by character, without its tree; equality by
  induction on the tree with any text behind it. The compact text is a shortest one by induction on the grammar of C65.
* **C68** Instants are written and read after RFC 3339. `Model/Time` is the calendar, the writer and the reader of `time`; `Spec/Time`
  counts days by stepping through the calendar, and gives the texts as relations. The formulas agree with the stepping by induction on
  the day (Lemmas/Calendar); the texts field by field (Lemmas/Time). With them the laws `TimeKept` and `Stable.times`, hypotheses
  elsewhere, hold.
* **C69** Languages are the tags of RFC 5646. `Model/LangTag` is the state machine of `oxilangtag`; `Spec/LangTag` is the grammar, as
  lists of subtags, and the recommended case. The states correspond to suffixes of the grammar, by induction on the subtags. With them
  the laws `TagsStable`, `TagsDistinct` and `Stable.tags`, hypotheses elsewhere, hold.
* **C70** Numbers of up to 15 digits survive the text. `Model/FloatText` writes the shortest decimal number that is rounded to the
  float, as `ryu` does, and reads with one rounded multiplication or division, as serde_json does; `Spec/FloatText` says which float is
  nearest to a decimal number and which texts denote it. Rounding is characterised by the middles between neighbours, for all fractions
  (Lemmas/FloatText); the reader is exact while significand and power of ten are (FloatRead); the writer by induction on the exponent
  (FloatWrite, FloatLayout); together FloatKept. FALSE for all floats, with two witnesses and a Thing that is changed. For all
  floats: each operation changes a number by a factor of at most 1 + 2^-53, and middles between neighbours grow by at least that
  factor, so n operations move a number by at most n steps (FloatClose, FloatBack); documents by induction on the tree (FloatTree). Notation and extreme exponents by
  cases (FloatNotation, FloatExtreme). Digits beyond 64 bits are left out, which changes a number by a factor of at most 1 + 2^-60
  (FloatLong).
* **C71** With exact reading every number survives the text. `serdeJsonExact` in `Model/FloatText` reads with one rounding. What is
  written is rounded to the float (FloatWrite), so it is read again (FloatExact), and C66 holds without a hypothesis on numbers.
* **C72** A Thing with any numbers survives the text but for last places, and drifts when saved again and again. `Spec/FloatThing`
  says what a Thing is after a function on its floats, and what it is to be written and read n times. Writing commutes with such a
  function, part by part, when maps are iterated in the order of their keys (Lemmas/FloatThing), and otherwise up to the order of
  members (C49); the conditions for reading back are kept by it (FloatReread). Any number of times by induction. That numbers come
  to rest is FALSE: a Thing with one that drifts and one that goes to and fro for ever.
* **C73** What is printed for debugging shows all of a Thing, and a cloned form is the same form. `Model/Debug` is the tree of names and
  values that the hand-written implementations pass to `std`; values with derived `Debug` stand for themselves. The tree determines the
  Thing by injectivity of its constructors, and maps because permutations of sorted lists are equal (Lemmas/Debug).
* **C74** What is skipped in the text of a Thing does not matter. `Spec/Skipped` is the grammar of values without meaning and that of
  texts of Things; Lemmas/JsonSkip relates the loop with a stack of open brackets to the grammar, by induction over values in one direction
  and over the number of steps in the other; Lemmas/JsonStruct does the same for structs and for whole Things.
* **C75** A data schema admits the same values here and for others. `Spec/Values` says, apart from the model, which values a JSON document
  admits as a data schema and which a schema of the library admits, for any rule for equality of values, patterns and formats. Both are
  brought into one form, node by node (Lemmas/Values), using what is shown of a schema (C52) and what a document means (C58); nested schemas
  by induction over their number when written and over the document when read. FALSE in general, with one witness for each way in which
  the two differ; proved where none is present.
* **C76** What is written is a Thing Description of the Recommendation. `Spec/Conform` states, as a predicate on JSON values that refers to
  nothing of the model but trees and operations, when a document conforms: mandatory members, types, references, operations, places of
  credentials. What is shown of a Thing (C52) turns each clause into a condition on the Thing (Lemmas/Conform); for a Thing that was built,
  most of them are earlier theorems (C02, C03, C11, C12, C14, C16, C21). FALSE in general, with ten witnesses; the remaining conditions
  are exact.
* **C77** Thing Descriptions of the Recommendation are read. Each clause of `Spec/Conform` is compared with the grammar of what is read
  (C51), by induction over nested schemas (Lemmas/ConformRead); C51_scheme says what a security definition is read as. FALSE for one
  member of events, and for predefined schemes; the conditions are exact.
* **C78** A Thing Description of the Recommendation stays one. What a document means (C58) and the clauses of `Spec/Conform` for it give,
  member by member, the conditions on the Thing that make its document conform (C76); nested schemas by induction over the document, and
  the float nearest to a positive integer is positive because the least positive float is nearer than zero (Lemmas/ConformKept). FALSE for
  versions without a model and empty lists of operations; the conditions are exact.
* **C79** Who can use the forms of a Thing. `Spec/Access` says what a security definition asks for and, as the least relation (`Met`), which
  clients satisfy it, once for JSON documents and once for Things. That the two agree follows from what documents show (C52) and mean
  (C58), scheme by scheme; that some set of credentials suffices by induction over the level of a combination. FALSE for combinations that
  contain themselves; `C79_locked` gives the exact rule by the dual greatest set.
* **C80** What a client can do with the forms of a Thing. `Spec/Offers` says which operations a form offers, by name or by default, for
  documents and for Things; place by place, the two are compared by what documents show (C52) and mean (C58). FALSE for forms with an
  empty list of operations; the difference is stated exactly.
* **C81** Things can be put together from parts. `Spec/Together` says when two Things share no name and what a Thing with everything of
  both is. By the validity of histories (C17, C18): every condition except the distinctness of names looks at one call and at names that
  only become more; what is last in an appended history is last in one of the parts. The contents by C20 and C21. Leaving out calls
  (`History.Without`) by the same lemma, with one history for both parts.
* **C82** Which builders can still be completed. `Spec/Complete` lists what no later call changes. Necessary: it is part of the validity of
  every continuation (C17). Sufficient: calls are given that replace what can be replaced by defaults and define every
  scheme and schema that is referred to and missing; that the result is valid is checked condition by condition.

* **C83** Programs with different extensions can exchange documents. `Spec/Readers` replaces the extension values of a Thing by those of
  another program and says when the readers of the one follow those of the other. If they accept the same, all readers
  commute with the replacement, field by field, for schemas by induction on the depth. For written documents a reader in
  between, which falls back to the second program's where the first one's fails, satisfies this and C28. Writers whose
  members agree up to order write the same value: as C49, with the values of two programs instead of two iteration orders.
* **C84** A program with fewer extensions passes on everything but their members. `Spec/Less` says inductively when a JSON value is another
  one without some members. By C83 it is enough to compare two writers of the same values. Writers are related member by
  member, with the names that may be missing and those in use; two lists of members can be joined if these are apart. For
  schemas by induction on their structure. C28 and C83 add the reading.
* **C85** Extension values make no difference to anything else. What C63, C75, C79 and C80 say of a Thing (it can be built,
  its schemas admit a value, a client can use a form, a form offers an operation) is shown not to change when all extension
  values are replaced by `()`; so it is the same for two Things of which this makes the same.
* **C86** Extension values make no difference to building. `Spec/SameCalls` replaces the extension values in a sequence of calls.
  What C42 says is wrong in a phase, and the Thing C20 says is built, are shown to follow this replacement, part by part. That
  the arguments can still be built is shown by induction on how they were built, and for schemas from their shape (C63).
* **C87** Names are only names. `Spec/Rename` puts new names in calls, Things and errors. The faults of each phase are carried over in
  both directions (`Lemmas/Rename`), the Thing by the members of its maps (`Lemmas/RenameResult`), and the renamed calls are built by
  renamed calls on the part builders (`Lemmas/RenameReach`). URI variables keep their names: these occur inside the targets of forms.
* **C88** What clients can do does not depend on names. The notions of C79 and C80 for the renamed Thing of C87, with renamed places and
  demands (`Spec/RenameAccess`). What a client meets is an inductive relation: by induction on it, in both directions.
* **C89** Any two Things can be put together under new names. From C87 and C81: renamed to names that are not used, the second Thing is
  apart from the first. A prefix longer than every name of the first gives such names.
* **C90** Writing, reading and comparing do not depend on names. The conditions of C28, C29, C48 and C57 speak about what is in a Thing;
  they hold of the renamed Thing just when they hold of the Thing, and what is left after storing commutes with renaming.
* **C91** What a Thing does not use can be left out. `Spec/LeftOut` says what a Thing needs a definition for, and what it is without it. By
  C17, what can be built is what has no fault; the faults of the shorter program are compared with those of the longer one, and by
  C20 so are the results. Two calls that define a schema under one name are left out of this: the later one replaces the earlier.
* **C92** Affordances and other calls that stand on their own can be left out. As C91; `Spec/LeftOut` lists the calls. What the others may
  replace has not been checked, so that they can be left out if they replace nothing, but not in general: `C92_replaced`.
* **C93** Leaving out a security definition closes nothing. The notion of C79 for the two Things of C91: by induction on how a client
  meets a definition, in both directions. What is left out is reached neither from forms nor from other definitions.
* **C94** What is taken out of a document is taken out of the Thing. The reader of a Thing is inverted to one statement for each member; all
  but one are about members that are not changed, and a map that is read from fewer members has fewer entries.
* **C95** Leaving out an affordance changes nothing for the clients of the others. The notions of C79 and C80 for the Things of C92 and C94:
  the form in each place but those of the affordance is the same, and so is what is asked for it.

## Where the code does not do what one would expect

Each of these is a theorem about the model, so about the code as far as the model is right.

* C07: bounds of mixed kinds are rejected even if numbers lie between them, and some empty ranges are accepted.
* C09: `dataResponse`, URI variables and schema definitions are not checked.
* C11: arrays and objects among the alternatives of a URI variable are not noticed.
* C13, C38: two spellings of one language: which text stays depends on the iteration order (builder) or the
  order of members (reading).
* C15: additional responses of affordance forms may name undeclared schemas.
* C22: minima and maxima taken together are not ordered transitively.
* C29: the text of a Thing with a property that has a title, description or `@type` repeats these members and cannot be read.
* C30, C32: a `const` of `null` is read as absent, infinite bounds are written as `null`; custom security schemes that look
  like predefined ones are read as those.
* C36: an HTTP response without headers is written but not read.
* C38: both names of a bound in one schema: the first counts; unknown members of security definitions matter.
* C50: an empty list of operations is the exception to reading again what was read.
* C52: the data of a custom security scheme may use the name of another member of the definition.
* C53: a property of type string cannot be given a length or a pattern.
* C54: data schemas converted without a Thing are not checked.
* C55: one constraint that cannot be read (`multipleOf` of 0, say) drops the type and all constraints without an error; a numeric
  bound that cannot be read is dropped alone, and hides the other bound of its side.
* C56: `minItems`, `maxItems` and `dataResponse` are written and read as `min_items`, `max_items` and `data_response`.
* C57: a Thing with a NaN in it, which can be built, is not equal to itself; equal Things may have been created at different offsets.
* C62: a Thing with 126 or more nested schemas can be built and written, but `serde_json::from_str` does not read its text.
* C64: a schema with the constant `null` is read back as one that no builder makes.
* C66: a bound that serde_json reads in a different last place changes the Thing without an error.
* C68: an instant whose year does not have four digits, or whose offset has seconds, can be given to the builder, but the Thing cannot be
  written; a leap second is read as the nanosecond before, and digits after the ninth are dropped.
* C69: `x--` and `x-` with a subtag of more than eight characters are accepted as languages; builders change the case of a language,
  documents do not, so that a document can have two titles whose languages differ in case and a builder cannot.
* C70: `9007199254740991.0` is read as `9007199254740990`: a Thing with the bound 2^53 - 1 is written and read back with another
  bound and no error. `8000000000000020.0` is another number that is changed.
* C72: a Thing that is saved and loaded again and again may not come to rest: one number in it can move on each time, and another go
  to and fro for ever.
* C75: limits of arrays, a constant `null`, a second bound, bounds of the wrong kind or without an exact float, and types with an
  ill-fitting member: a schema admits values that its document excludes, or the other way round.
* C76: documents without required security, with `"model": null`, with affordances without forms, combinations of one scheme (written as a
  string), passwords in the URI, OAuth2 flows without endpoints, `"maximum": null` or a `multipleOf` of 0 are written for Things that
  were built, and are not Thing Descriptions.
* C77: a Thing Description is refused because of a member `data_response` that has nothing to do with the library; `"in": "auto"`, a digest
  scheme without `qop` and combinations with further members are taken for custom schemes.
* C78: a version without a model and an empty list of operations are rewritten with `null`, so that the document does not conform any
  more.
* C79: a combination may contain itself, or have an empty `oneOf`; no client can satisfy it, and `build` accepts it.
* C80: a form that offers nothing (`"op": []`) offers the default operations after the document has been read and written.
* C83: where an extension cannot read its part of a data schema, the schema silently loses its type; a program without the extension
  sees the type in the same document.

## Model validation

Nothing connects the model to the Rust code mechanically: that it is faithful is part of the trusted base. To catch
mistakes in it, all 175 unit tests of the crate but four, and the documentation examples that assert something, are transcribed in `Verif/Conformance/`, one `example` per test
or small group of tests, each citing the test. An `example` states that the model gives the value the Rust test asserts; the kernel evaluates it. These are tests and no
property relies on them. The four tests left out build a `ReadOnly`/`WriteOnly` of a builder without a kind, which the
API does not offer. JSON texts in the tests are transcribed as trees, except in `Model/JsonText`, whose `example`s are
about texts.

## Trusted base

* Lean 4.33.0's kernel.
* Axioms: every theorem depends on a subset of Lean's `propext`, `Classical.choice`, `Quot.sound`; no others, no `sorry`, no
  `native_decide`, no `bv_decide`. `AXIOMS.tsv` lists them theorem by theorem (written by `tools/axioms.py` from `#print axioms`).
* That the definitions in `Model/` render the cited Rust lines, and `Model/Serde` the behaviour of serde,
  serde_json and serde_with.
* That `Spec/` says in Lean what `properties.jsonl` says in English.
* The external functions are parameters: `Env.iter` (any permutation), `Env.langParse`, `SerdeEnv.langRead`,
  `timeFormat`, `timeParse`. Laws about them are hypotheses of the theorems that need them:
  `TagsStable`, `TagsDistinct`, `TimeKept`, `Stable`. C68 replaces `timeFormat` and `timeParse` by `Model/Time`, which follows the
  `time` crate (0.3.11) from memory: its source is not at hand. Later versions accept any character between date and time. C69
  replaces `langParse` and `langRead` by `Model/LangTag`, which follows `oxilangtag` 0.1 from memory likewise. C70 replaces the texts of floats by
  `Model/FloatText`, which follows serde_json 1.0 (without `float_roundtrip`) and `ryu` from memory; C71 is about serde_json with
  `float_roundtrip`, of which only the documented result is modelled.

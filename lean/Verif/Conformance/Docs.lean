import Verif.Conformance.Support
/-
The examples in the documentation of the crate that assert something, on the model. (`compile_fail` examples and examples
without an assertion are left out, as are second copies of the same example.)
-/
namespace Wot.Conformance.DocsTests

/-- `json!({ "@context": …, "title": "Thing name", "security": […], "securityDefinitions": {…}, … })`. -/
def described (more : List (String × Json)) (context : Json := .str tdContext11) (definitions : Json := .obj []) : Json :=
  .obj ([("@context", context), ("title", json! "Thing name"), ("security", json! []),
    ("securityDefinitions", definitions)] ++ more)

/-- `Thing::builder("Thing name").finish_extend()`, some calls and `build()`. -/
def named (ops : List (ThingOp X)) : Except Failure (Thing X) :=
  ((ThingBuilder.new (X := X) "Thing name" ()).finishExtend.run ops).build env.toEnv

/-- `assert_eq!(serde_json::to_value(thing).unwrap(), json!(…))`. -/
def gives (ops : List (ThingOp X)) (j : Json) : Bool :=
  writes ((named ops).toOption.bind (toValue ExtCodecs.nil env)) j

/-- The same with a schema definition `test`. -/
def givesSchema (s : S) (j : Json) : Bool :=
  gives [.schemaDefinition "test" s] (described [("schemaDefinitions", json! { "test": (j) })])

/-! ### `src/builder.rs` -/

/-- `src/builder.rs:1092–1120`. -/
example : gives [.common (.contextMap [("custom_context1", "hello"), ("custom_context2", "world")])]
    (described [] (context := json! [(.str tdContext11), { "custom_context1": "hello", "custom_context2": "world" }])) =
      true := by decide +kernel

/-- `src/builder.rs:1144–1170` and `1175–1184`. -/
example :
    gives [.common (.titles [("en", "English title"), ("it", "Italian title")])]
      (described [("titles", json! { "en": "English title", "it": "Italian title" })]) = true ∧
    fails (named [.common (.titles [("e!n", "Invalid title")])]) (.invalidLanguageTag "e!n") = true := by decide +kernel

/-- `src/builder.rs:1230–1258`. -/
example : gives [.common (.linkWith [] "https://localhost" [.rel "icon", .sizes "16x16 24x24 32x32"])]
    (described [("links", json! [{ "href": "https://localhost", "rel": "icon", "sizes": "16x16 24x24 32x32" }])]) =
      true := by decide +kernel

/-- `src/builder.rs:1289–1323`. -/
example : gives [security [.basic, .withKey "my_basic_sec", .name "basic_sec_name"], security [.apiKey]]
    (described [] (definitions := json! {
      "my_basic_sec": { "scheme": "basic", "name": "basic_sec_name", "in": "header" },
      "apikey": { "scheme": "apikey", "in": "query" } })) = true := by decide +kernel

/-- `src/builder.rs:1405–1435`, `1440–1450` and `1465–1484`. -/
example :
    gives [.form (form [] "form_href" [.op .readAllProperties])]
      (described [("forms", json! [{ "href": "form_href", "op": ["readallproperties"] }])]) = true ∧
    fails (named [.form (form [] "form_href" [])]) .missingOpInForm = true ∧
    fails (named [.form (form [] "form_href" [.op .readProperty])]) (.invalidOpInForm .thing .readProperty) = true := by
  decide +kernel

/-- `src/builder.rs:1510–1536`. -/
example : gives [.uriVariable "var" (schema .number)]
    (described [("uriVariables", json! { "var": { "type": "number", "readOnly": false, "writeOnly": false } })]) = true := by
  decide +kernel

/-- `src/builder.rs:2313–2346`, `2351–2362`, `2397–2430` and `2435–2446`. -/
example :
    gives [security [.combo, .allOf ["basic", "nosec"]], security [.basic], security [.noSec]]
      (described [] (definitions := json! {
        "combo": { "scheme": "combo", "allOf": ["basic", "nosec"] },
        "basic": { "scheme": "basic", "in": "header" },
        "nosec": { "scheme": "nosec" } })) = true ∧
    fails (named [security [.combo, .allOf ["basic", "nosec"]], security [.noSec]]) (.missingSchemaDefinition "basic") =
      true ∧
    gives [security [.combo, .oneOf ["basic", "nosec"]], security [.basic], security [.noSec]]
      (described [] (definitions := json! {
        "combo": { "scheme": "combo", "oneOf": ["basic", "nosec"] },
        "basic": { "scheme": "basic", "in": "header" },
        "nosec": { "scheme": "nosec" } })) = true ∧
    fails (named [security [.combo, .oneOf ["basic", "nosec"]], security [.noSec]]) (.missingSchemaDefinition "basic") =
      true := by decide +kernel

/-- `src/builder.rs:2710–2759`. A single additional response is written without a list. -/
example : gives
    [.form (form [] "form_href"
      [.op .readAllProperties, .additionalResponse [.contentType "application/xml", .success, .schema "xml_response"]]),
     .schemaDefinition "xml_response" (schema (.object ()))]
    (described [
      ("forms", json! [{ "href": "form_href", "op": ["readallproperties"], "additionalResponses": {
        "contentType": "application/xml", "success": true, "schema": "xml_response" } }]),
      ("schemaDefinitions", json! {
        "xml_response": { "type": "object", "readOnly": false, "writeOnly": false } })]) = true := by decide +kernel

/-! ### `src/builder/data_schema.rs` -/

/-- `src/builder/data_schema.rs:1271–1302`. -/
example : givesSchema
    (schema (.enumeration (json! "variant1")) [.enumeration (json! "variant2"), .enumeration (json! "variant3")])
    (json! { "enum": ["variant1", "variant2", "variant3"], "readOnly": false, "writeOnly": false }) = true := by
  decide +kernel

/-- `src/builder/data_schema.rs:1325–1375`. -/
example : givesSchema (schema (.oneOf (schema .number)) [.oneOf (schema .integer), .oneOf (schema .string)])
    (json! {
      "oneOf": [{ "type": "number", "readOnly": false, "writeOnly": false },
        { "type": "integer", "readOnly": false, "writeOnly": false },
        { "type": "string", "readOnly": false, "writeOnly": false }],
      "readOnly": false, "writeOnly": false }) = true := by decide +kernel

/-- `src/builder/data_schema.rs:1406–1445`. -/
example : givesSchema (schema .integer [.iMinimum (int 5), .readOnly, .iMaximum (int 10)])
    (json! { "type": "integer", "readOnly": true, "writeOnly": false, "minimum": 5, "maximum": 10 }) = true := by
  decide +kernel

/-- `src/builder/data_schema.rs:1450–1464`: `read_only().write_only()` does not compile. -/
example : [KindOp.readOnly, .writeOnly].foldlM KindBuilder.apply
    (specialise (DataSchemaBuilder.empty (DS := Unit) (AS := Unit) (OS := Unit) ()).finishExtend .integer) = none := rfl

/-- `src/builder/data_schema.rs:1598–1636`. -/
example : givesSchema (schema (.vec ()) [.setItem (schema .number)])
    (json! {
      "type": "array", "items": { "type": "number", "readOnly": false, "writeOnly": false },
      "readOnly": false, "writeOnly": false }) = true := by decide +kernel

/-- `src/builder/data_schema.rs:1650–1696`. -/
example : givesSchema (schema (.tuple ()) [.append (schema .number), .append (schema .null)])
    (json! {
      "type": "array",
      "items": [{ "type": "number", "readOnly": false, "writeOnly": false },
        { "type": "null", "readOnly": false, "writeOnly": false }],
      "readOnly": false, "writeOnly": false }) = true := by decide +kernel

/-- `src/builder/data_schema.rs:1737–1784`. -/
example : givesSchema
    (schema (.object ()) [.property "prop" true (schema .integer), .property "other_prop" false (schema .number)])
    (json! {
      "type": "object",
      "properties": {
        "prop": { "type": "integer", "readOnly": false, "writeOnly": false },
        "other_prop": { "type": "number", "readOnly": false, "writeOnly": false } },
      "required": ["prop"], "readOnly": false, "writeOnly": false }) = true := by decide +kernel

/-! ### `src/builder/affordance.rs` -/

/-- `src/builder/affordance.rs:68–97` and `108–144`. -/
example :
    gives [.action "aff" (action [.interaction (.form (form [] "href" []))])]
      (described [("actions", json! {
        "aff": { "forms": [{ "href": "href" }], "idempotent": false, "safe": false } })]) = true ∧
    gives [.action "aff" (action [.interaction (.uriVariable "myvar" (schema .number))])]
      (described [("actions", json! {
        "aff": { "forms": [],
          "uriVariables": { "myvar": { "type": "number", "readOnly": false, "writeOnly": false } },
          "idempotent": false, "safe": false } })]) = true := by decide +kernel

/-- `src/builder/affordance.rs:1859–1890` and `1939–1970`. -/
example :
    gives [.action "action" (action [.input (schema .number)])]
      (described [("actions", json! {
        "action": { "input": { "type": "number", "readOnly": false, "writeOnly": false },
          "idempotent": false, "safe": false, "forms": [] } })]) = true ∧
    gives [.action "action" (action [.output (schema .string)])]
      (described [("actions", json! {
        "action": { "output": { "type": "string", "readOnly": false, "writeOnly": false },
          "idempotent": false, "safe": false, "forms": [] } })]) = true := by decide +kernel

/-- `src/builder/affordance.rs:2041–2070`, `2117–2146`, `2193–2222` and `2269–2298`. -/
example :
    gives [.event "event" (event [.subscription (schema .number)])]
      (described [("events", json! {
        "event": { "subscription": { "type": "number", "readOnly": false, "writeOnly": false }, "forms": [] } })]) =
      true ∧
    gives [.event "event" (event [.data (schema .number)])]
      (described [("events", json! {
        "event": { "data": { "type": "number", "readOnly": false, "writeOnly": false }, "forms": [] } })]) = true ∧
    gives [.event "event" (event [.cancellation (schema .number)])]
      (described [("events", json! {
        "event": { "cancellation": { "type": "number", "readOnly": false, "writeOnly": false }, "forms": [] } })]) =
      true ∧
    gives [.event "event" (event [.dataResponse (schema .number)])]
      (described [("events", json! {
        "event": { "data_response": { "type": "number", "readOnly": false, "writeOnly": false }, "forms": [] } })]) =
      true := by decide +kernel

/-! ### Extensions -/

/-- An extension that is written as some members and never read in these examples. -/
def fields (keys : List String) : ExtCodec (List Json) where
  keys
  ser l := some (keys.zip l)
  de _ := none
  takes := true

/-- All associated types are lists of field values; those that a type in the documentation does not have are empty. -/
abbrev F : ExtTypes := ⟨List Json, List Json, List Json, List Json, List Json, List Json, List Json, List Json, List Json,
  List Json⟩

/-- The codecs by the names of the fields. -/
def codecs (thing : List String) (interaction property action event form dataSchema objectSchema arraySchema :
    List String := []) : ExtCodecs F :=
  ⟨fields thing, fields interaction, fields property, fields action, fields event, fields form, fields [],
    fields dataSchema, fields objectSchema, fields arraySchema⟩

/-- `ext`, as a call. -/
def ext {A B : Type} (a : A) : B → Cons A B := fun b => ⟨a, b⟩

/-- One extension and two. -/
abbrev X1 : ExtTypes := .cons F .nil
abbrev X2 : ExtTypes := .cons F (.cons F .nil)

/-- `Thing::builder("Thing name").ext(a).finish_extend()`, some calls, `build()` and what is written. -/
def gives1 (C : ExtCodecs F) (a : List Json) (ops : List (ThingOp X1)) (j : Json) : Bool :=
  let b : ThingBuilder X1 := ((ThingBuilder.new (X := X) "Thing name" ()).ext (ext a)).finishExtend
  writes (((b.run ops).build env.toEnv).toOption.bind (toValue (C.cons ExtCodecs.nil) env)) j

/-- The same with a second extension. -/
def gives2 (C D : ExtCodecs F) (a d : List Json) (ops : List (ThingOp X2)) (j : Json) : Bool :=
  let b : ThingBuilder X1 := (ThingBuilder.new (X := X) "Thing name" ()).ext (ext a)
  let b : ThingBuilder X2 := (b.ext (ext d)).finishExtend
  writes (((b.run ops).build env.toEnv).toOption.bind (toValue (D.cons (C.cons ExtCodecs.nil)) env)) j

def f23 : F64 := .ofBits 0x4037000000000000
def f42 : F64 := .ofBits 0x4045000000000000

/-- `src/builder.rs:69–112`, also `593–636` and `703–746`. -/
example : gives1 (codecs ["a_field", "another_field"]) [json! "hello world", json! 42] []
    (described [("a_field", json! "hello world"), ("another_field", json! 42)]) = true := by decide +kernel

/-- `src/builder.rs:117–203`. -/
example :
    let f : FormBuilderF X2 Unit Unit := FormBuilderF.new ()
    let f := (((f.ext (ext [float f23])).ext (ext ([] : List Json))).setHref "test_href").apply (.op .queryAllActions)
    gives2 (codecs ["a_field", "another_field"] (form := ["form_field"])) (codecs ["another_field_again"])
      [json! "hello world", json! 42] [json! ["field1", "field2"]] [.form f]
      (described [("a_field", json! "hello world"), ("another_field", json! 42),
        ("another_field_again", json! ["field1", "field2"]),
        ("forms", json! [{ "href": "test_href", "form_field": (float f23), "op": ["queryallactions"] }])]) = true := by
  decide +kernel

/-- `b.ext(a).finish_extend()` and a call, with one extension. -/
def schema1 (a : List Json) (op : SpecOp X1.dataSchema X1.arraySchema X1.objectSchema) : UDS X1 :=
  let b : DataSchemaBuilder Unit X1.arraySchema X1.objectSchema := .empty ()
  (specialise (b.ext (ext a)).finishExtend op).toUnchecked

/-- `src/builder/data_schema.rs:288–364`. -/
example :
    let b : DataSchemaBuilder Unit X2.arraySchema X2.objectSchema := .empty ()
    let b := ((b.ext (ext [json! 42])).ext (ext ([] : List Json))).finishExtend
    gives2 (codecs [] (dataSchema := ["data_schema_field"])) (codecs []) [] []
      [.schemaDefinition "test" (specialise b .number).toUnchecked]
      (described [("schemaDefinitions", json! {
        "test": { "type": "number", "data_schema_field": 42, "readOnly": false, "writeOnly": false } })]) = true := by
  decide +kernel

/-- `src/builder/data_schema.rs:492–545`, `668–720`, `838–902` and `913–976`. -/
example :
    gives1 (codecs [] (arraySchema := ["array_field"])) []
      [.schemaDefinition "test" (schema1 [] (.tuple (ext [json! 0] ())))]
      (described [("schemaDefinitions", json! {
        "test": { "type": "array", "items": [], "array_field": 0, "readOnly": false, "writeOnly": false } })]) = true ∧
    gives1 (codecs [] (arraySchema := ["array_field"])) []
      [.schemaDefinition "test" (schema1 [] (.vec (ext [json! 0] ())))]
      (described [("schemaDefinitions", json! {
        "test": { "type": "array", "array_field": 0, "readOnly": false, "writeOnly": false } })]) = true ∧
    gives1 (codecs [] (arraySchema := ["array_field"])) []
      [.schemaDefinition "test" (schema1 [] (.tuple (ext [json! 42] ())))]
      (described [("schemaDefinitions", json! {
        "test": { "type": "array", "items": [], "array_field": 42, "readOnly": false, "writeOnly": false } })]) = true ∧
    gives1 (codecs [] (arraySchema := ["array_field"])) []
      [.schemaDefinition "test" (schema1 [] (.vec (ext [json! 42] ())))]
      (described [("schemaDefinitions", json! {
        "test": { "type": "array", "array_field": 42, "readOnly": false, "writeOnly": false } })]) = true := by
  decide +kernel

/-- `src/builder/data_schema.rs:1000–1052` and `1170–1233`. -/
example :
    gives1 (codecs [] (objectSchema := ["object_field"])) []
      [.schemaDefinition "test" (schema1 [] (.object (ext [json! 0] ())))]
      (described [("schemaDefinitions", json! {
        "test": { "type": "object", "object_field": 0, "readOnly": false, "writeOnly": false } })]) = true ∧
    gives1 (codecs [] (objectSchema := ["object_field"])) []
      [.schemaDefinition "test" (schema1 [] (.object (ext [json! 42] ())))]
      (described [("schemaDefinitions", json! {
        "test": { "type": "object", "object_field": 42, "readOnly": false, "writeOnly": false } })]) = true := by
  decide +kernel

/-- The fields of the Things in the documentation of the three affordance builders. -/
def twice (more : List (String × Json)) : Json :=
  described ([("a_field", json! "hello world"), ("another_field", json! 42),
    ("another_field_again", json! ["field1", "field2"])] ++ more)

/-- `b.ext(()).ext(()).finish_extend().number()`. -/
def number2 : UDS X2 :=
  let b : DataSchemaBuilder Unit X2.arraySchema X2.objectSchema := .empty ()
  (specialise ((b.ext (ext ([] : List Json))).ext (ext ([] : List Json))).finishExtend .number).toUnchecked

/-- `src/builder/affordance.rs:413–525`. -/
example :
    let d : PartialDataSchemaBuilder Unit X2.arraySchema X2.objectSchema := .empty ()
    let b := (PropertyBuilderF.empty (X := X2) () d ()).ext (ext [float f42]) (fun o => o)
    let b := (b.ext (ext ([] : List Json)) (fun o => o)).ext (fun i => i) (ext [json! 23])
    let b := (b.ext (fun i => i) (ext [json! "hello"])).mapSchema (·.ext (ext ([] : List Json)))
    let b := (b.mapSchema (·.ext (ext [json! 101]))).mapSchema fun d => (specialise d.finishExtend .bool).toPartial
    gives2 (codecs ["a_field", "another_field"] (interaction := ["ia_field"]) (property := ["prop_field"]))
      (codecs ["another_field_again"] (property := ["another_prop_field"]) (dataSchema := ["data_field"]))
      [json! "hello world", json! 42] [json! ["field1", "field2"]] [.property "prop" b]
      (twice [("properties", json! {
        "prop": { "ia_field": (float f42), "prop_field": 23, "another_prop_field": "hello", "data_field": 101,
          "readOnly": false, "writeOnly": false, "type": "boolean", "forms": [] } })]) = true := by decide +kernel

/-- `src/builder/affordance.rs:586–698`. -/
example :
    let b := (ActionBuilderF.empty (X := X2) () ()).ext (ext [float f42]) (fun o => o)
    let b := (b.ext (ext ([] : List Json)) (fun o => o)).ext (fun i => i) (ext [json! 23])
    let b := (b.ext (fun i => i) (ext [json! "hello"])).apply (.input number2)
    gives2 (codecs ["a_field", "another_field"] (interaction := ["ia_field"]) (action := ["action_field"]))
      (codecs ["another_field_again"] (action := ["another_action_field"]))
      [json! "hello world", json! 42] [json! ["field1", "field2"]] [.action "action" b]
      (twice [("actions", json! {
        "action": { "ia_field": (float f42), "action_field": 23, "another_action_field": "hello",
          "input": { "type": "number", "readOnly": false, "writeOnly": false },
          "idempotent": false, "safe": false, "forms": [] } })]) = true := by decide +kernel

/-- `src/builder/affordance.rs:779–889`. -/
example :
    let b := (EventBuilderF.empty (X := X2) () ()).ext (ext [float f42]) (fun o => o)
    let b := (b.ext (ext ([] : List Json)) (fun o => o)).ext (fun i => i) (ext [json! 23])
    let b := (b.ext (fun i => i) (ext [json! "hello"])).apply (.subscription number2)
    gives2 (codecs ["a_field", "another_field"] (interaction := ["ia_field"]) (event := ["event_field"]))
      (codecs ["another_field_again"] (event := ["another_event_field"]))
      [json! "hello world", json! 42] [json! ["field1", "field2"]] [.event "event" b]
      (twice [("events", json! {
        "event": { "ia_field": (float f42), "event_field": 23, "another_event_field": "hello",
          "subscription": { "type": "number", "readOnly": false, "writeOnly": false }, "forms": [] } })]) = true := by
  decide +kernel

end Wot.Conformance.DocsTests

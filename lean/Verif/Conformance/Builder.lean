import Verif.Conformance.Support
/-
The unit tests of `src/builder.rs:3030–5946`, on the model.
-/
namespace Wot.Conformance.BuilderTests

/-! ### Plain fields -/

/-- `default_context` (`src/builder.rs:3077–3091`). -/
example : builds [] lamp = true := by decide +kernel

/-- `redundant_default_context` (`src/builder.rs:3093–3108`). -/
example : makes [.context tdContext11] lamp = true := by decide +kernel

/-- `simple_contexts` (`src/builder.rs:3110–3130`). -/
example : makes [.context "test", .context "another_test"]
    { lamp with context := json! [(.str tdContext11), "test", "another_test"] } = true := by decide +kernel

/-- `map_contexts` (`src/builder.rs:3132–3155`). -/
example : makes [.contextMap [("hello", "world"), ("all", "fine")], .context "simple"]
    { lamp with
      context := (json! [(.str tdContext11), { "hello": "world", "all": "fine" }, "simple"]).norm } = true := by
  decide +kernel

/-- `test_opt_string_field_builder!(id, description, version, support, base)` (`src/builder.rs:3055–3073, 3154`). -/
example :
    builds [.common (.id "test")] { lamp with id := some "test" } = true ∧
    builds [.common (.description "test")] { lamp with description := some "test" } = true ∧
    builds [.common (.version { instance_ := "test" })] { lamp with version := some { instance_ := "test" } } = true ∧
    builds [.common (.support "test")] { lamp with support := some "test" } = true ∧
    builds [.common (.base "test")] { lamp with base := some "test" } = true := by decide +kernel

/-- `attype` (`src/builder.rs:3159–3191`). -/
example :
    makes [.attype "test"] { lamp with attype := some ["test"] } = true ∧
    makes [.attype "test1", .attype "test2"] { lamp with attype := some ["test1", "test2"] } = true := by decide +kernel

/-- `titles` (`src/builder.rs:3193–3214`). -/
example : makes [.titles [("en", "My lamp"), ("it", "La mia lampada")]]
    { lamp with titles := lang [("en", "My lamp"), ("it", "La mia lampada")] } = true := by decide +kernel

/-- `descriptions` (`src/builder.rs:3216–3239`). -/
example : makes [.description "My Lamp", .descriptions [("en", "My lamp"), ("it", "La mia lampada")]]
    { lamp with
      description := some "My Lamp"
      descriptions := lang [("en", "My lamp"), ("it", "La mia lampada")] } = true := by decide +kernel

/-- `datetime!(2022-05-01 12:13:14.567 +01:00)` (`src/builder.rs:3240`). -/
def date : OffsetDateTime := ⟨1651403594567000000, 3600⟩

/-- `created`, `modified` (`src/builder.rs:3241–3277`). -/
example : makes [.created date] { lamp with created := some date } = true ∧
    makes [.modified date] { lamp with modified := some date } = true := by decide +kernel

/-! ### Links -/

/-- `Link { href, ty: Default::default(), … }`. -/
def linkTo (href : String) : Link := { href, ty := none, rel := none, anchor := none, sizes := none, hreflang := none }

/-- `link_simple` (`src/builder.rs:3279–3313`). -/
example : makes [.link "href1", .link "href2"] { lamp with links := some [linkTo "href1", linkTo "href2"] } = true := by
  decide +kernel

/-- `link_with` (`src/builder.rs:3315–3357`). -/
example : makes
    [.linkWith [] "href1" [.ty "ty", .rel "icon", .anchor "anchor", .sizes "10x20 30x50", .hreflang "it", .hreflang "en"],
     .linkWith [] "href2" []]
    { lamp with
      links := some
        [{ href := "href1", ty := some "ty", rel := some "icon", anchor := some "anchor", sizes := some "10x20 30x50",
           hreflang := some ["it", "en"] },
         linkTo "href2"] } = true := by decide +kernel

/-- `invalid_link_sizes_without_type_icon` (`src/builder.rs:3359–3367`). -/
example : fails (plain [.linkWith [] "href1" [.rel "other", .sizes "10x20 30x50"]]) .sizesWithRelNotIcon = true := by
  decide +kernel

/-- `link_with_invalid_hreflangs` (`src/builder.rs:3369–3382`). -/
example : fails (plain [.linkWith [] "href1" [.hreflang "it", .hreflang "i18", .hreflang "en"]])
    (.invalidLanguageTag "i18") = true := by decide +kernel

/-! ### Security -/

/-- The calls every one of the following tests ends with. -/
def secCalls : List SecOp :=
  [.attype "ty1", .attype "ty2", .description "desc", .descriptions [("en", "desc_en"), ("it", "desc_it")],
   .proxy "proxy", .required]

/-- The scheme they describe. -/
def scheme (subtype : SchemeSubtype) : SecurityScheme :=
  { attype := some ["ty1", "ty2"], description := some "desc",
    descriptions := lang [("en", "desc_en"), ("it", "desc_it")], proxy := some "proxy", subtype }

/-- A Thing with that scheme only. -/
def secured (name : String) (subtype : SchemeSubtype) : Thing X :=
  { lamp with security := [name], securityDefinitions := [(name, scheme subtype)] }

/-- `nosec_security` (`src/builder.rs:3384–3427`). -/
example : makes [sec (.noSec :: secCalls)] (secured "nosec" (.known .noSec)) = true := by decide +kernel

/-- `auto_security` (`src/builder.rs:3429–3472`). -/
example : makes [sec (.auto :: secCalls)] (secured "auto" (.known .auto)) = true := by decide +kernel

/-- `basic_security` (`src/builder.rs:3474–3524`). -/
example : makes [sec (.basic :: .name "name" :: .location .cookie :: secCalls)]
    (secured "basic" (.known (.basic { location := .cookie, name := some "name" }))) = true := by decide +kernel

/-- `digest_security` (`src/builder.rs:3526–3578`). -/
example : makes [sec (.digest :: .name "name" :: .location .cookie :: .qop .authInt :: secCalls)]
    (secured "digest" (.known (.digest { location := .cookie, name := some "name", qop := .authInt }))) = true := by
  decide +kernel

/-- `apikey_security` (`src/builder.rs:3580–3630`). -/
example : makes [sec (.apiKey :: .name "name" :: .location .cookie :: secCalls)]
    (secured "apikey" (.known (.apiKey { location := .cookie, name := some "name" }))) = true := by decide +kernel

/-- `bearer_security` (`src/builder.rs:3632–3688`). -/
example : makes
    [sec (.bearer :: .name "name" :: .location .cookie :: .authorization "authorization" :: .alg "alg" ::
      .format "format" :: secCalls)]
    (secured "bearer" (.known (.bearer
      { location := .cookie, name := some "name", authorization := some "authorization", alg := "alg",
        format := "format" }))) = true := by decide +kernel

/-- `oauth2_security` (`src/builder.rs:3690–3746`). -/
example : makes
    [sec (.oauth2 "flow" :: .authorization "authorization" :: .token "token" :: .refresh "refresh" :: .scope "scope1" ::
      .scope "scope2" :: secCalls)]
    (secured "oauth2" (.known (.oauth2
      { authorization := some "authorization", token := some "token", refresh := some "refresh",
        scopes := some ["scope1", "scope2"], flow := "flow" }))) = true := by decide +kernel

/-- `custom_security` (`src/builder.rs:3748–3801`). -/
example : makes [sec (.custom "mysec" :: .data (json! { "hello": ["world", "mondo"], "test": 1 }) :: secCalls)]
    (secured "mysec" (.unknown "mysec" (json! { "hello": ["world", "mondo"], "test": 1 }))) = true := by decide +kernel

/-- `SecurityScheme { subtype, ..Default::default() }`. -/
def ofKnown (k : KnownScheme) : SecurityScheme := { SecurityScheme.default with subtype := .known k }

/-- `named_security` (`src/builder.rs:3803–3848`). -/
example : makes [sec [.noSec, .withKey "test_sec1", .required], sec [.noSec, .withKey "test_sec2", .required]]
    { lamp with
      security := ["test_sec1", "test_sec2"]
      securityDefinitions := HMap.collect [("test_sec1", ofKnown .noSec), ("test_sec2", ofKnown .noSec)] } = true := by
  decide +kernel

/-- `mixed_security` (`src/builder.rs:3850–3939`). -/
example :
    makes [sec [.digest, .withKey "sec1"], sec [.basic, .withKey "sec2", .required]]
      { lamp with
        security := ["sec2"]
        securityDefinitions := HMap.collect [("sec1", ofKnown (.digest {})), ("sec2", ofKnown (.basic {}))] } = true ∧
    makes [sec [.digest], sec [.basic, .required]]
      { lamp with
        security := ["basic"]
        securityDefinitions := HMap.collect [("digest", ofKnown (.digest {})), ("basic", ofKnown (.basic {}))] } = true := by
  decide +kernel

/-- `colliding_security_names` (`src/builder.rs:3941–3953`). -/
example : fails (plain [sec [.basic], sec [.basic, .required]]) (.duplicatedSecurityDefinition "basic") = true := by
  decide +kernel

/-! ### Forms -/

/-- `simple_form`, `simple_into_form` (`src/builder.rs:3955–4010`). -/
example : builds [.form (form [] "href" [.op .readAllProperties])]
    { lamp with forms := some [{ formTo "href" with op := .custom [.readAllProperties] }] } = true := by decide +kernel

/-- `simple_form_with_uri_variables` (`src/builder.rs:4012–4045`). -/
example : builds
    [.form (form [] "href/{foo}" [.op .readAllProperties]), .uriVariable "foo" (schema .integer)]
    { lamp with
      forms := some [{ formTo "href/{foo}" with op := .custom [.readAllProperties] }]
      uriVariables := some [("foo", ofSubtype (.integer .default))] } = true := by decide +kernel

/-- `complete_form` (`src/builder.rs:4046–4155`). -/
example : builds
    [.form (form [] "href"
      [.op .readAllProperties, .contentType "text/plain", .contentCoding "coding", .subprotocol "subprotocol",
       .security "digest", .security "basic", .scope "scope1", .scope "scope2", .response "application/json" (),
       .additionalResponse [.contentType "application/xml", .schema "schema1"],
       .additionalResponse [.success, .schema "schema2"],
       .additionalResponse []]),
     security [.digest], security [.basic],
     .schemaDefinition "schema1" (schema .bool), .schemaDefinition "schema2" (schema .null)]
    { lamp with
      forms := some [
        { op := .custom [.readAllProperties]
          href := "href"
          contentType := some "text/plain"
          contentCoding := some "coding"
          subprotocol := some "subprotocol"
          security := some ["digest", "basic"]
          scopes := some ["scope1", "scope2"]
          response := some { contentType := "application/json", other := () }
          additionalResponses := some
            [{ success := false, contentType := some "application/xml", schema := some "schema1" },
             { success := true, contentType := none, schema := some "schema2" },
             {}]
          other := () }]
      schemaDefinitions := some (HMap.collect [("schema1", ofSubtype .boolean), ("schema2", ofSubtype .null)])
      securityDefinitions := HMap.collect [("digest", ofKnown (.digest {})), ("basic", ofKnown (.basic {}))] } = true := by
  decide +kernel

/-- `form_with_multiple_ops` (`src/builder.rs:4157–4185`). -/
example : builds [.form (form [] "href" [.op .readAllProperties, .op .readMultipleProperties])]
    { lamp with
      forms := some [{ formTo "href" with op := .custom [.readAllProperties, .readMultipleProperties] }] } = true := by
  decide +kernel

/-- `invalid_form_without_op` (`src/builder.rs:4187–4196`). -/
example : fails (built [.form (form [] "href" [])]) .missingOpInForm = true := by decide +kernel

/-- `invalid_form_with_invalid_op` (`src/builder.rs:4198–4213`). -/
example : fails (built [.form (form [] "href" [.op .readProperty])]) (.invalidOpInForm .thing .readProperty) = true := by
  decide +kernel

/-- `invalid_form_with_missing_security` (`src/builder.rs:4215–4228`). -/
example : fails (built [.form (form [] "href" [.op .readAllProperties, .security "basic"])])
    (.undefinedSecurity "basic") = true := by decide +kernel

/-! ### Affordances -/

/-- A data schema of which only the title and the kind are set. -/
def titled (title : Option String) (s : SubtypeF Unit Unit D) : D :=
  .mk { (DataSchema.default (AS := Unit) (OS := Unit) ()).head with title } none (some s)

/-- `with_property_affordance` (`src/builder.rs:4230–4326`). -/
example : builds
    [.property "on" (property .bool [] [.observable true, .info (.title "title")]),
     .property "prop" (property .null [] [])]
    { lamp with
      properties := some (HMap.collect
        [("on",
          { interaction := { Interaction.default ExtDefaults.nil with title := some "title" }
            dataSchema := titled (some "title") .boolean
            observable := some true
            other := () }),
         ("prop",
          { interaction := Interaction.default ExtDefaults.nil
            dataSchema := titled none .null
            observable := none
            other := () })]) } = true := by decide +kernel

/-- `with_action_affordance` (`src/builder.rs:4328–4413`). -/
example : builds
    [.action "fade" (action []),
     .action "action" (action [.info (.title "title"), .idempotent, .input (schema .null)])]
    { lamp with
      actions := some (HMap.collect
        [("fade",
          { interaction := Interaction.default ExtDefaults.nil
            input := none
            output := none
            safe := false
            idempotent := false
            synchronous := none
            other := () }),
         ("action",
          { interaction := { Interaction.default ExtDefaults.nil with title := some "title" }
            input := some (titled none .null)
            output := none
            safe := false
            idempotent := true
            synchronous := none
            other := () })]) } = true := by decide +kernel

/-- `with_event_affordance` (`src/builder.rs:4415–4496`). -/
example : builds
    [.event "overheat" (event []),
     .event "event" (event [.info (.title "title"), .cancellation (schema .null)])]
    { lamp with
      events := some (HMap.collect
        [("overheat",
          { interaction := Interaction.default ExtDefaults.nil
            subscription := none
            data := none
            cancellation := none
            dataResponse := none
            other := () }),
         ("event",
          { interaction := { Interaction.default ExtDefaults.nil with title := some "title" }
            subscription := none
            data := none
            cancellation := some (titled none .null)
            dataResponse := none
            other := () })]) } = true := by decide +kernel

/-- `valid_affordance_security` (`src/builder.rs:4498–4556`). -/
example : builds
    [.property "on" (property .bool [] [.interaction (.form (form [.security "basic"] "href" []))]), security [.basic]]
    { lamp with
      properties := some [("on",
        { PropertyAffordance.default ExtDefaults.nil with
          interaction :=
            { Interaction.default ExtDefaults.nil with
              forms := [{ formTo "href" with op := .default, security := some ["basic"] }] }
          dataSchema := ofSubtype .boolean })]
      securityDefinitions := [("basic", ofKnown (.basic { location := .header, name := none }))] } = true := by
  decide +kernel

/-- `invalid_affordance_security` (`src/builder.rs:4558–4572`). -/
example : fails
    (built
      [.property "on" (property .bool [] [.interaction (.form (form [.security "oauth2"] "href" []))]), security [.basic]])
    (.undefinedSecurity "oauth2") = true := by decide +kernel

/-- `profile` (`src/builder.rs:4574–4606`). -/
example :
    makes [.profile "profile"] { lamp with profile := some ["profile"] } = true ∧
    makes [.profile "profile1", .profile "profile2"] { lamp with profile := some ["profile1", "profile2"] } = true := by
  decide +kernel

/-- `schema_definitions` (`src/builder.rs:4608–4648`). -/
example : builds
    [.schemaDefinition "schema1" (schema .null), .schemaDefinition "schema2" (schema .number [.fMinimum f5])]
    { lamp with
      schemaDefinitions := some (HMap.collect
        [("schema1", ofSubtype .null),
         ("schema2", ofSubtype (.number { NumberSchema.default with minimum := some (.inclusive f5) }))]) } = true := by
  decide +kernel

/-! ### Extensions -/

/-- `ThingA` and `ThingB` of `extend_thing_with_form_builder` (`src/builder.rs:4650–4732`). -/
abbrev XF : ExtTypes := .cons { ExtTypes.nil with form := Int } (.cons { ExtTypes.nil with form := String } .nil)

/-- Equality of the extensions. -/
def eqF : ExtEq XF :=
  ExtEq.cons { ExtEq.nil with form := fun a b => a == b } (ExtEq.cons { ExtEq.nil with form := fun a b => a == b } ExtEq.nil)

/-- `extend_thing_with_form_builder` (`src/builder.rs:4650–4732`). -/
example :
    let b : FormBuilderF XF Unit Unit := FormBuilderF.new ()
    let b := (b.ext (fun o => (⟨"test", o⟩ : Cons String Unit))).setHref "href"
    let b := (b.ext (fun o => (⟨42, o⟩ : Cons Int (Cons String Unit)))).apply (.op .readAllProperties)
    let thing := ((ThingBuilder.new (X := XF) "MyLampThing" ⟨(), (), ()⟩).finishExtend.run [.form b]).build env.toEnv
    let d : ExtDefaults XF :=
      ⟨⟨(), (), ()⟩, ⟨(), (), ()⟩, ⟨(), (), ()⟩, ⟨(), (), ()⟩, ⟨(), (), ()⟩, ⟨0, "", ()⟩, ⟨(), (), ()⟩, ⟨(), (), ()⟩,
       ⟨(), (), ()⟩, ⟨(), (), ()⟩⟩
    equals (Thing.eq eqF) thing
      { Thing.default d with
        context := .str tdContext11
        title := "MyLampThing"
        forms := some
          [{ op := .custom [.readAllProperties], href := "href", contentType := none, contentCoding := none,
             subprotocol := none, security := none, scopes := none, response := none, additionalResponses := none,
             other := ⟨42, "test", ()⟩ }] } = true := by decide +kernel

/-- `ThingA` and `ThingB` of `extend_form_builder` (`src/builder.rs:4734–4831`). -/
abbrev XG : ExtTypes :=
  .cons { ExtTypes.nil with form := Int, response := Int } (.cons { ExtTypes.nil with form := String, response := String } .nil)

/-- Equality of the extensions. -/
def eqG : ExtEq XG :=
  ExtEq.cons { ExtEq.nil with form := fun a b => a == b, response := fun a b => a == b }
    (ExtEq.cons { ExtEq.nil with form := fun a b => a == b, response := fun a b => a == b } ExtEq.nil)

/-- `extend_form_builder` (`src/builder.rs:4734–4831`). -/
example :
    let b : FormBuilderF XG Unit Unit := FormBuilderF.new ()
    let b := ((b.setHref "href").ext (fun o => (⟨"a", o⟩ : Cons String Unit))).apply (.op .readProperty)
    let b := (b.ext (fun o => (⟨1, o⟩ : Cons Int (Cons String Unit)))).apply (.response "application/json" ⟨2, "b", ()⟩)
    Form.eq eqG (FormBuilder.toForm b)
      { op := .custom [.readProperty], href := "href", other := ⟨1, "a", ()⟩,
        response := some { contentType := "application/json", other := ⟨2, "b", ()⟩ },
        contentType := none, contentCoding := none, subprotocol := none, security := none, scopes := none,
        additionalResponses := none } = true := by decide +kernel

namespace Complete

/-- `ThingA`, `ThingB` and `ThingC` of `complete_extension` (`src/builder.rs:4833–5370`); a struct with one number is that
number. -/
abbrev A : ExtTypes :=
  { ExtTypes.nil with
    thing := Nat × Nat, interaction := Nat, action := Nat, event := Nat, response := Nat, dataSchema := Nat,
    objectSchema := Nat }
abbrev B : ExtTypes :=
  { ExtTypes.nil with
    interaction := Nat, property := Nat, event := Nat, form := Nat, response := Nat, objectSchema := Nat }
abbrev C : ExtTypes :=
  { ExtTypes.nil with
    thing := Nat, interaction := Nat, property := Nat, action := Nat, response := Nat, dataSchema := Nat,
    objectSchema := Nat }
abbrev XC : ExtTypes := .cons C (.cons B (.cons A .nil))

def eqA : ExtEq A :=
  { ExtEq.nil with
    thing := fun a b => a == b, interaction := fun a b => a == b, action := fun a b => a == b, event := fun a b => a == b,
    response := fun a b => a == b, dataSchema := fun a b => a == b, objectSchema := fun a b => a == b }
def eqB : ExtEq B :=
  { ExtEq.nil with
    interaction := fun a b => a == b, property := fun a b => a == b, event := fun a b => a == b,
    form := fun a b => a == b, response := fun a b => a == b, objectSchema := fun a b => a == b }
def eqC : ExtEq C :=
  { ExtEq.nil with
    thing := fun a b => a == b, interaction := fun a b => a == b, property := fun a b => a == b,
    action := fun a b => a == b, response := fun a b => a == b, dataSchema := fun a b => a == b,
    objectSchema := fun a b => a == b }

/-- `Nil::cons(a).cons(b).cons(c)`. -/
def cons {A B C : Type} (a : A) (b : B) (c : C) : Cons C (Cons B (Cons A Unit)) := ⟨c, ⟨b, ⟨a, ()⟩⟩⟩

/-- `ext`, as a call. -/
def ext {A B : Type} (a : A) : B → Cons A B := fun b => ⟨a, b⟩

/-- `b.ext(DataSchemaExtA { h }).ext(()).ext(DataSchemaExtC { t }).finish_extend()` and some calls. -/
def schemaOf (h t : Nat) (op : SpecOp XC.dataSchema XC.arraySchema XC.objectSchema)
    (ops : List (KindOp XC.dataSchema XC.arraySchema XC.objectSchema)) : UDS XC :=
  let b : DataSchemaBuilder Unit XC.arraySchema XC.objectSchema := .empty ()
  let b := (((b.ext (ext h)).ext (ext ())).ext (ext t)).finishExtend
  match ops.foldlM KindBuilder.apply (specialise b op) with
  | some k => k.toUnchecked
  | none => .mk { title := some "does not type check", other := cons h () t } none none

/-- `b.response(…)` with the three extensions. -/
def responseOf (contentType : String) (g n s : Nat) : FormOp XC :=
  .response contentType (ext s (ext n (ext g ())))

/-- The closure of `property` (`src/builder.rs:4983–5017`). -/
def propertyOf : PropertyBuilder XC :=
  let d : PartialDataSchemaBuilder Unit XC.arraySchema XC.objectSchema := .empty ()
  let b := (PropertyBuilderF.empty (X := XC) () d ()).ext (ext 6) (fun o => o)
  let b := b.ext (fun i => i) (ext ())
  let b := ((b.mapSchema (·.ext (ext 7))).mapSchema (·.ext (ext ()))).mapSchema (·.ext (ext 8))
  let b := b.mapSchema (·.finishExtend)
  let b := (b.ext (ext 9) (fun o => o)).ext (ext 10) (fun o => o)
  let b := b.mapSchema (fun d => specialise d (.object (ext 13 (ext 12 (ext 11 ())))))
  let b := (b.ext (fun i => i) (ext 14)).ext (fun i => i) (ext 15)
  let f : FormBuilderF XC Unit Unit := (FormBuilderF.new ()).apply (responseOf "application/json" 16 17 18)
  let f := ((f.ext (ext ())).ext (ext 19)).ext (ext ())
  let f := (f.setHref "href1").apply (.additionalResponse [.success, .contentType "application/xml", .schema "schema"])
  (b.apply (.interaction (.form f))).mapSchema (·.toPartial)

/-- The closure of `action` (`src/builder.rs:5018–5043`). -/
def actionOf : ActionBuilder XC :=
  let b := (ActionBuilderF.empty (X := XC) () ()).ext (fun i => i) (ext 20)
  let b := (b.ext (fun i => i) (ext ())).ext (fun i => i) (ext 21)
  let b := ((b.ext (ext 22) (fun o => o)).ext (ext 23) (fun o => o)).ext (ext 24) (fun o => o)
  [.input (schemaOf 25 26 .number [.fMinimum f0, .fMaximum f5, .info (.title "input")]),
   .interaction (.uriVariable "y" (schemaOf 27 28 .string [])), .info (.title "action")].foldl ActionBuilderF.apply b

/-- The closure of `event` (`src/builder.rs:5044–5058`). -/
def eventOf : EventBuilder XC :=
  let b := (EventBuilderF.empty (X := XC) () ()).ext (fun i => i) (ext 29)
  let b := (b.ext (fun i => i) (ext 30)).ext (fun i => i) (ext ())
  let b := ((b.ext (ext 31) (fun o => o)).ext (ext 32) (fun o => o)).ext (ext 33) (fun o => o)
  b.apply (.data (schemaOf 34 35 .bool []))

/-- The closure of `form` (`src/builder.rs:5059–5070`). -/
def formOf : FormBuilder XC :=
  let f : FormBuilderF XC Unit Unit := FormBuilderF.new ()
  let f := (((f.ext (ext ())).ext (ext 36)).ext (ext ())).setHref "href2"
  (f.apply (responseOf "test" 37 38 39)).apply (.op .readAllProperties)

/-- `Thing::builder("thing title")…build()` (`src/builder.rs:4968–5079`). -/
def thing : Except Failure (Thing XC) :=
  let b : ThingBuilder .nil := .new "thing title" ()
  let b : ThingBuilder (.cons A .nil) := (b.ext (ext (1, 2))).applyCommon (.id "id")
  let b : ThingBuilder (.cons B (.cons A .nil)) := b.ext (ext ())
  let b : ThingBuilder XC := (b.ext (ext 3)).finishExtend
  (b.run
    [.common (.description "description"), .uriVariable "uri_variable" (schemaOf 4 5 .string []),
     .property "property" propertyOf, .action "action" actionOf, .event "event" eventOf, .form formOf,
     .schemaDefinition "schema" (schemaOf 40 41 .null [])]).build env.toEnv

/-- A data schema with an extension, a kind and possibly a title. -/
def dataSchema (h t : Nat) (title : Option String) (s : SubtypeF XC.arraySchema XC.objectSchema (DS XC)) : DS XC :=
  .mk { title, other := cons h () t } none (some s)

/-- An interaction with an extension only. -/
def interaction (d j p : Nat) : Interaction XC :=
  { attype := none, title := none, titles := none, description := none, descriptions := none, forms := [],
    uriVariables := none, other := cons d j p }

/-- A form with a response and an extension only. -/
def formWith (href contentType : String) (g n s m : Nat) : Form XC :=
  { op := .default, href, contentType := none, contentCoding := none, subprotocol := none, security := none,
    scopes := none, response := some { contentType, other := cons g n s }, additionalResponses := none,
    other := cons () m () }

/-- `complete_extension` (`src/builder.rs:4833–5370`). -/
example : equals (Thing.eq (eqC.cons (eqB.cons (eqA.cons ExtEq.nil)))) thing
    { context := .str tdContext11
      title := "thing title"
      other := cons (1, 2) () 3
      id := some "id"
      description := some "description"
      uriVariables := some [("uri_variable", dataSchema 4 5 none (.string .default))]
      properties := some [("property",
        { interaction :=
            { interaction 6 9 10 with
              forms :=
                [{ formWith "href1" "application/json" 16 17 18 19 with
                   additionalResponses := some
                    [{ success := true, contentType := some "application/xml", schema := some "schema" }] }] }
          dataSchema := dataSchema 7 8 none (.object { other := cons 11 12 13, properties := none, required := none })
          other := cons () 14 15
          observable := none })]
      actions := some [("action",
        { interaction :=
            { interaction 22 23 24 with
              title := some "action"
              uriVariables := some [("y", dataSchema 27 28 none (.string .default))] }
          input := some (dataSchema 25 26 (some "input")
            (.number { NumberSchema.default with minimum := some (.inclusive f0), maximum := some (.inclusive f5) }))
          other := cons 20 () 21
          output := none
          safe := false
          idempotent := false
          synchronous := none })]
      events := some [("event",
        { interaction := interaction 31 32 33
          data := some (dataSchema 34 35 none .boolean)
          other := cons 29 30 ()
          subscription := none
          dataResponse := none
          cancellation := none })]
      forms := some [{ formWith "href2" "test" 37 38 39 36 with op := .custom [.readAllProperties] }]
      schemaDefinitions := some [("schema", dataSchema 40 41 none .null)]
      attype := none
      titles := none
      descriptions := none
      version := none
      created := none
      modified := none
      support := none
      base := none
      links := none
      security := []
      securityDefinitions := []
      profile := none } = true := by decide +kernel

end Complete

/-! ### Responses, URI variables and combo schemes -/

/-- `additional_response` (`src/builder.rs:5372–5410`). -/
example :
    AdditionalResponse.ofCalls [] = { success := false, contentType := none, schema := none } ∧
    AdditionalResponse.ofCalls [.success] = { success := true, contentType := none, schema := none } ∧
    AdditionalResponse.ofCalls [.contentType "hello"] = { success := false, contentType := some "hello", schema := none } ∧
    AdditionalResponse.ofCalls [.schema "schema"] = { success := false, contentType := none, schema := some "schema" } := by
  decide +kernel

/-- `additional_response_with_missing_schema` (`src/builder.rs:5412–5430`). -/
example : fails
    (built
      [.schemaDefinition "schema1" (schema .null), .schemaDefinition "schema2" (schema .number [.fMinimum f5]),
       .form (form [] "href" [.op .readAllProperties, .additionalResponse [.schema "invalid_schema"]])])
    (.missingSchemaDefinition "invalid_schema") = true := by decide +kernel

/-- `invalid_thing_uri_variables` (`src/builder.rs:5432–5449`). -/
example :
    fails (built [.uriVariable "uriVariable" (schema (.object ()))]) .invalidUriVariables = true ∧
    fails (built [.uriVariable "uriVariable" (schema (.vec ()))]) .invalidUriVariables = true := by decide +kernel

/-- `invalid_interaction_uri_variables` (`src/builder.rs:5451–5474`). -/
example :
    fails (built [.action "action" (action [.interaction (.uriVariable "uriVariable" (schema (.object ())))])])
      .invalidUriVariables = true ∧
    fails (built [.property "property" (property .string [] [.interaction (.uriVariable "uriVariable" (schema (.vec ())))])])
      .invalidUriVariables = true := by decide +kernel

/-- The names of `combo_security_scheme_with_all_of` and `combo_security_scheme_with_one_of`. -/
def comboNames : List String := ["schema1", "schema2", "schema3", "schema4", "schema1"]

/-- `combo_security_scheme_with_all_of`, `combo_security_scheme_with_one_of` (`src/builder.rs:5476–5560`). -/
example :
    ([SecOp.combo, .attype "attype", .allOf ["schema1", "schema2"], .extend ["schema3", "schema4"], .push "schema1",
        .description "description"].foldlM SecuritySchemeBuilder.apply { subtype := .unset }).map
      (fun b => (b.attype, b.description, b.subtype, b.subtype.build)) =
      some (some ["attype"], some "description", .allOf comboNames, some (.known (.combo (.allOf comboNames)))) ∧
    ([SecOp.combo, .attype "attype", .oneOf ["schema1", "schema2"], .extend ["schema3", "schema4"], .push "schema1",
        .description "description"].foldlM SecuritySchemeBuilder.apply { subtype := .unset }).map
      (fun b => (b.attype, b.description, b.subtype, b.subtype.build)) =
      some (some ["attype"], some "description", .oneOf comboNames, some (.known (.combo (.oneOf comboNames)))) := by
  decide +kernel

/-- `valid_combo_security_scheme` (`src/builder.rs:5562–5612`). -/
example : makes [sec [.basic], sec [.combo, .oneOf ["basic", "nosec"]], sec [.noSec]]
    { lamp with
      securityDefinitions := HMap.collect
        [("basic", ofKnown (.basic {})), ("combo", ofKnown (.combo (.oneOf ["basic", "nosec"]))),
         ("nosec", ofKnown .noSec)] } = true := by decide +kernel

/-- `missing_combo_security_scheme` (`src/builder.rs:5614–5623`). -/
example : fails (plain [sec [.combo, .oneOf ["basic", "nosec"]], sec [.noSec]]) (.missingSchemaDefinition "basic") = true := by
  decide +kernel

/-! ### Operations -/

/-- A form to `href` with these operations, as calls and as data. -/
def opsCalls (ops : List FormOperation) : FormBuilder X := form (ops.map .op) "href" []
def opsForm (ops : List FormOperation) : Form X := { formTo "href" with op := .custom ops }

def thingOps : List FormOperation :=
  [.readAllProperties, .writeAllProperties, .readMultipleProperties, .writeMultipleProperties, .observeAllProperties,
   .unobserveAllProperties, .subscribeAllEvents, .unsubscribeAllEvents, .queryAllActions]
def propertyOps : List FormOperation := [.readProperty, .writeProperty, .observeProperty, .unobserveProperty]
def actionOps : List FormOperation := [.invokeAction, .queryAction, .cancelAction]
def eventOps : List FormOperation := [.subscribeEvent, .unsubscribeEvent]

/-- `checked_op_in_form` (`src/builder.rs:5625–5761`). -/
example : builds
    [.form (opsCalls thingOps),
     .property "property" (property .null [] [.interaction (.form (opsCalls propertyOps))]),
     .action "action" (action [.interaction (.form (opsCalls actionOps))]),
     .event "event" (event [.interaction (.form (opsCalls eventOps))])]
    { lamp with
      forms := some [opsForm thingOps]
      properties := some [("property",
        { PropertyAffordance.default ExtDefaults.nil with
          interaction := { Interaction.default ExtDefaults.nil with forms := [opsForm propertyOps] }
          dataSchema := ofSubtype .null })]
      actions := some [("action",
        { ActionAffordance.default ExtDefaults.nil with
          interaction := { Interaction.default ExtDefaults.nil with forms := [opsForm actionOps] } })]
      events := some [("event",
        { EventAffordance.default ExtDefaults.nil with
          interaction := { Interaction.default ExtDefaults.nil with forms := [opsForm eventOps] } })] } = true := by
  decide +kernel

/-- `invalid_form_with_invalid_op_in_property_affordance` (`src/builder.rs:5763–5785`). -/
example : fails
    (built [.property "property" (property .null []
      [.interaction (.form (opsCalls [.readProperty, .readAllProperties, .writeAllProperties]))])])
    (.invalidOpInForm .property .readAllProperties) = true := by decide +kernel

/-- `invalid_form_with_invalid_op_in_action_affordance` (`src/builder.rs:5787–5809`). -/
example : fails
    (built [.action "action" (action [.interaction (.form (opsCalls [.invokeAction, .writeProperty, .queryAction]))])])
    (.invalidOpInForm .action .writeProperty) = true := by decide +kernel

/-- `invalid_form_with_invalid_op_in_event_affordance` (`src/builder.rs:5811–5833`). -/
example : fails
    (built [.event "event" (event [.interaction (.form (opsCalls [.subscribeEvent, .readProperty, .unsubscribeEvent]))])])
    (.invalidOpInForm .event .readProperty) = true := by decide +kernel

/-- `form_operation_serialize_display_coherence` (`src/builder.rs:5835–5864`). -/
example : ∀ op ∈ propertyOps ++ actionOps ++ eventOps ++ thingOps, (serOperation op).beq (.str op.display) = true := by
  decide +kernel

/-! ### Unchecked security schemes and language tags -/

/-- The scheme of `convert_valid_unchecked_security_schema` (`src/builder.rs:5866–5907`). -/
def unchecked (descriptions : List (String × String)) : UncheckedSecurityScheme :=
  { attype := some ["attype1", "attype2"], description := some "description",
    descriptions := some (.ofCalls descriptions), proxy := some "proxy",
    subtype := .known (.psk { identity := some "identity" }) }

/-- `convert_valid_unchecked_security_schema` (`src/builder.rs:5866–5907`). -/
example : equals SecurityScheme.eq
    (UncheckedSecurityScheme.tryInto env.toEnv (unchecked [("it", "description1"), ("en", "description2")]))
    { attype := some ["attype1", "attype2"], description := some "description",
      descriptions := lang [("it", "description1"), ("en", "description2")], proxy := some "proxy",
      subtype := .known (.psk { identity := some "identity" }) } = true := by decide +kernel

/-- `convert_invalid_unchecked_security_schema` (`src/builder.rs:5909–5933`). -/
example : rejects
    (UncheckedSecurityScheme.tryInto env.toEnv (unchecked [("it", "description1"), ("e1n", "description2")]))
    (.invalidLanguageTag "e1n") = true := by decide +kernel

/-- `invalid_language_tag` (`src/builder.rs:5935–5945`). -/
example : fails (plain [sec [.auto, .descriptions [("en", "desc_en"), ("i1t", "desc_it")]]])
    (.invalidLanguageTag "i1t") = true := by decide +kernel

end Wot.Conformance.BuilderTests

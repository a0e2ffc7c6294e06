import Verif.Conformance.Support
/-
The unit tests of `src/thing.rs:1739–3345`, on the model.
-/
namespace Wot.Conformance.ThingTests

/-- `assert_eq!(serde_json::from_str(RAW).unwrap(), expected)`. -/
def readsThing (raw : Json) (t : Thing X) : Bool :=
  reads (Thing.eq ExtEq.nil) (fromText ExtCodecs.nil env raw) t

/-- `assert_eq!(serde_json::from_value(serde_json::to_value(thing).unwrap()).unwrap(), expected)`. -/
def returnsThing (t : Thing X) : Bool :=
  reads (Thing.eq ExtEq.nil) ((toValue ExtCodecs.nil env t).bind (fromValue ExtCodecs.nil env)) t

/-- `[("nosec".to_string(), SecurityScheme::default())]`. -/
def nosec : HMap SecurityScheme := [("nosec", SecurityScheme.default)]

/-- `minimal_thing` (`src/thing.rs:1748–1777`). -/
def minimalThing : Thing X :=
  { lamp with
    id := some "urn:dev:ops:32473-WoTLamp-1234"
    securityDefinitions := nosec
    security := ["nosec"] }

example : readsThing (json! 
        {
            "@context": "https://www.w3.org/2022/wot/td/v1.1",
            "id": "urn:dev:ops:32473-WoTLamp-1234",
            "title": "MyLampThing",
            "securityDefinitions": {
                "nosec": {"scheme": "nosec"}
            },
            "security": ["nosec"]
        }) minimalThing = true := by decide +kernel

example : returnsThing minimalThing = true := by decide +kernel

/-- `complete_thing` (`src/thing.rs:1779–2028`). -/
def completeThing : Thing X :=
  { lamp with
    id := some "urn:dev:ops:32473-WoTLamp-1234"
    attype := some ["Thing", "LampThing"]
    titles := lang [("en", "MyLampThing"), ("it", "La mia lampada intelligente")]
    description := some "A simple smart lamp"
    descriptions := lang [("en", "A simple smart lamp"), ("it", "Una semplice lampada intelligente")]
    version := some { instance_ := "0.1.0", model := some "model" }
    created := some may1
    modified := some may10
    support := some "mailto:mail@test.com"
    base := some "https://mylamp.example.com/"
    properties := some [("status",
      { PropertyAffordance.default ExtDefaults.nil with
        interaction :=
          { Interaction.default ExtDefaults.nil with forms := [formTo "https://mylamp.example.com/status"] }
        dataSchema := ofSubtype (.string .default) })]
    actions := some [("toggle",
      { ActionAffordance.default ExtDefaults.nil with
        interaction :=
          { Interaction.default ExtDefaults.nil with forms := [formTo "https://mylamp.example.com/toggle"] }
        synchronous := some false })]
    events := some [("overheating",
      { EventAffordance.default ExtDefaults.nil with
        interaction :=
          { Interaction.default ExtDefaults.nil with
            forms := [{ formTo "https://mylamp.example.com/oh" with subprotocol := some "longpoll" }] }
        data := some (ofSubtype (.string .default)) })]
    links := some [{ Link.default with href := "https://myswitch.example.com/" }]
    forms := some [{ formTo "https://mylamp.example.com/enumerate" with op := .custom [.readAllProperties] }]
    schemaDefinitions := some [("schema", ofSubtype .null)]
    securityDefinitions := nosec
    security := ["nosec"]
    profile := some ["profile1", "profile2"]
    uriVariables := some (HMap.collect
      [("uriVariable1", ofSubtype (.string .default)), ("uriVariable2", ofSubtype (.number .default))]) }

example : readsThing (json! 
        {
          "@context": "https://www.w3.org/2022/wot/td/v1.1",
          "id": "urn:dev:ops:32473-WoTLamp-1234",
          "@type": [
            "Thing",
            "LampThing"
          ],
          "title": "MyLampThing",
          "titles": {
            "en": "MyLampThing",
            "it": "La mia lampada intelligente"
          },
          "description": "A simple smart lamp",
          "descriptions": {
            "en": "A simple smart lamp",
            "it": "Una semplice lampada intelligente"
          },
          "version": {
            "instance": "0.1.0",
            "model": "model"
          },
          "created": "2022-05-01T10:20:42.123Z",
          "modified": "2022-05-10T12:30:00.000+01:00",
          "support": "mailto:mail@test.com",
          "base": "https://mylamp.example.com/",
          "properties": {
            "status": {
              "type": "string",
              "forms": [
                {
                  "href": "https://mylamp.example.com/status"
                }
              ]
            }
          },
          "actions": {
            "toggle": {
              "forms": [
                {
                  "href": "https://mylamp.example.com/toggle"
                }
              ],
              "synchronous": false
            }
          },
          "events": {
            "overheating": {
              "data": {
                "type": "string"
              },
              "forms": [
                {
                  "href": "https://mylamp.example.com/oh",
                  "subprotocol": "longpoll"
                }
              ]
            }
          },
          "links": [
            {
              "href": "https://myswitch.example.com/"
            }
          ],
          "forms": [
            {
              "href": "https://mylamp.example.com/enumerate",
              "op": "readallproperties"
            }
          ],
          "schemaDefinitions": {
              "schema": {
                  "type": "null"
              }
          },
          "securityDefinitions": {
            "nosec": {
              "scheme": "nosec"
            }
          },
          "security": [
            "nosec"
          ],
          "profile": [
              "profile1",
              "profile2"
          ],
          "uriVariables": {
            "uriVariable1": {
              "type": "string"
            },
            "uriVariable2": {
              "type": "number"
            }
          }
        }) completeThing = true := by decide +kernel

example : returnsThing completeThing = true := by decide +kernel

/-- `default_context` (`src/thing.rs:2030–2057`). -/
example : readsThing (json! 
        {
          "title": "MyLampThing",
          "securityDefinitions": {
            "nosec": {
              "scheme": "nosec"
            }
          },
          "security": [
            "nosec"
          ]
        }) { lamp with securityDefinitions := nosec, security := ["nosec"] } = true := by decide +kernel

/-! ### Extensions -/

/-- A struct with one member of type `A(i32)` (`src/thing.rs:2052–2110`). -/
def one (key : String) : ExtCodec Nat where
  keys := [key]
  ser n := some [(key, serNat n)]
  de es := required key (deNat (2^31)) es
  takes := true

abbrev XA : ExtTypes := ⟨Nat, Nat, Nat, Nat, Nat, Nat, Nat, Nat, Nat, Nat⟩

/-- `ThingExtA` and its associated types (`src/thing.rs:2061–2128`). -/
def extA : ExtCodecs XA where
  thing := one "a"
  interaction := one "b"
  action := one "c"
  property := one "d"
  event := one "e"
  form := one "f"
  response := one "g"
  dataSchema := one "h"
  objectSchema := one "i"
  arraySchema := one "j"

/-- `ThingExtB` and its associated types (`src/thing.rs:2411–2478`). -/
def extB : ExtCodecs XA where
  thing := one "k"
  interaction := one "l"
  action := one "m"
  property := one "n"
  event := one "o"
  form := one "p"
  response := one "q"
  dataSchema := one "r"
  objectSchema := one "s"
  arraySchema := one "t"

/-- `Default for A` (`src/thing.rs:2055–2059`). -/
def defA : ExtDefaults XA := ⟨42, 42, 42, 42, 42, 42, 42, 42, 42, 42⟩

/-- The Thing of the tests `extend_*`, for any extension with its defaults (`src/thing.rs:2132–2212, 2282–2352,
2484–2558, 2674–2774`). -/
def extended {Y : ExtTypes} (D : ExtDefaults Y) (b1 : Y.interaction) (j : Y.arraySchema) (h3 : Y.dataSchema)
    (d : Y.property) (actionForms : List (Form Y)) (b5 : Y.interaction) (i : Y.objectSchema) (h7 : Y.dataSchema)
    (c : Y.action) (e : Y.event) (g : Y.response) (f : Y.form) (schemas : Option (HMap (DS Y))) (a : Y.thing) : Thing Y :=
  { Thing.default D with
    context := .str "test"
    properties := some [("prop",
      { PropertyAffordance.default D with
        interaction := { Interaction.default D with other := b1 }
        dataSchema := .mk (DataSchema.default (AS := Y.arraySchema) (OS := Y.objectSchema) h3).head none
          (some (.array { ArrayF.default D.arraySchema with other := j }))
        other := d })]
    actions := some [("action",
      { ActionAffordance.default D with
        interaction := { Interaction.default D with forms := actionForms, other := b5 }
        input := some (.mk (DataSchema.default (AS := Y.arraySchema) (OS := Y.objectSchema) h7).head none
          (some (.object { ObjectF.default D.objectSchema with other := i })))
        output := some (DataSchema.default D.dataSchema)
        other := c })]
    events := some [("event", { EventAffordance.default D with other := e })]
    forms := some [{ Form.default D with response := some { ExpectedResponse.default D.response with other := g }, other := f }]
    schemaDefinitions := schemas
    other := a }

/-- `extend_single_thing` (`src/thing.rs:2130–2283`). -/
example : writes (toValue extA env
      (extended defA 1 2 3 4 [] 5 6 7 8 9 10 11
        (some [("schema", .mk (DataSchema.default (AS := Nat) (OS := Nat) 12).head none (some .null))]) 13))
    (json! {
                "@context": "test",
                "title": "",
                "properties": {
                    "prop": {
                        "b": 1,
                        "j": 2,
                        "h": 3,
                        "d": 4,
                        "forms": [],
                        "type": "array",
                        "readOnly": false,
                        "writeOnly": false
                    }
                },
                "actions": {
                    "action": {
                        "b": 5,
                        "input": {
                            "i": 6,
                            "h": 7,
                            "readOnly": false,
                            "writeOnly": false,
                            "type": "object"
                        },
                        "output": {
                            "h": 42,
                            "readOnly": false,
                            "writeOnly": false
                        },
                        "forms": [],
                        "idempotent": false,
                        "safe": false,
                        "c": 8
                    }
                },
                "events": {
                    "event": {
                        "b": 42,
                        "e": 9,
                        "forms": []
                    }
                },
                "forms": [{
                    "href": "",
                    "response": {
                        "contentType": "",
                        "g": 10
                    },
                    "f": 11
                }],
                "schemaDefinitions": {
                    "schema": {
                        "type": "null",
                        "readOnly": false,
                        "writeOnly": false,
                        "h": 12
                    }
                },
                "security": [],
                "securityDefinitions": {},
                "a": 13
            }) = true := by decide +kernel

/-- `Nil::cons(a)`. -/
def cons1 {A : Type} (a : A) : Cons A Unit := ⟨a, ()⟩

/-- `Nil::cons(a).cons(b)`. -/
def cons2 {A B : Type} (a : A) (b : B) : Cons B (Cons A Unit) := ⟨b, ⟨a, ()⟩⟩

/-- `Nil::cons(a).cons(b).cons(c)`. -/
def cons3 {A B C : Type} (a : A) (b : B) (c : C) : Cons C (Cons B (Cons A Unit)) := ⟨c, ⟨b, ⟨a, ()⟩⟩⟩

/-- `extend_single_thing_with_hlist` (`src/thing.rs:2285–2418`). -/
example : writes (toValue (extA.cons ExtCodecs.nil) env
      (extended (Y := .cons XA .nil) (defA.cons ExtDefaults.nil) (cons1 1) (cons1 2) (cons1 3) (cons1 4) [] (cons1 5)
        (cons1 6) (cons1 7) (cons1 8) (cons1 9) (cons1 10) (cons1 11) none (cons1 12)))
    (json! {
                "@context": "test",
                "title": "",
                "properties": {
                    "prop": {
                        "b": 1,
                        "j": 2,
                        "h": 3,
                        "d": 4,
                        "forms": [],
                        "type": "array",
                        "readOnly": false,
                        "writeOnly": false
                    }
                },
                "actions": {
                    "action": {
                        "b": 5,
                        "input": {
                            "i": 6,
                            "h": 7,
                            "readOnly": false,
                            "writeOnly": false,
                            "type": "object"
                        },
                        "output": {
                            "h": 42,
                            "readOnly": false,
                            "writeOnly": false
                        },
                        "forms": [],
                        "idempotent": false,
                        "safe": false,
                        "c": 8
                    }
                },
                "events": {
                    "event": {
                        "b": 42,
                        "e": 9,
                        "forms": []
                    }
                },
                "forms": [{
                    "href": "",
                    "response": {
                        "contentType": "",
                        "g": 10
                    },
                    "f": 11
                }],
                "security": [],
                "securityDefinitions": {},
                "a": 12
            }) = true := by decide +kernel

/-- `extend_thing_with_two` (`src/thing.rs:2482–2634`). -/
example : writes (toValue (extB.cons (extA.cons ExtCodecs.nil)) env
      (extended (Y := .cons XA (.cons XA .nil)) (defA.cons (defA.cons ExtDefaults.nil)) (cons2 1 2) (cons2 3 4) (cons2 5 6)
        (cons2 7 8) [] (cons2 9 10) (cons2 11 12) (cons2 13 14) (cons2 15 16) (cons2 17 18) (cons2 19 20) (cons2 21 22)
        none (cons2 23 24)))
    (json! {
                "@context": "test",
                "title": "",
                "properties": {
                    "prop": {
                        "b": 1,
                        "l": 2,
                        "j": 3,
                        "t": 4,
                        "h": 5,
                        "r": 6,
                        "d": 7,
                        "n": 8,
                        "forms": [],
                        "type": "array",
                        "readOnly": false,
                        "writeOnly": false
                    }
                },
                "actions": {
                    "action": {
                        "b": 9,
                        "l": 10,
                        "input": {
                            "i": 11,
                            "s": 12,
                            "h": 13,
                            "r": 14,
                            "readOnly": false,
                            "writeOnly": false,
                            "type": "object"
                        },
                        "output": {
                            "h": 42,
                            "r": 42,
                            "readOnly": false,
                            "writeOnly": false
                        },
                        "forms": [],
                        "idempotent": false,
                        "safe": false,
                        "c": 15,
                        "m": 16
                    }
                },
                "events": {
                    "event": {
                        "b": 42,
                        "l": 42,
                        "e": 17,
                        "o": 18,
                        "forms": []
                    }
                },
                "forms": [{
                    "href": "",
                    "response": {
                        "contentType": "",
                        "g": 19,
                        "q": 20
                    },
                    "f": 21,
                    "p": 22
                }],
                "security": [],
                "securityDefinitions": {},
                "a": 23,
                "k": 24
            }) = true := by decide +kernel

/-- `dummy_http` (`src/thing.rs:2636–2883`). The test has its own copy of the types of `src/protocol/http.rs`, which are
used here. -/
example : writes (toValue (extB.cons (Http.codecs.cons (extA.cons ExtCodecs.nil))) env
      (extended (Y := .cons XA (.cons Http.X (.cons XA .nil))) (defA.cons (Http.defaults.cons (defA.cons ExtDefaults.nil)))
        (cons3 1 () 2) (cons3 3 () 4) (cons3 5 () 6) (cons3 7 () 8)
        [{ Form.default (defA.cons (Http.defaults.cons (defA.cons ExtDefaults.nil))) with
            other := cons3 42 { methodName := some .put } 42 }]
        (cons3 9 () 10) (cons3 11 () 12) (cons3 13 () 14) (cons3 15 () 16) (cons3 17 () 18)
        (cons3 19 { headers := [{ fieldName := some "hello", fieldValue := some "world" }],
                    statusCodeValue := some ⟨200, by decide⟩ } 20)
        (cons3 21 { methodName := some .get } 22) none (cons3 23 () 24)))
    (json! {
                "@context": "test",
                "title": "",
                "properties": {
                    "prop": {
                        "b": 1,
                        "l": 2,
                        "j": 3,
                        "t": 4,
                        "h": 5,
                        "r": 6,
                        "d": 7,
                        "n": 8,
                        "forms": [],
                        "type": "array",
                        "readOnly": false,
                        "writeOnly": false
                    }
                },
                "actions": {
                    "action": {
                        "b": 9,
                        "l": 10,
                        "input": {
                            "i": 11,
                            "s": 12,
                            "h": 13,
                            "r": 14,
                            "readOnly": false,
                            "writeOnly": false,
                            "type": "object"
                        },
                        "output": {
                            "h": 42,
                            "r": 42,
                            "readOnly": false,
                            "writeOnly": false
                        },
                        "forms": [
                            {
                                "f": 42,
                                "href": "",
                                "htv:methodName": "PUT",
                                "p": 42
                            }
                        ],
                        "idempotent": false,
                        "safe": false,
                        "c": 15,
                        "m": 16
                    }
                },
                "events": {
                    "event": {
                        "b": 42,
                        "l": 42,
                        "e": 17,
                        "o": 18,
                        "forms": []
                    }
                },
                "forms": [{
                    "href": "",
                    "response": {
                        "contentType": "",
                        "g": 19,
                        "q": 20,
                        "htv:headers": [{
                            "htv:fieldName": "hello",
                            "htv:fieldValue": "world"
                        }],
                        "htv:statusCodeValue": 200
                    },
                    "f": 21,
                    "p": 22,
                    "htv:methodName": "GET"
                }],
                "security": [],
                "securityDefinitions": {},
                "a": 23,
                "k": 24
            }) = true := by decide +kernel

/-- `default_array_schema`, `default_object_schema` (`src/thing.rs:2894–2902`) only check that the defaults exist. -/
example : (ArrayF.default () : ArrayF Unit D).items.isNone = true ∧ (ObjectF.default () : ObjectF Unit D).properties.isNone = true :=
  ⟨rfl, rfl⟩

/-! ### Additional responses and combo schemes -/

/-- `serde_empty_additional_expected_response` (`src/thing.rs:2904–2917`). -/
example : deAdditional (json! {}) = some { success := false, contentType := none, schema := none } ∧
    writes (some (serAdditional { success := false, contentType := none, schema := none })) (json! {}) = true := by
  decide +kernel

/-- `serde_full_additional_expected_response` (`src/thing.rs:2919–2940`). -/
example :
    let raw := json! { "success": true, "contentType": "application/json", "schema": "test" }
    let response : AdditionalResponse := { success := true, contentType := some "application/json", schema := some "test" }
    deAdditional raw = some response ∧ writes (some (serAdditional response)) raw = true := by
  decide +kernel

/-- Whether a combo scheme is read from these members, and is written as them, with the tag of the scheme. -/
def combo (raw : Json) (c : ComboScheme) : Bool :=
  match raw with
  | .obj es => deCombo es == some c && writes (some (.obj (serKnown (.combo c)))) (.obj (("scheme", json! "combo") :: es))
  | _ => false

/-- `combo_security_scheme` (`src/thing.rs:2942–2983`). -/
example :
    combo (json! { "oneOf": "simple" }) (.oneOf ["simple"]) = true ∧
    combo (json! { "oneOf": ["data1", "data2"] }) (.oneOf ["data1", "data2"]) = true ∧
    combo (json! { "allOf": "simple" }) (.allOf ["simple"]) = true ∧
    combo (json! { "allOf": ["data1", "data2"] }) (.allOf ["data1", "data2"]) = true := by
  decide +kernel

/-! ### Bounds -/

/-- `minimum_partial_ord_trivial` (`src/thing.rs:2985–3012`). -/
example :
    Minimum.partialCmp (.inclusive (int 5)) (.inclusive (int 5)) = some .eq ∧
    Minimum.partialCmp (.inclusive (int 5)) (.inclusive (int 6)) = some .lt ∧
    Minimum.partialCmp (.inclusive (int 6)) (.inclusive (int 5)) = some .gt ∧
    Minimum.partialCmp (.exclusive (int 5)) (.exclusive (int 5)) = some .eq ∧
    Minimum.partialCmp (.exclusive (int 5)) (.exclusive (int 6)) = some .lt ∧
    Minimum.partialCmp (.exclusive (int 6)) (.exclusive (int 5)) = some .gt := by decide

/-- `minimum_partial_ord_complex` (`src/thing.rs:3014–3045`). -/
example :
    Minimum.partialCmp (.inclusive (int 4)) (.exclusive (int 5)) = some .lt ∧
    Minimum.partialCmp (.inclusive (int 5)) (.exclusive (int 5)) = some .lt ∧
    Minimum.partialCmp (.inclusive (int 6)) (.exclusive (int 5)) = none ∧
    Minimum.partialCmp (.exclusive (int 4)) (.inclusive (int 5)) = none ∧
    Minimum.partialCmp (.exclusive (int 5)) (.inclusive (int 5)) = some .gt ∧
    Minimum.partialCmp (.exclusive (int 6)) (.inclusive (int 5)) = some .gt := by decide

/-- `maximum_partial_ord_trivial` (`src/thing.rs:3047–3075`). -/
example :
    Maximum.partialCmp (.inclusive (int 5)) (.inclusive (int 5)) = some .eq ∧
    Maximum.partialCmp (.inclusive (int 5)) (.inclusive (int 6)) = some .lt ∧
    Maximum.partialCmp (.inclusive (int 6)) (.inclusive (int 5)) = some .gt ∧
    Maximum.partialCmp (.exclusive (int 5)) (.exclusive (int 5)) = some .eq ∧
    Maximum.partialCmp (.exclusive (int 5)) (.exclusive (int 6)) = some .lt ∧
    Maximum.partialCmp (.exclusive (int 6)) (.exclusive (int 5)) = some .gt := by decide

/-- `maximum_partial_ord_complex` (`src/thing.rs:3077–3108`). -/
example :
    Maximum.partialCmp (.inclusive (int 4)) (.exclusive (int 5)) = none ∧
    Maximum.partialCmp (.inclusive (int 5)) (.exclusive (int 5)) = some .gt ∧
    Maximum.partialCmp (.inclusive (int 6)) (.exclusive (int 5)) = some .gt ∧
    Maximum.partialCmp (.exclusive (int 4)) (.inclusive (int 5)) = some .lt ∧
    Maximum.partialCmp (.exclusive (int 5)) (.inclusive (int 5)) = some .lt ∧
    Maximum.partialCmp (.exclusive (int 6)) (.inclusive (int 5)) = none := by decide

/-- `minimum_maximum_mixed_partial_ord_trivial` (`src/thing.rs:3110–3137`). -/
example :
    Minimum.cmpMax (.inclusive (int 4)) (.inclusive (int 5)) = some .lt ∧
    Minimum.cmpMax (.inclusive (int 5)) (.inclusive (int 5)) = some .eq ∧
    Minimum.cmpMax (.inclusive (int 6)) (.inclusive (int 5)) = some .gt ∧
    Maximum.cmpMin (.inclusive (int 4)) (.inclusive (int 5)) = some .lt ∧
    Maximum.cmpMin (.inclusive (int 5)) (.inclusive (int 5)) = some .eq ∧
    Maximum.cmpMin (.inclusive (int 6)) (.inclusive (int 5)) = some .gt := by decide

/-- `minimum_maximum_mixed_partial_ord_complex` (`src/thing.rs:3139–3192`). -/
example :
    Minimum.cmpMax (.inclusive (int 4)) (.exclusive (int 5)) = none ∧
    Minimum.cmpMax (.inclusive (int 5)) (.exclusive (int 5)) = some .gt ∧
    Minimum.cmpMax (.inclusive (int 6)) (.exclusive (int 5)) = some .gt ∧
    Minimum.cmpMax (.exclusive (int 4)) (.inclusive (int 5)) = none ∧
    Minimum.cmpMax (.exclusive (int 5)) (.inclusive (int 5)) = some .gt ∧
    Minimum.cmpMax (.exclusive (int 6)) (.inclusive (int 5)) = some .gt ∧
    Maximum.cmpMin (.inclusive (int 4)) (.exclusive (int 5)) = some .lt ∧
    Maximum.cmpMin (.inclusive (int 5)) (.exclusive (int 5)) = some .lt ∧
    Maximum.cmpMin (.inclusive (int 6)) (.exclusive (int 5)) = none ∧
    Maximum.cmpMin (.exclusive (int 4)) (.inclusive (int 5)) = some .lt ∧
    Maximum.cmpMin (.exclusive (int 5)) (.inclusive (int 5)) = some .lt ∧
    Maximum.cmpMin (.exclusive (int 6)) (.inclusive (int 5)) = none := by decide

/-! ### Numeric schemas and forms -/

/-- Whether these members are read as this. -/
def readsMembers {A : Type} [DecidableEq A] (de : Members → Option A) (raw : Json) (a : A) : Bool :=
  match raw with
  | .obj es => de es == some a
  | _ => false

/-- `serde_number_schema` (`src/thing.rs:3194–3231`). -/
example :
    readsMembers deNumber (json! { "minimum": (float fHalf), "maximum": (float f1), "multipleOf": (float fHalf) })
      { minimum := some (.inclusive fHalf), maximum := some (.inclusive f1), multipleOf := some fHalf } = true ∧
    readsMembers deNumber
      (json! { "exclusiveMinimum": (float fHalf), "exclusiveMaximum": (float f1), "multipleOf": (float fHalf) })
      { minimum := some (.exclusive fHalf), maximum := some (.exclusive f1), multipleOf := some fHalf } = true := by
  decide +kernel

/-- `serde_integer_schema` (`src/thing.rs:3233–3269`). -/
example :
    readsMembers deInteger (json! { "minimum": 5, "maximum": 10, "multipleOf": 2 })
      { minimum := some (.inclusive (int 5)), maximum := some (.inclusive (int 10)),
        multipleOf := some ⟨2, by decide⟩ } = true ∧
    readsMembers deInteger (json! { "exclusiveMinimum": 5, "exclusiveMaximum": 10 })
      { minimum := some (.exclusive (int 5)), maximum := some (.exclusive (int 10)), multipleOf := none } = true := by
  decide +kernel

/-- `form_almost_default_serialization` (`src/thing.rs:3271–3285`). -/
example : writes (serForm ExtCodecs.nil (formTo "href")) (json! { "href": "href" }) = true := by decide +kernel

end Wot.Conformance.ThingTests

import Verif.Conformance.Support
/-
The unit tests of `src/builder/data_schema.rs:4053–6834`, on the model. Four tests have no counterpart:
`read_only_to_builder`, `read_only_to_partial_builder`, `write_only_to_builder` and `write_only_to_partial_builder` make a
`ReadOnly` or `WriteOnly` of a builder that has no kind yet, which only the module itself can do.
-/
namespace Wot.Conformance.DataSchemaTests

def fMinus2 : F64 := .ofBits 0xC000000000000000
def f3 : F64 := .ofBits 0x4008000000000000
def f7 : F64 := .ofBits 0x401C000000000000
def f10 : F64 := .ofBits 0x4024000000000000
def f20 : F64 := .ofBits 0x4034000000000000
def f42 : F64 := .ofBits 0x4045000000000000
def fNan : F64 := .ofBits 0x7FF8000000000000

abbrev P := PartialDataSchema Unit Unit Unit

/-- `DataSchemaBuilder::default()` and some calls. -/
def start (op : SpecOp Unit Unit Unit) (ops : List (KindOp Unit Unit Unit) := []) : S :=
  schemaFrom (DataSchemaBuilder.empty ()) op ops

/-- `PartialDataSchemaBuilder::default()` and some calls. -/
def startPartial (op : SpecOp Unit Unit Unit) (ops : List (KindOp Unit Unit Unit) := []) : P :=
  match ops.foldlM KindBuilder.apply (specialise (PartialDataSchemaBuilder.empty ()) op) with
  | some k => k.toPartial
  | none => { PartialDataSchema.emptyDefault () with unit := some "does not type check" }

/-- `assert_eq!(data_schema.try_into().unwrap(), …)`. -/
def converts (s : S) (d : D) : Bool :=
  equals (schemaEq (fun _ _ => true) (fun _ _ => true) fun _ _ => true) (s.tryInto env.toEnv) d

/-- `DataSchema { … , ..Default::default() }`, by its fields that are not schemas. -/
def ofHead (h : SchemaHead MultiLanguage Unit) : D := .mk h none none

/-- `PartialDataSchema` with all fields empty. -/
def part : P := PartialDataSchema.emptyDefault ()

/-! ### Kinds -/

/-- `null_simple`, `boolean_simple`, `string_simple`, `number_simple`, `integer_simple`, `empty_simple_vec`,
`empty_simple_tuple`, `empty_simple_object` (`src/builder/data_schema.rs:4066–4470`). -/
example :
    converts (start .null) (ofSubtype .null) = true ∧
    converts (start .bool) (ofSubtype .boolean) = true ∧
    converts (start .string) (ofSubtype (.string {})) = true ∧
    converts (start .number) (ofSubtype (.number {})) = true ∧
    converts (start .integer) (ofSubtype (.integer {})) = true ∧
    converts (start (.vec ()))
      (ofSubtype (.array { items := none, minItems := none, maxItems := none, other := () })) = true ∧
    converts (start (.tuple ()))
      (ofSubtype (.array { items := some (.vec []), minItems := none, maxItems := none, other := () })) = true ∧
    converts (start (.object ()))
      (ofSubtype (.object { properties := none, required := none, other := () })) = true := by decide +kernel

/-- `null_partial`, `boolean_partial`, `string_partial`, `number_partial`, `partial_simple`, `empty_partial_vec`,
`empty_partial_tuple`, `empty_partial_object` (`src/builder/data_schema.rs:4092–4495`). -/
example :
    startPartial .null = { part with subtype := some .null } ∧
    startPartial .bool = { part with subtype := some .boolean } ∧
    startPartial .string = { part with subtype := some (.string {}) } ∧
    startPartial .number = { part with subtype := some (.number {}) } ∧
    startPartial .integer = { part with subtype := some (.integer {}) } ∧
    startPartial (.vec ()) =
      { part with subtype := some (.array { items := none, minItems := none, maxItems := none, other := () }) } ∧
    startPartial (.tuple ()) =
      { part with subtype := some (.array { items := some (.vec []), minItems := none, maxItems := none, other := () }) } ∧
    startPartial (.object ()) =
      { part with subtype := some (.object { properties := none, required := none, other := () }) } :=
  ⟨rfl, rfl, rfl, rfl, rfl, rfl, rfl, rfl⟩

/-- `constant_simple`, `enum_simple`, `read_only_simple`, `write_only_simple`
(`src/builder/data_schema.rs:4497–4733`). -/
example :
    converts (start (.constant (json! { "hello": 42 })))
      (ofHead { constant := some (json! { "hello": 42 }), readOnly := true, other := () }) = true ∧
    converts (start (.enumeration (json! "hello")) [.enumeration (json! "world"), .enumeration (json! 42)])
      (ofHead { enumeration := some [json! "hello", json! "world", json! 42], other := () }) = true ∧
    converts (start .bool [.readOnly]) (.mk { readOnly := true, other := () } none (some .boolean)) = true ∧
    converts (start .bool [.writeOnly]) (.mk { writeOnly := true, other := () } none (some .boolean)) = true := by
  decide +kernel

/-- `constant_partial`, `enum_partial`, `read_only_partial`, `write_only_partial`
(`src/builder/data_schema.rs:4527–4756`). -/
example :
    startPartial (.constant (json! { "hello": 42 })) =
      { part with constant := some (json! { "hello": 42 }), readOnly := true } ∧
    startPartial (.enumeration (json! "hello")) [.enumeration (json! "world"), .enumeration (json! 42)] =
      { part with enumeration := some [json! "hello", json! "world", json! 42] } ∧
    startPartial .bool [.readOnly] = { part with readOnly := true, subtype := some .boolean } ∧
    startPartial .bool [.writeOnly] = { part with writeOnly := true, subtype := some .boolean } :=
  ⟨rfl, rfl, rfl, rfl⟩

/-! ### All fields -/

/-- The calls of `null_full` and `enum_full` that both make. -/
def common : List (KindOp Unit Unit Unit) :=
  [.info (.title "title"), .info (.titles [("en", "title_en"), ("it", "title_it")]), .info (.description "description"),
   .info (.descriptions [("en", "description_en"), ("it", "description_it")]), .defaultValue (json! ["hello", "world"]),
   .unit "cm", .format "format"]

/-- `null_full` (`src/builder/data_schema.rs:4807–4852`). -/
example : converts (start .null (.info (.attype "attype1") :: .info (.attype "attype2") :: common))
    (.mk { attype := some ["attype1", "attype2"], title := some "title",
           titles := lang [("en", "title_en"), ("it", "title_it")], description := some "description",
           descriptions := lang [("en", "description_en"), ("it", "description_it")],
           default := some (json! ["hello", "world"]), unit := some "cm", format := some "format", other := () }
      none (some .null)) = true := by decide +kernel

/-- `enum_full` (`src/builder/data_schema.rs:4854–4900`). -/
example : converts
    (start (.enumeration (json! "variant1"))
      (.enumeration (json! "variant2") :: .enumeration (json! 3) :: .info (.attype "attype") :: common))
    (ofHead { attype := some ["attype"], title := some "title",
              titles := lang [("en", "title_en"), ("it", "title_it")], description := some "description",
              descriptions := lang [("en", "description_en"), ("it", "description_it")],
              default := some (json! ["hello", "world"]), unit := some "cm",
              enumeration := some [json! "variant1", json! "variant2", json! 3], format := some "format",
              other := () }) = true := by decide +kernel

/-- `read_only_enum` (`src/builder/data_schema.rs:4902–4934`). -/
example : converts
    (start (.enumeration (json! "hello"))
      [.enumeration (json! "world"), .info (.title "title"), .defaultValue (json! ["hello", "world"]), .readOnly,
       .enumeration (json! 42), .info (.description "description")])
    (ofHead { title := some "title", description := some "description", default := some (json! ["hello", "world"]),
              enumeration := some [json! "hello", json! "world", json! 42], readOnly := true, other := () }) = true := by
  decide +kernel

/-! ### Contents -/

/-- `tuple_with_content` (`src/builder/data_schema.rs:4936–5004`). -/
example : converts (start (.tuple ()) [.append (schema (.constant (json! "hello"))), .append (schema .bool)])
    (ofSubtype (.array
      { items := some (.vec [ofHead { constant := some (json! "hello"), readOnly := true, other := () }, ofSubtype .boolean])
        minItems := none, maxItems := none, other := () })) = true := by decide +kernel

/-- `vec_with_content` (`src/builder/data_schema.rs:5006–5056`). -/
example : converts (start (.vec ()) [.minItems 0, .maxItems 5, .setItem (schema (.constant (json! "hello")))])
    (ofSubtype (.array
      { items := some (.elem (ofHead { constant := some (json! "hello"), readOnly := true, other := () }))
        minItems := some 0, maxItems := some 5, other := () })) = true := by decide +kernel

/-- The constant `"hello"`, not yet checked. -/
def hello : S := .mk { constant := some (json! "hello"), readOnly := true, other := () } none none

/-- `tuple_partial_with_content` and `vec_partial_with_content` (`src/builder/data_schema.rs:5058–5168`). -/
example :
    startPartial (.tuple ()) [.append (schema (.constant (json! "hello"))), .append (schema .bool)] =
      { part with
        subtype := some (.array
          { items := some (.vec [hello, .mk { other := () } none (some .boolean)])
            minItems := none, maxItems := none, other := () }) } ∧
    startPartial (.vec ()) [.minItems 0, .maxItems 5, .setItem (schema (.constant (json! "hello")))] =
      { part with
        subtype := some (.array
          { items := some (.elem hello), minItems := some 0, maxItems := some 5, other := () }) } := ⟨rfl, rfl⟩

/-- `object_with_content` (`src/builder/data_schema.rs:5170–5251`). -/
example : converts
    (start (.object ())
      [.property "hello" false (schema .bool), .property "world" true (schema .number [.info (.title "title")])])
    (ofSubtype (.object
      { properties := some [("hello", ofSubtype .boolean),
          ("world", .mk { title := some "title", other := () } none (some (.number {})))]
        required := some ["world"], other := () })) = true := by decide +kernel

/-- `object_partial_with_content` (`src/builder/data_schema.rs:5253–5331`). -/
example : startPartial (.object ())
      [.property "hello" false (schema .bool), .property "world" true (schema .number [.info (.title "title")])] =
    { part with
      subtype := some (.object
        { properties := some [("hello", .mk { other := () } none (some .boolean)),
            ("world", .mk { title := some "title", other := () } none (some (.number {})))]
          required := some ["world"], other := () }) } := rfl

/-- `integer_with_data` (`src/builder/data_schema.rs:5333–5397`). -/
example :
    converts (start .integer [.iExclusiveMinimum (int 10), .iMaximum (int 5), .iMultipleOf ⟨2, by decide⟩])
      (ofSubtype (.integer
        { maximum := some (.inclusive (int 5)), minimum := some (.exclusive (int 10))
          multipleOf := some ⟨2, by decide⟩ })) = true ∧
    converts (start .integer [.iMinimum (int 10), .iExclusiveMaximum (int 5)])
      (ofSubtype (.integer
        { maximum := some (.exclusive (int 5)), minimum := some (.inclusive (int 10)), multipleOf := none })) = true := by
  decide +kernel

/-- `number_with_data` (`src/builder/data_schema.rs:5399–5464`). -/
example :
    converts (start .number [.fExclusiveMinimum f10, .fMaximum f5, .fMultipleOf f2])
      (ofSubtype (.number
        { maximum := some (.inclusive f5), minimum := some (.exclusive f10), multipleOf := some f2 })) = true ∧
    converts (start .number [.fMinimum f10, .fExclusiveMaximum f5, .fMultipleOf f2])
      (ofSubtype (.number
        { maximum := some (.exclusive f5), minimum := some (.inclusive f10), multipleOf := some f2 })) = true := by
  decide +kernel

/-- `string_with_data` (`src/builder/data_schema.rs:5466–5503`). -/
example : converts
    (start .string
      [.minLength 5, .maxLength 32, .pattern "pattern", .contentEncoding "content encoding",
       .contentMediaType "content media type"])
    (ofSubtype (.string
      { minLength := some 5, maxLength := some 32, pattern := some "pattern"
        contentEncoding := some "content encoding", contentMediaType := some "content media type" })) = true := by
  decide +kernel

/-- `one_of_simple` (`src/builder/data_schema.rs:5505–5599`). -/
example : converts (start (.oneOf (schema .number)) [.oneOf (schema .integer), .oneOf (schema .string)])
    (.mk { other := () } (some [ofSubtype (.number {}), ofSubtype (.integer {}), ofSubtype (.string {})]) none) = true := by
  decide +kernel

/-- `one_of_nested` (`src/builder/data_schema.rs:5601–5704`). -/
example : converts
    (start (.object ()) [.property "hello" true (schema (.oneOf (schema .string)) [.oneOf (schema .integer)])])
    (ofSubtype (.object
      { properties := some [("hello", .mk { other := () } (some [ofSubtype (.string {}), ofSubtype (.integer {})]) none)]
        required := some ["hello"], other := () })) = true := by decide +kernel

/-! ### Checks -/

/-- `number().minimum(a).maximum(b)` and `integer().minimum(a).maximum(b)`. -/
def num (a b : F64) : S := schema .number [.fMinimum a, .fMaximum b]
def nat (a b : I64) : S := schema .integer [.iMinimum a, .iMaximum b]

/-- `vec().min_items(a).max_items(b).set_item(one_of(s).one_of(t))`. -/
def items (a b : U32) (s t : S) : S := schema (.vec ()) [.minItems a, .maxItems b, .setItem (schema (.oneOf s) [.oneOf t])]

/-- `object().property("a", false, s)`. -/
def objectA (s : S) : S := schema (.object ()) [.property "a" false s]

/-- The same two schemas with good bounds everywhere, as the tests write them. -/
def goodItems : S := items 2 5 (num f0 f5) (nat (int 5) (int 10))
def goodObject : S := objectA (nat (int 10) (int 20))

/-- `one_of(a).one_of(b).one_of(c)`. -/
def three (a b c : S) : S := start (.oneOf a) [.oneOf b, .oneOf c]

/-- `assert!(data_schema.check().is_ok())`. -/
def passes (s : S) : Bool := (s.check env.toEnv).toOption.isSome

/-- `check_valid_data_schema` (`src/builder/data_schema.rs:5706–5741`). -/
example : passes (three (items 2 5 (schema .number [.fMinimum f0, .fMaximum f5, .fMultipleOf f2]) (nat (int 5) (int 10)))
    (schema .number [.fMinimum f20, .fMaximum f42, .fMultipleOf f7]) goodObject) = true := by decide +kernel

/-- `check_invalid_data_schema` (`src/builder/data_schema.rs:5743–5976`). -/
example :
    rejects ((three (items 5 2 (num f0 f5) (nat (int 5) (int 10))) (num f20 f42) goodObject).check env.toEnv)
      .invalidMinMax = true ∧
    rejects ((three (items 2 5 (num f5 f0) (nat (int 5) (int 10))) (num f20 f42) goodObject).check env.toEnv)
      .invalidMinMax = true ∧
    rejects ((three (items 2 5 (num f0 f5) (nat (int 10) (int 5))) (num f20 f42) goodObject).check env.toEnv)
      .invalidMinMax = true ∧
    rejects ((three goodItems (num f42 f20) goodObject).check env.toEnv) .invalidMinMax = true ∧
    rejects ((three goodItems (num f20 fNan) goodObject).check env.toEnv) .nanMinMax = true ∧
    rejects ((three goodItems (num fNan f42) goodObject).check env.toEnv) .nanMinMax = true ∧
    rejects ((three goodItems (num f20 f42) (objectA (nat (int 20) (int 10)))).check env.toEnv) .invalidMinMax = true ∧
    rejects ((three goodItems (num f20 f42)
      (schema (.object ())
        [.property "a" false (nat (int 10) (int 20)), .property "b" false (nat (int 20) (int 10))])).check env.toEnv)
      .invalidMinMax = true ∧
    rejects ((start (.oneOf goodItems)
      [.oneOf (num f20 f42), .oneOf goodObject, .oneOf (schema (.oneOf (num f20 f10)))]).check env.toEnv)
      .invalidMinMax = true ∧
    rejects ((three (items 2 5 (schema (.oneOf (num f5 f0))) (nat (int 5) (int 10))) (num f20 f42)
      goodObject).check env.toEnv) .invalidMinMax = true := by decide +kernel

/-- `check_invalid_data_schema_with_complex_minmax` (`src/builder/data_schema.rs:5978–6011`). -/
example :
    rejects ((start .integer [.iExclusiveMinimum (int 2), .iMaximum (int 2)]).check env.toEnv) .invalidMinMax = true ∧
    rejects ((start .integer [.iMinimum (int 2), .iExclusiveMaximum (int 2)]).check env.toEnv) .invalidMinMax = true ∧
    rejects ((start .number [.fExclusiveMinimum f2, .fMaximum f2]).check env.toEnv) .invalidMinMax = true ∧
    rejects ((start .number [.fMinimum f2, .fExclusiveMaximum f2]).check env.toEnv) .invalidMinMax = true := by
  decide +kernel

/-- `check_invalid_data_schema_multiple_of` (`src/builder/data_schema.rs:6013–6028`). -/
example :
    rejects ((start (.vec ()) [.setItem (schema .number [.fMultipleOf f0])]).check env.toEnv) .invalidMultipleOf = true ∧
    rejects ((start (.vec ()) [.setItem (schema .number [.fMultipleOf fMinus2])]).check env.toEnv)
      .invalidMultipleOf = true := by decide +kernel

/-- `check_valid_partial_data_schema` (`src/builder/data_schema.rs:6030–6065`). -/
example : ((startPartial
      (.oneOf (items 2 5 (schema .number [.fMinimum f0, .fMaximum f5, .fMultipleOf f2]) (nat (int 5) (int 10))))
      [.oneOf (schema .number [.fMinimum f20, .fMaximum f42, .fMultipleOf f3]), .oneOf goodObject]).check
    env.toEnv).toOption.isSome = true := by decide +kernel

/-! ### Extensions -/

/-- `Cons<DataSchemaExtB, Cons<DataSchemaExtA, Nil>>` and the others (`src/builder/data_schema.rs:6070–6132`). -/
abbrev AB := Cons String (Cons Int Nil)
abbrev SE := UncheckedDataSchema AB AB AB
abbrev DE := DataSchema AB AB AB

/-- `Nil::cons(a).cons(b)`. -/
def ab (a : Int) (b : String) : AB := ⟨b, ⟨a, ()⟩⟩

/-- `DataSchemaBuilder::empty()`, `ext(A(a))`, `ext(B(b))`, `finish_extend()`. -/
def extendedWith (a : Int) (b : String) : DataSchemaBuilder AB AB AB :=
  (((DataSchemaBuilder.empty (AS := AB) (OS := AB) ()).ext fun o => (⟨a, o⟩ : Cons Int Nil)).ext
    fun o => (⟨b, o⟩ : AB)).finishExtend

/-- A specialised builder and its conversion; the title is set in between. -/
def specialised (b : DataSchemaBuilder AB AB AB) (op : SpecOp AB AB AB) (ops : List (KindOp AB AB AB) := []) : SE :=
  match ops.foldlM KindBuilder.apply (specialise b op) with
  | some k => k.toUnchecked
  | none => .mk { title := some "does not type check", other := ab 0 "" } none none

/-- `title("title")` before the kind is chosen. -/
def titled (b : DataSchemaBuilder AB AB AB) : DataSchemaBuilder AB AB AB := ⟨b.part, b.info.apply (.title "title")⟩

def convertsExt (s : SE) (d : DE) : Bool :=
  equals (schemaEq (consEq (· == ·) (consEq (· == ·) fun _ _ => true)) (consEq (· == ·) (consEq (· == ·) fun _ _ => true))
    (consEq (· == ·) (consEq (· == ·) fun _ _ => true))) (s.tryInto env.toEnv) d

/-- `extend_data_schema`, `extend_data_schema_with_vec`, `extend_data_schema_with_tuple`,
`extend_data_schema_with_object` (`src/builder/data_schema.rs:6132–6366`). -/
example :
    convertsExt (specialised (titled (extendedWith 1 "hello")) .null)
      (.mk { title := some "title", other := ab 1 "hello" } none (some .null)) = true ∧
    convertsExt (specialised (titled (extendedWith 1 "hello")) (.vec (ab 2 "world")) [.maxItems 10])
      (.mk { title := some "title", other := ab 1 "hello" } none
        (some (.array { items := none, minItems := none, maxItems := some 10, other := ab 2 "world" }))) = true ∧
    convertsExt (specialised (titled (extendedWith 1 "hello")) (.tuple (ab 2 "world")))
      (.mk { title := some "title", other := ab 1 "hello" } none
        (some (.array { items := some (.vec []), minItems := none, maxItems := none, other := ab 2 "world" }))) = true ∧
    convertsExt
      (specialised (titled (extendedWith 1 "hello")) (.object (ab 2 "world"))
        [.property "x" false (specialised (extendedWith 3 "other") .null)])
      (.mk { title := some "title", other := ab 1 "hello" } none
        (some (.object
          { properties := some [("x", .mk { other := ab 3 "other" } none (some .null))], required := none
            other := ab 2 "world" }))) = true := by decide +kernel

/-! ### Conversion of unchecked schemas -/

/-- `UncheckedDataSchema { titles, descriptions, ..Default::default() }`. -/
def inTwo (titles descriptions : List (String × String)) : S :=
  .mk { titles := some (.ofCalls titles), descriptions := some (.ofCalls descriptions), other := () } none none

/-- `DataSchema { titles, descriptions, ..Default::default() }`. -/
def readTwo (titles descriptions : List (String × String)) : D :=
  ofHead { titles := lang titles, descriptions := lang descriptions, other := () }

/-- `ArraySchema::try_from` and `ObjectSchema::try_from`, as subtypes. -/
def subtypeConverts (s : SubtypeF Unit Unit S) (d : SubtypeF Unit Unit D) : Bool :=
  equals
    (SubtypeF.eq (fun _ _ => true) (fun _ _ => true) (schemaEq (fun _ _ => true) (fun _ _ => true) fun _ _ => true))
    (subtypeTryInto env.toEnv s) d

def it1 := [("it", "title1"), ("en", "title2")]
def it2 := [("it", "description1"), ("en", "description2")]
def it3 := [("it", "title3"), ("en", "title4")]
def it4 := [("it", "description3"), ("en", "description4")]

/-- `valid_unchecked_tuple_data_schema`, `valid_unchecked_vec_data_schema`, `valid_unchecked_object_data_schema`
(`src/builder/data_schema.rs:6368–6680`). -/
example :
    subtypeConverts
      (.array { items := some (.vec [inTwo it1 it2, inTwo it3 it4]), minItems := none, maxItems := none, other := () })
      (.array { items := some (.vec [readTwo it1 it2, readTwo it3 it4]), minItems := none, maxItems := none
                other := () }) = true ∧
    subtypeConverts (.array { items := some (.elem (inTwo it1 it2)), minItems := some 1, maxItems := none, other := () })
      (.array { items := some (.elem (readTwo it1 it2)), minItems := some 1, maxItems := none, other := () }) = true ∧
    subtypeConverts
      (.object { properties := some [("data1", inTwo it1 it2), ("data2", inTwo it3 it4)], required := none, other := () })
      (.object { properties := some [("data1", readTwo it1 it2), ("data2", readTwo it3 it4)], required := none
                 other := () }) = true := by decide +kernel

/-- `invalid_unchecked_tuple_data_schema`, `invalid_unchecked_vec_data_schema`, `invalid_unchecked_object_data_schema`
(`src/builder/data_schema.rs:6454–6734`). -/
example :
    rejects (subtypeTryInto env.toEnv (AS := Unit) (OS := Unit)
      (.array { items := some (.vec [inTwo it1 it2, inTwo it3 [("it", "description3"), ("e1n", "description4")]])
                minItems := none, maxItems := none, other := () })) (.invalidLanguageTag "e1n") = true ∧
    rejects (subtypeTryInto env.toEnv (AS := Unit) (OS := Unit)
      (.array { items := some (.elem (inTwo it1 [("it", "description1"), ("e1n", "description2")])), minItems := some 1
                maxItems := none, other := () })) (.invalidLanguageTag "e1n") = true ∧
    rejects (subtypeTryInto env.toEnv (AS := Unit) (OS := Unit)
      (.object { properties := some [("data1", inTwo it1 it2),
                   ("data2", inTwo it3 [("i1t", "description3"), ("en", "description4")])]
                 required := none, other := () })) (.invalidLanguageTag "i1t") = true := by decide +kernel

/-- The schema of the last two tests. -/
def last (descriptions : List (String × String)) : S :=
  .mk { attype := some ["attype1", "attype2"], title := some "title", titles := some (.ofCalls it1)
        description := some "description", descriptions := some (.ofCalls descriptions), unit := some "unit"
        readOnly := true, writeOnly := true, format := some "format", other := () }
    none (some (.number { maximum := some (.inclusive f5) }))

/-- `valid_unchecked_data_schema` and `invalid_unchecked_data_schema` (`src/builder/data_schema.rs:6736–6833`). -/
example :
    converts (last it2)
      (.mk { attype := some ["attype1", "attype2"], title := some "title", titles := lang it1
             description := some "description", descriptions := lang it2, unit := some "unit", readOnly := true
             writeOnly := true, format := some "format", other := () }
        none (some (.number { maximum := some (.inclusive f5) }))) = true ∧
    rejects ((last [("i1t", "description1"), ("en", "description2")]).tryInto env.toEnv)
      (.invalidLanguageTag "i1t") = true := by decide +kernel

end Wot.Conformance.DataSchemaTests

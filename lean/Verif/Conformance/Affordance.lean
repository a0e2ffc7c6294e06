import Verif.Conformance.Support
/-
The unit tests of `src/builder/affordance.rs:2788–3869`, on the model.
-/
namespace Wot.Conformance.AffordanceTests

/-- `InteractionAffordance { forms: vec![Form { href: "href", .. }], title, .. }`. -/
def titledForm (title : String) : Interaction X :=
  { Interaction.default ExtDefaults.nil with title := some title, forms := [formTo "href"] }

/-- `empty_iteraction` (`src/builder/affordance.rs:2806–2812`). -/
example : equals (Interaction.eq ExtEq.nil) ((InteractionBuilder.empty (X := X) ()).tryInto env.toEnv)
    (Interaction.default ExtDefaults.nil) = true := by decide +kernel

/-- `full_interaction` (`src/builder/affordance.rs:2814–2892`). -/
example :
    let info : HumanReadableInfo := [InfoOp.attype "attype1", .attype "attype2", .title "title",
      .titles [("it", "title_it"), ("en", "title_en")], .description "description",
      .descriptions [("it", "description_it"), ("en", "description_en")]].foldl HumanReadableInfo.apply {}
    let part : PartialInteraction X Unit := [InteractionOp.form (form [] "form1_href" [.contentType "content_type"]),
      .form (form [.op .writeProperty, .op .readProperty] "form2_href" []), .uriVariable "uri1" (schema .number),
      .uriVariable "uri2" (schema .integer)].foldl PartialInteraction.apply (.empty ())
    equals (Interaction.eq ExtEq.nil) (InteractionBuilder.tryInto env.toEnv ⟨part, info⟩)
      { attype := some ["attype1", "attype2"], title := some "title"
        titles := lang [("it", "title_it"), ("en", "title_en")], description := some "description"
        descriptions := lang [("it", "description_it"), ("en", "description_en")]
        forms := [{ formTo "form1_href" with contentType := some "content_type" },
          { formTo "form2_href" with op := .custom [.writeProperty, .readProperty] }]
        uriVariables := some [("uri1", ofSubtype (.number {})), ("uri2", ofSubtype (.integer {}))], other := () } = true := by
  decide +kernel

/-- The property builder of the tests: calls before the kind, the kind, the calls on it and calls on the affordance. The
calls on the affordance and on its data schema commute, so they are grouped. -/
def propertyWith (pre : PartialDataSchemaBuilder Unit Unit Unit → PartialDataSchemaBuilder Unit Unit Unit)
    (op : SpecOp Unit Unit Unit) (ops : List (KindOp Unit Unit Unit)) (calls : List (PropertyOp X)) : PropertyBuilder X :=
  let b := calls.foldl PropertyBuilderF.apply
    (PropertyBuilderF.empty (X := X) () (PartialDataSchemaBuilder.empty (DS := Unit) (AS := Unit) (OS := Unit) ()) ())
  b.mapSchema fun d =>
    match ops.foldlM KindBuilder.apply (specialise (pre d) op) with
    | some k => k.toPartial
    | none => { PartialDataSchema.emptyDefault () with unit := some "does not type check" }

/-- `property_basic` (`src/builder/affordance.rs:2894–2952`). -/
example : equals (PropertyAffordance.eq ExtEq.nil)
    ((propertyWith (·.setDefault (json! ["hello", "world"])) .number [.unit "cm", .readOnly, .fMinimum f0]
      [.info (.title "property"), .observable true, .interaction (.form (form [] "href" [])),
       .interaction (.uriVariable "test" (schema .bool))]).build env.toEnv)
    { interaction := { titledForm "property" with uriVariables := some [("test", ofSubtype .boolean)] }
      dataSchema := .mk
        { title := some "property", unit := some "cm", default := some (json! ["hello", "world"]), readOnly := true
          other := () }
        none (some (.number { minimum := some (.inclusive f0) }))
      observable := some true, other := () } = true := by decide +kernel

/-- `property_enum` (`src/builder/affordance.rs:2954–2995`). -/
example : equals (PropertyAffordance.eq ExtEq.nil)
    ((propertyWith (·) (.enumeration (json! "enum1")) [.writeOnly, .enumeration (json! "enum2"), .unit "cm"]
      [.info (.title "property"), .observable true, .interaction (.form (form [] "href" []))]).build env.toEnv)
    { interaction := titledForm "property"
      dataSchema := .mk
        { title := some "property", unit := some "cm", enumeration := some [json! "enum1", json! "enum2"]
          writeOnly := true, other := () } none none
      observable := some true, other := () } = true := by decide +kernel

/-- `property_one_of` (`src/builder/affordance.rs:2997–3045`). -/
example : equals (PropertyAffordance.eq ExtEq.nil)
    ((propertyWith (·) (.oneOf (schema .number)) [.oneOf (schema .integer), .unit "cm"]
      [.info (.title "property"), .observable true, .interaction (.form (form [] "href" []))]).build env.toEnv)
    { interaction := titledForm "property"
      dataSchema := .mk { title := some "property", unit := some "cm", other := () }
        (some [ofSubtype (.number {}), ofSubtype (.integer {})]) none
      observable := some true, other := () } = true := by decide +kernel

/-- `b.finish_extend().number().unit("cm").read_only().minimum(0.)` and what it becomes. -/
def cm : S := schema .number [.unit "cm", .readOnly, .fMinimum f0]
def cmRead : D := .mk { unit := some "cm", readOnly := true, other := () } none
  (some (.number { minimum := some (.inclusive f0) }))

/-- `action_partial` and `action_full` (`src/builder/affordance.rs:3047–3153`). -/
example :
    equals (ActionAffordance.eq ExtEq.nil)
      ((action [.info (.title "action"), .safe, .input cm, .interaction (.form (form [] "href" []))]).build env.toEnv)
      { ActionAffordance.default ExtDefaults.nil with
        interaction := titledForm "action", input := some cmRead, safe := true } = true ∧
    equals (ActionAffordance.eq ExtEq.nil)
      ((action [.info (.title "action"), .safe, .input cm, .idempotent, .output cm,
        .interaction (.form (form [] "href" [])), .synchronous true]).build env.toEnv)
      { interaction := titledForm "action", input := some cmRead, output := some cmRead, safe := true
        idempotent := true, synchronous := some true, other := () } = true := by decide +kernel

/-- `event_partial` and `event_full` (`src/builder/affordance.rs:3155–3252`). -/
example :
    equals (EventAffordance.eq ExtEq.nil)
      ((event [.info (.title "event"), .data cm, .interaction (.form (form [] "href" []))]).build env.toEnv)
      { EventAffordance.default ExtDefaults.nil with interaction := titledForm "event", data := some cmRead } = true ∧
    equals (EventAffordance.eq ExtEq.nil)
      ((event [.info (.title "event"), .cancellation (schema .integer), .data cm, .subscription (schema .bool),
        .dataResponse (schema .string), .interaction (.form (form [] "href" []))]).build env.toEnv)
      { interaction := titledForm "event", subscription := some (ofSubtype .boolean), data := some cmRead
        cancellation := some (ofSubtype (.integer {})), dataResponse := some (ofSubtype (.string {}))
        other := () } = true := by decide +kernel

/-! ### Extensions -/

namespace Affordances

/-- `ThingExtA` and `ThingExtB` (`src/builder/affordance.rs:3269–3362`); a struct with one field is that field. -/
abbrev A : ExtTypes := ⟨Unit, Int, Int, Int, Int, Int, Int, Int, Unit, Unit⟩
abbrev B : ExtTypes := ⟨Unit, String, String, String, String, String, String, String, Unit, Unit⟩
abbrev Y : ExtTypes := .cons B (.cons A .nil)

def eqOf {T : Type} [BEq T] (a b : T) : Bool := a == b
def eqA : ExtEq A := ⟨eqOf, eqOf, eqOf, eqOf, eqOf, eqOf, eqOf, eqOf, eqOf, eqOf⟩
def eqB : ExtEq B := ⟨eqOf, eqOf, eqOf, eqOf, eqOf, eqOf, eqOf, eqOf, eqOf, eqOf⟩
def eqY : ExtEq Y := eqB.cons (eqA.cons ExtEq.nil)

/-- `ext`, as a call. -/
def ext {A B : Type} (a : A) : B → Cons A B := fun b => ⟨a, b⟩

/-- `Nil::cons(a).cons(b)`. -/
def ab (a : Int) (b : String) : Cons String (Cons Int Unit) := ⟨b, ⟨a, ()⟩⟩
def units : Cons Unit (Cons Unit Unit) := ⟨(), (), ()⟩

/-- `b.ext(DataSchemaExtA { f }).ext_with(|| DataSchemaExtB { m }).finish_extend().null()` and what it becomes. -/
def nullOf (f : Int) (m : String) : UDS Y :=
  let b : DataSchemaBuilder Unit Y.arraySchema Y.objectSchema := .empty ()
  (specialise ((b.ext (ext f)).ext (ext m)).finishExtend .null).toUnchecked
def nullRead (f : Int) (m : String) : DS Y := .mk { other := ab f m } none (some .null)

/-- `b.ext(FormExtA { d }).ext(FormExtB { k }).href("href")`. -/
def formOf (d : Int) (k : String) : FormBuilder Y :=
  let f : FormBuilderF Y Unit Unit := FormBuilderF.new ()
  ((f.ext (ext d)).ext (ext k)).setHref "href"

/-- An `InteractionAffordance` with a title, the URI variable `x` and an extension. -/
def interactionOf (x : DS Y) (forms : List (Form Y)) (other : Y.interaction) : Interaction Y :=
  { attype := none, title := some "title", titles := none, description := none, descriptions := none, forms
    uriVariables := some [("x", x)], other }

/-- `extend_interaction` (`src/builder/affordance.rs:3359–3441`). -/
example :
    let b := (InteractionBuilder.empty (X := Y) ())
    let b : InteractionBuilder Y Unit := { b with info := b.info.apply (.title "title") }
    let b := b.ext (ext (1 : Int))
    let b := { b with part := b.part.apply (.uriVariable "x" (nullOf 2 "a")) }
    let b := b.ext (ext "b")
    let b := { b with part := b.part.apply (.form (formOf 3 "c")) }
    equals (Interaction.eq eqY) (InteractionBuilder.tryInto (X := Y) env.toEnv b)
      (interactionOf (nullRead 2 "a")
        [{ op := .default, href := "href", contentType := none, contentCoding := none, subprotocol := none, security := none
           scopes := none, response := none, additionalResponses := none, other := ab 3 "c" }]
        (ab 1 "b")) = true := by decide +kernel

/-- `extend_property` (`src/builder/affordance.rs:3443–3541`). -/
example :
    let d : PartialDataSchemaBuilder Unit Y.arraySchema Y.objectSchema := .empty ()
    let b := (PropertyBuilderF.empty (X := Y) () d ()).ext (fun i => i) (ext (1 : Int))
    let b := b.apply (.info (.title "title"))
    let b := (b.ext (ext (2 : Int)) (fun o => o)).mapSchema (·.ext (ext (4 : Int)))
    let b := b.apply (.interaction (.uriVariable "x" (nullOf 3 "a")))
    let b := (b.mapSchema (·.ext (ext "d"))).ext (ext "b") (fun o => o)
    let b := (b.mapSchema (·.finishExtend)).ext (fun i => i) (ext "c")
    let b := b.mapSchema (fun d => (specialise d .null).toPartial)
    equals (PropertyAffordance.eq eqY) (PropertyBuilder.build (X := Y) env.toEnv b)
      { interaction := interactionOf (nullRead 3 "a") [] (ab 2 "b")
        dataSchema := .mk { title := some "title", other := ab 4 "d" } none (some .null)
        observable := none, other := ab 1 "c" } = true := by decide +kernel

/-- `extend_event` (`src/builder/affordance.rs:3543–3645`). -/
example :
    let b := (EventBuilderF.empty (X := Y) () ()).apply (.info (.title "title"))
    let b := (b.ext (ext (1 : Int)) (fun o => o)).apply (.interaction (.uriVariable "x" (nullOf 2 "a")))
    let b := (b.ext (ext "b") (fun o => o)).ext (fun i => i) (ext (3 : Int))
    let b := (b.ext (fun i => i) (ext "c")).apply (.subscription (nullOf 4 "d"))
    equals (EventAffordance.eq eqY) (EventBuilder.build (X := Y) env.toEnv b)
      { interaction := interactionOf (nullRead 2 "a") [] (ab 1 "b"), subscription := some (nullRead 4 "d"), data := none
        cancellation := none, dataResponse := none, other := ab 3 "c" } = true := by decide +kernel

/-- `extend_action` (`src/builder/affordance.rs:3647–3750`). -/
example :
    let b := (ActionBuilderF.empty (X := Y) () ()).apply (.info (.title "title"))
    let b := (b.ext (ext (1 : Int)) (fun o => o)).apply (.interaction (.uriVariable "x" (nullOf 2 "a")))
    let b := (b.ext (ext "b") (fun o => o)).ext (fun i => i) (ext (3 : Int))
    let b := (b.ext (fun i => i) (ext "c")).apply (.input (nullOf 4 "d"))
    equals (ActionAffordance.eq eqY) (ActionBuilder.build (X := Y) env.toEnv b)
      { interaction := interactionOf (nullRead 2 "a") [] (ab 1 "b"), input := some (nullRead 4 "d"), output := none
        safe := false, idempotent := false, synchronous := none, other := ab 3 "c" } = true := by decide +kernel

end Affordances

/-! ### Failures and delegation -/

/-- `build_invalid_property_affordance`, `build_invalid_action_affordance`, `build_invalid_event_affordance`
(`src/builder/affordance.rs:3752–3792`). -/
example :
    rejects ((propertyWith (·) .number [] [.info (.titles [("i1t", "title1")])]).build env.toEnv)
      (.invalidLanguageTag "i1t") = true ∧
    rejects ((action [.info (.titles [("i1t", "title1")])]).build env.toEnv) (.invalidLanguageTag "i1t") = true ∧
    rejects ((event [.info (.titles [("i1t", "title1")])]).build env.toEnv) (.invalidLanguageTag "i1t") = true := by
  decide +kernel

/-- `delegate_vec_methods` and `delegate_tuple_methods` (`src/builder/affordance.rs:3794–3868`). -/
example :
    equals (PropertyAffordance.eq ExtEq.nil)
      ((propertyWith (·) (.vec ()) [.readOnly, .minItems 3, .maxItems 5, .setItem (schema .integer)] []).build env.toEnv)
      { interaction := Interaction.default ExtDefaults.nil
        dataSchema := .mk { readOnly := true, other := () } none
          (some (.array
            { items := some (.elem (ofSubtype (.integer {}))), minItems := some 3, maxItems := some 5, other := () }))
        observable := none, other := () } = true ∧
    equals (PropertyAffordance.eq ExtEq.nil)
      ((propertyWith (·) (.tuple ()) [.readOnly, .append (schema .integer), .append (schema .string)] []).build env.toEnv)
      { interaction := Interaction.default ExtDefaults.nil
        dataSchema := .mk { readOnly := true, other := () } none
          (some (.array
            { items := some (.vec [ofSubtype (.integer {}), ofSubtype (.string {})]), minItems := none, maxItems := none
              other := () }))
        observable := none, other := () } = true := by decide +kernel

end Wot.Conformance.AffordanceTests

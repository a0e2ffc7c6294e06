import Verif.Model.JsonText
import Verif.Model.Equality
import Verif.Model.Default
import Verif.Model.Reach
/-
Support for running the crate's own unit tests on the model (`Verif/Conformance`). These are tests of the model, not
proofs of properties: they show that the definitions the theorems are about behave as the crate's authors expect.
-/
namespace Wot.Conformance

/-- The language tags and dates that occur in the tests. `datetime!(2022-05-01 10:20:42.123 UTC)` and
`datetime!(2022-05-10 12:30 +1)` are the instants of `src/thing.rs:1924–1925`. -/
def may1 : OffsetDateTime := ⟨1651400442123000000, 0⟩
def may10 : OffsetDateTime := ⟨1652182200000000000, 3600⟩

/-- Maps are iterated in key order; `en` and `it` are language tags. -/
def env : SerdeEnv where
  iter := fun m => m
  iter_perm := fun _ => .refl _
  langParse := fun s => if s = "en" ∨ s = "it" then some s else none
  langRead := fun s => if s = "en" ∨ s = "it" then some s else none
  timeFormat := fun d =>
    if d = may1 then some "2022-05-01T10:20:42.123Z"
    else if d = may10 then some "2022-05-10T12:30:00+01:00" else none
  timeParse := fun s =>
    if s = "2022-05-01T10:20:42.123Z" then some may1
    else if s = "2022-05-10T12:30:00.000+01:00" ∨ s = "2022-05-10T12:30:00+01:00" then some may10 else none

def f0 : F64 := .ofBits 0
def fHalf : F64 := .ofBits 0x3FE0000000000000
def f1 : F64 := .ofBits 0x3FF0000000000000
def f2 : F64 := .ofBits 0x4000000000000000
def f5 : F64 := .ofBits 0x4014000000000000

/-- JSON as it is written in the tests: `json!(…)`. An escape `(t)` inserts a term. -/
declare_syntax_cat jvalue
syntax jmember := str ":" jvalue
syntax "{" jmember,* "}" : jvalue
syntax "[" jvalue,* "]" : jvalue
syntax str : jvalue
syntax num : jvalue
syntax "-" num : jvalue
syntax ident : jvalue
syntax "(" term ")" : jvalue
syntax "json!" jvalue : term

macro_rules
  | `(json! { $[$k:str : $v:jvalue],* }) => `(Json.obj [$[($k, json! $v)],*])
  | `(json! [ $[$v:jvalue],* ]) => `(Json.arr [$[json! $v],*])
  | `(json! $s:str) => `(Json.str $s)
  | `(json! $n:num) => `(Json.num (.pos $n))
  | `(json! - $n:num) => `(Json.num (.neg ($n - 1)))
  | `(json! $i:ident) => if i.getId == `null then `(Json.null) else `(Json.bool $i)
  | `(json! ($t:term)) => pure t

/-- A `Value` that is a float. -/
def float (f : F64) : Json := .num (.float f)

/-- An `i64`. -/
def int (z : Int) (h : -(2^63 : Int) ≤ z ∧ z < (2^63 : Int) := by decide) : I64 := ⟨z, h⟩

abbrev X : ExtTypes := .nil
abbrev S := UncheckedDataSchema Unit Unit Unit
abbrev D := DataSchema Unit Unit Unit

/-- `assert_eq!(a.unwrap(), b)`. -/
def equals {A B : Type} (eq : A → A → Bool) (r : Except B A) (a : A) : Bool :=
  match r with
  | .ok a' => eq a' a
  | .error _ => false

/-- `assert_eq!(a.unwrap(), b)` for what is read. -/
def reads {A : Type} (eq : A → A → Bool) (r : Option A) (a : A) : Bool := optEq eq r (some a)

/-- `assert_eq!(serde_json::to_value(a).unwrap(), b)`. -/
def writes (r : Option Json) (j : Json) : Bool := optEq Json.eq (r.map Json.norm) (some j.norm)

/-- `assert_eq!(a.unwrap_err(), b)`. -/
def fails {A : Type} (r : Except Failure A) (e : Error) : Bool :=
  match r with
  | .error (.err e') => e' == e
  | _ => false

/-- The same, for the conversions that cannot panic. -/
def rejects {A : Type} (r : Except Error A) (e : Error) : Bool :=
  match r with
  | .error e' => e' == e
  | _ => false

/-- `ThingBuilder::<Nil, _>::new("MyLampThing").finish_extend()`, some calls and `build()`. -/
def built (ops : List (ThingOp X)) : Except Failure (Thing X) :=
  ((ThingBuilder.new (X := X) "MyLampThing" ()).finishExtend.run ops).build env.toEnv

/-- The same without `finish_extend()`. -/
def plain (ops : List CommonOp) : Except Failure (Thing X) :=
  (ops.foldl ThingBuilder.applyCommon (ThingBuilder.new (X := X) "MyLampThing" ())).build env.toEnv

/-- `Thing { context: TD_CONTEXT_11.into(), title: "MyLampThing".to_string(), ..Default::default() }`. -/
def lamp : Thing X := { Thing.default ExtDefaults.nil with context := .str tdContext11, title := "MyLampThing" }

/-- `assert_eq!(thing, expected)` after a successful `build()`. -/
def builds (ops : List (ThingOp X)) (t : Thing X) : Bool := equals (Thing.eq ExtEq.nil) (built ops) t

/-- The same without `finish_extend()`. -/
def makes (ops : List CommonOp) (t : Thing X) : Bool := equals (Thing.eq ExtEq.nil) (plain ops) t

/-- `DataSchema { subtype: Some(s), ..Default::default() }`. -/
def ofSubtype (s : SubtypeF Unit Unit D) : D := .mk (DataSchema.default (AS := Unit) (OS := Unit) ()).head none (some s)

/-- A data schema builder after some calls; a title says so if the calls do not type check. -/
def schemaFrom (b : DataSchemaBuilder Unit Unit Unit) (op : SpecOp Unit Unit Unit) (ops : List (KindOp Unit Unit Unit)) : S :=
  match ops.foldlM KindBuilder.apply (specialise b op) with
  | some k => k.toUnchecked
  | none => .mk { title := some "does not type check", other := () } none none

/-- `DataSchemaBuilder::default().finish_extend()` and some calls. -/
def schema (op : SpecOp Unit Unit Unit) (ops : List (KindOp Unit Unit Unit) := []) : S :=
  schemaFrom (DataSchemaBuilder.empty ()).finishExtend op ops

/-- The call of `security`, by the calls of its closure. -/
def sec (calls : List SecOp) : CommonOp :=
  match SecuritySchemeBuilder.ofCalls calls with
  | some b => .security b
  | none => .description "does not type check"

/-- The same on a builder that is no longer extended. -/
def security (calls : List SecOp) : ThingOp X := .common (sec calls)

/-- `FormBuilder::new()` with some calls before and after `href`. -/
def form (pre : List (FormOp X)) (href : String) (post : List (FormOp X)) : FormBuilder X :=
  post.foldl FormBuilderF.apply ((pre.foldl FormBuilderF.apply (FormBuilderF.new ())).setHref href)

/-- `Form { href, ..Default::default() }`. -/
def formTo (href : String) : Form X := { Form.default ExtDefaults.nil with href }

/-- The closure of `property`: the plain calls on the data schema, its kind, the calls on it, and the calls on the
affordance. -/
def property (op : SpecOp Unit Unit Unit) (ops : List (KindOp Unit Unit Unit)) (calls : List (PropertyOp X)) :
    PropertyBuilder X :=
  let b := calls.foldl PropertyBuilderF.apply
    (PropertyBuilderF.empty (X := X) () (PartialDataSchemaBuilder.empty (DS := Unit) (AS := Unit) (OS := Unit) ()) ())
  b.mapSchema fun d =>
    match ops.foldlM KindBuilder.apply (specialise d.finishExtend op) with
    | some k => k.toPartial
    | none => { PartialDataSchema.emptyDefault () with unit := some "does not type check" }

/-- The closure of `action`. -/
def action (calls : List (ActionOp X)) : ActionBuilder X := calls.foldl ActionBuilderF.apply (ActionBuilderF.empty () ())

/-- The closure of `event`. -/
def event (calls : List (EventOp X)) : EventBuilder X := calls.foldl EventBuilderF.apply (EventBuilderF.empty () ())

/-- The closure given to `titles` or `descriptions`, after parsing. -/
def lang (calls : List (String × String)) : Option MultiLanguage := some ⟨HMap.collect calls⟩

end Wot.Conformance

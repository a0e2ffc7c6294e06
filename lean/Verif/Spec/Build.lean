import Verif.Spec.Lang
import Verif.Model.Thing
/-
What `build` has to check, what a violation of each check is, and what a successful build returns,
stated on what was supplied to the builder and without the functions of the crate.
-/
namespace Wot

variable {X : ExtTypes}

/-! ### What was supplied -/

/-- The name `n` was given to a security definition. -/
def ThingBuilder.Defined (b : ThingBuilder X) (n : String) : Prop :=
  n ∈ b.securityDefinitions.map (·.1)

/-- The schema name `n` was declared with `schema_definition`. -/
def ThingBuilder.Declared (b : ThingBuilder X) (n : String) : Prop :=
  n ∈ HMap.keys b.schemaDefinitions

/-- `f` is a Thing-level form. -/
def ThingBuilder.ThingForm (b : ThingBuilder X) (f : FormBuilder X) : Prop :=
  ∃ fs, b.forms = some fs ∧ f ∈ fs

/-- `f` is a form of an affordance of the given kind. -/
inductive ThingBuilder.AffordanceForm (b : ThingBuilder X) : AffordanceType → FormBuilder X → Prop
  | property {n : String} {p : PropertyBuilder X} {f : FormBuilder X} :
      (n, p) ∈ b.properties → f ∈ p.interaction.forms → b.AffordanceForm .property f
  | action {n : String} {a : ActionBuilder X} {f : FormBuilder X} :
      (n, a) ∈ b.actions → f ∈ a.interaction.part.forms → b.AffordanceForm .action f
  | event {n : String} {e : EventBuilder X} {f : FormBuilder X} :
      (n, e) ∈ b.events → f ∈ e.interaction.part.forms → b.AffordanceForm .event f

/-- `f` is a form anywhere. -/
def ThingBuilder.AnyForm (b : ThingBuilder X) (f : FormBuilder X) : Prop :=
  b.ThingForm f ∨ ∃ ty, b.AffordanceForm ty f

/-- The form names the security scheme `n`. -/
def FormBuilderF.UsesSecurity {H F : Type} (f : FormBuilderF X H F) (n : String) : Prop :=
  ∃ l, f.security = some l ∧ n ∈ l

/-- The form has the explicit operation `o`. -/
def FormBuilderF.HasOp {H F : Type} (f : FormBuilderF X H F) (o : FormOperation) : Prop :=
  ∃ l, f.op = .custom l ∧ o ∈ l

/-- An additional response of the form names the schema `n`. -/
def FormBuilderF.UsesSchema {H F : Type} (f : FormBuilderF X H F) (n : String) : Prop :=
  ∃ r ∈ f.additionalResponses, r.schema = some n

/-- The names a combo scheme lists. -/
def SchemeSubtype.References (s : SchemeSubtype) (n : String) : Prop :=
  ∃ l, (s = .known (.combo (.oneOf l)) ∨ s = .known (.combo (.allOf l))) ∧ n ∈ l

/-- A combo scheme among the security definitions lists `n`. -/
def ThingBuilder.ComboReference (b : ThingBuilder X) (n : String) : Prop :=
  ∃ k s, (k, s) ∈ b.securityDefinitions ∧ s.subtype.References n

/-- The data schema of a property, as one schema. -/
def PropertyBuilderF.schema {I O : Type}
    (p : PropertyBuilderF X (PartialDataSchema X.dataSchema X.arraySchema X.objectSchema) I O) :
    UDS X :=
  .mk { attype := p.info.attype, title := p.info.title, titles := p.info.titles,
        description := p.info.description, descriptions := p.info.descriptions,
        constant := p.dataSchema.constant, default := p.dataSchema.default,
        unit := p.dataSchema.unit, enumeration := p.dataSchema.enumeration,
        readOnly := p.dataSchema.readOnly, writeOnly := p.dataSchema.writeOnly,
        format := p.dataSchema.format, other := p.dataSchema.other }
    p.dataSchema.oneOf p.dataSchema.subtype

/-- The data schemas whose ranges `build` is documented to check. -/
inductive ThingBuilder.CheckedSchema (b : ThingBuilder X) : UDS X → Prop
  | property {n : String} {p : PropertyBuilder X} : (n, p) ∈ b.properties → b.CheckedSchema p.schema
  | input {n : String} {a : ActionBuilder X} {s : UDS X} :
      (n, a) ∈ b.actions → a.input = some s → b.CheckedSchema s
  | output {n : String} {a : ActionBuilder X} {s : UDS X} :
      (n, a) ∈ b.actions → a.output = some s → b.CheckedSchema s
  | subscription {n : String} {e : EventBuilder X} {s : UDS X} :
      (n, e) ∈ b.events → e.subscription = some s → b.CheckedSchema s
  | data {n : String} {e : EventBuilder X} {s : UDS X} :
      (n, e) ∈ b.events → e.data = some s → b.CheckedSchema s
  | cancellation {n : String} {e : EventBuilder X} {s : UDS X} :
      (n, e) ∈ b.events → e.cancellation = some s → b.CheckedSchema s

/-- The URI variables, of the Thing and of all affordances. -/
inductive ThingBuilder.UriVariable (b : ThingBuilder X) : UDS X → Prop
  | thing {n : String} {s : UDS X} {m : HMap (UDS X)} :
      b.uriVariables = some m → (n, s) ∈ m → b.UriVariable s
  | property {n k : String} {p : PropertyBuilder X} {s : UDS X} :
      (n, p) ∈ b.properties → (k, s) ∈ p.interaction.uriVariables → b.UriVariable s
  | action {n k : String} {a : ActionBuilder X} {s : UDS X} :
      (n, a) ∈ b.actions → (k, s) ∈ a.interaction.part.uriVariables → b.UriVariable s
  | event {n k : String} {e : EventBuilder X} {s : UDS X} :
      (n, e) ∈ b.events → (k, s) ∈ e.interaction.part.uriVariables → b.UriVariable s

/-- The data schemas in positions that `build` does not check, and are no URI variables. -/
inductive ThingBuilder.UncheckedSchema (b : ThingBuilder X) : UDS X → Prop
  | schemaDefinition {n : String} {s : UDS X} : (n, s) ∈ b.schemaDefinitions → b.UncheckedSchema s
  | dataResponse {n : String} {e : EventBuilder X} {s : UDS X} :
      (n, e) ∈ b.events → e.dataResponse = some s → b.UncheckedSchema s

/-- All data schemas supplied. -/
def ThingBuilder.AnySchema (b : ThingBuilder X) (s : UDS X) : Prop :=
  b.CheckedSchema s ∨ b.UriVariable s ∨ b.UncheckedSchema s

/-- The human readable information of affordances. (That of a property is part of its schema.) -/
inductive ThingBuilder.AffordanceInfo (b : ThingBuilder X) : HumanReadableInfo → Prop
  | property {n : String} {p : PropertyBuilder X} : (n, p) ∈ b.properties → b.AffordanceInfo p.info
  | action {n : String} {a : ActionBuilder X} :
      (n, a) ∈ b.actions → b.AffordanceInfo a.interaction.info
  | event {n : String} {e : EventBuilder X} :
      (n, e) ∈ b.events → b.AffordanceInfo e.interaction.info

/-- The language keys and tags supplied anywhere. -/
inductive ThingBuilder.LangKey (b : ThingBuilder X) : String → Prop
  | titles {k : String} : KeyOf b.titles k → b.LangKey k
  | descriptions {k : String} : KeyOf b.descriptions k → b.LangKey k
  | security {n : String} {s : UncheckedSecurityScheme} {k : String} :
      (n, s) ∈ b.securityDefinitions → KeyOf s.descriptions k → b.LangKey k
  | affordanceTitles {i : HumanReadableInfo} {k : String} :
      b.AffordanceInfo i → KeyOf i.titles k → b.LangKey k
  | affordanceDescriptions {i : HumanReadableInfo} {k : String} :
      b.AffordanceInfo i → KeyOf i.descriptions k → b.LangKey k
  | schema {s : UDS X} {k : String} : b.AnySchema s → SchemaKey s k → b.LangKey k
  | hreflang {ls : List UncheckedLink} {l : UncheckedLink} {k : String} :
      b.links = some ls → l ∈ ls → k ∈ l.hreflang → b.LangKey k

/-! ### The rules -/

/-- The operations allowed in each kind of form, as listed by the TD 1.1 specification. -/
def operationsOf : FormContext → List FormOperation
  | .thing => [.readAllProperties, .writeAllProperties, .readMultipleProperties,
      .writeMultipleProperties, .observeAllProperties, .unobserveAllProperties,
      .subscribeAllEvents, .unsubscribeAllEvents, .queryAllActions]
  | .property => [.readProperty, .writeProperty, .observeProperty, .unobserveProperty]
  | .action => [.invokeAction, .queryAction, .cancelAction]
  | .event => [.subscribeEvent, .unsubscribeEvent]

/-- A schema is directly of type array or object. -/
def Schema.ArrayOrObject {L D A O : Type} (s : Schema L D A O) : Prop :=
  (∃ a, s.subtype = some (.array a)) ∨ ∃ o, s.subtype = some (.object o)

/-- A schema has a pair of (non-NaN) bounds that is rejected. -/
def BadBounds {L D A O : Type} (s : Schema L D A O) : Prop :=
  (∃ a, s.subtype = some (.array a) ∧ ¬ ArrayRule a) ∨
  (∃ n, s.subtype = some (.integer n) ∧ ¬ IntegerRule n) ∨
  (∃ n lo hi, s.subtype = some (.number n) ∧ n.minimum = some lo ∧ n.maximum = some hi ∧
    lo.bound.isNan = false ∧ hi.bound.isNan = false ∧
    ¬ (SameKind lo hi ∧ F64.Le lo.bound hi.bound))

/-- A number schema has a NaN bound. -/
def NanBound {L D A O : Type} (s : Schema L D A O) : Prop :=
  ∃ n, s.subtype = some (.number n) ∧
    ((∃ lo, n.minimum = some lo ∧ lo.bound.isNan = true) ∨
     (∃ hi, n.maximum = some hi ∧ hi.bound.isNan = true))

/-- A number schema has a `multipleOf` that is zero or negative. -/
def BadMultipleOf {L D A O : Type} (s : Schema L D A O) : Prop :=
  ∃ n x, s.subtype = some (.number n) ∧ n.multipleOf = some x ∧ F64.Le x F64.zero

/-- `n` occurs at least twice in a list. -/
def Twice (l : List String) (n : String) : Prop := 2 ≤ l.count n

/-- The error `e` describes a violation that is present in what was supplied to the builder. -/
def ThingBuilder.Violates (env : Env) (b : ThingBuilder X) : Error → Prop
  | .duplicatedSecurityDefinition n => Twice (b.securityDefinitions.map (·.1)) n
  | .missingOpInForm => ∃ f, b.ThingForm f ∧ f.op = .default
  | .invalidOpInForm ctx o => o ∉ operationsOf ctx ∧
      ((ctx = .thing ∧ ∃ f, b.ThingForm f ∧ f.HasOp o) ∨
       (∃ ty f, ctx = ty.toContext ∧ b.AffordanceForm ty f ∧ f.HasOp o))
  | .undefinedSecurity n => ¬ b.Defined n ∧ ∃ f, b.AnyForm f ∧ f.UsesSecurity n
  | .invalidMinMax => ∃ s x, b.CheckedSchema s ∧ Within x s ∧ BadBounds x
  | .nanMinMax => ∃ s x, b.CheckedSchema s ∧ Within x s ∧ NanBound x
  | .invalidMultipleOf => ∃ s x, b.CheckedSchema s ∧ Within x s ∧ BadMultipleOf x
  | .duplicatedAffordance ty n =>
      match ty with
      | .property => Twice (b.properties.map (·.1)) n
      | .action => Twice (b.actions.map (·.1)) n
      | .event => Twice (b.events.map (·.1)) n
  | .missingSchemaDefinition n =>
      (¬ b.Declared n ∧ ∃ f, b.ThingForm f ∧ f.UsesSchema n) ∨
      (¬ b.Defined n ∧ b.ComboReference n)
  | .invalidUriVariables => ∃ s, b.UriVariable s ∧ s.ArrayOrObject
  | .invalidLanguageTag k => b.LangKey k ∧ env.langParse k = none
  | .sizesWithRelNotIcon =>
      ∃ ls l, b.links = some ls ∧ l ∈ ls ∧ l.sizes ≠ none ∧ l.rel ≠ some "icon"

/-- All conditions for a successful build. -/
structure ThingBuilder.Valid (env : Env) (b : ThingBuilder X) : Prop where
  securityNames : (b.securityDefinitions.map (·.1)).Nodup
  comboReferences : ∀ n, b.ComboReference n → b.Defined n
  formSecurity : ∀ f n, b.AnyForm f → f.UsesSecurity n → b.Defined n
  thingForms : ∀ f, b.ThingForm f → ∃ l, f.op = .custom l ∧ ∀ o ∈ l, o ∈ operationsOf .thing
  affordanceForms : ∀ ty f o, b.AffordanceForm ty f → f.HasOp o → o ∈ operationsOf ty.toContext
  responseSchemas : ∀ f n, b.ThingForm f → f.UsesSchema n → b.Declared n
  schemas : ∀ s, b.CheckedSchema s → AllRules s
  uriVariables : ∀ s, b.UriVariable s → ¬ s.ArrayOrObject
  propertyNames : (b.properties.map (·.1)).Nodup
  actionNames : (b.actions.map (·.1)).Nodup
  eventNames : (b.events.map (·.1)).Nodup
  languages : ∀ k, b.LangKey k → ∃ t, env.langParse k = some t
  linkSizes : ∀ ls l, b.links = some ls → l ∈ ls → l.sizes ≠ none → l.rel = some "icon"

/-! ### The result -/

/-- The built form: nothing changes, an empty list of additional responses is absent. -/
def FormBuilder.result (f : FormBuilder X) : Form X :=
  { op := f.op, href := f.href, contentType := f.contentType, contentCoding := f.contentCoding,
    subprotocol := f.subprotocol, security := f.security, scopes := f.scopes,
    response := f.response,
    additionalResponses := if f.additionalResponses = [] then none else some f.additionalResponses,
    other := f.other }

/-- The built interaction part of an affordance. -/
def interactionResult (env : Env) (i : HumanReadableInfo) (p : PartialInteraction X X.interaction) :
    Interaction X :=
  { attype := i.attype, title := i.title, titles := i.titles.map (langResult env),
    description := i.description, descriptions := i.descriptions.map (langResult env),
    forms := p.forms.map FormBuilder.result,
    uriVariables := if p.uriVariables = [] then none else
      some (HMap.mapVals (Schema.mapLang (langResult env)) p.uriVariables)
    other := p.other }

/-- The built property. -/
def PropertyBuilder.result (env : Env) (p : PropertyBuilder X) : PropertyAffordance X :=
  { interaction := interactionResult env p.info p.interaction
    dataSchema := p.schema.mapLang (langResult env)
    observable := p.observable
    other := p.other }

/-- The built action. -/
def ActionBuilder.result (env : Env) (a : ActionBuilder X) : ActionAffordance X :=
  { interaction := interactionResult env a.interaction.info a.interaction.part
    input := a.input.map (Schema.mapLang (langResult env))
    output := a.output.map (Schema.mapLang (langResult env))
    safe := a.safe, idempotent := a.idempotent, synchronous := a.synchronous, other := a.other }

/-- The built event. -/
def EventBuilder.result (env : Env) (e : EventBuilder X) : EventAffordance X :=
  { interaction := interactionResult env e.interaction.info e.interaction.part
    subscription := e.subscription.map (Schema.mapLang (langResult env))
    data := e.data.map (Schema.mapLang (langResult env))
    dataResponse := e.dataResponse.map (Schema.mapLang (langResult env))
    cancellation := e.cancellation.map (Schema.mapLang (langResult env))
    other := e.other }

/-- The built security scheme. -/
def schemeResult (env : Env) (s : UncheckedSecurityScheme) : SecurityScheme :=
  { attype := s.attype, description := s.description,
    descriptions := s.descriptions.map (langResult env), proxy := s.proxy, subtype := s.subtype }

/-- The built link: every `hreflang` is replaced by the tag it parses to, none at all is absent. -/
def linkResult (env : Env) (l : UncheckedLink) : Link :=
  { href := l.href, ty := l.ty, rel := l.rel, anchor := l.anchor, sizes := l.sizes,
    hreflang := if l.hreflang = [] then none else
      some (l.hreflang.map fun k => (env.langParse k).getD k) }

/-- The built context: the only context as a string, several as an array in order. -/
def contextResult : List Context → Json
  | [.simple s] => .str s
  | cs => .arr (cs.map fun
      | .simple s => .str s
      | .map m => .obj (HMap.mapVals Json.str m))

/-- A map with the given entries (whose names are distinct when it matters), absent if empty. -/
def mapResult {A T : Type} (f : A → T) (l : List (String × A)) : Option (HMap T) :=
  if l = [] then none else some (HMap.collect (l.map fun kv => (kv.1, f kv.2)))

/-- The Thing a successful build returns. -/
def ThingBuilder.result (env : Env) (b : ThingBuilder X) : Thing X :=
  { context := contextResult b.context
    id := b.id
    attype := b.attype
    title := b.title
    titles := b.titles.map (langResult env)
    description := b.description
    descriptions := b.descriptions.map (langResult env)
    version := b.version
    created := b.created
    modified := b.modified
    support := b.support
    base := b.base
    properties := mapResult (PropertyBuilder.result env) b.properties
    actions := mapResult (ActionBuilder.result env) b.actions
    events := mapResult (EventBuilder.result env) b.events
    links := b.links.map (List.map (linkResult env))
    forms := b.forms.map (List.map FormBuilder.result)
    security := b.security
    securityDefinitions := HMap.collect (b.securityDefinitions.map fun kv => (kv.1, schemeResult env kv.2))
    uriVariables := b.uriVariables.map (HMap.mapVals (Schema.mapLang (langResult env)))
    profile := if b.profile = [] then none else some b.profile
    schemaDefinitions := if b.schemaDefinitions = [] then none else
      some (HMap.mapVals (Schema.mapLang (langResult env)) b.schemaDefinitions)
    other := b.other }

/-! ### Representation invariant -/

/-- What holds of every builder value reachable through the API (`Reachable.wf`): the model's maps are
sorted, and the first context is the TD 1.1 context. -/
structure ThingBuilder.WF (b : ThingBuilder X) : Prop where
  context : ∃ rest, b.context = .simple tdContext11 :: rest
  contextMaps : ∀ m, Context.map m ∈ b.context → HMap.Sorted m
  titles : LangRep b.titles
  descriptions : LangRep b.descriptions
  security : ∀ n s, (n, s) ∈ b.securityDefinitions → LangRep s.descriptions
  info : ∀ i, b.AffordanceInfo i → LangRep i.titles ∧ LangRep i.descriptions
  uriVariables : ∀ m, b.uriVariables = some m → HMap.Sorted m
  propertyUriVariables : ∀ n p, (n, p) ∈ b.properties → HMap.Sorted p.interaction.uriVariables
  actionUriVariables : ∀ n a, (n, a) ∈ b.actions → HMap.Sorted a.interaction.part.uriVariables
  eventUriVariables : ∀ n e, (n, e) ∈ b.events → HMap.Sorted e.interaction.part.uriVariables
  schemaDefinitions : HMap.Sorted b.schemaDefinitions
  schemas : ∀ s, b.AnySchema s → SchemaRep s

end Wot

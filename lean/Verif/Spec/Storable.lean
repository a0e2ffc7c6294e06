import Verif.Spec.Document
import Verif.Spec.Stored
import Verif.Spec.CustomScheme
/-
Which Things survive being written to JSON and read back. The conditions are on the data only; they
do not mention the functions that read or write.
-/
namespace Wot

/-! ### Member names -/

namespace Names

/-- The members of a security definition besides those of its scheme. -/
def security : List String := ["@type", "description", "descriptions", "proxy"]

/-- The members every data schema can have. -/
def schemaHead : List String :=
  ["@type", "title", "titles", "description", "descriptions", "const", "default", "unit", "oneOf",
   "enum", "readOnly", "writeOnly", "format"]

/-- The members that depend on the type of a data schema. -/
def schemaType : List String :=
  ["type", "items", "min_items", "max_items", "properties", "required", "maximum",
   "exclusiveMaximum", "minimum", "exclusiveMinimum", "multipleOf", "minLength", "maxLength",
   "pattern", "contentEncoding", "contentMediaType"]

/-- The members of a data schema. -/
def schema : List String := schemaHead ++ schemaType

/-- The members of all affordances. -/
def interaction : List String :=
  ["@type", "title", "titles", "description", "descriptions", "forms", "uriVariables"]

/-- The members specific to actions. -/
def action : List String := ["input", "output", "safe", "idempotent", "synchronous"]

/-- The members specific to events. -/
def event : List String := ["subscription", "data", "data_response", "cancellation"]

/-- The members of a form. -/
def form : List String :=
  ["op", "href", "contentType", "contentCoding", "subprotocol", "security", "scopes", "response",
   "additionalResponses"]

/-- The members of a Thing. -/
def thing : List String :=
  ["@context", "id", "@type", "title", "titles", "description", "descriptions", "version", "created",
   "modified", "support", "base", "properties", "actions", "events", "links", "forms", "security",
   "securityDefinitions", "uriVariables", "profile", "schemaDefinitions"]

end Names

/-- No name is in both lists. -/
def Apart (a b : List String) : Prop := ∀ k ∈ a, k ∉ b

/-- The extensions of data schemas use names of their own. -/
structure SchemaApart (ds as os : List String) : Prop where
  schema : Apart ds Names.schema
  array : Apart as (Names.schema ++ ds)
  object : Apart os (Names.schema ++ ds)

/-- The extensions use names of their own, wherever they end up in the same JSON object. -/
structure ExtCodecs.Separate {X : ExtTypes} (C : ExtCodecs X) : Prop where
  thing : Apart C.thing.keys Names.thing
  form : Apart C.form.keys Names.form
  response : Apart C.response.keys ["contentType"]
  schemas : SchemaApart C.dataSchema.keys C.arraySchema.keys C.objectSchema.keys
  interaction : Apart C.interaction.keys Names.interaction
  action : Apart C.action.keys (Names.interaction ++ C.interaction.keys ++ Names.action)
  interactionAction : Apart C.interaction.keys Names.action
  event : Apart C.event.keys (Names.interaction ++ C.interaction.keys ++ Names.event)
  interactionEvent : Apart C.interaction.keys Names.event
  /-- in a property, the members of a data schema and its extensions meet those of an affordance -/
  property : Apart C.property.keys ("observable" :: Names.interaction ++ C.interaction.keys ++
    Names.schema ++ C.dataSchema.keys ++ C.arraySchema.keys ++ C.objectSchema.keys)
  interactionProperty : Apart C.interaction.keys ("observable" :: Names.schema ++
    C.dataSchema.keys ++ C.arraySchema.keys ++ C.objectSchema.keys)
  dataSchemaProperty : Apart C.dataSchema.keys ("observable" :: Names.interaction)
  arraySchemaProperty : Apart C.arraySchema.keys ("observable" :: Names.interaction)
  objectSchemaProperty : Apart C.objectSchema.keys ("observable" :: Names.interaction)

/-! ### Values -/

variable {X : ExtTypes}

/-- Translations: a map whose tags can be read. -/
def MultiLanguage.Kept (env : SerdeEnv) (m : MultiLanguage) : Prop :=
  m.map.Sorted ∧ ∀ k ∈ m.map.keys, env.langRead k = some k

/-- Optional translations. -/
def LangKept (env : SerdeEnv) (o : Option MultiLanguage) : Prop :=
  ∀ m, o = some m → m.Kept env

/-- A security scheme that is not a custom one which looks like a predefined one, and whose custom data,
if any, is an object that uses no reserved name. -/
def SchemeSubtype.Kept : SchemeSubtype → Prop
  | .known _ => True
  | .unknown scheme data => ¬ LooksPredefined scheme data.ownMembers ∧ data.IsValue ∧
      (data = .null ∨ ∃ m, data = .obj m ∧ ∀ kv ∈ m, kv.1 ∉ "scheme" :: Names.security)

/-- The conditions on a security definition. -/
structure SecurityScheme.Kept (env : SerdeEnv) (s : SecurityScheme) : Prop where
  descriptions : LangKept env s.descriptions
  subtype : s.subtype.Kept

section Schema
variable {DSx AS OS : Type}

/-- The conditions on the values in one schema, not looking at those nested in it: JSON values have no
repeated members, extensions survive. -/
structure SchemaValuesKept {L : Type} (C : ExtCodec DSx) (CA : ExtCodec AS) (CO : ExtCodec OS)
    (x : Schema L DSx AS OS) : Prop where
  constant : ∀ v, x.head.constant = some v → v.IsValue
  default : ∀ v, x.head.default = some v → v.IsValue
  enumeration : ∀ l, x.head.enumeration = some l → ∀ v ∈ l, v.IsValue
  other : C.Reads x.head.other
  otherArray : ∀ a, x.subtype = some (.array a) → CA.Reads a.other
  otherObject : ∀ o, x.subtype = some (.object o) → CO.Reads o.other

/-- The conditions on one schema: those on its values, its language tags can be read, and the nested
schemas are in a map. -/
structure SchemaNodeKept (env : SerdeEnv) (C : ExtCodec DSx) (CA : ExtCodec AS) (CO : ExtCodec OS)
    (x : DataSchema DSx AS OS) : Prop extends SchemaValuesKept C CA CO x where
  titles : LangKept env x.head.titles
  descriptions : LangKept env x.head.descriptions
  properties : ∀ o m, x.subtype = some (.object o) → o.properties = some m → HMap.Sorted m

/-- The conditions on a data schema. -/
def SchemaKept (env : SerdeEnv) (C : ExtCodec DSx) (CA : ExtCodec AS) (CO : ExtCodec OS)
    (s : DataSchema DSx AS OS) : Prop :=
  ∀ x, Within x s → SchemaNodeKept env C CA CO x

end Schema

variable (env : SerdeEnv) (C : ExtCodecs X)

/-- The conditions on a data schema of a Thing. -/
def DSKept (s : DS X) : Prop :=
  SchemaKept env C.dataSchema C.arraySchema C.objectSchema s

/-- The conditions on a map of data schemas. -/
def SchemasKept (o : Option (HMap (DS X))) : Prop :=
  ∀ m, o = some m → m.Sorted ∧ ∀ kv ∈ m, DSKept env C kv.2

/-- A form whose extensions survive. -/
structure FormKept (f : Form X) : Prop where
  response : ∀ r, f.response = some r → C.response.Reads r.other
  other : C.form.Reads f.other

/-- A link whose language tags can be read. -/
def LinkKept (l : Link) : Prop :=
  ∀ tags, l.hreflang = some tags → ∀ t ∈ tags, env.langRead t = some t

/-- The conditions on an interaction affordance. -/
structure InteractionKept (i : Interaction X) : Prop where
  titles : LangKept env i.titles
  descriptions : LangKept env i.descriptions
  forms : ∀ f ∈ i.forms, FormKept C f
  uriVariables : SchemasKept env C i.uriVariables
  other : C.interaction.Reads i.other

/-- The conditions on a property. -/
structure PropertyKept (p : PropertyAffordance X) : Prop where
  interaction : InteractionKept env C p.interaction
  dataSchema : DSKept env C p.dataSchema
  other : C.property.Reads p.other

/-- The conditions on an action. -/
structure ActionKept (a : ActionAffordance X) : Prop where
  interaction : InteractionKept env C a.interaction
  input : ∀ s, a.input = some s → DSKept env C s
  output : ∀ s, a.output = some s → DSKept env C s
  other : C.action.Reads a.other

/-- The conditions on an event. -/
structure EventKept (e : EventAffordance X) : Prop where
  interaction : InteractionKept env C e.interaction
  subscription : ∀ s, e.subscription = some s → DSKept env C s
  data : ∀ s, e.data = some s → DSKept env C s
  dataResponse : ∀ s, e.dataResponse = some s → DSKept env C s
  cancellation : ∀ s, e.cancellation = some s → DSKept env C s
  other : C.event.Reads e.other

/-- An instant is read back from the text it is written as. -/
def TimeKept (o : Option OffsetDateTime) : Prop :=
  ∀ d s, o = some d → env.timeFormat d = some s → env.timeParse s = some d

/-- The conditions on a Thing: maps are maps, language tags and instants can be read back, JSON values have
no repeated members, custom security schemes use no predefined names, extensions survive. -/
structure Kept (t : Thing X) : Prop where
  context : t.context.IsValue
  titles : LangKept env t.titles
  descriptions : LangKept env t.descriptions
  created : TimeKept env t.created
  modified : TimeKept env t.modified
  properties : ∀ m, t.properties = some m → m.Sorted ∧ ∀ kv ∈ m, PropertyKept env C kv.2
  actions : ∀ m, t.actions = some m → m.Sorted ∧ ∀ kv ∈ m, ActionKept env C kv.2
  events : ∀ m, t.events = some m → m.Sorted ∧ ∀ kv ∈ m, EventKept env C kv.2
  links : ∀ l, t.links = some l → ∀ k ∈ l, LinkKept env k
  forms : ∀ l, t.forms = some l → ∀ f ∈ l, FormKept C f
  securityDefinitions : t.securityDefinitions.Sorted
  security : ∀ kv ∈ t.securityDefinitions, kv.2.Kept env
  uriVariables : SchemasKept env C t.uriVariables
  schemaDefinitions : SchemasKept env C t.schemaDefinitions
  other : C.thing.Reads t.other

/-- A Thing that meets these conditions and of which nothing is lost. -/
structure Storable (t : Thing X) : Prop where
  kept : Kept env C t
  lossless : t.Lossless

/-! ### Things from a builder -/

/-- The parser of language tags accepts the tags it returns, and leaves them as they are. -/
def SerdeEnv.TagsStable : Prop := ∀ k tag, env.langParse k = some tag → env.langRead tag = some tag

/-- The conditions on the values a user has handed to a builder, as found in the Thing: those on the
JSON values in schemas, on custom security schemes, on instants and on extensions. -/
structure ValuesKept (t : Thing X) : Prop where
  created : TimeKept env t.created
  modified : TimeKept env t.modified
  schemas : ∀ p s x, t.HasSchema p s → Within x s →
    SchemaValuesKept C.dataSchema C.arraySchema C.objectSchema x
  security : ∀ kv ∈ t.securityDefinitions, kv.2.subtype.Kept
  forms : ∀ ctx f, t.HasForm ctx f →
    C.form.Reads f.other ∧ ∀ r, f.response = some r → C.response.Reads r.other
  interactions : ∀ i, t.HasInteraction i → C.interaction.Reads i.other
  properties : ∀ m, t.properties = some m → ∀ kv ∈ m, C.property.Reads kv.2.other
  actions : ∀ m, t.actions = some m → ∀ kv ∈ m, C.action.Reads kv.2.other
  events : ∀ m, t.events = some m → ∀ kv ∈ m, C.event.Reads kv.2.other
  other : C.thing.Reads t.other

/-- None of these values is lost: there are no `null` values in schemas, no infinite numbers or NaN, and
no custom security schemes without data. -/
structure ValuesLossless (t : Thing X) : Prop where
  schemas : ∀ p s x, t.HasSchema p s → Within x s → SchemaLossless x
  security : ∀ kv ∈ t.securityDefinitions, ∀ scheme, kv.2.subtype ≠ .unknown scheme .null

/-! ### Things that can be written -/

/-- Everything in the Thing that may not be expressible in JSON is: instants have an RFC 3339 form,
custom security schemes carry an object or `null`, extensions can be written. -/
structure Writable (t : Thing X) : Prop where
  created : ∀ d, t.created = some d → ∃ s, env.timeFormat d = some s
  modified : ∀ d, t.modified = some d → ∃ s, env.timeFormat d = some s
  security : ∀ n s scheme data, (n, s) ∈ t.securityDefinitions → s.subtype = .unknown scheme data →
    data = .null ∨ ∃ m, data = .obj m
  schemas : ∀ p s x, t.HasSchema p s → Within x s →
    (∃ m, C.dataSchema.ser x.head.other = some m) ∧
    (∀ a, x.subtype = some (.array a) → ∃ m, C.arraySchema.ser a.other = some m) ∧
    (∀ o, x.subtype = some (.object o) → ∃ m, C.objectSchema.ser o.other = some m)
  forms : ∀ ctx f, t.HasForm ctx f → (∃ m, C.form.ser f.other = some m) ∧
    ∀ r, f.response = some r → ∃ m, C.response.ser r.other = some m
  interactions : ∀ i, t.HasInteraction i → ∃ m, C.interaction.ser i.other = some m
  properties : ∀ m, t.properties = some m → ∀ kv ∈ m, ∃ m, C.property.ser kv.2.other = some m
  actions : ∀ m, t.actions = some m → ∀ kv ∈ m, ∃ m, C.action.ser kv.2.other = some m
  events : ∀ m, t.events = some m → ∀ kv ∈ m, ∃ m, C.event.ser kv.2.other = some m
  other : ∃ m, C.thing.ser t.other = some m

/-! ### JSON text -/

/-- The extensions write no member twice. -/
structure ExtCodecs.WriteOnce {X : ExtTypes} (C : ExtCodecs X) : Prop where
  thing : ∀ a m, C.thing.ser a = some m → (Json.obj m).NoDup
  interaction : ∀ a m, C.interaction.ser a = some m → (Json.obj m).NoDup
  property : ∀ a m, C.property.ser a = some m → (Json.obj m).NoDup
  action : ∀ a m, C.action.ser a = some m → (Json.obj m).NoDup
  event : ∀ a m, C.event.ser a = some m → (Json.obj m).NoDup
  form : ∀ a m, C.form.ser a = some m → (Json.obj m).NoDup
  response : ∀ a m, C.response.ser a = some m → (Json.obj m).NoDup
  dataSchema : ∀ a m, C.dataSchema.ser a = some m → (Json.obj m).NoDup
  objectSchema : ∀ a m, C.objectSchema.ser a = some m → (Json.obj m).NoDup
  arraySchema : ∀ a m, C.arraySchema.ser a = some m → (Json.obj m).NoDup

/-- The interaction part of a property carries no human readable information. -/
def PropertyAffordance.NoInfo (p : PropertyAffordance X) : Prop :=
  p.interaction.attype = none ∧ p.interaction.title = none ∧ p.interaction.titles = none ∧
  p.interaction.description = none ∧ p.interaction.descriptions = none

/-- Some human readable information is found both in the interaction part of a property and in its
data schema. -/
def PropertyAffordance.RepeatsInfo (p : PropertyAffordance X) : Prop :=
  (p.interaction.attype.isSome ∧ p.dataSchema.head.attype.isSome) ∨
  (p.interaction.title.isSome ∧ p.dataSchema.head.title.isSome) ∨
  (p.interaction.titles.isSome ∧ p.dataSchema.head.titles.isSome) ∨
  (p.interaction.description.isSome ∧ p.dataSchema.head.description.isSome) ∨
  (p.interaction.descriptions.isSome ∧ p.dataSchema.head.descriptions.isSome)

end Wot

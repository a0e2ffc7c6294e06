import Verif.Spec.Schema
import Verif.Spec.Thing
/-
What is left of a Thing after it has been written to JSON and read back. The functions are on the data
only; they do not mention how Things are written or read.
-/
namespace Wot

variable {X : ExtTypes} {L DSx AS OS : Type}

/-- A `null` value is the same as none. -/
def dropNull : Option Json → Option Json
  | some .null => none
  | o => o

/-- Infinite numbers and NaN are lost. -/
def NumberSchema.stored (n : NumberSchema) : NumberSchema where
  maximum := n.maximum.filter (·.bound.isFinite)
  minimum := n.minimum.filter (·.bound.isFinite)
  multipleOf := n.multipleOf.filter (·.isFinite)

/-- The same for the type of a data schema. -/
def SubtypeF.stored {S : Type} : SubtypeF AS OS S → SubtypeF AS OS S
  | .number n => .number n.stored
  | s => s

/-- A data schema without the `null` values of `const` and `default`, and without infinite numbers and
NaN, at any depth. -/
def Schema.stored : Schema L DSx AS OS → Schema L DSx AS OS :=
  Schema.fold fun h o s =>
    .mk { h with constant := dropNull h.constant, default := dropNull h.default } o
      (s.map SubtypeF.stored)

/-- An empty list of operations becomes the default. -/
def FormOps.stored : FormOps → FormOps
  | .custom [] => .default
  | o => o

/-- The same for forms. -/
def Form.stored (f : Form X) : Form X := { f with op := f.op.stored }

/-- The same for the common part of affordances. -/
def Interaction.stored (i : Interaction X) : Interaction X :=
  { i with
    forms := i.forms.map Form.stored
    uriVariables := i.uriVariables.map (HMap.mapVals Schema.stored) }

/-- Human readable information. -/
structure Info where
  attype : Option (List String)
  title : Option String
  titles : Option MultiLanguage
  description : Option String
  descriptions : Option MultiLanguage

/-- The human readable information of a property: that of its data schema takes precedence over that of
its interaction part. -/
def PropertyAffordance.info (p : PropertyAffordance X) : Info where
  attype := p.dataSchema.head.attype.or p.interaction.attype
  title := p.dataSchema.head.title.or p.interaction.title
  titles := p.dataSchema.head.titles.or p.interaction.titles
  description := p.dataSchema.head.description.or p.interaction.description
  descriptions := p.dataSchema.head.descriptions.or p.interaction.descriptions

/-- Replace the human readable information of an affordance. -/
def Interaction.withInfo (i : Interaction X) (n : Info) : Interaction X :=
  { i with attype := n.attype, title := n.title, titles := n.titles, description := n.description,
           descriptions := n.descriptions }

/-- Replace the human readable information of a data schema. -/
def Schema.withInfo (s : DataSchema DSx AS OS) (n : Info) : DataSchema DSx AS OS :=
  .mk { s.head with attype := n.attype, title := n.title, titles := n.titles,
                    description := n.description, descriptions := n.descriptions } s.oneOf s.subtype

/-- Both parts of a property get the same human readable information. -/
def PropertyAffordance.merged (p : PropertyAffordance X) : PropertyAffordance X :=
  { p with interaction := p.interaction.withInfo p.info, dataSchema := p.dataSchema.withInfo p.info }

/-- The same for properties. -/
def PropertyAffordance.stored (p : PropertyAffordance X) : PropertyAffordance X :=
  { p.merged with
    interaction := p.merged.interaction.stored
    dataSchema := p.merged.dataSchema.stored }

/-- The same for actions. -/
def ActionAffordance.stored (a : ActionAffordance X) : ActionAffordance X :=
  { a with
    interaction := a.interaction.stored
    input := a.input.map Schema.stored
    output := a.output.map Schema.stored }

/-- The same for events. -/
def EventAffordance.stored (e : EventAffordance X) : EventAffordance X :=
  { e with
    interaction := e.interaction.stored
    subscription := e.subscription.map Schema.stored
    data := e.data.map Schema.stored
    dataResponse := e.dataResponse.map Schema.stored
    cancellation := e.cancellation.map Schema.stored }

/-- A custom security scheme without data gets an empty object. -/
def SchemeSubtype.stored : SchemeSubtype → SchemeSubtype
  | .unknown scheme .null => .unknown scheme (.obj [])
  | s => s

/-- The same for security definitions. -/
def SecurityScheme.stored (s : SecurityScheme) : SecurityScheme := { s with subtype := s.subtype.stored }

/-- What is left of a Thing. -/
def Thing.stored (t : Thing X) : Thing X :=
  { t with
    properties := t.properties.map (HMap.mapVals PropertyAffordance.stored)
    actions := t.actions.map (HMap.mapVals ActionAffordance.stored)
    events := t.events.map (HMap.mapVals EventAffordance.stored)
    forms := t.forms.map (List.map Form.stored)
    securityDefinitions := HMap.mapVals SecurityScheme.stored t.securityDefinitions
    uriVariables := t.uriVariables.map (HMap.mapVals Schema.stored)
    schemaDefinitions := t.schemaDefinitions.map (HMap.mapVals Schema.stored) }

/-! ### When nothing is lost -/

/-- Nothing of a schema is lost, not looking at those nested in it. -/
structure SchemaLossless (x : Schema L DSx AS OS) : Prop where
  constant : x.head.constant ≠ some .null
  default : x.head.default ≠ some .null
  maximum : ∀ n b, x.subtype = some (.number n) → n.maximum = some b → b.bound.isFinite = true
  minimum : ∀ n b, x.subtype = some (.number n) → n.minimum = some b → b.bound.isFinite = true
  multipleOf : ∀ n f, x.subtype = some (.number n) → n.multipleOf = some f → f.isFinite = true

/-- The human readable information of a property and that of its data schema agree. -/
structure PropertyAffordance.Agrees (p : PropertyAffordance X) : Prop where
  attype : p.interaction.attype = p.dataSchema.head.attype
  title : p.interaction.title = p.dataSchema.head.title
  titles : p.interaction.titles = p.dataSchema.head.titles
  description : p.interaction.description = p.dataSchema.head.description
  descriptions : p.interaction.descriptions = p.dataSchema.head.descriptions

/-- Nothing of a Thing is lost: there are no `null` values in schemas, no infinite numbers or NaN, no
explicitly empty lists of operations, no custom security schemes without data, and the two parts of a
property agree. -/
structure Thing.Lossless (t : Thing X) : Prop where
  schemas : ∀ p s x, t.HasSchema p s → Within x s → SchemaLossless x
  forms : ∀ ctx f, t.HasForm ctx f → f.op ≠ .custom []
  properties : ∀ m, t.properties = some m → ∀ kv ∈ m, kv.2.Agrees
  security : ∀ kv ∈ t.securityDefinitions, ∀ scheme, kv.2.subtype ≠ .unknown scheme .null

end Wot

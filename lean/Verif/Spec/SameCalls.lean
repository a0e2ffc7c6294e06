import Verif.Spec.Valid
import Verif.Spec.Readers
/-
The same calls, with the extension values of another program.
-/
namespace Wot

variable {X Y : ExtTypes}

/-- A data schema given to a builder. -/
def UDS.withExt (f : ExtMap X Y) : UDS X → UDS Y :=
  Schema.withExt f.dataSchema f.arraySchema f.objectSchema

/-- A form given to a builder. -/
def FormBuilder.withExt (f : ExtMap X Y) (x : FormBuilder X) : FormBuilder Y where
  op := x.op
  href := x.href
  contentType := x.contentType
  contentCoding := x.contentCoding
  subprotocol := x.subprotocol
  security := x.security
  scopes := x.scopes
  response := x.response.map (ExpectedResponse.withExt f.response)
  additionalResponses := x.additionalResponses
  other := f.form x.other

/-- The forms and URI variables given to an affordance. -/
def interactionWithExt (f : ExtMap X Y) (i : PartialInteraction X X.interaction) : PartialInteraction Y Y.interaction where
  forms := i.forms.map (FormBuilder.withExt f)
  uriVariables := HMap.mapVals (UDS.withExt f) i.uriVariables
  other := f.interaction i.other

/-- The data schema given to a property. -/
def propertySchemaWithExt (f : ExtMap X Y) (s : PartialDataSchema X.dataSchema X.arraySchema X.objectSchema) :
    PartialDataSchema Y.dataSchema Y.arraySchema Y.objectSchema where
  constant := s.constant
  default := s.default
  unit := s.unit
  oneOf := s.oneOf.map (List.map (UDS.withExt f))
  enumeration := s.enumeration
  readOnly := s.readOnly
  writeOnly := s.writeOnly
  format := s.format
  subtype := s.subtype.map fun st => (st.map (UDS.withExt f)).withExt f.arraySchema f.objectSchema
  other := f.dataSchema s.other

/-- A property given to a builder. -/
def PropertyBuilder.withExt (f : ExtMap X Y) (p : PropertyBuilder X) : PropertyBuilder Y where
  interaction := interactionWithExt f p.interaction
  info := p.info
  dataSchema := propertySchemaWithExt f p.dataSchema
  observable := p.observable
  other := f.property p.other

/-- An action given to a builder. -/
def ActionBuilder.withExt (f : ExtMap X Y) (a : ActionBuilder X) : ActionBuilder Y where
  interaction := ⟨interactionWithExt f a.interaction.part, a.interaction.info⟩
  input := a.input.map (UDS.withExt f)
  output := a.output.map (UDS.withExt f)
  safe := a.safe
  idempotent := a.idempotent
  synchronous := a.synchronous
  other := f.action a.other

/-- An event given to a builder. -/
def EventBuilder.withExt (f : ExtMap X Y) (a : EventBuilder X) : EventBuilder Y where
  interaction := ⟨interactionWithExt f a.interaction.part, a.interaction.info⟩
  subscription := a.subscription.map (UDS.withExt f)
  data := a.data.map (UDS.withExt f)
  cancellation := a.cancellation.map (UDS.withExt f)
  dataResponse := a.dataResponse.map (UDS.withExt f)
  other := f.event a.other

/-- A call of the other program. An assignment to the extension value of the Thing has none. -/
def ThingOp.withExt (f : ExtMap X Y) : ThingOp X → Option (ThingOp Y)
  | .common op => some (.common op)
  | .form x => some (.form (FormBuilder.withExt f x))
  | .uriVariable n s => some (.uriVariable n (UDS.withExt f s))
  | .property n p => some (.property n (PropertyBuilder.withExt f p))
  | .action n a => some (.action n (ActionBuilder.withExt f a))
  | .event n v => some (.event n (EventBuilder.withExt f v))
  | .schemaDefinition n s => some (.schemaDefinition n (UDS.withExt f s))
  | .setOther _ => none

namespace History

/-- The calls of the other program. -/
def withExt (f : ExtMap X Y) (h : List (ThingOp X)) : List (ThingOp Y) := h.filterMap (ThingOp.withExt f)

/-- The calls without extension values. -/
def plain (h : List (ThingOp X)) : List (ThingOp .nil) := withExt .plain h

end History
end Wot

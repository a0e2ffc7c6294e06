import Verif.Spec.FloatText
import Verif.Spec.Thing
import Verif.Model.JsonText
/-
A Thing after a function on its floats, wherever they stand.
-/
namespace Wot

/-- The float that is read from the text of a float. (Floats that are not finite have no text.) -/
def FloatText.again (fl : FloatText) (x : F64) : F64 := if x.isFinite then (fl.read (fl.write x)).getD x else x

variable {X : ExtTypes} {L DSx AS OS : Type}

/-- A bound after a function. -/
def Maximum.map {T : Type} (g : T → T) : Maximum T → Maximum T
  | .inclusive a => .inclusive (g a)
  | .exclusive a => .exclusive (g a)

/-- The same for minima. -/
def Minimum.map {T : Type} (g : T → T) : Minimum T → Minimum T
  | .inclusive a => .inclusive (g a)
  | .exclusive a => .exclusive (g a)

/-- The bounds and the `multipleOf` of a number schema. -/
def NumberSchema.mapFloats (g : F64 → F64) (n : NumberSchema) : NumberSchema where
  maximum := n.maximum.map (Maximum.map g)
  minimum := n.minimum.map (Minimum.map g)
  multipleOf := n.multipleOf.map g

/-- The other types of schemas have no floats of their own. -/
def SubtypeF.mapFloats {S : Type} (g : F64 → F64) : SubtypeF AS OS S → SubtypeF AS OS S
  | .number n => .number (n.mapFloats g)
  | s => s

/-- The values in a schema: `const`, `default` and `enum`. -/
def SchemaHead.mapFloats (g : F64 → F64) (h : SchemaHead L DSx) : SchemaHead L DSx :=
  { h with constant := h.constant.map (Json.mapFloats g), default := h.default.map (Json.mapFloats g)
           enumeration := h.enumeration.map (List.map (Json.mapFloats g)) }

/-- A data schema and all those nested in it. -/
def Schema.mapFloats (g : F64 → F64) : Schema L DSx AS OS → Schema L DSx AS OS :=
  Schema.fold fun h o s => .mk (h.mapFloats g) o (s.map (SubtypeF.mapFloats g))

/-- The schemas of the `uriVariables` of an affordance. -/
def Interaction.mapFloats (g : F64 → F64) (i : Interaction X) : Interaction X :=
  { i with uriVariables := i.uriVariables.map (HMap.mapVals (Schema.mapFloats g)) }

/-- The schemas of a property. -/
def PropertyAffordance.mapFloats (g : F64 → F64) (p : PropertyAffordance X) : PropertyAffordance X :=
  { p with interaction := p.interaction.mapFloats g, dataSchema := p.dataSchema.mapFloats g }

/-- The schemas of an action. -/
def ActionAffordance.mapFloats (g : F64 → F64) (a : ActionAffordance X) : ActionAffordance X :=
  { a with interaction := a.interaction.mapFloats g
           input := a.input.map (Schema.mapFloats g)
           output := a.output.map (Schema.mapFloats g) }

/-- The schemas of an event. -/
def EventAffordance.mapFloats (g : F64 → F64) (e : EventAffordance X) : EventAffordance X :=
  { e with interaction := e.interaction.mapFloats g
           subscription := e.subscription.map (Schema.mapFloats g)
           data := e.data.map (Schema.mapFloats g)
           dataResponse := e.dataResponse.map (Schema.mapFloats g)
           cancellation := e.cancellation.map (Schema.mapFloats g) }

/-- The data of a custom security scheme. -/
def SchemeSubtype.mapFloats (g : F64 → F64) : SchemeSubtype → SchemeSubtype
  | .unknown scheme data => .unknown scheme (data.mapFloats g)
  | s => s

/-- The same for security definitions. -/
def SecurityScheme.mapFloats (g : F64 → F64) (s : SecurityScheme) : SecurityScheme :=
  { s with subtype := s.subtype.mapFloats g }

/-- A Thing after a function on its floats: those of its schemas, its custom security schemes and its context. Everything else,
the extensions included, is as it was. -/
def Thing.mapFloats (g : F64 → F64) (t : Thing X) : Thing X :=
  { t with
    context := t.context.mapFloats g
    properties := t.properties.map (HMap.mapVals (PropertyAffordance.mapFloats g))
    actions := t.actions.map (HMap.mapVals (ActionAffordance.mapFloats g))
    events := t.events.map (HMap.mapVals (EventAffordance.mapFloats g))
    securityDefinitions := HMap.mapVals (SecurityScheme.mapFloats g) t.securityDefinitions
    uriVariables := t.uriVariables.map (HMap.mapVals (Schema.mapFloats g))
    schemaDefinitions := t.schemaDefinitions.map (HMap.mapVals (Schema.mapFloats g)) }

/-- The Thing has been written, compact or with line breaks, and read from that, so many times. -/
inductive Reloads (C : ExtCodecs X) (env : SerdeEnv) (fl : FloatText) : Nat → Thing X → Thing X → Prop
  | never {t : Thing X} : Reloads C env fl 0 t t
  | again {n : Nat} {t u v : Thing X} {text : String} : Reloads C env fl n t u →
      (u.toString C env fl = some text ∨ u.toStringPretty C env fl = some text) → Thing.fromString C env fl text = some v →
      Reloads C env fl (n + 1) t v

end Wot

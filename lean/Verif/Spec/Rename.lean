import Verif.Spec.Valid
/-
Other names for affordances, security definitions and schema definitions, in calls, Things and errors.
-/
namespace Wot

variable {X : ExtTypes}

/-- A new name for each name. -/
structure Renaming where
  affordance : AffordanceType → String → String
  security : String → String
  schema : String → String

/-- Different names stay different. -/
structure Renaming.Faithful (r : Renaming) : Prop where
  affordance : ∀ ty m n, r.affordance ty m = r.affordance ty n → m = n
  security : ∀ m n, r.security m = r.security n → m = n
  schema : ∀ m n, r.schema m = r.schema n → m = n

/-- The new names are not among those of the Thing. -/
structure Renaming.Fresh (r : Renaming) (t : Thing X) : Prop where
  affordance : ∀ ty n, r.affordance ty n ∉ t.affordanceNames ty
  security : ∀ n, ¬ t.Defines (r.security n)
  schema : ∀ n, ¬ t.Declares (r.schema n)

namespace Renaming
variable (r : Renaming)

/-! ### Parts -/

/-- An additional response names a schema definition. -/
def response (a : AdditionalResponse) : AdditionalResponse := { a with schema := a.schema.map r.schema }

/-- A combination of security schemes names these. -/
def subtype : SchemeSubtype → SchemeSubtype
  | .known (.combo (.oneOf l)) => .known (.combo (.oneOf (l.map r.security)))
  | .known (.combo (.allOf l)) => .known (.combo (.allOf (l.map r.security)))
  | s => s

/-- The entries of a map, under their new names. -/
def keys {V : Type} (f : String → String) (m : HMap V) : HMap V := HMap.collect (m.map fun kv => (f kv.1, kv.2))

/-! ### Calls -/

/-- A form names security definitions and, in its additional responses, schema definitions. -/
def formCall (x : FormBuilder X) : FormBuilder X :=
  { x with security := x.security.map (List.map r.security), additionalResponses := x.additionalResponses.map r.response }

/-- The forms of an affordance. -/
def interactionCall (i : PartialInteraction X X.interaction) : PartialInteraction X X.interaction :=
  { i with forms := i.forms.map r.formCall }

/-- The forms of a property. -/
def propertyCall (p : PropertyBuilder X) : PropertyBuilder X := { p with interaction := r.interactionCall p.interaction }

/-- The forms of an action. -/
def actionCall (a : ActionBuilder X) : ActionBuilder X :=
  { a with interaction := { a.interaction with part := r.interactionCall a.interaction.part } }

/-- The forms of an event. -/
def eventCall (a : EventBuilder X) : EventBuilder X :=
  { a with interaction := { a.interaction with part := r.interactionCall a.interaction.part } }

/-- A security scheme is given the new name of the one it would be registered under. -/
def securityCall (s : SecuritySchemeBuilder SchemeSubtype) : SecuritySchemeBuilder SchemeSubtype :=
  { s with name := some (r.security (securityName s)), subtype := r.subtype s.subtype }

/-- A call with the new names. -/
def call : ThingOp X → ThingOp X
  | .common (.security s) => .common (.security (r.securityCall s))
  | .form x => .form (r.formCall x)
  | .property n p => .property (r.affordance .property n) (r.propertyCall p)
  | .action n a => .action (r.affordance .action n) (r.actionCall a)
  | .event n v => .event (r.affordance .event n) (r.eventCall v)
  | .schemaDefinition n s => .schemaDefinition (r.schema n) s
  | op => op

/-- The calls with the new names. -/
def calls (h : List (ThingOp X)) : List (ThingOp X) := h.map r.call

/-! ### Things -/

/-- The names in a form. -/
def form (x : Form X) : Form X :=
  { x with security := x.security.map (List.map r.security),
           additionalResponses := x.additionalResponses.map (List.map r.response) }

/-- The names in the forms of an affordance. -/
def interaction (i : Interaction X) : Interaction X := { i with forms := i.forms.map r.form }

/-- A property. -/
def property (p : PropertyAffordance X) : PropertyAffordance X := { p with interaction := r.interaction p.interaction }

/-- An action. -/
def action (a : ActionAffordance X) : ActionAffordance X := { a with interaction := r.interaction a.interaction }

/-- An event. -/
def event (a : EventAffordance X) : EventAffordance X := { a with interaction := r.interaction a.interaction }

/-- A security scheme. -/
def scheme (s : SecurityScheme) : SecurityScheme := { s with subtype := r.subtype s.subtype }

/-- The Thing with the new names. -/
def thing (t : Thing X) : Thing X :=
  { t with
    properties := t.properties.map fun m => keys (r.affordance .property) (HMap.mapVals r.property m)
    actions := t.actions.map fun m => keys (r.affordance .action) (HMap.mapVals r.action m)
    events := t.events.map fun m => keys (r.affordance .event) (HMap.mapVals r.event m)
    forms := t.forms.map (List.map r.form)
    security := t.security.map r.security
    securityDefinitions := keys r.security (HMap.mapVals r.scheme t.securityDefinitions)
    schemaDefinitions := t.schemaDefinitions.map (keys r.schema) }

/-! ### Errors -/

/-- The error with the new name. An error that says that a schema definition is missing names a security definition if it is
about the members of a combination (C18, C42). -/
def error (p : Phase) : Error → Error
  | .duplicatedSecurityDefinition n => .duplicatedSecurityDefinition (r.security n)
  | .undefinedSecurity n => .undefinedSecurity (r.security n)
  | .duplicatedAffordance ty n => .duplicatedAffordance ty (r.affordance ty n)
  | .missingSchemaDefinition n =>
    match p with
    | .comboReferences => .missingSchemaDefinition (r.security n)
    | _ => .missingSchemaDefinition (r.schema n)
  | e => e

end Renaming
end Wot

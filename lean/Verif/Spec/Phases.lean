import Verif.Spec.Build
/-
What can be wrong with each part of what was supplied, and the order in which `build` looks at the
parts.
-/
namespace Wot

variable {X : ExtTypes} {L D A O : Type}

/-- What can be wrong with a Thing-level form. -/
def ThingFormViolation (Def Dec : String → Prop) (f : FormBuilder X) (e : Error) : Prop :=
  (∃ n, f.UsesSecurity n ∧ ¬ Def n ∧ e = .undefinedSecurity n) ∨
  (f.op = .default ∧ e = .missingOpInForm) ∨
  (∃ o, f.HasOp o ∧ o ∉ operationsOf .thing ∧ e = .invalidOpInForm .thing o) ∨
  (∃ n, f.UsesSchema n ∧ ¬ Dec n ∧ e = .missingSchemaDefinition n)

/-- What can be wrong with a form of an affordance. -/
def AffFormViolation (Def : String → Prop) (ty : AffordanceType) (f : FormBuilder X) (e : Error) :
    Prop :=
  (∃ o, f.HasOp o ∧ o ∉ operationsOf ty.toContext ∧ e = .invalidOpInForm ty.toContext o) ∨
  (∃ n, f.UsesSecurity n ∧ ¬ Def n ∧ e = .undefinedSecurity n)

/-- What can be wrong with one schema. -/
def SchemaViolation (x : Schema L D A O) (e : Error) : Prop :=
  (e = .invalidMinMax ∧ BadBounds x) ∨ (e = .nanMinMax ∧ NanBound x) ∨
  (e = .invalidMultipleOf ∧ BadMultipleOf x)

/-- A language key of the interaction part of an affordance. -/
def InteractionKey (i : HumanReadableInfo) (p : PartialInteraction X X.interaction) (k : String) :
    Prop :=
  KeyOf i.titles k ∨ KeyOf i.descriptions k ∨ ∃ kv ∈ p.uriVariables, SchemaKey kv.2 k

/-- The language keys of a property. -/
def PropertyKey (p : PropertyBuilder X) (k : String) : Prop :=
  SchemaKey p.schema k ∨ ∃ kv ∈ p.interaction.uriVariables, SchemaKey kv.2 k

/-- The language keys of an action. -/
def ActionKey (a : ActionBuilder X) (k : String) : Prop :=
  InteractionKey a.interaction.info a.interaction.part k ∨
  ∃ s, (a.input = some s ∨ a.output = some s) ∧ SchemaKey s k

/-- The language keys of an event. -/
def EventKey (a : EventBuilder X) (k : String) : Prop :=
  InteractionKey a.interaction.info a.interaction.part k ∨
  ∃ s, (a.subscription = some s ∨ a.data = some s ∨ a.cancellation = some s ∨
    a.dataResponse = some s) ∧ SchemaKey s k

/-- What can be wrong with a link. -/
def LinkViolation (env : Env) (l : UncheckedLink) (e : Error) : Prop :=
  (l.sizes ≠ none ∧ l.rel ≠ some "icon" ∧ e = .sizesWithRelNotIcon) ∨
  LangViolation env (· ∈ l.hreflang) e

namespace ThingBuilder

/-- What can be wrong with the interaction part of an affordance. -/
def IViolation (b : ThingBuilder X) (ty : AffordanceType) (i : PartialInteraction X X.interaction)
    (e : Error) : Prop :=
  (∃ f ∈ i.forms, AffFormViolation b.Defined ty f e) ∨
    ((∃ kv ∈ i.uriVariables, kv.2.ArrayOrObject) ∧ e = .invalidUriVariables)

/-- What can be wrong with the schemas of a list. -/
def SViolation (l : List (Option (UDS X))) (e : Error) : Prop :=
  ∃ s x, some s ∈ l ∧ Within x s ∧ SchemaViolation x e

/-- What can be wrong with the properties. -/
def PViolation (b : ThingBuilder X) (env : Env) (e : Error) : Prop :=
  (∃ kv ∈ b.properties, b.IViolation .property kv.2.interaction e ∨
    SViolation [some kv.2.schema] e ∨ LangViolation env (PropertyKey kv.2) e) ∨
  ∃ n, e = .duplicatedAffordance .property n ∧ Twice (b.properties.map (·.1)) n

/-- What can be wrong with the actions. -/
def AViolation (b : ThingBuilder X) (env : Env) (e : Error) : Prop :=
  (∃ kv ∈ b.actions, b.IViolation .action kv.2.interaction.part e ∨
    SViolation [kv.2.input, kv.2.output] e ∨ LangViolation env (ActionKey kv.2) e) ∨
  ∃ n, e = .duplicatedAffordance .action n ∧ Twice (b.actions.map (·.1)) n

/-- What can be wrong with the events. -/
def EViolation (b : ThingBuilder X) (env : Env) (e : Error) : Prop :=
  (∃ kv ∈ b.events, b.IViolation .event kv.2.interaction.part e ∨
    SViolation [kv.2.subscription, kv.2.data, kv.2.cancellation] e ∨
    LangViolation env (EventKey kv.2) e) ∨
  ∃ n, e = .duplicatedAffordance .event n ∧ Twice (b.events.map (·.1)) n

end ThingBuilder

/-- The phases of `build`. -/
inductive Phase
  | securityDefinitions | comboReferences | schemaDefinitions | thingForms | uriVariableTypes
  | uriVariableLanguages | properties | actions | events | links | titles | descriptions
  deriving DecidableEq

/-- The position of a phase in the order of the phases. -/
def Phase.index : Phase → Nat
  | .securityDefinitions => 0
  | .comboReferences => 1
  | .schemaDefinitions => 2
  | .thingForms => 3
  | .uriVariableTypes => 4
  | .uriVariableLanguages => 5
  | .properties => 6
  | .actions => 7
  | .events => 8
  | .links => 9
  | .titles => 10
  | .descriptions => 11

/-- The error `e` describes something that is wrong with the part of the input a phase looks at. -/
def ThingBuilder.Fault (env : Env) (b : ThingBuilder X) : Phase → Error → Prop
  | .securityDefinitions, e =>
    (∃ kv ∈ b.securityDefinitions, LangViolation env (KeyOf kv.2.descriptions) e) ∨
    ∃ n, e = .duplicatedSecurityDefinition n ∧ Twice (b.securityDefinitions.map (·.1)) n
  | .comboReferences, e => ∃ n, b.ComboReference n ∧ ¬ b.Defined n ∧ e = .missingSchemaDefinition n
  | .schemaDefinitions, e => ∃ kv ∈ b.schemaDefinitions, LangViolation env (SchemaKey kv.2) e
  | .thingForms, e => ∃ f, b.ThingForm f ∧ ThingFormViolation b.Defined b.Declared f e
  | .uriVariableTypes, e =>
    e = .invalidUriVariables ∧ ∃ m, b.uriVariables = some m ∧ ∃ kv ∈ m, kv.2.ArrayOrObject
  | .uriVariableLanguages, e =>
    ∃ m, b.uriVariables = some m ∧ ∃ kv ∈ m, LangViolation env (SchemaKey kv.2) e
  | .properties, e => b.PViolation env e
  | .actions, e => b.AViolation env e
  | .events, e => b.EViolation env e
  | .links, e => ∃ ls, b.links = some ls ∧ ∃ l ∈ ls, LinkViolation env l e
  | .titles, e => LangViolation env (KeyOf b.titles) e
  | .descriptions, e => LangViolation env (KeyOf b.descriptions) e

end Wot

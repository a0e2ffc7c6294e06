import Verif.Spec.History
/-
What a Thing contains, and what a call history contains, independently of how `build` works.
-/
namespace Wot

variable {X : ExtTypes}

/-- `f` is a form of the Thing, in the given context. -/
inductive Thing.HasForm (t : Thing X) : FormContext → Form X → Prop
  | thing {fs : List (Form X)} {f : Form X} : t.forms = some fs → f ∈ fs → t.HasForm .thing f
  | property {m : HMap (PropertyAffordance X)} {n : String} {p : PropertyAffordance X} {f : Form X} :
      t.properties = some m → (n, p) ∈ m → f ∈ p.interaction.forms → t.HasForm .property f
  | action {m : HMap (ActionAffordance X)} {n : String} {a : ActionAffordance X} {f : Form X} :
      t.actions = some m → (n, a) ∈ m → f ∈ a.interaction.forms → t.HasForm .action f
  | event {m : HMap (EventAffordance X)} {n : String} {e : EventAffordance X} {f : Form X} :
      t.events = some m → (n, e) ∈ m → f ∈ e.interaction.forms → t.HasForm .event f

/-- The places in a Thing where a data schema occurs. -/
inductive Position
  | property | input | output | subscription | data | cancellation
  | dataResponse | uriVariable | schemaDefinition
  deriving DecidableEq

/-- The positions whose schemas `build` checks. -/
def Position.Checked : Position → Prop
  | .property | .input | .output | .subscription | .data | .cancellation => True
  | .dataResponse | .uriVariable | .schemaDefinition => False

/-- `s` is a data schema of the Thing, in the given position. -/
inductive Thing.HasSchema (t : Thing X) : Position → DS X → Prop
  | property {m : HMap (PropertyAffordance X)} {n : String} {p : PropertyAffordance X} :
      t.properties = some m → (n, p) ∈ m → t.HasSchema .property p.dataSchema
  | input {m : HMap (ActionAffordance X)} {n : String} {a : ActionAffordance X} {s : DS X} :
      t.actions = some m → (n, a) ∈ m → a.input = some s → t.HasSchema .input s
  | output {m : HMap (ActionAffordance X)} {n : String} {a : ActionAffordance X} {s : DS X} :
      t.actions = some m → (n, a) ∈ m → a.output = some s → t.HasSchema .output s
  | subscription {m : HMap (EventAffordance X)} {n : String} {e : EventAffordance X} {s : DS X} :
      t.events = some m → (n, e) ∈ m → e.subscription = some s → t.HasSchema .subscription s
  | data {m : HMap (EventAffordance X)} {n : String} {e : EventAffordance X} {s : DS X} :
      t.events = some m → (n, e) ∈ m → e.data = some s → t.HasSchema .data s
  | cancellation {m : HMap (EventAffordance X)} {n : String} {e : EventAffordance X} {s : DS X} :
      t.events = some m → (n, e) ∈ m → e.cancellation = some s → t.HasSchema .cancellation s
  | dataResponse {m : HMap (EventAffordance X)} {n : String} {e : EventAffordance X} {s : DS X} :
      t.events = some m → (n, e) ∈ m → e.dataResponse = some s → t.HasSchema .dataResponse s
  | uriVariable {m : HMap (DS X)} {n : String} {s : DS X} :
      t.uriVariables = some m → (n, s) ∈ m → t.HasSchema .uriVariable s
  | propertyUriVariable {m : HMap (PropertyAffordance X)} {n k : String} {p : PropertyAffordance X}
      {u : HMap (DS X)} {s : DS X} : t.properties = some m → (n, p) ∈ m →
      p.interaction.uriVariables = some u → (k, s) ∈ u → t.HasSchema .uriVariable s
  | actionUriVariable {m : HMap (ActionAffordance X)} {n k : String} {a : ActionAffordance X}
      {u : HMap (DS X)} {s : DS X} : t.actions = some m → (n, a) ∈ m →
      a.interaction.uriVariables = some u → (k, s) ∈ u → t.HasSchema .uriVariable s
  | eventUriVariable {m : HMap (EventAffordance X)} {n k : String} {e : EventAffordance X}
      {u : HMap (DS X)} {s : DS X} : t.events = some m → (n, e) ∈ m →
      e.interaction.uriVariables = some u → (k, s) ∈ u → t.HasSchema .uriVariable s
  | schemaDefinition {m : HMap (DS X)} {n : String} {s : DS X} :
      t.schemaDefinitions = some m → (n, s) ∈ m → t.HasSchema .schemaDefinition s

/-- `i` is the interaction part of an affordance of the Thing. -/
inductive Thing.HasInteraction (t : Thing X) : Interaction X → Prop
  | property {m : HMap (PropertyAffordance X)} {n : String} {p : PropertyAffordance X} :
      t.properties = some m → (n, p) ∈ m → t.HasInteraction p.interaction
  | action {m : HMap (ActionAffordance X)} {n : String} {a : ActionAffordance X} :
      t.actions = some m → (n, a) ∈ m → t.HasInteraction a.interaction
  | event {m : HMap (EventAffordance X)} {n : String} {e : EventAffordance X} :
      t.events = some m → (n, e) ∈ m → t.HasInteraction e.interaction

/-- The keys of `properties`, `actions` or `events`; none if the member is absent. -/
def Thing.affordanceNames (t : Thing X) : AffordanceType → List String
  | .property => (t.properties.getD []).map (·.1)
  | .action => (t.actions.getD []).map (·.1)
  | .event => (t.events.getD []).map (·.1)

/-- `n` is a key of `securityDefinitions`. -/
def Thing.Defines (t : Thing X) (n : String) : Prop := n ∈ t.securityDefinitions.keys

/-- `n` is a key of `schemaDefinitions`. -/
def Thing.Declares (t : Thing X) (n : String) : Prop :=
  ∃ m, t.schemaDefinitions = some m ∧ n ∈ HMap.keys m

/-- `m` is a map of translations (`titles` or `descriptions`) somewhere in the Thing. -/
inductive Thing.HasTranslations (t : Thing X) : MultiLanguage → Prop
  | titles {m : MultiLanguage} : t.titles = some m → t.HasTranslations m
  | descriptions {m : MultiLanguage} : t.descriptions = some m → t.HasTranslations m
  | security {n : String} {s : SecurityScheme} {m : MultiLanguage} :
      (n, s) ∈ t.securityDefinitions → s.descriptions = some m → t.HasTranslations m
  | interactionTitles {i : Interaction X} {m : MultiLanguage} :
      t.HasInteraction i → i.titles = some m → t.HasTranslations m
  | interactionDescriptions {i : Interaction X} {m : MultiLanguage} :
      t.HasInteraction i → i.descriptions = some m → t.HasTranslations m
  | schemaTitles {p : Position} {s x : DS X} {m : MultiLanguage} :
      t.HasSchema p s → Within x s → x.head.titles = some m → t.HasTranslations m
  | schemaDescriptions {p : Position} {s x : DS X} {m : MultiLanguage} :
      t.HasSchema p s → Within x s → x.head.descriptions = some m → t.HasTranslations m

/-! ### The same for a call history -/

namespace History

/-- The values supplied under the name `n`, in call order. -/
def named {A : Type} (n : String) (l : List (String × A)) : List A :=
  l.filterMap fun kv => if kv.1 = n then some kv.2 else none

/-- `f` is a form supplied in a history, in the given context. -/
inductive HasForm (h : List (ThingOp X)) : FormContext → FormBuilder X → Prop
  | thing {f : FormBuilder X} : .form f ∈ h → HasForm h .thing f
  | property {n : String} {p : PropertyBuilder X} {f : FormBuilder X} :
      .property n p ∈ h → f ∈ p.interaction.forms → HasForm h .property f
  | action {n : String} {a : ActionBuilder X} {f : FormBuilder X} :
      .action n a ∈ h → f ∈ a.interaction.part.forms → HasForm h .action f
  | event {n : String} {e : EventBuilder X} {f : FormBuilder X} :
      .event n e ∈ h → f ∈ e.interaction.part.forms → HasForm h .event f

/-- `s` is a data schema supplied in a history and not overwritten later, in the given position. -/
inductive HasSchema (h : List (ThingOp X)) : Position → UDS X → Prop
  | property {n : String} {p : PropertyBuilder X} : .property n p ∈ h → HasSchema h .property p.schema
  | input {n : String} {a : ActionBuilder X} {s : UDS X} :
      .action n a ∈ h → a.input = some s → HasSchema h .input s
  | output {n : String} {a : ActionBuilder X} {s : UDS X} :
      .action n a ∈ h → a.output = some s → HasSchema h .output s
  | subscription {n : String} {e : EventBuilder X} {s : UDS X} :
      .event n e ∈ h → e.subscription = some s → HasSchema h .subscription s
  | data {n : String} {e : EventBuilder X} {s : UDS X} :
      .event n e ∈ h → e.data = some s → HasSchema h .data s
  | cancellation {n : String} {e : EventBuilder X} {s : UDS X} :
      .event n e ∈ h → e.cancellation = some s → HasSchema h .cancellation s
  | dataResponse {n : String} {e : EventBuilder X} {s : UDS X} :
      .event n e ∈ h → e.dataResponse = some s → HasSchema h .dataResponse s
  | uriVariable {n : String} {s : UDS X} :
      lastOf (named n (uriVariables h)) = some s → HasSchema h .uriVariable s
  | propertyUriVariable {n k : String} {p : PropertyBuilder X} {s : UDS X} :
      .property n p ∈ h → (k, s) ∈ p.interaction.uriVariables → HasSchema h .uriVariable s
  | actionUriVariable {n k : String} {a : ActionBuilder X} {s : UDS X} :
      .action n a ∈ h → (k, s) ∈ a.interaction.part.uriVariables → HasSchema h .uriVariable s
  | eventUriVariable {n k : String} {e : EventBuilder X} {s : UDS X} :
      .event n e ∈ h → (k, s) ∈ e.interaction.part.uriVariables → HasSchema h .uriVariable s
  | schemaDefinition {n : String} {s : UDS X} :
      lastOf (named n (schemaDefinitions h)) = some s → HasSchema h .schemaDefinition s

/-- The names given in the `property`, `action` or `event` calls of the history, in order. -/
def affordanceNames (h : List (ThingOp X)) : AffordanceType → List String
  | .property => (properties h).map (·.1)
  | .action => (actions h).map (·.1)
  | .event => (events h).map (·.1)

/-- Some `security` call of the history registers the name `n`. -/
def Defines (h : List (ThingOp X)) (n : String) : Prop := ∃ s ∈ securities h, securityName s = n

/-- Some `schema_definition` call of the history has the name `n`. -/
def Declares (h : List (ThingOp X)) (n : String) : Prop := ∃ s, .schemaDefinition n s ∈ h

end History
end Wot

import Verif.Spec.Together
/-
What a Thing needs its security definitions and schema definitions for, and what it is without one of them.
-/
namespace Wot

variable {X : ExtTypes}

/-- A form names the security definition, or another definition combines it. -/
def Thing.NeedsSecurity (t : Thing X) (n : String) : Prop :=
  (∃ ctx f l, t.HasForm ctx f ∧ f.security = some l ∧ n ∈ l) ∨
  ∃ m d l, (m, d) ∈ t.securityDefinitions ∧ m ≠ n ∧
    (d.subtype = .known (.combo (.oneOf l)) ∨ d.subtype = .known (.combo (.allOf l))) ∧ n ∈ l

/-- An additional response of a form of the Thing itself names the schema definition. -/
def Thing.NeedsSchema (t : Thing X) (n : String) : Prop :=
  ∃ f l a, t.HasForm .thing f ∧ f.additionalResponses = some l ∧ a ∈ l ∧ a.schema = some n

/-- The Thing `t'` is `t` without the security definition. -/
structure Thing.LessSecurity (t : Thing X) (n : String) (t' : Thing X) : Prop where
  same : t' = { t with security := t'.security, securityDefinitions := t'.securityDefinitions }
  security : t'.security = t.security.filter (· ≠ n)
  securityDefinitions : ∀ m d, (m, d) ∈ t'.securityDefinitions ↔ (m, d) ∈ t.securityDefinitions ∧ m ≠ n

/-- The Thing `t'` is `t` without the schema definition. -/
structure Thing.LessSchema (t : Thing X) (n : String) (t' : Thing X) : Prop where
  same : t' = { t with schemaDefinitions := t'.schemaDefinitions }
  schemaDefinitions : ∀ m d, EntryOf t'.schemaDefinitions m d ↔ EntryOf t.schemaDefinitions m d ∧ m ≠ n

/-- Calls that neither define something others refer to nor replace what an earlier call has said under the same name, or in the same
place, that would have to be valid: all but those for security and schema definitions, URI variables, titles and descriptions in
several languages, and extension values. -/
def ThingOp.Independent : ThingOp X → Prop
  | .common (.security _) | .common (.titles _) | .common (.descriptions _) => False
  | .schemaDefinition .. | .uriVariable .. | .setOther _ => False
  | _ => True

/-- Calls of which one in a place replaces the others, where there are no others among those in `l`. -/
def ThingOp.OnlyOne (l : List (ThingOp X)) : ThingOp X → Prop
  | .common (.titles _) => ∀ c, .common (.titles c) ∉ l
  | .common (.descriptions _) => ∀ c, .common (.descriptions c) ∉ l
  | .uriVariable n _ => ∀ s, .uriVariable n s ∉ l
  | _ => False

/-- The Thing `t'` is `t` without the property. -/
structure Thing.LessProperty (t : Thing X) (n : String) (t' : Thing X) : Prop where
  same : t' = { t with properties := t'.properties }
  properties : ∀ m p, EntryOf t'.properties m p ↔ EntryOf t.properties m p ∧ m ≠ n

/-- The Thing `t'` is `t` without the action. -/
structure Thing.LessAction (t : Thing X) (n : String) (t' : Thing X) : Prop where
  same : t' = { t with actions := t'.actions }
  actions : ∀ m a, EntryOf t'.actions m a ↔ EntryOf t.actions m a ∧ m ≠ n

/-- The Thing `t'` is `t` without the event. -/
structure Thing.LessEvent (t : Thing X) (n : String) (t' : Thing X) : Prop where
  same : t' = { t with events := t'.events }
  events : ∀ m e, EntryOf t'.events m e ↔ EntryOf t.events m e ∧ m ≠ n

/-- No custom scheme passes for a combination: the names in one are not checked (C79_custom). -/
def Thing.NoCustomCombo (t : Thing X) : Prop := ∀ m d data, (m, d) ∈ t.securityDefinitions → d.subtype ≠ .unknown "combo" data

/-- An object without its members of one name. -/
def Json.without (n : String) : Json → Json
  | .obj es => .obj (es.filter fun kv => kv.1 ≠ n)
  | v => v

end Wot

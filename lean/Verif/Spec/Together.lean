import Verif.Spec.Valid
/-
Putting two Things together, and leaving parts out.
-/
namespace Wot

variable {X : ExtTypes}

/-- The Things share no name of a security definition, of a property, of an action or of an event. -/
structure Thing.Apart (t₁ t₂ : Thing X) : Prop where
  securityDefinitions : ∀ n, t₁.Defines n → ¬ t₂.Defines n
  affordances : ∀ ty n, n ∈ t₁.affordanceNames ty → n ∉ t₂.affordanceNames ty

/-- An entry of a member that is a map and can be absent. -/
def EntryOf {A : Type} (o : Option (HMap A)) (n : String) (a : A) : Prop := ∃ m, o = some m ∧ (n, a) ∈ m

/-- The entries of a JSON-LD context: those of the array, or the only one. -/
def Json.contexts : Json → List Json
  | .arr l => l
  | j => [j]

/-- `t` is `t₁` with everything `t₂` has: lists are appended, the affordances and the security definitions of both are there, and of the
other members, and of the entries of the maps of schemas, those of `t₂` have precedence. The title and the first context (that of TD 1.1)
are those of `t₁`. -/
structure Thing.Together (t₁ t₂ t : Thing X) : Prop where
  title : t.title = t₁.title
  context : t.context.contexts = t₁.context.contexts ++ t₂.context.contexts.drop 1
  id : t.id = t₂.id.or t₁.id
  titles : t.titles = t₂.titles.or t₁.titles
  description : t.description = t₂.description.or t₁.description
  descriptions : t.descriptions = t₂.descriptions.or t₁.descriptions
  version : t.version = t₂.version.or t₁.version
  created : t.created = t₂.created.or t₁.created
  modified : t.modified = t₂.modified.or t₁.modified
  support : t.support = t₂.support.or t₁.support
  base : t.base = t₂.base.or t₁.base
  attype : t.attype.getD [] = t₁.attype.getD [] ++ t₂.attype.getD []
  profile : t.profile.getD [] = t₁.profile.getD [] ++ t₂.profile.getD []
  security : t.security = t₁.security ++ t₂.security
  links : t.links.getD [] = t₁.links.getD [] ++ t₂.links.getD []
  forms : t.forms.getD [] = t₁.forms.getD [] ++ t₂.forms.getD []
  securityDefinitions : ∀ n s, (n, s) ∈ t.securityDefinitions ↔
    (n, s) ∈ t₁.securityDefinitions ∨ (n, s) ∈ t₂.securityDefinitions
  properties : ∀ n p, EntryOf t.properties n p ↔ EntryOf t₁.properties n p ∨ EntryOf t₂.properties n p
  actions : ∀ n a, EntryOf t.actions n a ↔ EntryOf t₁.actions n a ∨ EntryOf t₂.actions n a
  events : ∀ n e, EntryOf t.events n e ↔ EntryOf t₁.events n e ∨ EntryOf t₂.events n e
  uriVariables : ∀ n s, EntryOf t.uriVariables n s ↔
    EntryOf t₂.uriVariables n s ∨ (EntryOf t₁.uriVariables n s ∧ ∀ s', ¬ EntryOf t₂.uriVariables n s')
  schemaDefinitions : ∀ n s, EntryOf t.schemaDefinitions n s ↔
    EntryOf t₂.schemaDefinitions n s ∨ (EntryOf t₁.schemaDefinitions n s ∧ ∀ s', ¬ EntryOf t₂.schemaDefinitions n s')

/-- The error names something the Things share. -/
def Error.Shared (t₁ t₂ : Thing X) : Error → Prop
  | .duplicatedSecurityDefinition n => t₁.Defines n ∧ t₂.Defines n
  | .duplicatedAffordance ty n => n ∈ t₁.affordanceNames ty ∧ n ∈ t₂.affordanceNames ty
  | _ => False

/-- A call that adds an affordance, a form or a link. -/
def ThingOp.AddsUse : ThingOp X → Prop
  | .property .. | .action .. | .event .. | .form .. | .common (.link ..) | .common (.linkWith ..) => True
  | _ => False

/-- Some of the calls that add an affordance, a form or a link are left out. -/
inductive History.Without : List (ThingOp X) → List (ThingOp X) → Prop
  | nil : Without [] []
  | keep {h' h : List (ThingOp X)} (op : ThingOp X) : Without h' h → Without (op :: h') (op :: h)
  | drop {h' h : List (ThingOp X)} {op : ThingOp X} : op.AddsUse → Without h' h → Without h' (op :: h)

end Wot

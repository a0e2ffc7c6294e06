import Verif.Model.Thing
/-
The values a user can produce through the public builder API. Rust's privacy rules and the type state
pattern enforce this at compile time; the model states it as inductive predicates.
-/
namespace Wot

variable {X : ExtTypes}

/-- The form builders reachable through the API (`src/builder.rs:2598–2872`); assigning the public
field `other` (`src/builder.rs:2594`) is a case of `ext`. -/
inductive FormReach (X : ExtTypes) : {H F : Type} → FormBuilderF X H F → Prop
  | new {F : Type} (other : F) : FormReach X (FormBuilderF.new other)
  | href {F : Type} {b : FormBuilderF X Unit F} (v : String) :
      FormReach X b → FormReach X (b.setHref v)
  | call {H F : Type} {b : FormBuilderF X H F} (op : FormOp X) : FormReach X b → FormReach X (b.apply op)
  | ext {H F F' : Type} {b : FormBuilderF X H F} (f : F → F') : FormReach X b → FormReach X (b.ext f)

/-- The arguments of the calls of `BuildableInteractionAffordance` are built with the API
(`src/builder/affordance.rs:61–157`). -/
def InteractionOp.Built : InteractionOp X → Prop
  | .form f => FormReach X f
  | .uriVariable _ s => SchemaBuilt s

/-- The arguments of a property builder call are built with the API. -/
def PropertyOp.Built : PropertyOp X → Prop
  | .interaction op => op.Built
  | .info _ => True
  | .observable _ => True

/-- The arguments of an action builder call are built with the API. -/
def ActionOp.Built : ActionOp X → Prop
  | .interaction op => op.Built
  | .input s => SchemaBuilt s
  | .output s => SchemaBuilt s
  | _ => True

/-- The arguments of an event builder call are built with the API. -/
def EventOp.Built : EventOp X → Prop
  | .interaction op => op.Built
  | .info _ => True
  | .subscription s => SchemaBuilt s
  | .data s => SchemaBuilt s
  | .cancellation s => SchemaBuilt s
  | .dataResponse s => SchemaBuilt s

/-- The property builders reachable from an empty one (`src/builder/affordance.rs:541–563, 1030–1357,
1542–1848`); what the calls on the data schema part may be is said by `PartialBuilt`. -/
inductive PropertyReach (X : ExtTypes) : {D I O : Type} → PropertyBuilderF X D I O → Prop
  | empty {D I O : Type} (i : I) (d : D) (o : O) : PropertyReach X (.empty i d o)
  | call {D I O : Type} {b : PropertyBuilderF X D I O} (op : PropertyOp X) :
      op.Built → PropertyReach X b → PropertyReach X (b.apply op)
  | mapSchema {D D' I O : Type} {b : PropertyBuilderF X D I O} (f : D → D') :
      PropertyReach X b → PropertyReach X (b.mapSchema f)
  | ext {D I I' O O' : Type} {b : PropertyBuilderF X D I O} (f : I → I') (g : O → O') :
      PropertyReach X b → PropertyReach X (b.ext f g)

/-- The property builders that can be handed to `ThingBuilder::property`
(`src/builder.rs:1578–1601`). -/
structure PropertyBuilder.Built (p : PropertyBuilder X) : Prop where
  reach : PropertyReach X p
  schema : PartialBuilt p.dataSchema

/-- The action builders reachable through the API (`src/builder/affordance.rs:715–762, 1361–1447,
1850–2030`). -/
inductive ActionReach (X : ExtTypes) : {I O : Type} → ActionBuilderF X I O → Prop
  | empty {I O : Type} (i : I) (o : O) : ActionReach X (.empty i o)
  | call {I O : Type} {b : ActionBuilderF X I O} (op : ActionOp X) :
      op.Built → ActionReach X b → ActionReach X (b.apply op)
  | ext {I I' O O' : Type} {b : ActionBuilderF X I O} (f : I → I') (g : O → O') :
      ActionReach X b → ActionReach X (b.ext f g)

/-- The event builders reachable through the API (`src/builder/affordance.rs:890–977, 1449–1531,
2032–2335`). -/
inductive EventReach (X : ExtTypes) : {I O : Type} → EventBuilderF X I O → Prop
  | empty {I O : Type} (i : I) (o : O) : EventReach X (.empty i o)
  | call {I O : Type} {b : EventBuilderF X I O} (op : EventOp X) :
      op.Built → EventReach X b → EventReach X (b.apply op)
  | ext {I I' O O' : Type} {b : EventBuilderF X I O} (f : I → I') (g : O → O') :
      EventReach X b → EventReach X (b.ext f g)

/-- The security scheme builder handed over by the closure of `ThingBuilder::security` is the result
of calls on a fresh one (`src/builder.rs:1331–1349`). -/
def CommonOp.Built : CommonOp → Prop
  | .security b => ∃ calls, SecuritySchemeBuilder.ofCalls calls = some b
  | _ => True

/-- The arguments of a Thing builder call are built with the API. -/
def ThingOp.Built : ThingOp X → Prop
  | .common op => op.Built
  | .form f => FormReach X f
  | .uriVariable _ s => SchemaBuilt s
  | .property _ p => p.Built
  | .action _ a => ActionReach X a
  | .event _ e => EventReach X e
  | .schemaDefinition _ s => SchemaBuilt s
  | .setOther _ => True

/-- `Reachable X title h b`: `b` is the Thing builder obtained by `ThingBuilder::new(title)` followed
by the calls `h` (and extension calls), all arguments being built with the API. -/
structure Reachable (X : ExtTypes) (title : String) (h : List (ThingOp X)) (b : ThingBuilder X) :
    Prop where
  reach : Reach X title h b
  built : ∀ op ∈ h, op.Built

end Wot

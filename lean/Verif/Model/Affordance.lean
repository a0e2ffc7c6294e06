import Verif.Model.Form
/-
Interaction affordances (`src/thing.rs:290–645`) and their builders (`src/builder/affordance.rs`).
-/
namespace Wot

/-- `InteractionAffordance<Other>` (`src/thing.rs:298–330`). -/
structure Interaction (X : ExtTypes) where
  attype : Option (List String)
  title : Option String
  titles : Option MultiLanguage
  description : Option String
  descriptions : Option MultiLanguage
  forms : List (Form X)
  uriVariables : Option (HMap (DS X))
  other : X.interaction

/-- `PropertyAffordance<Other>` (`src/thing.rs:396–416`). -/
structure PropertyAffordance (X : ExtTypes) where
  interaction : Interaction X
  dataSchema : DS X
  observable : Option Bool
  other : X.property

/-- `ActionAffordance<Other>` (`src/thing.rs:470–506`). -/
structure ActionAffordance (X : ExtTypes) where
  interaction : Interaction X
  input : Option (DS X)
  output : Option (DS X)
  safe : Bool
  idempotent : Bool
  synchronous : Option Bool
  other : X.action

/-- `EventAffordance<Other>` (`src/thing.rs:569–589`). -/
structure EventAffordance (X : ExtTypes) where
  interaction : Interaction X
  subscription : Option (DS X)
  data : Option (DS X)
  dataResponse : Option (DS X)
  cancellation : Option (DS X)
  other : X.event

/-- `PartialInteractionAffordanceBuilder` (`src/builder/affordance.rs:163–172`). -/
structure PartialInteraction (X : ExtTypes) (O : Type) where
  forms : List (FormBuilder X)
  uriVariables : HMap (UDS X)
  other : O

/-- `InteractionAffordanceBuilder` (`src/builder/affordance.rs:257–260`). -/
structure InteractionBuilder (X : ExtTypes) (O : Type) where
  part : PartialInteraction X O
  info : HumanReadableInfo

/-- `PropertyAffordanceBuilder` (`src/builder/affordance.rs:526–539`). -/
structure PropertyBuilderF (X : ExtTypes) (D I O : Type) where
  interaction : PartialInteraction X I
  info : HumanReadableInfo
  dataSchema : D
  observable : Option Bool
  other : O

/-- `ActionAffordanceBuilder` (`src/builder/affordance.rs:699–713`). -/
structure ActionBuilderF (X : ExtTypes) (I O : Type) where
  interaction : InteractionBuilder X I
  input : Option (UDS X)
  output : Option (UDS X)
  safe : Bool
  idempotent : Bool
  synchronous : Option Bool
  other : O

/-- `EventAffordanceBuilder` (`src/builder/affordance.rs:891–904`). -/
structure EventBuilderF (X : ExtTypes) (I O : Type) where
  interaction : InteractionBuilder X I
  subscription : Option (UDS X)
  data : Option (UDS X)
  cancellation : Option (UDS X)
  dataResponse : Option (UDS X)
  other : O

/-- `UsablePropertyAffordanceBuilder` (`src/builder/affordance.rs:979–988`). -/
abbrev PropertyBuilder (X : ExtTypes) :=
  PropertyBuilderF X (PartialDataSchema X.dataSchema X.arraySchema X.objectSchema) X.interaction
    X.property
/-- `UsableActionAffordanceBuilder` (`src/builder/affordance.rs:989–993`). -/
abbrev ActionBuilder (X : ExtTypes) := ActionBuilderF X X.interaction X.action
/-- `UsableEventAffordanceBuilder` (`src/builder/affordance.rs:994–998`). -/
abbrev EventBuilder (X : ExtTypes) := EventBuilderF X X.interaction X.event

variable {X : ExtTypes}

/-! ### Builder calls -/

/-- The calls of `BuildableInteractionAffordance` (`src/builder/affordance.rs:61–157`); closures are
represented by their result. -/
inductive InteractionOp (X : ExtTypes)
  | form (f : FormBuilder X)
  | uriVariable (name : String) (s : UDS X)

/-- `impl BuildableInteractionAffordance for PartialInteractionAffordanceBuilder`
(`src/builder/affordance.rs:308–341`). -/
def PartialInteraction.apply {O : Type} (b : PartialInteraction X O) :
    InteractionOp X → PartialInteraction X O
  | .form f => { b with forms := b.forms ++ [f] }
  | .uriVariable name s => { b with uriVariables := b.uriVariables.insert name s }

/-- `PartialInteractionAffordanceBuilder::empty` / `default`
(`src/builder/affordance.rs:174–202`). -/
def PartialInteraction.empty {O : Type} (other : O) : PartialInteraction X O := ⟨[], [], other⟩

/-- `PartialInteractionAffordanceBuilder::ext_with` (`src/builder/affordance.rs:204–228`) and the
`Into` conversion of `into_usable` (`src/builder/affordance.rs:230–250`). -/
def PartialInteraction.ext {O O' : Type} (b : PartialInteraction X O) (f : O → O') :
    PartialInteraction X O' := ⟨b.forms, b.uriVariables, f b.other⟩

/-- `InteractionAffordanceBuilder::empty` / `default` (`src/builder/affordance.rs:256, 293–306`). -/
def InteractionBuilder.empty {O : Type} (other : O) : InteractionBuilder X O := ⟨.empty other, {}⟩

/-- `InteractionAffordanceBuilder::ext_with` (`src/builder/affordance.rs:266–277`). -/
def InteractionBuilder.ext {O O' : Type} (b : InteractionBuilder X O) (f : O → O') :
    InteractionBuilder X O' := ⟨b.part.ext f, b.info⟩

/-- `PropertyAffordanceBuilder::empty` / `default` (`src/builder/affordance.rs:541–563,
1030–1057`). -/
def PropertyBuilderF.empty {D I O : Type} (i : I) (d : D) (o : O) : PropertyBuilderF X D I O :=
  { interaction := .empty i, info := {}, dataSchema := d, observable := none, other := o }

/-- The property builder calls that keep the data schema builder's type
(`src/builder/affordance.rs:344–385, 1000–1028, 1542–1545`). -/
inductive PropertyOp (X : ExtTypes)
  | interaction (op : InteractionOp X)
  | info (op : InfoOp)
  | observable (v : Bool)

/-- The property builder calls (`src/builder/affordance.rs:344–385, 1023–1028, 1542–1545`). -/
def PropertyBuilderF.apply {D I O : Type} (b : PropertyBuilderF X D I O) :
    PropertyOp X → PropertyBuilderF X D I O
  | .interaction op => { b with interaction := b.interaction.apply op }
  | .info op => { b with info := b.info.apply op }
  | .observable v => { b with observable := some v }

/-- The property builder calls that act on, or replace, the data schema builder: the delegators of
`src/builder/affordance.rs:1000–1021, 1170–1357, 1548–1848` all have this shape. -/
def PropertyBuilderF.mapSchema {D D' I O : Type} (b : PropertyBuilderF X D I O) (f : D → D') :
    PropertyBuilderF X D' I O :=
  { interaction := b.interaction, info := b.info, dataSchema := f b.dataSchema,
    observable := b.observable, other := b.other }

/-- `PropertyAffordanceBuilder::ext_interaction_with` and `ext_with`
(`src/builder/affordance.rs:1063–1157`). -/
def PropertyBuilderF.ext {D I I' O O' : Type} (b : PropertyBuilderF X D I O) (f : I → I')
    (g : O → O') : PropertyBuilderF X D I' O' :=
  { interaction := b.interaction.ext f, info := b.info, dataSchema := b.dataSchema,
    observable := b.observable, other := g b.other }

/-- `ActionAffordanceBuilder::empty` / `default` (`src/builder/affordance.rs:715–762`). -/
def ActionBuilderF.empty {I O : Type} (i : I) (o : O) : ActionBuilderF X I O :=
  { interaction := .empty i, input := none, output := none, safe := false, idempotent := false,
    synchronous := none, other := o }

/-- The action builder calls (`src/builder/affordance.rs:344–385, 1023–1028, 1850–2030`). -/
inductive ActionOp (X : ExtTypes)
  | interaction (op : InteractionOp X)
  | info (op : InfoOp)
  | input (s : UDS X)
  | output (s : UDS X)
  | safe
  | idempotent
  | synchronous (v : Bool)

/-- The action builder calls (`src/builder/affordance.rs:344–385, 1023–1028, 1891–2030`). -/
def ActionBuilderF.apply {I O : Type} (b : ActionBuilderF X I O) : ActionOp X → ActionBuilderF X I O
  | .interaction op =>
    { b with interaction := { b.interaction with part := b.interaction.part.apply op } }
  | .info op => { b with interaction := { b.interaction with info := b.interaction.info.apply op } }
  | .input s => { b with input := some s }
  | .output s => { b with output := some s }
  | .safe => { b with safe := true }
  | .idempotent => { b with idempotent := true }
  | .synchronous v => { b with synchronous := some v }

/-- `ActionAffordanceBuilder::ext_interaction_with`, `ext_with` and `into_usable`
(`src/builder/affordance.rs:1361–1447, 2379–2428`). -/
def ActionBuilderF.ext {I I' O O' : Type} (b : ActionBuilderF X I O) (f : I → I') (g : O → O') :
    ActionBuilderF X I' O' :=
  { interaction := b.interaction.ext f, input := b.input, output := b.output, safe := b.safe,
    idempotent := b.idempotent, synchronous := b.synchronous, other := g b.other }

/-- `EventAffordanceBuilder::empty` / `default` (`src/builder/affordance.rs:890, 912–928`). -/
def EventBuilderF.empty {I O : Type} (i : I) (o : O) : EventBuilderF X I O :=
  { interaction := .empty i, subscription := none, data := none, cancellation := none,
    dataResponse := none, other := o }

/-- The event builder calls (`src/builder/affordance.rs:344–385, 1023–1028, 2032–2335`). -/
inductive EventOp (X : ExtTypes)
  | interaction (op : InteractionOp X)
  | info (op : InfoOp)
  | subscription (s : UDS X)
  | data (s : UDS X)
  | cancellation (s : UDS X)
  | dataResponse (s : UDS X)

/-- The event builder calls (`src/builder/affordance.rs:344–385, 1023–1028, 2071–2335`). -/
def EventBuilderF.apply {I O : Type} (b : EventBuilderF X I O) : EventOp X → EventBuilderF X I O
  | .interaction op =>
    { b with interaction := { b.interaction with part := b.interaction.part.apply op } }
  | .info op => { b with interaction := { b.interaction with info := b.interaction.info.apply op } }
  | .subscription s => { b with subscription := some s }
  | .data s => { b with data := some s }
  | .cancellation s => { b with cancellation := some s }
  | .dataResponse s => { b with dataResponse := some s }

/-- `EventAffordanceBuilder::ext_interaction_with`, `ext_with` and `into_usable`
(`src/builder/affordance.rs:930–977, 1449–1531`). -/
def EventBuilderF.ext {I I' O O' : Type} (b : EventBuilderF X I O) (f : I → I') (g : O → O') :
    EventBuilderF X I' O' :=
  { interaction := b.interaction.ext f, subscription := b.subscription, data := b.data,
    cancellation := b.cancellation, dataResponse := b.dataResponse, other := g b.other }

/-! ### Validation and conversion -/

/-- `CheckableInteractionAffordanceBuilder::check` (`src/builder/affordance.rs:2441–2491`). -/
def PartialInteraction.check {V : Type} (env : Env) (secDefs : HMap V) (ty : AffordanceType)
    (allowed : FormOperation → Bool) (b : PartialInteraction X X.interaction) :
    Except Error Unit := do
  checkFormBuilders secDefs ty allowed b.forms
  if uriVarsContainArraysObjects env b.uriVariables then .error .invalidUriVariables else .ok ()

/-- The conversion of an optional map of schemas (`src/builder/affordance.rs:2577–2585, 2646–2656`,
`src/builder.rs:876–883`). -/
def tryIntoMap (env : Env) (m : Option (HMap (UDS X))) : Except Error (Option (HMap (DS X))) :=
  tryOpt (tryMapVals env (Schema.tryInto env)) m

/-- `TryFrom<InteractionAffordanceBuilder> for InteractionAffordance`: conversion into
`UncheckedInteractionAffordance` (`src/builder/affordance.rs:2337–2377`) followed by the fallible
conversion (`src/builder/affordance.rs:2542–2600`). -/
def InteractionBuilder.tryInto (env : Env) (b : InteractionBuilder X X.interaction) :
    Except Error (Interaction X) := do
  let titles ← buildLang env b.info.titles
  let descriptions ← buildLang env b.info.descriptions
  let uriVariables ← tryIntoMap env (nonEmpty b.part.uriVariables)
  pure { attype := b.info.attype, title := b.info.title, titles, description := b.info.description,
         descriptions, forms := b.part.forms.map FormBuilder.toForm, uriVariables,
         other := b.part.other }

/-- `BuildableAffordance::build for UsablePropertyAffordanceBuilder`
(`src/builder/affordance.rs:2608–2706`). -/
def PropertyBuilder.build (env : Env) (b : PropertyBuilder X) :
    Except Error (PropertyAffordance X) := do
  let i := b.info
  let d := b.dataSchema
  let titles ← buildLang env i.titles
  let descriptions ← buildLang env i.descriptions
  let uriVariables ← tryIntoMap env (nonEmpty b.interaction.uriVariables)
  let oneOf ← tryOpt (tryMap (Schema.tryInto env)) d.oneOf
  let subtype ← tryOpt (subtypeTryInto env) d.subtype
  pure
    { interaction :=
        { attype := i.attype, title := i.title, titles, description := i.description, descriptions,
          forms := b.interaction.forms.map FormBuilder.toForm, uriVariables,
          other := b.interaction.other }
      dataSchema := .mk
        { attype := i.attype, title := i.title, titles, description := i.description, descriptions,
          constant := d.constant, default := d.default, unit := d.unit,
          enumeration := d.enumeration, readOnly := d.readOnly, writeOnly := d.writeOnly,
          format := d.format, other := d.other } oneOf subtype
      observable := b.observable
      other := b.other }

/-- `BuildableAffordance::build for ActionAffordanceBuilder`
(`src/builder/affordance.rs:2751–2786`). -/
def ActionBuilder.build (env : Env) (b : ActionBuilder X) : Except Error (ActionAffordance X) := do
  let interaction ← b.interaction.tryInto env
  let input ← tryOpt (Schema.tryInto env) b.input
  let output ← tryOpt (Schema.tryInto env) b.output
  pure { interaction, input, output, safe := b.safe, idempotent := b.idempotent,
         synchronous := b.synchronous, other := b.other }

/-- `BuildableAffordance::build for EventAffordanceBuilder`
(`src/builder/affordance.rs:2708–2749`). -/
def EventBuilder.build (env : Env) (b : EventBuilder X) : Except Error (EventAffordance X) := do
  let interaction ← b.interaction.tryInto env
  let subscription ← tryOpt (Schema.tryInto env) b.subscription
  let data ← tryOpt (Schema.tryInto env) b.data
  let cancellation ← tryOpt (Schema.tryInto env) b.cancellation
  let dataResponse ← tryOpt (Schema.tryInto env) b.dataResponse
  pure { interaction, subscription, data, cancellation, dataResponse, other := b.other }

end Wot

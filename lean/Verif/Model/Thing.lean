import Verif.Model.Affordance
/-
The Thing (`src/thing.rs:55–167`) and its builder (`src/builder.rs:259–969`, `1065–1763`).
-/
namespace Wot

/-- `TD_CONTEXT_11` (`src/thing.rs:46`). -/
def tdContext11 : String := "https://www.w3.org/2022/wot/td/v1.1"

/-- `TD_CONTEXT_10` (`src/thing.rs:42`). -/
def tdContext10 : String := "https://www.w3.org/2019/wot/td/v1"

/-- `VersionInfo` (`src/thing.rs:648–654`); `VersionInfo.mk s none` is `From<S>`
(`src/thing.rs:656–667`). -/
structure VersionInfo where
  instance_ : String
  model : Option String := none
  deriving DecidableEq

/-- `time::OffsetDateTime`, opaque to the crate except for RFC 3339 formatting and parsing: an
instant and the offset it is displayed with. -/
structure OffsetDateTime where
  epochNanos : Int
  offsetSeconds : Int
  deriving DecidableEq

/-- `Thing<Other>` (`src/thing.rs:55–167`). -/
structure Thing (X : ExtTypes) where
  context : Json
  id : Option String
  attype : Option (List String)
  title : String
  titles : Option MultiLanguage
  description : Option String
  descriptions : Option MultiLanguage
  version : Option VersionInfo
  created : Option OffsetDateTime
  modified : Option OffsetDateTime
  support : Option String
  base : Option String
  properties : Option (HMap (PropertyAffordance X))
  actions : Option (HMap (ActionAffordance X))
  events : Option (HMap (EventAffordance X))
  links : Option (List Link)
  forms : Option (List (Form X))
  security : List String
  securityDefinitions : HMap SecurityScheme
  uriVariables : Option (HMap (DS X))
  profile : Option (List String)
  schemaDefinitions : Option (HMap (DS X))
  other : X.thing

/-- `Context` (`src/builder.rs:1739–1742`). -/
inductive Context
  | simple (s : String)
  | map (m : HMap String)
  deriving DecidableEq

/-- `ThingBuilder<Other, Status>` (`src/builder.rs:259–286`). -/
structure ThingBuilder (X : ExtTypes) where
  context : List Context
  id : Option String
  attype : Option (List String)
  title : String
  titles : Option MultiLanguageBuilder
  description : Option String
  descriptions : Option MultiLanguageBuilder
  version : Option VersionInfo
  created : Option OffsetDateTime
  modified : Option OffsetDateTime
  support : Option String
  base : Option String
  properties : List (String × PropertyBuilder X)
  actions : List (String × ActionBuilder X)
  events : List (String × EventBuilder X)
  links : Option (List UncheckedLink)
  forms : Option (List (FormBuilder X))
  uriVariables : Option (HMap (UDS X))
  security : List String
  securityDefinitions : List (String × UncheckedSecurityScheme)
  profile : List String
  schemaDefinitions : HMap (UDS X)
  other : X.thing

variable {X Y : ExtTypes}

namespace ThingBuilder

/-- `ThingBuilder::new` and `new_empty` (`src/builder.rs:436–508`). -/
def new (title : String) (other : X.thing) : ThingBuilder X :=
  { context := [.simple tdContext11], id := none, attype := none, title, titles := none,
    description := none, descriptions := none, version := none, created := none, modified := none,
    support := none, base := none, properties := [], actions := [], events := [], links := none,
    forms := none, uriVariables := none, security := [], securityDefinitions := [], profile := [],
    schemaDefinitions := [], other }

/-- `ThingBuilder::finish_extend` (`src/builder.rs:533–590`): only the `Status` marker changes. -/
def finishExtend (b : ThingBuilder X) : ThingBuilder X :=
  { context := b.context, id := b.id, attype := b.attype, title := b.title, titles := b.titles,
    description := b.description, descriptions := b.descriptions, version := b.version,
    created := b.created, modified := b.modified, support := b.support, base := b.base,
    properties := b.properties, actions := b.actions, events := b.events, links := b.links,
    forms := b.forms, uriVariables := b.uriVariables, security := b.security,
    securityDefinitions := b.securityDefinitions, profile := b.profile,
    schemaDefinitions := b.schemaDefinitions, other := b.other }

/-- `ThingBuilder::ext_with` / `ext` (`src/builder.rs:637–754`); `f` is the extension operation with
its argument applied. -/
def ext (b : ThingBuilder X) (f : X.thing → Y.thing) : ThingBuilder Y :=
  { context := b.context, id := b.id, attype := b.attype, title := b.title, titles := b.titles,
    description := b.description, descriptions := b.descriptions, version := b.version,
    created := b.created, modified := b.modified, support := b.support, base := b.base,
    properties := [], actions := [], events := [], links := b.links,
    forms := none, uriVariables := none, security := b.security,
    securityDefinitions := b.securityDefinitions, profile := b.profile,
    schemaDefinitions := [], other := f b.other }

end ThingBuilder

/-- The `ThingBuilder` calls available before and after the extension phase
(`src/builder.rs:1065–1388`). -/
inductive CommonOp
  | id (v : String)
  | description (v : String)
  | version (v : VersionInfo)
  | created (v : OffsetDateTime)
  | modified (v : OffsetDateTime)
  | support (v : String)
  | base (v : String)
  | context (v : String)
  | contextMap (calls : List (String × String))
  | attype (v : String)
  | titles (calls : List (String × String))
  | descriptions (calls : List (String × String))
  | link (href : String)
  | linkWith (pre : List LinkOp) (href : String) (post : List LinkOp)
  | security (b : SecuritySchemeBuilder SchemeSubtype)
  | profile (v : String)

/-- All `ThingBuilder` calls that keep the extension type; those not in `CommonOp` are only available
after the extension phase (`src/builder.rs:1391–1679`). Closures are represented by their result. -/
inductive ThingOp (X : ExtTypes)
  | common (op : CommonOp)
  | form (f : FormBuilder X)
  | uriVariable (name : String) (s : UDS X)
  | property (name : String) (p : PropertyBuilder X)
  | action (name : String) (a : ActionBuilder X)
  | event (name : String) (e : EventBuilder X)
  | schemaDefinition (name : String) (s : UDS X)
  /-- assignment to the public field `other` (`src/builder.rs:284`) -/
  | setOther (o : X.thing)

/-- The closure of `context_map` run on an empty `ContextMapBuilder` (`src/builder.rs:1125–1129,
1757–1765`), given by its calls. -/
def contextMapOf (calls : List (String × String)) : HMap String :=
  calls.foldl (fun m kv => m.insert kv.1 kv.2) []

/-- The calls of `src/builder.rs:1065–1388`. -/
def ThingBuilder.applyCommon (b : ThingBuilder X) : CommonOp → ThingBuilder X
  | .id v => { b with id := some v }
  | .description v => { b with description := some v }
  | .version v => { b with version := some v }
  | .created v => { b with created := some v }
  | .modified v => { b with modified := some v }
  | .support v => { b with support := some v }
  | .base v => { b with base := some v }
  | .context v =>
    if v = tdContext11 then b else { b with context := b.context ++ [.simple v] }
  | .contextMap c => { b with context := b.context ++ [.map (contextMapOf c)] }
  | .attype v => { b with attype := optPush b.attype v }
  | .titles c => { b with titles := some (.ofCalls c) }
  | .descriptions c => { b with descriptions := some (.ofCalls c) }
  | .link href => { b with links := optPush b.links { href } }
  | .linkWith pre href post => { b with links := optPush b.links (.ofCalls pre href post) }
  | .security s =>
    { b with
      security := if s.required then b.security ++ [s.defName] else b.security
      securityDefinitions := b.securityDefinitions ++ [(s.defName, s.scheme)] }
  | .profile v => { b with profile := b.profile ++ [v] }

/-- The calls of `src/builder.rs:1065–1679`. -/
def ThingBuilder.apply (b : ThingBuilder X) : ThingOp X → ThingBuilder X
  | .common op => b.applyCommon op
  | .form f => { b with forms := optPush b.forms f }
  | .uriVariable name s => { b with uriVariables := some (HMap.insert name s (b.uriVariables.getD [])) }
  | .property name p => { b with properties := b.properties ++ [(name, p)] }
  | .action name a => { b with actions := b.actions ++ [(name, a)] }
  | .event name e => { b with events := b.events ++ [(name, e)] }
  | .schemaDefinition name s => { b with schemaDefinitions := b.schemaDefinitions.insert name s }
  | .setOther o => { b with other := o }

/-- A sequence of calls. -/
def ThingBuilder.run (b : ThingBuilder X) (ops : List (ThingOp X)) : ThingBuilder X :=
  ops.foldl ThingBuilder.apply b

/-- The builders in the extension phase (`Status = ToExtend`), with their title and the history of
common calls that led to them. -/
inductive ExtPhase : (X : ExtTypes) → String → List CommonOp → ThingBuilder X → Prop
  | new {X : ExtTypes} (title : String) (other : X.thing) : ExtPhase X title [] (.new title other)
  | call {X : ExtTypes} {title : String} {h : List CommonOp} {b : ThingBuilder X} (op : CommonOp) :
      ExtPhase X title h b → ExtPhase X title (h ++ [op]) (b.applyCommon op)
  | setOther {X : ExtTypes} {title : String} {h : List CommonOp} {b : ThingBuilder X}
      (o : X.thing) : ExtPhase X title h b → ExtPhase X title h { b with other := o }
  | ext {X Y : ExtTypes} {title : String} {h : List CommonOp} {b : ThingBuilder X}
      (f : X.thing → Y.thing) : ExtPhase X title h b → ExtPhase Y title h (b.ext f)

/-- All builders reachable through the public API, with their title and complete call history. -/
inductive Reach : (X : ExtTypes) → String → List (ThingOp X) → ThingBuilder X → Prop
  | toExtend {X : ExtTypes} {title : String} {h : List CommonOp} {b : ThingBuilder X} :
      ExtPhase X title h b → Reach X title (h.map .common) b
  | extended {X : ExtTypes} {title : String} {h : List CommonOp} {b : ThingBuilder X}
      (ops : List (ThingOp X)) :
      ExtPhase X title h b → Reach X title (h.map .common ++ ops) (b.finishExtend.run ops)

/-! ### `build` -/

/-- The ways `build` can end without a Thing: an `Err`, or a panic (an `unwrap` on `None`). -/
inductive Failure
  | err (e : Error)
  | panic
  deriving DecidableEq

/-- `?` on a `Result<_, Error>` inside `build`. -/
def orFail {α : Type} : Except Error α → Except Failure α
  | .ok a => .ok a
  | .error e => .error (.err e)

/-- The loop over the security definitions (`src/builder.rs:790–803`). -/
def buildSecDefs (env : Env) : HMap SecurityScheme → List (String × UncheckedSecurityScheme) →
    Except Error (HMap SecurityScheme)
  | acc, [] => .ok acc
  | acc, (name, scheme) :: l => do
    let s ← scheme.tryInto env
    if acc.contains name then .error (.duplicatedSecurityDefinition name)
    else buildSecDefs env (acc.insert name s) l

/-- The check of combo schemes (`src/builder.rs:805–822`). -/
def checkCombos (env : Env) (secDefs : HMap SecurityScheme) : Except Error Unit :=
  tryForEach (fun n => if secDefs.contains n then .ok () else .error (.missingSchemaDefinition n))
    ((env.iter secDefs).flatMap (fun kv => kv.2.subtype.comboNames))

/-- `Context::into_simple` (`src/builder.rs:1744–1751`). -/
def Context.intoSimple : Context → Option String
  | .simple s => some s
  | .map _ => none

/-- One entry of the context array (`src/builder.rs:857–863`). -/
def Context.toValue (env : Env) : Context → Json
  | .simple s => .str s
  | .map m => .obj (HMap.collect ((env.iter m).map (fun kv => (kv.1, Json.str kv.2))))

/-- The construction of `@context` (`src/builder.rs:850–866`); the `unwrap`s are explicit. -/
def buildContext (env : Env) (ctx : List Context) : Except Failure Json :=
  if ctx.length = 1 then
    match ctx with
    | c :: _ =>
      match c.intoSimple with
      | some s => .ok (.str s)
      | none => .error .panic
    | [] => .error .panic
  else .ok (.arr (ctx.map (Context.toValue env)))

/-- The fold of `try_build_affordance` (`src/builder.rs:1706–1735`). -/
def buildAffordances {A T : Type} (ty : AffordanceType) (checkInteraction : A → Except Error Unit)
    (checkSchemas : A → Except Error Unit) (build : A → Except Error T) :
    HMap T → List (String × A) → Except Error (HMap T)
  | acc, [] => .ok acc
  | acc, (name, a) :: l => do
    checkInteraction a
    checkSchemas a
    if acc.contains name then .error (.duplicatedAffordance ty name)
    else do
      let t ← build a
      buildAffordances ty checkInteraction checkSchemas build (acc.insert name t) l

/-- `try_build_affordance` (`src/builder.rs:1683–1737`). -/
def tryBuildAffordance {A T : Type} (ty : AffordanceType) (checkInteraction : A → Except Error Unit)
    (checkSchemas : A → Except Error Unit) (build : A → Except Error T) (l : List (String × A)) :
    Except Error (Option (HMap T)) :=
  if l.isEmpty then .ok none
  else do
    let m ← buildAffordances ty checkInteraction checkSchemas build [] l
    pure (some m)

/-- `[a, b, …].into_iter().flatten().try_for_each(CheckableDataSchema::check)`
(`src/builder.rs:1716–1719`). -/
def checkSchemas (env : Env) (l : List (Option (UDS X))) : Except Error Unit :=
  tryForEach (Schema.check env) (l.filterMap id)

/-- The properties part of `build` (`src/builder.rs:885–900`). -/
def buildProperties {V : Type} (env : Env) (secDefs : HMap V) (l : List (String × PropertyBuilder X)) :
    Except Error (Option (HMap (PropertyAffordance X))) :=
  tryBuildAffordance .property (fun p => p.interaction.check env secDefs .property isPropertyOp)
    (fun p => p.dataSchema.check env) (PropertyBuilder.build env) l

/-- The actions part of `build` (`src/builder.rs:901–915`). -/
def buildActions {V : Type} (env : Env) (secDefs : HMap V) (l : List (String × ActionBuilder X)) :
    Except Error (Option (HMap (ActionAffordance X))) :=
  tryBuildAffordance .action (fun a => a.interaction.part.check env secDefs .action isActionOp)
    (fun a => checkSchemas env [a.input, a.output]) (ActionBuilder.build env) l

/-- The events part of `build` (`src/builder.rs:916–934`). -/
def buildEvents {V : Type} (env : Env) (secDefs : HMap V) (l : List (String × EventBuilder X)) :
    Except Error (Option (HMap (EventAffordance X))) :=
  tryBuildAffordance .event (fun e => e.interaction.part.check env secDefs .event isEventOp)
    (fun e => checkSchemas env [e.subscription, e.data, e.cancellation]) (EventBuilder.build env) l

/-- The test of the Thing-level URI variables (`src/builder.rs:868–874`). -/
def checkUriVariables (env : Env) (m : Option (HMap (UDS X))) : Except Error Unit :=
  if (m.map (uriVarsContainArraysObjects env)).getD false then .error .invalidUriVariables
  else .ok ()

/-- `ThingBuilder::build` (`src/builder.rs:761–969`). -/
def ThingBuilder.build (env : Env) (b : ThingBuilder X) : Except Failure (Thing X) := do
  let securityDefinitions ← orFail (buildSecDefs env [] b.securityDefinitions)
  orFail (checkCombos env securityDefinitions)
  let schemaDefinitions ← orFail (tryMapVals env (Schema.tryInto env) b.schemaDefinitions)
  let forms ← orFail (tryOpt (tryMap (buildThingForm securityDefinitions schemaDefinitions)) b.forms)
  let context ← buildContext env b.context
  orFail (checkUriVariables env b.uriVariables)
  let uriVariables ← orFail (tryIntoMap env b.uriVariables)
  let properties ← orFail (buildProperties env securityDefinitions b.properties)
  let actions ← orFail (buildActions env securityDefinitions b.actions)
  let events ← orFail (buildEvents env securityDefinitions b.events)
  let links ← orFail (tryOpt (tryMap (UncheckedLink.tryInto env)) b.links)
  let titles ← orFail (buildLang env b.titles)
  let descriptions ← orFail (buildLang env b.descriptions)
  pure
    { context, id := b.id, attype := b.attype, title := b.title, titles,
      description := b.description, descriptions, version := b.version, created := b.created,
      modified := b.modified, support := b.support, base := b.base, properties, actions, events,
      links, forms, security := b.security, securityDefinitions, uriVariables,
      profile := nonEmpty b.profile, schemaDefinitions := nonEmpty schemaDefinitions,
      other := b.other }

end Wot

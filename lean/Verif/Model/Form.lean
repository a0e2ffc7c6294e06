import Verif.Model.Security
/-
Forms and links (`src/thing.rs:1427–1740`) and their builders (`src/builder.rs:971–1063`, `1795–1849`,
`2580–2947`, `2987–3028`; `src/builder/affordance.rs:2493–2529`).
-/
namespace Wot

/-- The associated types of `ExtendableThing` (`src/extend.rs:21–66`) and the Thing extension type
itself. -/
structure ExtTypes where
  thing : Type
  interaction : Type
  property : Type
  action : Type
  event : Type
  form : Type
  response : Type
  dataSchema : Type
  objectSchema : Type
  arraySchema : Type

/-- No extension: all associated types of `Nil` (`src/extend.rs:68–78`). -/
abbrev ExtTypes.nil : ExtTypes := ⟨Unit, Unit, Unit, Unit, Unit, Unit, Unit, Unit, Unit, Unit⟩

/-- `DataSchemaFromOther<Other>` (`src/thing.rs:729–733`). -/
abbrev DS (X : ExtTypes) := DataSchema X.dataSchema X.arraySchema X.objectSchema
/-- `UncheckedDataSchemaFromOther<Other>` (`src/builder/data_schema.rs:83–87`). -/
abbrev UDS (X : ExtTypes) := UncheckedDataSchema X.dataSchema X.arraySchema X.objectSchema

/-- `DefaultedFormOperations` (`src/thing.rs:1651–1658`). -/
inductive FormOps
  | default
  | custom (ops : List FormOperation)
  deriving DecidableEq

/-- `ExpectedResponse<Other>` (`src/thing.rs:1697–1707`). -/
structure ExpectedResponse (R : Type) where
  contentType : String
  other : R

/-- `AdditionalExpectedResponse` (`src/thing.rs:1713–1731`), also
`AdditionalExpectedResponseBuilder` (`src/builder.rs:2915–2929`), which has the same fields. -/
structure AdditionalResponse where
  success : Bool := false
  contentType : Option String := none
  schema : Option String := none
  deriving DecidableEq

/-- `Form<Other>` (`src/thing.rs:1466–1526`). -/
structure Form (X : ExtTypes) where
  op : FormOps
  href : String
  contentType : Option String
  contentCoding : Option String
  subprotocol : Option String
  security : Option (List String)
  scopes : Option (List String)
  response : Option (ExpectedResponse X.response)
  additionalResponses : Option (List AdditionalResponse)
  other : X.form

/-- `FormBuilder<Other, Href, OtherForm>` (`src/builder.rs:2582–2596`). -/
structure FormBuilderF (X : ExtTypes) (H F : Type) where
  op : FormOps
  href : H
  contentType : Option String
  contentCoding : Option String
  subprotocol : Option String
  security : Option (List String)
  scopes : Option (List String)
  response : Option (ExpectedResponse X.response)
  additionalResponses : List AdditionalResponse
  other : F

/-- A finished form builder, `FormBuilder<Other, String, Other::Form>`. -/
abbrev FormBuilder (X : ExtTypes) := FormBuilderF X String X.form

variable {X : ExtTypes}

namespace FormBuilderF
variable {H F F' : Type}

/-- `FormBuilder::new` (`src/builder.rs:2603–2619`). -/
def new (other : F) : FormBuilderF X Unit F :=
  { op := .default, href := (), contentType := none, contentCoding := none, subprotocol := none,
    security := none, scopes := none, response := none, additionalResponses := [], other }

/-- `FormBuilder::href` (`src/builder.rs:2627–2656`). -/
def setHref (b : FormBuilderF X Unit F) (v : String) : FormBuilderF X String F :=
  { op := b.op, href := v, contentType := b.contentType, contentCoding := b.contentCoding,
    subprotocol := b.subprotocol, security := b.security, scopes := b.scopes,
    response := b.response, additionalResponses := b.additionalResponses, other := b.other }

/-- `FormBuilder::ext_with` / `ext` (`src/builder.rs:2787–2832`); `f` is the extension operation with
its argument applied. -/
def ext (b : FormBuilderF X H F) (f : F → F') : FormBuilderF X H F' :=
  { op := b.op, href := b.href, contentType := b.contentType, contentCoding := b.contentCoding,
    subprotocol := b.subprotocol, security := b.security, scopes := b.scopes,
    response := b.response, additionalResponses := b.additionalResponses, other := f b.other }

end FormBuilderF

/-- The calls on `AdditionalExpectedResponseBuilder` (`src/builder.rs:2931–2946`). -/
inductive RespOp
  | success | contentType (v : String) | schema (v : String)

/-- `success`, `content_type`, `schema` (`src/builder.rs:2931–2946`). -/
def AdditionalResponse.apply (r : AdditionalResponse) : RespOp → AdditionalResponse
  | .success => { r with success := true }
  | .contentType v => { r with contentType := some v }
  | .schema v => { r with schema := some v }

/-- The closure of `additional_response` run on a new builder (`src/builder.rs:2764–2776`), given by
the calls it makes. -/
def AdditionalResponse.ofCalls (calls : List RespOp) : AdditionalResponse :=
  calls.foldl AdditionalResponse.apply {}

/-- The calls on a form builder that do not change its type (`src/builder.rs:2663–2779, 2844–2871`).
`response_default_ext` and `response` both set the given content type and an extension value. -/
inductive FormOp (X : ExtTypes)
  | contentType (v : String)
  | contentCoding (v : String)
  | subprotocol (v : String)
  | op (o : FormOperation)
  | security (v : String)
  | scope (v : String)
  | additionalResponse (calls : List RespOp)
  | response (contentType : String) (other : X.response)

/-- `FormBuilder::op` (`src/builder.rs:2673–2682`). -/
def FormOps.push : FormOps → FormOperation → FormOps
  | .default, o => .custom [o]
  | .custom ops, o => .custom (ops ++ [o])

/-- The type-preserving form builder calls (`src/builder.rs:2663–2779, 2844–2871`). -/
def FormBuilderF.apply {H F : Type} (b : FormBuilderF X H F) : FormOp X → FormBuilderF X H F
  | .contentType v => { b with contentType := some v }
  | .contentCoding v => { b with contentCoding := some v }
  | .subprotocol v => { b with subprotocol := some v }
  | .op o => { b with op := b.op.push o }
  | .security v => { b with security := optPush b.security v }
  | .scope v => { b with scopes := optPush b.scopes v }
  | .additionalResponse c =>
    { b with additionalResponses := b.additionalResponses ++ [.ofCalls c] }
  | .response ct o => { b with response := some ⟨ct, o⟩ }

/-- `From<FormBuilder> for Form` (`src/builder.rs:2874–2912`), used for affordance forms. -/
def FormBuilder.toForm (b : FormBuilder X) : Form X :=
  { op := b.op, href := b.href, contentType := b.contentType, contentCoding := b.contentCoding,
    subprotocol := b.subprotocol, security := b.security, scopes := b.scopes,
    response := b.response, additionalResponses := nonEmpty b.additionalResponses,
    other := b.other }

/-- The operations allowed at Thing level (`src/builder.rs:1009–1020`). -/
def isThingOp : FormOperation → Bool
  | .readAllProperties | .writeAllProperties | .readMultipleProperties | .writeMultipleProperties
  | .observeAllProperties | .unobserveAllProperties | .subscribeAllEvents
  | .unsubscribeAllEvents | .queryAllActions => true
  | _ => false

/-- `|op| matches!(op, ReadProperty | …)` (`src/builder.rs:890–898`). -/
def isPropertyOp : FormOperation → Bool
  | .readProperty | .writeProperty | .observeProperty | .unobserveProperty => true
  | _ => false

/-- `|op| matches!(op, InvokeAction | …)` (`src/builder.rs:906–913`). -/
def isActionOp : FormOperation → Bool
  | .invokeAction | .queryAction | .cancelAction => true
  | _ => false

/-- `|op| matches!(op, SubscribeEvent | UnsubscribeEvent)` (`src/builder.rs:927–932`). -/
def isEventOp : FormOperation → Bool
  | .subscribeEvent | .unsubscribeEvent => true
  | _ => false

/-- The security names of a form are all defined (`src/builder.rs:993–1004`,
`src/builder/affordance.rs:2514–2525`). -/
def checkSecurityNames {V : Type} (secDefs : HMap V) : Option (List String) → Except Error Unit
  | none => .ok ()
  | some names =>
    tryForEach (fun n => if secDefs.contains n then .ok () else .error (.undefinedSecurity n)) names

/-- The operations test of both kinds of forms: the first operation that is not allowed is reported
(`src/builder.rs:1008–1030`, `src/builder/affordance.rs:2505–2512`). -/
def checkOps (ctx : FormContext) (allowed : FormOperation → Bool) (ops : List FormOperation) :
    Except Error Unit :=
  match ops.find? (fun o => !allowed o) with
  | some o => .error (.invalidOpInForm ctx o)
  | none => .ok ()

/-- The operations of a Thing-level form (`src/builder.rs:1006–1032`). -/
def checkThingOps : FormOps → Except Error Unit
  | .default => .error .missingOpInForm
  | .custom ops => checkOps .thing isThingOp ops

/-- The schemas of the additional responses of a Thing-level form (`src/builder.rs:1034–1042`). -/
def checkResponses {V : Type} (schemaDefs : HMap V) (l : List AdditionalResponse) :
    Except Error Unit :=
  tryForEach (fun n => if schemaDefs.contains n then .ok () else .error (.missingSchemaDefinition n))
    (l.filterMap (·.schema))

/-- `build_form_from_builder` (`src/builder.rs:971–1063`). -/
def buildThingForm {V W : Type} (secDefs : HMap V) (schemaDefs : HMap W) (b : FormBuilder X) :
    Except Error (Form X) := do
  checkSecurityNames secDefs b.security
  checkThingOps b.op
  checkResponses schemaDefs b.additionalResponses
  pure b.toForm

/-- The operations of an affordance form: only explicit ones are tested
(`src/builder/affordance.rs:2504–2512`). -/
def checkAffordanceOps (ctx : FormContext) (allowed : FormOperation → Bool) :
    FormOps → Except Error Unit
  | .default => .ok ()
  | .custom ops => checkOps ctx allowed ops

/-- One round of the loop of `check_form_builders` (`src/builder/affordance.rs:2503–2526`). -/
def checkAffordanceForm {V : Type} (secDefs : HMap V) (ty : AffordanceType)
    (allowed : FormOperation → Bool) (b : FormBuilder X) : Except Error Unit := do
  checkAffordanceOps ty.toContext allowed b.op
  checkSecurityNames secDefs b.security

/-- `check_form_builders` (`src/builder/affordance.rs:2493–2529`). -/
def checkFormBuilders {V : Type} (secDefs : HMap V) (ty : AffordanceType)
    (allowed : FormOperation → Bool) (forms : List (FormBuilder X)) : Except Error Unit :=
  tryForEach (checkAffordanceForm secDefs ty allowed) forms

/-- `Link` (`src/thing.rs:1431–1460`); a language tag is represented by its text. -/
structure Link where
  href : String
  ty : Option String
  rel : Option String
  anchor : Option String
  sizes : Option String
  hreflang : Option (List String)
  deriving DecidableEq

/-- `UncheckedLink` (`src/builder.rs:2987–2994`) and `LinkBuilder<String>`
(`src/builder.rs:1797–1804`). -/
structure UncheckedLink where
  href : String
  ty : Option String := none
  rel : Option String := none
  anchor : Option String := none
  sizes : Option String := none
  hreflang : List String := []
  deriving DecidableEq

/-- The calls on `LinkBuilder` other than `href` (`src/builder.rs:1841–1848`). -/
inductive LinkOp
  | ty (v : String) | rel (v : String) | anchor (v : String) | sizes (v : String)
  | hreflang (v : String)

/-- The calls on `LinkBuilder` other than `href` (`src/builder.rs:1841–1848`). -/
def UncheckedLink.apply (l : UncheckedLink) : LinkOp → UncheckedLink
  | .ty v => { l with ty := some v }
  | .rel v => { l with rel := some v }
  | .anchor v => { l with anchor := some v }
  | .sizes v => { l with sizes := some v }
  | .hreflang v => { l with hreflang := l.hreflang ++ [v] }

/-- `ThingBuilder::link_with`'s closure (`src/builder.rs:1259–1283`): calls before `href`, `href`,
calls after `href`. `LinkBuilder::href` keeps all other fields (`src/builder.rs:1819–1838`). -/
def UncheckedLink.ofCalls (pre : List LinkOp) (href : String) (post : List LinkOp) : UncheckedLink :=
  post.foldl UncheckedLink.apply { pre.foldl UncheckedLink.apply { href := "" } with href := href }

/-- The closure parsing one `hreflang` (`src/builder.rs:3014`). -/
def parseHreflang (env : Env) (s : String) : Except Error String :=
  match env.langParse s with
  | some t => .ok t
  | none => .error (.invalidLanguageTag s)

/-- The guard of `TryFrom<UncheckedLink> for Link` (`src/builder.rs:3009–3011`). -/
def UncheckedLink.badSizes (l : UncheckedLink) : Bool :=
  l.sizes.isSome && !decide (l.rel = some "icon")

/-- `TryFrom<UncheckedLink> for Link` (`src/builder.rs:2996–3028`). -/
def UncheckedLink.tryInto (env : Env) (l : UncheckedLink) : Except Error Link :=
  if l.badSizes then .error .sizesWithRelNotIcon
  else do
    let hreflang ← tryMap (parseHreflang env) l.hreflang
    pure { href := l.href, ty := l.ty, rel := l.rel, anchor := l.anchor, sizes := l.sizes,
           hreflang := nonEmpty hreflang }

end Wot

import Verif.Model.Codec
/-
What was in the document of something that has been read: one field for each member.
-/
namespace Wot

/-- What the members `es` say of a basic scheme. -/
structure BasicRead (es : Members) (x : BasicScheme) : Prop where
  location : defaulted "in" .header deLocation es = some x.location
  name : optional "name" deStr es = some x.name

theorem deBasic_iff {es : Members} {x : BasicScheme} :
  deBasic es = some x ↔ BasicRead es x := by
  simp only [deBasic, bind, pure]
  constructor
  · intro h
    obtain ⟨_, h0, h⟩ := Option.bind_eq_some_iff.1 h
    obtain ⟨_, h1, h⟩ := Option.bind_eq_some_iff.1 h
    cases h
    exact ⟨h0, h1⟩
  · intro h
    cases x
    simp only [h.location, h.name, Option.bind_some]

/-- What the members `es` say of a digest scheme. -/
structure DigestRead (es : Members) (x : DigestScheme) : Prop where
  qop : required "qop" deQoP es = some x.qop
  location : defaulted "in" .header deLocation es = some x.location
  name : optional "name" deStr es = some x.name

theorem deDigest_iff {es : Members} {x : DigestScheme} :
  deDigest es = some x ↔ DigestRead es x := by
  simp only [deDigest, bind, pure]
  constructor
  · intro h
    obtain ⟨_, h0, h⟩ := Option.bind_eq_some_iff.1 h
    obtain ⟨_, h1, h⟩ := Option.bind_eq_some_iff.1 h
    obtain ⟨_, h2, h⟩ := Option.bind_eq_some_iff.1 h
    cases h
    exact ⟨h0, h1, h2⟩
  · intro h
    cases x
    simp only [h.qop, h.location, h.name, Option.bind_some]

/-- What the members `es` say of an API key scheme. -/
structure ApiKeyRead (es : Members) (x : ApiKeyScheme) : Prop where
  location : defaulted "in" .query deLocation es = some x.location
  name : optional "name" deStr es = some x.name

theorem deApiKey_iff {es : Members} {x : ApiKeyScheme} :
  deApiKey es = some x ↔ ApiKeyRead es x := by
  simp only [deApiKey, bind, pure]
  constructor
  · intro h
    obtain ⟨_, h0, h⟩ := Option.bind_eq_some_iff.1 h
    obtain ⟨_, h1, h⟩ := Option.bind_eq_some_iff.1 h
    cases h
    exact ⟨h0, h1⟩
  · intro h
    cases x
    simp only [h.location, h.name, Option.bind_some]

/-- What the members `es` say of a bearer scheme. -/
structure BearerRead (es : Members) (x : BearerScheme) : Prop where
  authorization : optional "authorization" deStr es = some x.authorization
  alg : defaulted "alg" "ES256" deStr es = some x.alg
  format : defaulted "format" "jwt" deStr es = some x.format
  location : defaulted "in" .header deLocation es = some x.location
  name : optional "name" deStr es = some x.name

theorem deBearer_iff {es : Members} {x : BearerScheme} :
  deBearer es = some x ↔ BearerRead es x := by
  simp only [deBearer, bind, pure]
  constructor
  · intro h
    obtain ⟨_, h0, h⟩ := Option.bind_eq_some_iff.1 h
    obtain ⟨_, h1, h⟩ := Option.bind_eq_some_iff.1 h
    obtain ⟨_, h2, h⟩ := Option.bind_eq_some_iff.1 h
    obtain ⟨_, h3, h⟩ := Option.bind_eq_some_iff.1 h
    obtain ⟨_, h4, h⟩ := Option.bind_eq_some_iff.1 h
    cases h
    exact ⟨h0, h1, h2, h3, h4⟩
  · intro h
    cases x
    simp only [h.authorization, h.alg, h.format, h.location, h.name, Option.bind_some]

/-- What the members `es` say of a PSK scheme. -/
structure PskRead (es : Members) (x : PskScheme) : Prop where
  identity : optional "identity" deStr es = some x.identity

theorem dePsk_iff {es : Members} {x : PskScheme} :
  dePsk es = some x ↔ PskRead es x := by
  simp only [dePsk, bind, pure]
  constructor
  · intro h
    obtain ⟨_, h0, h⟩ := Option.bind_eq_some_iff.1 h
    cases h
    exact ⟨h0⟩
  · intro h
    cases x
    simp only [h.identity, Option.bind_some]

/-- What the members `es` say of an OAuth2 scheme. -/
structure OAuth2Read (es : Members) (x : OAuth2Scheme) : Prop where
  authorization : optional "authorization" deStr es = some x.authorization
  token : optional "token" deStr es = some x.token
  refresh : optional "refresh" deStr es = some x.refresh
  scopes : optional "scopes" deStrings es = some x.scopes
  flow : required "flow" deStr es = some x.flow

theorem deOAuth2_iff {es : Members} {x : OAuth2Scheme} :
  deOAuth2 es = some x ↔ OAuth2Read es x := by
  simp only [deOAuth2, bind, pure]
  constructor
  · intro h
    obtain ⟨_, h0, h⟩ := Option.bind_eq_some_iff.1 h
    obtain ⟨_, h1, h⟩ := Option.bind_eq_some_iff.1 h
    obtain ⟨_, h2, h⟩ := Option.bind_eq_some_iff.1 h
    obtain ⟨_, h3, h⟩ := Option.bind_eq_some_iff.1 h
    obtain ⟨_, h4, h⟩ := Option.bind_eq_some_iff.1 h
    cases h
    exact ⟨h0, h1, h2, h3, h4⟩
  · intro h
    cases x
    simp only [h.authorization, h.token, h.refresh, h.scopes, h.flow, Option.bind_some]

/-- What the members `es` say of a security definition. -/
structure SecurityRead (env : SerdeEnv) (es : Members) (x : SecurityScheme) : Prop where
  attype : optional "@type" deStrings es = some x.attype
  description : optional "description" deStr es = some x.description
  descriptions : optional "descriptions" (deLang env) es = some x.descriptions
  proxy : optional "proxy" deStr es = some x.proxy
  subtype : deSubtype (rest securityKeys es) = some x.subtype

theorem deSecurity_iff {env : SerdeEnv} {es : Members} {x : SecurityScheme} :
  deSecurity env (.obj es) = some x ↔ SecurityRead env es x := by
  simp only [deSecurity, bind, pure]
  constructor
  · intro h
    obtain ⟨_, h0, h⟩ := Option.bind_eq_some_iff.1 h
    obtain ⟨_, h1, h⟩ := Option.bind_eq_some_iff.1 h
    obtain ⟨_, h2, h⟩ := Option.bind_eq_some_iff.1 h
    obtain ⟨_, h3, h⟩ := Option.bind_eq_some_iff.1 h
    obtain ⟨_, h4, h⟩ := Option.bind_eq_some_iff.1 h
    cases h
    exact ⟨h0, h1, h2, h3, h4⟩
  · intro h
    cases x
    simp only [h.attype, h.description, h.descriptions, h.proxy, h.subtype, Option.bind_some]

/-- What the members `es` say of a number schema. -/
structure NumberRead (es : Members) (x : NumberSchema) : Prop where
  maximum : (deMaximum deF64 (rest ["multipleOf"] es)) = x.maximum
  minimum : (deMinimum deF64 (rest ["multipleOf"] es)) = x.minimum
  multipleOf : optional "multipleOf" deF64 es = some x.multipleOf

theorem deNumber_iff {es : Members} {x : NumberSchema} :
  deNumber es = some x ↔ NumberRead es x := by
  simp only [deNumber, bind, pure]
  constructor
  · intro h
    obtain ⟨_, h0, h⟩ := Option.bind_eq_some_iff.1 h
    cases h
    exact ⟨rfl, rfl, h0⟩
  · intro h
    cases x
    simp only [h.multipleOf, h.maximum, h.minimum, Option.bind_some]

/-- What the members `es` say of an integer schema. -/
structure IntegerRead (es : Members) (x : IntegerSchema) : Prop where
  maximum : (deMaximum deI64 (rest ["multipleOf"] es)) = x.maximum
  minimum : (deMinimum deI64 (rest ["multipleOf"] es)) = x.minimum
  multipleOf : optional "multipleOf" deNonZeroU64 es = some x.multipleOf

theorem deInteger_iff {es : Members} {x : IntegerSchema} :
  deInteger es = some x ↔ IntegerRead es x := by
  simp only [deInteger, bind, pure]
  constructor
  · intro h
    obtain ⟨_, h0, h⟩ := Option.bind_eq_some_iff.1 h
    cases h
    exact ⟨rfl, rfl, h0⟩
  · intro h
    cases x
    simp only [h.multipleOf, h.maximum, h.minimum, Option.bind_some]

/-- What the members `es` say of a string schema. -/
structure StringRead (es : Members) (x : StringSchema) : Prop where
  minLength : optional "minLength" deU32 es = some x.minLength
  maxLength : optional "maxLength" deU32 es = some x.maxLength
  pattern : optional "pattern" deStr es = some x.pattern
  contentEncoding : optional "contentEncoding" deStr es = some x.contentEncoding
  contentMediaType : optional "contentMediaType" deStr es = some x.contentMediaType

theorem deString_iff {es : Members} {x : StringSchema} :
  deString es = some x ↔ StringRead es x := by
  simp only [deString, bind, pure]
  constructor
  · intro h
    obtain ⟨_, h0, h⟩ := Option.bind_eq_some_iff.1 h
    obtain ⟨_, h1, h⟩ := Option.bind_eq_some_iff.1 h
    obtain ⟨_, h2, h⟩ := Option.bind_eq_some_iff.1 h
    obtain ⟨_, h3, h⟩ := Option.bind_eq_some_iff.1 h
    obtain ⟨_, h4, h⟩ := Option.bind_eq_some_iff.1 h
    cases h
    exact ⟨h0, h1, h2, h3, h4⟩
  · intro h
    cases x
    simp only [h.minLength, h.maxLength, h.pattern, h.contentEncoding, h.contentMediaType, Option.bind_some]

/-- What the members `es` say of an array schema. -/
structure ArrayRead {AS S : Type} (CA : ExtCodec AS) (sub : Json → Option S) (es : Members) (x : ArrayF AS S) : Prop where
  items : optional "items" (deItems sub) es = some x.items
  minItems : optional "min_items" deU32 es = some x.minItems
  maxItems : optional "max_items" deU32 es = some x.maxItems
  other : CA.de (rest ["items", "min_items", "max_items"] es) = some x.other

theorem deArray_iff {AS S : Type} {CA : ExtCodec AS} {sub : Json → Option S} {es : Members} {x : ArrayF AS S} :
  deArray CA sub es = some x ↔ ArrayRead CA sub es x := by
  simp only [deArray, bind, pure]
  constructor
  · intro h
    obtain ⟨_, h0, h⟩ := Option.bind_eq_some_iff.1 h
    obtain ⟨_, h1, h⟩ := Option.bind_eq_some_iff.1 h
    obtain ⟨_, h2, h⟩ := Option.bind_eq_some_iff.1 h
    obtain ⟨_, h3, h⟩ := Option.bind_eq_some_iff.1 h
    cases h
    exact ⟨h0, h1, h2, h3⟩
  · intro h
    cases x
    simp only [h.items, h.minItems, h.maxItems, h.other, Option.bind_some]

/-- What the members `es` say of an object schema. -/
structure ObjectRead {OS S : Type} (CO : ExtCodec OS) (sub : Json → Option S) (es : Members) (x : ObjectF OS S) : Prop where
  properties : optional "properties" (deMap sub) es = some x.properties
  required : optional "required" (deVec deStr) es = some x.required
  other : CO.de (rest ["properties", "required"] es) = some x.other

theorem deObject_iff {OS S : Type} {CO : ExtCodec OS} {sub : Json → Option S} {es : Members} {x : ObjectF OS S} :
  deObject CO sub es = some x ↔ ObjectRead CO sub es x := by
  simp only [deObject, bind, pure]
  constructor
  · intro h
    obtain ⟨_, h0, h⟩ := Option.bind_eq_some_iff.1 h
    obtain ⟨_, h1, h⟩ := Option.bind_eq_some_iff.1 h
    obtain ⟨_, h2, h⟩ := Option.bind_eq_some_iff.1 h
    cases h
    exact ⟨h0, h1, h2⟩
  · intro h
    cases x
    simp only [h.properties, h.required, h.other, Option.bind_some]

/-- What the members `es` say of a response. -/
structure ResponseRead {R : Type} (C : ExtCodec R) (es : Members) (x : ExpectedResponse R) : Prop where
  contentType : required "contentType" deStr es = some x.contentType
  other : C.de (rest ["contentType"] es) = some x.other

theorem deResponse_iff {R : Type} {C : ExtCodec R} {es : Members} {x : ExpectedResponse R} :
  deResponse C (.obj es) = some x ↔ ResponseRead C es x := by
  simp only [deResponse, bind, pure]
  constructor
  · intro h
    obtain ⟨_, h0, h⟩ := Option.bind_eq_some_iff.1 h
    obtain ⟨_, h1, h⟩ := Option.bind_eq_some_iff.1 h
    cases h
    exact ⟨h0, h1⟩
  · intro h
    cases x
    simp only [h.contentType, h.other, Option.bind_some]

/-- What the members `es` say of an additional response. -/
structure AdditionalRead (es : Members) (x : AdditionalResponse) : Prop where
  success : defaulted "success" false deBool es = some x.success
  contentType : optional "contentType" deStr es = some x.contentType
  schema : optional "schema" deStr es = some x.schema

theorem deAdditional_iff {es : Members} {x : AdditionalResponse} :
  deAdditional (.obj es) = some x ↔ AdditionalRead es x := by
  simp only [deAdditional, bind, pure]
  constructor
  · intro h
    obtain ⟨_, h0, h⟩ := Option.bind_eq_some_iff.1 h
    obtain ⟨_, h1, h⟩ := Option.bind_eq_some_iff.1 h
    obtain ⟨_, h2, h⟩ := Option.bind_eq_some_iff.1 h
    cases h
    exact ⟨h0, h1, h2⟩
  · intro h
    cases x
    simp only [h.success, h.contentType, h.schema, Option.bind_some]

/-- What the members `es` say of a form. -/
structure FormRead {X : ExtTypes} (C : ExtCodecs X) (es : Members) (x : Form X) : Prop where
  op : defaulted "op" .default deOps es = some x.op
  href : required "href" deStr es = some x.href
  contentType : optional "contentType" deStr es = some x.contentType
  contentCoding : optional "contentCoding" deStr es = some x.contentCoding
  subprotocol : optional "subprotocol" deStr es = some x.subprotocol
  security : optional "security" deStrings es = some x.security
  scopes : optional "scopes" deStrings es = some x.scopes
  response : optional "response" (deResponse C.response) es = some x.response
  additionalResponses : optional "additionalResponses" (deOneOrMany deAdditional) es = some x.additionalResponses
  other : C.form.de (rest formKeys es) = some x.other

theorem deForm_iff {X : ExtTypes} {C : ExtCodecs X} {es : Members} {x : Form X} :
  deForm C (.obj es) = some x ↔ FormRead C es x := by
  simp only [deForm, bind, pure]
  constructor
  · intro h
    obtain ⟨_, h0, h⟩ := Option.bind_eq_some_iff.1 h
    obtain ⟨_, h1, h⟩ := Option.bind_eq_some_iff.1 h
    obtain ⟨_, h2, h⟩ := Option.bind_eq_some_iff.1 h
    obtain ⟨_, h3, h⟩ := Option.bind_eq_some_iff.1 h
    obtain ⟨_, h4, h⟩ := Option.bind_eq_some_iff.1 h
    obtain ⟨_, h5, h⟩ := Option.bind_eq_some_iff.1 h
    obtain ⟨_, h6, h⟩ := Option.bind_eq_some_iff.1 h
    obtain ⟨_, h7, h⟩ := Option.bind_eq_some_iff.1 h
    obtain ⟨_, h8, h⟩ := Option.bind_eq_some_iff.1 h
    obtain ⟨_, h9, h⟩ := Option.bind_eq_some_iff.1 h
    cases h
    exact ⟨h0, h1, h2, h3, h4, h5, h6, h7, h8, h9⟩
  · intro h
    cases x
    simp only [h.op, h.href, h.contentType, h.contentCoding, h.subprotocol, h.security, h.scopes, h.response, h.additionalResponses, h.other, Option.bind_some]

/-- What the members `es` say of a link. -/
structure LinkRead (env : SerdeEnv) (es : Members) (x : Link) : Prop where
  href : required "href" deStr es = some x.href
  ty : optional "type" deStr es = some x.ty
  rel : optional "rel" deStr es = some x.rel
  anchor : optional "anchor" deStr es = some x.anchor
  sizes : optional "sizes" deStr es = some x.sizes
  hreflang : optional "hreflang" (deOneOrMany (deTagText env)) es = some x.hreflang

theorem deLink_iff {env : SerdeEnv} {es : Members} {x : Link} :
  deLink env (.obj es) = some x ↔ LinkRead env es x := by
  simp only [deLink, bind, pure]
  constructor
  · intro h
    obtain ⟨_, h0, h⟩ := Option.bind_eq_some_iff.1 h
    obtain ⟨_, h1, h⟩ := Option.bind_eq_some_iff.1 h
    obtain ⟨_, h2, h⟩ := Option.bind_eq_some_iff.1 h
    obtain ⟨_, h3, h⟩ := Option.bind_eq_some_iff.1 h
    obtain ⟨_, h4, h⟩ := Option.bind_eq_some_iff.1 h
    obtain ⟨_, h5, h⟩ := Option.bind_eq_some_iff.1 h
    cases h
    exact ⟨h0, h1, h2, h3, h4, h5⟩
  · intro h
    cases x
    simp only [h.href, h.ty, h.rel, h.anchor, h.sizes, h.hreflang, Option.bind_some]

/-- What the members `es` say of the common part of an affordance. -/
structure InteractionRead {X : ExtTypes} (C : ExtCodecs X) (env : SerdeEnv) (es : Members) (x : Interaction X) : Prop where
  attype : optional "@type" deStrings es = some x.attype
  title : optional "title" deStr es = some x.title
  titles : optional "titles" (deLang env) es = some x.titles
  description : optional "description" deStr es = some x.description
  descriptions : optional "descriptions" (deLang env) es = some x.descriptions
  forms : required "forms" (deVec (deForm C)) es = some x.forms
  uriVariables : optional "uriVariables" (deMap (deDS C env)) es = some x.uriVariables
  other : C.interaction.de (rest interactionKeys es) = some x.other

theorem deInteraction_iff {X : ExtTypes} {C : ExtCodecs X} {env : SerdeEnv} {es : Members} {x : Interaction X} :
  deInteraction C env es = some x ↔ InteractionRead C env es x := by
  simp only [deInteraction, bind, pure]
  constructor
  · intro h
    obtain ⟨_, h0, h⟩ := Option.bind_eq_some_iff.1 h
    obtain ⟨_, h1, h⟩ := Option.bind_eq_some_iff.1 h
    obtain ⟨_, h2, h⟩ := Option.bind_eq_some_iff.1 h
    obtain ⟨_, h3, h⟩ := Option.bind_eq_some_iff.1 h
    obtain ⟨_, h4, h⟩ := Option.bind_eq_some_iff.1 h
    obtain ⟨_, h5, h⟩ := Option.bind_eq_some_iff.1 h
    obtain ⟨_, h6, h⟩ := Option.bind_eq_some_iff.1 h
    obtain ⟨_, h7, h⟩ := Option.bind_eq_some_iff.1 h
    cases h
    exact ⟨h0, h1, h2, h3, h4, h5, h6, h7⟩
  · intro h
    cases x
    simp only [h.attype, h.title, h.titles, h.description, h.descriptions, h.forms, h.uriVariables, h.other, Option.bind_some]

/-- What the members `es` say of a property. -/
structure PropertyRead {X : ExtTypes} (C : ExtCodecs X) (env : SerdeEnv) (es : Members) (x : PropertyAffordance X) : Prop where
  observable : optional "observable" deBool es = some x.observable
  interaction : deInteraction C env (rest ["observable"] es) = some x.interaction
  dataSchema : deSchemaMembers C.dataSchema C.arraySchema C.objectSchema env (deDS C env) (rest ["observable"] es) = some x.dataSchema
  other : C.property.de (rest ["observable"] es) = some x.other

theorem deProperty_iff {X : ExtTypes} {C : ExtCodecs X} {env : SerdeEnv} {es : Members} {x : PropertyAffordance X} :
  deProperty C env (.obj es) = some x ↔ PropertyRead C env es x := by
  simp only [deProperty, bind, pure]
  constructor
  · intro h
    obtain ⟨_, h0, h⟩ := Option.bind_eq_some_iff.1 h
    obtain ⟨_, h1, h⟩ := Option.bind_eq_some_iff.1 h
    obtain ⟨_, h2, h⟩ := Option.bind_eq_some_iff.1 h
    obtain ⟨_, h3, h⟩ := Option.bind_eq_some_iff.1 h
    cases h
    exact ⟨h0, h1, h2, h3⟩
  · intro h
    cases x
    simp only [h.observable, h.interaction, h.dataSchema, h.other, Option.bind_some]

/-- What the members `es` say of an action. -/
structure ActionRead {X : ExtTypes} (C : ExtCodecs X) (env : SerdeEnv) (es : Members) (x : ActionAffordance X) : Prop where
  input : optional "input" (deDS C env) es = some x.input
  output : optional "output" (deDS C env) es = some x.output
  safe : defaulted "safe" false deBool es = some x.safe
  idempotent : defaulted "idempotent" false deBool es = some x.idempotent
  synchronous : optional "synchronous" deBool es = some x.synchronous
  interaction : deInteraction C env (rest actionKeys es) = some x.interaction
  other : C.action.de (rest actionKeys es) = some x.other

theorem deAction_iff {X : ExtTypes} {C : ExtCodecs X} {env : SerdeEnv} {es : Members} {x : ActionAffordance X} :
  deAction C env (.obj es) = some x ↔ ActionRead C env es x := by
  simp only [deAction, bind, pure]
  constructor
  · intro h
    obtain ⟨_, h0, h⟩ := Option.bind_eq_some_iff.1 h
    obtain ⟨_, h1, h⟩ := Option.bind_eq_some_iff.1 h
    obtain ⟨_, h2, h⟩ := Option.bind_eq_some_iff.1 h
    obtain ⟨_, h3, h⟩ := Option.bind_eq_some_iff.1 h
    obtain ⟨_, h4, h⟩ := Option.bind_eq_some_iff.1 h
    obtain ⟨_, h5, h⟩ := Option.bind_eq_some_iff.1 h
    obtain ⟨_, h6, h⟩ := Option.bind_eq_some_iff.1 h
    cases h
    exact ⟨h0, h1, h2, h3, h4, h5, h6⟩
  · intro h
    cases x
    simp only [h.input, h.output, h.safe, h.idempotent, h.synchronous, h.interaction, h.other, Option.bind_some]

/-- What the members `es` say of an event. -/
structure EventRead {X : ExtTypes} (C : ExtCodecs X) (env : SerdeEnv) (es : Members) (x : EventAffordance X) : Prop where
  subscription : optional "subscription" (deDS C env) es = some x.subscription
  data : optional "data" (deDS C env) es = some x.data
  dataResponse : optional "data_response" (deDS C env) es = some x.dataResponse
  cancellation : optional "cancellation" (deDS C env) es = some x.cancellation
  interaction : deInteraction C env (rest eventKeys es) = some x.interaction
  other : C.event.de (rest eventKeys es) = some x.other

theorem deEvent_iff {X : ExtTypes} {C : ExtCodecs X} {env : SerdeEnv} {es : Members} {x : EventAffordance X} :
  deEvent C env (.obj es) = some x ↔ EventRead C env es x := by
  simp only [deEvent, bind, pure]
  constructor
  · intro h
    obtain ⟨_, h0, h⟩ := Option.bind_eq_some_iff.1 h
    obtain ⟨_, h1, h⟩ := Option.bind_eq_some_iff.1 h
    obtain ⟨_, h2, h⟩ := Option.bind_eq_some_iff.1 h
    obtain ⟨_, h3, h⟩ := Option.bind_eq_some_iff.1 h
    obtain ⟨_, h4, h⟩ := Option.bind_eq_some_iff.1 h
    obtain ⟨_, h5, h⟩ := Option.bind_eq_some_iff.1 h
    cases h
    exact ⟨h0, h1, h2, h3, h4, h5⟩
  · intro h
    cases x
    simp only [h.subscription, h.data, h.dataResponse, h.cancellation, h.interaction, h.other, Option.bind_some]

/-- What the members `es` say of version information. -/
structure VersionRead (es : Members) (x : VersionInfo) : Prop where
  instance_ : required "instance" deStr es = some x.instance_
  model : optional "model" deStr es = some x.model

theorem deVersion_iff {es : Members} {x : VersionInfo} :
  deVersion (.obj es) = some x ↔ VersionRead es x := by
  simp only [deVersion, bind, pure]
  constructor
  · intro h
    obtain ⟨_, h0, h⟩ := Option.bind_eq_some_iff.1 h
    obtain ⟨_, h1, h⟩ := Option.bind_eq_some_iff.1 h
    cases h
    exact ⟨h0, h1⟩
  · intro h
    cases x
    simp only [h.instance_, h.model, Option.bind_some]

/-- What the members `es` say of a Thing. -/
structure ThingRead {X : ExtTypes} (C : ExtCodecs X) (env : SerdeEnv) (es : Members) (x : Thing X) : Prop where
  context : defaulted "@context" (.str tdContext11) deValue es = some x.context
  id : optional "id" deStr es = some x.id
  attype : optional "@type" deStrings es = some x.attype
  title : required "title" deStr es = some x.title
  titles : optional "titles" (deLang env) es = some x.titles
  description : optional "description" deStr es = some x.description
  descriptions : optional "descriptions" (deLang env) es = some x.descriptions
  version : optional "version" deVersion es = some x.version
  created : optional "created" (deTime env) es = some x.created
  modified : optional "modified" (deTime env) es = some x.modified
  support : optional "support" deStr es = some x.support
  base : optional "base" deStr es = some x.base
  properties : optional "properties" (deMap (deProperty C env)) es = some x.properties
  actions : optional "actions" (deMap (deAction C env)) es = some x.actions
  events : optional "events" (deMap (deEvent C env)) es = some x.events
  links : optional "links" (deVec (deLink env)) es = some x.links
  forms : optional "forms" (deVec (deForm C)) es = some x.forms
  security : required "security" deStrings es = some x.security
  securityDefinitions : required "securityDefinitions" (deMap (deSecurity env)) es = some x.securityDefinitions
  uriVariables : optional "uriVariables" (deMap (deDS C env)) es = some x.uriVariables
  profile : optional "profile" deStrings es = some x.profile
  schemaDefinitions : optional "schemaDefinitions" (deMap (deDS C env)) es = some x.schemaDefinitions
  other : C.thing.de (rest thingKeys es) = some x.other

theorem deThing_iff {X : ExtTypes} {C : ExtCodecs X} {env : SerdeEnv} {es : Members} {x : Thing X} :
  deThing C env (.obj es) = some x ↔ ThingRead C env es x := by
  simp only [deThing, bind, pure]
  constructor
  · intro h
    obtain ⟨_, h0, h⟩ := Option.bind_eq_some_iff.1 h
    obtain ⟨_, h1, h⟩ := Option.bind_eq_some_iff.1 h
    obtain ⟨_, h2, h⟩ := Option.bind_eq_some_iff.1 h
    obtain ⟨_, h3, h⟩ := Option.bind_eq_some_iff.1 h
    obtain ⟨_, h4, h⟩ := Option.bind_eq_some_iff.1 h
    obtain ⟨_, h5, h⟩ := Option.bind_eq_some_iff.1 h
    obtain ⟨_, h6, h⟩ := Option.bind_eq_some_iff.1 h
    obtain ⟨_, h7, h⟩ := Option.bind_eq_some_iff.1 h
    obtain ⟨_, h8, h⟩ := Option.bind_eq_some_iff.1 h
    obtain ⟨_, h9, h⟩ := Option.bind_eq_some_iff.1 h
    obtain ⟨_, h10, h⟩ := Option.bind_eq_some_iff.1 h
    obtain ⟨_, h11, h⟩ := Option.bind_eq_some_iff.1 h
    obtain ⟨_, h12, h⟩ := Option.bind_eq_some_iff.1 h
    obtain ⟨_, h13, h⟩ := Option.bind_eq_some_iff.1 h
    obtain ⟨_, h14, h⟩ := Option.bind_eq_some_iff.1 h
    obtain ⟨_, h15, h⟩ := Option.bind_eq_some_iff.1 h
    obtain ⟨_, h16, h⟩ := Option.bind_eq_some_iff.1 h
    obtain ⟨_, h17, h⟩ := Option.bind_eq_some_iff.1 h
    obtain ⟨_, h18, h⟩ := Option.bind_eq_some_iff.1 h
    obtain ⟨_, h19, h⟩ := Option.bind_eq_some_iff.1 h
    obtain ⟨_, h20, h⟩ := Option.bind_eq_some_iff.1 h
    obtain ⟨_, h21, h⟩ := Option.bind_eq_some_iff.1 h
    obtain ⟨_, h22, h⟩ := Option.bind_eq_some_iff.1 h
    cases h
    exact ⟨h0, h1, h2, h3, h4, h5, h6, h7, h8, h9, h10, h11, h12, h13, h14, h15, h16, h17, h18, h19, h20, h21, h22⟩
  · intro h
    cases x
    simp only [h.context, h.id, h.attype, h.title, h.titles, h.description, h.descriptions, h.version, h.created, h.modified, h.support, h.base, h.properties, h.actions, h.events, h.links, h.forms, h.security, h.securityDefinitions, h.uriVariables, h.profile, h.schemaDefinitions, h.other, Option.bind_some]

/-- What the members `es` say of a data schema. -/
structure SchemaRead {DSx AS OS : Type} (C : ExtCodec DSx) (CA : ExtCodec AS) (CO : ExtCodec OS)
    (env : SerdeEnv) (sub : Json → Option (DataSchema DSx AS OS)) (es : Members)
    (x : DataSchema DSx AS OS) : Prop where
  attype : optional "@type" deStrings es = some x.head.attype
  title : optional "title" deStr es = some x.head.title
  titles : optional "titles" (deLang env) es = some x.head.titles
  description : optional "description" deStr es = some x.head.description
  descriptions : optional "descriptions" (deLang env) es = some x.head.descriptions
  constant : optional "const" deValue es = some x.head.constant
  default : optional "default" deValue es = some x.head.default
  unit : optional "unit" deStr es = some x.head.unit
  oneOf : optional "oneOf" (deVec sub) es = some x.oneOf
  enumeration : optional "enum" (deVec deValue) es = some x.head.enumeration
  readOnly : defaulted "readOnly" false deBool es = some x.head.readOnly
  writeOnly : defaulted "writeOnly" false deBool es = some x.head.writeOnly
  format : optional "format" deStr es = some x.head.format
  other : C.de (rest schemaKeys es) = some x.head.other
  subtype : deSchemaSubtype CA CO sub (rest schemaKeys es) = x.subtype

theorem deSchemaMembers_iff {DSx AS OS : Type} {C : ExtCodec DSx} {CA : ExtCodec AS} {CO : ExtCodec OS}
    {env : SerdeEnv} {sub : Json → Option (DataSchema DSx AS OS)} {es : Members}
    {x : DataSchema DSx AS OS} :
    deSchemaMembers C CA CO env sub es = some x ↔ SchemaRead C CA CO env sub es x := by
  simp only [deSchemaMembers, bind, pure]
  constructor
  · intro h
    obtain ⟨_, h0, h⟩ := Option.bind_eq_some_iff.1 h
    obtain ⟨_, h1, h⟩ := Option.bind_eq_some_iff.1 h
    obtain ⟨_, h2, h⟩ := Option.bind_eq_some_iff.1 h
    obtain ⟨_, h3, h⟩ := Option.bind_eq_some_iff.1 h
    obtain ⟨_, h4, h⟩ := Option.bind_eq_some_iff.1 h
    obtain ⟨_, h5, h⟩ := Option.bind_eq_some_iff.1 h
    obtain ⟨_, h6, h⟩ := Option.bind_eq_some_iff.1 h
    obtain ⟨_, h7, h⟩ := Option.bind_eq_some_iff.1 h
    obtain ⟨_, h8, h⟩ := Option.bind_eq_some_iff.1 h
    obtain ⟨_, h9, h⟩ := Option.bind_eq_some_iff.1 h
    obtain ⟨_, h10, h⟩ := Option.bind_eq_some_iff.1 h
    obtain ⟨_, h11, h⟩ := Option.bind_eq_some_iff.1 h
    obtain ⟨_, h12, h⟩ := Option.bind_eq_some_iff.1 h
    obtain ⟨_, h13, h⟩ := Option.bind_eq_some_iff.1 h
    cases h
    exact ⟨h0, h1, h2, h3, h4, h5, h6, h7, h8, h9, h10, h11, h12, h13, rfl⟩
  · intro h
    obtain ⟨hd, o, st⟩ := x
    obtain ⟨h0, h1, h2, h3, h4, h5, h6, h7, h8, h9, h10, h11, h12, h13, h14⟩ := h
    simp only [h0, h1, h2, h3, h4, h5, h6, h7, h8, h9, h10, h11, h12, h13, h14, Option.bind_some]
    rfl

end Wot

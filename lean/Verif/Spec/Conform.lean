import Verif.Spec.Vocabulary
import Verif.Spec.Thing
import Verif.Spec.Grammar
/-
When a JSON value is a Thing Description: the mandatory members and the types of members in the tables of the W3C
Recommendation "Web of Things (WoT) Thing Description 1.1", section 5.3, and what it says about their values. Security
configurations and the forms of an affordance must not be empty, as in the JSON Schema of its appendix.

Members that the Recommendation does not define are allowed everywhere. URIs, media types and patterns are not looked
into; which strings are language tags and instants is a parameter. Not stated are the rules that relate `name` and
`in` of a security definition to URI variables.
-/
namespace Wot
namespace Conform
set_option inductive.autoPromoteIndices false

/-- Which strings are language tags (BCP 47) and instants (RFC 3339). -/
structure Formats where
  tag : String → Prop
  instant : String → Prop

/-! ### Values -/

/-- If there is a member `k`, its value is as it should be. -/
def May (k : String) (P : Json → Prop) (v : Json) : Prop := ∀ w, v.member k = some w → P w

/-- There is a member `k`, and its value is as it should be. -/
def Must (k : String) (P : Json → Prop) (v : Json) : Prop := ∃ w, v.member k = some w ∧ P w

/-- A string with a property. -/
def Str (P : String → Prop) (v : Json) : Prop := ∃ s, v = .str s ∧ P s

abbrev Text : Json → Prop := Str fun _ => True

def Flag (v : Json) : Prop := ∃ b, v = .bool b

def Number (v : Json) : Prop := ∃ n, v = .num n

def Natural (v : Json) : Prop := ∃ n, v = .num (.pos n)

/-- A number greater than zero. -/
inductive Positive : Json → Prop
  | integer {n : Nat} : 0 < n → Positive (.num (.pos n))
  | float {f : F64} : F64.Lt F64.zero f → Positive (.num (.float f))

/-- An array of such values. -/
def Array (P : Json → Prop) (v : Json) : Prop := ∃ l, v = .arr l ∧ ∀ w ∈ l, P w

/-- An array of at least `n` such values. -/
def ArrayMin (n : Nat) (P : Json → Prop) (v : Json) : Prop := ∃ l, v = .arr l ∧ n ≤ l.length ∧ ∀ w ∈ l, P w

/-- One such value, or an array of them. -/
def OneOrMany (P : Json → Prop) (v : Json) : Prop := P v ∨ Array P v

/-- An object with such members, whatever their names. -/
def Map (P : Json → Prop) (v : Json) : Prop := v.IsObject ∧ ∀ k w, v.member k = some w → P w

/-- One or more names. -/
def Names (D : String → Prop) (v : Json) : Prop := Str D v ∨ ArrayMin 1 (Str D) v

variable (F : Formats)

/-- Texts in several languages. -/
def Translations (v : Json) : Prop := v.IsObject ∧ ∀ k w, v.member k = some w → F.tag k ∧ Text w

/-- The members of a class that all kinds of objects have. -/
structure Info (v : Json) : Prop where
  attype : May "@type" (OneOrMany Text) v
  title : May "title" Text v
  titles : May "titles" (Translations F) v
  description : May "description" Text v
  descriptions : May "descriptions" (Translations F) v

/-! ### Data schemas (section 5.3.2) -/

/-- The members of a data schema, without the schemas in it. -/
structure SchemaNode (v : Json) : Prop where
  object : v.IsObject
  info : Info F v
  unit : May "unit" Text v
  oneOf : May "oneOf" (Array fun _ => True) v
  enumeration : May "enum" (Array fun _ => True) v
  readOnly : May "readOnly" Flag v
  writeOnly : May "writeOnly" Flag v
  format : May "format" Text v
  type : May "type" (Str (· ∈ ["object", "array", "string", "number", "integer", "boolean", "null"])) v
  items : May "items" (fun w => w.IsObject ∨ Array (fun _ => True) w) v
  minItems : May "minItems" Natural v
  maxItems : May "maxItems" Natural v
  minimum : May "minimum" Number v
  exclusiveMinimum : May "exclusiveMinimum" Number v
  maximum : May "maximum" Number v
  exclusiveMaximum : May "exclusiveMaximum" Number v
  multipleOf : May "multipleOf" Positive v
  properties : May "properties" (fun w => w.IsObject) v
  required : May "required" (Array Text) v
  minLength : May "minLength" Natural v
  maxLength : May "maxLength" Natural v
  pattern : May "pattern" Text v
  contentEncoding : May "contentEncoding" Text v
  contentMediaType : May "contentMediaType" Text v

/-- A data schema. The schemas in it are the elements of `oneOf`, the value of `items` or its elements, and the members
of `properties`. -/
inductive Schema : Json → Prop
  | mk {v : Json} : SchemaNode F v → (∀ w, v.SchemaIn w → Schema w) → Schema v

/-- URI variables are not arrays or objects (section 5.3.1.2). -/
def UriVariable (v : Json) : Prop := Schema F v ∧ v.member "type" ≠ some (.str "array") ∧ v.member "type" ≠ some (.str "object")

/-! ### Forms and links (section 5.3.4) -/

/-- The operations that a form can have, depending on where it is. -/
def operations : FormContext → List String
  | .thing => ["readallproperties", "writeallproperties", "readmultipleproperties", "writemultipleproperties",
      "observeallproperties", "unobserveallproperties", "subscribeallevents", "unsubscribeallevents",
      "queryallactions"]
  | .property => ["readproperty", "writeproperty", "observeproperty", "unobserveproperty"]
  | .action => ["invokeaction", "queryaction", "cancelaction"]
  | .event => ["subscribeevent", "unsubscribeevent"]

/-- An additional response; `S` are the names in `schemaDefinitions`. -/
structure Additional (S : String → Prop) (v : Json) : Prop where
  object : v.IsObject
  success : May "success" Flag v
  contentType : May "contentType" Text v
  schema : May "schema" (Str S) v

/-- A form; `D` are the names in `securityDefinitions`. Forms of a Thing need operations, there is no default. -/
structure Form (ctx : FormContext) (D S : String → Prop) (v : Json) : Prop where
  object : v.IsObject
  href : Must "href" Text v
  contentType : May "contentType" Text v
  contentCoding : May "contentCoding" Text v
  subprotocol : May "subprotocol" Text v
  security : May "security" (Names D) v
  scopes : May "scopes" (OneOrMany Text) v
  response : May "response" (fun w => w.IsObject ∧ Must "contentType" Text w) v
  additionalResponses : May "additionalResponses" (OneOrMany (Additional S)) v
  op : May "op" (OneOrMany (Str (· ∈ operations ctx))) v
  opGiven : ctx = .thing → v.member "op" ≠ none

/-- A link. Only icons have sizes. -/
structure Link (v : Json) : Prop where
  object : v.IsObject
  href : Must "href" Text v
  type : May "type" Text v
  rel : May "rel" Text v
  anchor : May "anchor" Text v
  sizes : May "sizes" (fun w => Text w ∧ v.member "rel" = some (.str "icon")) v
  hreflang : May "hreflang" (OneOrMany (Str F.tag)) v

/-! ### Security definitions (section 5.3.3) -/

/-- The members of a scheme with credentials in a place. -/
structure Located (places : List String) (v : Json) : Prop where
  place : May "in" (Str (· ∈ places)) v
  name : May "name" Text v

/-- The places where credentials can be, in most schemes. -/
def places : List String := ["header", "query", "body", "cookie", "auto"]

/-- The members that depend on the scheme. -/
inductive Scheme (D : String → Prop) : String → Json → Prop
  | nosec {v : Json} : Scheme D "nosec" v
  | auto {v : Json} : Scheme D "auto" v
  | oneOf {v : Json} : Must "oneOf" (ArrayMin 2 (Str D)) v → v.member "allOf" = none → Scheme D "combo" v
  | allOf {v : Json} : Must "allOf" (ArrayMin 2 (Str D)) v → v.member "oneOf" = none → Scheme D "combo" v
  | basic {v : Json} : Located places v → Scheme D "basic" v
  | digest {v : Json} : Located places v → May "qop" (Str (· ∈ ["auth", "auth-int"])) v → Scheme D "digest" v
  | apikey {v : Json} : Located ("uri" :: places) v → Scheme D "apikey" v
  | bearer {v : Json} : Located places v → May "authorization" Text v → May "alg" Text v → May "format" Text v →
      Scheme D "bearer" v
  | psk {v : Json} : May "identity" Text v → Scheme D "psk" v
  | oauth2 {v : Json} {flow : String} : v.member "flow" = some (.str flow) → May "authorization" Text v →
      May "token" Text v → May "refresh" Text v → May "scopes" (OneOrMany Text) v →
      (flow ∈ ["code", "client", "device"] → v.member "token" ≠ none) →
      (flow ∈ ["code", "device"] → v.member "authorization" ≠ none) →
      (flow = "client" → v.member "authorization" = none) → Scheme D "oauth2" v
  | other {v : Json} {s : String} : s ∉ Vocabulary.scheme.map (·.1) → Scheme D s v

/-- A security definition. -/
structure Security (D : String → Prop) (v : Json) : Prop where
  object : v.IsObject
  attype : May "@type" (OneOrMany Text) v
  description : May "description" Text v
  descriptions : May "descriptions" (Translations F) v
  proxy : May "proxy" Text v
  scheme : Must "scheme" (Str fun s => Scheme D s v) v

/-! ### Affordances and Things (section 5.3.1) -/

/-- The members of all affordances. -/
structure Interaction (ctx : FormContext) (D S : String → Prop) (v : Json) : Prop where
  object : v.IsObject
  info : Info F v
  forms : Must "forms" (ArrayMin 1 (Form ctx D S)) v
  uriVariables : May "uriVariables" (Map (UriVariable F)) v

/-- A property is also a data schema. -/
structure Property (D S : String → Prop) (v : Json) : Prop where
  interaction : Interaction F .property D S v
  schema : Schema F v
  observable : May "observable" Flag v

structure Action (D S : String → Prop) (v : Json) : Prop where
  interaction : Interaction F .action D S v
  input : May "input" (Schema F) v
  output : May "output" (Schema F) v
  safe : May "safe" Flag v
  idempotent : May "idempotent" Flag v
  synchronous : May "synchronous" Flag v

structure Event (D S : String → Prop) (v : Json) : Prop where
  interaction : Interaction F .event D S v
  subscription : May "subscription" (Schema F) v
  data : May "data" (Schema F) v
  dataResponse : May "dataResponse" (Schema F) v
  cancellation : May "cancellation" (Schema F) v

def Version (v : Json) : Prop := v.IsObject ∧ Must "instance" Text v ∧ May "model" Text v

/-- The first entry of `@context` is that of version 1.1, or it is the second after that of version 1.0. -/
inductive Context : Json → Prop
  | single : Context (.str "https://www.w3.org/2022/wot/td/v1.1")
  | many {l : List Json} : (∀ w ∈ l, Text w ∨ w.IsObject) →
      Context (.arr (.str "https://www.w3.org/2022/wot/td/v1.1" :: l))
  | both {l : List Json} : (∀ w ∈ l, Text w ∨ w.IsObject) →
      Context (.arr (.str "https://www.w3.org/2019/wot/td/v1" :: .str "https://www.w3.org/2022/wot/td/v1.1" :: l))

/-- The object that is the member `k` has a member `n`. -/
def Defined (k : String) (v : Json) (n : String) : Prop := ∃ o, v.member k = some o ∧ o.member n ≠ none

/-- A Thing Description. -/
structure Thing (v : Json) : Prop where
  object : v.IsObject
  context : Must "@context" Context v
  title : Must "title" Text v
  info : Info F v
  id : May "id" Text v
  version : May "version" Version v
  created : May "created" (Str F.instant) v
  modified : May "modified" (Str F.instant) v
  support : May "support" Text v
  base : May "base" Text v
  properties : May "properties" (Map (Property F (Defined "securityDefinitions" v) (Defined "schemaDefinitions" v))) v
  actions : May "actions" (Map (Action F (Defined "securityDefinitions" v) (Defined "schemaDefinitions" v))) v
  events : May "events" (Map (Event F (Defined "securityDefinitions" v) (Defined "schemaDefinitions" v))) v
  links : May "links" (Array (Link F)) v
  forms : May "forms" (Array (Form .thing (Defined "securityDefinitions" v) (Defined "schemaDefinitions" v))) v
  security : Must "security" (Names (Defined "securityDefinitions" v)) v
  securityDefinitions : Must "securityDefinitions" (Map (Security F (Defined "securityDefinitions" v))) v
  uriVariables : May "uriVariables" (Map (UriVariable F)) v
  profile : May "profile" (OneOrMany Text) v
  schemaDefinitions : May "schemaDefinitions" (Map (Schema F)) v

end Conform

/-! ### The Things whose documents conform -/

/-- All languages of these translations are language tags. -/
def TagsIn (F : Conform.Formats) (o : Option MultiLanguage) : Prop := ∀ m, o = some m → ∀ k ∈ HMap.keys m.map, F.tag k

/-- What a data schema needs, without the schemas in it. -/
structure NodeProper {DSx AS OS : Type} (F : Conform.Formats) (x : DataSchema DSx AS OS) : Prop where
  titles : TagsIn F x.head.titles
  descriptions : TagsIn F x.head.descriptions
  minimum : ∀ n b, x.subtype = some (.number n) → n.minimum = some b → b.bound.isFinite = true
  maximum : ∀ n b, x.subtype = some (.number n) → n.maximum = some b → b.bound.isFinite = true
  multipleOf : ∀ n m, x.subtype = some (.number n) → n.multipleOf = some m → m.isFinite = true ∧ F64.Lt F64.zero m

/-- What a form needs. -/
structure FormProper {X : ExtTypes} (ctx : FormContext) (D S : String → Prop) (f : Form X) : Prop where
  default : f.op = .default → ctx ≠ .thing
  ops : ∀ l, f.op = .custom l → l ≠ [] ∧ ∀ o ∈ l, o ∈ operationsOf ctx
  security : ∀ l, f.security = some l → l ≠ [] ∧ ∀ n ∈ l, D n
  schemas : ∀ l r n, f.additionalResponses = some l → r ∈ l → r.schema = some n → S n

/-- What a link needs. -/
structure LinkProper (F : Conform.Formats) (l : Link) : Prop where
  sizes : l.sizes ≠ none → l.rel = some "icon"
  hreflang : ∀ ks, l.hreflang = some ks → ∀ k ∈ ks, F.tag k

/-- What a scheme needs. Those that are kept as they are given can have the names of predefined ones. -/
def SchemeProper (D : String → Prop) : SchemeSubtype → Prop
  | .known (.combo (.oneOf l)) | .known (.combo (.allOf l)) => 2 ≤ l.length ∧ ∀ n ∈ l, D n
  | .known (.basic s) => s.location ≠ .uri
  | .known (.digest s) => s.location ≠ .uri
  | .known (.bearer s) => s.location ≠ .uri
  | .known (.oauth2 s) => (s.flow ∈ ["code", "client", "device"] → s.token ≠ none) ∧
      (s.flow ∈ ["code", "device"] → s.authorization ≠ none) ∧ (s.flow = "client" → s.authorization = none)
  | .unknown name data => Conform.Scheme D name data.norm
  | _ => True

/-- What a Thing needs for its document to conform to the Recommendation. -/
structure Thing.Proper {X : ExtTypes} (F : Conform.Formats) (env : SerdeEnv) (t : Thing X) : Prop where
  context : Conform.Context t.context.norm
  titles : TagsIn F t.titles
  descriptions : TagsIn F t.descriptions
  /-- a version has a model -/
  version : ∀ i, t.version = some i → i.model ≠ none
  created : ∀ d s, t.created = some d → env.timeFormat d = some s → F.instant s
  modified : ∀ d s, t.modified = some d → env.timeFormat d = some s → F.instant s
  links : ∀ ls l, t.links = some ls → l ∈ ls → LinkProper F l
  security : t.security ≠ [] ∧ ∀ n ∈ t.security, t.Defines n
  schemes : ∀ n s, (n, s) ∈ t.securityDefinitions → SchemeProper t.Defines s.subtype ∧ TagsIn F s.descriptions
  forms : ∀ ctx f, t.HasForm ctx f → FormProper ctx t.Defines t.Declares f
  interactions : ∀ i, t.HasInteraction i → i.forms ≠ [] ∧ TagsIn F i.titles ∧ TagsIn F i.descriptions
  uriVariables : ∀ s, t.HasSchema .uriVariable s →
    (∀ a, s.subtype ≠ some (.array a)) ∧ ∀ o, s.subtype ≠ some (.object o)
  /-- the response to an event is not written under the name that the Recommendation has for it -/
  schemas : ∀ p s x, p ≠ .dataResponse → t.HasSchema p s → Within x s → NodeProper F x

/-- What a Thing needs for its document to conform to the Recommendation, beyond what `build` ensures. -/
structure Thing.Careful {X : ExtTypes} (t : Thing X) : Prop where
  /-- a version has a model -/
  version : ∀ i, t.version = some i → i.model ≠ none
  /-- a security scheme is required -/
  security : t.security ≠ []
  /-- combinations have at least two members, credentials are in the URI only for API keys, and endpoints of OAuth2 are
  given as needed for the flow -/
  schemes : ∀ n s k, (n, s) ∈ t.securityDefinitions → s.subtype = .known k → SchemeProper (fun _ => True) (.known k)
  /-- custom schemes that have the name of a predefined one have its members -/
  customs : ∀ n s name data, (n, s) ∈ t.securityDefinitions → s.subtype = .unknown name data →
    Conform.Scheme t.Defines name data.norm
  /-- schemas that are named by responses in affordances are defined -/
  responses : ∀ ctx f l r n, t.HasForm ctx f → ctx ≠ .thing → f.additionalResponses = some l → r ∈ l →
    r.schema = some n → t.Declares n
  /-- affordances have forms -/
  forms : ∀ i, t.HasInteraction i → i.forms ≠ []
  /-- bounds are finite, steps are finite and greater than zero -/
  numbers : ∀ p s x n, p ≠ .dataResponse → t.HasSchema p s → Within x s → x.subtype = some (.number n) →
    (∀ b, n.minimum = some b → b.bound.isFinite = true) ∧ (∀ b, n.maximum = some b → b.bound.isFinite = true) ∧
    ∀ m, n.multipleOf = some m → m.isFinite = true ∧ F64.Lt F64.zero m

/-- The language tags and instants that the library makes are such. -/
structure Conform.Formats.Covers (F : Conform.Formats) (e : Env) (env : SerdeEnv) : Prop where
  tag : ∀ k tag, e.langParse k = some tag → F.tag tag
  instant : ∀ d s, env.timeFormat d = some s → F.instant s

/-- The language tags and instants can be read by the library. -/
structure Conform.Formats.ReadBy (F : Conform.Formats) (env : SerdeEnv) : Prop where
  tag : ∀ s, F.tag s → ∃ tag, env.langRead s = some tag
  instant : ∀ s, F.instant s → ∃ d, env.timeParse s = some d

/-- Language tags and instants that are read stay such. -/
structure Conform.Formats.KeptBy (F : Conform.Formats) (env : SerdeEnv) : Prop where
  tag : ∀ s tag, F.tag s → env.langRead s = some tag → F.tag tag
  instant : ∀ s d s', F.instant s → env.timeParse s = some d → env.timeFormat d = some s' → F.instant s'

/-- `f` is a form in the document: of the Thing, or of one of its affordances. -/
inductive Conform.FormIn (d : Json) : Json → Prop
  | thing {f : Json} : d.Element "forms" f → Conform.FormIn d f
  | property {a f : Json} : d.Entry "properties" a → a.Element "forms" f → Conform.FormIn d f
  | action {a f : Json} : d.Entry "actions" a → a.Element "forms" f → Conform.FormIn d f
  | event {a f : Json} : d.Entry "events" a → a.Element "forms" f → Conform.FormIn d f

/-- The definition of a scheme is one that the library understands: the place of credentials is not `auto`, the quality of
protection is given, and combinations have no members of their own besides the schemes that are combined. -/
structure Conform.Understood (name : String) (v : Json) : Prop where
  predefined : name ∈ Vocabulary.scheme.map (·.1)
  place : name ∈ ["basic", "digest", "apikey", "bearer"] → v.member "in" ≠ some (.str "auto")
  qop : name = "digest" → v.member "qop" ≠ none
  combo : name = "combo" → v.Only ("oneOf" :: "allOf" :: Vocabulary.security)

/-- The extensions accept any members. -/
structure ExtCodecs.Lenient {X : ExtTypes} (C : ExtCodecs X) : Prop where
  thing : ∀ m, ∃ a, C.thing.de m = some a
  interaction : ∀ m, ∃ a, C.interaction.de m = some a
  property : ∀ m, ∃ a, C.property.de m = some a
  action : ∀ m, ∃ a, C.action.de m = some a
  event : ∀ m, ∃ a, C.event.de m = some a
  form : ∀ m, ∃ a, C.form.de m = some a
  response : ∀ m, ∃ a, C.response.de m = some a
  dataSchema : ∀ m, ∃ a, C.dataSchema.de m = some a

/-- The extensions do not use those names of the Recommendation that are not used by the library. -/
def ExtCodecs.Foreign {X : ExtTypes} (C : ExtCodecs X) : Prop :=
  ∀ k ∈ ["minItems", "maxItems", "dataResponse"], k ∉ C.interaction.keys ∧ k ∉ C.property.keys ∧ k ∉ C.event.keys ∧
    k ∉ C.dataSchema.keys ∧ k ∉ C.arraySchema.keys ∧ k ∉ C.objectSchema.keys

end Wot

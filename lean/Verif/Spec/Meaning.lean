import Verif.Spec.Typed
import Verif.Spec.Written
/-
What a Thing Description document means: the relation between documents and the Things they describe. (`Spec/Grammar`
says which documents are accepted; here it is said what for.)
-/
namespace Wot
set_option inductive.autoPromoteIndices false
namespace Doc

/-! ### Members -/

section
variable {T : Type}

/-- A member that must be there, once. -/
inductive Must (k : String) (Is : Json → T → Prop) : Members → T → Prop
  | mk {es : Members} {v : Json} {x : T} : occ k es = [v] → Is v x → Must k Is es x

/-- A member that can be left out: then the default `d` counts. -/
inductive Else (k : String) (d : T) (Is : Json → T → Prop) : Members → T → Prop
  | absent {es : Members} : occ k es = [] → Else k d Is es d
  | given {es : Members} {v : Json} {x : T} : occ k es = [v] → Is v x → Else k d Is es x

/-- `null` stands for no value. -/
inductive OrNone (Is : Json → T → Prop) : Json → Option T → Prop
  | null : OrNone Is .null none
  | value {v : Json} {x : T} : v ≠ .null → Is v x → OrNone Is v (some x)

/-- A member that can be left out or `null`. -/
inductive May (k : String) (Is : Json → T → Prop) : Members → Option T → Prop
  | absent {es : Members} : occ k es = [] → May k Is es none
  | given {es : Members} {v : Json} {o : Option T} : occ k es = [v] → OrNone Is v o → May k Is es o

/-- What the extension makes of the members whose names are not in `K`. -/
def Ext (c : ExtCodec T) (K : List String) (es : Members) (a : T) : Prop :=
  c.de (es.filter fun kv => !K.contains kv.1) = some a

/-! ### Values -/

/-- A JSON value as it is stored: of members with the same name, the last counts. -/
def IsValue (v x : Json) : Prop := x = v.norm

def IsFlag (v : Json) (b : Bool) : Prop := v = .bool b

/-- One of several names, as a string or as an object with `null` or an empty object. -/
def IsNamed (text : T → String) (v : Json) (x : T) : Prop :=
  v = .str (text x) ∨ v = .obj [(text x, .null)] ∨ v = .obj [(text x, .obj [])]

/-- An array. -/
inductive IsArray (R : Json → T → Prop) : Json → List T → Prop
  | mk {l : List Json} {xs : List T} : Pointwise R l xs → IsArray R (.arr l) xs

/-- One value, or an array. -/
inductive IsOneOrMany (R : Json → T → Prop) : Json → List T → Prop
  | one {v : Json} {x : T} : R v x → IsOneOrMany R v [x]
  | many {v : Json} {xs : List T} : IsArray R v xs → IsOneOrMany R v xs

/-- One text, or an array of texts. -/
abbrev IsOneOrManyStrings : Json → List String → Prop := IsOneOrMany IsString

/-- The value means something. -/
inductive Meaningful (R : Json → T → Prop) : Json → Prop
  | mk {v : Json} {x : T} : R v x → Meaningful R v

/-- An object from names to values: of members with the same name, the last counts, but all must be as they should. -/
inductive IsMapOf (R : Json → T → Prop) : Json → HMap T → Prop
  | mk {es : Members} {m : HMap T} : (∀ kv ∈ es, Meaningful R kv.2) → m.Sorted →
      (∀ k, OptRel R (lastOf (occ k es)) (m.get? k)) → IsMapOf R (.obj es) m

end

/-- Translations. The tags are those that the parser makes of the names; of members with the same tag, the last
counts. -/
inductive IsTranslations (env : SerdeEnv) : Json → MultiLanguage → Prop
  | mk {es : Members} {m : MultiLanguage} :
      (∀ kv ∈ es, (∃ tag, env.langRead kv.1 = some tag) ∧ IsText kv.2) → m.map.Sorted →
      (∀ tag, OptRel IsString (lastOf (es.filterMap fun kv => if env.langRead kv.1 = some tag then some kv.2 else none))
        (m.map.get? tag)) → IsTranslations env (.obj es) m

/-- A date and time. -/
def IsInstant (env : SerdeEnv) (v : Json) (d : OffsetDateTime) : Prop := ∃ s, v = .str s ∧ env.timeParse s = some d

/-- A language tag. -/
def IsTag (env : SerdeEnv) (v : Json) (tag : String) : Prop := ∃ s, v = .str s ∧ env.langRead s = some tag

/-! ### Security definitions -/

/-- What the members say of the predefined scheme of this name. -/
inductive IsPredefined : String → Members → KnownScheme → Prop
  | nosec {es : Members} : IsPredefined "nosec" es .noSec
  | auto {es : Members} : IsPredefined "auto" es .auto
  | oneOf {v : Json} {l : List String} : IsOneOrManyStrings v l → IsPredefined "combo" [("oneOf", v)] (.combo (.oneOf l))
  | allOf {v : Json} {l : List String} : IsOneOrManyStrings v l → IsPredefined "combo" [("allOf", v)] (.combo (.allOf l))
  | basic {es : Members} {s : BasicScheme} : Else "in" .header (IsNamed SecLocation.text) es s.location →
      May "name" IsString es s.name → IsPredefined "basic" es (.basic s)
  | digest {es : Members} {s : DigestScheme} : Must "qop" (IsNamed QoP.text) es s.qop →
      Else "in" .header (IsNamed SecLocation.text) es s.location → May "name" IsString es s.name →
      IsPredefined "digest" es (.digest s)
  | apikey {es : Members} {s : ApiKeyScheme} : Else "in" .query (IsNamed SecLocation.text) es s.location →
      May "name" IsString es s.name → IsPredefined "apikey" es (.apiKey s)
  | bearer {es : Members} {s : BearerScheme} : May "authorization" IsString es s.authorization →
      Else "alg" "ES256" IsString es s.alg → Else "format" "jwt" IsString es s.format →
      Else "in" .header (IsNamed SecLocation.text) es s.location → May "name" IsString es s.name →
      IsPredefined "bearer" es (.bearer s)
  | psk {es : Members} {s : PskScheme} : May "identity" IsString es s.identity → IsPredefined "psk" es (.psk s)
  | oauth2 {es : Members} {s : OAuth2Scheme} : May "authorization" IsString es s.authorization →
      May "token" IsString es s.token → May "refresh" IsString es s.refresh →
      May "scopes" IsOneOrManyStrings es s.scopes → Must "flow" IsString es s.flow →
      IsPredefined "oauth2" es (.oauth2 s)

/-- A scheme is predefined if it has the name (or the number) of one and suitable members, and custom otherwise. -/
inductive IsScheme (es : Members) : SchemeSubtype → Prop
  | known {v : Json} {s : String} {k : KnownScheme} : occ "scheme" es = [v] →
      (v = .str s ∨ ∃ n, v = .num (.pos n) ∧ schemes[n]? = some s) → IsPredefined s (schemeMembers es) k →
      IsScheme es (.known k)
  | custom {s : String} {data : Json} : occ "scheme" es = [.str s] → ¬ Predefined s (schemeMembers es) →
      IsValue (.obj (schemeMembers es)) data → IsScheme es (.unknown s data)

structure IsSecurityMembers (env : SerdeEnv) (es : Members) (s : SecurityScheme) : Prop where
  attype : May "@type" IsOneOrManyStrings es s.attype
  description : May "description" IsString es s.description
  descriptions : May "descriptions" (IsTranslations env) es s.descriptions
  proxy : May "proxy" IsString es s.proxy
  subtype : IsScheme es s.subtype

/-- An object with such members. -/
inductive IsObject {T : Type} (R : Members → T → Prop) : Json → T → Prop
  | mk {es : Members} {x : T} : R es x → IsObject R (.obj es) x

/-- A security definition. -/
abbrev IsSecurity (env : SerdeEnv) : Json → SecurityScheme → Prop := IsObject (IsSecurityMembers env)

/-! ### Data schemas -/

section Schema
variable {DSx AS OS S : Type}

/-- The items of an array: one schema, or an array of schemas. -/
inductive AreItems (R : Json → S → Prop) : Json → ElemOrVec S → Prop
  | elem {v : Json} {s : S} : R v s → AreItems R v (.elem s)
  | vec {v : Json} {ss : List S} : IsArray R v ss → AreItems R v (.vec ss)

/-- What the members that depend on the type say; `R` is what nested schemas mean, `K` are names of members that do
not belong to the schema. A schema has no type if the type is not named or the members do not fit. -/
inductive IsType (env : SerdeEnv) (C : ExtCodec DSx) (CA : ExtCodec AS) (CO : ExtCodec OS) (K : List String)
    (R : Json → S → Prop) : Members → Option (SubtypeF AS OS S) → Prop
  | none {es : Members} : (∀ T, TypeIs T es → ¬ Constraints env C CA CO K es T) → IsType env C CA CO K R es none
  | boolean {es : Members} : TypeIs "boolean" es → IsType env C CA CO K R es (some .boolean)
  | null {es : Members} : TypeIs "null" es → IsType env C CA CO K R es (some .null)
  | number {es : Members} {n : NumberSchema} : TypeIs "number" es → SaysMaximum es IsFloat n.maximum →
      SaysMinimum es IsFloat n.minimum → May "multipleOf" IsFloat es n.multipleOf →
      IsType env C CA CO K R es (some (.number n))
  | integer {es : Members} {n : IntegerSchema} : TypeIs "integer" es → SaysMaximum es IsI64 n.maximum →
      SaysMinimum es IsI64 n.minimum → May "multipleOf" IsNonZero es n.multipleOf →
      IsType env C CA CO K R es (some (.integer n))
  | string {es : Members} {s : StringSchema} : TypeIs "string" es → May "minLength" IsU32 es s.minLength →
      May "maxLength" IsU32 es s.maxLength → May "pattern" IsString es s.pattern →
      May "contentEncoding" IsString es s.contentEncoding → May "contentMediaType" IsString es s.contentMediaType →
      IsType env C CA CO K R es (some (.string s))
  | array {es : Members} {a : ArrayF AS S} : TypeIs "array" es → May "items" (AreItems R) es a.items →
      May "min_items" IsU32 es a.minItems → May "max_items" IsU32 es a.maxItems → Ext CA (arrayNames K) es a.other →
      IsType env C CA CO K R es (some (.array a))
  | object {es : Members} {o : ObjectF OS S} : TypeIs "object" es → May "properties" (IsMapOf R) es o.properties →
      May "required" IsStrings es o.required → Ext CO (objectNames K) es o.other →
      IsType env C CA CO K R es (some (.object o))

/-- What the members of a data schema say; `R` is what nested schemas mean. -/
inductive IsSchemaMembers (env : SerdeEnv) (C : ExtCodec DSx) (CA : ExtCodec AS) (CO : ExtCodec OS) (K : List String)
    (R : Json → DataSchema DSx AS OS → Prop) : Members → DataSchema DSx AS OS → Prop
  | mk {es : Members} {s : DataSchema DSx AS OS}
    (attype : May "@type" IsOneOrManyStrings es s.head.attype)
    (title : May "title" IsString es s.head.title)
    (titles : May "titles" (IsTranslations env) es s.head.titles)
    (description : May "description" IsString es s.head.description)
    (descriptions : May "descriptions" (IsTranslations env) es s.head.descriptions)
    (constant : May "const" IsValue es s.head.constant)
    (default : May "default" IsValue es s.head.default)
    (unit : May "unit" IsString es s.head.unit)
    (oneOf : May "oneOf" (IsArray R) es s.oneOf)
    (enumeration : May "enum" (IsArray IsValue) es s.head.enumeration)
    (readOnly : Else "readOnly" false IsFlag es s.head.readOnly)
    (writeOnly : Else "writeOnly" false IsFlag es s.head.writeOnly)
    (format : May "format" IsString es s.head.format)
    (subtype : IsType env C CA CO K R es s.subtype)
    (other : Ext C (K ++ Names.schemaHead) es s.head.other) : IsSchemaMembers env C CA CO K R es s

/-- A data schema, with all schemas nested in it. -/
inductive IsSchema (env : SerdeEnv) (C : ExtCodec DSx) (CA : ExtCodec AS) (CO : ExtCodec OS) :
    Json → DataSchema DSx AS OS → Prop
  | mk {es : Members} {s : DataSchema DSx AS OS} :
      IsSchemaMembers env C CA CO [] (IsSchema env C CA CO) es s → IsSchema env C CA CO (.obj es) s

end Schema

/-! ### Forms and links -/

/-- The names of the operations. -/
def opText : FormOperation → String
  | .readProperty => "readproperty"
  | .writeProperty => "writeproperty"
  | .observeProperty => "observeproperty"
  | .unobserveProperty => "unobserveproperty"
  | .invokeAction => "invokeaction"
  | .queryAction => "queryaction"
  | .cancelAction => "cancelaction"
  | .subscribeEvent => "subscribeevent"
  | .unsubscribeEvent => "unsubscribeevent"
  | .readAllProperties => "readallproperties"
  | .writeAllProperties => "writeallproperties"
  | .readMultipleProperties => "readmultipleproperties"
  | .writeMultipleProperties => "writemultipleproperties"
  | .observeAllProperties => "observeallproperties"
  | .unobserveAllProperties => "unobserveallproperties"
  | .subscribeAllEvents => "subscribeallevents"
  | .unsubscribeAllEvents => "unsubscribeallevents"
  | .queryAllActions => "queryallactions"

/-- One operation, for which empty objects are not accepted, or an array of operations. -/
inductive AreOperations : Json → List FormOperation → Prop
  | one {v : Json} {x : FormOperation} : v = .str (opText x) ∨ v = .obj [(opText x, .null)] → AreOperations v [x]
  | many {v : Json} {xs : List FormOperation} : IsArray (IsNamed opText) v xs → AreOperations v xs

/-- The operations of a form: without the member, or if it is `null`, they are those of the default. -/
inductive AreOps (es : Members) : FormOps → Prop
  | default : May "op" AreOperations es none → AreOps es .default
  | custom {l : List FormOperation} : May "op" AreOperations es (some l) →
      AreOps es (.custom l)

/-- The expected response of a form. -/
structure IsResponseMembers {A : Type} (C : ExtCodec A) (es : Members) (r : ExpectedResponse A) : Prop where
  contentType : Must "contentType" IsString es r.contentType
  other : Ext C ["contentType"] es r.other

/-- An additional response: an object, or an array of the three values. -/
inductive IsAdditional : Json → AdditionalResponse → Prop
  | object {es : Members} {r : AdditionalResponse} : Else "success" false IsFlag es r.success →
      May "contentType" IsString es r.contentType → May "schema" IsString es r.schema → IsAdditional (.obj es) r
  | array {a b c : Json} {r : AdditionalResponse} : IsFlag a r.success → OrNone IsString b r.contentType →
      OrNone IsString c r.schema → IsAdditional (.arr [a, b, c]) r

/-- A link: an object, or an array of the values, of which the last can be left out. -/
inductive IsLink (env : SerdeEnv) : Json → Wot.Link → Prop
  | object {es : Members} {l : Wot.Link} : Must "href" IsString es l.href → May "type" IsString es l.ty →
      May "rel" IsString es l.rel → May "anchor" IsString es l.anchor → May "sizes" IsString es l.sizes →
      May "hreflang" (IsOneOrMany (IsTag env)) es l.hreflang → IsLink env (.obj es) l
  | array {h t r a s v : Json} {l : Wot.Link} : IsString h l.href → OrNone IsString t l.ty → OrNone IsString r l.rel →
      OrNone IsString a l.anchor → OrNone IsString s l.sizes → OrNone (IsOneOrMany (IsTag env)) v l.hreflang →
      IsLink env (.arr [h, t, r, a, s, v]) l
  | short {h t r a s : Json} {l : Wot.Link} : IsString h l.href → OrNone IsString t l.ty → OrNone IsString r l.rel →
      OrNone IsString a l.anchor → OrNone IsString s l.sizes → l.hreflang = none →
      IsLink env (.arr [h, t, r, a, s]) l

/-- Version information: an object, or an array of the two values. -/
inductive IsVersion : Json → VersionInfo → Prop
  | object {es : Members} {v : VersionInfo} : Must "instance" IsString es v.instance_ →
      May "model" IsString es v.model → IsVersion (.obj es) v
  | array {a b : Json} {v : VersionInfo} : IsString a v.instance_ → OrNone IsString b v.model → IsVersion (.arr [a, b]) v

variable {X : ExtTypes} (env : SerdeEnv) (C : ExtCodecs X)

structure IsFormMembers (es : Members) (f : Wot.Form X) : Prop where
  op : AreOps es f.op
  href : Must "href" IsString es f.href
  contentType : May "contentType" IsString es f.contentType
  contentCoding : May "contentCoding" IsString es f.contentCoding
  subprotocol : May "subprotocol" IsString es f.subprotocol
  security : May "security" IsOneOrManyStrings es f.security
  scopes : May "scopes" IsOneOrManyStrings es f.scopes
  response : May "response" (IsObject (IsResponseMembers C.response)) es f.response
  additionalResponses : May "additionalResponses" (IsOneOrMany IsAdditional) es f.additionalResponses
  other : Ext C.form Names.form es f.other

/-- A form. -/
abbrev IsForm : Json → Wot.Form X → Prop := IsObject (IsFormMembers C)

/-! ### Affordances -/

/-- A data schema with the extensions of a Thing. -/
abbrev IsDS : Json → Wot.DS X → Prop := IsSchema env C.dataSchema C.arraySchema C.objectSchema

/-- The members of all affordances; `K` are names of members that do not concern it. -/
structure IsInteraction (K : List String) (es : Members) (i : Wot.Interaction X) : Prop where
  attype : May "@type" IsOneOrManyStrings es i.attype
  title : May "title" IsString es i.title
  titles : May "titles" (IsTranslations env) es i.titles
  description : May "description" IsString es i.description
  descriptions : May "descriptions" (IsTranslations env) es i.descriptions
  forms : Must "forms" (IsArray (IsForm C)) es i.forms
  uriVariables : May "uriVariables" (IsMapOf (IsDS env C)) es i.uriVariables
  other : Ext C.interaction (K ++ Names.interaction) es i.other

/-- A property. The members that both parts know are in both. -/
structure IsProperty (es : Members) (p : PropertyAffordance X) : Prop where
  interaction : IsInteraction env C ["observable"] es p.interaction
  dataSchema : IsSchemaMembers env C.dataSchema C.arraySchema C.objectSchema ["observable"] (IsDS env C) es p.dataSchema
  observable : May "observable" IsFlag es p.observable
  other : Ext C.property ["observable"] es p.other

/-- An action. -/
structure IsAction (es : Members) (a : ActionAffordance X) : Prop where
  interaction : IsInteraction env C Names.action es a.interaction
  input : May "input" (IsDS env C) es a.input
  output : May "output" (IsDS env C) es a.output
  safe : Else "safe" false IsFlag es a.safe
  idempotent : Else "idempotent" false IsFlag es a.idempotent
  synchronous : May "synchronous" IsFlag es a.synchronous
  other : Ext C.action Names.action es a.other

/-- An event. -/
structure IsEvent (es : Members) (e : EventAffordance X) : Prop where
  interaction : IsInteraction env C Names.event es e.interaction
  subscription : May "subscription" (IsDS env C) es e.subscription
  data : May "data" (IsDS env C) es e.data
  dataResponse : May "data_response" (IsDS env C) es e.dataResponse
  cancellation : May "cancellation" (IsDS env C) es e.cancellation
  other : Ext C.event Names.event es e.other

/-! ### Things -/

structure IsThingMembers (es : Members) (t : Wot.Thing X) : Prop where
  context : Else "@context" (.str "https://www.w3.org/2022/wot/td/v1.1") IsValue es t.context
  id : May "id" IsString es t.id
  attype : May "@type" IsOneOrManyStrings es t.attype
  title : Must "title" IsString es t.title
  titles : May "titles" (IsTranslations env) es t.titles
  description : May "description" IsString es t.description
  descriptions : May "descriptions" (IsTranslations env) es t.descriptions
  version : May "version" IsVersion es t.version
  created : May "created" (IsInstant env) es t.created
  modified : May "modified" (IsInstant env) es t.modified
  support : May "support" IsString es t.support
  base : May "base" IsString es t.base
  properties : May "properties" (IsMapOf (IsObject (IsProperty env C))) es t.properties
  actions : May "actions" (IsMapOf (IsObject (IsAction env C))) es t.actions
  events : May "events" (IsMapOf (IsObject (IsEvent env C))) es t.events
  links : May "links" (IsArray (IsLink env)) es t.links
  forms : May "forms" (IsArray (IsForm C)) es t.forms
  security : Must "security" IsOneOrManyStrings es t.security
  securityDefinitions : Must "securityDefinitions" (IsMapOf (IsSecurity env)) es t.securityDefinitions
  uriVariables : May "uriVariables" (IsMapOf (IsDS env C)) es t.uriVariables
  profile : May "profile" IsOneOrManyStrings es t.profile
  schemaDefinitions : May "schemaDefinitions" (IsMapOf (IsDS env C)) es t.schemaDefinitions
  other : Ext C.thing Names.thing es t.other

/-- A Thing. -/
abbrev IsThing : Json → Wot.Thing X → Prop := IsObject (IsThingMembers env C)

end Doc
end Wot

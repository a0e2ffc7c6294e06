import Verif.Spec.Storable
import Verif.Spec.Unordered
import Verif.Spec.Stored
/-
What a JSON value looks like that has been written for a Thing: which members it has, and what they show. The
relations below say nothing about the order of members.
-/
namespace Wot
set_option inductive.autoPromoteIndices false

/-! ### JSON values -/

/-- The value of a member of an object. -/
def Json.member (v : Json) (k : String) : Option Json :=
  match v with
  | .obj m => HMap.get? m k
  | _ => none

/-- The value is an object. -/
def Json.IsObject (v : Json) : Prop := ∃ m, v = .obj m

/-- The value is an object and all its members are among the given names. -/
def Json.Only (v : Json) (names : List String) : Prop := v.IsObject ∧ ∀ k, v.member k ≠ none → k ∈ names

/-- The members in the first list that are not in the second are absent. -/
def Json.Lacks (v : Json) (names except : List String) : Prop :=
  ∀ k ∈ names, k ∉ except → v.member k = none

/-! ### Values -/

/-- A string. -/
def StrShown (s : String) (v : Json) : Prop := v = .str s

/-- A number that is not negative. -/
def NatShown (n : Nat) (v : Json) : Prop := v = .num (.pos n)

/-- An integer; `JNum.neg n` is the number `-(n+1)`. -/
inductive IntShown : Int → Json → Prop
  | pos (n : Nat) : IntShown n (.num (.pos n))
  | neg (n : Nat) : IntShown (-(n + 1)) (.num (.neg n))

/-- A floating point number; those that JSON does not have are shown as `null`. -/
inductive FloatShown (f : F64) : Json → Prop
  | finite : f.isFinite = true → FloatShown f (.num (.float f))
  | other : f.isFinite = false → FloatShown f .null

/-- A list is an array. -/
inductive ListShown {A : Type} (R : A → Json → Prop) : List A → Json → Prop
  | mk {l : List A} {vs : List Json} : Pointwise R l vs → ListShown R l (.arr vs)

/-- Lists where one element stands for itself: any other number of them is an array. -/
inductive OneOrManyShown {A : Type} (R : A → Json → Prop) : List A → Json → Prop
  | one {a : A} {v : Json} : R a v → OneOrManyShown R [a] v
  | many {l : List A} {v : Json} : l.length ≠ 1 → ListShown R l v → OneOrManyShown R l v

/-- One or many strings. -/
abbrev StringsShown : List String → Json → Prop := OneOrManyShown StrShown

/-- A map is an object with a member for each key. -/
inductive MapShown {A : Type} (R : A → Json → Prop) : HMap A → Json → Prop
  | mk {m : HMap A} {v : Json} : v.IsObject → (∀ k, OptRel R (m.get? k) (v.member k)) → MapShown R m v

/-- Translations. -/
abbrev LangShown (m : MultiLanguage) (v : Json) : Prop := MapShown StrShown m.map v

/-- The extension has written its members, and no others of its members are there. -/
def ExtShown {A : Type} (c : ExtCodec A) (a : A) (v : Json) : Prop :=
  ∃ m, c.ser a = some m ∧ ∀ k ∈ c.keys, v.member k = (Json.obj m).norm.member k

/-! ### Security definitions -/

/-- The name of a place where credentials are given. -/
def SecLocation.text : SecLocation → String
  | .header => "header"
  | .query => "query"
  | .body => "body"
  | .cookie => "cookie"
  | .uri => "uri"

/-- The name of a quality of protection. -/
def QoP.text : QoP → String
  | .auth => "auth"
  | .authInt => "auth-int"

/-- The members that a predefined scheme is written with. -/
inductive KnownShown : KnownScheme → Json → List String → Prop
  | noSec {v : Json} : v.member "scheme" = some (.str "nosec") → KnownShown .noSec v ["scheme"]
  | auto {v : Json} : v.member "scheme" = some (.str "auto") → KnownShown .auto v ["scheme"]
  | oneOf {v w : Json} {l : List String} : v.member "scheme" = some (.str "combo") →
      v.member "oneOf" = some w → StringsShown l w → KnownShown (.combo (.oneOf l)) v ["scheme", "oneOf"]
  | allOf {v w : Json} {l : List String} : v.member "scheme" = some (.str "combo") →
      v.member "allOf" = some w → StringsShown l w → KnownShown (.combo (.allOf l)) v ["scheme", "allOf"]
  | basic {v : Json} {s : BasicScheme} : v.member "scheme" = some (.str "basic") →
      v.member "in" = some (.str s.location.text) → OptRel StrShown s.name (v.member "name") →
      KnownShown (.basic s) v ["scheme", "in", "name"]
  | digest {v : Json} {s : DigestScheme} : v.member "scheme" = some (.str "digest") →
      v.member "qop" = some (.str s.qop.text) → v.member "in" = some (.str s.location.text) →
      OptRel StrShown s.name (v.member "name") → KnownShown (.digest s) v ["scheme", "qop", "in", "name"]
  | apiKey {v : Json} {s : ApiKeyScheme} : v.member "scheme" = some (.str "apikey") →
      v.member "in" = some (.str s.location.text) → OptRel StrShown s.name (v.member "name") →
      KnownShown (.apiKey s) v ["scheme", "in", "name"]
  | bearer {v : Json} {s : BearerScheme} : v.member "scheme" = some (.str "bearer") →
      OptRel StrShown s.authorization (v.member "authorization") → v.member "alg" = some (.str s.alg) →
      v.member "format" = some (.str s.format) → v.member "in" = some (.str s.location.text) →
      OptRel StrShown s.name (v.member "name") →
      KnownShown (.bearer s) v ["scheme", "authorization", "alg", "format", "in", "name"]
  | psk {v : Json} {s : PskScheme} : v.member "scheme" = some (.str "psk") →
      OptRel StrShown s.identity (v.member "identity") → KnownShown (.psk s) v ["scheme", "identity"]
  | oauth2 {v : Json} {s : OAuth2Scheme} : v.member "scheme" = some (.str "oauth2") →
      OptRel StrShown s.authorization (v.member "authorization") →
      OptRel StrShown s.token (v.member "token") → OptRel StrShown s.refresh (v.member "refresh") →
      OptRel StringsShown s.scopes (v.member "scopes") → v.member "flow" = some (.str s.flow) →
      KnownShown (.oauth2 s) v ["scheme", "authorization", "token", "refresh", "scopes", "flow"]

/-- The members that a scheme is written with. A custom scheme shows all members of its data, if any. -/
inductive SchemeShown : SchemeSubtype → Json → List String → Prop
  | known {k : KnownScheme} {v : Json} {names : List String} :
      KnownShown k v names → SchemeShown (.known k) v names
  | custom {scheme : String} {m : Members} {v : Json} : v.member "scheme" = some (.str scheme) →
      (∀ k, k ∈ m.map (·.1) → v.member k = (Json.obj m).norm.member k) →
      SchemeShown (.unknown scheme (.obj m)) v ("scheme" :: m.map (·.1))
  | customNull {scheme : String} {v : Json} : v.member "scheme" = some (.str scheme) →
      SchemeShown (.unknown scheme .null) v ["scheme"]

/-- A security definition. -/
structure SecurityShown (s : SecurityScheme) (v : Json) : Prop where
  attype : OptRel StringsShown s.attype (v.member "@type")
  description : OptRel StrShown s.description (v.member "description")
  descriptions : OptRel LangShown s.descriptions (v.member "descriptions")
  proxy : OptRel StrShown s.proxy (v.member "proxy")
  scheme : ∃ names, SchemeShown s.subtype v names ∧
    v.Only (["@type", "description", "descriptions", "proxy"] ++ names)

/-! ### Data schemas -/

/-- The types of the items of an array. -/
inductive ItemsShown {S : Type} (R : S → Json → Prop) : ElemOrVec S → Json → Prop
  | elem {s : S} {v : Json} : R s v → ItemsShown R (.elem s) v
  | vec {l : List S} {v : Json} : ListShown R l v → ItemsShown R (.vec l) v

/-- The upper bound of a range: the name tells whether it is inclusive. -/
inductive MaximumShown {T : Type} (R : T → Json → Prop) : Option (Maximum T) → Json → Prop
  | none {v : Json} : v.member "maximum" = none → v.member "exclusiveMaximum" = none → MaximumShown R none v
  | inclusive {a : T} {v w : Json} : v.member "maximum" = some w → R a w →
      v.member "exclusiveMaximum" = Option.none → MaximumShown R (some (.inclusive a)) v
  | exclusive {a : T} {v w : Json} : v.member "maximum" = Option.none →
      v.member "exclusiveMaximum" = some w → R a w → MaximumShown R (some (.exclusive a)) v

/-- The lower bound of a range. -/
inductive MinimumShown {T : Type} (R : T → Json → Prop) : Option (Minimum T) → Json → Prop
  | none {v : Json} : v.member "minimum" = none → v.member "exclusiveMinimum" = none → MinimumShown R none v
  | inclusive {a : T} {v w : Json} : v.member "minimum" = some w → R a w →
      v.member "exclusiveMinimum" = Option.none → MinimumShown R (some (.inclusive a)) v
  | exclusive {a : T} {v w : Json} : v.member "minimum" = Option.none →
      v.member "exclusiveMinimum" = some w → R a w → MinimumShown R (some (.exclusive a)) v

section Schema
variable {DSx AS OS : Type} (C : ExtCodec DSx) (CA : ExtCodec AS) (CO : ExtCodec OS)

/-- The members that depend on the type of a schema; `R` tells how nested schemas are shown. -/
inductive TypeShown {S : Type} (R : S → Json → Prop) : Option (SubtypeF AS OS S) → Json → Prop
  | none {v : Json} : v.Lacks Names.schemaType [] → TypeShown R none v
  | array {a : ArrayF AS S} {v : Json} : v.member "type" = some (.str "array") →
      OptRel (ItemsShown R) a.items (v.member "items") →
      OptRel (fun n => NatShown n.1) a.minItems (v.member "min_items") →
      OptRel (fun n => NatShown n.1) a.maxItems (v.member "max_items") →
      v.Lacks Names.schemaType ["type", "items", "min_items", "max_items"] → ExtShown CA a.other v →
      TypeShown R (some (.array a)) v
  | boolean {v : Json} : v.member "type" = some (.str "boolean") → v.Lacks Names.schemaType ["type"] →
      TypeShown R (some .boolean) v
  | number {n : NumberSchema} {v : Json} : v.member "type" = some (.str "number") →
      MaximumShown FloatShown n.maximum v → MinimumShown FloatShown n.minimum v →
      OptRel FloatShown n.multipleOf (v.member "multipleOf") →
      v.Lacks Names.schemaType ["type", "maximum", "exclusiveMaximum", "minimum", "exclusiveMinimum", "multipleOf"] →
      TypeShown R (some (.number n)) v
  | integer {n : IntegerSchema} {v : Json} : v.member "type" = some (.str "integer") →
      MaximumShown (fun z => IntShown z.1) n.maximum v → MinimumShown (fun z => IntShown z.1) n.minimum v →
      OptRel (fun z => NatShown z.1) n.multipleOf (v.member "multipleOf") →
      v.Lacks Names.schemaType ["type", "maximum", "exclusiveMaximum", "minimum", "exclusiveMinimum", "multipleOf"] →
      TypeShown R (some (.integer n)) v
  | object {o : ObjectF OS S} {v : Json} : v.member "type" = some (.str "object") →
      OptRel (MapShown R) o.properties (v.member "properties") →
      OptRel (ListShown StrShown) o.required (v.member "required") →
      v.Lacks Names.schemaType ["type", "properties", "required"] → ExtShown CO o.other v →
      TypeShown R (some (.object o)) v
  | string {s : StringSchema} {v : Json} : v.member "type" = some (.str "string") →
      OptRel (fun n => NatShown n.1) s.minLength (v.member "minLength") →
      OptRel (fun n => NatShown n.1) s.maxLength (v.member "maxLength") →
      OptRel StrShown s.pattern (v.member "pattern") →
      OptRel StrShown s.contentEncoding (v.member "contentEncoding") →
      OptRel StrShown s.contentMediaType (v.member "contentMediaType") →
      v.Lacks Names.schemaType ["type", "minLength", "maxLength", "pattern", "contentEncoding", "contentMediaType"] →
      TypeShown R (some (.string s)) v
  | null {v : Json} : v.member "type" = some (.str "null") → v.Lacks Names.schemaType ["type"] →
      TypeShown R (some .null) v

/-- The members of one schema; `R` tells how nested schemas are shown. -/
inductive NodeShown (R : DataSchema DSx AS OS → Json → Prop) : DataSchema DSx AS OS → Json → Prop
  | mk {s : DataSchema DSx AS OS} {v : Json}
    (attype : OptRel StringsShown s.head.attype (v.member "@type"))
    (title : OptRel StrShown s.head.title (v.member "title"))
    (titles : OptRel LangShown s.head.titles (v.member "titles"))
    (description : OptRel StrShown s.head.description (v.member "description"))
    (descriptions : OptRel LangShown s.head.descriptions (v.member "descriptions"))
    (constant : v.member "const" = s.head.constant.map Json.norm)
    (default : v.member "default" = s.head.default.map Json.norm)
    (unit : OptRel StrShown s.head.unit (v.member "unit"))
    (oneOf : OptRel (ListShown R) s.oneOf (v.member "oneOf"))
    (enumeration : OptRel (ListShown fun a w => w = a.norm) s.head.enumeration (v.member "enum"))
    (readOnly : v.member "readOnly" = some (.bool s.head.readOnly))
    (writeOnly : v.member "writeOnly" = some (.bool s.head.writeOnly))
    (format : OptRel StrShown s.head.format (v.member "format"))
    (subtype : TypeShown CA CO R s.subtype v)
    (other : ExtShown C s.head.other v) : NodeShown R s v

/-- The names used by the extension that belongs to the type of a schema. -/
def typeKeys {S : Type} : Option (SubtypeF AS OS S) → List String
  | some (.array _) => CA.keys
  | some (.object _) => CO.keys
  | _ => []

/-- A data schema, with all schemas nested in it. -/
inductive SchemaShown : DataSchema DSx AS OS → Json → Prop
  | mk {s : DataSchema DSx AS OS} {v : Json} : NodeShown C CA CO SchemaShown s v →
      v.Only (Names.schema ++ C.keys ++ typeKeys CA CO s.subtype) → SchemaShown s v

end Schema

/-! ### Forms and links -/

/-- The operations of a form: the default is not shown, an empty list is `null`, all others are an array, also
single ones. -/
inductive OpsShown : FormOps → Option Json → Prop
  | default : OpsShown .default none
  | empty : OpsShown (.custom []) (some .null)
  | some {o : FormOperation} {l : List FormOperation} {v : Json} :
      ListShown (fun o => StrShown o.name) (o :: l) v → OpsShown (.custom (o :: l)) (some v)

/-- The expected response of a form. -/
structure ResponseShown {R : Type} (C : ExtCodec R) (r : ExpectedResponse R) (v : Json) : Prop where
  contentType : v.member "contentType" = some (.str r.contentType)
  other : ExtShown C r.other v
  only : v.Only ("contentType" :: C.keys)

/-- An additional response; `success` is only shown if it is true. -/
structure AdditionalShown (r : AdditionalResponse) (v : Json) : Prop where
  success : v.member "success" = if r.success then some (.bool true) else none
  contentType : OptRel StrShown r.contentType (v.member "contentType")
  schema : OptRel StrShown r.schema (v.member "schema")
  only : v.Only ["success", "contentType", "schema"]

/-- A link. -/
structure LinkShown (l : Link) (v : Json) : Prop where
  href : v.member "href" = some (.str l.href)
  type : OptRel StrShown l.ty (v.member "type")
  rel : OptRel StrShown l.rel (v.member "rel")
  anchor : OptRel StrShown l.anchor (v.member "anchor")
  sizes : OptRel StrShown l.sizes (v.member "sizes")
  hreflang : OptRel StringsShown l.hreflang (v.member "hreflang")
  only : v.Only ["href", "type", "rel", "anchor", "sizes", "hreflang"]

variable {X : ExtTypes} (C : ExtCodecs X)

/-- A form. -/
structure FormShown (f : Form X) (v : Json) : Prop where
  op : OpsShown f.op (v.member "op")
  href : v.member "href" = some (.str f.href)
  contentType : OptRel StrShown f.contentType (v.member "contentType")
  contentCoding : OptRel StrShown f.contentCoding (v.member "contentCoding")
  subprotocol : OptRel StrShown f.subprotocol (v.member "subprotocol")
  security : OptRel StringsShown f.security (v.member "security")
  scopes : OptRel StringsShown f.scopes (v.member "scopes")
  response : OptRel (ResponseShown C.response) f.response (v.member "response")
  additionalResponses : OptRel (OneOrManyShown AdditionalShown) f.additionalResponses
    (v.member "additionalResponses")
  other : ExtShown C.form f.other v
  only : v.Only (Names.form ++ C.form.keys)

/-! ### Affordances -/

/-- A data schema of a Thing. -/
abbrev DSShown {X : ExtTypes} (C : ExtCodecs X) : DS X → Json → Prop := SchemaShown C.dataSchema C.arraySchema C.objectSchema

/-- The members that all affordances have. -/
structure InteractionShown (i : Interaction X) (v : Json) : Prop where
  attype : OptRel StringsShown i.attype (v.member "@type")
  title : OptRel StrShown i.title (v.member "title")
  titles : OptRel LangShown i.titles (v.member "titles")
  description : OptRel StrShown i.description (v.member "description")
  descriptions : OptRel LangShown i.descriptions (v.member "descriptions")
  forms : ∃ w, v.member "forms" = some w ∧ ListShown (FormShown C) i.forms w
  uriVariables : OptRel (MapShown (DSShown C)) i.uriVariables (v.member "uriVariables")
  other : ExtShown C.interaction i.other v

/-- A property: the members of an affordance and those of a schema side by side. Some members belong to both. -/
structure PropertyShown (p : PropertyAffordance X) (v : Json) : Prop where
  interaction : InteractionShown C p.interaction v
  dataSchema : NodeShown C.dataSchema C.arraySchema C.objectSchema (DSShown C) p.dataSchema v
  observable : v.member "observable" = p.observable.map .bool
  other : ExtShown C.property p.other v
  only : v.Only ("observable" :: Names.interaction ++ C.interaction.keys ++ Names.schema ++ C.dataSchema.keys ++
    typeKeys C.arraySchema C.objectSchema p.dataSchema.subtype ++ C.property.keys)

/-- An action. -/
structure ActionShown (a : ActionAffordance X) (v : Json) : Prop where
  interaction : InteractionShown C a.interaction v
  input : OptRel (DSShown C) a.input (v.member "input")
  output : OptRel (DSShown C) a.output (v.member "output")
  safe : v.member "safe" = some (.bool a.safe)
  idempotent : v.member "idempotent" = some (.bool a.idempotent)
  synchronous : v.member "synchronous" = a.synchronous.map .bool
  other : ExtShown C.action a.other v
  only : v.Only (Names.action ++ Names.interaction ++ C.interaction.keys ++ C.action.keys)

/-- An event. -/
structure EventShown (e : EventAffordance X) (v : Json) : Prop where
  interaction : InteractionShown C e.interaction v
  subscription : OptRel (DSShown C) e.subscription (v.member "subscription")
  data : OptRel (DSShown C) e.data (v.member "data")
  dataResponse : OptRel (DSShown C) e.dataResponse (v.member "data_response")
  cancellation : OptRel (DSShown C) e.cancellation (v.member "cancellation")
  other : ExtShown C.event e.other v
  only : v.Only (Names.event ++ Names.interaction ++ C.interaction.keys ++ C.event.keys)

/-! ### Things -/

/-- The version of a Thing; an absent model is shown as `null`. -/
structure VersionShown (i : VersionInfo) (v : Json) : Prop where
  instance_ : v.member "instance" = some (.str i.instance_)
  model : v.member "model" = some (match i.model with | none => .null | some s => .str s)
  only : v.Only ["instance", "model"]

/-- A Thing. For members that the two parts of a property both have, the data schema takes precedence
(`PropertyAffordance.merged`). -/
structure ThingShown (env : SerdeEnv) (t : Thing X) (v : Json) : Prop where
  context : v.member "@context" = some t.context.norm
  id : OptRel StrShown t.id (v.member "id")
  attype : OptRel StringsShown t.attype (v.member "@type")
  title : v.member "title" = some (.str t.title)
  titles : OptRel LangShown t.titles (v.member "titles")
  description : OptRel StrShown t.description (v.member "description")
  descriptions : OptRel LangShown t.descriptions (v.member "descriptions")
  version : OptRel VersionShown t.version (v.member "version")
  created : OptRel (fun d w => ∃ s, env.timeFormat d = some s ∧ w = .str s) t.created (v.member "created")
  modified : OptRel (fun d w => ∃ s, env.timeFormat d = some s ∧ w = .str s) t.modified (v.member "modified")
  support : OptRel StrShown t.support (v.member "support")
  base : OptRel StrShown t.base (v.member "base")
  properties : OptRel (MapShown fun p => PropertyShown C p.merged) t.properties (v.member "properties")
  actions : OptRel (MapShown (ActionShown C)) t.actions (v.member "actions")
  events : OptRel (MapShown (EventShown C)) t.events (v.member "events")
  links : OptRel (ListShown LinkShown) t.links (v.member "links")
  forms : OptRel (ListShown (FormShown C)) t.forms (v.member "forms")
  security : ∃ w, v.member "security" = some w ∧ StringsShown t.security w
  securityDefinitions : ∃ w, v.member "securityDefinitions" = some w ∧
    MapShown SecurityShown t.securityDefinitions w
  uriVariables : OptRel (MapShown (DSShown C)) t.uriVariables (v.member "uriVariables")
  profile : OptRel StringsShown t.profile (v.member "profile")
  schemaDefinitions : OptRel (MapShown (DSShown C)) t.schemaDefinitions (v.member "schemaDefinitions")
  other : ExtShown C.thing t.other v
  only : v.Only (Names.thing ++ C.thing.keys)

/-! ### Conditions -/

/-- The extension writes only members that belong to it. -/
def ExtCodec.Own {A : Type} (c : ExtCodec A) : Prop := ∀ a m, c.ser a = some m → ∀ kv ∈ m, kv.1 ∈ c.keys

/-- All extensions do. -/
structure ExtCodecs.Own : Prop where
  thing : C.thing.Own
  interaction : C.interaction.Own
  property : C.property.Own
  action : C.action.Own
  event : C.event.Own
  form : C.form.Own
  response : C.response.Own
  dataSchema : C.dataSchema.Own
  objectSchema : C.objectSchema.Own
  arraySchema : C.arraySchema.Own

/-- The data of a custom scheme does not use the names that all security definitions have. -/
def SchemeSubtype.OwnNames (s : SchemeSubtype) : Prop :=
  ∀ scheme m, s = .unknown scheme (.obj m) → ∀ kv ∈ m, kv.1 ∉ "scheme" :: Names.security

end Wot

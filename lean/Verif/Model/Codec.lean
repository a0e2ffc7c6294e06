import Verif.Model.Serde
/-
The derived and hand-written `Serialize`/`Deserialize` impls of `src/thing.rs`. A serialiser yields the
members of the document in the order in which they are written, or `none` when serialisation fails.
-/
namespace Wot

/-! ### Security schemes -/

/-- The names of `SecurityAuthenticationLocation` (`src/thing.rs:1234–1255`). -/
def locationTable : List (String × SecLocation) :=
  [("header", .header), ("query", .query), ("body", .body), ("cookie", .cookie), ("uri", .uri)]

/-- Derived `Serialize for SecurityAuthenticationLocation` (`src/thing.rs:1234–1255`). -/
def serLocation : SecLocation → Json
  | .header => .str "header"
  | .query => .str "query"
  | .body => .str "body"
  | .cookie => .str "cookie"
  | .uri => .str "uri"

/-- Derived `Deserialize for SecurityAuthenticationLocation` (`src/thing.rs:1234–1255`). -/
def deLocation : Json → Option SecLocation := deEnumBuffered locationTable

/-- Derived `Serialize for QualityOfProtection` (`src/thing.rs:1293–1302`). -/
def serQoP : QoP → Json
  | .auth => .str "auth"
  | .authInt => .str "auth-int"

/-- Derived `Deserialize for QualityOfProtection` (`src/thing.rs:1293–1302`). -/
def deQoP : Json → Option QoP := deEnumBuffered [("auth", .auth), ("auth-int", .authInt)]

/-- Derived `Serialize for KnownSecuritySchemeSubtype` and the structs in it
(`src/thing.rs:1133–1168`, `1199–1411`), internally tagged by `scheme`. -/
def serKnown : KnownScheme → Members
  | .noSec => [("scheme", .str "nosec")]
  | .auto => [("scheme", .str "auto")]
  | .combo (.oneOf l) => [("scheme", .str "combo"), ("oneOf", serStrings l)]
  | .combo (.allOf l) => [("scheme", .str "combo"), ("allOf", serStrings l)]
  | .basic s =>
    members [("scheme", some (.str "basic")), ("in", some (serLocation s.location)),
      ("name", s.name.map .str)]
  | .digest s =>
    members [("scheme", some (.str "digest")), ("qop", some (serQoP s.qop)),
      ("in", some (serLocation s.location)), ("name", s.name.map .str)]
  | .bearer s =>
    members [("scheme", some (.str "bearer")), ("authorization", s.authorization.map .str),
      ("alg", some (.str s.alg)), ("format", some (.str s.format)),
      ("in", some (serLocation s.location)), ("name", s.name.map .str)]
  | .psk s => members [("scheme", some (.str "psk")), ("identity", s.identity.map .str)]
  | .oauth2 s =>
    members [("scheme", some (.str "oauth2")), ("authorization", s.authorization.map .str),
      ("token", s.token.map .str), ("refresh", s.refresh.map .str),
      ("scopes", s.scopes.map serStrings), ("flow", some (.str s.flow))]
  | .apiKey s =>
    members [("scheme", some (.str "apikey")), ("in", some (serLocation s.location)),
      ("name", s.name.map .str)]

/-- `FlatMapSerializer` on a `Value`: only objects and `null` can be flattened. -/
def serFlatValue : Json → Option Members
  | .obj m => some m
  | .null => some []
  | _ => none

/-- Derived `Serialize` for the untagged `SecuritySchemeSubtype` and `UnknownSecuritySchemeSubtype`
(`src/thing.rs:1171–1190`). -/
def serSubtype : SchemeSubtype → Option Members
  | .known k => some (serKnown k)
  | .unknown scheme data => (serFlatValue data).map fun m => ("scheme", .str scheme) :: m

/-- Derived `Serialize for SecurityScheme` (`src/thing.rs:1107–1130`). -/
def serSecurity (env : Env) (s : SecurityScheme) : Option Json :=
  (serSubtype s.subtype).map fun m =>
    .obj (members [("@type", s.attype.map serStrings), ("description", s.description.map .str),
      ("descriptions", s.descriptions.map (serLang env)), ("proxy", s.proxy.map .str)] ++ m)

/-- The variants of `KnownSecuritySchemeSubtype` (`src/thing.rs:1133–1168`). -/
inductive SchemeTag
  | noSec | auto | combo | basic | digest | bearer | psk | oauth2 | apiKey
  deriving DecidableEq

/-- The names of the variants, in declaration order (`src/thing.rs:1134–1168`). -/
def schemeTable : List (String × SchemeTag) :=
  [("nosec", .noSec), ("auto", .auto), ("combo", .combo), ("basic", .basic), ("digest", .digest),
   ("bearer", .bearer), ("psk", .psk), ("oauth2", .oauth2), ("apikey", .apiKey)]

/-- Derived `Deserialize for ComboSecurityScheme` (`src/thing.rs:1199–1210`): an externally tagged enum,
which must be the only remaining member. -/
def deCombo : Members → Option ComboScheme
  | [(k, v)] =>
    if k = "oneOf" then (deStrings v).map .oneOf
    else if k = "allOf" then (deStrings v).map .allOf
    else none
  | _ => none

/-- Derived `Deserialize for BasicSecurityScheme` (`src/thing.rs:1213–1222`). -/
def deBasic (es : Members) : Option BasicScheme := do
  let location ← defaulted "in" .header deLocation es
  let name ← optional "name" deStr es
  pure { location, name }

/-- Derived `Deserialize for DigestSecurityScheme` (`src/thing.rs:1268–1280`). -/
def deDigest (es : Members) : Option DigestScheme := do
  let qop ← required "qop" deQoP es
  let location ← defaulted "in" .header deLocation es
  let name ← optional "name" deStr es
  pure { qop, location, name }

/-- Derived `Deserialize for ApiKeySecurityScheme` (`src/thing.rs:1305–1314`). -/
def deApiKey (es : Members) : Option ApiKeyScheme := do
  let location ← defaulted "in" .query deLocation es
  let name ← optional "name" deStr es
  pure { location, name }

/-- Derived `Deserialize for BearerSecurityScheme` (`src/thing.rs:1326–1347`, defaults `1361–1369`). -/
def deBearer (es : Members) : Option BearerScheme := do
  let authorization ← optional "authorization" deStr es
  let alg ← defaulted "alg" "ES256" deStr es
  let format ← defaulted "format" "jwt" deStr es
  let location ← defaulted "in" .header deLocation es
  let name ← optional "name" deStr es
  pure { authorization, alg, format, location, name }

/-- Derived `Deserialize for PskSecurityScheme` (`src/thing.rs:1372–1377`). -/
def dePsk (es : Members) : Option PskScheme := do
  let identity ← optional "identity" deStr es
  pure { identity }

/-- Derived `Deserialize for OAuth2SecurityScheme` (`src/thing.rs:1383–1411`). -/
def deOAuth2 (es : Members) : Option OAuth2Scheme := do
  let authorization ← optional "authorization" deStr es
  let token ← optional "token" deStr es
  let refresh ← optional "refresh" deStr es
  let scopes ← optional "scopes" deStrings es
  let flow ← required "flow" deStr es
  pure { authorization, token, refresh, scopes, flow }

/-- Derived `Deserialize for KnownSecuritySchemeSubtype` (`src/thing.rs:1133–1168`). -/
def deKnown (es : Members) : Option KnownScheme := do
  let tag ← required "scheme" (deTag schemeTable) es
  let es := rest ["scheme"] es
  match tag with
  | .noSec => pure .noSec
  | .auto => pure .auto
  | .combo => (deCombo es).map .combo
  | .basic => (deBasic es).map .basic
  | .digest => (deDigest es).map .digest
  | .bearer => (deBearer es).map .bearer
  | .psk => (dePsk es).map .psk
  | .oauth2 => (deOAuth2 es).map .oauth2
  | .apiKey => (deApiKey es).map .apiKey

/-- Derived `Deserialize for UnknownSecuritySchemeSubtype` (`src/thing.rs:1171–1179`). -/
def deUnknown (es : Members) : Option SchemeSubtype := do
  let scheme ← required "scheme" deStr es
  pure (.unknown scheme (Json.norm (.obj (rest ["scheme"] es))))

/-- Derived `Deserialize` for the untagged `SecuritySchemeSubtype` (`src/thing.rs:1182–1190`): the
variants are tried in order. -/
def deSubtype (es : Members) : Option SchemeSubtype :=
  match deKnown es with
  | some k => some (.known k)
  | none => deUnknown es

/-- The fields of `SecurityScheme` (`src/thing.rs:1110–1130`). -/
def securityKeys : List String := ["@type", "description", "descriptions", "proxy"]

/-- Derived `Deserialize for SecurityScheme` (`src/thing.rs:1107–1130`). -/
def deSecurity (env : SerdeEnv) : Json → Option SecurityScheme
  | .obj es => do
    let attype ← optional "@type" deStrings es
    let description ← optional "description" deStr es
    let descriptions ← optional "descriptions" (deLang env) es
    let proxy ← optional "proxy" deStr es
    let subtype ← deSubtype (rest securityKeys es)
    pure { attype, description, descriptions, proxy, subtype }
  | _ => none

/-! ### Data schemas -/

section Schema
variable {DSx AS OS S : Type} (C : ExtCodec DSx) (CA : ExtCodec AS) (CO : ExtCodec OS)

/-- Derived `Serialize for Maximum` (`src/thing.rs:842–851`), flattened. -/
def serMaximum {T : Type} (f : T → Json) : Maximum T → Members
  | .inclusive a => [("maximum", f a)]
  | .exclusive a => [("exclusiveMaximum", f a)]

/-- Derived `Serialize for Minimum` (`src/thing.rs:854–863`), flattened. -/
def serMinimum {T : Type} (f : T → Json) : Minimum T → Members
  | .inclusive a => [("minimum", f a)]
  | .exclusive a => [("exclusiveMinimum", f a)]

/-- A flattened field of type `Option<_>` under `skip_serializing_none`. -/
def serFlatOption {A : Type} (f : A → Members) : Option A → Members
  | none => []
  | some a => f a

/-- Derived `Serialize for NumberSchema` (`src/thing.rs:996–1010`). -/
def serNumber (n : NumberSchema) : Members :=
  serFlatOption (serMaximum serF64) n.maximum ++ serFlatOption (serMinimum serF64) n.minimum ++
    members [("multipleOf", n.multipleOf.map serF64)]

/-- Derived `Serialize for IntegerSchema` (`src/thing.rs:1013–1028`). -/
def serInteger (n : IntegerSchema) : Members :=
  serFlatOption (serMaximum serI64) n.maximum ++ serFlatOption (serMinimum serI64) n.minimum ++
    members [("multipleOf", n.multipleOf.map fun m => serNat m.1)]

/-- Derived `Serialize for StringSchema` (`src/thing.rs:1079–1104`). -/
def serString (s : StringSchema) : Members :=
  members [("minLength", s.minLength.map fun n => serNat n.1),
    ("maxLength", s.maxLength.map fun n => serNat n.1), ("pattern", s.pattern.map .str),
    ("contentEncoding", s.contentEncoding.map .str),
    ("contentMediaType", s.contentMediaType.map .str)]

/-- Derived `Serialize for BoxedElemOrVec` (untagged, `src/thing.rs:812–817`), nested schemas
already written. -/
def serItems : ElemOrVec (Option Json) → Option Json
  | .elem j => j
  | .vec l => (mapOpt id l).map .arr

/-- Derived `Serialize for ArraySchema` (`src/thing.rs:779–810`); note `min_items`, `max_items`. -/
def serArray (a : ArrayF AS (Option Json)) : Option Members := do
  let items ← optOpt serItems a.items
  let other ← CA.ser a.other
  pure (members [("items", items), ("min_items", a.minItems.map fun n => serNat n.1),
    ("max_items", a.maxItems.map fun n => serNat n.1)] ++ other)

/-- Derived `Serialize for ObjectSchema` (`src/thing.rs:1031–1043`). -/
def serObject (env : Env) (o : ObjectF OS (Option Json)) : Option Members := do
  let properties ← optOpt (serMap env id) o.properties
  let other ← CO.ser o.other
  pure (members [("properties", properties),
    ("required", o.required.map fun l => .arr (l.map .str))] ++ other)

/-- Derived `Serialize for DataSchemaSubtype` (`src/thing.rs:736–759`), internally tagged by `type`. -/
def serSchemaSubtype (env : Env) : SubtypeF AS OS (Option Json) → Option Members
  | .array a => (serArray CA a).map fun m => ("type", .str "array") :: m
  | .boolean => some [("type", .str "boolean")]
  | .number n => some (("type", .str "number") :: serNumber n)
  | .integer n => some (("type", .str "integer") :: serInteger n)
  | .object o => (serObject CO env o).map fun m => ("type", .str "object") :: m
  | .string s => some (("type", .str "string") :: serString s)
  | .null => some [("type", .str "null")]

/-- The members of a `DataSchema` (`src/thing.rs:670–727`), given those of the nested schemas. -/
def serSchemaStep (env : Env) (h : SchemaHead MultiLanguage DSx) (oneOf : Option (List (Option Json)))
    (subtype : Option (SubtypeF AS OS (Option Json))) : Option Members := do
  let oneOf ← optOpt (fun l => (mapOpt id l).map Json.arr) oneOf
  let subtype ← optOpt (serSchemaSubtype CA CO env) subtype
  let other ← C.ser h.other
  pure (members [("@type", h.attype.map serStrings), ("title", h.title.map .str),
      ("titles", h.titles.map (serLang env)), ("description", h.description.map .str),
      ("descriptions", h.descriptions.map (serLang env)), ("const", h.constant),
      ("default", h.default), ("unit", h.unit.map .str), ("oneOf", oneOf),
      ("enum", h.enumeration.map .arr), ("readOnly", some (.bool h.readOnly)),
      ("writeOnly", some (.bool h.writeOnly)), ("format", h.format.map .str)] ++
    subtype.getD [] ++ other)

/-- Derived `Serialize for DataSchema` (`src/thing.rs:670–727`). -/
def serSchema (env : Env) : DataSchema DSx AS OS → Option Json :=
  Schema.fold fun h o s => (serSchemaStep C CA CO env h o s).map .obj

/-- The members of a `DataSchema` flattened into a property (`src/thing.rs:402–403`). -/
def serSchemaMembers (env : Env) (s : DataSchema DSx AS OS) : Option Members :=
  serSchemaStep C CA CO env s.head (s.oneOf.map (List.map (serSchema C CA CO env)))
    (s.subtype.map (SubtypeF.map (serSchema C CA CO env)))

/-- `FlatMapDeserializer::deserialize_enum` under `Option`: the first member named like a variant; `none`
when there is none or its value cannot be read. -/
def deFlatEnum {A B : Type} (table : List (String × (A → B))) (de : Json → Option A) (es : Members) :
    Option B :=
  (es.find? fun kv => (table.map (·.1)).contains kv.1).bind fun kv =>
    (nameOf? table kv.1).bind fun f => (de kv.2).map f

/-- Derived `Deserialize for Maximum` (`src/thing.rs:842–851`), flattened and optional. -/
def deMaximum {T : Type} (de : Json → Option T) : Members → Option (Maximum T) :=
  deFlatEnum [("maximum", .inclusive), ("exclusiveMaximum", .exclusive)] de

/-- Derived `Deserialize for Minimum` (`src/thing.rs:854–863`), flattened and optional. -/
def deMinimum {T : Type} (de : Json → Option T) : Members → Option (Minimum T) :=
  deFlatEnum [("minimum", .inclusive), ("exclusiveMinimum", .exclusive)] de

/-- Derived `Deserialize for NumberSchema` (`src/thing.rs:996–1010`). -/
def deNumber (es : Members) : Option NumberSchema := do
  let multipleOf ← optional "multipleOf" deF64 es
  let es := rest ["multipleOf"] es
  pure { maximum := deMaximum deF64 es, minimum := deMinimum deF64 es, multipleOf }

/-- Derived `Deserialize for IntegerSchema` (`src/thing.rs:1013–1028`). -/
def deInteger (es : Members) : Option IntegerSchema := do
  let multipleOf ← optional "multipleOf" deNonZeroU64 es
  let es := rest ["multipleOf"] es
  pure { maximum := deMaximum deI64 es, minimum := deMinimum deI64 es, multipleOf }

/-- Derived `Deserialize for StringSchema` (`src/thing.rs:1079–1104`). -/
def deString (es : Members) : Option StringSchema := do
  let minLength ← optional "minLength" deU32 es
  let maxLength ← optional "maxLength" deU32 es
  let pattern ← optional "pattern" deStr es
  let contentEncoding ← optional "contentEncoding" deStr es
  let contentMediaType ← optional "contentMediaType" deStr es
  pure { minLength, maxLength, pattern, contentEncoding, contentMediaType }

/-- Derived `Deserialize for BoxedElemOrVec` (untagged, `src/thing.rs:812–817`); `sub` reads a nested
schema. -/
def deItems (sub : Json → Option S) (j : Json) : Option (ElemOrVec S) :=
  match sub j with
  | some s => some (.elem s)
  | none => (deVec sub j).map .vec

/-- Derived `Deserialize for ArraySchema` (`src/thing.rs:779–810`). -/
def deArray (sub : Json → Option S) (es : Members) : Option (ArrayF AS S) := do
  let items ← optional "items" (deItems sub) es
  let minItems ← optional "min_items" deU32 es
  let maxItems ← optional "max_items" deU32 es
  let other ← CA.de (rest ["items", "min_items", "max_items"] es)
  pure { items, minItems, maxItems, other }

/-- Derived `Deserialize for ObjectSchema` (`src/thing.rs:1031–1043`). -/
def deObject (sub : Json → Option S) (es : Members) : Option (ObjectF OS S) := do
  let properties ← optional "properties" (deMap sub) es
  let required ← optional "required" (deVec deStr) es
  let other ← CO.de (rest ["properties", "required"] es)
  pure { properties, required, other }

/-- The variants of `DataSchemaSubtype` (`src/thing.rs:736–759`). -/
inductive SchemaTag
  | array | boolean | number | integer | object | string | null
  deriving DecidableEq

/-- The names of the variants, in declaration order (`src/thing.rs:737–759`). -/
def schemaTable : List (String × SchemaTag) :=
  [("array", .array), ("boolean", .boolean), ("number", .number), ("integer", .integer),
   ("object", .object), ("string", .string), ("null", .null)]

/-- Derived `Deserialize for DataSchemaSubtype` (`src/thing.rs:736–759`). The field is a flattened
`Option`, so a failure simply means that there is no subtype. -/
def deSchemaSubtype (sub : Json → Option S) (es : Members) :
    Option (SubtypeF AS OS S) := do
  let tag ← required "type" (deTag schemaTable) es
  let es := rest ["type"] es
  match tag with
  | .array => (deArray CA sub es).map .array
  | .boolean => pure .boolean
  | .number => (deNumber es).map .number
  | .integer => (deInteger es).map .integer
  | .object => (deObject CO sub es).map .object
  | .string => (deString es).map .string
  | .null => pure .null

/-- The fields of `DataSchema` (`src/thing.rs:674–727`). -/
def schemaKeys : List String :=
  ["@type", "title", "titles", "description", "descriptions", "const", "default", "unit", "oneOf",
   "enum", "readOnly", "writeOnly", "format"]

/-- Derived `Deserialize for DataSchema` (`src/thing.rs:670–727`) on the members of an object; `sub`
reads a nested schema. -/
def deSchemaMembers (env : SerdeEnv) (sub : Json → Option (DataSchema DSx AS OS)) (es : Members) :
    Option (DataSchema DSx AS OS) := do
  let attype ← optional "@type" deStrings es
  let title ← optional "title" deStr es
  let titles ← optional "titles" (deLang env) es
  let description ← optional "description" deStr es
  let descriptions ← optional "descriptions" (deLang env) es
  let constant ← optional "const" deValue es
  let default ← optional "default" deValue es
  let unit ← optional "unit" deStr es
  let oneOf ← optional "oneOf" (deVec sub) es
  let enumeration ← optional "enum" (deVec deValue) es
  let readOnly ← defaulted "readOnly" false deBool es
  let writeOnly ← defaulted "writeOnly" false deBool es
  let format ← optional "format" deStr es
  let other ← C.de (rest schemaKeys es)
  pure (.mk { attype, title, titles, description, descriptions, constant, default, unit, enumeration,
              readOnly, writeOnly, format, other } oneOf
    (deSchemaSubtype CA CO sub (rest schemaKeys es)))

/-- `Deserialize for DataSchema`, nested at most `n` deep. -/
def deSchemaN (env : SerdeEnv) : Nat → Json → Option (DataSchema DSx AS OS)
  | 0, _ => none
  | n + 1, .obj es => deSchemaMembers C CA CO env (deSchemaN env n) es
  | _ + 1, _ => none

/-- Derived `Deserialize for DataSchema` (`src/thing.rs:670–727`). The bound on the nesting does not
matter, see `deSchema_obj`. -/
def deSchema (env : SerdeEnv) (j : Json) : Option (DataSchema DSx AS OS) :=
  deSchemaN C CA CO env j.depth j

end Schema

/-! ### Forms and links -/

/-- The names written by the derived `Serialize for FormOperation`: `rename_all = "lowercase"`
(`src/thing.rs:1551–1615`). -/
def FormOperation.name : FormOperation → String
  | .readProperty => "readproperty"
  | .writeProperty => "writeproperty"
  | .observeProperty => "observeproperty"
  | .unobserveProperty => "unobserveproperty"
  | .invokeAction => "invokeaction"
  | .queryAction => "queryaction"
  | .cancelAction => "cancelaction"
  | .subscribeEvent => "subscribeevent"
  | .unsubscribeEvent => "unsubscribeevent"
  | .readAllProperties => "readallproperties"
  | .writeAllProperties => "writeallproperties"
  | .readMultipleProperties => "readmultipleproperties"
  | .writeMultipleProperties => "writemultipleproperties"
  | .observeAllProperties => "observeallproperties"
  | .unobserveAllProperties => "unobserveallproperties"
  | .subscribeAllEvents => "subscribeallevents"
  | .unsubscribeAllEvents => "unsubscribeallevents"
  | .queryAllActions => "queryallactions"

/-- `Display for FormOperation` (`src/thing.rs:1617–1642`). -/
def FormOperation.display : FormOperation → String
  | .readProperty => "readproperty"
  | .writeProperty => "writeproperty"
  | .observeProperty => "observeproperty"
  | .unobserveProperty => "unobserveproperty"
  | .invokeAction => "invokeaction"
  | .queryAction => "queryaction"
  | .cancelAction => "cancelaction"
  | .subscribeEvent => "subscribeevent"
  | .unsubscribeEvent => "unsubscribeevent"
  | .readAllProperties => "readallproperties"
  | .writeAllProperties => "writeallproperties"
  | .readMultipleProperties => "readmultipleproperties"
  | .writeMultipleProperties => "writemultipleproperties"
  | .observeAllProperties => "observeallproperties"
  | .unobserveAllProperties => "unobserveallproperties"
  | .subscribeAllEvents => "subscribeallevents"
  | .unsubscribeAllEvents => "unsubscribeallevents"
  | .queryAllActions => "queryallactions"

/-- `Serialize for FormOperation` (`src/thing.rs:1551–1615`). -/
def serOperation (o : FormOperation) : Json := .str o.name

/-- The names accepted by the derived `Deserialize for FormOperation`: `rename_all = "lowercase"` on the
variants in declaration order (`src/thing.rs:1551–1615`). -/
def operationTable : List (String × FormOperation) :=
  [("readproperty", .readProperty), ("writeproperty", .writeProperty),
   ("observeproperty", .observeProperty), ("unobserveproperty", .unobserveProperty),
   ("invokeaction", .invokeAction), ("queryaction", .queryAction), ("cancelaction", .cancelAction),
   ("subscribeevent", .subscribeEvent), ("unsubscribeevent", .unsubscribeEvent),
   ("readallproperties", .readAllProperties), ("writeallproperties", .writeAllProperties),
   ("readmultipleproperties", .readMultipleProperties),
   ("writemultipleproperties", .writeMultipleProperties),
   ("observeallproperties", .observeAllProperties),
   ("unobserveallproperties", .unobserveAllProperties),
   ("subscribeallevents", .subscribeAllEvents), ("unsubscribeallevents", .unsubscribeAllEvents),
   ("queryallactions", .queryAllActions)]

/-- Derived `Deserialize for FormOperation` (`src/thing.rs:1551–1615`). -/
def deOperation : Json → Option FormOperation := deEnum operationTable

/-- `Serialize for DefaultedFormOperations` (`src/thing.rs:1668–1679`). -/
def serOps : FormOps → Json
  | .default => .null
  | .custom [] => .null
  | .custom ops => .arr (ops.map serOperation)

/-- The member `op` of a form, which is skipped for the default (`src/thing.rs:1468–1469, 1663–1665`). -/
def opMember : FormOps → Option Json
  | .default => none
  | .custom ops => some (serOps (.custom ops))

/-- `OneOrMany` of operations, in `Deserialize for DefaultedFormOperations` (`src/thing.rs:1681–1692`): serde_with
reads one operation from a reference to the buffered content, and an array by consuming it. -/
def deOperations (j : Json) : Option (List FormOperation) :=
  match deOperation j with
  | some o => some [o]
  | none => deVec (deEnumBuffered operationTable) j

/-- `Deserialize for DefaultedFormOperations` (`src/thing.rs:1681–1692`). -/
def deOps (j : Json) : Option FormOps :=
  (deOption deOperations j).map fun
    | some ops => .custom ops
    | none => .default

/-- Derived `Serialize for ExpectedResponse` (`src/thing.rs:1695–1707`). -/
def serResponse {R : Type} (C : ExtCodec R) (r : ExpectedResponse R) : Option Json :=
  (C.ser r.other).map fun m => .obj (("contentType", .str r.contentType) :: m)

/-- Derived `Deserialize for ExpectedResponse` (`src/thing.rs:1695–1707`). -/
def deResponse {R : Type} (C : ExtCodec R) : Json → Option (ExpectedResponse R)
  | .obj es => do
    let contentType ← required "contentType" deStr es
    let other ← C.de (rest ["contentType"] es)
    pure { contentType, other }
  | _ => none

/-- Derived `Serialize for AdditionalExpectedResponse` (`src/thing.rs:1710–1729`). -/
def serAdditional (r : AdditionalResponse) : Json :=
  .obj (members [("success", if r.success then some (.bool true) else none),
    ("contentType", r.contentType.map .str), ("schema", r.schema.map .str)])

/-- Derived `Deserialize for AdditionalExpectedResponse` (`src/thing.rs:1710–1729`), from an object
or, as for every derived struct without flattened fields, an array of the fields. -/
def deAdditional : Json → Option AdditionalResponse
  | .obj es => do
    let success ← defaulted "success" false deBool es
    let contentType ← optional "contentType" deStr es
    let schema ← optional "schema" deStr es
    pure { success, contentType, schema }
  | .arr [a, b, c] => do
    let success ← deBool a
    let contentType ← deOption deStr b
    let schema ← deOption deStr c
    pure { success, contentType, schema }
  | _ => none

variable {X : ExtTypes} (C : ExtCodecs X)

/-- Derived `Serialize for Form` (`src/thing.rs:1462–1526`). -/
def serForm (f : Form X) : Option Json := do
  let response ← optOpt (serResponse C.response) f.response
  let other ← C.form.ser f.other
  pure (.obj (members
    [("op", opMember f.op), ("href", some (.str f.href)),
     ("contentType", f.contentType.map .str), ("contentCoding", f.contentCoding.map .str),
     ("subprotocol", f.subprotocol.map .str), ("security", f.security.map serStrings),
     ("scopes", f.scopes.map serStrings), ("response", response),
     ("additionalResponses",
       f.additionalResponses.map fun l => serOneOrMany (l.map serAdditional))] ++ other))

/-- The fields of `Form` (`src/thing.rs:1466–1526`). -/
def formKeys : List String :=
  ["op", "href", "contentType", "contentCoding", "subprotocol", "security", "scopes", "response",
   "additionalResponses"]

/-- Derived `Deserialize for Form` (`src/thing.rs:1462–1526`). -/
def deForm : Json → Option (Form X)
  | .obj es => do
    let op ← defaulted "op" .default deOps es
    let href ← required "href" deStr es
    let contentType ← optional "contentType" deStr es
    let contentCoding ← optional "contentCoding" deStr es
    let subprotocol ← optional "subprotocol" deStr es
    let security ← optional "security" deStrings es
    let scopes ← optional "scopes" deStrings es
    let response ← optional "response" (deResponse C.response) es
    let additionalResponses ← optional "additionalResponses" (deOneOrMany deAdditional) es
    let other ← C.form.de (rest formKeys es)
    pure { op, href, contentType, contentCoding, subprotocol, security, scopes, response,
           additionalResponses, other }
  | _ => none

/-- `Deserialize for LanguageTag<String>` (oxilangtag), used by `hreflang` (`src/thing.rs:1458`). -/
def deTagText (env : SerdeEnv) : Json → Option String
  | .str s => env.langRead s
  | _ => none

/-- Derived `Serialize for Link` (`src/thing.rs:1428–1459`). -/
def serLink (l : Link) : Json :=
  .obj (members [("href", some (.str l.href)), ("type", l.ty.map .str), ("rel", l.rel.map .str),
    ("anchor", l.anchor.map .str), ("sizes", l.sizes.map .str),
    ("hreflang", l.hreflang.map serStrings)])

/-- Derived `Deserialize for Link` (`src/thing.rs:1428–1459`), from an object or an array of the
fields, of which the last may be left out because it has a default. -/
def deLink (env : SerdeEnv) : Json → Option Link
  | .obj es => do
    let href ← required "href" deStr es
    let ty ← optional "type" deStr es
    let rel ← optional "rel" deStr es
    let anchor ← optional "anchor" deStr es
    let sizes ← optional "sizes" deStr es
    let hreflang ← optional "hreflang" (deOneOrMany (deTagText env)) es
    pure { href, ty, rel, anchor, sizes, hreflang }
  | .arr (h :: t :: r :: a :: s :: last) => do
    let href ← deStr h
    let ty ← deOption deStr t
    let rel ← deOption deStr r
    let anchor ← deOption deStr a
    let sizes ← deOption deStr s
    let hreflang ← match last with
      | [] => some none
      | [l] => deOption (deOneOrMany (deTagText env)) l
      | _ => none
    pure { href, ty, rel, anchor, sizes, hreflang }
  | _ => none

/-! ### Affordances -/

/-- `Serialize` for data schemas with the extensions of a Thing (`src/thing.rs:729–733`). -/
abbrev serDS (env : Env) : DS X → Option Json :=
  serSchema C.dataSchema C.arraySchema C.objectSchema env

/-- `Deserialize` for data schemas with the extensions of a Thing (`src/thing.rs:729–733`). -/
abbrev deDS (env : SerdeEnv) : Json → Option (DS X) :=
  deSchema C.dataSchema C.arraySchema C.objectSchema env

/-- Derived `Serialize for InteractionAffordance` (`src/thing.rs:294–330`), flattened. -/
def serInteraction (env : Env) (i : Interaction X) : Option Members := do
  let forms ← mapOpt (serForm C) i.forms
  let uriVariables ← optOpt (serMap env (serDS C env)) i.uriVariables
  let other ← C.interaction.ser i.other
  pure (members [("@type", i.attype.map serStrings), ("title", i.title.map .str),
      ("titles", i.titles.map (serLang env)), ("description", i.description.map .str),
      ("descriptions", i.descriptions.map (serLang env)), ("forms", some (.arr forms)),
      ("uriVariables", uriVariables)] ++ other)

/-- The fields of `InteractionAffordance` (`src/thing.rs:298–330`). -/
def interactionKeys : List String :=
  ["@type", "title", "titles", "description", "descriptions", "forms", "uriVariables"]

/-- Derived `Deserialize for InteractionAffordance` (`src/thing.rs:294–330`), flattened. -/
def deInteraction (env : SerdeEnv) (es : Members) : Option (Interaction X) := do
  let attype ← optional "@type" deStrings es
  let title ← optional "title" deStr es
  let titles ← optional "titles" (deLang env) es
  let description ← optional "description" deStr es
  let descriptions ← optional "descriptions" (deLang env) es
  let forms ← required "forms" (deVec (deForm C)) es
  let uriVariables ← optional "uriVariables" (deMap (deDS C env)) es
  let other ← C.interaction.de (rest interactionKeys es)
  pure { attype, title, titles, description, descriptions, forms, uriVariables, other }

/-- Derived `Serialize for PropertyAffordance` (`src/thing.rs:394–416`). -/
def serProperty (env : Env) (p : PropertyAffordance X) : Option Json := do
  let interaction ← serInteraction C env p.interaction
  let schema ← serSchemaMembers C.dataSchema C.arraySchema C.objectSchema env p.dataSchema
  let other ← C.property.ser p.other
  pure (.obj (interaction ++ schema ++ members [("observable", p.observable.map .bool)] ++ other))

/-- Derived `Deserialize for PropertyAffordance` (`src/thing.rs:394–416`): both flattened structs are
offered all members but `observable`. -/
def deProperty (env : SerdeEnv) : Json → Option (PropertyAffordance X)
  | .obj es => do
    let observable ← optional "observable" deBool es
    let es := rest ["observable"] es
    let interaction ← deInteraction C env es
    let dataSchema ← deSchemaMembers C.dataSchema C.arraySchema C.objectSchema env (deDS C env) es
    let other ← C.property.de es
    pure { interaction, dataSchema, observable, other }
  | _ => none

/-- Derived `Serialize for ActionAffordance` (`src/thing.rs:468–506`). -/
def serAction (env : Env) (a : ActionAffordance X) : Option Json := do
  let interaction ← serInteraction C env a.interaction
  let input ← optOpt (serDS C env) a.input
  let output ← optOpt (serDS C env) a.output
  let other ← C.action.ser a.other
  pure (.obj (interaction ++ members [("input", input), ("output", output),
    ("safe", some (.bool a.safe)), ("idempotent", some (.bool a.idempotent)),
    ("synchronous", a.synchronous.map .bool)] ++ other))

/-- The fields of `ActionAffordance` (`src/thing.rs:470–506`). -/
def actionKeys : List String := ["input", "output", "safe", "idempotent", "synchronous"]

/-- Derived `Deserialize for ActionAffordance` (`src/thing.rs:468–506`). -/
def deAction (env : SerdeEnv) : Json → Option (ActionAffordance X)
  | .obj es => do
    let input ← optional "input" (deDS C env) es
    let output ← optional "output" (deDS C env) es
    let safe ← defaulted "safe" false deBool es
    let idempotent ← defaulted "idempotent" false deBool es
    let synchronous ← optional "synchronous" deBool es
    let es := rest actionKeys es
    let interaction ← deInteraction C env es
    let other ← C.action.de es
    pure { interaction, input, output, safe, idempotent, synchronous, other }
  | _ => none

/-- Derived `Serialize for EventAffordance` (`src/thing.rs:567–589`); note `data_response`. -/
def serEvent (env : Env) (e : EventAffordance X) : Option Json := do
  let interaction ← serInteraction C env e.interaction
  let subscription ← optOpt (serDS C env) e.subscription
  let data ← optOpt (serDS C env) e.data
  let dataResponse ← optOpt (serDS C env) e.dataResponse
  let cancellation ← optOpt (serDS C env) e.cancellation
  let other ← C.event.ser e.other
  pure (.obj (interaction ++ members [("subscription", subscription), ("data", data),
    ("data_response", dataResponse), ("cancellation", cancellation)] ++ other))

/-- The fields of `EventAffordance` (`src/thing.rs:569–589`). -/
def eventKeys : List String := ["subscription", "data", "data_response", "cancellation"]

/-- Derived `Deserialize for EventAffordance` (`src/thing.rs:567–589`). -/
def deEvent (env : SerdeEnv) : Json → Option (EventAffordance X)
  | .obj es => do
    let subscription ← optional "subscription" (deDS C env) es
    let data ← optional "data" (deDS C env) es
    let dataResponse ← optional "data_response" (deDS C env) es
    let cancellation ← optional "cancellation" (deDS C env) es
    let es := rest eventKeys es
    let interaction ← deInteraction C env es
    let other ← C.event.de es
    pure { interaction, subscription, data, dataResponse, cancellation, other }
  | _ => none

/-! ### Things -/

/-- Derived `Serialize for VersionInfo` (`src/thing.rs:647–654`): an absent model is written as
`null`. -/
def serVersion (v : VersionInfo) : Json :=
  .obj [("instance", .str v.instance_), ("model", (v.model.map Json.str).getD .null)]

/-- Derived `Deserialize for VersionInfo` (`src/thing.rs:647–654`). -/
def deVersion : Json → Option VersionInfo
  | .obj es => do
    let instance_ ← required "instance" deStr es
    let model ← optional "model" deStr es
    pure { instance_, model }
  | .arr [a, b] => do
    let instance_ ← deStr a
    let model ← deOption deStr b
    pure { instance_, model }
  | _ => none

/-- `time::serde::rfc3339::option` (`src/thing.rs:89, 95`). -/
def deTime (env : SerdeEnv) : Json → Option OffsetDateTime
  | .str s => env.timeParse s
  | _ => none

/-- Derived `Serialize for Thing` (`src/thing.rs:51–167`). -/
def serThing (env : SerdeEnv) (t : Thing X) : Option Json := do
  let created ← optOpt (fun d => (env.timeFormat d).map Json.str) t.created
  let modified ← optOpt (fun d => (env.timeFormat d).map Json.str) t.modified
  let properties ← optOpt (serMap env.toEnv (serProperty C env.toEnv)) t.properties
  let actions ← optOpt (serMap env.toEnv (serAction C env.toEnv)) t.actions
  let events ← optOpt (serMap env.toEnv (serEvent C env.toEnv)) t.events
  let forms ← optOpt (fun l => (mapOpt (serForm C) l).map Json.arr) t.forms
  let securityDefinitions ← serMap env.toEnv (serSecurity env.toEnv) t.securityDefinitions
  let uriVariables ← optOpt (serMap env.toEnv (serDS C env.toEnv)) t.uriVariables
  let schemaDefinitions ← optOpt (serMap env.toEnv (serDS C env.toEnv)) t.schemaDefinitions
  let other ← C.thing.ser t.other
  pure (.obj (members
    [("@context", some t.context), ("id", t.id.map .str), ("@type", t.attype.map serStrings),
     ("title", some (.str t.title)), ("titles", t.titles.map (serLang env.toEnv)),
     ("description", t.description.map .str),
     ("descriptions", t.descriptions.map (serLang env.toEnv)),
     ("version", t.version.map serVersion), ("created", created), ("modified", modified),
     ("support", t.support.map .str), ("base", t.base.map .str), ("properties", properties),
     ("actions", actions), ("events", events), ("links", t.links.map fun l => .arr (l.map serLink)),
     ("forms", forms), ("security", some (serStrings t.security)),
     ("securityDefinitions", some securityDefinitions), ("uriVariables", uriVariables),
     ("profile", t.profile.map serStrings), ("schemaDefinitions", schemaDefinitions)] ++ other))

/-- The fields of `Thing` (`src/thing.rs:55–167`). -/
def thingKeys : List String :=
  ["@context", "id", "@type", "title", "titles", "description", "descriptions", "version", "created",
   "modified", "support", "base", "properties", "actions", "events", "links", "forms", "security",
   "securityDefinitions", "uriVariables", "profile", "schemaDefinitions"]

/-- Derived `Deserialize for Thing` (`src/thing.rs:51–167`, default context `276–278`). -/
def deThing (env : SerdeEnv) : Json → Option (Thing X)
  | .obj es => do
    let context ← defaulted "@context" (.str tdContext11) deValue es
    let id ← optional "id" deStr es
    let attype ← optional "@type" deStrings es
    let title ← required "title" deStr es
    let titles ← optional "titles" (deLang env) es
    let description ← optional "description" deStr es
    let descriptions ← optional "descriptions" (deLang env) es
    let version ← optional "version" deVersion es
    let created ← optional "created" (deTime env) es
    let modified ← optional "modified" (deTime env) es
    let support ← optional "support" deStr es
    let base ← optional "base" deStr es
    let properties ← optional "properties" (deMap (deProperty C env)) es
    let actions ← optional "actions" (deMap (deAction C env)) es
    let events ← optional "events" (deMap (deEvent C env)) es
    let links ← optional "links" (deVec (deLink env)) es
    let forms ← optional "forms" (deVec (deForm C)) es
    let security ← required "security" deStrings es
    let securityDefinitions ← required "securityDefinitions" (deMap (deSecurity env)) es
    let uriVariables ← optional "uriVariables" (deMap (deDS C env)) es
    let profile ← optional "profile" deStrings es
    let schemaDefinitions ← optional "schemaDefinitions" (deMap (deDS C env)) es
    let other ← C.thing.de (rest thingKeys es)
    pure { context, id, attype, title, titles, description, descriptions, version, created, modified,
           support, base, properties, actions, events, links, forms, security, securityDefinitions,
           uriVariables, profile, schemaDefinitions, other }
  | _ => none

/-- `serde_json::to_value(&thing)`. -/
def toValue (env : SerdeEnv) (t : Thing X) : Option Json := (serThing C env t).map Json.norm

/-- `serde_json::from_value(value)`. -/
def fromValue (env : SerdeEnv) (j : Json) : Option (Thing X) := deThing C env j

/-- `serde_json::to_string(&thing)`, as the tree of the written text. -/
def toText (env : SerdeEnv) (t : Thing X) : Option Json := serThing C env t

/-- `serde_json::from_str(text)`, on the tree of the text. -/
def fromText (env : SerdeEnv) (j : Json) : Option (Thing X) := deThing C env j

end Wot

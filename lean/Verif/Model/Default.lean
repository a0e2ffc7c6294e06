import Verif.Model.Thing
import Verif.Model.Protocol
/-
The values of `Default::default()` for the public types of `src/thing.rs`.
-/
namespace Wot

/-- `Default` of the extension types, which the impls below require (e.g. `src/thing.rs:207–210`, `353–358`). -/
structure ExtDefaults (X : ExtTypes) where
  thing : X.thing
  interaction : X.interaction
  property : X.property
  action : X.action
  event : X.event
  form : X.form
  response : X.response
  dataSchema : X.dataSchema
  objectSchema : X.objectSchema
  arraySchema : X.arraySchema

/-- `Nil::default()` (`src/hlist.rs:8`) and `()`. -/
def ExtDefaults.nil : ExtDefaults .nil where
  thing := ⟨⟩
  interaction := ⟨⟩
  property := ⟨⟩
  action := ⟨⟩
  event := ⟨⟩
  form := ⟨⟩
  response := ⟨⟩
  dataSchema := ⟨⟩
  objectSchema := ⟨⟩
  arraySchema := ⟨⟩

/-- Derived `Default for Cons` (`src/hlist.rs:12`), component by component (`src/extend.rs:80–94`). -/
def ExtDefaults.cons {T U : ExtTypes} (a : ExtDefaults T) (b : ExtDefaults U) : ExtDefaults (.cons T U) where
  thing := ⟨a.thing, b.thing⟩
  interaction := ⟨a.interaction, b.interaction⟩
  property := ⟨a.property, b.property⟩
  action := ⟨a.action, b.action⟩
  event := ⟨a.event, b.event⟩
  form := ⟨a.form, b.form⟩
  response := ⟨a.response, b.response⟩
  dataSchema := ⟨a.dataSchema, b.dataSchema⟩
  objectSchema := ⟨a.objectSchema, b.objectSchema⟩
  arraySchema := ⟨a.arraySchema, b.arraySchema⟩

/-- Derived `Default` of the types in `src/protocol/http.rs` (`32`, `44`, `51`). -/
def Http.defaults : ExtDefaults Http.X := { ExtDefaults.nil with form := ⟨none⟩, response := ⟨[], none⟩ }

/-- Derived `Default` of the types in `src/protocol/coap.rs` (`55`, `74`, `81`). -/
def Coap.defaults : ExtDefaults Coap.X :=
  { ExtDefaults.nil with form := ⟨none, none, none, none, none, none⟩, response := ⟨none⟩ }

/-- Derived `Default` of the types in `src/protocol/mqtt.rs` (`32`, `52`). -/
def Mqtt.defaults : ExtDefaults Mqtt.X := { ExtDefaults.nil with form := ⟨false, none, none, none, []⟩ }

/-! ### Security schemes and links -/

/-- `Default for BasicSecurityScheme` (`src/thing.rs:1224–1231`). -/
def BasicScheme.default : BasicScheme := ⟨.header, none⟩

/-- `Default for DigestSecurityScheme` (`src/thing.rs:1282–1290`), with that of `QualityOfProtection`
(`src/thing.rs:1293–1302`). -/
def DigestScheme.default : DigestScheme := ⟨.auth, .header, none⟩

/-- `Default for ApiKeySecurityScheme` (`src/thing.rs:1316–1323`). -/
def ApiKeyScheme.default : ApiKeyScheme := ⟨.query, none⟩

/-- `Default for BearerSecurityScheme` (`src/thing.rs:1349–1369`). -/
def BearerScheme.default : BearerScheme := ⟨none, "ES256", "jwt", .header, none⟩

/-- Derived `Default for PskSecurityScheme` (`src/thing.rs:1373`). -/
def PskScheme.default : PskScheme := ⟨none⟩

/-- Derived `Default for OAuth2SecurityScheme` (`src/thing.rs:1385`). -/
def OAuth2Scheme.default : OAuth2Scheme := ⟨none, none, none, none, ""⟩

/-- Derived `Default for KnownSecuritySchemeSubtype` (`src/thing.rs:1133–1138`). -/
def KnownScheme.default : KnownScheme := .noSec

/-- `Default for SecuritySchemeSubtype` (`src/thing.rs:1192–1196`). -/
def SchemeSubtype.default : SchemeSubtype := .known .default

/-- Derived `Default for SecurityScheme` (`src/thing.rs:1109`). -/
def SecurityScheme.default : SecurityScheme := ⟨none, none, none, none, .default⟩

/-- Derived `Default for Link` (`src/thing.rs:1430`). -/
def Link.default : Link := ⟨"", none, none, none, none, none⟩

/-- Derived `Default for VersionInfo` (`src/thing.rs:647`). -/
def VersionInfo.default : VersionInfo := ⟨"", none⟩

/-! ### Data schemas -/

/-- `Default for DataSchemaSubtype` (`src/thing.rs:772–776`). -/
def SubtypeF.default {AS OS S : Type} : SubtypeF AS OS S := .null

/-- `Default for ArraySchema` (`src/thing.rs:827–839`). -/
def ArrayF.default {AS S : Type} (other : AS) : ArrayF AS S := ⟨none, none, none, other⟩

/-- `Default for ObjectSchema` (`src/thing.rs:1052–1063`). -/
def ObjectF.default {OS S : Type} (other : OS) : ObjectF OS S := ⟨none, none, other⟩

/-- Derived `Default for NumberSchema` (`src/thing.rs:997`). -/
def NumberSchema.default : NumberSchema := ⟨none, none, none⟩

/-- Derived `Default for IntegerSchema` (`src/thing.rs:1014`). -/
def IntegerSchema.default : IntegerSchema := ⟨none, none, none⟩

/-- Derived `Default for StringSchema` (`src/thing.rs:1080`). -/
def StringSchema.default : StringSchema := ⟨none, none, none, none, none⟩

/-- Derived `Default for DataSchema` (`src/thing.rs:672`). -/
def DataSchema.default {DSx AS OS : Type} (other : DSx) : DataSchema DSx AS OS :=
  .mk { attype := none, title := none, titles := none, description := none, descriptions := none, constant := none,
        default := none, unit := none, enumeration := none, readOnly := false, writeOnly := false, format := none,
        other } none none

/-! ### Forms, affordances and Things -/

/-- Derived `Default for ExpectedResponse` (`src/thing.rs:1695`). -/
def ExpectedResponse.default {R : Type} (other : R) : ExpectedResponse R := ⟨"", other⟩

/-- Derived `Default for AdditionalExpectedResponse` (`src/thing.rs:1711`). -/
def AdditionalResponse.default : AdditionalResponse := ⟨false, none, none⟩

variable {X : ExtTypes} (D : ExtDefaults X)

/-- Derived `Default for Form` (`src/thing.rs:1464`), with that of `DefaultedFormOperations` (`src/thing.rs:1650–1654`). -/
def Form.default : Form X := ⟨.default, "", none, none, none, none, none, none, none, D.form⟩

/-- `Default for InteractionAffordance` (`src/thing.rs:353–372`). -/
def Interaction.default : Interaction X := ⟨none, none, none, none, none, [], none, D.interaction⟩

/-- `Default for PropertyAffordance` (`src/thing.rs:435–450`). -/
def PropertyAffordance.default : PropertyAffordance X := ⟨.default D, .default D.dataSchema, none, D.property⟩

/-- `Default for ActionAffordance` (`src/thing.rs:528–546`). -/
def ActionAffordance.default : ActionAffordance X := ⟨.default D, none, none, false, false, none, D.action⟩

/-- `Default for EventAffordance` (`src/thing.rs:610–627`). -/
def EventAffordance.default : EventAffordance X := ⟨.default D, none, none, none, none, D.event⟩

/-- `Default for Thing` (`src/thing.rs:207–238`); `serde_json::Value::default()` is `null`. -/
def Thing.default : Thing X :=
  { context := .null, id := none, attype := none, title := "", titles := none, description := none,
    descriptions := none, version := none, created := none, modified := none, support := none, base := none,
    properties := none, actions := none, events := none, links := none, forms := none, security := [],
    securityDefinitions := [], uriVariables := none, profile := none, schemaDefinitions := none, other := D.thing }

end Wot

import Verif.Model.Thing
import Verif.Model.Protocol
/-
`==` on Things and their parts: the `PartialEq` impls of `src/thing.rs`, derived and written by hand.
-/
namespace Wot

/-! ### Library types -/

section
variable {A B : Type}

/-- `PartialEq for Option`. -/
def optEq (f : A → B → Bool) : Option A → Option B → Bool
  | none, none => true
  | some a, some b => f a b
  | _, _ => false

/-- `PartialEq for Vec`. -/
def listEq (f : A → B → Bool) : List A → List B → Bool
  | [], [] => true
  | a :: l, b :: m => f a b && listEq f l m
  | _, _ => false

/-- `PartialEq for HashMap`: as many entries, and each is found in the other map with an equal value. The order in
which the entries are visited does not matter for the result. -/
def mapEq (f : A → B → Bool) (m : HMap A) (m' : HMap B) : Bool :=
  m.length == m'.length && m.all fun kv =>
    match m'.get? kv.1 with
    | some v => f kv.2 v
    | none => false

end

/-- `PartialEq for serde_json::Number`: numbers of different kinds are different. -/
def JNum.eq : JNum → JNum → Bool
  | .pos a, .pos b => a == b
  | .neg a, .neg b => a == b
  | .float a, .float b => PEq.peq a b
  | _, _ => false

mutual
/-- `PartialEq for serde_json::Value`; a `Map` is compared like `BTreeMap`, entry by entry. -/
def Json.eq : Json → Json → Bool
  | .null, .null => true
  | .bool a, .bool b => a == b
  | .num a, .num b => a.eq b
  | .str a, .str b => a == b
  | .arr a, .arr b => Json.eqList a b
  | .obj a, .obj b => Json.eqMembers a b
  | _, _ => false
termination_by structural x => x
def Json.eqList : List Json → List Json → Bool
  | [], [] => true
  | a :: l, b :: m => Json.eq a b && Json.eqList l m
  | _, _ => false
termination_by structural x => x
def Json.eqMembers : List (String × Json) → List (String × Json) → Bool
  | [], [] => true
  | (k, a) :: l, (k', b) :: m => k == k' && Json.eq a b && Json.eqMembers l m
  | _, _ => false
termination_by structural x => x
end

/-- `PartialEq for time::OffsetDateTime`: the instants are compared, not the offsets. -/
def OffsetDateTime.eq (a b : OffsetDateTime) : Bool := a.epochNanos == b.epochNanos

/-- `PartialEq for MultiLanguage`, a `HashMap<LanguageTag<String>, String>` (`src/thing.rs:30`); tags are compared by
their texts. -/
def MultiLanguage.eq (a b : MultiLanguage) : Bool := mapEq (· == ·) a.map b.map

/-! ### Extensions -/

/-- The `PartialEq` impls of the extension types, which `==` on Things requires (`src/thing.rs:240–248`, `374–380`,
`452–458`, `548–554`, `629–635`). -/
structure ExtEq (X : ExtTypes) where
  thing : X.thing → X.thing → Bool
  interaction : X.interaction → X.interaction → Bool
  property : X.property → X.property → Bool
  action : X.action → X.action → Bool
  event : X.event → X.event → Bool
  form : X.form → X.form → Bool
  response : X.response → X.response → Bool
  dataSchema : X.dataSchema → X.dataSchema → Bool
  objectSchema : X.objectSchema → X.objectSchema → Bool
  arraySchema : X.arraySchema → X.arraySchema → Bool

/-- Derived `PartialEq for Nil` (`src/hlist.rs:8`), and that of `()`. -/
def ExtEq.nil : ExtEq .nil where
  thing _ _ := true
  interaction _ _ := true
  property _ _ := true
  action _ _ := true
  event _ _ := true
  form _ _ := true
  response _ _ := true
  dataSchema _ _ := true
  objectSchema _ _ := true
  arraySchema _ _ := true

/-- Derived `PartialEq for Cons` (`src/hlist.rs:12`). -/
def consEq {A B : Type} (f : A → A → Bool) (g : B → B → Bool) (a b : Cons A B) : Bool :=
  f a.head b.head && g a.tail b.tail

/-- Equality for `Cons<T, U>` as an extension (`src/extend.rs:80–94`). -/
def ExtEq.cons {T U : ExtTypes} (a : ExtEq T) (b : ExtEq U) : ExtEq (.cons T U) where
  thing := consEq a.thing b.thing
  interaction := consEq a.interaction b.interaction
  property := consEq a.property b.property
  action := consEq a.action b.action
  event := consEq a.event b.event
  form := consEq a.form b.form
  response := consEq a.response b.response
  dataSchema := consEq a.dataSchema b.dataSchema
  objectSchema := consEq a.objectSchema b.objectSchema
  arraySchema := consEq a.arraySchema b.arraySchema

/-- Derived `PartialEq` of the types in `src/protocol/http.rs` (`8`, `21`, `32`, `44`, `51`): names, texts and
numbers. -/
def Http.eq : ExtEq Http.X :=
  { ExtEq.nil with
    form := fun a b => a.methodName == b.methodName
    response := fun a b =>
      listEq (fun h k => h.fieldName == k.fieldName && h.fieldValue == k.fieldValue) a.headers b.headers &&
        a.statusCodeValue == b.statusCodeValue }

/-- Derived `PartialEq for BlockWiseTransferParameters` (`src/protocol/coap.rs:44`). -/
def Coap.blockWiseEq (a b : Coap.BlockWise) : Bool := a.block2Size == b.block2Size && a.block1Size == b.block1Size

/-- Derived `PartialEq` of the types in `src/protocol/coap.rs` (`9`, `23`, `44`, `55`, `74`, `81`). -/
def Coap.eq : ExtEq Coap.X :=
  { ExtEq.nil with
    form := fun a b => 
      a.method == b.method && optEq Coap.blockWiseEq a.blockwise b.blockwise &&
        optEq Coap.blockWiseEq a.qblockwise b.qblockwise && a.hopLimit == b.hopLimit && a.accept == b.accept &&
        a.contentFormat == b.contentFormat
    response := fun a b => a.contentFormat == b.contentFormat }

/-- Derived `PartialEq` of the types in `src/protocol/mqtt.rs` (`8`, `19`, `32`, `52`). -/
def Mqtt.eq : ExtEq Mqtt.X :=
  { ExtEq.nil with
    form := fun a b =>
      a.retain == b.retain && a.controlPacket == b.controlPacket && a.qos == b.qos && a.topic == b.topic &&
        a.filter == b.filter }

/-! ### Security schemes and links -/

/-- Derived `PartialEq for SecuritySchemeSubtype` (`src/thing.rs:1182`), `UnknownSecuritySchemeSubtype` (`1171`) and
`KnownSecuritySchemeSubtype` (`1133`) with the structs in it (`1200–1385`), which only consist of texts and names. -/
def SchemeSubtype.eq : SchemeSubtype → SchemeSubtype → Bool
  | .known a, .known b => a == b
  | .unknown s d, .unknown s' d' => s == s' && d.eq d'
  | _, _ => false

/-- Derived `PartialEq for SecurityScheme` (`src/thing.rs:1109`). -/
def SecurityScheme.eq (a b : SecurityScheme) : Bool :=
  a.attype == b.attype && a.description == b.description && optEq MultiLanguage.eq a.descriptions b.descriptions &&
    a.proxy == b.proxy && a.subtype.eq b.subtype

/-- Derived `PartialEq for Link` (`src/thing.rs:1430`), which only consists of texts. -/
def Link.eq (a b : Link) : Bool := a == b

/-- Derived `PartialEq for VersionInfo` (`src/thing.rs:647`). -/
def VersionInfo.eq (a b : VersionInfo) : Bool := a == b

/-! ### Data schemas -/

/-- Derived `PartialEq for NumberSchema` (`src/thing.rs:997`). -/
def NumberSchema.eq (a b : NumberSchema) : Bool :=
  optEq Maximum.beqMax a.maximum b.maximum && optEq Minimum.beqMin a.minimum b.minimum &&
    optEq PEq.peq a.multipleOf b.multipleOf

/-- Derived `PartialEq for IntegerSchema` (`src/thing.rs:1014`). -/
def IntegerSchema.eq (a b : IntegerSchema) : Bool :=
  optEq Maximum.beqMax a.maximum b.maximum && optEq Minimum.beqMin a.minimum b.minimum &&
    a.multipleOf == b.multipleOf

/-- Derived `PartialEq for StringSchema` (`src/thing.rs:1080`). -/
def StringSchema.eq (a b : StringSchema) : Bool :=
  a.minLength == b.minLength && a.maxLength == b.maxLength && a.pattern == b.pattern &&
    a.contentEncoding == b.contentEncoding && a.contentMediaType == b.contentMediaType

section Schema
variable {DSx AS OS A B : Type} (e : DSx → DSx → Bool) (ea : AS → AS → Bool) (eo : OS → OS → Bool)

/-- Derived `PartialEq for BoxedElemOrVec` (`src/thing.rs:812`); `f` compares the schemas. -/
def ElemOrVec.eq (f : A → B → Bool) : ElemOrVec A → ElemOrVec B → Bool
  | .elem a, .elem b => f a b
  | .vec l, .vec m => listEq f l m
  | _, _ => false

/-- Derived `PartialEq for ArraySchema` (`src/thing.rs:781`). -/
def ArrayF.eq (f : A → B → Bool) (a : ArrayF AS A) (b : ArrayF AS B) : Bool :=
  optEq (ElemOrVec.eq f) a.items b.items && a.minItems == b.minItems && a.maxItems == b.maxItems &&
    ea a.other b.other

/-- Derived `PartialEq for ObjectSchema` (`src/thing.rs:1032`). -/
def ObjectF.eq (f : A → B → Bool) (a : ObjectF OS A) (b : ObjectF OS B) : Bool :=
  optEq (mapEq f) a.properties b.properties && a.required == b.required && eo a.other b.other

/-- Derived `PartialEq for DataSchemaSubtype` (`src/thing.rs:736`). -/
def SubtypeF.eq (f : A → B → Bool) : SubtypeF AS OS A → SubtypeF AS OS B → Bool
  | .array a, .array b => a.eq ea f b
  | .boolean, .boolean => true
  | .number a, .number b => a.eq b
  | .integer a, .integer b => a.eq b
  | .object a, .object b => a.eq eo f b
  | .string a, .string b => a.eq b
  | .null, .null => true
  | _, _ => false

/-- The fields of `DataSchema` that do not contain schemas (`src/thing.rs:674–727`). -/
def SchemaHead.eq (a b : SchemaHead MultiLanguage DSx) : Bool :=
  a.attype == b.attype && a.title == b.title && optEq MultiLanguage.eq a.titles b.titles &&
    a.description == b.description && optEq MultiLanguage.eq a.descriptions b.descriptions &&
    optEq Json.eq a.constant b.constant && optEq Json.eq a.default b.default && a.unit == b.unit &&
    optEq (listEq Json.eq) a.enumeration b.enumeration && a.readOnly == b.readOnly &&
    a.writeOnly == b.writeOnly && a.format == b.format && e a.other b.other

/-- Derived `PartialEq for DataSchema` (`src/thing.rs:672`). The derived function compares field after field; here the
fields that contain schemas come last. See `schemaEq_mk` for the defining equation. -/
def schemaEq : DataSchema DSx AS OS → DataSchema DSx AS OS → Bool :=
  Schema.fold fun h o s u =>
    h.eq e u.head && optEq (listEq fun f x => f x) o u.oneOf && optEq (SubtypeF.eq ea eo fun f x => f x) s u.subtype

theorem optEq_map {A' : Type} (f : A' → B → Bool) (g : A → A') (a : Option A) (b : Option B) :
    optEq f (a.map g) b = optEq (fun x => f (g x)) a b := by
  cases a <;> cases b <;> rfl

theorem listEq_map {A' : Type} (f : A' → B → Bool) (g : A → A') (a : List A) (b : List B) :
    listEq f (a.map g) b = listEq (fun x => f (g x)) a b := by
  induction a generalizing b with
  | nil => cases b <;> rfl
  | cons x a ih => cases b <;> simp [listEq, ih]

theorem mapEq_map {A' : Type} (f : A' → B → Bool) (g : A → A') (a : HMap A) (b : HMap B) :
    mapEq f (HMap.mapVals g a) b = mapEq (fun x => f (g x)) a b := by
  simp only [mapEq, HMap.mapVals, List.length_map, List.all_map]
  rfl

theorem SubtypeF.eq_map {A' : Type} (f : A' → B → Bool) (g : A → A') (a : SubtypeF AS OS A) (b : SubtypeF AS OS B) :
    SubtypeF.eq ea eo f (a.map g) b = SubtypeF.eq ea eo (fun x => f (g x)) a b := by
  cases a with
  | array a =>
    cases b with
    | array b =>
      simp only [SubtypeF.map, SubtypeF.eq, ArrayF.eq, optEq_map]
      congr 4
      funext x y
      cases x <;> cases y <;> simp [ElemOrVec.map, ElemOrVec.eq, listEq_map]
    | _ => rfl
  | object a =>
    cases b with
    | object b =>
      simp only [SubtypeF.map, SubtypeF.eq, ObjectF.eq, optEq_map]
      congr 4
      funext x y
      exact mapEq_map f g x y
    | _ => rfl
  | _ => cases b <;> rfl

/-- The defining equation of `schemaEq`. -/
theorem schemaEq_mk (h : SchemaHead MultiLanguage DSx) (o : Option (List (DataSchema DSx AS OS)))
    (s : Option (SubtypeF AS OS (DataSchema DSx AS OS))) (u : DataSchema DSx AS OS) :
    schemaEq e ea eo (.mk h o s) u =
      (h.eq e u.head && optEq (listEq (schemaEq e ea eo)) o u.oneOf &&
        optEq (SubtypeF.eq ea eo (schemaEq e ea eo)) s u.subtype) := by
  unfold schemaEq
  rw [Schema.fold_mk, optEq_map, optEq_map]
  congr 3
  · funext x y
    exact listEq_map _ _ x y
  · funext x y
    exact SubtypeF.eq_map ea eo _ _ x y

end Schema

/-! ### Forms and affordances -/

variable {X : ExtTypes} (E : ExtEq X)

/-- `PartialEq` for data schemas with the extensions of a Thing (`src/thing.rs:729–733`). -/
abbrev dsEq : DS X → DS X → Bool := schemaEq E.dataSchema E.arraySchema E.objectSchema

/-- Derived `PartialEq for ExpectedResponse` (`src/thing.rs:1695`). -/
def ExpectedResponse.eq {R : Type} (e : R → R → Bool) (a b : ExpectedResponse R) : Bool :=
  a.contentType == b.contentType && e a.other b.other

/-- Derived `PartialEq for Form` (`src/thing.rs:1464`) and for `DefaultedFormOperations` (`1650`),
`AdditionalExpectedResponse` (`1711`). -/
def Form.eq (a b : Form X) : Bool :=
  a.op == b.op && a.href == b.href && a.contentType == b.contentType && a.contentCoding == b.contentCoding &&
    a.subprotocol == b.subprotocol && a.security == b.security && a.scopes == b.scopes &&
    optEq (ExpectedResponse.eq E.response) a.response b.response &&
    a.additionalResponses == b.additionalResponses && E.form a.other b.other

/-- `PartialEq for InteractionAffordance` (`src/thing.rs:374–392`). -/
def Interaction.eq (a b : Interaction X) : Bool :=
  a.attype == b.attype && a.title == b.title && optEq MultiLanguage.eq a.titles b.titles &&
    a.description == b.description && optEq MultiLanguage.eq a.descriptions b.descriptions &&
    listEq (Form.eq E) a.forms b.forms && optEq (mapEq (dsEq E)) a.uriVariables b.uriVariables &&
    E.interaction a.other b.other

/-- `PartialEq for PropertyAffordance` (`src/thing.rs:452–466`). -/
def PropertyAffordance.eq (a b : PropertyAffordance X) : Bool :=
  a.interaction.eq E b.interaction && dsEq E a.dataSchema b.dataSchema && a.observable == b.observable &&
    E.property a.other b.other

/-- `PartialEq for ActionAffordance` (`src/thing.rs:548–565`). -/
def ActionAffordance.eq (a b : ActionAffordance X) : Bool :=
  a.interaction.eq E b.interaction && optEq (dsEq E) a.input b.input && optEq (dsEq E) a.output b.output &&
    a.safe == b.safe && a.idempotent == b.idempotent && a.synchronous == b.synchronous &&
    E.action a.other b.other

/-- `PartialEq for EventAffordance` (`src/thing.rs:629–645`). -/
def EventAffordance.eq (a b : EventAffordance X) : Bool :=
  a.interaction.eq E b.interaction && optEq (dsEq E) a.subscription b.subscription &&
    optEq (dsEq E) a.data b.data && optEq (dsEq E) a.dataResponse b.dataResponse &&
    optEq (dsEq E) a.cancellation b.cancellation && E.event a.other b.other

/-! ### Things -/

/-- `PartialEq for Thing` (`src/thing.rs:240–274`). -/
def Thing.eq (a b : Thing X) : Bool :=
  a.context.eq b.context && a.id == b.id && a.attype == b.attype && a.title == b.title &&
    optEq MultiLanguage.eq a.titles b.titles && a.description == b.description &&
    optEq MultiLanguage.eq a.descriptions b.descriptions && optEq VersionInfo.eq a.version b.version &&
    optEq OffsetDateTime.eq a.created b.created && optEq OffsetDateTime.eq a.modified b.modified &&
    a.support == b.support && a.base == b.base &&
    optEq (mapEq (PropertyAffordance.eq E)) a.properties b.properties &&
    optEq (mapEq (ActionAffordance.eq E)) a.actions b.actions &&
    optEq (mapEq (EventAffordance.eq E)) a.events b.events &&
    optEq (listEq Link.eq) a.links b.links && optEq (listEq (Form.eq E)) a.forms b.forms &&
    a.security == b.security && mapEq SecurityScheme.eq a.securityDefinitions b.securityDefinitions &&
    optEq (mapEq (dsEq E)) a.uriVariables b.uriVariables && a.profile == b.profile &&
    optEq (mapEq (dsEq E)) a.schemaDefinitions b.schemaDefinitions && E.thing a.other b.other

end Wot

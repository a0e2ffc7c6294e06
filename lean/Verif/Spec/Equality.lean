import Verif.Model.Equality
import Verif.Spec.Thing
import Verif.Spec.Schema
import Verif.Spec.Reread
import Verif.Spec.Protocol
/-
When two Things are the same for a user: they do not differ in anything but the sign of a zero or the offset in which
an instant is given.
-/
namespace Wot

variable {X : ExtTypes} {L DSx AS OS : Type}

/-! ### Zeros without sign, instants in UTC

The functions below leave everything else as it is. -/

/-- Both zeros are the same number. -/
def F64.unsigned (x : F64) : F64 := if x.mag = 0 then F64.zero else x

def JNum.unsigned : JNum → JNum
  | .float f => .float f.unsigned
  | n => n

mutual
/-- All numbers in a JSON value. -/
def Json.unsigned : Json → Json
  | .num n => .num n.unsigned
  | .arr l => .arr (Json.unsignedList l)
  | .obj m => .obj (Json.unsignedMembers m)
  | j => j
termination_by structural x => x
def Json.unsignedList : List Json → List Json
  | [] => []
  | j :: l => j.unsigned :: Json.unsignedList l
termination_by structural x => x
def Json.unsignedMembers : List (String × Json) → List (String × Json)
  | [] => []
  | (k, j) :: m => (k, j.unsigned) :: Json.unsignedMembers m
termination_by structural x => x
end

/-- The same instant in UTC. -/
def OffsetDateTime.utc (d : OffsetDateTime) : OffsetDateTime := { d with offsetSeconds := 0 }

def Maximum.unsigned : Maximum F64 → Maximum F64
  | .inclusive a => .inclusive a.unsigned
  | .exclusive a => .exclusive a.unsigned

def Minimum.unsigned : Minimum F64 → Minimum F64
  | .inclusive a => .inclusive a.unsigned
  | .exclusive a => .exclusive a.unsigned

def NumberSchema.unsigned (n : NumberSchema) : NumberSchema where
  maximum := n.maximum.map Maximum.unsigned
  minimum := n.minimum.map Minimum.unsigned
  multipleOf := n.multipleOf.map F64.unsigned

def SubtypeF.unsigned {S : Type} : SubtypeF AS OS S → SubtypeF AS OS S
  | .number n => .number n.unsigned
  | s => s

def SchemaHead.unsigned (h : SchemaHead L DSx) : SchemaHead L DSx :=
  { h with
    constant := h.constant.map Json.unsigned
    default := h.default.map Json.unsigned
    enumeration := h.enumeration.map (List.map Json.unsigned) }

/-- A data schema, with all schemas nested in it. -/
def Schema.unsigned : Schema L DSx AS OS → Schema L DSx AS OS :=
  Schema.fold fun h o s => .mk h.unsigned o (s.map SubtypeF.unsigned)

def SchemeSubtype.unsigned : SchemeSubtype → SchemeSubtype
  | .unknown s d => .unknown s d.unsigned
  | k => k

def SecuritySchemeF.unsigned (s : SecuritySchemeF L) : SecuritySchemeF L := { s with subtype := s.subtype.unsigned }

def Interaction.unsigned (i : Interaction X) : Interaction X :=
  { i with uriVariables := i.uriVariables.map (HMap.mapVals Schema.unsigned) }

def PropertyAffordance.unsigned (p : PropertyAffordance X) : PropertyAffordance X :=
  { p with interaction := p.interaction.unsigned, dataSchema := p.dataSchema.unsigned }

def ActionAffordance.unsigned (a : ActionAffordance X) : ActionAffordance X :=
  { a with
    interaction := a.interaction.unsigned
    input := a.input.map Schema.unsigned
    output := a.output.map Schema.unsigned }

def EventAffordance.unsigned (e : EventAffordance X) : EventAffordance X :=
  { e with
    interaction := e.interaction.unsigned
    subscription := e.subscription.map Schema.unsigned
    data := e.data.map Schema.unsigned
    dataResponse := e.dataResponse.map Schema.unsigned
    cancellation := e.cancellation.map Schema.unsigned }

/-- A Thing with all zeros without sign and all instants in UTC. -/
def Thing.canonical (t : Thing X) : Thing X :=
  { t with
    context := t.context.unsigned
    created := t.created.map OffsetDateTime.utc
    modified := t.modified.map OffsetDateTime.utc
    properties := t.properties.map (HMap.mapVals PropertyAffordance.unsigned)
    actions := t.actions.map (HMap.mapVals ActionAffordance.unsigned)
    events := t.events.map (HMap.mapVals EventAffordance.unsigned)
    securityDefinitions := HMap.mapVals SecuritySchemeF.unsigned t.securityDefinitions
    uriVariables := t.uriVariables.map (HMap.mapVals Schema.unsigned)
    schemaDefinitions := t.schemaDefinitions.map (HMap.mapVals Schema.unsigned) }

/-! ### Not a number -/

/-- No number in the JSON value is NaN. This is so for all values of `serde_json`, but the model has others. -/
def Json.NoNaN (j : Json) : Prop := ∀ f, NumberIn (.float f) j → f.isNan = false

/-- The schema has no constraint that is NaN, and no value with NaN. -/
structure Schema.NodeNoNaN (x : Schema L DSx AS OS) : Prop where
  maximum : ∀ n b, x.subtype = some (.number n) → n.maximum = some b → b.bound.isNan = false
  minimum : ∀ n b, x.subtype = some (.number n) → n.minimum = some b → b.bound.isNan = false
  multipleOf : ∀ n f, x.subtype = some (.number n) → n.multipleOf = some f → f.isNan = false
  constant : ∀ j, x.head.constant = some j → j.NoNaN
  default : ∀ j, x.head.default = some j → j.NoNaN
  enumeration : ∀ l, x.head.enumeration = some l → ∀ j ∈ l, j.NoNaN

/-- NaN is nowhere in the Thing. Nothing is said about extensions. -/
structure Thing.NoNaN (t : Thing X) : Prop where
  context : t.context.NoNaN
  security : ∀ n s scheme d, (n, s) ∈ t.securityDefinitions → s.subtype = .unknown scheme d → d.NoNaN
  schemas : ∀ p s x, t.HasSchema p s → Within x s → x.NodeNoNaN

/-! ### Extensions -/

/-- Extension values are equal just when they are the same. -/
structure ExtEq.Exact (E : ExtEq X) : Prop where
  thing : ∀ a b, E.thing a b = true ↔ a = b
  interaction : ∀ a b, E.interaction a b = true ↔ a = b
  property : ∀ a b, E.property a b = true ↔ a = b
  action : ∀ a b, E.action a b = true ↔ a = b
  event : ∀ a b, E.event a b = true ↔ a = b
  form : ∀ a b, E.form a b = true ↔ a = b
  response : ∀ a b, E.response a b = true ↔ a = b
  dataSchema : ∀ a b, E.dataSchema a b = true ↔ a = b
  objectSchema : ∀ a b, E.objectSchema a b = true ↔ a = b
  arraySchema : ∀ a b, E.arraySchema a b = true ↔ a = b

/-- Equality of the extensions of a list of protocol bindings. -/
def Binding.eq : (b : Binding) → ExtEq b.types
  | .http => Http.eq
  | .coap => Coap.eq
  | .mqtt => Mqtt.eq

/-- The same for a list of bindings. -/
def Binding.stackEq : (l : List Binding) → ExtEq (Binding.stackTypes l)
  | [] => .nil
  | b :: l => .cons b.eq (stackEq l)

end Wot

import Verif.Spec.Meaning
import Verif.Spec.WrittenProtocol
/-
What the members of forms and responses that belong to protocol bindings mean.
-/
namespace Wot
namespace Doc

/-- A number that the field has room for. -/
def IsNumberBelow {n : Nat} (v : Json) (m : Fin n) : Prop := v = .num (.pos m.1)

/-- A struct of two optional fields: an object, or an array with both values, where `null` is for no value. -/
inductive IsPair {A B T : Type} (k k' : String) (R : Json → A → Prop) (R' : Json → B → Prop)
    (make : Option A → Option B → T) : Json → T → Prop
  | object {es : Members} {a : Option A} {b : Option B} : May k R es a → May k' R' es b →
      IsPair k k' R R' make (.obj es) (make a b)
  | array {v w : Json} {a : Option A} {b : Option B} : OrNone R v a → OrNone R' w b →
      IsPair k k' R R' make (.arr [v, w]) (make a b)

/-- A header of an HTTP message. -/
abbrev IsHeader : Json → Http.MessageHeader → Prop :=
  IsPair "htv:fieldName" "htv:fieldValue" IsString IsString Http.MessageHeader.mk

/-- The members of a form for HTTP. -/
structure IsHttpForm (es : Members) (f : Http.Form) : Prop where
  methodName : May "htv:methodName" (IsNamed Http.Method.text) es f.methodName

/-- The members of a response for HTTP. The headers are required. -/
structure IsHttpResponse (es : Members) (r : Http.Response) : Prop where
  headers : Must "htv:headers" (IsArray IsHeader) es r.headers
  statusCodeValue : May "htv:statusCodeValue" IsNumberBelow es r.statusCodeValue

/-- The size of a block, in bytes. -/
def IsBlockSize (v : Json) (s : Coap.BlockSize) : Prop := v = .num (.pos s.size)

/-- The parameters of a block-wise transfer. In an array, `block2Size` comes first. -/
abbrev IsBlockWise : Json → Coap.BlockWise → Prop :=
  IsPair "cov:block2Size" "cov:block1Size" IsBlockSize IsBlockSize Coap.BlockWise.mk

/-- The members of a form for CoAP. -/
structure IsCoapForm (es : Members) (f : Coap.Form) : Prop where
  method : May "cov:method" (IsNamed Coap.Method.text) es f.method
  blockwise : May "cov:blockwise" IsBlockWise es f.blockwise
  qblockwise : May "cov:qblockwise" IsBlockWise es f.qblockwise
  hopLimit : May "cov:hopLimit" IsNumberBelow es f.hopLimit
  accept : May "cov:accept" IsNumberBelow es f.accept
  contentFormat : May "cov:contentFormat" IsNumberBelow es f.contentFormat

/-- The members of a response for CoAP. -/
structure IsCoapResponse (es : Members) (r : Coap.Response) : Prop where
  contentFormat : May "cov:contentFormat" IsNumberBelow es r.contentFormat

/-- The members of a form for MQTT. -/
structure IsMqttForm (es : Members) (f : Mqtt.Form) : Prop where
  retain : Else "mqv:retain" false IsFlag es f.retain
  controlPacket : May "mqv:controlPacket" (IsNamed Mqtt.ControlPacket.text) es f.controlPacket
  qos : May "mqv:qos" (IsNamed Mqtt.QoS.text) es f.qos
  topic : May "mqv:topic" IsString es f.topic
  filter : Else "mqv:filter" [] IsOneOrManyStrings es f.filter

/-- The members of a form for a binding. -/
def IsFormOf : (b : Binding) → Members → b.types.form → Prop
  | .http => IsHttpForm
  | .coap => IsCoapForm
  | .mqtt => IsMqttForm

/-- The members of a response for a binding: there are none for MQTT. -/
def IsResponseOf : (b : Binding) → Members → b.types.response → Prop
  | .http => IsHttpResponse
  | .coap => IsCoapResponse
  | .mqtt => fun _ _ => True

/-- The members of a form for a list of bindings: each binding finds its own, whatever the other bindings. -/
def IsFormOfAll : (l : List Binding) → Members → (Binding.stackTypes l).form → Prop
  | [], _, _ => True
  | b :: l, es, f => IsFormOf b es f.head ∧ IsFormOfAll l es f.tail

/-- The members of a response for a list of bindings. -/
def IsResponseOfAll : (l : List Binding) → Members → (Binding.stackTypes l).response → Prop
  | [], _, _ => True
  | b :: l, es, r => IsResponseOf b es r.head ∧ IsResponseOfAll l es r.tail

end Doc
end Wot

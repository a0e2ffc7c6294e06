import Verif.Spec.Written
import Verif.Spec.Protocol
/-
What forms with protocol bindings look like in JSON.
-/
namespace Wot

/-- A number that is shown if given. -/
abbrev OptNumber {n : Nat} (o : Option (Fin n)) (v : Option Json) : Prop := OptRel (fun m => NatShown m.1) o v

namespace Http

/-- The HTTP methods. -/
def Method.text : Method → String
  | .get => "GET"
  | .put => "PUT"
  | .post => "POST"
  | .delete => "DELETE"
  | .patch => "PATCH"

/-- The members of a form. -/
def FormShown (f : Form) (v : Json) : Prop :=
  OptRel (fun m => StrShown m.text) f.methodName (v.member "htv:methodName")

/-- A header. -/
structure HeaderShown (h : MessageHeader) (v : Json) : Prop where
  fieldName : OptRel StrShown h.fieldName (v.member "htv:fieldName")
  fieldValue : OptRel StrShown h.fieldValue (v.member "htv:fieldValue")
  only : v.Only ["htv:fieldName", "htv:fieldValue"]

/-- The members of a response; headers are only shown if there are any. -/
structure ResponseShown (r : Response) (v : Json) : Prop where
  headers : OptRel (ListShown HeaderShown) (if r.headers = [] then none else some r.headers) (v.member "htv:headers")
  statusCodeValue : OptNumber r.statusCodeValue (v.member "htv:statusCodeValue")

end Http

namespace Coap

/-- The CoAP methods. -/
def Method.text : Method → String
  | .get => "GET"
  | .put => "PUT"
  | .post => "POST"
  | .delete => "DELETE"
  | .patch => "PATCH"
  | .fetch => "FETCH"
  | .ipatch => "iPATCH"

/-- The block sizes. -/
def BlockSize.size : BlockSize → Nat
  | .size16 => 16
  | .size32 => 32
  | .size64 => 64
  | .size128 => 128
  | .size256 => 256
  | .size512 => 512
  | .size1024 => 1024

/-- The parameters of a block-wise transfer. -/
structure BlockWiseShown (b : BlockWise) (v : Json) : Prop where
  block2Size : OptRel (fun s => NatShown s.size) b.block2Size (v.member "cov:block2Size")
  block1Size : OptRel (fun s => NatShown s.size) b.block1Size (v.member "cov:block1Size")
  only : v.Only ["cov:block2Size", "cov:block1Size"]

/-- The members of a form. -/
structure FormShown (f : Form) (v : Json) : Prop where
  method : OptRel (fun m => StrShown m.text) f.method (v.member "cov:method")
  blockwise : OptRel BlockWiseShown f.blockwise (v.member "cov:blockwise")
  qblockwise : OptRel BlockWiseShown f.qblockwise (v.member "cov:qblockwise")
  hopLimit : OptNumber f.hopLimit (v.member "cov:hopLimit")
  accept : OptNumber f.accept (v.member "cov:accept")
  contentFormat : OptNumber f.contentFormat (v.member "cov:contentFormat")

/-- The members of a response. -/
def ResponseShown (r : Response) (v : Json) : Prop := OptNumber r.contentFormat (v.member "cov:contentFormat")

end Coap

namespace Mqtt

/-- The control packets. -/
def ControlPacket.text : ControlPacket → String
  | .publish => "mqv:publish"
  | .subscribe => "mqv:subscribe"
  | .unsubscribe => "mqv:unsubscribe"

/-- The qualities of service. -/
def QoS.text : QoS → String
  | .atMostOnce => "quality:0"
  | .atLeastOnce => "quality:1"
  | .exactlyOnce => "quality:2"

/-- The members of a form. -/
structure FormShown (f : Form) (v : Json) : Prop where
  retain : v.member "mqv:retain" = if f.retain then some (.bool true) else none
  controlPacket : OptRel (fun p => StrShown p.text) f.controlPacket (v.member "mqv:controlPacket")
  qos : OptRel (fun q => StrShown q.text) f.qos (v.member "mqv:qos")
  topic : OptRel StrShown f.topic (v.member "mqv:topic")
  filter : OptRel StringsShown (if f.filter = [] then none else some f.filter) (v.member "mqv:filter")

end Mqtt

namespace Binding

/-- The members of a form that belong to a binding. -/
def FormShown : (b : Binding) → b.types.form → Json → Prop
  | .http => Http.FormShown
  | .coap => Coap.FormShown
  | .mqtt => Mqtt.FormShown

/-- The members of a response that belong to a binding. -/
def ResponseShown : (b : Binding) → b.types.response → Json → Prop
  | .http => Http.ResponseShown
  | .coap => Coap.ResponseShown
  | .mqtt => fun _ _ => True

/-- The members of a form that belong to any of the bindings. -/
def AllFormShown : (l : List Binding) → (stackTypes l).form → Json → Prop
  | [], _, _ => True
  | b :: l, f, v => FormShown b f.head v ∧ AllFormShown l f.tail v

/-- The same for a response. -/
def AllResponseShown : (l : List Binding) → (stackTypes l).response → Json → Prop
  | [], _, _ => True
  | b :: l, r, v => ResponseShown b r.head v ∧ AllResponseShown l r.tail v

end Binding
end Wot

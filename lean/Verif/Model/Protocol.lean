import Verif.Model.HList
/-
The protocol bindings (`src/protocol/*.rs`). All structs are derived without flattened fields, so that as
flattened fields of forms and responses they remove the members they recognise; nested structs can also
be read from an array of their fields.
-/
namespace Wot

/-- `Deserialize` for `u8`, `u16` and (on 64 bit machines) `usize`. -/
def deFin (n : Nat) : Json → Option (Fin n)
  | .num (.pos m) => if h : m < n then some ⟨m, h⟩ else none
  | _ => none

/-- `Serialize` for the same. -/
def serFin {n : Nat} (m : Fin n) : Json := serNat m.1

namespace Http

/-- `Method` (`src/protocol/http.rs:10–16`). -/
inductive Method
  | get | put | post | delete | patch
  deriving DecidableEq

/-- The names of the variants in `SCREAMING_SNAKE_CASE` (`src/protocol/http.rs:8–16`). -/
def Method.name : Method → String
  | .get => "GET" | .put => "PUT" | .post => "POST" | .delete => "DELETE" | .patch => "PATCH"

/-- Derived `Serialize` (`src/protocol/http.rs:8–16`). -/
def serMethod (m : Method) : Json := .str m.name

/-- Derived `Deserialize` (`src/protocol/http.rs:8–16`). -/
def deMethod : Json → Option Method :=
  deEnumBuffered [("GET", .get), ("PUT", .put), ("POST", .post), ("DELETE", .delete), ("PATCH", .patch)]

/-- `MessageHeader` (`src/protocol/http.rs:22–27`). -/
structure MessageHeader where
  fieldName : Option String := none
  fieldValue : Option String := none

/-- Derived `Serialize for MessageHeader` (`src/protocol/http.rs:19–27`). -/
def serHeader (h : MessageHeader) : Json :=
  .obj (members [("htv:fieldName", h.fieldName.map .str), ("htv:fieldValue", h.fieldValue.map .str)])

/-- Derived `Deserialize for MessageHeader` (`src/protocol/http.rs:19–27`). -/
def deHeader : Json → Option MessageHeader
  | .obj es => do
    let fieldName ← optional "htv:fieldName" deStr es
    let fieldValue ← optional "htv:fieldValue" deStr es
    pure { fieldName, fieldValue }
  | .arr [a, b] => do
    let fieldName ← deOption deStr a
    let fieldValue ← deOption deStr b
    pure { fieldName, fieldValue }
  | _ => none

/-- `Response` (`src/protocol/http.rs:33–39`). -/
structure Response where
  headers : List MessageHeader := []
  statusCodeValue : Option (Fin (2^64)) := none

/-- Derived `Serialize`/`Deserialize for Response` (`src/protocol/http.rs:30–39`): an empty list of
headers is skipped, but there is no default for it when reading. -/
def response : ExtCodec Response where
  keys := ["htv:headers", "htv:statusCodeValue"]
  ser r := some (members
    [("htv:headers", if r.headers.isEmpty then none else some (.arr (r.headers.map serHeader))),
     ("htv:statusCodeValue", r.statusCodeValue.map serFin)])
  de es := do
    let headers ← required "htv:headers" (deVec deHeader) es
    let statusCodeValue ← optional "htv:statusCodeValue" (deFin (2^64)) es
    pure { headers, statusCodeValue }
  takes := true

/-- `Form` (`src/protocol/http.rs:45–48`). -/
structure Form where
  methodName : Option Method := none

/-- Derived `Serialize`/`Deserialize for Form` (`src/protocol/http.rs:42–48`). -/
def form : ExtCodec Form where
  keys := ["htv:methodName"]
  ser f := some (members [("htv:methodName", f.methodName.map serMethod)])
  de es := do
    let methodName ← optional "htv:methodName" deMethod es
    pure { methodName }
  takes := true

/-- `impl ExtendableThing for HttpProtocol` (`src/protocol/http.rs:52–64`). -/
abbrev X : ExtTypes := { ExtTypes.nil with form := Form, response := Response }

/-- The codecs of `HttpProtocol` (`src/protocol/http.rs:51–64`). -/
def codecs : ExtCodecs X where
  thing := .nil
  interaction := .nil
  property := .nil
  action := .nil
  event := .nil
  form := form
  response := response
  dataSchema := .nil
  objectSchema := .nil
  arraySchema := .nil

end Http

namespace Coap

/-- `Method` (`src/protocol/coap.rs:11–20`). -/
inductive Method
  | get | put | post | delete | patch | fetch | ipatch
  deriving DecidableEq

/-- The names of the variants (`src/protocol/coap.rs:9–20`). -/
def Method.name : Method → String
  | .get => "GET" | .put => "PUT" | .post => "POST" | .delete => "DELETE" | .patch => "PATCH"
  | .fetch => "FETCH" | .ipatch => "iPATCH"

/-- Derived `Serialize` (`src/protocol/coap.rs:9–20`). -/
def serMethod (m : Method) : Json := .str m.name

/-- Derived `Deserialize` (`src/protocol/coap.rs:9–20`). -/
def deMethod : Json → Option Method :=
  deEnumBuffered [("GET", .get), ("PUT", .put), ("POST", .post), ("DELETE", .delete), ("PATCH", .patch),
    ("FETCH", .fetch), ("iPATCH", .ipatch)]

/-- `BlockSize` (`src/protocol/coap.rs:25–33`). -/
inductive BlockSize
  | size16 | size32 | size64 | size128 | size256 | size512 | size1024
  deriving DecidableEq

/-- The discriminants (`src/protocol/coap.rs:25–33`). -/
def BlockSize.repr : BlockSize → Nat
  | .size16 => 16 | .size32 => 32 | .size64 => 64 | .size128 => 128 | .size256 => 256
  | .size512 => 512 | .size1024 => 1024

/-- `Serialize_repr` (`src/protocol/coap.rs:23`). -/
def serBlockSize (s : BlockSize) : Json := serNat s.repr

/-- `Deserialize_repr` (`src/protocol/coap.rs:23`): a `u16` that is a discriminant. -/
def deBlockSize (j : Json) : Option BlockSize :=
  (deFin (2^16) j).bind fun n =>
    [BlockSize.size16, .size32, .size64, .size128, .size256, .size512, .size1024].find? (·.repr = n.1)

/-- `BlockWiseTransferParameters` (`src/protocol/coap.rs:45–50`). -/
structure BlockWise where
  block2Size : Option BlockSize := none
  block1Size : Option BlockSize := none

/-- Derived `Serialize for BlockWiseTransferParameters` (`src/protocol/coap.rs:42–50`). -/
def serBlockWise (b : BlockWise) : Json :=
  .obj (members [("cov:block2Size", b.block2Size.map serBlockSize),
    ("cov:block1Size", b.block1Size.map serBlockSize)])

/-- Derived `Deserialize for BlockWiseTransferParameters` (`src/protocol/coap.rs:42–50`). -/
def deBlockWise : Json → Option BlockWise
  | .obj es => do
    let block2Size ← optional "cov:block2Size" deBlockSize es
    let block1Size ← optional "cov:block1Size" deBlockSize es
    pure { block2Size, block1Size }
  | .arr [a, b] => do
    let block2Size ← deOption deBlockSize a
    let block1Size ← deOption deBlockSize b
    pure { block2Size, block1Size }
  | _ => none

/-- `Form` (`src/protocol/coap.rs:56–69`). -/
structure Form where
  method : Option Method := none
  blockwise : Option BlockWise := none
  qblockwise : Option BlockWise := none
  hopLimit : Option (Fin (2^8)) := none
  accept : Option (Fin (2^16)) := none
  contentFormat : Option (Fin (2^16)) := none

/-- Derived `Serialize`/`Deserialize for Form` (`src/protocol/coap.rs:53–69`). -/
def form : ExtCodec Form where
  keys := ["cov:method", "cov:blockwise", "cov:qblockwise", "cov:hopLimit", "cov:accept",
    "cov:contentFormat"]
  ser f := some (members
    [("cov:method", f.method.map serMethod), ("cov:blockwise", f.blockwise.map serBlockWise),
     ("cov:qblockwise", f.qblockwise.map serBlockWise), ("cov:hopLimit", f.hopLimit.map serFin),
     ("cov:accept", f.accept.map serFin), ("cov:contentFormat", f.contentFormat.map serFin)])
  de es := do
    let method ← optional "cov:method" deMethod es
    let blockwise ← optional "cov:blockwise" deBlockWise es
    let qblockwise ← optional "cov:qblockwise" deBlockWise es
    let hopLimit ← optional "cov:hopLimit" (deFin (2^8)) es
    let accept ← optional "cov:accept" (deFin (2^16)) es
    let contentFormat ← optional "cov:contentFormat" (deFin (2^16)) es
    pure { method, blockwise, qblockwise, hopLimit, accept, contentFormat }
  takes := true

/-- `ExpectedResponse` (`src/protocol/coap.rs:75–78`). -/
structure Response where
  contentFormat : Option (Fin (2^16)) := none

/-- Derived `Serialize`/`Deserialize for ExpectedResponse` (`src/protocol/coap.rs:72–78`). -/
def response : ExtCodec Response where
  keys := ["cov:contentFormat"]
  ser f := some (members [("cov:contentFormat", f.contentFormat.map serFin)])
  de es := do
    let contentFormat ← optional "cov:contentFormat" (deFin (2^16)) es
    pure { contentFormat }
  takes := true

/-- `impl ExtendableThing for CoapProtocol` (`src/protocol/coap.rs:82–94`). -/
abbrev X : ExtTypes := { ExtTypes.nil with form := Form, response := Response }

/-- The codecs of `CoapProtocol` (`src/protocol/coap.rs:81–94`). -/
def codecs : ExtCodecs X where
  thing := .nil
  interaction := .nil
  property := .nil
  action := .nil
  event := .nil
  form := form
  response := response
  dataSchema := .nil
  objectSchema := .nil
  arraySchema := .nil

end Coap

namespace Mqtt

/-- `ControlPacket` (`src/protocol/mqtt.rs:9–16`). -/
inductive ControlPacket
  | publish | subscribe | unsubscribe
  deriving DecidableEq

/-- The names of the variants (`src/protocol/mqtt.rs:8–16`). -/
def ControlPacket.name : ControlPacket → String
  | .publish => "mqv:publish" | .subscribe => "mqv:subscribe" | .unsubscribe => "mqv:unsubscribe"

/-- Derived `Serialize` (`src/protocol/mqtt.rs:8–16`). -/
def serPacket (p : ControlPacket) : Json := .str p.name

/-- Derived `Deserialize` (`src/protocol/mqtt.rs:8–16`). -/
def dePacket : Json → Option ControlPacket :=
  deEnumBuffered [("mqv:publish", .publish), ("mqv:subscribe", .subscribe), ("mqv:unsubscribe", .unsubscribe)]

/-- `QoS` (`src/protocol/mqtt.rs:20–27`). -/
inductive QoS
  | atMostOnce | atLeastOnce | exactlyOnce
  deriving DecidableEq

/-- The names of the variants (`src/protocol/mqtt.rs:19–27`). -/
def QoS.name : QoS → String
  | .atMostOnce => "quality:0" | .atLeastOnce => "quality:1" | .exactlyOnce => "quality:2"

/-- Derived `Serialize` (`src/protocol/mqtt.rs:19–27`). -/
def serQoS (q : QoS) : Json := .str q.name

/-- Derived `Deserialize` (`src/protocol/mqtt.rs:19–27`). -/
def deQoS : Json → Option QoS :=
  deEnumBuffered [("quality:0", .atMostOnce), ("quality:1", .atLeastOnce), ("quality:2", .exactlyOnce)]

/-- `Form` (`src/protocol/mqtt.rs:33–49`). -/
structure Form where
  retain : Bool := false
  controlPacket : Option ControlPacket := none
  qos : Option QoS := none
  topic : Option String := none
  filter : List String := []

/-- Derived `Serialize`/`Deserialize for Form` (`src/protocol/mqtt.rs:30–49`). -/
def form : ExtCodec Form where
  keys := ["mqv:retain", "mqv:controlPacket", "mqv:qos", "mqv:topic", "mqv:filter"]
  ser f := some (members
    [("mqv:retain", if f.retain then some (.bool f.retain) else none),
     ("mqv:controlPacket", f.controlPacket.map serPacket), ("mqv:qos", f.qos.map serQoS),
     ("mqv:topic", f.topic.map .str),
     ("mqv:filter", if f.filter.isEmpty then none else some (serStrings f.filter))])
  de es := do
    let retain ← defaulted "mqv:retain" false deBool es
    let controlPacket ← optional "mqv:controlPacket" dePacket es
    let qos ← optional "mqv:qos" deQoS es
    let topic ← optional "mqv:topic" deStr es
    let filter ← defaulted "mqv:filter" [] deStrings es
    pure { retain, controlPacket, qos, topic, filter }
  takes := true

/-- `impl ExtendableThing for MqttProtocol` (`src/protocol/mqtt.rs:53–65`). -/
abbrev X : ExtTypes := { ExtTypes.nil with form := Form }

/-- The codecs of `MqttProtocol` (`src/protocol/mqtt.rs:52–65`). -/
def codecs : ExtCodecs X where
  thing := .nil
  interaction := .nil
  property := .nil
  action := .nil
  event := .nil
  form := form
  response := .nil
  dataSchema := .nil
  objectSchema := .nil
  arraySchema := .nil

end Mqtt
end Wot

import Verif.Conformance.Support
/-
The unit tests of `src/protocol/*.rs` and `src/hlist.rs`, on the model.
-/
namespace Wot.Conformance.ProtocolTests

/-! ### Protocol bindings -/

namespace Http

/-- `deserialize_form` (`src/protocol/http.rs:71–74`). -/
def readsForm (raw : Json) (f : Form Http.X) : Bool := reads (Form.eq Http.eq) (deForm Http.codecs raw) f

/-- `deserialize_discovery_property` (`src/protocol/http.rs:76–114`). -/
example : readsForm (json! {
            "href": "/things{?offset,limit,format,sort_by,sort_order}",
            "htv:methodName": "GET",
            "response": {
                "description": "Success response",
                "htv:statusCodeValue": 200,
                "contentType": "application/ld+json",
                "htv:headers": [
                    {
                        "htv:fieldName": "Link"
                    }
                ]
            }
        })
    { Form.default Http.defaults with
      href := "/things{?offset,limit,format,sort_by,sort_order}"
      response := some
        { contentType := "application/ld+json"
          other := { headers := [{ fieldName := some "Link", fieldValue := none }], statusCodeValue := some 200 } }
      other := { methodName := some .get } } = true := by decide +kernel

/-- `deserialize_discovery_action` (`src/protocol/http.rs:116–156`). -/
example : readsForm (json! {
            "href": "/things",
            "htv:methodName": "POST",
            "response": {
                "contentType": "application/td+json",
                "description": "Success response including the system-generated URI",
                "htv:headers": [
                    {
                        "description": "System-generated URI",
                        "htv:fieldName": "Location"
                    }
                ],
                "htv:statusCodeValue": 201
            }
        })
    { Form.default Http.defaults with
      op := .default
      href := "/things"
      response := some
        { contentType := "application/td+json"
          other := { headers := [{ fieldName := some "Location", fieldValue := none }], statusCodeValue := some 201 } }
      other := { methodName := some .post } } = true := by decide +kernel

end Http

namespace Coap

/-- `deserialize_form` (`src/protocol/coap.rs:100–104`). -/
def readsForm (raw : Json) (f : Form Coap.X) : Bool := reads (Form.eq Coap.eq) (deForm Coap.codecs raw) f

/-- `deserialize_observe` (`src/protocol/coap.rs:106–132`). -/
example : readsForm (json! {
                "cov:method": "GET",
                "href": "coap://[2001:DB8::1]/status",
                "contentType": "text/plain;charset=utf-8",
                "subprotocol": "cov:observe",
                "op": ["observeproperty"]
            })
    { Form.default Coap.defaults with
      op := .custom [.observeProperty]
      href := "coap://[2001:DB8::1]/status"
      contentType := some "text/plain;charset=utf-8"
      subprotocol := some "cov:observe"
      other := { method := some .get } } = true := by decide +kernel

/-- `deserialize_blockwise` (`src/protocol/coap.rs:134–154`). -/
example : readsForm (json! {
                "href": "coap://[2001:DB8::1]/status",
                "contentType": "text/plain;charset=utf-8",
                "cov:blockwise": { }
            })
    { Form.default Coap.defaults with
      href := "coap://[2001:DB8::1]/status"
      contentType := some "text/plain;charset=utf-8"
      other := { blockwise := some {} } } = true := by decide +kernel

/-- `deserialize_qblockwise_params` (`src/protocol/coap.rs:156–181`). -/
example : readsForm (json! {
                "href": "coap://[2001:DB8::1]/status",
                "contentType": "text/plain;charset=utf-8",
                "cov:qblockwise": {
                    "cov:block2Size": 64
                }
            })
    { Form.default Coap.defaults with
      href := "coap://[2001:DB8::1]/status"
      contentType := some "text/plain;charset=utf-8"
      other := { qblockwise := some { block2Size := some .size64 } } } = true := by decide +kernel

/-- `deserialize_hop_limit` (`src/protocol/coap.rs:183–203`). -/
example : readsForm (json! {
                "href": "coap://[2001:DB8::1]/status",
                "contentType": "text/plain;charset=utf-8",
                "cov:hopLimit": 5
            })
    { Form.default Coap.defaults with
      href := "coap://[2001:DB8::1]/status"
      contentType := some "text/plain;charset=utf-8"
      other := { hopLimit := some 5 } } = true := by decide +kernel

/-- `deserialize_content_format` (`src/protocol/coap.rs:205–237`). -/
example : readsForm (json! {
                "href": "coap://[2001:DB8::1]/status",
                "contentType": "application/cbor",
                "cov:contentFormat": 60,
                "cov:accept": 60,
                "response": {
                    "contentType": "application/cbor",
                    "cov:contentFormat": 60
                }
            })
    { Form.default Coap.defaults with
      href := "coap://[2001:DB8::1]/status"
      contentType := some "application/cbor"
      other := { contentFormat := some 60, accept := some 60 }
      response := some { contentType := "application/cbor", other := { contentFormat := some 60 } } } = true := by
  decide +kernel

end Coap

namespace Mqtt

/-- `deserialize_form` (`src/protocol/mqtt.rs:73–76`). -/
def readsForm (raw : Json) (f : Form Mqtt.X) : Bool := reads (Form.eq Mqtt.eq) (deForm Mqtt.codecs raw) f

/-- `simple_filter` (`src/protocol/mqtt.rs:78–100`). -/
example : readsForm (json! {
            "href": "mqtt://broker.com:1883",
            "op": [
                "subscribeevent",
                "unsubscribeevent"
            ],
            "mqv:filter": "thing1/events/overheating"
        })
    { Form.default Mqtt.defaults with
      op := .custom [.subscribeEvent, .unsubscribeEvent]
      href := "mqtt://broker.com:1883"
      other := { filter := ["thing1/events/overheating"] } } = true := by decide +kernel

/-- `complex_filter` (`src/protocol/mqtt.rs:102–128`). -/
example : readsForm (json! {
            "href": "mqtt://broker.com:1883",
            "op": [
                "readproperty",
                "observeproperty"
            ],
            "mqv:qos": "quality:1",
            "mqv:retain" : true,
            "mqv:filter": "application/devices/thing1/properties/test"
        })
    { Form.default Mqtt.defaults with
      op := .custom [.readProperty, .observeProperty]
      href := "mqtt://broker.com:1883"
      other :=
        { qos := some .atLeastOnce, retain := true,
          filter := ["application/devices/thing1/properties/test"] } } = true := by decide +kernel

end Mqtt

/-! ### Heterogeneous lists -/

namespace Lists
open HList

/-- `A(i32)`, `B(f32)` and `C(String)` of the tests; the `f32` is only ever moved. -/
structure A where
  val : Int
structure B where
  val : F64
structure C where
  val : String

/-- `Nil::cons(A(42)).cons(B(1.234)).cons(C("hello".to_string()))`. -/
def list : HList [C, B, A] := ((empty.cons (A.mk 42)).cons (B.mk fHalf)).cons (C.mk "hello")

/-- `split_head` (`src/hlist.rs:241–258`). -/
example : splitHead list = (C.mk "hello", (empty.cons (A.mk 42)).cons (B.mk fHalf)) := rfl

/-- `chain` (`src/hlist.rs:260–277`). -/
example : ((empty.cons "A").cons (2 : Int)).cons "C" =
    ({ head := "C", tail := ({ head := 2, tail := ({ head := "A", tail := () } : Cons String Nil) } : Cons Int (Cons String Nil)) } :
      Cons String (Cons Int (Cons String Nil))) := rfl

/-- A struct with the members `a` and those of another. -/
def serA (a : Nat) (b : Members) : Json := .obj (("a", serNat a) :: b)

/-- `serialize_flatten_nil` (`src/hlist.rs:279–291`). -/
example : (ExtCodec.nil.ser ()).map (fun b => (serA 42 b).norm) = some (.obj [("a", .num (.pos 42))]) := rfl

/-- The structs `B { foo: usize }` and `C { bar: String }`. -/
def foo : ExtCodec (Fin (2^64)) where
  keys := ["foo"]
  ser n := some [("foo", serFin n)]
  de es := required "foo" (deFin (2^64)) es
  takes := true

def bar : ExtCodec String where
  keys := ["bar"]
  ser n := some [("bar", .str n)]
  de es := required "bar" deStr es
  takes := true

/-- `serialize_cons` (`src/hlist.rs:293–317`). -/
example : writes (((ExtCodec.cons bar (ExtCodec.cons foo .nil)).ser ⟨"42", ⟨42, ()⟩⟩).map (serA 42))
    (json! { "a": 42, "foo": 42, "bar": "42" }) = true := by decide +kernel

/-- `deserialize_cons` (`src/hlist.rs:319–347`). -/
example : ((ExtCodec.cons (ExtCodec.cons foo bar) .nil).de [("bar", json! "42"), ("foo", json! 42)]).map
      (fun b => (b.head.head, b.head.tail)) = some (42, "42") := by decide +kernel

/-- `to_ref` (`src/hlist.rs:349–368`). -/
example : toRef list =
    (show HList [Ref C, Ref B, Ref A] from ((empty.cons ⟨A.mk 42⟩).cons ⟨B.mk fHalf⟩).cons ⟨C.mk "hello"⟩) := rfl

/-- `to_mut` (`src/hlist.rs:370–389`): the references are to the elements. -/
example :
    let m := toMut (O := HList [C, B, A]) (Ts := [C, B, A]) ⟨fun l => l, fun _ l => l⟩
    (m.head.get list, m.tail.head.get list, m.tail.tail.head.get list) = (C.mk "hello", B.mk fHalf, A.mk 42) := rfl

/-- `split_last` (`src/hlist.rs:391–415`). -/
example :
    let d1 : NonEmpty [C] [] C [C] := .one C
    let d2 : NonEmpty [C, B] [C] B [B, C] := .more (.one B) d1
    let d3 : NonEmpty [C, B, A] [C, B] A [A, B, C] := .more (.more (.one A) (.one B)) d2
    splitLast d3 list = (A.mk 42, (empty.cons (B.mk fHalf)).cons (C.mk "hello")) ∧
    splitLast d2 (splitLast d3 list).2 = (B.mk fHalf, empty.cons (C.mk "hello")) ∧
    splitLast d1 (splitLast d2 (splitLast d3 list).2).2 = (C.mk "hello", empty) := ⟨rfl, rfl, rfl⟩

/-- `reverse` (`src/hlist.rs:417–434`). -/
example :
    let d2 : NonEmpty [C, B] [C] B [B, C] := .more (.one B) (.one C)
    let d3 : NonEmpty [C, B, A] [C, B] A [A, B, C] := .more (.more (.one A) (.one B)) d2
    reverse d3 list = ((empty.cons (C.mk "hello")).cons (B.mk fHalf)).cons (A.mk 42) := rfl

end Lists
end Wot.Conformance.ProtocolTests

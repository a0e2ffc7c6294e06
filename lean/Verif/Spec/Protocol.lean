import Verif.Model.Protocol
import Verif.Spec.Storable
/-
Stacks of protocol bindings: the type parameter a Thing gets from calls of `ext` with protocol bindings.
-/
namespace Wot

/-- The protocol bindings of the crate. -/
inductive Binding
  | http | coap | mqtt
  deriving DecidableEq

namespace Binding

/-- The associated types of a binding. -/
abbrev types : Binding → ExtTypes
  | .http => Http.X
  | .coap => Coap.X
  | .mqtt => Mqtt.X

/-- How they are written and read. -/
def codecs : (b : Binding) → ExtCodecs b.types
  | .http => Http.codecs
  | .coap => Coap.codecs
  | .mqtt => Mqtt.codecs

/-- The associated types of a list of bindings, the last one added first. -/
abbrev stackTypes : List Binding → ExtTypes
  | [] => .nil
  | b :: l => .cons b.types (stackTypes l)

/-- How they are written and read. -/
def stack : (l : List Binding) → ExtCodecs (stackTypes l)
  | [] => .nil
  | b :: l => .cons b.codecs (stack l)

/-- If the binding is HTTP, the response names some header. -/
def HeadersGiven : (b : Binding) → b.types.response → Prop
  | .http, r => Http.Response.headers r ≠ []
  | .coap, _ => True
  | .mqtt, _ => True

/-- The same for all bindings in a list. -/
def AllHeadersGiven : (l : List Binding) → (stackTypes l).response → Prop
  | [], _ => True
  | b :: l, r => HeadersGiven b r.head ∧ AllHeadersGiven l r.tail

/-- Every HTTP response in a form of the Thing names some header. -/
def ThingHeadersGiven (l : List Binding) (t : Thing (stackTypes l)) : Prop :=
  ∀ ctx f r, t.HasForm ctx f → f.response = some r → AllHeadersGiven l r.other

end Binding

/-- The conditions on the JSON values, custom security schemes and instants handed to a builder; there are
none on extensions. -/
structure PlainValues {X : ExtTypes} (env : SerdeEnv) (t : Thing X) : Prop where
  created : ∀ d, t.created = some d → ∃ s, env.timeFormat d = some s ∧ env.timeParse s = some d
  modified : ∀ d, t.modified = some d → ∃ s, env.timeFormat d = some s ∧ env.timeParse s = some d
  schemas : ∀ p s x, t.HasSchema p s → Within x s →
    (∀ v, x.head.constant = some v → v.IsValue) ∧ (∀ v, x.head.default = some v → v.IsValue) ∧
    (∀ l, x.head.enumeration = some l → ∀ v ∈ l, v.IsValue)
  security : ∀ kv ∈ t.securityDefinitions, kv.2.subtype.Kept

end Wot

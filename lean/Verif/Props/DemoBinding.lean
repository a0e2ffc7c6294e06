import Verif.Spec.Protocol
import Verif.Lemmas.Built
import Verif.Props.DemoStore
/-
Things with protocol bindings.
-/
namespace Wot.Demo
open Binding

/-- A form with protocol bindings. -/
def bindingForm (l : List Binding) (href : String) (other : (stackTypes l).form)
    (ops : List (FormOp (stackTypes l))) : FormBuilder (stackTypes l) :=
  ops.foldl FormBuilderF.apply ((FormBuilderF.new (X := stackTypes l) other).setHref href)

theorem bindingForm_built (l : List Binding) (href : String) (other : (stackTypes l).form)
    (ops : List (FormOp (stackTypes l))) : FormReach (stackTypes l) (bindingForm l href other ops) := by
  suffices h : ∀ f : FormBuilder (stackTypes l), FormReach _ f →
      FormReach _ (ops.foldl FormBuilderF.apply f) from h _ (.href href (.new other))
  induction ops with
  | nil => exact fun f h => h
  | cons op ops ih => exact fun f h => ih _ (.call op h)

/-- The bindings of the examples: HTTP is added first, then CoAP. -/
abbrev web : List Binding := [.coap, .http]

/-- A form which fetches all properties by HTTP or CoAP, whose response has these headers. -/
def webForm (headers : List Http.MessageHeader) : FormBuilder (stackTypes web) :=
  bindingForm web "/all" ⟨{ method := some .fetch, hopLimit := some 5 }, ⟨{ methodName := some .get }, ()⟩⟩
    [.op .readAllProperties,
     .response "application/json" ⟨{ contentFormat := some 50 }, ⟨{ headers, statusCodeValue := some 200 }, ()⟩⟩]

/-- A Thing with this form. -/
def webBuilder (headers : List Http.MessageHeader) : ThingBuilder (stackTypes web) :=
  (ThingBuilder.new (X := stackTypes web) "Lamp" ⟨(), ⟨(), ()⟩⟩).finishExtend.run [.form (webForm headers)]

theorem web_reachable (headers : List Http.MessageHeader) :
    Reachable (stackTypes web) "Lamp" [.form (webForm headers)] (webBuilder headers) :=
  ⟨.extended (h := []) [.form (webForm headers)] (.new (X := stackTypes web) "Lamp" ⟨(), ⟨(), ()⟩⟩), by
    intro op h; cases List.mem_singleton.1 h; exact bindingForm_built ..⟩

/-- What it builds. -/
def webThing (headers : List Http.MessageHeader) : Thing (stackTypes web) := (webBuilder headers).result env

theorem web_ok (headers : List Http.MessageHeader) :
    (webBuilder headers).build senv.toEnv = .ok (webThing headers) := rfl

theorem web_plain (headers : List Http.MessageHeader) : PlainValues senv (webThing headers) where
  created := by intro d h; cases h
  modified := by intro d h; cases h
  schemas := by
    intro p s x hs hx
    obtain ⟨u, hu, rfl⟩ := ((web_reachable headers).hasSchema (web_ok headers)).1 hs
    cases hu with
    | property h1 => cases List.mem_singleton.1 h1
    | input h1 h2 => cases List.mem_singleton.1 h1
    | output h1 h2 => cases List.mem_singleton.1 h1
    | subscription h1 h2 => cases List.mem_singleton.1 h1
    | data h1 h2 => cases List.mem_singleton.1 h1
    | dataResponse h1 h2 => cases List.mem_singleton.1 h1
    | cancellation h1 h2 => cases List.mem_singleton.1 h1
    | uriVariable h1 => cases h1
    | propertyUriVariable h1 h2 => cases List.mem_singleton.1 h1
    | actionUriVariable h1 h2 => cases List.mem_singleton.1 h1
    | eventUriVariable h1 h2 => cases List.mem_singleton.1 h1
    | schemaDefinition h1 => cases h1
  security := by
    rintro ⟨n, s⟩ hs
    obtain ⟨q, hq, _, rfl⟩ := ((web_reachable headers).hasScheme (web_ok headers)).1 hs
    cases hq

theorem web_hasForm {headers : List Http.MessageHeader} {ctx : FormContext} {f : Form (stackTypes web)} :
    (webThing headers).HasForm ctx f ↔ ctx = .thing ∧ f = (webForm headers).result := by
  rw [(web_reachable headers).hasForm (web_ok headers)]
  constructor
  · rintro ⟨g, hg, rfl⟩
    cases hg with
    | thing h => cases List.mem_singleton.1 h; exact ⟨rfl, rfl⟩
    | property h => cases List.mem_singleton.1 h
    | action h => cases List.mem_singleton.1 h
    | event h => cases List.mem_singleton.1 h
  · rintro ⟨rfl, rfl⟩
    exact ⟨_, .thing (List.mem_singleton.2 rfl), rfl⟩

/-- All headers are given just when there are some. -/
theorem web_headers {headers : List Http.MessageHeader} :
    ThingHeadersGiven web (webThing headers) ↔ headers ≠ [] := by
  constructor
  · intro h
    exact (h .thing _ _ (web_hasForm.2 ⟨rfl, rfl⟩) rfl).2.1
  · rintro h ctx f r hf hr
    obtain ⟨rfl, rfl⟩ := web_hasForm.1 hf
    cases hr
    exact ⟨trivial, h, trivial⟩

end Wot.Demo

import Verif.Lemmas.Written
import Verif.Lemmas.WrittenProtocol
import Verif.Props.Unordered
import Verif.Props.Documents
import Verif.Props.DemoBinding
/-
C52: the JSON that is written for a Thing shows each part of it under the name that belongs to it, and nothing else.
-/
namespace Wot

variable {X : ExtTypes} {C : ExtCodecs X} {env : SerdeEnv} {t : Thing X}

/-- The value that is written for a Thing shows the Thing: member by member, at all levels. -/
theorem C52_value (hs : C.Separate) (ho : C.Own) (h : t.Maps)
    (hn : ∀ kv ∈ t.securityDefinitions, kv.2.subtype.OwnNames) {v : Json} (hv : toValue C env t = some v) :
    ThingShown C env t v := by
  obtain ⟨j, hj, rfl⟩ := Option.map_eq_some_iff.1 hv
  exact thing_shown hs ho h hn hj

/-- The same for the value of the text that is written. -/
theorem C52_text (hs : C.Separate) (ho : C.Own) (h : t.Maps)
    (hn : ∀ kv ∈ t.securityDefinitions, kv.2.subtype.OwnNames) {j : Json} (hj : toText C env t = some j) :
    ThingShown C env t j.norm :=
  thing_shown hs ho h hn hj

/-- What is written for a Thing that has been built shows the Thing, unless it has a custom security scheme whose
data uses the names of other members. -/
theorem C52_built (hs : C.Separate) (ho : C.Own) {title : String} {h : List (ThingOp X)} {b : ThingBuilder X}
    {e : Env} (hr : Reachable X title h b) (hb : b.build e = .ok t)
    (hn : ∀ kv ∈ t.securityDefinitions, kv.2.subtype.OwnNames) {v : Json} (hv : toValue C env t = some v) :
    ThingShown C env t v :=
  C52_value hs ho (hr.maps hb) hn hv

/-- What is written for a Thing that has been read shows the Thing. -/
theorem C52_read (hs : C.Separate) (ho : C.Own) (he : env.Stable) {d : Json} (h : fromText C env d = some t)
    {v : Json} (hv : toValue C env t = some v) : ThingShown C env t v := by
  refine C52_value hs ho (C49_read he h) ?_ hv
  have hP : Hereditary fun _ => True := ⟨fun _ _ => trivial, fun _ _ => trivial, fun _ _ => trivial⟩
  intro kv hkv scheme m hm
  obtain ⟨_, _, hr⟩ := (thing_from he hP trivial h).security kv hkv
  obtain ⟨m', e, hm'⟩ := custom_data (deSecurity_iff.2 hr) hm
  cases e
  exact hm'

/-- The conditions on the extensions hold of all combinations of different protocol bindings. -/
theorem C52_bindings_lawful {l : List Binding} (hn : l.Nodup) :
    (Binding.stack l).Separate ∧ (Binding.stack l).Own :=
  ⟨Binding.stack_separate l, (Binding.stack_tidy hn).own⟩

/-- What is shown of a form with protocol bindings, and of its response, are the members of the bindings. -/
theorem C52_bindings {l : List Binding} (hn : l.Nodup) {f : Form (Binding.stackTypes l)} {v : Json}
    (h : FormShown (Binding.stack l) f v) :
    Binding.AllFormShown l f.other v ∧
    OptRel (fun r w => Binding.AllResponseShown l r.other w) f.response (v.member "response") := by
  constructor
  · obtain ⟨m, hm, hk⟩ := h.other
    exact Binding.stack_form_shown hn hm fun k h => (hk k h).trans (member_norm m k)
  · have := h.response
    revert this
    generalize v.member "response" = w
    generalize f.response = r
    intro hr
    cases hr with
    | none => exact .none
    | some hr =>
      obtain ⟨m, hm, hk⟩ := hr.other
      exact .some (Binding.stack_response_shown hn hm fun k h => (hk k h).trans (member_norm m k))

/-! ### Examples -/

theorem Demo.nil_own : ExtCodecs.nil.Own := by
  constructor <;> (intro a m h; cases h; nofun)

/-- A document with many members is read, and what is written for its Thing shows it. -/
example : ∃ t v, fromText .nil Demo.senv (.obj Demo.fullDocument) = some t ∧ toValue .nil Demo.senv t = some v ∧
    ThingShown .nil Demo.senv t v :=
  ⟨_, _, rfl, rfl, C52_read (C := .nil) (d := .obj Demo.fullDocument) Demo.nil_separate Demo.nil_own Demo.stable
    rfl rfl⟩

/-- A Thing with HTTP and CoAP bindings that is built and written. -/
example : ∃ v, toValue (Binding.stack Demo.web) Demo.senv (Demo.webThing []) = some v ∧
    ThingShown (Binding.stack Demo.web) Demo.senv (Demo.webThing []) v :=
  ⟨_, rfl, C52_built (Binding.stack_separate _) (C52_bindings_lawful (by decide)).2 (Demo.web_reachable [])
    (Demo.web_ok []) (by intro kv hkv; cases hkv) rfl⟩

/-- Its only form: the single operation is in brackets and the methods are members of the form. -/
example {v w : Json} (hv : toValue (Binding.stack Demo.web) Demo.senv (Demo.webThing []) = some v)
    (hw : v.member "forms" = some (.arr [w])) :
    w.member "op" = some (.arr [.str "readallproperties"]) ∧ w.member "htv:methodName" = some (.str "GET") ∧
    w.member "cov:method" = some (.str "FETCH") ∧ w.member "subprotocol" = none := by
  cases hv
  cases hw
  decide

/-- The condition on custom schemes cannot be dropped: the data of this scheme replaces the description. -/
example : ∃ v, (serSecurity Demo.env ⟨none, some "mine", none, none,
      .unknown "odd" (.obj [("description", .str "yours")])⟩).map Json.norm = some v ∧
    v.member "description" = some (.str "yours") :=
  ⟨_, rfl, rfl⟩

end Wot

import Verif.Lemmas.Without
import Verif.Props.LeftOutAccess
/-
C94: what is taken out of a document is taken out of the Thing.
-/
namespace Wot

variable {X : ExtTypes} {C : ExtCodecs X} {env : SerdeEnv} {es es' : Members} {v : Json} {n : String} {t : Thing X}

/-- The document without a property is read as the Thing without it. -/
theorem C94_property (hr : Replaced "properties" v (v.without n) es es') (h : fromText C env (.obj es) = some t) :
    ∃ t', fromText C env (.obj es') = some t' ∧ t.LessProperty n t' := by
  have h := deThing_iff.1 h
  obtain ⟨m', h1, h2⟩ := Without.optional hr h.properties
  refine ⟨{ t with properties := m' }, deThing_iff.2 ?_, rfl, h2⟩
  exact
    { context := (hr.defaulted_ne _ _ _ (by decide)).symm.trans h.context
      id := (hr.defaulted_ne _ _ _ (by decide)).symm.trans h.id
      attype := (hr.defaulted_ne _ _ _ (by decide)).symm.trans h.attype
      title := (hr.required_ne _ _ (by decide)).symm.trans h.title
      titles := (hr.defaulted_ne _ _ _ (by decide)).symm.trans h.titles
      description := (hr.defaulted_ne _ _ _ (by decide)).symm.trans h.description
      descriptions := (hr.defaulted_ne _ _ _ (by decide)).symm.trans h.descriptions
      version := (hr.defaulted_ne _ _ _ (by decide)).symm.trans h.version
      created := (hr.defaulted_ne _ _ _ (by decide)).symm.trans h.created
      modified := (hr.defaulted_ne _ _ _ (by decide)).symm.trans h.modified
      support := (hr.defaulted_ne _ _ _ (by decide)).symm.trans h.support
      base := (hr.defaulted_ne _ _ _ (by decide)).symm.trans h.base
      properties := h1
      actions := (hr.defaulted_ne _ _ _ (by decide)).symm.trans h.actions
      events := (hr.defaulted_ne _ _ _ (by decide)).symm.trans h.events
      links := (hr.defaulted_ne _ _ _ (by decide)).symm.trans h.links
      forms := (hr.defaulted_ne _ _ _ (by decide)).symm.trans h.forms
      security := (hr.required_ne _ _ (by decide)).symm.trans h.security
      securityDefinitions := (hr.required_ne _ _ (by decide)).symm.trans h.securityDefinitions
      uriVariables := (hr.defaulted_ne _ _ _ (by decide)).symm.trans h.uriVariables
      profile := (hr.defaulted_ne _ _ _ (by decide)).symm.trans h.profile
      schemaDefinitions := (hr.defaulted_ne _ _ _ (by decide)).symm.trans h.schemaDefinitions
      other := by rw [← hr.rest_eq (K := thingKeys) (by decide)]; exact h.other }

/-- The document without an action is read as the Thing without it. -/
theorem C94_action (hr : Replaced "actions" v (v.without n) es es') (h : fromText C env (.obj es) = some t) :
    ∃ t', fromText C env (.obj es') = some t' ∧ t.LessAction n t' := by
  have h := deThing_iff.1 h
  obtain ⟨m', h1, h2⟩ := Without.optional hr h.actions
  refine ⟨{ t with actions := m' }, deThing_iff.2 ?_, rfl, h2⟩
  exact
    { context := (hr.defaulted_ne _ _ _ (by decide)).symm.trans h.context
      id := (hr.defaulted_ne _ _ _ (by decide)).symm.trans h.id
      attype := (hr.defaulted_ne _ _ _ (by decide)).symm.trans h.attype
      title := (hr.required_ne _ _ (by decide)).symm.trans h.title
      titles := (hr.defaulted_ne _ _ _ (by decide)).symm.trans h.titles
      description := (hr.defaulted_ne _ _ _ (by decide)).symm.trans h.description
      descriptions := (hr.defaulted_ne _ _ _ (by decide)).symm.trans h.descriptions
      version := (hr.defaulted_ne _ _ _ (by decide)).symm.trans h.version
      created := (hr.defaulted_ne _ _ _ (by decide)).symm.trans h.created
      modified := (hr.defaulted_ne _ _ _ (by decide)).symm.trans h.modified
      support := (hr.defaulted_ne _ _ _ (by decide)).symm.trans h.support
      base := (hr.defaulted_ne _ _ _ (by decide)).symm.trans h.base
      properties := (hr.defaulted_ne _ _ _ (by decide)).symm.trans h.properties
      actions := h1
      events := (hr.defaulted_ne _ _ _ (by decide)).symm.trans h.events
      links := (hr.defaulted_ne _ _ _ (by decide)).symm.trans h.links
      forms := (hr.defaulted_ne _ _ _ (by decide)).symm.trans h.forms
      security := (hr.required_ne _ _ (by decide)).symm.trans h.security
      securityDefinitions := (hr.required_ne _ _ (by decide)).symm.trans h.securityDefinitions
      uriVariables := (hr.defaulted_ne _ _ _ (by decide)).symm.trans h.uriVariables
      profile := (hr.defaulted_ne _ _ _ (by decide)).symm.trans h.profile
      schemaDefinitions := (hr.defaulted_ne _ _ _ (by decide)).symm.trans h.schemaDefinitions
      other := by rw [← hr.rest_eq (K := thingKeys) (by decide)]; exact h.other }

/-- The document without an event is read as the Thing without it. -/
theorem C94_event (hr : Replaced "events" v (v.without n) es es') (h : fromText C env (.obj es) = some t) :
    ∃ t', fromText C env (.obj es') = some t' ∧ t.LessEvent n t' := by
  have h := deThing_iff.1 h
  obtain ⟨m', h1, h2⟩ := Without.optional hr h.events
  refine ⟨{ t with events := m' }, deThing_iff.2 ?_, rfl, h2⟩
  exact
    { context := (hr.defaulted_ne _ _ _ (by decide)).symm.trans h.context
      id := (hr.defaulted_ne _ _ _ (by decide)).symm.trans h.id
      attype := (hr.defaulted_ne _ _ _ (by decide)).symm.trans h.attype
      title := (hr.required_ne _ _ (by decide)).symm.trans h.title
      titles := (hr.defaulted_ne _ _ _ (by decide)).symm.trans h.titles
      description := (hr.defaulted_ne _ _ _ (by decide)).symm.trans h.description
      descriptions := (hr.defaulted_ne _ _ _ (by decide)).symm.trans h.descriptions
      version := (hr.defaulted_ne _ _ _ (by decide)).symm.trans h.version
      created := (hr.defaulted_ne _ _ _ (by decide)).symm.trans h.created
      modified := (hr.defaulted_ne _ _ _ (by decide)).symm.trans h.modified
      support := (hr.defaulted_ne _ _ _ (by decide)).symm.trans h.support
      base := (hr.defaulted_ne _ _ _ (by decide)).symm.trans h.base
      properties := (hr.defaulted_ne _ _ _ (by decide)).symm.trans h.properties
      actions := (hr.defaulted_ne _ _ _ (by decide)).symm.trans h.actions
      events := h1
      links := (hr.defaulted_ne _ _ _ (by decide)).symm.trans h.links
      forms := (hr.defaulted_ne _ _ _ (by decide)).symm.trans h.forms
      security := (hr.required_ne _ _ (by decide)).symm.trans h.security
      securityDefinitions := (hr.required_ne _ _ (by decide)).symm.trans h.securityDefinitions
      uriVariables := (hr.defaulted_ne _ _ _ (by decide)).symm.trans h.uriVariables
      profile := (hr.defaulted_ne _ _ _ (by decide)).symm.trans h.profile
      schemaDefinitions := (hr.defaulted_ne _ _ _ (by decide)).symm.trans h.schemaDefinitions
      other := by rw [← hr.rest_eq (K := thingKeys) (by decide)]; exact h.other }

/-- The document without a schema definition is read as the Thing without it. -/
theorem C94_schema (hr : Replaced "schemaDefinitions" v (v.without n) es es') (h : fromText C env (.obj es) = some t) :
    ∃ t', fromText C env (.obj es') = some t' ∧ t.LessSchema n t' := by
  have h := deThing_iff.1 h
  obtain ⟨m', h1, h2⟩ := Without.optional hr h.schemaDefinitions
  refine ⟨{ t with schemaDefinitions := m' }, deThing_iff.2 ?_, rfl, h2⟩
  exact
    { context := (hr.defaulted_ne _ _ _ (by decide)).symm.trans h.context
      id := (hr.defaulted_ne _ _ _ (by decide)).symm.trans h.id
      attype := (hr.defaulted_ne _ _ _ (by decide)).symm.trans h.attype
      title := (hr.required_ne _ _ (by decide)).symm.trans h.title
      titles := (hr.defaulted_ne _ _ _ (by decide)).symm.trans h.titles
      description := (hr.defaulted_ne _ _ _ (by decide)).symm.trans h.description
      descriptions := (hr.defaulted_ne _ _ _ (by decide)).symm.trans h.descriptions
      version := (hr.defaulted_ne _ _ _ (by decide)).symm.trans h.version
      created := (hr.defaulted_ne _ _ _ (by decide)).symm.trans h.created
      modified := (hr.defaulted_ne _ _ _ (by decide)).symm.trans h.modified
      support := (hr.defaulted_ne _ _ _ (by decide)).symm.trans h.support
      base := (hr.defaulted_ne _ _ _ (by decide)).symm.trans h.base
      properties := (hr.defaulted_ne _ _ _ (by decide)).symm.trans h.properties
      actions := (hr.defaulted_ne _ _ _ (by decide)).symm.trans h.actions
      events := (hr.defaulted_ne _ _ _ (by decide)).symm.trans h.events
      links := (hr.defaulted_ne _ _ _ (by decide)).symm.trans h.links
      forms := (hr.defaulted_ne _ _ _ (by decide)).symm.trans h.forms
      security := (hr.required_ne _ _ (by decide)).symm.trans h.security
      securityDefinitions := (hr.required_ne _ _ (by decide)).symm.trans h.securityDefinitions
      uriVariables := (hr.defaulted_ne _ _ _ (by decide)).symm.trans h.uriVariables
      profile := (hr.defaulted_ne _ _ _ (by decide)).symm.trans h.profile
      schemaDefinitions := h1
      other := by rw [← hr.rest_eq (K := thingKeys) (by decide)]; exact h.other }

/-- The document without a URI variable is read as the Thing without it. -/
theorem C94_uriVariable (hr : Replaced "uriVariables" v (v.without n) es es') (h : fromText C env (.obj es) = some t) :
    ∃ t', fromText C env (.obj es') = some t' ∧ t' = { t with uriVariables := t'.uriVariables } ∧
      ∀ m s, EntryOf t'.uriVariables m s ↔ EntryOf t.uriVariables m s ∧ m ≠ n := by
  have h := deThing_iff.1 h
  obtain ⟨m', h1, h2⟩ := Without.optional hr h.uriVariables
  refine ⟨{ t with uriVariables := m' }, deThing_iff.2 ?_, rfl, h2⟩
  exact
    { context := (hr.defaulted_ne _ _ _ (by decide)).symm.trans h.context
      id := (hr.defaulted_ne _ _ _ (by decide)).symm.trans h.id
      attype := (hr.defaulted_ne _ _ _ (by decide)).symm.trans h.attype
      title := (hr.required_ne _ _ (by decide)).symm.trans h.title
      titles := (hr.defaulted_ne _ _ _ (by decide)).symm.trans h.titles
      description := (hr.defaulted_ne _ _ _ (by decide)).symm.trans h.description
      descriptions := (hr.defaulted_ne _ _ _ (by decide)).symm.trans h.descriptions
      version := (hr.defaulted_ne _ _ _ (by decide)).symm.trans h.version
      created := (hr.defaulted_ne _ _ _ (by decide)).symm.trans h.created
      modified := (hr.defaulted_ne _ _ _ (by decide)).symm.trans h.modified
      support := (hr.defaulted_ne _ _ _ (by decide)).symm.trans h.support
      base := (hr.defaulted_ne _ _ _ (by decide)).symm.trans h.base
      properties := (hr.defaulted_ne _ _ _ (by decide)).symm.trans h.properties
      actions := (hr.defaulted_ne _ _ _ (by decide)).symm.trans h.actions
      events := (hr.defaulted_ne _ _ _ (by decide)).symm.trans h.events
      links := (hr.defaulted_ne _ _ _ (by decide)).symm.trans h.links
      forms := (hr.defaulted_ne _ _ _ (by decide)).symm.trans h.forms
      security := (hr.required_ne _ _ (by decide)).symm.trans h.security
      securityDefinitions := (hr.required_ne _ _ (by decide)).symm.trans h.securityDefinitions
      uriVariables := h1
      profile := (hr.defaulted_ne _ _ _ (by decide)).symm.trans h.profile
      schemaDefinitions := (hr.defaulted_ne _ _ _ (by decide)).symm.trans h.schemaDefinitions
      other := by rw [← hr.rest_eq (K := thingKeys) (by decide)]; exact h.other }

/-- The document without a security definition is read as the Thing without it. -/
theorem C94_security (hr : Replaced "securityDefinitions" v (v.without n) es es') (h : fromText C env (.obj es) = some t) :
    ∃ t', fromText C env (.obj es') = some t' ∧ t' = { t with securityDefinitions := t'.securityDefinitions } ∧
      ∀ m s, (m, s) ∈ t'.securityDefinitions ↔ (m, s) ∈ t.securityDefinitions ∧ m ≠ n := by
  have h := deThing_iff.1 h
  obtain ⟨m', h1, h2⟩ := Without.required hr h.securityDefinitions
  refine ⟨{ t with securityDefinitions := m' }, deThing_iff.2 ?_, rfl, h2⟩
  exact
    { context := (hr.defaulted_ne _ _ _ (by decide)).symm.trans h.context
      id := (hr.defaulted_ne _ _ _ (by decide)).symm.trans h.id
      attype := (hr.defaulted_ne _ _ _ (by decide)).symm.trans h.attype
      title := (hr.required_ne _ _ (by decide)).symm.trans h.title
      titles := (hr.defaulted_ne _ _ _ (by decide)).symm.trans h.titles
      description := (hr.defaulted_ne _ _ _ (by decide)).symm.trans h.description
      descriptions := (hr.defaulted_ne _ _ _ (by decide)).symm.trans h.descriptions
      version := (hr.defaulted_ne _ _ _ (by decide)).symm.trans h.version
      created := (hr.defaulted_ne _ _ _ (by decide)).symm.trans h.created
      modified := (hr.defaulted_ne _ _ _ (by decide)).symm.trans h.modified
      support := (hr.defaulted_ne _ _ _ (by decide)).symm.trans h.support
      base := (hr.defaulted_ne _ _ _ (by decide)).symm.trans h.base
      properties := (hr.defaulted_ne _ _ _ (by decide)).symm.trans h.properties
      actions := (hr.defaulted_ne _ _ _ (by decide)).symm.trans h.actions
      events := (hr.defaulted_ne _ _ _ (by decide)).symm.trans h.events
      links := (hr.defaulted_ne _ _ _ (by decide)).symm.trans h.links
      forms := (hr.defaulted_ne _ _ _ (by decide)).symm.trans h.forms
      security := (hr.required_ne _ _ (by decide)).symm.trans h.security
      securityDefinitions := h1
      uriVariables := (hr.defaulted_ne _ _ _ (by decide)).symm.trans h.uriVariables
      profile := (hr.defaulted_ne _ _ _ (by decide)).symm.trans h.profile
      schemaDefinitions := (hr.defaulted_ne _ _ _ (by decide)).symm.trans h.schemaDefinitions
      other := by rw [← hr.rest_eq (K := thingKeys) (by decide)]; exact h.other }

/-! ### Examples -/

namespace Demo

/-- A document with two events and two security definitions. -/
def twoEvents (events : List (String × Json)) (defs : List (String × Json)) : Members :=
  [("title", .str "Lamp"), ("events", .obj events), ("security", .str "s"), ("securityDefinitions", .obj defs)]

def hot : String × Json := ("hot", opEvent (.str "subscribeevent"))
def cold : String × Json := ("cold", opEvent (.str "subscribeevent"))
def nosec : String × Json := ("s", definition "nosec" [])
def key : String × Json := ("k", definition "psk" [])

/-- Without the second event it is read as the Thing with the first. -/
example : ∃ t t', fromText .nil senv (.obj (twoEvents [hot, cold] [nosec, key])) = some t ∧
    fromText .nil senv (.obj (twoEvents [hot] [nosec, key])) = some t' ∧ t.LessEvent "cold" t' ∧
    (∃ e, EntryOf t.events "cold" e) ∧ ∃ e, EntryOf t'.events "hot" e := by
  have h : ∃ t, fromText .nil senv (.obj (twoEvents [hot, cold] [nosec, key])) = some t ∧
      (∃ e, EntryOf t.events "cold" e) ∧ ∃ e, EntryOf t.events "hot" e :=
    ⟨_, rfl, ⟨_, _, rfl, List.mem_cons_self⟩, ⟨_, _, rfl, List.mem_cons_of_mem _ List.mem_cons_self⟩⟩
  obtain ⟨t, ht, hc, e, he⟩ := h
  obtain ⟨t', ht', hl⟩ := C94_event (v := .obj [hot, cold]) (n := "cold") (es' := twoEvents [hot] [nosec, key])
    ⟨[("title", .str "Lamp")], _, rfl, rfl⟩ ht
  exact ⟨t, t', ht, ht', hl, hc, e, (hl.events _ _).2 ⟨he, by decide⟩⟩

/-- The same for a security definition. -/
example : ∃ t t', fromText .nil senv (.obj (twoEvents [hot, cold] [nosec, key])) = some t ∧
    fromText .nil senv (.obj (twoEvents [hot, cold] [nosec])) = some t' ∧ t'.events = t.events ∧
    ∀ m s, (m, s) ∈ t'.securityDefinitions ↔ (m, s) ∈ t.securityDefinitions ∧ m ≠ "k" := by
  have h : ∃ t, fromText .nil senv (.obj (twoEvents [hot, cold] [nosec, key])) = some t := ⟨_, rfl⟩
  obtain ⟨t, ht⟩ := h
  obtain ⟨t', ht', hs, hl⟩ := C94_security (v := .obj [nosec, key]) (n := "k") (es' := twoEvents [hot, cold] [nosec])
    ⟨[("title", .str "Lamp"), ("events", .obj [hot, cold]), ("security", .str "s")], _, rfl, rfl⟩ ht
  exact ⟨t, t', ht, ht', by rw [hs], hl⟩

end Demo
end Wot

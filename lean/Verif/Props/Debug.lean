import Verif.Lemmas.Debug
import Verif.Props.Equality
/-
C73: what is printed for debugging, and clones.
-/
namespace Wot

section
variable {X : ExtTypes} {env env' : Env} {t u : Thing X}

/-- C73: what is printed for a Thing shows all of it: two Things for which the same is printed are the same, in whatever order their
maps are iterated. -/
theorem C73_shows_all (ht : t.Maps) (hu : u.Maps) (h : t.debug env = u.debug env') : t = u :=
  Thing.debug_inj ht hu h

/-- C73: and so for affordances. -/
theorem C73_affordances :
    (∀ p q : PropertyAffordance X, p.debug = q.debug ↔ p = q) ∧ (∀ p q : ActionAffordance X, p.debug = q.debug ↔ p = q) ∧
    (∀ p q : EventAffordance X, p.debug = q.debug ↔ p = q) ∧ (∀ i j : Interaction X, i.debug = j.debug ↔ i = j) :=
  ⟨fun _ _ => ⟨PropertyAffordance.debug_inj, fun h => by rw [h]⟩, fun _ _ => ⟨ActionAffordance.debug_inj, fun h => by rw [h]⟩,
    fun _ _ => ⟨EventAffordance.debug_inj, fun h => by rw [h]⟩, fun _ _ => ⟨Interaction.debug_inj, fun h => by rw [h]⟩⟩

/-- C73: everything is printed under the name and in the order in which it is declared. -/
theorem C73_names (p : PropertyAffordance X) (a : ActionAffordance X) (e : EventAffordance X) (i : Interaction X) :
    (∃ fs, t.debug env = .struct "Thing" fs ∧ fs.map (·.1) =
      ["context", "id", "attype", "title", "titles", "description", "descriptions", "version", "created", "modified", "support", "base",
       "properties", "actions", "events", "links", "forms", "security", "security_definitions", "uri_variables", "profile",
       "schema_definitions", "other"]) ∧
    (∃ fs, p.debug = .struct "PropertyAffordance" fs ∧ fs.map (·.1) = ["interaction", "data_schema", "observable", "other"]) ∧
    (∃ fs, a.debug = .struct "ActionAffordance" fs ∧ fs.map (·.1) =
      ["interaction", "input", "output", "safe", "idempotent", "synchronous", "other"]) ∧
    (∃ fs, e.debug = .struct "EventAffordance" fs ∧ fs.map (·.1) =
      ["interaction", "subscription", "data", "data_response", "cancellation", "other"]) ∧
    (∃ fs, i.debug = .struct "InteractionAffordance" fs ∧ fs.map (·.1) =
      ["attype", "title", "titles", "description", "descriptions", "forms", "uri_variables", "other"]) :=
  ⟨⟨_, rfl, rfl⟩, ⟨_, rfl, rfl⟩, ⟨_, rfl, rfl⟩, ⟨_, rfl, rfl⟩, ⟨_, rfl, rfl⟩⟩

/-- C73: all properties are printed, each under its name, and nothing else is printed with them; likewise actions and events. -/
theorem C73_entries {ps : HMap (PropertyAffordance X)} {as : HMap (ActionAffordance X)} {es : HMap (EventAffordance X)}
    (hp : t.properties = some ps) (ha : t.actions = some as) (he : t.events = some es) :
    ∃ fs dp da de, t.debug env = .struct "Thing" fs ∧ ("properties", Dbg.opt (some (.map dp))) ∈ fs ∧
      ("actions", Dbg.opt (some (.map da))) ∈ fs ∧ ("events", Dbg.opt (some (.map de))) ∈ fs ∧
      dp.Perm (ps.map fun kv => (kv.1, kv.2.debug)) ∧ da.Perm (as.map fun kv => (kv.1, kv.2.debug)) ∧
      de.Perm (es.map fun kv => (kv.1, kv.2.debug)) := by
  refine ⟨_, _, _, _, rfl, ?_, ?_, ?_, (env.iter_perm ps).map _, (env.iter_perm as).map _, (env.iter_perm es).map _⟩
  · simp [hp, Env.debugMap]
  · simp [ha, Env.debugMap]
  · simp [he, Env.debugMap]

/-- C73: the clone of a form is the form, if this holds for the extensions in it. -/
theorem C73_clone {K : ExtClone X} (hr : ∀ r, K.response r = r) (hf : ∀ f, K.form f = f) (f : Form X) : f.clone K = f := by
  cases f with
  | mk op href ct cc sub sec sc resp add other =>
    unfold Form.clone
    rw [hf]
    cases resp with
    | none => rfl
    | some r =>
      simp only [Option.map_some, ExpectedResponse.clone, hr]

/-- C73: a form that is cloned with extensions that are equal to what they were is equal to what it was. -/
theorem C73_clone_equal {E : ExtEq X} {K : ExtClone X} (hr : ∀ r, E.response (K.response r) r = true)
    (hf : ∀ f, E.form (K.form f) f = true) (f : Form X) : (f.clone K).eq E f = true := by
  cases f with
  | mk op href ct cc sub sec sc resp add other =>
    have hf := hf other
    cases resp with
    | none => simp [Form.clone, Form.eq, optEq, hf]
    | some r => simp [Form.clone, Form.eq, optEq, ExpectedResponse.clone, ExpectedResponse.eq, hf, hr r.other]

end

/-! ### Examples -/

namespace Demo

/-- The hypotheses hold of every Thing that is built. -/
example {env' : Env} {u : Thing X} (hu : u.Maps) (h : thing.debug env = u.debug env') : u.title = thing.title ∧ u.events = thing.events := by
  rw [C73_shows_all (C49_built reachable built) hu h]
  exact ⟨rfl, rfl⟩

/-- What is missing in one of them is noticed. -/
example {p : PropertyAffordance X} : ({ p with observable := some true }).debug ≠ ({ p with observable := none }).debug := by
  intro h
  have := congrArg PropertyAffordance.observable ((C73_affordances.1 _ _).1 h)
  cases this

/-- The maps of the Thing are there. -/
example : thing.properties.isSome = true ∧ thing.actions.isSome = true ∧ thing.events.isSome = true := ⟨rfl, rfl, rfl⟩

/-- A form with an extension and a response. -/
def cloned : Form Http.X :=
  { op := .custom [.readProperty], href := "/p", contentType := some "text/plain", contentCoding := none, subprotocol := none,
    security := some ["basic"], scopes := none, response := some ⟨"text/plain", { headers := [], statusCodeValue := some 200 }⟩,
    additionalResponses := some [{ success := true }], other := { methodName := some .get } }

example : cloned.clone ⟨id, id⟩ = cloned := C73_clone (fun _ => rfl) (fun _ => rfl) cloned

example : (cloned.clone ⟨id, id⟩).eq Http.eq cloned = true := 
  C73_clone_equal (fun _ => (Http.eq_exact.response _ _).2 rfl) (fun _ => (Http.eq_exact.form _ _).2 rfl) cloned

end Demo

end Wot

import Verif.Model.Thing
/-
The `Debug` and `Clone` implementations that are written by hand (`src/thing.rs`): everywhere else they are derived.
-/
namespace Wot

/-- What `fmt::Debug` is given to print. How `std` turns it into text is not modelled. -/
inductive Dbg : Type 1
  /-- A value whose `Debug` is derived, or comes from `std` or another crate, and contains nothing printed by hand. Simplification:
  taken to show everything in it (which holds but for the payload of NaN), and the order of maps inside of it is not modelled. -/
  | value {α : Type} (a : α)
  /-- `Option`. -/
  | opt (d : Option Dbg)
  /-- `HashMap`, in the order of iteration. -/
  | map (entries : List (String × Dbg))
  /-- `Formatter::debug_struct`, `DebugStruct::field`, `DebugStruct::finish`. -/
  | struct (name : String) (fields : List (String × Dbg))

/-- `Debug for Option<HashMap<String, V>>`. -/
def Env.debugMap (env : Env) {V : Type} (f : V → Dbg) (m : Option (HMap V)) : Dbg :=
  .opt (m.map fun m => .map ((env.iter m).map fun kv => (kv.1, f kv.2)))

variable {X : ExtTypes}

/-- `Debug for InteractionAffordance` (`src/thing.rs:332–351`). -/
def Interaction.debug (i : Interaction X) : Dbg :=
  .struct "InteractionAffordance"
    [("attype", .value i.attype), ("title", .value i.title), ("titles", .value i.titles), ("description", .value i.description),
     ("descriptions", .value i.descriptions), ("forms", .value i.forms), ("uri_variables", .value i.uriVariables),
     ("other", .value i.other)]

/-- `Debug for PropertyAffordance` (`src/thing.rs:418–433`). -/
def PropertyAffordance.debug (p : PropertyAffordance X) : Dbg :=
  .struct "PropertyAffordance"
    [("interaction", p.interaction.debug), ("data_schema", .value p.dataSchema), ("observable", .value p.observable),
     ("other", .value p.other)]

/-- `Debug for ActionAffordance` (`src/thing.rs:508–526`). -/
def ActionAffordance.debug (a : ActionAffordance X) : Dbg :=
  .struct "ActionAffordance"
    [("interaction", a.interaction.debug), ("input", .value a.input), ("output", .value a.output), ("safe", .value a.safe),
     ("idempotent", .value a.idempotent), ("synchronous", .value a.synchronous), ("other", .value a.other)]

/-- `Debug for EventAffordance` (`src/thing.rs:591–608`). -/
def EventAffordance.debug (e : EventAffordance X) : Dbg :=
  .struct "EventAffordance"
    [("interaction", e.interaction.debug), ("subscription", .value e.subscription), ("data", .value e.data),
     ("data_response", .value e.dataResponse), ("cancellation", .value e.cancellation), ("other", .value e.other)]

/-- `Debug for Thing` (`src/thing.rs:169–205`). -/
def Thing.debug (env : Env) (t : Thing X) : Dbg :=
  .struct "Thing"
    [("context", .value t.context), ("id", .value t.id), ("attype", .value t.attype), ("title", .value t.title),
     ("titles", .value t.titles), ("description", .value t.description), ("descriptions", .value t.descriptions),
     ("version", .value t.version), ("created", .value t.created), ("modified", .value t.modified), ("support", .value t.support),
     ("base", .value t.base), ("properties", env.debugMap PropertyAffordance.debug t.properties),
     ("actions", env.debugMap ActionAffordance.debug t.actions), ("events", env.debugMap EventAffordance.debug t.events),
     ("links", .value t.links), ("forms", .value t.forms), ("security", .value t.security),
     ("security_definitions", .value t.securityDefinitions), ("uri_variables", .value t.uriVariables), ("profile", .value t.profile),
     ("schema_definitions", .value t.schemaDefinitions), ("other", .value t.other)]

/-- The `Clone` of the extensions that `Clone for Form` calls (`src/thing.rs:1531–1532`). -/
structure ExtClone (X : ExtTypes) where
  response : X.response → X.response
  form : X.form → X.form

/-- Derived `Clone for ExpectedResponse` (`src/thing.rs:1711`). -/
def ExpectedResponse.clone {R : Type} (f : R → R) (r : ExpectedResponse R) : ExpectedResponse R :=
  { contentType := r.contentType, other := f r.other }

/-- `Clone for Form` (`src/thing.rs:1528–1549`). Clones of `std` types are the values themselves. -/
def Form.clone (K : ExtClone X) (f : Form X) : Form X :=
  { op := f.op
    href := f.href
    contentType := f.contentType
    contentCoding := f.contentCoding
    subprotocol := f.subprotocol
    security := f.security
    scopes := f.scopes
    response := f.response.map (·.clone K.response)
    additionalResponses := f.additionalResponses
    other := K.form f.other }

end Wot

import Verif.Spec.Reading
import Verif.Spec.Storable
/-
Edits of a document that should not matter: members are reordered, or members nobody knows are added,
anywhere in the document.
-/
namespace Wot

/-! ### Reordering -/

/-- Two neighbouring members with different names are swapped, somewhere in a JSON value. -/
inductive Reordered : Json → Json → Prop
  | swap {a b : Members} {k k' : String} {v v' : Json} : k ≠ k' →
      Reordered (.obj (a ++ (k, v) :: (k', v') :: b)) (.obj (a ++ (k', v') :: (k, v) :: b))
  | member {a b : Members} {k : String} {v v' : Json} : Reordered v v' →
      Reordered (.obj (a ++ (k, v) :: b)) (.obj (a ++ (k, v') :: b))
  | element {a b : List Json} {v v' : Json} : Reordered v v' →
      Reordered (.arr (a ++ v :: b)) (.arr (a ++ v' :: b))

/-- What an extension is read as does not depend on the order of members. -/
def ExtCodec.Orderless {A : Type} (c : ExtCodec A) : Prop :=
  ∀ es es', Reordered (.obj es) (.obj es') → c.de es = c.de es'

/-- The same for all extensions. -/
structure ExtCodecs.Orderless {X : ExtTypes} (C : ExtCodecs X) : Prop where
  thing : C.thing.Orderless
  interaction : C.interaction.Orderless
  property : C.property.Orderless
  action : C.action.Orderless
  event : C.event.Orderless
  form : C.form.Orderless
  response : C.response.Orderless
  dataSchema : C.dataSchema.Orderless
  objectSchema : C.objectSchema.Orderless
  arraySchema : C.arraySchema.Orderless

/-! ### The parts of a document -/

/-- What a JSON value in a document describes. -/
inductive Part
  | thing | version | property | action | event | form | response | additional | link | security | schema
  /-- one schema or an array of schemas -/
  | items
  /-- one additional response or an array of them -/
  | additionals
  | translations
  /-- any other value -/
  | value
  | list (p : Part)
  /-- an object with arbitrary names -/
  | map (p : Part)

namespace Part

/-- What the members of a Thing describe. -/
def ofThing (k : String) : Part :=
  if k = "titles" ∨ k = "descriptions" then .translations
  else if k = "version" then .version
  else if k = "properties" then .map .property
  else if k = "actions" then .map .action
  else if k = "events" then .map .event
  else if k = "links" then .list .link
  else if k = "forms" then .list .form
  else if k = "securityDefinitions" then .map .security
  else if k = "uriVariables" ∨ k = "schemaDefinitions" then .map .schema
  else .value

/-- What the members of all affordances describe. -/
def ofInteraction (k : String) : Part :=
  if k = "titles" ∨ k = "descriptions" then .translations
  else if k = "forms" then .list .form
  else if k = "uriVariables" then .map .schema
  else .value

/-- What the members of a data schema describe. -/
def ofSchema (k : String) : Part :=
  if k = "titles" ∨ k = "descriptions" then .translations
  else if k = "oneOf" then .list .schema
  else if k = "items" then .items
  else if k = "properties" then .map .schema
  else .value

/-- What the members of a part describe. `none` is for parts that are given otherwise. -/
def member : Part → String → Option Part
  | .thing, k => some (ofThing k)
  | .property, k => some (if k = "forms" ∨ k = "uriVariables" then ofInteraction k else ofSchema k)
  | .action, k => some (if k = "input" ∨ k = "output" then .schema else ofInteraction k)
  | .event, k => some (if k ∈ Names.event then .schema else ofInteraction k)
  | .form, k =>
    some (if k = "response" then .response else if k = "additionalResponses" then .additionals else .value)
  | .schema, k => some (ofSchema k)
  | .security, k => some (if k = "descriptions" then .translations else .value)
  | .map p, _ => some p
  | .items, _ => none
  | .additionals, _ => none
  | _, _ => some .value

/-- What the elements of an array describe. -/
def element : Part → Part
  | .list p => p
  | .additionals => .additional
  | .items => .schema
  | _ => .value

/-- The names of the members that are known, for parts where the names are fixed. -/
def names {X : ExtTypes} (C : ExtCodecs X) : Part → Option (List String)
  | .thing => some (Names.thing ++ C.thing.keys)
  | .version => some ["instance", "model"]
  | .property => some ("observable" :: Names.interaction ++ Names.schema ++ C.interaction.keys ++ C.property.keys ++
      C.dataSchema.keys ++ C.arraySchema.keys ++ C.objectSchema.keys)
  | .action => some (Names.interaction ++ Names.action ++ C.interaction.keys ++ C.action.keys)
  | .event => some (Names.interaction ++ Names.event ++ C.interaction.keys ++ C.event.keys)
  | .form => some (Names.form ++ C.form.keys)
  | .response => some ("contentType" :: C.response.keys)
  | .additional => some ["success", "contentType", "schema"]
  | .link => some ["href", "type", "rel", "anchor", "sizes", "hreflang"]
  | .schema => some (Names.schema ++ C.dataSchema.keys ++ C.arraySchema.keys ++ C.objectSchema.keys)
  | _ => none

/-- The two names of the same bound. -/
def SameBound (k k' : String) : Prop :=
  (k ∈ ["maximum", "exclusiveMaximum"] ∧ k' ∈ ["maximum", "exclusiveMaximum"]) ∨
  (k ∈ ["minimum", "exclusiveMinimum"] ∧ k' ∈ ["minimum", "exclusiveMinimum"])

/-- The order of members with these names should not matter: they are not two names of the same bound of a
schema, or two spellings of the same language. -/
def Swappable (env : SerdeEnv) : Part → String → String → Prop
  | .schema, k, k' => ¬ SameBound k k'
  | .property, k, k' => ¬ SameBound k k'
  | .translations, k, k' => ∀ tag, env.langRead k = some tag → env.langRead k' ≠ some tag
  | .items, _, _ => False
  | .additionals, _, _ => False
  | _, _, _ => True

end Part

/-! ### Edits -/

/-- One edit, anywhere in a document: a member with an unknown name is added, two members are swapped, or a
part of the document is edited. -/
inductive Edit {X : ExtTypes} (env : SerdeEnv) (C : ExtCodecs X) : Part → Json → Json → Prop
  | unknown {p : Part} {K : List String} {a b : Members} {k : String} {v : Json} : p.names C = some K → k ∉ K →
      Edit env C p (.obj (a ++ b)) (.obj (a ++ (k, v) :: b))
  | swap {p : Part} {a b : Members} {k k' : String} {v v' : Json} : k ≠ k' → p.Swappable env k k' →
      Edit env C p (.obj (a ++ (k, v) :: (k', v') :: b)) (.obj (a ++ (k', v') :: (k, v) :: b))
  | member {p q : Part} {a b : Members} {k : String} {v v' : Json} : p.member k = some q → Edit env C q v v' →
      Edit env C p (.obj (a ++ (k, v) :: b)) (.obj (a ++ (k, v') :: b))
  | element {p : Part} {a b : List Json} {v v' : Json} : Edit env C p.element v v' →
      Edit env C p (.arr (a ++ v :: b)) (.arr (a ++ v' :: b))
  | response {m m' : Members} : Edit env C .additional (.obj m) (.obj m') → Edit env C .additionals (.obj m) (.obj m')
  | item {m m' : Members} : Edit env C .schema (.obj m) (.obj m') → Edit env C .items (.obj m) (.obj m')

/-- Any number of edits, done or undone. -/
inductive Edited {X : ExtTypes} (env : SerdeEnv) (C : ExtCodecs X) (p : Part) : Json → Json → Prop
  | refl (v : Json) : Edited env C p v v
  | edit {u v w : Json} : Edited env C p u v → Edit env C p v w → Edited env C p u w
  | undo {u v w : Json} : Edited env C p u v → Edit env C p w v → Edited env C p u w

/-- The names of the members of security definitions with a predefined scheme. -/
def Names.scheme : List String :=
  Names.security ++ ["scheme", "in", "name", "qop", "authorization", "alg", "format", "identity", "token", "refresh",
    "scopes", "flow", "oneOf", "allOf"]

/-! ### Documents with the same content -/

/-- A value is found somewhere in a document. -/
inductive Json.Inside (x : Json) : Json → Prop
  | self : Json.Inside x x
  | element {l : List Json} {v : Json} : v ∈ l → Json.Inside x v → Json.Inside x (.arr l)
  | member {m : Members} {k : String} {v : Json} : (k, v) ∈ m → Json.Inside x v → Json.Inside x (.obj m)

/-- No object in the document gives the same bound twice. -/
def Json.OneBound (d : Json) : Prop :=
  ∀ m, Json.Inside (.obj m) d → ∀ x ∈ m, ∀ y ∈ m, x.1 ≠ y.1 → ¬ Part.SameBound x.1 y.1

/-- Different texts are read as different language tags. -/
def SerdeEnv.TagsDistinct (env : SerdeEnv) : Prop :=
  ∀ k k' tag, env.langRead k = some tag → env.langRead k' = some tag → k = k'

end Wot

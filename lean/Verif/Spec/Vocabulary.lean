import Verif.Spec.Written
/-
The member names of Thing Description documents, as listed in the tables of the W3C Recommendation "Web of Things
(WoT) Thing Description 1.1", section 5.3, and what it means that a document uses no others.
-/
namespace Wot
namespace Vocabulary

def thing : List String :=
  ["@context", "@type", "id", "title", "titles", "description", "descriptions", "version", "created", "modified",
   "support", "base", "properties", "actions", "events", "links", "forms", "security", "securityDefinitions",
   "profile", "schemaDefinitions", "uriVariables"]

def interaction : List String :=
  ["@type", "title", "titles", "description", "descriptions", "forms", "uriVariables"]

def property : List String := ["observable"]

def action : List String := ["input", "output", "safe", "idempotent", "synchronous"]

def event : List String := ["subscription", "data", "dataResponse", "cancellation"]

def version : List String := ["instance", "model"]

/-- Data schemas of all types. -/
def dataSchema : List String :=
  ["@type", "title", "titles", "description", "descriptions", "const", "default", "unit", "oneOf", "enum",
   "readOnly", "writeOnly", "format", "type"] ++
  ["items", "minItems", "maxItems"] ++
  ["minimum", "exclusiveMinimum", "maximum", "exclusiveMaximum", "multipleOf"] ++
  ["properties", "required"] ++
  ["minLength", "maxLength", "pattern", "contentEncoding", "contentMediaType"]

def link : List String := ["href", "type", "rel", "anchor", "sizes", "hreflang"]

def form : List String :=
  ["href", "contentType", "contentCoding", "security", "scopes", "response", "additionalResponses", "subprotocol",
   "op"]

def expectedResponse : List String := ["contentType"]

def additionalResponse : List String := ["success", "contentType", "schema"]

/-- Members of all security definitions. -/
def security : List String := ["@type", "description", "descriptions", "proxy", "scheme"]

/-- Members that depend on the scheme. -/
def scheme : List (String × List String) :=
  [("nosec", []), ("auto", []), ("combo", ["oneOf", "allOf"]), ("basic", ["name", "in"]),
   ("digest", ["name", "in", "qop"]), ("apikey", ["name", "in"]),
   ("bearer", ["authorization", "name", "alg", "format", "in"]), ("psk", ["identity"]),
   ("oauth2", ["authorization", "token", "refresh", "scopes", "flow"])]

end Vocabulary

/-! ### Places in a document -/

/-- `w` is an element of the array that is the member `k` of `v`. -/
def Json.Element (v : Json) (k : String) (w : Json) : Prop := ∃ l, v.member k = some (.arr l) ∧ w ∈ l

/-- `w` is a member of the object that is the member `k` of `v`. -/
def Json.Entry (v : Json) (k : String) (w : Json) : Prop := ∃ o n, v.member k = some o ∧ o.member n = some w

/-- `w` is the member `k` of `v`, or an element of it if that is an array. -/
def Json.Among (v : Json) (k : String) (w : Json) : Prop :=
  v.Element k w ∨ v.member k = some w ∧ w.IsObject

/-! ### Documents that use the vocabulary

`xs` are names that are tolerated in data schemas, and `xe` are names that are tolerated in events, besides those of
the vocabulary. Nothing is said about `@context`, and the values of `const`, `default` and `enum`. -/

/-- `w` is a data schema directly in the data schema `v`. -/
inductive Json.SchemaIn (v : Json) : Json → Prop
  | oneOf {w : Json} : v.Element "oneOf" w → v.SchemaIn w
  | items {w : Json} : v.Among "items" w → v.SchemaIn w
  | properties {w : Json} : v.Entry "properties" w → v.SchemaIn w

/-- A data schema. -/
inductive UsesSchema (xs : List String) : Json → Prop
  | mk {v : Json} : v.Only (Vocabulary.dataSchema ++ xs) → (∀ w, v.SchemaIn w → UsesSchema xs w) → UsesSchema xs v

/-- A form. -/
structure UsesForm (v : Json) : Prop where
  only : v.Only Vocabulary.form
  response : ∀ w, v.member "response" = some w → w.Only Vocabulary.expectedResponse
  additionalResponses : ∀ w, v.Among "additionalResponses" w → w.Only Vocabulary.additionalResponse

/-- A security definition. Those with a scheme that is not predefined can have any members. -/
def UsesSecurity (v : Json) : Prop :=
  ∀ s terms, v.member "scheme" = some (.str s) → (s, terms) ∈ Vocabulary.scheme →
    v.Only (Vocabulary.security ++ terms)

/-- The parts of an affordance. -/
structure UsesInteraction (xs : List String) (v : Json) : Prop where
  forms : ∀ w, v.Element "forms" w → UsesForm w
  uriVariables : ∀ w, v.Entry "uriVariables" w → UsesSchema xs w

/-- A property. -/
structure UsesProperty (xs : List String) (v : Json) : Prop where
  only : v.Only (Vocabulary.interaction ++ Vocabulary.property ++ Vocabulary.dataSchema ++ xs)
  interaction : UsesInteraction xs v
  schema : ∀ w, v.SchemaIn w → UsesSchema xs w

/-- An action. -/
structure UsesAction (xs : List String) (v : Json) : Prop where
  only : v.Only (Vocabulary.interaction ++ Vocabulary.action)
  interaction : UsesInteraction xs v
  schemas : ∀ k ∈ ["input", "output"], ∀ w, v.member k = some w → UsesSchema xs w

/-- An event. -/
structure UsesEvent (xs xe : List String) (v : Json) : Prop where
  only : v.Only (Vocabulary.interaction ++ Vocabulary.event ++ xe)
  interaction : UsesInteraction xs v
  schemas : ∀ k ∈ Vocabulary.event ++ xe, ∀ w, v.member k = some w → UsesSchema xs w

/-- A Thing. -/
structure UsesVocabulary (xs xe : List String) (v : Json) : Prop where
  only : v.Only Vocabulary.thing
  version : ∀ w, v.member "version" = some w → w.Only Vocabulary.version
  properties : ∀ w, v.Entry "properties" w → UsesProperty xs w
  actions : ∀ w, v.Entry "actions" w → UsesAction xs w
  events : ∀ w, v.Entry "events" w → UsesEvent xs xe w
  links : ∀ w, v.Element "links" w → w.Only Vocabulary.link
  forms : ∀ w, v.Element "forms" w → UsesForm w
  securityDefinitions : ∀ w, v.Entry "securityDefinitions" w → UsesSecurity w
  uriVariables : ∀ w, v.Entry "uriVariables" w → UsesSchema xs w
  schemaDefinitions : ∀ w, v.Entry "schemaDefinitions" w → UsesSchema xs w

end Wot

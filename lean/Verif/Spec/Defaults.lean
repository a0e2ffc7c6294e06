import Verif.Spec.Storable
import Verif.Spec.Reading
/-
What the members of a document mean when they are left out.
-/
namespace Wot
namespace Defaults

/-- Members for which leaving them out is the same as `null`. -/
def nulls (names : List String) : Members := names.map fun k => (k, .null)

/-- Thing. -/
def thing : Members :=
  ("@context", .str "https://www.w3.org/2022/wot/td/v1.1") ::
    nulls ["id", "@type", "titles", "description", "descriptions", "version", "created", "modified", "support",
      "base", "properties", "actions", "events", "links", "forms", "uriVariables", "profile", "schemaDefinitions"]

/-- Form. -/
def form : Members :=
  nulls ["op", "contentType", "contentCoding", "subprotocol", "security", "scopes", "response", "additionalResponses"]

/-- Additional response of a form. -/
def additional : Members := [("success", .bool false), ("contentType", .null), ("schema", .null)]

/-- Version of a Thing. -/
def version : Members := nulls ["model"]

/-- Link. -/
def link : Members := nulls ["type", "rel", "anchor", "sizes", "hreflang"]

/-- Data schema. -/
def schema : Members :=
  [("readOnly", .bool false), ("writeOnly", .bool false)] ++
    nulls ["@type", "title", "titles", "description", "descriptions", "const", "default", "unit", "oneOf", "enum",
      "format", "type", "items", "min_items", "max_items", "properties", "required", "multipleOf", "minLength",
      "maxLength", "pattern", "contentEncoding", "contentMediaType"]

/-- All affordances. -/
def interaction : Members := nulls ["@type", "title", "titles", "description", "descriptions", "uriVariables"]

/-- Property. -/
def property : Members := ("observable", .null) :: schema ++ interaction

/-- Action. -/
def action : Members :=
  [("safe", .bool false), ("idempotent", .bool false), ("synchronous", .null), ("input", .null), ("output", .null)] ++
    interaction

/-- Event. -/
def event : Members :=
  nulls ["subscription", "data", "data_response", "cancellation"] ++ interaction

/-- All security definitions. -/
def security : Members := nulls ["@type", "description", "descriptions", "proxy"]

/-- The predefined security schemes. -/
def scheme : KnownScheme → Members
  | .basic _ => [("in", .str "header"), ("name", .null)]
  | .digest _ => [("in", .str "header"), ("name", .null)]
  | .apiKey _ => [("in", .str "query"), ("name", .null)]
  | .bearer _ => [("authorization", .null), ("alg", .str "ES256"), ("format", .str "jwt"), ("in", .str "header"),
      ("name", .null)]
  | .psk _ => [("identity", .null)]
  | .oauth2 _ => [("authorization", .null), ("token", .null), ("refresh", .null), ("scopes", .null)]
  | .noSec | .auto | .combo _ => []

end Defaults
end Wot

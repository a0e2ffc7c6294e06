import Verif.Model.Codec
/-
The limit on nesting in `serde_json::from_str` (which reads the `Thing` of `src/thing.rs:51–167`): the
deserializer of serde_json counts the arrays and objects that are open, and gives up at the 128th. The crate
does not lift this limit (`Cargo.toml:13` enables no feature of serde_json). There is none in
`serde_json::from_value`, nor when writing.
-/
namespace Wot

mutual
/-- How many arrays and objects are open at the deepest place of a text: none in a string, number or
literal. -/
def Json.nesting : Json → Nat
  | .arr l => Json.nestingList l + 1
  | .obj m => Json.nestingMembers m + 1
  | _ => 0
/-- The deepest element. -/
def Json.nestingList : List Json → Nat
  | [] => 0
  | j :: l => max j.nesting (Json.nestingList l)
/-- The deepest member. -/
def Json.nestingMembers : List (String × Json) → Nat
  | [] => 0
  | (_, j) :: m => max j.nesting (Json.nestingMembers m)
end

/-- `remaining_depth` of a `serde_json::Deserializer` is 128, and must not become 0. -/
def nestingLimit : Nat := 127

/-- Without the members of an object that a struct does not have. -/
def Json.onlyMembers (keys : List String) : Json → Json
  | .obj es => .obj (es.filter fun kv => keys.contains kv.1)
  | j => j

/-- The objects in `links` without the members that `Link` does not have (`src/thing.rs:1428–1459`). -/
def Json.onlyLinks : Json → Json
  | .arr l => .arr (l.map (Json.onlyMembers ["href", "type", "rel", "anchor", "sizes", "hreflang"]))
  | j => j

/-- What of a member of a Thing counts for the limit. Unknown members of structs without flattened fields
are skipped by a loop that does not count; such structs read directly from the text are `VersionInfo` and
`Link` (`src/thing.rs:84, 122, 647–654, 1428–1459`). Everything else goes through the counting functions, in
particular everything that serde buffers for flattened fields and untagged enums. -/
def countedMember (kv : String × Json) : String × Json :=
  if kv.1 = "version" then (kv.1, kv.2.onlyMembers ["instance", "model"])
  else if kv.1 = "links" then (kv.1, kv.2.onlyLinks)
  else kv

/-- What of a text counts for the limit, when a Thing is read from it (`src/thing.rs:51–167`). -/
def Json.counted : Json → Json
  | .obj es => .obj (es.map countedMember)
  | j => j

variable {X : ExtTypes} (C : ExtCodecs X)

/-- `serde_json::from_str(text)` for a `Thing` (`src/thing.rs:51–167`), with the limit on nesting. -/
def fromStr (env : SerdeEnv) (d : Json) : Option (Thing X) :=
  if d.counted.nesting ≤ nestingLimit then fromText C env d else none

end Wot

import Verif.Spec.Valid
/-
Which member of the Thing a builder call concerns.
-/
namespace Wot

variable {X : ExtTypes}

/-- The members of a Thing that builder calls supply. -/
inductive Member
  | id | description | version | created | modified | support | base | context | attype | titles
  | descriptions | links | security | profile | forms | uriVariables | properties | actions | events
  | schemaDefinitions | extension
  deriving DecidableEq

/-- The member a call concerns. -/
def ThingOp.member : ThingOp X → Member
  | .common (.id _) => .id
  | .common (.description _) => .description
  | .common (.version _) => .version
  | .common (.created _) => .created
  | .common (.modified _) => .modified
  | .common (.support _) => .support
  | .common (.base _) => .base
  | .common (.context _) => .context
  | .common (.contextMap _) => .context
  | .common (.attype _) => .attype
  | .common (.titles _) => .titles
  | .common (.descriptions _) => .descriptions
  | .common (.link _) => .links
  | .common (.linkWith _ _ _) => .links
  | .common (.security _) => .security
  | .common (.profile _) => .profile
  | .form _ => .forms
  | .uriVariable _ _ => .uriVariables
  | .property _ _ => .properties
  | .action _ _ => .actions
  | .event _ _ => .events
  | .schemaDefinition _ _ => .schemaDefinitions
  | .setOther _ => .extension

/-- The name under which a call adds an entry to a member that is a map. -/
def ThingOp.entryName : ThingOp X → Option String
  | .uriVariable n _ => some n
  | .property n _ => some n
  | .action n _ => some n
  | .event n _ => some n
  | .schemaDefinition n _ => some n
  | _ => none

/-- Two histories with the same calls for every member, in the same order. Calls for different members
may be interleaved differently. -/
def SameCalls (h h' : List (ThingOp X)) : Prop :=
  ∀ m, h.filter (fun op => op.member = m) = h'.filter (fun op => op.member = m)

/-- The same, but also calls for the same member may be in a different order if it is a map and they
add entries with different names. -/
def SameNamedCalls (h h' : List (ThingOp X)) : Prop :=
  ∀ m n, h.filter (fun op => op.member = m ∧ op.entryName = n) =
    h'.filter (fun op => op.member = m ∧ op.entryName = n)

end Wot

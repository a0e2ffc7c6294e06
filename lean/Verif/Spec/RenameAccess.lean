import Verif.Spec.Rename
import Verif.Spec.Offers
/-
Other names for affordances and security definitions, in the places of forms and in what is asked of clients.
-/
namespace Wot
namespace Renaming
variable (r : Renaming)

/-- Where a form is. -/
def place : Place → Place
  | .thing i => .thing i
  | .property n i => .property (r.affordance .property n) i
  | .action n i => .action (r.affordance .action n) i
  | .event n i => .event (r.affordance .event n) i

/-- What a security definition asks. -/
def demand : Demand → Demand
  | .nothing => .nothing
  | .credentials => .credentials
  | .any l => .any (l.map r.security)
  | .all l => .all (l.map r.security)

end Renaming
end Wot

import Verif.Spec.Conform
/-
Who can use a form. The security definitions of a Thing Description say what is asked of a client: nothing, credentials,
or other definitions, one of them or all (W3C Recommendation "Web of Things (WoT) Thing Description 1.1", section
5.3.3). A form names definitions, all of which must be met; if it names none, those of the Thing count (section 5.3.4.2).
-/
namespace Wot
set_option inductive.autoPromoteIndices false

/-! ### What is asked -/

/-- What a security definition asks of a client: the names are those of other definitions. -/
inductive Demand
  | nothing
  | credentials
  | any (names : List String)
  | all (names : List String)

/-- A client that has the credentials for the definitions in `has` meets the definition `n`; `asks` says what is asked
under which name. -/
inductive Met (asks : String → Demand → Prop) (has : String → Prop) : String → Prop
  | nothing {n : String} : asks n .nothing → Met asks has n
  | credentials {n : String} : asks n .credentials → has n → Met asks has n
  | any {n m : String} {l : List String} : asks n (.any l) → m ∈ l → Met asks has m → Met asks has n
  | all {n : String} {l : List String} : asks n (.all l) → (∀ m ∈ l, Met asks has m) → Met asks has n

/-- Where a form is: at which index of the forms of the Thing or of which affordance. -/
inductive Place
  | thing (i : Nat)
  | property (name : String) (i : Nat)
  | action (name : String) (i : Nat)
  | event (name : String) (i : Nat)

def Place.context : Place → FormContext
  | .thing _ => .thing
  | .property _ _ => .property
  | .action _ _ => .action
  | .event _ _ => .event

/-! ### In documents -/

/-- One name, or an array of names. -/
inductive Json.Lists : Json → List String → Prop
  | one {s : String} : Json.Lists (.str s) [s]
  | many {l : List String} : Json.Lists (.arr (l.map .str)) l

/-- What the scheme `name` with the members of `v` asks. -/
inductive Json.Asks (name : String) (v : Json) : Demand → Prop
  | nothing : name = "nosec" → v.Asks name .nothing
  | any {w : Json} {l : List String} : name = "combo" → v.member "oneOf" = some w → w.Lists l → v.Asks name (.any l)
  | all {w : Json} {l : List String} : name = "combo" → v.member "allOf" = some w → w.Lists l → v.Asks name (.all l)
  | credentials : name ≠ "nosec" → name ≠ "combo" → v.Asks name .credentials

/-- What the document `v` asks under the name `n`. -/
def Json.Demands (v : Json) (n : String) (d : Demand) : Prop :=
  ∃ o w scheme, v.member "securityDefinitions" = some o ∧ o.member n = some w ∧
    w.member "scheme" = some (.str scheme) ∧ w.Asks scheme d

/-- The names that are given for the form `f` of the document `v`. -/
inductive Json.Secured (v f : Json) : List String → Prop
  | own {w : Json} {l : List String} : f.member "security" = some w → w.Lists l → v.Secured f l
  | thing {w : Json} {l : List String} : f.member "security" = none → v.member "security" = some w → w.Lists l →
      v.Secured f l

def Json.element (v : Json) (i : Nat) : Option Json :=
  match v with
  | .arr l => l[i]?
  | _ => none

/-- The form in a place of the document. -/
def Json.formAt (v : Json) : Place → Option Json
  | .thing i => (v.member "forms").bind (·.element i)
  | .property n i => (v.member "properties").bind fun o => (o.member n).bind fun a => (a.member "forms").bind (·.element i)
  | .action n i => (v.member "actions").bind fun o => (o.member n).bind fun a => (a.member "forms").bind (·.element i)
  | .event n i => (v.member "events").bind fun o => (o.member n).bind fun a => (a.member "forms").bind (·.element i)

/-- According to the document, there is a form in this place and a client with these credentials can use it. -/
def Json.Opens (v : Json) (has : String → Prop) (p : Place) : Prop :=
  ∃ f l, v.formAt p = some f ∧ v.Secured f l ∧ ∀ n ∈ l, Met v.Demands has n

/-! ### In Things -/

/-- What a scheme asks. Custom schemes can have the name of a predefined one. -/
inductive SchemeSubtype.Asks : SchemeSubtype → Demand → Prop
  | nosec : SchemeSubtype.Asks (.known .noSec) .nothing
  | oneOf {l : List String} : SchemeSubtype.Asks (.known (.combo (.oneOf l))) (.any l)
  | allOf {l : List String} : SchemeSubtype.Asks (.known (.combo (.allOf l))) (.all l)
  | credentials {k : KnownScheme} : k ≠ .noSec → (∀ c, k ≠ .combo c) → SchemeSubtype.Asks (.known k) .credentials
  | custom {name : String} {data : Json} {d : Demand} : data.norm.Asks name d → SchemeSubtype.Asks (.unknown name data) d

variable {X : ExtTypes}

/-- What the Thing asks under the name `n`. -/
def Thing.Demands (t : Thing X) (n : String) (d : Demand) : Prop :=
  ∃ s, t.securityDefinitions.get? n = some s ∧ s.subtype.Asks d

/-- The form in a place of the Thing. -/
def Thing.formAt (t : Thing X) : Place → Option (Form X)
  | .thing i => t.forms.bind (·[i]?)
  | .property n i => t.properties.bind fun m => (m.get? n).bind fun a => a.interaction.forms[i]?
  | .action n i => t.actions.bind fun m => (m.get? n).bind fun a => a.interaction.forms[i]?
  | .event n i => t.events.bind fun m => (m.get? n).bind fun a => a.interaction.forms[i]?

/-- There is a form in this place of the Thing and a client with these credentials can use it. -/
def Thing.Opens (t : Thing X) (has : String → Prop) (p : Place) : Prop :=
  ∃ f, t.formAt p = some f ∧ ∀ n ∈ f.security.getD t.security, Met t.Demands has n

/-! ### What cannot be met -/

/-- None of the definitions in `S` can be met, unless one of the others can: what is asked under their names are
credentials that the client does not have, one of several names all of which are in `S`, or several names one of which is
in `S`. -/
def Thing.Locked (t : Thing X) (has S : String → Prop) : Prop :=
  ∀ n, S n → ∀ d, t.Demands n d → match d with
    | .nothing => False
    | .credentials => ¬ has n
    | .any l => ∀ m ∈ l, S m
    | .all l => ∃ m ∈ l, S m

/-- Combinations do not contain themselves, because they are above what they combine; there is always a choice; and
custom schemes do not have the name of the scheme for combinations. -/
structure History.Tiered (h : List (ThingOp X)) (level : String → Nat) : Prop where
  below : ∀ c ∈ History.securities h, ∀ m, c.subtype.References m → level m < level (securityName c)
  choice : ∀ c ∈ History.securities h, c.subtype ≠ .known (.combo (.oneOf []))
  custom : ∀ c ∈ History.securities h, ∀ data, c.subtype ≠ .unknown "combo" data

end Wot

import Verif.Spec.Build
/-
What a history of `ThingBuilder` calls supplies, member by member, read off the list of calls.
-/
namespace Wot

variable {X : ExtTypes}

/-- A list, absent if there is nothing in it. -/
def someList {α : Type} (l : List α) : Option (List α) := if l = [] then none else some l

/-- The keyword of a security scheme as defined by the TD 1.1 specification (the value of its
`scheme` member). -/
def schemeKeyword : SchemeSubtype → String
  | .known .noSec => "nosec"
  | .known .auto => "auto"
  | .known (.combo _) => "combo"
  | .known (.basic _) => "basic"
  | .known (.digest _) => "digest"
  | .known (.bearer _) => "bearer"
  | .known (.psk _) => "psk"
  | .known (.oauth2 _) => "oauth2"
  | .known (.apiKey _) => "apikey"
  | .unknown scheme _ => scheme

/-- The name a security scheme is registered under: the explicit key, else the scheme's keyword. -/
def securityName (s : SecuritySchemeBuilder SchemeSubtype) : String :=
  match s.name with
  | some n => n
  | none => schemeKeyword s.subtype

namespace History

def ids (h : List (ThingOp X)) : List String :=
  h.filterMap fun | .common (.id v) => some v | _ => none
def descriptionTexts (h : List (ThingOp X)) : List String :=
  h.filterMap fun | .common (.description v) => some v | _ => none
def versions (h : List (ThingOp X)) : List VersionInfo :=
  h.filterMap fun | .common (.version v) => some v | _ => none
def createds (h : List (ThingOp X)) : List OffsetDateTime :=
  h.filterMap fun | .common (.created v) => some v | _ => none
def modifieds (h : List (ThingOp X)) : List OffsetDateTime :=
  h.filterMap fun | .common (.modified v) => some v | _ => none
def supports (h : List (ThingOp X)) : List String :=
  h.filterMap fun | .common (.support v) => some v | _ => none
def bases (h : List (ThingOp X)) : List String :=
  h.filterMap fun | .common (.base v) => some v | _ => none
/-- The contexts added, in call order; adding the TD 1.1 context again adds nothing. -/
def contexts (h : List (ThingOp X)) : List Context :=
  h.filterMap fun
    | .common (.context v) => if v = tdContext11 then none else some (.simple v)
    | .common (.contextMap calls) => some (.map (HMap.collect calls))
    | _ => none
def attypes (h : List (ThingOp X)) : List String :=
  h.filterMap fun | .common (.attype v) => some v | _ => none
/-- The calls of each `titles` closure. -/
def titles (h : List (ThingOp X)) : List (List (String × String)) :=
  h.filterMap fun | .common (.titles c) => some c | _ => none
/-- The calls of each `descriptions` closure. -/
def descriptions (h : List (ThingOp X)) : List (List (String × String)) :=
  h.filterMap fun | .common (.descriptions c) => some c | _ => none
def links (h : List (ThingOp X)) : List UncheckedLink :=
  h.filterMap fun
    | .common (.link href) => some { href }
    | .common (.linkWith pre href post) => some (.ofCalls pre href post)
    | _ => none
def securities (h : List (ThingOp X)) : List (SecuritySchemeBuilder SchemeSubtype) :=
  h.filterMap fun | .common (.security s) => some s | _ => none
def profiles (h : List (ThingOp X)) : List String :=
  h.filterMap fun | .common (.profile v) => some v | _ => none
def forms (h : List (ThingOp X)) : List (FormBuilder X) :=
  h.filterMap fun | .form f => some f | _ => none
def uriVariables (h : List (ThingOp X)) : List (String × UDS X) :=
  h.filterMap fun | .uriVariable n s => some (n, s) | _ => none
def properties (h : List (ThingOp X)) : List (String × PropertyBuilder X) :=
  h.filterMap fun | .property n p => some (n, p) | _ => none
def actions (h : List (ThingOp X)) : List (String × ActionBuilder X) :=
  h.filterMap fun | .action n a => some (n, a) | _ => none
def events (h : List (ThingOp X)) : List (String × EventBuilder X) :=
  h.filterMap fun | .event n e => some (n, e) | _ => none
def schemaDefinitions (h : List (ThingOp X)) : List (String × UDS X) :=
  h.filterMap fun | .schemaDefinition n s => some (n, s) | _ => none

/-- The state of the builder a history prescribes: scalar members hold the last value supplied, lists
hold all values in call order, maps hold the last value per name. The extension value `other` is not
determined by these calls. -/
def supplied (title : String) (h : List (ThingOp X)) (other : X.thing) : ThingBuilder X :=
  { context := .simple tdContext11 :: contexts h
    id := lastOf (ids h)
    attype := someList (attypes h)
    title := title
    titles := (lastOf (titles h)).map fun c => ⟨HMap.collect c⟩
    description := lastOf (descriptionTexts h)
    descriptions := (lastOf (descriptions h)).map fun c => ⟨HMap.collect c⟩
    version := lastOf (versions h)
    created := lastOf (createds h)
    modified := lastOf (modifieds h)
    support := lastOf (supports h)
    base := lastOf (bases h)
    properties := properties h
    actions := actions h
    events := events h
    links := someList (links h)
    forms := someList (forms h)
    uriVariables := (someList (uriVariables h)).map HMap.collect
    security := ((securities h).filter (·.required)).map securityName
    securityDefinitions := (securities h).map fun s => (securityName s, s.scheme)
    profile := profiles h
    schemaDefinitions := HMap.collect (schemaDefinitions h)
    other := other }

end History
end Wot

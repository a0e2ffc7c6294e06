import Verif.Spec.Thing
import Verif.Spec.SchemaHistory
/-
What the calls on a form, affordance, link or security scheme builder supply, read off the list of
calls.
-/
namespace Wot

variable {X : ExtTypes}

/-! ### Forms -/

/-- `b` is the form builder obtained from a new one by the calls `ops`, in that order, with `href`
calls with the arguments `hrefs` and any extension calls in between. -/
inductive FormCalls (X : ExtTypes) :
    {H F : Type} → List String → List (FormOp X) → FormBuilderF X H F → Prop
  | new {F : Type} (other : F) : FormCalls X [] [] (FormBuilderF.new other)
  | href {F : Type} {hs : List String} {ops : List (FormOp X)} {b : FormBuilderF X Unit F} (v : String) :
      FormCalls X hs ops b → FormCalls X (hs ++ [v]) ops (b.setHref v)
  | call {H F : Type} {hs : List String} {ops : List (FormOp X)} {b : FormBuilderF X H F} (op : FormOp X) :
      FormCalls X hs ops b → FormCalls X hs (ops ++ [op]) (b.apply op)
  | ext {H F F' : Type} {hs : List String} {ops : List (FormOp X)} {b : FormBuilderF X H F}
      (f : F → F') : FormCalls X hs ops b → FormCalls X hs ops (b.ext f)

namespace ResponseCalls
def contentTypes (l : List RespOp) : List String := l.filterMap fun | .contentType v => some v | _ => none
def schemas (l : List RespOp) : List String := l.filterMap fun | .schema v => some v | _ => none
def successes (l : List RespOp) : List Unit := l.filterMap fun | .success => some () | _ => none

/-- The additional response described by the calls of its closure. -/
def response (l : List RespOp) : AdditionalResponse :=
  { success := decide (successes l ≠ []), contentType := lastOf (contentTypes l),
    schema := lastOf (schemas l) }
end ResponseCalls

namespace FormCalls
variable (ops : List (FormOp X))

def contentTypes : List String := ops.filterMap fun | .contentType v => some v | _ => none
def contentCodings : List String := ops.filterMap fun | .contentCoding v => some v | _ => none
def subprotocols : List String := ops.filterMap fun | .subprotocol v => some v | _ => none
def operations : List FormOperation := ops.filterMap fun | .op o => some o | _ => none
def securities : List String := ops.filterMap fun | .security v => some v | _ => none
def scopes : List String := ops.filterMap fun | .scope v => some v | _ => none
def responses : List (ExpectedResponse X.response) :=
  ops.filterMap fun | .response ct o => some ⟨ct, o⟩ | _ => none
def additionalResponses : List AdditionalResponse :=
  ops.filterMap fun | .additionalResponse c => some (ResponseCalls.response c) | _ => none

/-- The form described by the calls. -/
def form (href : String) (other : X.form) : Form X :=
  { op := if operations ops = [] then .default else .custom (operations ops)
    href := href
    contentType := lastOf (contentTypes ops)
    contentCoding := lastOf (contentCodings ops)
    subprotocol := lastOf (subprotocols ops)
    security := someList (securities ops)
    scopes := someList (scopes ops)
    response := lastOf (responses ops)
    additionalResponses := someList (additionalResponses ops)
    other := other }
end FormCalls

/-! ### Affordances -/

/-- The human readable information described by calls. -/
def infoOf (l : List InfoOp) : HumanReadableInfo :=
  { attype := someList (SchemaCalls.attypes l)
    title := lastOf (SchemaCalls.titleTexts l)
    titles := (lastOf (SchemaCalls.titles l)).map fun c => ⟨HMap.collect c⟩
    description := lastOf (SchemaCalls.descriptionTexts l)
    descriptions := (lastOf (SchemaCalls.descriptions l)).map fun c => ⟨HMap.collect c⟩ }

namespace InteractionCalls
def forms (l : List (InteractionOp X)) : List (FormBuilder X) :=
  l.filterMap fun | .form f => some f | _ => none
def uriVariables (l : List (InteractionOp X)) : List (String × UDS X) :=
  l.filterMap fun | .uriVariable n s => some (n, s) | _ => none
end InteractionCalls

/-- `b` is the property builder obtained from an empty one by the calls `ops`, in that order, with any
calls concerning its data schema or extending it in between. -/
inductive PropertyCalls (X : ExtTypes) :
    {D I O : Type} → List (PropertyOp X) → PropertyBuilderF X D I O → Prop
  | empty {D I O : Type} (i : I) (d : D) (o : O) : PropertyCalls X [] (.empty i d o)
  | call {D I O : Type} {ops : List (PropertyOp X)} {b : PropertyBuilderF X D I O} (op : PropertyOp X) :
      PropertyCalls X ops b → PropertyCalls X (ops ++ [op]) (b.apply op)
  | mapSchema {D D' I O : Type} {ops : List (PropertyOp X)} {b : PropertyBuilderF X D I O} (f : D → D') :
      PropertyCalls X ops b → PropertyCalls X ops (b.mapSchema f)
  | ext {D I I' O O' : Type} {ops : List (PropertyOp X)} {b : PropertyBuilderF X D I O} (f : I → I')
      (g : O → O') : PropertyCalls X ops b → PropertyCalls X ops (b.ext f g)

namespace PropertyCalls
variable (ops : List (PropertyOp X))
def interactions : List (InteractionOp X) := ops.filterMap fun | .interaction o => some o | _ => none
def infos : List InfoOp := ops.filterMap fun | .info o => some o | _ => none
def observables : List Bool := ops.filterMap fun | .observable v => some v | _ => none
end PropertyCalls

/-- The same for action builders. -/
inductive ActionCalls (X : ExtTypes) :
    {I O : Type} → List (ActionOp X) → ActionBuilderF X I O → Prop
  | empty {I O : Type} (i : I) (o : O) : ActionCalls X [] (.empty i o)
  | call {I O : Type} {ops : List (ActionOp X)} {b : ActionBuilderF X I O} (op : ActionOp X) :
      ActionCalls X ops b → ActionCalls X (ops ++ [op]) (b.apply op)
  | ext {I I' O O' : Type} {ops : List (ActionOp X)} {b : ActionBuilderF X I O} (f : I → I')
      (g : O → O') : ActionCalls X ops b → ActionCalls X ops (b.ext f g)

namespace ActionCalls
variable (ops : List (ActionOp X))
def interactions : List (InteractionOp X) := ops.filterMap fun | .interaction o => some o | _ => none
def infos : List InfoOp := ops.filterMap fun | .info o => some o | _ => none
def inputs : List (UDS X) := ops.filterMap fun | .input s => some s | _ => none
def outputs : List (UDS X) := ops.filterMap fun | .output s => some s | _ => none
def safes : List Unit := ops.filterMap fun | .safe => some () | _ => none
def idempotents : List Unit := ops.filterMap fun | .idempotent => some () | _ => none
def synchronouses : List Bool := ops.filterMap fun | .synchronous v => some v | _ => none
end ActionCalls

/-- The same for event builders. -/
inductive EventCalls (X : ExtTypes) :
    {I O : Type} → List (EventOp X) → EventBuilderF X I O → Prop
  | empty {I O : Type} (i : I) (o : O) : EventCalls X [] (.empty i o)
  | call {I O : Type} {ops : List (EventOp X)} {b : EventBuilderF X I O} (op : EventOp X) :
      EventCalls X ops b → EventCalls X (ops ++ [op]) (b.apply op)
  | ext {I I' O O' : Type} {ops : List (EventOp X)} {b : EventBuilderF X I O} (f : I → I')
      (g : O → O') : EventCalls X ops b → EventCalls X ops (b.ext f g)

namespace EventCalls
variable (ops : List (EventOp X))
def interactions : List (InteractionOp X) := ops.filterMap fun | .interaction o => some o | _ => none
def infos : List InfoOp := ops.filterMap fun | .info o => some o | _ => none
def subscriptions : List (UDS X) := ops.filterMap fun | .subscription s => some s | _ => none
def datas : List (UDS X) := ops.filterMap fun | .data s => some s | _ => none
def cancellations : List (UDS X) := ops.filterMap fun | .cancellation s => some s | _ => none
def dataResponses : List (UDS X) := ops.filterMap fun | .dataResponse s => some s | _ => none
end EventCalls

/-! ### Links -/

namespace LinkCalls
variable (l : List LinkOp)
def types : List String := l.filterMap fun | .ty v => some v | _ => none
def rels : List String := l.filterMap fun | .rel v => some v | _ => none
def anchors : List String := l.filterMap fun | .anchor v => some v | _ => none
def sizes : List String := l.filterMap fun | .sizes v => some v | _ => none
def hreflangs : List String := l.filterMap fun | .hreflang v => some v | _ => none
end LinkCalls

/-! ### Security schemes -/

namespace SecCalls
variable (l : List SecOp)
def attypes : List String := l.filterMap fun | .attype v => some v | _ => none
def descriptionTexts : List String := l.filterMap fun | .description v => some v | _ => none
def descriptions : List (List (String × String)) :=
  l.filterMap fun | .descriptions c => some c | _ => none
def proxies : List String := l.filterMap fun | .proxy v => some v | _ => none
def requests : List Unit := l.filterMap fun | .required => some () | _ => none
def names : List String := l.filterMap fun | .name v => some v | _ => none
def locations : List SecLocation := l.filterMap fun | .location v => some v | _ => none
def qops : List QoP := l.filterMap fun | .qop v => some v | _ => none
def authorizations : List String := l.filterMap fun | .authorization v => some v | _ => none
def algs : List String := l.filterMap fun | .alg v => some v | _ => none
def formats : List String := l.filterMap fun | .format v => some v | _ => none
def tokens : List String := l.filterMap fun | .token v => some v | _ => none
def refreshes : List String := l.filterMap fun | .refresh v => some v | _ => none
def scopes : List String := l.filterMap fun | .scope v => some v | _ => none
def datas : List Json := l.filterMap fun | .data v => some v | _ => none

/-- The calls that choose the kind of the scheme. -/
def choices : List SecOp :=
  l.filterMap fun
    | .noSec => some .noSec | .auto => some .auto | .combo => some .combo | .basic => some .basic
    | .digest => some .digest | .bearer => some .bearer | .psk => some .psk
    | .oauth2 f => some (.oauth2 f) | .apiKey => some .apiKey | .custom s => some (.custom s)
    | _ => none

/-- The `all_of` calls, and the names listed by a combo scheme. -/
def allOfs : List (List String) := l.filterMap fun | .allOf n => some n | _ => none
def oneOfs : List (List String) := l.filterMap fun | .oneOf n => some n | _ => none
def members : List String :=
  l.flatMap fun | .allOf n => n | .oneOf n => n | .extend n => n | .push v => [v] | _ => []

/-- The explicit definition names: `with_key`, and for combos also `name`. -/
def keys (isCombo : Bool) : List String :=
  l.filterMap fun | .withKey v => some v | .name v => if isCombo then some v else none | _ => none

/-- The kind-specific part of the scheme, given the call that chose its kind; defaults are those of
the TD 1.1 specification. -/
def subtype : SecOp → Option SchemeSubtype
  | .noSec => some (.known .noSec)
  | .auto => some (.known .auto)
  | .combo =>
    if allOfs l ≠ [] then some (.known (.combo (.allOf (members l))))
    else if oneOfs l ≠ [] then some (.known (.combo (.oneOf (members l))))
    else none
  | .basic =>
    some (.known (.basic { location := (lastOf (locations l)).getD .header, name := lastOf (names l) }))
  | .digest =>
    some (.known (.digest { qop := (lastOf (qops l)).getD .auth,
                            location := (lastOf (locations l)).getD .header,
                            name := lastOf (names l) }))
  | .apiKey =>
    some (.known (.apiKey { location := (lastOf (locations l)).getD .query, name := lastOf (names l) }))
  | .bearer =>
    some (.known (.bearer { authorization := lastOf (authorizations l),
                            alg := (lastOf (algs l)).getD "ES256",
                            format := (lastOf (formats l)).getD "jwt",
                            location := (lastOf (locations l)).getD .header,
                            name := lastOf (names l) }))
  | .psk => some (.known (.psk { identity := none }))
  | .oauth2 flow =>
    some (.known (.oauth2 { authorization := lastOf (authorizations l), token := lastOf (tokens l),
                            refresh := lastOf (refreshes l), scopes := someList (scopes l), flow }))
  | .custom scheme => some (.unknown scheme ((lastOf (datas l)).getD .null))
  | _ => none

end SecCalls
end Wot

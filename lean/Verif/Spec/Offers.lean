import Verif.Spec.Access
import Verif.Spec.Meaning
/-
What a client can do with a form: the operations that it offers. A form names operations; if it does not, the defaults of
its place apply (W3C Recommendation "Web of Things (WoT) Thing Description 1.1", sections 5.3.4.2 and 5.4).
-/
namespace Wot

/-- The operations of a form in this place that names none. Those of a property depend on its flags; forms of the Thing
have no default. -/
def Place.Default (p : Place) (readOnly writeOnly : Bool) (o : FormOperation) : Prop :=
  match p with
  | .thing _ => False
  | .property _ _ => (o = .readProperty ∧ writeOnly = false) ∨ (o = .writeProperty ∧ readOnly = false)
  | .action _ _ => o = .invokeAction
  | .event _ _ => o = .subscribeEvent ∨ o = .unsubscribeEvent

/-! ### In documents -/

def Json.isTrue : Json → Bool
  | .bool b => b
  | _ => false

/-- Whether the flag `k` is set for the property in which the place is. -/
def Json.flagAt (v : Json) (k : String) : Place → Bool
  | .property n _ => (((v.member "properties").bind (·.member n)).bind (·.member k)).any Json.isTrue
  | _ => false

/-- According to the document, the form in this place offers the operation. A member that is `null` counts as one that is
not given. -/
def Json.Offers (v : Json) (p : Place) (o : FormOperation) : Prop :=
  ∃ f, v.formAt p = some f ∧
    ((∃ w l, f.member "op" = some w ∧ w.Lists l ∧ Doc.opText o ∈ l) ∨
     ((f.member "op" = none ∨ f.member "op" = some .null) ∧
       p.Default (v.flagAt "readOnly" p) (v.flagAt "writeOnly" p) o))

/-! ### In Things -/

variable {X : ExtTypes}

/-- The flags of the property in which the place is. -/
def Thing.readOnlyAt (t : Thing X) : Place → Bool
  | .property n _ => (t.properties.bind (·.get? n)).any (·.dataSchema.head.readOnly)
  | _ => false

def Thing.writeOnlyAt (t : Thing X) : Place → Bool
  | .property n _ => (t.properties.bind (·.get? n)).any (·.dataSchema.head.writeOnly)
  | _ => false

/-- The form in this place of the Thing offers the operation. -/
def Thing.Offers (t : Thing X) (p : Place) (o : FormOperation) : Prop :=
  ∃ f, t.formAt p = some f ∧
    match f.op with
    | .custom l => o ∈ l
    | .default => p.Default (t.readOnlyAt p) (t.writeOnlyAt p) o

end Wot

import Verif.Spec.Reading
import Verif.Model.Default
/-
What it means that nothing is said (C60).
-/
namespace Wot

/-- None of the members is there. -/
def NoneOf (K : List String) (es : Members) : Prop := ∀ k ∈ K, Absent k es

/-- All of these members are left out or `null`. -/
def AllLeftOut (K : List String) (es : Members) : Prop := ∀ k ∈ K, LeftOut k es

/-- An extension reads its `Default` when none of its members is there. -/
def Blank {A : Type} (c : ExtCodec A) (d : A) : Prop := ∀ es, NoneOf c.keys es → c.de es = some d

/-- All extension components do. -/
structure ExtCodecs.Blank {X : ExtTypes} (C : ExtCodecs X) (D : ExtDefaults X) : Prop where
  thing : Wot.Blank C.thing D.thing
  interaction : Wot.Blank C.interaction D.interaction
  property : Wot.Blank C.property D.property
  action : Wot.Blank C.action D.action
  event : Wot.Blank C.event D.event
  form : Wot.Blank C.form D.form
  dataSchema : Wot.Blank C.dataSchema D.dataSchema

end Wot

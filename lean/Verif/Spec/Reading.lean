import Verif.Spec.Document
/-
Vocabulary for statements about what is read from documents.
-/
namespace Wot

/-- What an extension is read as depends on the members with its own names only. -/
def ExtCodec.Local {A : Type} (c : ExtCodec A) : Prop :=
  ∀ es es', (∀ k ∈ c.keys, occ k es = occ k es') → c.de es = c.de es'

/-- The same for all extensions. -/
structure ExtCodecs.Local {X : ExtTypes} (C : ExtCodecs X) : Prop where
  thing : C.thing.Local
  interaction : C.interaction.Local
  property : C.property.Local
  action : C.action.Local
  event : C.event.Local
  form : C.form.Local
  response : C.response.Local
  dataSchema : C.dataSchema.Local
  objectSchema : C.objectSchema.Local
  arraySchema : C.arraySchema.Local

/-- The two lists of members differ in one place only, where there is a member `k` with the value `v` in
the first and `w` in the second. -/
def Replaced (k : String) (v w : Json) (es es' : Members) : Prop :=
  ∃ a b, es = a ++ (k, v) :: b ∧ es' = a ++ (k, w) :: b

/-- The member `k` is there, as one value if there is one and as an array otherwise. -/
def Spelled (m : Members) (k : String) (l : List Json) : Prop :=
  (∀ v, l = [v] → (k, v) ∈ m) ∧ (l.length ≠ 1 → (k, .arr l) ∈ m)

/-- There is no member `k`. -/
def Absent (k : String) (es : Members) : Prop := k ∉ es.map (·.1)

/-- There is exactly one member `k`, and its value is as it should be. -/
def HasOne (k : String) (es : Members) (P : Json → Prop) : Prop := ∃ v, occ k es = [v] ∧ P v

/-- There is at most one member `k`; if its value is not `null`, it is as it should be. -/
def AtMostOne (k : String) (es : Members) (P : Json → Prop) : Prop :=
  occ k es = [] ∨ ∃ v, occ k es = [v] ∧ (v = .null ∨ P v)

/-- There is no member `k`, or it is `null`. -/
def LeftOut (k : String) (es : Members) : Prop := ∀ v, (k, v) ∈ es → v = .null

/-- The second list of members has one more member, `k` with the value `v`, somewhere. -/
def Inserted (k : String) (v : Json) (es es' : Members) : Prop :=
  ∃ a b, es = a ++ b ∧ es' = a ++ (k, v) :: b

end Wot

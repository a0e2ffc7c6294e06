import Verif.Spec.Readers
import Verif.Spec.Written
/-
What a program without some extensions passes on.
-/
namespace Wot

/-- `Less K v w`: the JSON value `v` is `w`, except that members with names from `K` may be missing in objects, at any
depth. -/
inductive Json.Less (K : List String) : Json → Json → Prop
  | same (v : Json) : Less K v v
  | arr {l l' : List Json} (same : l.length = l'.length)
      (each : ∀ (i : Nat) v w, l[i]? = some v → l'[i]? = some w → Less K v w) : Less K (.arr l) (.arr l')
  | obj {m m' : Members} (has : ∀ k, (Json.obj m').member k = none → (Json.obj m).member k = none)
      (each : ∀ k v w, (Json.obj m).member k = some v → (Json.obj m').member k = some w → Less K v w)
      (only : ∀ k w, (Json.obj m').member k = some w → (Json.obj m).member k = none → k ∈ K) : Less K (.obj m) (.obj m')

/-- The writer `d` writes for `f a` what the writer `c` writes for `a`, without some of the members with names from `K`. -/
def WritesLess (K : List String) {A B : Type} (c : ExtCodec A) (d : ExtCodec B) (f : A → B) : Prop :=
  ∀ a m, c.ser a = some m → ∃ m', d.ser (f a) = some m' ∧ Json.Less K (Json.obj m').norm (Json.obj m).norm

/-- The names of all members that the extensions use, at any of the ten places. -/
def ExtCodecs.names {X : ExtTypes} (C : ExtCodecs X) : List String :=
  C.thing.keys ++ C.interaction.keys ++ C.property.keys ++ C.action.keys ++ C.event.keys ++ C.form.keys ++
    C.response.keys ++ C.dataSchema.keys ++ C.objectSchema.keys ++ C.arraySchema.keys

end Wot

import Verif.Spec.Range
/-
The laws of a comparison function.
-/
namespace Wot

/-- The laws that a comparison and an equality of the same type are expected to satisfy
(documented for `PartialOrd` and `PartialEq`). Nothing is required of a value compared with itself,
because NaN is not equal to itself. -/
structure OrderLaws {A : Type} (cmp : A → A → Option Ordering) (eq : A → A → Bool) : Prop where
  /-- being equal and comparing as equal are the same -/
  eq_iff : ∀ a b, eq a b = true ↔ cmp a b = some .eq
  /-- comparing the other way round gives the opposite answer -/
  swap : ∀ a b, cmp b a = (cmp a b).map Ordering.swap
  /-- less than is transitive -/
  trans : ∀ a b c, cmp a b = some .lt → cmp b c = some .lt → cmp a c = some .lt
  /-- equal values compare alike -/
  congr : ∀ a b c, cmp a b = some .eq → cmp a c = cmp b c

/-- What a comparison answers agrees with the numbers that are compared. -/
structure Denotes {T V : Type} [LT V] (cmp : T → T → Option Ordering) (val : T → V) : Prop where
  lt : ∀ a b, cmp a b = some .lt → val a < val b
  eq : ∀ a b, cmp a b = some .eq → val a = val b
  gt : ∀ a b, cmp a b = some .gt → val b < val a

end Wot

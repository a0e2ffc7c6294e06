import Verif.Spec.Schema
/-
The ranges of numbers that bounds describe.
-/
namespace Wot

/-- The number denoted by a pattern that is not NaN or infinite. -/
def F64.value (x : F64) : Rat := (x.units : Rat) / (2 ^ 1074 : Nat)

/-- `v` satisfies the minimum; `val` is the number denoted by the bound. -/
def Minimum.Admits {T V : Type} [LE V] [LT V] (val : T → V) : Minimum T → V → Prop
  | .inclusive a, v => val a ≤ v
  | .exclusive a, v => val a < v

/-- `v` satisfies the maximum. -/
def Maximum.Admits {T V : Type} [LE V] [LT V] (val : T → V) : Maximum T → V → Prop
  | .inclusive a, v => v ≤ val a
  | .exclusive a, v => v < val a

/-- Some integer satisfies both bounds. -/
def IntegerRange (lo : Minimum I64) (hi : Maximum I64) : Prop :=
  ∃ z : Int, lo.Admits I64.val z ∧ hi.Admits I64.val z

/-- Some number satisfies both bounds. -/
def NumberRange (lo : Minimum F64) (hi : Maximum F64) : Prop :=
  ∃ q : Rat, lo.Admits F64.value q ∧ hi.Admits F64.value q

end Wot

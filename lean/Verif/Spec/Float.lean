import Verif.Model.Bounds
/-
The numbers denoted by IEEE 754 binary64 bit patterns.
-/
namespace Wot

/-- The absolute value of a pattern with exponent field `e = m / 2^52` and fraction field
`f = m % 2^52`, in units of `2^-1074`: `f` for subnormal numbers (`e = 0`), `(2^52 + f) * 2^(e-1)`
otherwise. (For infinity, `e = 2047` and `f = 0`, this is larger than for any finite number.) -/
def magUnits (m : Nat) : Nat :=
  if m / 2^52 = 0 then m % 2^52 else (2^52 + m % 2^52) * 2^(m / 2^52 - 1)

/-- The number denoted by a pattern that is not NaN, in units of `2^-1074`. -/
def F64.units (x : F64) : Int := if x.neg then -(magUnits x.mag : Int) else (magUnits x.mag : Int)

/-- `x ≤ y` for floating point numbers: both are numbers and in that order. -/
def F64.Le (x y : F64) : Prop := x.isNan = false ∧ y.isNan = false ∧ x.units ≤ y.units

/-- `x < y` for floating point numbers. -/
def F64.Lt (x y : F64) : Prop := x.isNan = false ∧ y.isNan = false ∧ x.units < y.units

/-- How far the number denoted by `x` is from the integer `z`, in units of `2^-1074`. -/
def F64.distance (x : F64) (z : Int) : Nat := (x.units - z * 2^1074).natAbs

/-- `x` is the finite number nearest to `z`; of two such numbers the one with an even bit pattern. -/
structure F64.Nearest (x : F64) (z : Int) : Prop where
  finite : x.isFinite = true
  nearest : ∀ y : F64, y.isFinite = true → x.distance z ≤ y.distance z
  even : ∀ y : F64, y.isFinite = true → y.units ≠ x.units → y.distance z = x.distance z → x.mag % 2 = 0

end Wot

import Verif.Spec.Float
import Verif.Spec.JsonText
/-
Decimal numbers, the floats nearest to them and the texts that denote them.
-/
namespace Wot

/-- The number `digits * 10^exponent`. -/
structure Decimal where
  digits : Nat
  exponent : Int

/-- How far it is from the number with this magnitude, in units of `2^-1074` (or of `2^-1074 * 10^exponent`, if the exponent
is negative). -/
def Decimal.gap (D : Decimal) (m : Nat) : Nat :=
  (((magUnits m * 10^(-D.exponent).toNat : Nat) : Int) - (D.digits * 10^D.exponent.toNat * 2^1074 : Nat)).natAbs

/-- `x` is, but for the sign, the float nearest to it; of two such floats the one with an even bit pattern. Infinity counts as
`2^1024`. -/
structure Decimal.Nearest (D : Decimal) (x : F64) : Prop where
  finite : x.isFinite = true
  nearest : ∀ y : F64, y.isNan = false → D.gap x.mag ≤ D.gap y.mag
  even : ∀ y : F64, y.isNan = false → y.mag ≠ x.mag → D.gap y.mag = D.gap x.mag → x.mag % 2 = 0

/-- The value of an exponent. -/
inductive ExponentDenotes : List Char → Int → Prop
  | none : ExponentDenotes [] 0
  | plus {e : Char} {sign ds : List Char} {n : Nat} : e ∈ ['e', 'E'] → sign ∈ [[], ['+']] → IsDigits ds → DigitsDenote ds n →
      ExponentDenotes (e :: sign ++ ds) n
  | minus {e : Char} {ds : List Char} {n : Nat} : e ∈ ['e', 'E'] → IsDigits ds → DigitsDenote ds n →
      ExponentDenotes (e :: '-' :: ds) (-n)

/-- The texts of a decimal number without sign: all its digits, the exponent and the place of the point. -/
inductive DecimalText : Decimal → List Char → Prop
  | whole {ds exponent : List Char} {n : Nat} {z : Int} : IsInteger ds → DigitsDenote ds n → ExponentDenotes exponent z →
      DecimalText ⟨n, z⟩ (ds ++ exponent)
  | point {ds fraction exponent : List Char} {n : Nat} {z : Int} : IsInteger ds → IsDigits fraction →
      DigitsDenote (ds ++ fraction) n → ExponentDenotes exponent z →
      DecimalText ⟨n, z - fraction.length⟩ (ds ++ '.' :: fraction ++ exponent)

/-- A decimal number of up to 15 digits with at most 22 decimals, between 0 and `9 * 10^14` or between `2 * 10^16` and `10^22`.
(The bound is compared after multiplication with a power of ten.) -/
structure Decimal.Short (D : Decimal) : Prop where
  digits : D.digits < 10^15
  exponent : -22 ≤ D.exponent
  range : D.digits * 10^D.exponent.toNat ≤ 9 * 10^14 * 10^(-D.exponent).toNat ∨
    (2 * 10^16 * 10^(-D.exponent).toNat ≤ D.digits * 10^D.exponent.toNat ∧
      D.digits * 10^D.exponent.toNat < 10^22 * 10^(-D.exponent).toNat)

/-- The float nearest to such a number, with either sign. -/
def F64.IsShort (x : F64) : Prop := ∃ D : Decimal, D.Short ∧ D.Nearest x

/-- The two are the same number. -/
def Decimal.Equal (D E : Decimal) : Prop :=
  D.digits * 10^D.exponent.toNat * 10^(-E.exponent).toNat = E.digits * 10^E.exponent.toNat * 10^(-D.exponent).toNat

/-- A number in a document: an integer up to `9 * 10^14`, or a float as above. -/
def JNum.IsShort : JNum → Prop
  | .pos n => n ≤ 9 * 10^14
  | .neg n => n + 1 ≤ 9 * 10^14
  | .float f => f.IsShort

/-- All numbers in the document are such numbers. -/
def Json.NumbersShort (j : Json) : Prop := ∀ n, NumberIn n j → n.IsShort

/-- The two floats have the same sign, and fewer than three floats lie between them: the magnitudes of floats are numbered in
their order. -/
def F64.Close (x y : F64) : Prop := x.neg = y.neg ∧ x.mag ≤ y.mag + 3 ∧ y.mag ≤ x.mag + 3

/-- The number after a function on floats. -/
def JNum.mapFloat (g : F64 → F64) : JNum → JNum
  | .float x => .float (g x)
  | n => n

mutual
/-- The document after a function on its floats. -/
def Json.mapFloats (g : F64 → F64) : Json → Json
  | .null => .null
  | .bool b => .bool b
  | .num n => .num (n.mapFloat g)
  | .str s => .str s
  | .arr l => .arr (Json.mapFloatsList g l)
  | .obj m => .obj (Json.mapFloatsMembers g m)
termination_by structural x => x
/-- All elements of an array. -/
def Json.mapFloatsList (g : F64 → F64) : List Json → List Json
  | [] => []
  | j :: l => j.mapFloats g :: Json.mapFloatsList g l
termination_by structural x => x
/-- All members of an object. -/
def Json.mapFloatsMembers (g : F64 → F64) : List (String × Json) → List (String × Json)
  | [] => []
  | (k, j) :: m => (k, j.mapFloats g) :: Json.mapFloatsMembers g m
termination_by structural x => x
end

/-! ### Notation -/

/-- From `10^-5` up to, but without, `10^16`. -/
def Decimal.Plain (D : Decimal) : Prop :=
  10^(-D.exponent).toNat ≤ D.digits * 10^D.exponent.toNat * 10^5 ∧ D.digits * 10^D.exponent.toNat < 10^16 * 10^(-D.exponent).toNat

/-- Digits, a point and digits, without superfluous zeros. -/
def PlainText (cs : List Char) : Prop :=
  ∃ ds fs, cs = ds ++ '.' :: fs ∧ IsInteger ds ∧ IsDigits fs ∧ (fs = ['0'] ∨ fs.getLast? ≠ some '0')

/-- A digit, a point and digits unless there are none, `e` and an integer, without superfluous zeros. -/
def ScientificText (cs : List Char) : Prop :=
  ∃ d fs e, cs = d :: fs ++ 'e' :: e ∧ IsDigits [d] ∧ d ≠ '0' ∧
    (fs = [] ∨ ∃ ds, fs = '.' :: ds ∧ IsDigits ds ∧ ds.getLast? ≠ some '0') ∧ (IsInteger e ∨ ∃ n, e = '-' :: n ∧ IsInteger n)

end Wot

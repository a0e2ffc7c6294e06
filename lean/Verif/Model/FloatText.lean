import Verif.Model.JsonText
/-
The texts of floats (`FloatText`, a parameter elsewhere): what `ryu` writes for an `f64` and what serde_json without its feature
`float_roundtrip` (`Cargo.toml:13`, no features) reads for a decimal number. Both are dependencies: this file follows the source of
serde_json from memory and the documentation of `ryu`, and is part of the trusted base of the properties that use it.

Simplifications: `ryu` computes with tables and 128-bit integers; here the same decimal number is found by search. A magnitude is the bit
pattern without the sign. serde_json counts digits in an `i32`, which overflows for texts of gigabytes; here it does not.
-/
namespace Wot

namespace F64

/-! ### Arithmetic (IEEE 754, round half to even) -/

/-- The value of a magnitude in units of `2^-1074`. -/
def scaled (m : Nat) : Nat := if m / 2^52 = 0 then m % 2^52 else (2^52 + m % 2^52) * 2^(m / 2^52 - 1)

/-- The magnitude nearest to `n / d` units of `2^-1074`; too large ones are not yet infinite. -/
def roundQ (n d : Nat) : Nat :=
  let q := n / d
  let s := q.log2 - 52
  let f := q / 2^s
  if (2 * f + 1) * 2^s * d < 2 * n ∨ ((2 * f + 1) * 2^s * d = 2 * n ∧ f % 2 = 1) then s * 2^52 + f + 1 else s * 2^52 + f

/-- `a * b`. -/
def mulMag (a b : Nat) : Nat := min (roundQ (scaled a * scaled b) (2^1074)) infMag

/-- `a / b`. -/
def divMag (a b : Nat) : Nat := min (roundQ (scaled a * 2^1074) (scaled b)) infMag

/-- The float with a sign and a magnitude. -/
def make (neg : Bool) (m : Nat) : F64 :=
  have h : min m infMag < 2^63 := Nat.lt_of_le_of_lt (Nat.min_le_right _ _) (by decide)
  if neg then .ofBits (2^63 + min m infMag) (by omega) else .ofBits (min m infMag) (by omega)

end F64

namespace FloatText

/-! ### Reading (`serde_json::de`) -/

/-- The table `POW10`: the literals `1e000` to `1e308`. -/
def pow10 (i : Nat) : Nat := F64.roundQ (10^i * 2^1074) 1

/-- `f64_from_parts`, after `let mut f = significand as f64`. Only so many rounds are possible. -/
def fromParts : Nat → Nat → Int → Option Nat
  | fuel, f, e =>
    if e.natAbs ≤ 308 then
      if 0 ≤ e then
        if F64.mulMag f (pow10 e.natAbs) = F64.infMag then none else some (F64.mulMag f (pow10 e.natAbs))
      else some (F64.divMag f (pow10 e.natAbs))
    else if f = 0 then some f
    else if 0 ≤ e then none
    else match fuel with
      | 0 => none
      | fuel + 1 => fromParts fuel (F64.divMag f (pow10 308)) (e + 308)

/-- The loops of `parse_integer` and `parse_decimal`: digits are taken as long as the number fits into a `u64`; the others are
returned. -/
def accumulate (n : Nat) : List Char → Nat × List Char
  | [] => (n, [])
  | c :: cs => if 2^64 ≤ n * 10 + (c.toNat - 48) then (n, c :: cs) else accumulate (n * 10 + (c.toNat - 48)) cs

/-- `i32::saturating_add`. -/
def saturate (e : Int) : Int := if e < -2^31 then -2^31 else if 2^31 ≤ e then 2^31 - 1 else e

/-- `parse_exponent` and `parse_exponent_overflow`; without an exponent, `f64_from_parts` at once. The text is that of the exponent. -/
def withExponent (significand : Nat) (start : Int) : List Char → Option Nat
  | [] => fromParts start.natAbs (F64.roundMag significand) start
  | _ :: cs =>
    let (sign, digits) := scanSign cs
    let exp := digitsValue digits
    if 2^31 ≤ exp then if significand ≠ 0 ∧ sign ≠ ['-'] then none else some 0
    else
      let e := saturate (if sign = ['-'] then start - exp else start + exp)
      fromParts e.natAbs (F64.roundMag significand) e

/-- `parse_integer`, `parse_long_integer`, `parse_number`, `parse_decimal`, `parse_decimal_overflow`: the magnitude of a number with
these digits before and after the point, and the text of its exponent. -/
def magnitude (digits fraction exponent : List Char) : Option Nat :=
  let (n, long) := accumulate 0 digits
  let (n, rest) := accumulate n fraction
  withExponent n (long.length - (fraction.length - rest.length)) exponent

/-- The text of a number, converted to a float: the sign, and a magnitude for the digits before and after the point and the text of
the exponent. -/
def readParts (magnitude : List Char → List Char → List Char → Option Nat) (cs : List Char) : Option F64 :=
  let minus := cs.head? == some '-'
  let (digits, cs) := scanDigits (if minus then cs.drop 1 else cs)
  (scanFraction cs).bind fun (fraction, cs) =>
    (scanExponent cs).bind fun (exponent, _) =>
      (magnitude digits (fraction.drop 1) exponent).map (F64.make minus)

/-- Without `float_roundtrip`. -/
def readFloat (cs : List Char) : Option F64 := readParts magnitude cs

/-- The value of the text of an exponent. -/
def exponentValue : List Char → Int
  | [] => 0
  | _ :: cs =>
    let (sign, digits) := scanSign cs
    if sign = ['-'] then -(digitsValue digits : Int) else digitsValue digits

/-- With `float_roundtrip` (`f64_long_from_parts`, the module `lexical`): all digits count, and there is only one rounding. The algorithm
is not modelled, only its documented result. -/
def exactMagnitude (digits fraction exponent : List Char) : Option Nat :=
  let n := digitsValue (digits ++ fraction)
  let e := exponentValue exponent - fraction.length
  let m := F64.roundQ (n * 10^e.toNat * 2^1074) (10^(-e).toNat)
  if F64.infMag ≤ m then none else some m

/-! ### Writing (`ryu`) -/

/-- The decimal number `c * 10^k` is rounded to this magnitude (`d2d`, `accept_bounds`). -/
def within (m c : Nat) (k : Int) : Bool :=
  let n := c * 10^k.toNat * 2^1075
  let d := 10^(-k).toNat
  let lo := F64.scaled m + F64.scaled (m - 1)
  let hi := F64.scaled m + F64.scaled (m + 1)
  if m % 2 = 0 then decide (lo * d ≤ n) && decide (n ≤ hi * d) else decide (lo * d < n) && decide (n < hi * d)

/-- The multiple of `10^k` that is rounded to this magnitude, if there is one; of two the closer one. -/
def candidate (m : Nat) (k : Int) : Option Nat :=
  let t := 10^k.toNat * 2^1075
  let v := F64.scaled m * 10^(-k).toNat
  let c := 2 * v / t
  if within m c k then
    if within m (c + 1) k = true ∧ ((2 * c + 1) * t < 4 * v ∨ ((2 * c + 1) * t = 4 * v ∧ c % 2 = 1)) then some (c + 1) else some c
  else if within m (c + 1) k then some (c + 1) else none

/-- The decimal number with the largest exponent that is rounded to this magnitude (`d2d`). -/
def shortest (m : Nat) : Nat → Int → Nat × Int
  | 0, k => ((candidate m k).getD 0, k)
  | n + 1, k =>
    match candidate m k with
    | some c => (c, k)
    | none => shortest m n (k - 1)

/-- `write_exponent3`. -/
def exponentText (e : Int) : List Char := (if e < 0 then ['-'] else []) ++ decimal e.natAbs

/-- `format64` for the decimal number `c * 10^k`. -/
def layout (c : Nat) (k : Int) : List Char :=
  let digits := decimal c
  let kk := digits.length + k
  if 0 ≤ k ∧ kk ≤ 16 then digits ++ List.replicate k.toNat '0' ++ ['.', '0']
  else if 0 < kk ∧ kk ≤ 16 then digits.take kk.toNat ++ '.' :: digits.drop kk.toNat
  else if -5 < kk ∧ kk ≤ 0 then '0' :: '.' :: List.replicate (-kk).toNat '0' ++ digits
  else if digits.length = 1 then digits ++ 'e' :: exponentText (kk - 1)
  else digits.take 1 ++ '.' :: digits.drop 1 ++ 'e' :: exponentText (kk - 1)

/-- `ryu::Buffer::format_finite`. -/
def writeFloat (x : F64) : List Char :=
  let sign := if x.neg then ['-'] else []
  if x.mag = 0 then sign ++ ['0', '.', '0']
  else
    let (c, k) := shortest x.mag 640 310
    sign ++ layout c k

/-- The texts of floats in serde_json. -/
def serdeJson : FloatText := ⟨writeFloat, readFloat⟩

/-- The same with the feature `float_roundtrip`, which any crate of a build can turn on for all. -/
def serdeJsonExact : FloatText := ⟨writeFloat, readParts exactMagnitude⟩

end FloatText

end Wot

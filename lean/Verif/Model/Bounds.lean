/-
Numeric types and the `Minimum`/`Maximum` helpers of `src/thing.rs:843–993`.
-/
namespace Wot

/-- `PartialOrd::partial_cmp`, the only operation of the element type that the helpers use. -/
class PCmp (T : Type) where
  pcmp : T → T → Option Ordering

/-- `PartialEq::eq` of the element type. -/
class PEq (T : Type) where
  peq : T → T → Bool

/-- `i64`. -/
def I64 : Type := { z : Int // -(2^63 : Int) ≤ z ∧ z < (2^63 : Int) }

instance : DecidableEq I64 := inferInstanceAs (DecidableEq { _z : Int // _ })

/-- The mathematical value of an `i64`. -/
def I64.val (a : I64) : Int := a.1

/-- Checked constructor. -/
def I64.ofInt? (z : Int) : Option I64 :=
  if h : -(2^63 : Int) ≤ z ∧ z < (2^63 : Int) then some ⟨z, h⟩ else none

instance : PCmp I64 := ⟨fun a b => some (compare a.val b.val)⟩
instance : PEq I64 := ⟨fun a b => a.val == b.val⟩

/-- `u32` (`min_items`, `max_items`, `min_length`, `max_length`). -/
abbrev U32 := Fin (2^32)

/-- `NonZeroU64` (`IntegerSchema::multiple_of`, `src/thing.rs:1027`). -/
def NonZeroU64 : Type := { n : Nat // 0 < n ∧ n < 2^64 }

instance : DecidableEq NonZeroU64 := inferInstanceAs (DecidableEq { _n : Nat // _ })

/-- Checked constructor (`NonZeroU64::new` on an in-range value). -/
def NonZeroU64.ofNat? (n : Nat) : Option NonZeroU64 :=
  if h : 0 < n ∧ n < 2^64 then some ⟨n, h⟩ else none

/-- `f64`: an IEEE 754 binary64 bit pattern. -/
structure F64 where
  bits : Fin (2^64)
  deriving DecidableEq

namespace F64

/-- All bits but the sign. -/
def mag (x : F64) : Nat := x.bits.val % 2^63

/-- The sign bit. -/
def neg (x : F64) : Bool := decide (2^63 ≤ x.bits.val)

/-- The bits of `+inf`. -/
def infMag : Nat := 0x7FF0000000000000

/-- `f64::is_nan`: exponent all ones and non-zero fraction. -/
def isNan (x : F64) : Bool := decide (infMag < x.mag)

/-- `f64::is_finite`. -/
def isFinite (x : F64) : Bool := decide (x.mag < infMag)

/-- Position of a non-NaN value in the IEEE 754 order: for non-NaN patterns the magnitude bits are
ordered like the absolute values, and both zeros have position 0. -/
def key (x : F64) : Int := if x.neg then -(x.mag : Int) else (x.mag : Int)

/-- `+0.0`, the literal `0.` of `src/builder/data_schema.rs:3861`. -/
def zero : F64 := ⟨⟨0, by decide⟩⟩

/-- `f64::partial_cmp`: unordered iff one side is NaN. -/
def partialCmp (x y : F64) : Option Ordering :=
  if x.isNan || y.isNan then none else some (compare x.key y.key)

/-- `x <= 0.` as used in `src/builder/data_schema.rs:3861` (false for NaN). -/
def leZero (x : F64) : Bool := !x.isNan && decide (x.key ≤ 0)

/-- Build from a raw pattern. -/
def ofBits (n : Nat) (h : n < 2^64 := by decide) : F64 := ⟨⟨n, h⟩⟩

end F64

instance : PCmp F64 := ⟨F64.partialCmp⟩
instance : PEq F64 := ⟨fun a b => a.partialCmp b == some .eq⟩

/-- `Maximum<T>` (`src/thing.rs:843–851`). -/
inductive Maximum (T : Type)
  | inclusive (a : T)
  | exclusive (a : T)
  deriving DecidableEq

/-- `Minimum<T>` (`src/thing.rs:855–863`). -/
inductive Minimum (T : Type)
  | inclusive (a : T)
  | exclusive (a : T)
  deriving DecidableEq

variable {T : Type} [PCmp T]
open PCmp

/-- `impl PartialOrd for Minimum` (`src/thing.rs:865–888`). -/
def Minimum.partialCmp : Minimum T → Minimum T → Option Ordering
  | .inclusive a, .inclusive b => pcmp a b
  | .exclusive a, .exclusive b => pcmp a b
  | .inclusive a, .exclusive b =>
    (pcmp a b).bind fun
      | .lt => some .lt
      | .eq => some .lt
      | .gt => none
  | .exclusive a, .inclusive b =>
    (pcmp a b).bind fun
      | .lt => none
      | .eq => some .gt
      | .gt => some .gt

/-- `impl PartialOrd for Maximum` (`src/thing.rs:890–915`). -/
def Maximum.partialCmp : Maximum T → Maximum T → Option Ordering
  | .inclusive a, .inclusive b => pcmp a b
  | .exclusive a, .exclusive b => pcmp a b
  | .inclusive a, .exclusive b =>
    (pcmp a b).bind fun
      | .lt => none
      | .eq => some .gt
      | .gt => some .gt
  | .exclusive a, .inclusive b =>
    (pcmp a b).bind fun
      | .lt => some .lt
      | .eq => some .lt
      | .gt => none

/-- Derived `PartialEq for Minimum` (`src/thing.rs:854`). -/
def Minimum.beqMin [PEq T] : Minimum T → Minimum T → Bool
  | .inclusive a, .inclusive b => PEq.peq a b
  | .exclusive a, .exclusive b => PEq.peq a b
  | _, _ => false

/-- Derived `PartialEq for Maximum` (`src/thing.rs:842`). -/
def Maximum.beqMax [PEq T] : Maximum T → Maximum T → Bool
  | .inclusive a, .inclusive b => PEq.peq a b
  | .exclusive a, .exclusive b => PEq.peq a b
  | _, _ => false

/-- `impl PartialEq<Maximum<T>> for Minimum<T>` (`src/thing.rs:917–929`). -/
def Minimum.eqMax [PEq T] : Minimum T → Maximum T → Bool
  | .inclusive a, .inclusive b => PEq.peq a b
  | .exclusive a, .exclusive b => PEq.peq a b
  | _, _ => false

/-- `impl PartialEq<Minimum<T>> for Maximum<T>` (`src/thing.rs:931–939`). -/
def Maximum.eqMin [PEq T] (a : Maximum T) (b : Minimum T) : Bool := b.eqMax a

/-- `impl PartialOrd<Maximum<T>> for Minimum<T>` (`src/thing.rs:941–960`). -/
def Minimum.cmpMax : Minimum T → Maximum T → Option Ordering
  | .inclusive a, .inclusive b => pcmp a b
  | .exclusive a, .exclusive b => pcmp a b
  | .exclusive a, .inclusive b =>
    (pcmp a b).bind fun
      | .lt => none
      | .eq => some .gt
      | .gt => some .gt
  | .inclusive a, .exclusive b =>
    (pcmp a b).bind fun
      | .lt => none
      | .eq => some .gt
      | .gt => some .gt

/-- `impl PartialOrd<Minimum<T>> for Maximum<T>` (`src/thing.rs:962–970`). -/
def Maximum.cmpMin (a : Maximum T) (b : Minimum T) : Option Ordering :=
  (b.cmpMax a).map Ordering.swap

/-- `Minimum<f64>::is_nan` (`src/thing.rs:972–993`). -/
def Minimum.isNan : Minimum F64 → Bool
  | .inclusive x => x.isNan
  | .exclusive x => x.isNan

/-- `Maximum<f64>::is_nan` (`src/thing.rs:972–993`). -/
def Maximum.isNan : Maximum F64 → Bool
  | .inclusive x => x.isNan
  | .exclusive x => x.isNan

/-- `matches!(ord, None | Some(Ordering::Greater))`
(`src/builder/data_schema.rs:3834, 3853, 3869`). -/
def noneOrGreater : Option Ordering → Bool
  | none => true
  | some .gt => true
  | _ => false

end Wot

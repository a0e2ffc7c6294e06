import Verif.Model.Thing
import Verif.Spec.JsonText
/-
The calendar, and the texts of instants after RFC 3339. Both use no function of the model.
-/
namespace Wot

/-! ### The calendar -/

/-- Every fourth year is a leap year, but of the full centuries only every fourth. -/
def LeapYear (y : Int) : Prop := y % 4 = 0 ∧ (y % 100 = 0 → y % 400 = 0)

instance (y : Int) : Decidable (LeapYear y) := inferInstanceAs (Decidable (_ ∧ _))

/-- The number of days in a month. -/
def monthDays (y : Int) (m : Nat) : Nat :=
  if m = 2 then if LeapYear y then 29 else 28 else if m ∈ [4, 6, 9, 11] then 30 else 31

/-- A day of the (proleptic) Gregorian calendar. -/
structure Date where
  year : Int
  month : Nat
  day : Nat
  deriving DecidableEq

/-- There is such a day. -/
def Date.Valid (d : Date) : Prop :=
  1 ≤ d.month ∧ d.month ≤ 12 ∧ 1 ≤ d.day ∧ d.day ≤ monthDays d.year d.month

/-- The day after. -/
def Date.next (d : Date) : Date :=
  if d.day < monthDays d.year d.month then { d with day := d.day + 1 }
  else if d.month < 12 then { d with month := d.month + 1, day := 1 }
  else ⟨d.year + 1, 1, 1⟩

/-- The number of a day, counted from 1970-01-01. -/
inductive Date.Number : Date → Int → Prop
  | epoch : Date.Number ⟨1970, 1, 1⟩ 0
  | after {d : Date} {n : Int} : d.Number n → d.next.Number (n + 1)
  | before {d : Date} {n : Int} : d.Valid → d.next.Number (n + 1) → d.Number n

/-! ### Texts -/

/-- The number `n` in `k` digits. -/
def Digits (k n : Nat) (cs : List Char) : Prop := cs.length = k ∧ DigitsDenote cs n

/-- Nothing, or a point and a decimal fraction of a second; what is left of it are full nanoseconds. -/
inductive FractionText : Nat → List Char → Prop
  | none : FractionText 0 []
  | some {v : Nat} {ds : List Char} : ds ≠ [] → DigitsDenote ds v →
      FractionText (v * 10 ^ 9 / 10 ^ ds.length) ('.' :: ds)

/-- `Z`, or a sign, hours and minutes; in seconds. -/
inductive ZoneText : Int → List Char → Prop
  | utc {c : Char} : c ∈ ['Z', 'z'] → ZoneText 0 [c]
  | east {h m : Nat} {hs ms : List Char} : Digits 2 h hs → Digits 2 m ms → h ≤ 23 → m ≤ 59 →
      ZoneText ((60 * h + m) * 60) ('+' :: hs ++ ':' :: ms)
  | west {h m : Nat} {hs ms : List Char} : Digits 2 h hs → Digits 2 m ms → h ≤ 23 → m ≤ 59 →
      ZoneText (-((60 * h + m) * 60)) ('-' :: hs ++ ':' :: ms)

/-- The instant is the last nanosecond of a month (of UTC). -/
def EndsMonth (nanos : Int) : Prop :=
  ∃ first n, Date.Number first n ∧ first.day = 1 ∧ nanos = n * 86400 * 10 ^ 9 - 1

/-- The text says: on this day, at this hour, minute, second and nanosecond, at this offset. Its fraction is a `fraction`, its zone a
`zone`, and one of `separators` stands before the hour. -/
def ClockText (fraction : Nat → List Char → Prop) (zone : Int → List Char → Prop) (separators : List Char) (text : String)
    (date : Date) (h mi s nanos : Nat) (offset : Int) : Prop :=
  ∃ ys ms ds T hs mis ss fs zs,
    text.toList = ys ++ '-' :: ms ++ '-' :: ds ++ T :: hs ++ ':' :: mis ++ ':' :: ss ++ fs ++ zs ∧
    (∃ y : Nat, date.year = y ∧ Digits 4 y ys) ∧ Digits 2 date.month ms ∧ Digits 2 date.day ds ∧ T ∈ separators ∧
    Digits 2 h hs ∧ Digits 2 mi mis ∧ Digits 2 s ss ∧ fraction nanos fs ∧ zone offset zs

/-- The nanoseconds since the beginning of 1970 (UTC) of a time on the day with this number. -/
def nanosAt (n : Int) (h mi s : Nat) (offset : Int) (nanos : Int) : Int :=
  ((((n * 24 + h) * 60 + mi) * 60 + s) - offset) * 10 ^ 9 + nanos

/-- The text denotes the instant. A second numbered 60, a leap second, is allowed at the end of a month; the instant is then the
nanosecond before the month ends. -/
def InstantText (text : String) (t : OffsetDateTime) : Prop :=
  ∃ date h mi s nanos n, ClockText FractionText ZoneText ['T', 't'] text date h mi s nanos t.offsetSeconds ∧
    Date.Number date n ∧ h ≤ 23 ∧ mi ≤ 59 ∧
    ((s ≤ 59 ∧ t.epochNanos = nanosAt n h mi s t.offsetSeconds nanos) ∨
     (s = 60 ∧ t.epochNanos = nanosAt n h mi 60 t.offsetSeconds (-1) ∧ EndsMonth t.epochNanos))

/-! ### The texts that are written -/

/-- Nothing, or a point and up to nine digits that do not end in a zero. -/
inductive TidyFraction : Nat → List Char → Prop
  | none : TidyFraction 0 []
  | some {v : Nat} {ds : List Char} : ds ≠ [] → ds.length ≤ 9 → ds.getLast? ≠ some '0' → DigitsDenote ds v →
      TidyFraction (v * 10 ^ (9 - ds.length)) ('.' :: ds)

/-- `Z` stands for the offset 0, and only `Z`. -/
def TidyZone (offset : Int) (cs : List Char) : Prop := ZoneText offset cs ∧ (offset = 0 → cs = ['Z'])

/-- The one way to write an instant. -/
def TidyText (text : String) (t : OffsetDateTime) : Prop :=
  ∃ date h mi s nanos n, ClockText TidyFraction TidyZone ['T'] text date h mi s nanos t.offsetSeconds ∧
    Date.Number date n ∧ h ≤ 23 ∧ mi ≤ 59 ∧ s ≤ 59 ∧ t.epochNanos = nanosAt n h mi s t.offsetSeconds nanos

/-- The calendar of the place (the offset) shows this date. -/
def OffsetDateTime.ShowsDate (t : OffsetDateTime) (date : Date) : Prop :=
  ∃ n, Date.Number date n ∧ n * 86400 * 10 ^ 9 ≤ t.epochNanos + t.offsetSeconds * 10 ^ 9 ∧
    t.epochNanos + t.offsetSeconds * 10 ^ 9 < (n + 1) * 86400 * 10 ^ 9

/-- RFC 3339 has a text for the instant: the year has at most four digits, and the offset is less than a day and made of minutes. -/
def OffsetDateTime.Expressible (t : OffsetDateTime) : Prop :=
  (∃ date, t.ShowsDate date ∧ 0 ≤ date.year ∧ date.year ≤ 9999) ∧
  ∃ minutes : Int, t.offsetSeconds = 60 * minutes ∧ -1440 < minutes ∧ minutes < 1440

end Wot

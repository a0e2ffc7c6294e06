import Verif.Model.JsonText
/-
The texts of instants: `time::serde::rfc3339` (`src/thing.rs:89, 95`; `Cargo.toml`, `time` 0.3), which formats and parses
`OffsetDateTime` with `format_description::well_known::Rfc3339`. `time` is a dependency: this file follows its documented
behaviour and its source from memory, and is part of the trusted base of the properties that use it.

Simplification: an `OffsetDateTime` of the crate lies within the years -9999 to 9999 and has an offset of at most 25 hours; here both
are arbitrary integers. Those outside of these ranges are not formatted.
-/
namespace Wot.Rfc3339

/-! ### The calendar (`time::Date`) -/

/-- `util::is_leap_year`. -/
def isLeap (y : Int) : Bool := y % 4 = 0 && (y % 100 ≠ 0 || y % 400 = 0)

/-- `util::days_in_year_month`: the lengths of the months. -/
def months (leap : Bool) : List Nat := [31, if leap then 29 else 28, 31, 30, 31, 30, 31, 31, 30, 31, 30, 31]

/-- The days from the first day of the year 1 to the first day of the year (`Date::to_julian_day`). -/
def daysTo (y : Int) : Int := 365 * (y - 1) + (y - 1) / 4 - (y - 1) / 100 + (y - 1) / 400

/-- The days from the first day of the year 1 to 1970-01-01. -/
def epochDay : Int := 719162

/-- `Date::from_calendar_date` and `Date::to_julian_day`: the number of the day, counted from 1970-01-01, or nothing if there is no such
day. -/
def dayNumber (y : Int) (m d : Nat) : Option Int :=
  match (months (isLeap y))[m - 1]? with
  | none => none
  | some length =>
    if 1 ≤ m ∧ 1 ≤ d ∧ d ≤ length then
      some (daysTo y + (((months (isLeap y)).take (m - 1)).sum + (d - 1) : Nat) - epochDay)
    else none

/-- The year of a day counted from the first day of the year 1 (`Date::from_julian_day`): an estimate and its correction. -/
def yearOf (n : Int) : Int :=
  let y := 400 * n / 146097 + 1
  if n < daysTo y then y - 1 else if daysTo (y + 1) ≤ n then y + 1 else y

/-- The month, counted from `m`, and the day of the month. -/
def monthDay : List Nat → Nat → Nat → Nat × Nat
  | [], m, o => (m, o + 1)
  | length :: l, m, o => if o < length then (m, o + 1) else monthDay l (m + 1) (o - length)

/-- `Date::from_julian_day`, `Date::to_calendar_date`: year, month and day of a number. -/
def civil (day : Int) : Int × Nat × Nat :=
  let y := yearOf (day + epochDay)
  (y, monthDay (months (isLeap y)) 1 (day + epochDay - daysTo y).toNat)

/-! ### Formatting (`Rfc3339::format_into`) -/

/-- `format_number_pad_zero`. -/
def pad : Nat → Nat → List Char
  | 0, _ => []
  | k + 1, n => pad k (n / 10) ++ [digitChar (n % 10)]

/-- The subsecond without trailing zeros. -/
def trimmed : Nat → Nat → List Char
  | 0, _ => []
  | k + 1, n => if n % 10 ≠ 0 then pad (k + 1) n else trimmed k (n / 10)

/-- Nanoseconds in a second and in a day. -/
def second : Nat := 1000000000
@[inherit_doc second] def nanosPerDay : Nat := 86400 * second

/-- The offset. -/
def zone (offset : Int) : List Char :=
  if offset = 0 then ['Z']
  else (if offset < 0 then '-' else '+') :: pad 2 (offset.natAbs / 3600) ++ ':' :: pad 2 (offset.natAbs / 60 % 60)

/-- `OffsetDateTime::format(&Rfc3339)`: an error if the year has not four digits, or the offset is not made of hours and
minutes. -/
def format (t : OffsetDateTime) : Option String :=
  let clock := t.epochNanos + t.offsetSeconds * second
  let (y, m, d) := civil (clock / nanosPerDay)
  let nanos := (clock % nanosPerDay).toNat
  let s := nanos / second
  let fraction := nanos % second
  if 0 ≤ y ∧ y ≤ 9999 ∧ t.offsetSeconds % 60 = 0 ∧ t.offsetSeconds.natAbs < 86400 then
    some (String.ofList (pad 4 y.toNat ++ '-' :: pad 2 m ++ '-' :: pad 2 d ++ 'T' :: pad 2 (s / 3600) ++ ':' ::
      pad 2 (s / 60 % 60) ++ ':' :: pad 2 (s % 60) ++ (if fraction = 0 then [] else '.' :: trimmed 9 fraction) ++
      zone t.offsetSeconds))
  else none

/-! ### Parsing (`Rfc3339::parse_offset_date_time`) -/

/-- `exactly_n_digits`. -/
def digits : Nat → List Char → Option (Nat × List Char)
  | 0, cs => some (0, cs)
  | k + 1, cs => (digits k cs).bind fun (n, cs) =>
    match cs with
    | c :: cs => if c.isDigit then some (10 * n + (c.toNat - 48), cs) else none
    | [] => none

/-- `ascii_char`, `ascii_char_ignore_case`: one of these characters. -/
def literal (l : List Char) : List Char → Option (List Char)
  | c :: cs => if l.contains c then some cs else none
  | [] => none

/-- The nanoseconds of the digits of a subsecond; from the tenth on they do not count. -/
def subsecond (unit : Nat) : List Char → Nat
  | [] => 0
  | c :: cs => (c.toNat - 48) * unit + subsecond (unit / 10) cs

/-- The subsecond, if there is a point. -/
def fraction : List Char → Option (Nat × List Char)
  | '.' :: cs => if (scanDigits cs).1 = [] then none else some (subsecond 100000000 (scanDigits cs).1, (scanDigits cs).2)
  | cs => some (0, cs)

/-- The offset: `Z`, or a sign, at most 23 hours and at most 59 minutes. -/
def offset : List Char → Option (Int × List Char)
  | [] => none
  | c :: cs =>
    if c = 'Z' ∨ c = 'z' then some (0, cs)
    else if c = '+' ∨ c = '-' then do
      let (h, cs) ← digits 2 cs
      let cs ← literal [':'] cs
      let (m, cs) ← digits 2 cs
      if h ≤ 23 ∧ m ≤ 59 then some ((if c = '-' then -1 else 1) * ((h * 3600 + m * 60 : Nat) : Int), cs) else none
    else none

/-- `OffsetDateTime::is_valid_leap_second_stand_in`: the last nanosecond of a month, in UTC. -/
def endsMonth (epochNanos : Int) : Bool :=
  let (y, m, d) := civil (epochNanos / nanosPerDay)
  epochNanos % nanosPerDay = nanosPerDay - 1 && (months (isLeap y))[m - 1]? = some d

/-- `Time::from_hms_nano` and `OffsetDateTime::new_in_offset`. -/
def instant (day : Int) (h mi s nanos : Nat) (offset : Int) : Option OffsetDateTime :=
  if h ≤ 23 ∧ mi ≤ 59 ∧ s ≤ 59 then
    some ⟨(day * 86400 + (h * 3600 + mi * 60 + s : Nat) - offset) * second + nanos, offset⟩
  else none

/-- `OffsetDateTime::parse(_, &Rfc3339)`. A second numbered 60 is taken for the last nanosecond of the one before, if that ends a
month. -/
def parse (text : String) : Option OffsetDateTime := do
  let (y, cs) ← digits 4 text.toList
  let cs ← literal ['-'] cs
  let (m, cs) ← digits 2 cs
  let cs ← literal ['-'] cs
  let (d, cs) ← digits 2 cs
  let cs ← literal ['T', 't'] cs
  let (h, cs) ← digits 2 cs
  let cs ← literal [':'] cs
  let (mi, cs) ← digits 2 cs
  let cs ← literal [':'] cs
  let (s, cs) ← digits 2 cs
  let (nanos, cs) ← fraction cs
  let (offset, cs) ← offset cs
  if cs ≠ [] then none
  else do
    let day ← dayNumber y m d
    if s = 60 then do
      let t ← instant day h mi 59 999999999 offset
      if endsMonth t.epochNanos then some t else none
    else instant day h mi s nanos offset

end Wot.Rfc3339

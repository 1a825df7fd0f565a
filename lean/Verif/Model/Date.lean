import Verif.Model.Ser
import Verif.Model.De
/-!
# Dates and timestamps

`dlhn::{Date, DateTime}` and the modules `format::{date, date_time}`. The crate
time 0.3 (default features, so years -9999 to 9999) is not part of /repo; the
functions of it that dlhn calls are described here by their documented
behaviour and belong to the trusted base.
-/
namespace Dlhn

/-! ## Integer arithmetic of a build -/

/-- `a + b` on `i32`: checked in debug builds, wrapping in release builds. -/
def addI32 (mode : BuildMode) (a b : Int32) : Option Int32 :=
  match mode with
  | .debug => if -2 ^ 31 ≤ a.toInt + b.toInt ∧ a.toInt + b.toInt < 2 ^ 31 then some (a + b) else none
  | .release => some (a + b)
/-- `a - b` on `i32`. -/
def subI32 (mode : BuildMode) (a b : Int32) : Option Int32 :=
  match mode with
  | .debug => if -2 ^ 31 ≤ a.toInt - b.toInt ∧ a.toInt - b.toInt < 2 ^ 31 then some (a - b) else none
  | .release => some (a - b)
/-- `a + b` on `u16`. -/
def addU16 (mode : BuildMode) (a b : UInt16) : Option UInt16 :=
  match mode with
  | .debug => if a.toNat + b.toNat < 65536 then some (a + b) else none
  | .release => some (a + b)
/-- `a - b` on `u16`. -/
def subU16 (mode : BuildMode) (a b : UInt16) : Option UInt16 :=
  match mode with
  | .debug => if b.toNat ≤ a.toNat then some (a - b) else none
  | .release => some (a - b)

/-! ## The `time` crate -/

namespace Time

/-- `time::util::is_leap_year`. -/
def isLeapYear (year : Int) : Bool := year % 4 == 0 && (year % 25 != 0 || year % 16 == 0)

/-- `time::util::days_in_year`. -/
def daysInYear (year : Int) : Nat := if isLeapYear year then 366 else 365

/-- `time::Date`: a year and a day of the year, private fields that satisfy
`Date.Valid`. -/
structure Date where
  year : Int32
  ordinal : UInt16
  deriving DecidableEq, Repr

/-- The checks of `time::Date::from_ordinal_date`. -/
def inRange (year : Int32) (ordinal : UInt16) : Bool :=
  decide (-9999 ≤ year.toInt ∧ year.toInt ≤ 9999 ∧ 1 ≤ ordinal.toNat ∧
    ordinal.toNat ≤ daysInYear year.toInt)

/-- `time::Date::from_ordinal_date`. -/
def fromOrdinalDate (year : Int32) (ordinal : UInt16) : Option Date :=
  if inRange year ordinal then some ⟨year, ordinal⟩ else none

/-- `time::OffsetDateTime`: the instant as whole seconds since the epoch (rounded
down) and nanoseconds within the second, and the UTC offset in seconds. The
fields satisfy `OffsetDateTime.Valid`. -/
structure OffsetDateTime where
  seconds : Int
  nanos : Nat
  offset : Int
  deriving DecidableEq, Repr

/-- First second of year -9999, UTC. -/
def minTimestamp : Int := -377705116800
/-- Last second of year 9999, UTC. -/
def maxTimestamp : Int := 253402300799

/-- `time::OffsetDateTime::from_unix_timestamp`. -/
def fromUnixTimestamp (s : Int64) : Option OffsetDateTime :=
  if minTimestamp ≤ s.toInt ∧ s.toInt ≤ maxTimestamp then some ⟨s.toInt, 0, 0⟩ else none

/-- `v + (ns as i64).nanoseconds()` for `ns: u32`, i.e.
`checked_add(..).expect("resulting value is out of range")`. -/
def addNanos (v : OffsetDateTime) (ns : UInt32) : Option OffsetDateTime :=
  let total := v.nanos + ns.toNat
  let s := v.seconds + total / 1000000000
  if s ≤ maxTimestamp then some ⟨s, total % 1000000000, v.offset⟩ else none

end Time

/-! ## `dlhn::Date` -/

/-- dlhn/src/date.rs:11-15. -/
structure Date where
  year : Int32
  ordinal : UInt16
  deriving DecidableEq, Repr

/-- dlhn/src/date.rs:8. -/
def DATE_YEAR_OFFSET : Int32 := 2000
/-- dlhn/src/date.rs:9. -/
def DATE_ORDINAL_OFFSET : UInt16 := 1

namespace Date

/-- `From<time::Date>`, dlhn/src/date.rs:18-25. -/
def ofTime (d : Time.Date) : Date := ⟨d.year, d.ordinal⟩
/-- `TryInto<time::Date>`, dlhn/src/date.rs:28-34. -/
def toTime (d : Date) : Option Time.Date := Time.fromOrdinalDate d.year d.ordinal
/-- `Serialize`, dlhn/src/date.rs:36-46. -/
def ser (mode : BuildMode) (d : Date) : WProg SerErr :=
  match subI32 mode d.year DATE_YEAR_OFFSET with
  | none => .done (.panic .overflow)
  | some y => (Ser.serI32 y).andThen <|
    match subU16 mode d.ordinal DATE_ORDINAL_OFFSET with
    | none => .done (.panic .overflow)
    | some o => Ser.serU16 o
/-- `Deserialize`, dlhn/src/date.rs:50-80. -/
def de (mode : BuildMode) : Prog DeErr Date := do
  let y ← De.deI32
  match addI32 mode y DATE_YEAR_OFFSET with
  | none => .done (.panic .overflow)
  | some year =>
    let o ← De.deU16
    match addU16 mode o DATE_ORDINAL_OFFSET with
    | none => .done (.panic .overflow)
    | some ordinal => pure ⟨year, ordinal⟩
/-- Derived `Ord`, dlhn/src/date.rs:11: year first, then ordinal. -/
def lt (a b : Date) : Bool :=
  decide (a.year < b.year) || (a.year == b.year && decide (a.ordinal < b.ordinal))

end Date

/-! ## `dlhn::DateTime` -/

/-- dlhn/src/date_time.rs:5-9. -/
structure DateTime where
  unixTimestamp : Int64
  nanosecond : UInt32
  deriving DecidableEq, Repr

namespace DateTime

/-- `From<OffsetDateTime>`, dlhn/src/date_time.rs:12-19. -/
def ofTime (d : Time.OffsetDateTime) : DateTime :=
  ⟨Int64.ofInt d.seconds, UInt32.ofNat d.nanos⟩
/-- `TryInto<OffsetDateTime>`, dlhn/src/date_time.rs:22-30. -/
def toTime (d : DateTime) : Outcome Unit Time.OffsetDateTime :=
  match Time.fromUnixTimestamp d.unixTimestamp with
  | none => .err ()
  | some v => match Time.addNanos v d.nanosecond with
    | none => .panic .timeRange
    | some r => .ok r
/-- Derived `Serialize`, dlhn/src/date_time.rs:5: a struct of two fields. -/
def ser (d : DateTime) : WProg SerErr :=
  (Ser.serI64 d.unixTimestamp).andThen (Ser.serU32 d.nanosecond)
/-- Derived `Deserialize`, dlhn/src/date_time.rs:5. -/
def de : Prog DeErr DateTime := do
  let s ← De.deI64
  let n ← De.deU32
  pure ⟨s, n⟩
/-- Derived `Ord`, dlhn/src/date_time.rs:5: seconds first, then nanoseconds. -/
def lt (a b : DateTime) : Bool :=
  decide (a.unixTimestamp < b.unixTimestamp) ||
    (a.unixTimestamp == b.unixTimestamp && decide (a.nanosecond < b.nanosecond))

end DateTime

/-! ## The `format` modules -/

namespace Format

/-- `format::date::serialize`, dlhn/src/format/date.rs:39-44. -/
def serDate (mode : BuildMode) (d : Time.Date) : WProg SerErr :=
  match subI32 mode d.year 2000 with
  | none => .done (.panic .overflow)
  | some y => (Ser.serI32 y).andThen <|
    match subU16 mode d.ordinal 1 with
    | none => .done (.panic .overflow)
    | some o => Ser.serU16 o
/-- `format::date::deserialize`, dlhn/src/format/date.rs:21-36, 46-48. -/
def deDate (mode : BuildMode) : Prog DeErr Time.Date := do
  let y ← De.deI32
  match addI32 mode y 2000 with
  | none => .done (.panic .overflow)
  | some year =>
    let o ← De.deU16
    match addU16 mode o 1 with
    | none => .done (.panic .overflow)
    | some ordinal =>
      match Time.fromOrdinalDate year ordinal with
      | none => .done (.err (invalidValue "sequence" DeErr.read.expected))
      | some d => pure d

/-- `format::date_time::serialize`, dlhn/src/format/date_time.rs:34-42. -/
def serDateTime (d : Time.OffsetDateTime) : WProg SerErr :=
  (Ser.serHint none).andThen <|
    (Ser.serI64 (Int64.ofInt d.seconds)).andThen (Ser.serU32 (UInt32.ofNat d.nanos))
/-- `format::date_time::deserialize`, dlhn/src/format/date_time.rs:18-31, 44-46. -/
def deDateTime : Prog DeErr Time.OffsetDateTime := do
  let s ← De.deI64
  let n ← De.deU32
  match Time.fromUnixTimestamp s with
  | none => .done (.err (invalidValue "sequence" DeErr.read.expected))
  | some v => match Time.addNanos v n with
    | none => .done (.panic .timeRange)
    | some r => pure r

end Format
end Dlhn

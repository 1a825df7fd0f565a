import Verif.Model.Date
import Verif.Spec.Body
/-!
# Specification of dates and timestamps

The proleptic Gregorian calendar and UTC instants, written down without
reference to how the code or the `time` crate compute them. Only the record
types are taken from the model.
-/
namespace Dlhn.Spec

/-- The Gregorian leap-year rule. -/
def Leap (year : Int) : Prop := (4 ∣ year ∧ ¬ 100 ∣ year) ∨ 400 ∣ year

/-- `year`, `ordinal` names an existing day of the years -9999 to 9999. -/
def ExistingDay (year : Int) (ordinal : Nat) : Prop :=
  -9999 ≤ year ∧ year ≤ 9999 ∧ 1 ≤ ordinal ∧ (ordinal ≤ 365 ∨ (ordinal = 366 ∧ Leap year))

/-- What holds of every `time::Date`. -/
def _root_.Dlhn.Time.Date.Valid (d : Time.Date) : Prop := ExistingDay d.year.toInt d.ordinal.toNat

/-- Days from the last day of the year 0 to the given day: the number of days in
the years before, plus the day of the year. -/
def dayNumber (year : Int) (ordinal : Nat) : Int :=
  365 * (year - 1) + (year - 1) / 4 - (year - 1) / 100 + (year - 1) / 400 + ordinal

/-- First and last second of the supported range, counted from the epoch
1970-01-01T00:00:00Z. -/
def firstSecond : Int := (dayNumber (-9999) 1 - dayNumber 1970 1) * 86400
def lastSecond : Int := (dayNumber 10000 1 - dayNumber 1970 1) * 86400 - 1

/-- The instant of a timestamp in nanoseconds since the epoch. -/
def _root_.Dlhn.Time.OffsetDateTime.instant (d : Time.OffsetDateTime) : Int :=
  d.seconds * 1000000000 + d.nanos

/-- What holds of every `time::OffsetDateTime`: nanoseconds below one second, the
offset below 26 hours, and the local time in the supported range, so the UTC
instant is at most the offset outside of it. -/
def _root_.Dlhn.Time.OffsetDateTime.Valid (d : Time.OffsetDateTime) : Prop :=
  d.nanos < 1000000000 ∧ -93600 < d.offset ∧ d.offset < 93600 ∧
    firstSecond ≤ d.seconds + d.offset ∧ d.seconds + d.offset ≤ lastSecond

/-- The UTC instant itself is in the supported range. -/
def UtcInRange (d : Time.OffsetDateTime) : Prop := firstSecond ≤ d.seconds ∧ d.seconds ≤ lastSecond

end Dlhn.Spec

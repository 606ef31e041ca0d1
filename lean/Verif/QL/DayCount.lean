import Verif.QL.Calendar
import Mathlib.Data.Rat.Defs
import Mathlib.Algebra.Order.Ring.Rat
/-!
# Model of the day counts: `quantlib/src/time/calendar_trait.rs` 159-337

`Time` is `f32` in the program; the model computes in exact rationals. `JointCalendar::year_fraction`
(jointcalendar.rs 45-52) asks its first member; no calendar overrides `year_fraction` or `get_time_difference`, so the
result does not depend on the calendar.
-/
set_option autoImplicit false
namespace Verif.QL
open Verif Verif.Civil

/-- quantlib/src/time/conventions.rs 16-25 -/
inductive DCC
  | actual365Fixed | actual360 | actual364 | thirty360 | actActIsda | streetConvention | dummy
  deriving DecidableEq, Repr

/-- `(end - start).whole_days()` of two date-times: truncated towards zero. -/
def wholeDays (s e : DT) : Int := (e.instant - s.instant).tdiv dayNs

/-- quantlib/src/time/calendar_trait.rs 279-281 `is_leap_year` (Rust's `%` is zero exactly if the Euclidean one is) -/
def isLeapYear (y : Int) : Bool := (y.tmod 4 == 0 && y.tmod 100 != 0) || y.tmod 400 == 0

/-- 366 or 365 (calendar_trait.rs 204-208, 300-304) -/
def daysInYear (y : Int) : Rat := if isLeapYear y then 366 else 365

/-- The `for year in start_year..=end_year` loops: `part year` is what the body adds. -/
def yearLoop (sy ey : Int) (part : Int → Rat) : Rat :=
  (List.range (ey + 1 - sy).toNat).foldl (fun acc (i : Nat) => acc + part (sy + (i : Int))) 0

/-- quantlib/src/time/calendar_trait.rs 204-227, the body of the loop of `ActActIsda`. `Date::from_calendar_date(..,
December, 31)` is written out as the day number; the years are in range. -/
def isdaPart (s e : DT) (year : Int) : Rat :=
  let sy := s.ymd.y
  let ey := e.ymd.y
  if year = sy then
    (if ey = sy then (wholeDays s e : Rat)
     else (((Ymd.mk year 12 31).ord - s.day : Int) : Rat)) / daysInYear year
  else if year = ey then
    ((e.day - (Ymd.mk (year - 1) 12 31).ord : Int) : Rat) / daysInYear year
  else 1

/-- `unpack_date` and the sum 360 dy + 30 dm + dd (calendar_trait.rs 184-189, 233-238) -/
def thirtyDays (s e : DT) : Int :=
  360 * (e.ymd.y - s.ymd.y) + 30 * ((e.ymd.m : Int) - s.ymd.m) + ((e.ymd.d : Int) - s.ymd.d)

/-- quantlib/src/time/calendar_trait.rs 239-245 -/
def streetDays (s e : DT) : Int :=
  if s.ymd.d = 31 then
    if e.ymd.d = 31 then thirtyDays s e - 30 else thirtyDays s e + 1
  else thirtyDays s e

/-- quantlib/src/time/calendar_trait.rs 159-253 `year_fraction` -/
def yearFraction (s e : DT) (c : DCC) : Res Rat :=
  if s.instant > e.instant then .error .err
  else match c with
    | .actual365Fixed => .ok ((wholeDays s e : Rat) / 365)
    | .actual360 => .ok ((wholeDays s e : Rat) / 360)
    | .actual364 => .ok ((wholeDays s e : Rat) / 364)
    | .thirty360 => .ok ((thirtyDays s e : Rat) / 360)
    | .actActIsda => .ok (yearLoop s.ymd.y e.ymd.y (isdaPart s e))
    | .streetConvention => .ok ((streetDays s e : Rat) / 360)
    | .dummy => .error .err

/-- `OffsetDateTime::new_in_offset(31 December year, MIDNIGHT, offset)` as an instant -/
def yearEndInstant (year off : Int) : Int := (Ymd.mk year 12 31).ord * dayNs - off * 1000000000

/-- `as_seconds_f64() / (24.0 * 60.0 * 60.0)`: a difference of instants in days -/
def inDays (ns : Int) : Rat := (ns : Rat) / (dayNs : Rat)

/-- quantlib/src/time/calendar_trait.rs 300-334, the body of the loop of `get_time_difference` -/
def timePart (s e : DT) (year : Int) : Rat :=
  let sy := s.ymd.y
  let ey := e.ymd.y
  if year = sy then
    (if ey = sy then inDays (e.instant - s.instant) else inDays (yearEndInstant year s.off - s.instant)) / daysInYear year
  else if year = ey then
    inDays (e.instant - yearEndInstant (year - 1) s.off) / daysInYear year
  else 1

/-- quantlib/src/time/calendar_trait.rs 293-337 `get_time_difference` -/
def timeDifference (s e : DT) : Rat := yearLoop s.ymd.y e.ymd.y (timePart s e)

end Verif.QL

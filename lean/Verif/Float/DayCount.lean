import Verif.Float.Ieee
import Verif.QL.DayCount
/-!
# Floating-point model of the day counts: `quantlib/src/time/calendar_trait.rs` 159-337

The same functions as in `QL/DayCount` in the arithmetic they run in: `Time` is `f32`.
-/
set_option autoImplicit false
namespace Verif.Float
open Verif Verif.QL Verif.Civil

/-- An integer number of days `as Time`, divided by a literal (calendar_trait.rs 173, 177, 181, 190, 246) -/
def daysOverF (days n : Int) : Fl := f32.div (f32.ofInt days) (f32.lit n)

/-- 366.0 or 365.0 (calendar_trait.rs 204-208, 300-304) -/
def daysInYearF (y : Int) : Fl := if isLeapYear y then f32.lit 366 else f32.lit 365

/-- The `for year in start_year..=end_year` loops: `frac += part year` from `frac = 0.0`. -/
def yearLoopF (sy ey : Int) (part : Int → Fl) : Fl :=
  (List.range (ey + 1 - sy).toNat).foldl (fun acc (i : Nat) => f32.add acc (part (sy + (i : Int)))) (f32.lit 0)

/-- The body of the loop of `ActActIsda` (calendar_trait.rs 204-227), see `isdaPart`. -/
def isdaPartF (s e : DT) (year : Int) : Fl :=
  let sy := s.ymd.y
  let ey := e.ymd.y
  if year = sy then
    f32.div (f32.ofInt (if ey = sy then wholeDays s e else (Ymd.mk year 12 31).ord - s.day)) (daysInYearF year)
  else if year = ey then
    f32.div (f32.ofInt (e.day - (Ymd.mk (year - 1) 12 31).ord)) (daysInYearF year)
  else f32.lit 1

/-- `year_fraction` (calendar_trait.rs 159-253) -/
def yearFractionF (s e : DT) (c : DCC) : Res Fl :=
  if s.instant > e.instant then .error .err
  else match c with
    | .actual365Fixed => .ok (daysOverF (wholeDays s e) 365)
    | .actual360 => .ok (daysOverF (wholeDays s e) 360)
    | .actual364 => .ok (daysOverF (wholeDays s e) 364)
    | .thirty360 => .ok (daysOverF (thirtyDays s e) 360)
    | .actActIsda => .ok (yearLoopF s.ymd.y e.ymd.y (isdaPartF s e))
    | .streetConvention => .ok (daysOverF (streetDays s e) 360)
    | .dummy => .error .err

/-- `Duration::as_seconds_f64` of the crate `time` 0.3.36: whole seconds plus nanoseconds over a billion, both towards zero. -/
def secondsF (ns : Int) : Fl :=
  f64.add (f64.ofInt (ns.tdiv 1000000000)) (f64.div (f64.ofInt (ns.tmod 1000000000)) (f64.ofInt 1000000000))

/-- `as_seconds_f64() as Time / (24.0 * 60.0 * 60.0)` (calendar_trait.rs 308, 317, 329-330) -/
def inDaysF (ns : Int) : Fl := f32.div (f32.cast (secondsF ns)) (f32.mul (f32.mul (f32.lit 24) (f32.lit 60)) (f32.lit 60))

/-- The body of the loop of `get_time_difference` (calendar_trait.rs 300-334), see `timePart`. -/
def timePartF (s e : DT) (year : Int) : Fl :=
  let sy := s.ymd.y
  let ey := e.ymd.y
  if year = sy then
    f32.div (inDaysF (if ey = sy then e.instant - s.instant else yearEndInstant year s.off - s.instant)) (daysInYearF year)
  else if year = ey then
    f32.div (inDaysF (e.instant - yearEndInstant (year - 1) s.off)) (daysInYearF year)
  else f32.lit 1

/-- `get_time_difference` (calendar_trait.rs 293-337) -/
def timeDifferenceF (s e : DT) : Fl := yearLoopF s.ymd.y e.ymd.y (timePartF s e)

end Verif.Float

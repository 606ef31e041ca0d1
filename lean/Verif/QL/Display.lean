import Verif.QL.Calendar
/-!
# `display_holidays` (quantlib/src/time/calendar_trait.rs 30-50, jointcalendar.rs 62-75, calendars/nullcalendar.rs 58-65, southkorea.rs 761-771, unitedstates.rs 296-306)

The lines printed are modelled by the dates in them; a panic leaves what has been printed.
-/
set_option autoImplicit false
namespace Verif.QL
open Verif Verif.Civil

/-- The condition of line 45 of calendar_trait.rs (jointcalendar.rs 70): `is_holiday(&date) && (include_weekend || !is_weekend(&date))`, with its short circuits -/
def printed (hol wk : DT → Res Bool) (incl : Bool) (d : DT) : Res Bool := do
  if ← hol d then
    if incl then .ok true else .ok (!(← wk d))
  else .ok false

/-- The loop of calendar_trait.rs 43-49 and jointcalendar.rs 68-74: what is printed and how it ends (`+=` panics past the last day, 9999-12-31) -/
def displayLoop (hol wk : DT → Res Bool) (incl : Bool) (upto d : DT) : List DT × Res Unit :=
  if d.instant ≤ upto.instant then
    match printed hol wk incl d with
    | .error e => ([], .error e)
    | .ok b =>
      if d.day < maxDay then
        let r := displayLoop hol wk incl upto { d with day := d.day + 1 }
        (if b then d :: r.1 else r.1, r.2)
      else (if b then [d] else [], .error .overflow)
  else ([], .ok ())
termination_by (maxDay - d.day).toNat
decreasing_by omega

/-- `display_holidays` of a calendar (nullcalendar.rs 58-65, southkorea.rs 761-771, unitedstates.rs 296-306): both dates at the offset of the calendar first -/
def Calendar.display (c : Calendar) (start upto : DT) (incl : Bool) : List DT × Res Unit :=
  match c.convert start with
  | .error e => ([], .error e)
  | .ok x =>
    match c.convert upto with
    | .error e => ([], .error e)
    | .ok y => displayLoop c.isHoliday c.isWeekend incl y x

/-- jointcalendar.rs 62-75: the dates as they are given -/
def jointDisplay (cs : List Calendar) (start upto : DT) (incl : Bool) : List DT × Res Unit :=
  displayLoop (jointIsHoliday cs) (jointIsWeekend cs) incl upto start

/-- jointcalendar.rs 89-99 -/
def jointAddHoliday (_cs : List Calendar) (_day : Int) : Res (List Calendar) := .error .err
def jointRemoveHoliday (_cs : List Calendar) (_day : Int) : Res (List Calendar) := .error .err

end Verif.QL

import Verif.QL.DateTime
import Verif.QL.CalendarTables
/-!
# Model of the calendars: `quantlib/src/time/{calendar_trait,holiday,calendar,jointcalendar}.rs` and
`quantlib/src/time/calendars/*.rs`

A date enters the holiday rules only through its day number. Log lines (`warn!`) are dropped.
-/
set_option autoImplicit false
namespace Verif.QL
open Verif Verif.Civil

/-- `OffsetDateTime::to_offset` (crate `time`): the same instant at another UTC offset; panics outside the years
-9999..9999. -/
def DT.toOffset (d : DT) (o : Int) : Res DT := do
  let day ← checkDay ((d.localNs + (o - d.off) * 1000000000) / dayNs)
  .ok { day := day, tod := ((d.localNs + (o - d.off) * 1000000000) % dayNs).toNat, off := o }

/-- `date.ordinal()`: the day of the year, from 1. -/
def dayOfYear (day : Int) : Int := day - dby (ofOrd day).y

/-- quantlib/src/time/calendar_trait.rs 24-27 `_is_weekend` -/
def isWeekendDay (day : Int) : Bool := weekday day == 5 || weekday day == 6

/-- quantlib/src/time/holiday.rs 22-35 `is_good_friday`. The table indices are in range for the years let through. -/
def isGoodFriday (day : Int) (isOrthodox : Bool) : Bool :=
  let y := (ofOrd day).y
  if y < 1901 ∨ y > 2199 then false
  else if isOrthodox then dayOfYear day == (easterMondays0.getD (y - 1901).toNat 0 : Int) - 3
  else dayOfYear day == (easterMondays1.getD (y - 1901).toNat 0 : Int) - 3

/-! ## United States -/

/-- quantlib/src/time/calendars/unitedstates.rs 7-14 -/
inductive USType
  | settlement | nyse | governmentBond | federalReserve | sofr
  deriving DecidableEq, Repr

/-- quantlib/src/time/calendars/unitedstates.rs 27-36 -/
def isWashingtonBirthday (day : Int) : Bool :=
  let ⟨y, m, d⟩ := ofOrd day
  let w := weekday day
  if y ≥ 1971 then (15 ≤ d && d ≤ 21) && w == 0 && m == 2
  else (d == 22 || (d == 23 && w == 0) || (d == 21 && w == 4)) && m == 2

/-- quantlib/src/time/calendars/unitedstates.rs 38-47 -/
def isMemorialDay (day : Int) : Bool :=
  let ⟨y, m, d⟩ := ofOrd day
  let w := weekday day
  if y ≥ 1971 then 25 ≤ d && w == 0 && m == 5
  else (d == 30 || (d == 31 && w == 0) || (d == 29 && w == 4)) && m == 5

/-- quantlib/src/time/calendars/unitedstates.rs 49-53 -/
def isLaborDay (day : Int) : Bool :=
  let ⟨_, m, d⟩ := ofOrd day
  d ≤ 7 && weekday day == 0 && m == 9

/-- quantlib/src/time/calendars/unitedstates.rs 55-59 -/
def isColumbusDay (day : Int) : Bool :=
  let ⟨y, m, d⟩ := ofOrd day
  (8 ≤ d && d ≤ 14) && weekday day == 0 && m == 10 && 1971 ≤ y

/-- quantlib/src/time/calendars/unitedstates.rs 61-69 -/
def isVeteransDayNoSaturday (day : Int) : Bool :=
  let ⟨y, m, d⟩ := ofOrd day
  let w := weekday day
  if y ≤ 1970 ∨ y ≥ 1978 then (d == 11 || (d == 12 && w == 0)) && m == 11
  else (22 ≤ d && d ≤ 28) && w == 0 && m == 10

/-- quantlib/src/time/calendars/unitedstates.rs 72-79 -/
def isJuneteenth (day : Int) (moveToFriday : Bool) : Bool :=
  let ⟨y, m, d⟩ := ofOrd day
  let w := weekday day
  (d == 19 || (d == 20 && w == 0) || ((d == 18 && w == 4) && moveToFriday)) && (m == 6 && 2022 ≤ y)

/-- New Year's Day, also on Monday the second: quantlib/src/time/calendars/unitedstates.rs 84, 129, 149, 208 -/
def isUSNewYear (day : Int) : Bool :=
  let ⟨_, m, d⟩ := ofOrd day
  (d == 1 || (d == 2 && weekday day == 0)) && m == 1

/-- Martin Luther King's birthday: quantlib/src/time/calendars/unitedstates.rs 85, 131, 162, 209 -/
def isKingDay (day : Int) (from_ : Int) : Bool :=
  let ⟨y, m, d⟩ := ofOrd day
  (15 ≤ d && d ≤ 21) && weekday day == 0 && m == 1 && from_ ≤ y

/-- Independence Day (`sat`: Friday the third counts): quantlib/src/time/calendars/unitedstates.rs 91, 135, 154, 213 -/
def isIndependenceDay (day : Int) (sat : Bool) : Bool :=
  let ⟨_, m, d⟩ := ofOrd day
  let w := weekday day
  (d == 4 || (d == 5 && w == 0) || (sat && (d == 3 && w == 4))) && m == 7

/-- Thanksgiving: quantlib/src/time/calendars/unitedstates.rs 95, 139, 156, 217 -/
def isThanksgiving (day : Int) : Bool :=
  let ⟨_, m, d⟩ := ofOrd day
  (22 ≤ d && d ≤ 28) && weekday day == 3 && m == 11

/-- Christmas (`sat`: Friday the 24th counts): quantlib/src/time/calendars/unitedstates.rs 96, 140, 157, 218 -/
def isChristmas (day : Int) (sat : Bool) : Bool :=
  let ⟨_, m, d⟩ := ofOrd day
  let w := weekday day
  (d == 25 || (d == 26 && w == 0) || (sat && (d == 24 && w == 4))) && m == 12

/-- quantlib/src/time/calendars/unitedstates.rs 81-111 `goverment_bond_holiday` -/
def isGovernmentBondHoliday (day : Int) : Bool :=
  let ⟨y, m, d⟩ := ofOrd day
  isUSNewYear day || isKingDay day 1983 || isWashingtonBirthday day
  || (isGoodFriday day false && !(y == 2015 || y == 2021 || y == 2023))
  || isMemorialDay day || isJuneteenth day true || isIndependenceDay day true || isLaborDay day || isColumbusDay day
  || isVeteransDayNoSaturday day || isThanksgiving day || isChristmas day true
  || (y == 2018 && m == 12 && d == 5) || (y == 2012 && m == 10 && d == 30) || (y == 2004 && m == 6 && d == 11)

/-- The special closings of the New York Stock Exchange: quantlib/src/time/calendars/unitedstates.rs 169-188 -/
def isNyseClosing (day : Int) : Bool :=
  let ⟨y, m, d⟩ := ofOrd day
  let w := weekday day
  (y == 2018 && m == 12 && d == 5)
  || (y == 2012 && m == 10 && (d == 29 || d == 30))
  || (y == 2007 && m == 1 && d == 2)
  || (y == 2004 && m == 6 && d == 11)
  || (y == 2001 && m == 9 && (11 ≤ d && d ≤ 14))
  || (y == 1994 && m == 4 && d == 27)
  || (y == 1985 && m == 9 && d == 27)
  || (y == 1977 && m == 7 && d == 14)
  || (y == 1973 && m == 1 && d == 25)
  || (y == 1972 && m == 12 && d == 28)
  || (y == 1969 && m == 7 && d == 21)
  || (y == 1969 && m == 3 && d == 31)
  || (y == 1969 && m == 2 && d == 10)
  || (y == 1968 && m == 7 && d == 5)
  || (y == 1968 && 163 ≤ dayOfYear day && w == 2)
  || (y == 1968 && m == 4 && d == 9)
  || (y == 1963 && m == 11 && d == 25)
  || (y == 1961 && m == 5 && d == 29)
  || (y == 1958 && m == 12 && d == 26)
  || ((y == 1954 || y == 1956 || y == 1965) && m == 12 && d == 24)

/-- quantlib/src/time/calendars/unitedstates.rs 119-226 `UnitedStatesType::is_holiday` (`is_temporary_holiday` is
constantly false, 115-117). Rust's `y % 4 == 0` agrees with the Euclidean remainder. -/
def usBase (t : USType) (day : Int) : Bool :=
  let ⟨y, m, d⟩ := ofOrd day
  let w := weekday day
  match t with
  | .settlement =>
    isUSNewYear day || (d == 31 && w == 4 && m == 12) || isKingDay day 1983 || isWashingtonBirthday day
    || isMemorialDay day || isJuneteenth day true || isIndependenceDay day true || isLaborDay day || isColumbusDay day
    || isVeteransDayNoSaturday day || isThanksgiving day || isChristmas day true
  | .nyse =>
    isUSNewYear day || isWashingtonBirthday day || isGoodFriday day false || isMemorialDay day || isJuneteenth day true
    || isIndependenceDay day true || isLaborDay day || isThanksgiving day || isChristmas day true
    || isKingDay day 1998
    || ((y ≤ 1968 || (y ≤ 1980 && y % 4 == 0)) && m == 11 && d ≤ 7 && w == 1)
    || isNyseClosing day
  | .governmentBond => isGovernmentBondHoliday day
  | .sofr => isGoodFriday day false || isGovernmentBondHoliday day
  | .federalReserve =>
    isUSNewYear day || isKingDay day 1983 || isWashingtonBirthday day || isMemorialDay day || isJuneteenth day false
    || isIndependenceDay day false || isLaborDay day || isColumbusDay day || isVeteransDayNoSaturday day
    || isThanksgiving day || isChristmas day false

/-! ## South Korea -/

/-- quantlib/src/time/calendars/southkorea.rs 9-13 -/
inductive KRType
  | krx | settlement
  deriving DecidableEq, Repr

/-- quantlib/src/time/calendars/southkorea.rs 16-36. A negative year becomes a huge `usize`, hence "not available". -/
def isLunarNewYear (day : Int) : Bool :=
  let y := (ofOrd day).y
  if y > 2050 ∨ 1901 > y then false
  else
    let l := dby y + (lunarNewYears.getD (y - 1901).toNat 0 : Int)
    l == day || l + 1 == day || l - 1 == day

/-- `matches!((year, month, day), ..)` -/
def inTable (t : List (Int × Nat × Nat)) (day : Int) : Bool :=
  let ⟨y, m, d⟩ := ofOrd day
  t.contains (y, m, d)

/-- quantlib/src/time/calendars/southkorea.rs 48-162 -/
def isBuddhaBirthday (day : Int) : Bool :=
  let y := (ofOrd day).y
  if ¬ (1951 ≤ y ∧ y ≤ 2050) then false else inTable buddhaBirthdays day

/-- quantlib/src/time/calendars/southkorea.rs 164-477 -/
def isChuseok (day : Int) : Bool :=
  let y := (ofOrd day).y
  if ¬ (1951 ≤ y ∧ y ≤ 2050) then false else inTable chuseokDays day

/-- quantlib/src/time/calendars/southkorea.rs 481-648 `is_last_business_day_of_year` -/
def isKrxYearEnd (day : Int) : Bool :=
  let y := (ofOrd day).y
  if ¬ (1951 ≤ y ∧ y ≤ 2050) then false else inTable krxYearEnds day

/-- quantlib/src/time/calendars/southkorea.rs 667-694 `SouthKoreaType::is_holiday` (labour day: 38-46) -/
def krBase (t : KRType) (day : Int) : Bool :=
  let ⟨_, m, d⟩ := ofOrd day
  if isLunarNewYear day || isBuddhaBirthday day || isChuseok day || (m == 5 && d == 1)
    || (m == 1 && d == 1) || (m == 3 && d == 1) || (m == 5 && d == 5) || (m == 6 && d == 6) || (m == 8 && d == 15)
    || (m == 10 && d == 3) || (m == 10 && d == 9) || (m == 12 && d == 25) then true
  else if inTable koreanTemporary day then true
  else match t with
    | .krx => isKrxYearEnd day
    | .settlement => false

/-! ## Calendars -/

/-- quantlib/src/time/calendar.rs 10-14; `added`, `removed` are `holiday_adder`, `holiday_remover` as day numbers. -/
inductive Calendar
  | null
  | korea (t : KRType) (added removed : List Int)
  | us (t : USType) (added removed : List Int)
  deriving Repr

/-- The conversion at the head of `is_holiday` and `is_weekend`: none for `NullCalendar`, +9 h for South Korea
(southkorea.rs 714, 752, 757), -5 h for the United States (unitedstates.rs 242, 286, 292). -/
def Calendar.convert (c : Calendar) (d : DT) : Res DT :=
  match c with
  | .null => .ok d
  | .korea _ _ _ => d.toOffset 32400
  | .us _ _ _ => d.toOffset (-18000)

/-- nullcalendar.rs 42-44, southkorea.rs 747-749, unitedstates.rs 281-283: `is_base_holiday` -/
def Calendar.isBase (c : Calendar) (d : DT) : Bool :=
  match c with
  | .null => false
  | .korea t _ _ => krBase t d.day
  | .us t _ _ => usBase t d.day

/-- `is_removed_holiday` (nullcalendar.rs 34-36, southkorea.rs 737-740, unitedstates.rs 271-274) -/
def Calendar.isRemoved (c : Calendar) (d : DT) : Bool :=
  match c with
  | .null => false
  | .korea _ _ r => r.contains d.day
  | .us _ _ r => r.contains d.day

/-- `is_added_holiday` (nullcalendar.rs 38-40, southkorea.rs 742-745, unitedstates.rs 276-279) -/
def Calendar.isAdded (c : Calendar) (d : DT) : Bool :=
  match c with
  | .null => false
  | .korea _ a _ => a.contains d.day
  | .us _ a _ => a.contains d.day

/-- `is_weekend` (nullcalendar.rs 26-28, southkorea.rs 756-759, unitedstates.rs 291-294) -/
def Calendar.isWeekend (c : Calendar) (d : DT) : Res Bool := do
  let x ← c.convert d
  .ok (isWeekendDay x.day)

/-- quantlib/src/time/calendar_trait.rs 65-85 `_is_holiday` -/
def Calendar.isHoliday' (c : Calendar) (d : DT) : Res Bool := do
  let w ← c.isWeekend d
  if w then .ok true
  else if c.isRemoved d then .ok false
  else if c.isBase d then .ok true
  else if c.isAdded d then .ok true
  else .ok false

/-- `is_holiday` (nullcalendar.rs 30-32, southkorea.rs 751-754, unitedstates.rs 285-289) -/
def Calendar.isHoliday (c : Calendar) (d : DT) : Res Bool := do
  let x ← c.convert d
  c.isHoliday' x

/-- `add_holidays` (nullcalendar.rs 50-52, southkorea.rs 727-730, unitedstates.rs 261-264) -/
def Calendar.addHoliday (c : Calendar) (day : Int) : Calendar :=
  match c with
  | .null => .null
  | .korea t a r => .korea t (a ++ [day]) r
  | .us t a r => .us t (a ++ [day]) r

/-- `remove_holidays` (nullcalendar.rs 54-56, southkorea.rs 732-735, unitedstates.rs 266-269) -/
def Calendar.removeHoliday (c : Calendar) (day : Int) : Calendar :=
  match c with
  | .null => .null
  | .korea t a r => .korea t a (r ++ [day])
  | .us t a r => .us t a (r ++ [day])

/-! ## Joint calendars -/

/-- `iter().any(..)`: stops at the first `true` (a panic on the way propagates). -/
def anyRes {α : Type} (f : α → Res Bool) : List α → Res Bool
  | [] => .ok false
  | x :: xs => do if (← f x) then .ok true else anyRes f xs

/-- `iter().all(..)`: stops at the first `false`. -/
def allRes {α : Type} (f : α → Res Bool) : List α → Res Bool
  | [] => .ok true
  | x :: xs => do if (← f x) then allRes f xs else .ok false

/-- quantlib/src/time/jointcalendar.rs 15-33 `JointCalendar::new` (the name is dropped) -/
def jointNew (cs : List Calendar) : Res (List Calendar) := if cs.isEmpty then .error .err else .ok cs

/-- quantlib/src/time/jointcalendar.rs 101-103 -/
def jointIsHoliday (cs : List Calendar) (d : DT) : Res Bool := anyRes (fun c => c.isHoliday d) cs

/-- quantlib/src/time/jointcalendar.rs 58-60 -/
def jointIsWeekend (cs : List Calendar) (d : DT) : Res Bool := anyRes (fun c => c.isWeekend d) cs

/-- calendar_trait.rs 56-58 `is_business_day` of a member -/
def Calendar.isBusinessDay (c : Calendar) (d : DT) : Res Bool := do .ok (!(← c.isHoliday d))

/-- quantlib/src/time/jointcalendar.rs 39-41 `is_business_day` -/
def jointIsBusinessDay (cs : List Calendar) (d : DT) : Res Bool := allRes (fun c => c.isBusinessDay d) cs

/-! ## Adjustment, for any calendar (given by its `is_holiday`) -/

/-- `res += Duration::days(1)` / `res -= Duration::days(1)` keep the time of day and the offset. -/
def DT.addDays (d : DT) (n : Int) : Res DT := do .ok { d with day := ← QL.addDays d.day n }

/-- quantlib/src/time/calendar_trait.rs 87-94. The loop ends at the latest after 9999-12-31, by the panic of `+=`. -/
def adjustFollowing (hol : DT → Res Bool) (d : DT) : Res DT := do
  if ← hol d then
    if d.day < maxDay then adjustFollowing hol { d with day := d.day + 1 } else .error .overflow
  else .ok d
termination_by (maxDay - d.day).toNat
decreasing_by omega

/-- quantlib/src/time/calendar_trait.rs 96-103 -/
def adjustPreceding (hol : DT → Res Bool) (d : DT) : Res DT := do
  if ← hol d then
    if minDay < d.day then adjustPreceding hol { d with day := d.day - 1 } else .error .overflow
  else .ok d
termination_by (d.day - minDay).toNat
decreasing_by omega

/-- quantlib/src/time/calendar_trait.rs 105-120 (its loop is that of `adjust_following`) -/
def adjustModifiedFollowing (hol : DT → Res Bool) (d : DT) : Res DT := do
  let res ← adjustFollowing hol d
  if d.ymd.m ≠ res.ymd.m then adjustPreceding hol d else .ok res

/-- quantlib/src/time/calendar_trait.rs 122-137 -/
def adjustModifiedPreceding (hol : DT → Res Bool) (d : DT) : Res DT := do
  let res ← adjustPreceding hol d
  if d.ymd.m ≠ res.ymd.m then adjustFollowing hol d else .ok res

/-- quantlib/src/time/conventions.rs 6-14 -/
inductive BDC
  | unadjusted | following | modifiedFollowing | preceding | modifiedPreceding | dummy
  deriving DecidableEq, Repr

/-- quantlib/src/time/calendar_trait.rs 139-155 `adjust` -/
def adjust (hol : DT → Res Bool) (d : DT) (c : BDC) : Res DT :=
  match c with
  | .unadjusted => .ok d
  | .following => adjustFollowing hol d
  | .preceding => adjustPreceding hol d
  | .modifiedPreceding => adjustModifiedPreceding hol d
  | .modifiedFollowing => adjustModifiedFollowing hol d
  | .dummy => .error .err

end Verif.QL

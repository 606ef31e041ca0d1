import Verif.QL.DateTime
/-!
# Model of `quantlib/src/utils/string_arithmetic.rs`

The regular expression `(\d+)(Y|M|W|D|h|min|sec)+` (for dates: `(\d+)(Y|M|W|D)+`) is modelled by the scanner `scan`: a
maximal run of digits followed by at least one unit is a match, the captured unit is the last of the run of units, and
everything else is skipped. `\d` is restricted to the ASCII digits (a non-ASCII decimal digit matches in the program
and then panics in `parse`).
-/
set_option autoImplicit false
namespace Verif.QL
open Verif Verif.Civil

inductive PerUnit
  | Y | M | W | D | h | min | sec
  deriving DecidableEq, Repr

/-- The rest `(unit)*` of the unit group after a first unit: the last unit and what follows. `full = false` is the
expression for dates. -/
def moreUnits (full : Bool) (cur : PerUnit) : List Char → PerUnit × List Char
  | 'Y' :: r => moreUnits full .Y r
  | 'M' :: r => moreUnits full .M r
  | 'W' :: r => moreUnits full .W r
  | 'D' :: r => moreUnits full .D r
  | 'h' :: r => if full then moreUnits full .h r else (cur, 'h' :: r)
  | 'm' :: 'i' :: 'n' :: r => if full then moreUnits full .min r else (cur, 'm' :: 'i' :: 'n' :: r)
  | 's' :: 'e' :: 'c' :: r => if full then moreUnits full .sec r else (cur, 's' :: 'e' :: 'c' :: r)
  | r => (cur, r)

/-- The unit group `(unit)+`. -/
def unitGroup (full : Bool) : List Char → Option (PerUnit × List Char)
  | 'Y' :: r => some (moreUnits full .Y r)
  | 'M' :: r => some (moreUnits full .M r)
  | 'W' :: r => some (moreUnits full .W r)
  | 'D' :: r => some (moreUnits full .D r)
  | 'h' :: r => if full then some (moreUnits full .h r) else none
  | 'm' :: 'i' :: 'n' :: r => if full then some (moreUnits full .min r) else none
  | 's' :: 'e' :: 'c' :: r => if full then some (moreUnits full .sec r) else none
  | _ => none

theorem moreUnits_length (full : Bool) (cur : PerUnit) (l : List Char) : (moreUnits full cur l).2.length ≤ l.length := by
  induction cur, l using moreUnits.induct full with
  | case1 _ r ih => simp only [moreUnits, List.length_cons]; omega
  | case2 _ r ih => simp only [moreUnits, List.length_cons]; omega
  | case3 _ r ih => simp only [moreUnits, List.length_cons]; omega
  | case4 _ r ih => simp only [moreUnits, List.length_cons]; omega
  | case5 cur r h ih => simp only [moreUnits, List.length_cons, h, if_true]; simp only [h] at ih; omega
  | case6 cur r h => simp [moreUnits, h]
  | case7 cur r h ih => simp only [moreUnits, List.length_cons, h, if_true]; simp only [h] at ih; omega
  | case8 cur r h => simp [moreUnits, h]
  | case9 cur r h ih => simp only [moreUnits, List.length_cons, h, if_true]; simp only [h] at ih; omega
  | case10 cur r h => simp [moreUnits, h]
  | case11 cur r => unfold moreUnits; simp

theorem unitGroup_length (full : Bool) (l : List Char) (p : PerUnit × List Char) (h : unitGroup full l = some p) :
    p.2.length < l.length := by
  unfold unitGroup at h
  split at h
  all_goals first
    | (cases h; have := moreUnits_length full; simp only [List.length_cons]; exact Nat.lt_succ_of_le (this _ _))
    | (split at h
       · cases h
         have := moreUnits_length full
         simp only [List.length_cons]
         refine Nat.lt_of_le_of_lt (this _ _) ?_
         omega
       · cases h)
    | cases h

/-- The value of a run of digits. -/
def digitsVal : List Char → Nat
  | ds => ds.foldl (fun a c => 10 * a + (c.toNat - 48)) 0

/-- `captures_iter`: the matches from left to right. `acc` is the run of digits just before the current position. -/
def scan (full : Bool) (acc : List Char) (l : List Char) : List (Nat × PerUnit) :=
  match l with
  | [] => []
  | c :: r =>
    if c.isDigit then scan full (acc ++ [c]) r
    else if acc = [] then scan full [] r
    else match _h : unitGroup full (c :: r) with
      | some p => (digitsVal acc, p.1) :: scan full [] p.2
      | none => scan full [] r
termination_by l.length
decreasing_by
  · simp
  · simp
  · exact unitGroup_length full _ _ _h
  · simp

/-- `from_i32_to_month` (string_arithmetic.rs 46-62): the month number 1-12, or the explicit panic. -/
def monthOfI32 (i : Int) : Res Nat := if 0 ≤ i ∧ i ≤ 11 then .ok (i.toNat + 1) else .error .assertion

/-- `NullCalendar::default().last_day_of_month(year, month).day()` (calendar_trait.rs 251-273): `unwrap` panics for a
year out of range. -/
def lastDayOfMonth (y : Int) (m : Nat) : Res Nat := do
  let _ ← fromCalendarDate y m (dim y m)
  .ok (dim y m)

/-- The date part shared by the year and the month branches (string_arithmetic.rs 110-122, 129-141): same day or the
last day of the month. -/
def clampDate (y : Int) (m : Nat) (d : Nat) : Res Int := do
  let eom ← lastDayOfMonth y m
  let nd := if d > eom then eom else d
  fromCalendarDate y m nd

/-- The `Y` branch of `add_period` / `add_period_date` (107-109, 235-237) on the date; `v` is already an `i32`. -/
def addYears (md : Mode) (day v : Int) : Res Int := do
  let ymd := ofOrd day
  let ny ← ckI32 md (ymd.y + v)
  clampDate ny ymd.m ymd.d

/-- The `M` branch of `add_period` / `add_period_date` (124-128, 248-252). `Int.tmod` and `Int.tdiv` are Rust's `%`
and `/`. -/
def addMonths (md : Mode) (day v : Int) : Res Int := do
  let ymd := ofOrd day
  let s ← ckI32 md ((ymd.m : Int) - 1 + v)
  let nm ← monthOfI32 (s.tmod 12)
  let ny ← ckI32 md (ymd.y + s.tdiv 12)
  clampDate ny nm ymd.d

/-- The `Y` branch of `sub_period` / `sub_period_date` (176-178, 282-284). -/
def subYears (md : Mode) (day v : Int) : Res Int := do
  let ymd := ofOrd day
  let ny ← ckI32 md (ymd.y - v)
  clampDate ny ymd.m ymd.d

/-- The `M` branch of `sub_period` / `sub_period_date` (194-198, 295-299). -/
def subMonths (md : Mode) (day v : Int) : Res Int := do
  let ymd := ofOrd day
  let d0 ← ckI32 md ((ymd.m : Int) - 1 - v)
  let s ← ckI32 md (d0 + 120000000)
  let nm ← monthOfI32 (s.tmod 12)
  let s2 ← ckI32 md (d0 + 12)
  let ny ← ckI32 md (ymd.y - 1 + s2.tdiv 12)
  clampDate ny nm ymd.d

/-- Nanoseconds of the fixed units. -/
def unitNs : PerUnit → Int
  | .W => 7 * dayNs
  | .D => dayNs
  | .h => 3600 * 1000000000
  | .min => 60 * 1000000000
  | .sec => 1000000000
  | _ => 0

/-- One iteration of the loop of `add_period` (string_arithmetic.rs 103-150). `orig` is the argument `datetime`,
whose time of day and offset the year and month branches restore. The value is parsed as `i64` and cast to `i32` in the
year and month branches. `Duration::weeks` and the like panic when the number of seconds does not fit `i64`; the
resulting date is then out of range and the model panics for that reason. -/
def addStep (md : Mode) (orig cur : DT) (t : Nat × PerUnit) : Res DT :=
  if t.1 ≥ 2 ^ 63 then .error .unwrapNone
  else match t.2 with
    | .Y => do
      let day ← addYears md cur.day (wrapI32 t.1)
      .ok { day := day, tod := orig.tod, off := orig.off }
    | .M => do
      let day ← addMonths md cur.day (wrapI32 t.1)
      .ok { day := day, tod := orig.tod, off := orig.off }
    | u => cur.addNs (t.1 * unitNs u)

def addLoop (md : Mode) (orig : DT) : DT → List (Nat × PerUnit) → Res DT
  | cur, [] => .ok cur
  | cur, t :: ts => do
    let c ← addStep md orig cur t
    addLoop md orig c ts

/-- `add_period` (string_arithmetic.rs 93-152). -/
def addPeriod (md : Mode) (d : DT) (s : List Char) : Res DT :=
  match scan true [] s with
  | [] => .error .assertion
  | ts => addLoop md d d ts

/-- One iteration of the loop of `sub_period` (string_arithmetic.rs 172-220). -/
def subStep (md : Mode) (orig cur : DT) (t : Nat × PerUnit) : Res DT :=
  if t.1 ≥ 2 ^ 63 then .error .unwrapNone
  else match t.2 with
    | .Y => do
      let day ← subYears md cur.day (wrapI32 t.1)
      .ok { day := day, tod := orig.tod, off := orig.off }
    | .M => do
      let day ← subMonths md cur.day (wrapI32 t.1)
      .ok { day := day, tod := orig.tod, off := orig.off }
    | u => cur.addNs (-(t.1 * unitNs u))

def subLoop (md : Mode) (orig : DT) : DT → List (Nat × PerUnit) → Res DT
  | cur, [] => .ok cur
  | cur, t :: ts => do
    let c ← subStep md orig cur t
    subLoop md orig c ts

/-- `sub_period` (string_arithmetic.rs 166-222). -/
def subPeriod (md : Mode) (d : DT) (s : List Char) : Res DT :=
  match scan true [] s with
  | [] => .error .assertion
  | ts => subLoop md d d ts

/-- One iteration of `add_period_date` (string_arithmetic.rs 231-267): the value is parsed as `i32`. -/
def addStepDate (md : Mode) (cur : Int) (t : Nat × PerUnit) : Res Int :=
  if t.1 ≥ 2 ^ 31 then .error .unwrapNone
  else match t.2 with
    | .Y => addYears md cur t.1
    | .M => addMonths md cur t.1
    | .W => addDays cur (7 * t.1)
    | .D => addDays cur t.1
    | _ => .error .assertion

def addLoopDate (md : Mode) : Int → List (Nat × PerUnit) → Res Int
  | cur, [] => .ok cur
  | cur, t :: ts => do
    let c ← addStepDate md cur t
    addLoopDate md c ts

/-- `add_period_date` (string_arithmetic.rs 225-269). -/
def addPeriodDate (md : Mode) (day : Int) (s : List Char) : Res Int :=
  match scan false [] s with
  | [] => .error .assertion
  | ts => addLoopDate md day ts

/-- One iteration of `sub_period_date` (string_arithmetic.rs 278-314). -/
def subStepDate (md : Mode) (cur : Int) (t : Nat × PerUnit) : Res Int :=
  if t.1 ≥ 2 ^ 31 then .error .unwrapNone
  else match t.2 with
    | .Y => subYears md cur t.1
    | .M => subMonths md cur t.1
    | .W => addDays cur (-(7 * t.1))
    | .D => addDays cur (-t.1)
    | _ => .error .assertion

def subLoopDate (md : Mode) : Int → List (Nat × PerUnit) → Res Int
  | cur, [] => .ok cur
  | cur, t :: ts => do
    let c ← subStepDate md cur t
    subLoopDate md c ts

/-- `sub_period_date` (string_arithmetic.rs 272-316). -/
def subPeriodDate (md : Mode) (day : Int) (s : List Char) : Res Int :=
  match scan false [] s with
  | [] => .error .assertion
  | ts => subLoopDate md day ts

end Verif.QL

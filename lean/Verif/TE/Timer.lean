import Verif.Basic
/-!
# Model of `trading-engine/src/utils/timer.rs` 57-168

The reading of the clocks (lines 6-55) is modelled in `Verif/TE/Stamp`.
-/
set_option autoImplicit false
namespace Verif.TE.Timer
open Verif

/-- `is_leap_year` (timer.rs 142-144); years are positive here, so Rust's `%` is `Nat` remainder. -/
def isLeap (year : Nat) : Bool := (year % 4 == 0 && year % 100 != 0) || year % 400 == 0

/-- `days_in_month` (timer.rs 146-168). -/
def daysInMonth (year month : Nat) : Nat :=
  match month with
  | 1 => 31
  | 2 => if isLeap year then 29 else 28
  | 3 => 31 | 4 => 30 | 5 => 31 | 6 => 30 | 7 => 31 | 8 => 31 | 9 => 30 | 10 => 31 | 11 => 30 | 12 => 31
  | _ => 0

/-- `days_in_year` (timer.rs 120). -/
def daysInYear (year : Nat) : Nat := if isLeap year then 366 else 365

/-- The year loop (timer.rs 119-126): the remaining days and the year. `days : u32`; the year stays below
11 800 000, so its `i32` addition cannot overflow. -/
def yearLoop (days year : Nat) : Nat × Nat :=
  if h : days < daysInYear year then (days, year)
  else yearLoop (days - daysInYear year) (year + 1)
termination_by days
decreasing_by
  have : 365 ≤ daysInYear year := by unfold daysInYear; split <;> omega
  omega

/-- The month loop (timer.rs 130-137). A month of length zero leaves `days` unchanged for ever (until the month
counter overflows). -/
def monthLoop (year days month : Nat) : Res (Nat × Nat) :=
  if days = 0 then .ok (days, month)
  else if days < daysInMonth year month then .ok (days, month)
  else if h0 : daysInMonth year month = 0 then .error .diverges
  else monthLoop year (days - daysInMonth year month) (month + 1)
termination_by days
decreasing_by omega

/-- `days_to_date` (timer.rs 115-140): year, month, day. -/
def daysToDate (days : Nat) : Res (Nat × Nat × Nat) := do
  let (days, year) := yearLoop days 1970
  let (days, month) ← monthLoop year days 1
  .ok (year, month, days + 1)

/-- `time_components_from_unix_nano` (timer.rs 57-69): hours, minutes, seconds, milliseconds. The casts to `u8`
and `u16` are written out. -/
def timeComponents (nano : Nat) : Nat × Nat × Nat × Nat :=
  let total := nano / 1000000000
  let nanos := nano % 1000000000
  let sod := total % 86400
  (sod / 3600 % 2 ^ 8, sod % 3600 / 60 % 2 ^ 8, sod % 60 % 2 ^ 8, nanos / 1000000 % 2 ^ 16)

/-- `i32` addition. -/
def addI32 (m : Mode) (a b : Int) : Res Int :=
  if -2 ^ 31 ≤ a + b ∧ a + b < 2 ^ 31 then .ok (a + b)
  else match m with
    | .checked => .error .overflow
    | .wrapping => .ok ((a + b + 2 ^ 31) % 2 ^ 32 - 2 ^ 31)

/-- `x as i32` for a `u64`. -/
def asI32 (x : Nat) : Int := ((x : Int) + 2 ^ 31) % 2 ^ 32 - 2 ^ 31

/-- `x as u32` for an `i32`. -/
def asU32 (x : Int) : Nat := (x % 2 ^ 32).toNat

/-- The numbers printed by `convert_unix_nano_to_date_and_time`. -/
structure Stamp where
  year : Nat
  month : Nat
  day : Nat
  hours : Int
  minutes : Nat
  seconds : Nat
  millis : Nat
  micros : Nat
  nanos : Nat
  deriving DecidableEq, Repr

/-- The adjustment for the offset (timer.rs 99-105): hours and days. -/
def adjustOffset (m : Mode) (hours days : Int) : Res (Int × Int) :=
  if hours ≥ 24 then do
    let h ← addI32 m hours (-24)
    let d ← addI32 m days 1
    .ok (h, d)
  else if hours < 0 then do
    let h ← addI32 m hours 24
    let d ← addI32 m days (-1)
    .ok (h, d)
  else .ok (hours, days)

/-- The fields of `convert_unix_nano_to_date_and_time` (timer.rs 71-107), before formatting. -/
def stampOf (m : Mode) (nano : Nat) (offset : Int) : Res Stamp := do
  let days := nano / 86400000000000
  let rem := nano % 86400000000000
  let hours := rem / 3600000000000
  let rem := rem % 3600000000000
  let minutes := rem / 60000000000
  let rem := rem % 60000000000
  let seconds := rem / 1000000000
  let rem := rem % 1000000000
  let millis := rem / 1000000
  let rem := rem % 1000000
  let micros := rem / 1000
  let nanos := rem % 1000
  let th ← addI32 m (asI32 hours) offset
  let (h, d) ← adjustOffset m th (asI32 days)
  let (y, mo, dd) ← daysToDate (asU32 d)
  .ok ⟨y, mo, dd, h, minutes, seconds, millis, micros, nanos⟩

/-- The decimal digits of a number, without leading zeros (nothing for zero). -/
def digits (n : Nat) : List Char := if n = 0 then [] else digits (n / 10) ++ [Char.ofNat (48 + n % 10)]
termination_by n
decreasing_by omega

/-- `{:0w}` of a natural number (`1 ≤ w`): decimal digits, padded with zeros to at least `w` characters. -/
def pad : Nat → Nat → List Char
  | 0, n => digits n
  | w + 1, n => pad w (n / 10) ++ [Char.ofNat (48 + n % 10)]

/-- `{:0w}` of an `i32`: a minus sign counts towards the width. -/
def padInt (w : Nat) (n : Int) : List Char :=
  if 0 ≤ n then pad w n.toNat else '-' :: pad (w - 1) (-n).toNat

/-- The two strings (timer.rs 109-112). -/
def render (s : Stamp) : List Char × List Char :=
  (pad 4 s.year ++ pad 2 s.month ++ pad 2 s.day,
   padInt 2 s.hours ++ ':' :: pad 2 s.minutes ++ ':' :: pad 2 s.seconds ++ '.' :: pad 3 s.millis
     ++ ':' :: pad 3 s.micros ++ ':' :: pad 3 s.nanos)

/-- `convert_unix_nano_to_date_and_time` (timer.rs 71-113). -/
def convert (m : Mode) (nano : Nat) (offset : Int) : Res (List Char × List Char) := do
  let s ← stampOf m nano offset
  .ok (render s)

end Verif.TE.Timer

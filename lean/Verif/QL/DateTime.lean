import Verif.Basic
import Verif.Civil
/-!
# Dates and date-times of the `time` crate, as used by `quantlib`

`time::Date` is modelled by the day number of the proleptic Gregorian calendar (`Verif.Civil`, day 1 is 0001-01-01),
`time::OffsetDateTime` by the *local* day number, the local time of day in nanoseconds and the UTC offset in seconds.
The crate (version 0.3 without the feature `large-dates`, quantlib/Cargo.toml 13) supports the years -9999..9999;
leaving that range panics. The crate itself is not part of the repository: this file is its specification.
-/
set_option autoImplicit false
namespace Verif.QL
open Verif Verif.Civil

/-- Nanoseconds in a day. -/
def dayNs : Int := 86400 * 1000000000

/-- First and last supported day, -9999-01-01 and 9999-12-31. -/
def minDay : Int := (Ymd.mk (-9999) 1 1).ord
def maxDay : Int := (Ymd.mk 9999 12 31).ord

/-- `OffsetDateTime`. -/
structure DT where
  day : Int
  tod : Nat
  off : Int
  deriving DecidableEq, Repr

/-- A value the type can hold. -/
def DT.Valid (d : DT) : Prop := minDay ≤ d.day ∧ d.day ≤ maxDay ∧ (d.tod : Int) < dayNs

instance (d : DT) : Decidable d.Valid := by unfold DT.Valid; infer_instance

/-- Local nanoseconds since the (fictitious) day 0. -/
def DT.localNs (d : DT) : Int := d.day * dayNs + d.tod

/-- UTC nanoseconds: comparison and difference of two date-times are by this. -/
def DT.instant (d : DT) : Int := d.localNs - d.off * 1000000000

def DT.ymd (d : DT) : Ymd := ofOrd d.day

/-- 0 = Monday … 6 = Sunday (0001-01-01 was a Monday). -/
def weekday (day : Int) : Int := (day - 1) % 7

/-- `Date::from_calendar_date(..).unwrap()`. -/
def fromCalendarDate (y : Int) (m d : Nat) : Res Int :=
  if -9999 ≤ y ∧ y ≤ 9999 ∧ 1 ≤ m ∧ m ≤ 12 ∧ 1 ≤ d ∧ d ≤ dim y m then .ok (Ymd.mk y m d).ord else .error .unwrapNone

/-- A day number of the supported range, or the panic "resulting value is out of range". -/
def checkDay (day : Int) : Res Int := if minDay ≤ day ∧ day ≤ maxDay then .ok day else .error .overflow

/-- `date + Duration::days(n)`. -/
def addDays (day n : Int) : Res Int := checkDay (day + n)

/-- `datetime + Duration` for a duration of `ns` nanoseconds (positive or negative). -/
def DT.addNs (d : DT) (ns : Int) : Res DT := do
  let day ← checkDay ((d.localNs + ns) / dayNs)
  .ok { day := day, tod := ((d.localNs + ns) % dayNs).toNat, off := d.off }

/-! `i32` arithmetic -/

def I32 : Int := 2147483648

/-- Wrap to 32 bits: `as i32`. -/
def wrapI32 (a : Int) : Int := (a + I32) % (2 * I32) - I32

/-- A result of an `i32` operation. -/
def ckI32 (m : Mode) (a : Int) : Res Int :=
  if -I32 ≤ a ∧ a < I32 then .ok a
  else match m with
    | .checked => .error .overflow
    | .wrapping => .ok (wrapI32 a)

theorem ckI32_ok {m : Mode} {a : Int} (h1 : -I32 ≤ a) (h2 : a < I32) : ckI32 m a = .ok a := by
  unfold ckI32; rw [if_pos ⟨h1, h2⟩]

theorem minDay_eq : minDay = -3652424 := by decide
theorem maxDay_eq : maxDay = 3652059 := by decide

/-- The day range is exactly the year range. -/
theorem day_range (x : Ymd) (h : x.Valid) : (minDay ≤ x.ord ∧ x.ord ≤ maxDay) ↔ (-9999 ≤ x.y ∧ x.y ≤ 9999) := by
  have hmin : (Ymd.mk (-9999) 1 1).Valid := by decide
  have hmax : (Ymd.mk 9999 12 31).Valid := by decide
  have h1 := ord_lt_iff x _ h hmin
  have h2 := ord_lt_iff _ x hmax h
  have b := dim_le x.y x.m
  obtain ⟨v1, v2, v3, v4⟩ := h
  unfold Ymd.lt at h1 h2
  simp only at h1 h2
  constructor
  · rintro ⟨ha, hb⟩
    have n1 : ¬ x.ord < minDay := by omega
    have n2 : ¬ maxDay < x.ord := by omega
    unfold minDay at n1
    unfold maxDay at n2
    rw [h1] at n1
    rw [h2] at n2
    omega
  · rintro ⟨ha, hb⟩
    have n1 : ¬ x.ord < minDay := by unfold minDay; rw [h1]; omega
    have n2 : ¬ maxDay < x.ord := by unfold maxDay; rw [h2]; omega
    omega

end Verif.QL

import Verif.TE.Timer
import Verif.Civil
import Verif.TE.NumericLemmas
import Verif.Props.Parsing
import Mathlib.Tactic.Ring
/-!
# C33: civil dates from nanosecond stamps
-/
set_option autoImplicit false
namespace Verif.Props
open Verif Verif.TE.Timer Verif.Civil
open Verif.TE.Num (bind_of_ok)

theorem isLeap_eq (y : Nat) : isLeap y = leap y := by
  unfold isLeap leap
  have h : ∀ k : Nat, ((y : Int) % (k : Int) == 0) = (y % k == 0) := by
    intro k
    rw [Bool.eq_iff_iff]
    simp only [beq_iff_eq]
    omega
  have h4 := h 4
  have h100 := h 100
  have h400 := h 400
  simp only [Nat.cast_ofNat] at h4 h100 h400
  rw [h4, h400, bne, bne, h100]

theorem daysInMonth_eq (y m : Nat) : daysInMonth y m = dim y m := by
  unfold daysInMonth dim; rw [isLeap_eq]; rfl

theorem yearLoop_spec (days year : Nat) :
    ∃ k, (yearLoop days year).2 = year + k ∧ (yearLoop days year).1 < yearLen ((year + k : Nat) : Int) ∧
      dby year + days = dby ((year + k : Nat) : Int) + (yearLoop days year).1 := by
  induction days, year using yearLoop.induct with
  | case1 days year h =>
    refine ⟨0, ?_, ?_, ?_⟩ <;> rw [yearLoop] <;> rw [dif_pos h]
    · rfl
    · unfold daysInYear at h; rw [isLeap_eq] at h; exact h
    · simp
  | case2 days year h ih =>
    obtain ⟨k, h1, h2, h3⟩ := ih
    refine ⟨k + 1, ?_, ?_, ?_⟩ <;> rw [yearLoop] <;> rw [dif_neg h]
    · rw [h1]; omega
    · rw [show year + (k + 1) = year + 1 + k by omega]; exact h2
    · rw [show year + (k + 1) = year + 1 + k by omega]
      have e : dby ((year + 1 : Nat) : Int) = dby year + daysInYear year := by
        rw [Nat.cast_add, Nat.cast_one, dby_succ]; unfold daysInYear; rw [isLeap_eq]; rfl
      rw [e] at h3
      omega

theorem monthLoop_spec (year days month : Nat) (h1 : 1 ≤ month) (h12 : month ≤ 12)
    (hd : dbm year month + days < yearLen year) :
    ∃ d' m', monthLoop year days month = .ok (d', m') ∧ 1 ≤ m' ∧ m' ≤ 12 ∧ d' < dim year m' ∧
      dbm year month + days = dbm year m' + d' := by
  induction days, month using monthLoop.induct year with
  | case1 month =>
    refine ⟨0, month, by rw [monthLoop]; rfl, h1, h12, ?_, rfl⟩
    have := dim_pos year month h1 h12
    omega
  | case2 days month h0 h =>
    refine ⟨days, month, by rw [monthLoop, if_neg h0, if_pos h], h1, h12, ?_, rfl⟩
    rw [← daysInMonth_eq]; exact h
  | case3 days month h0 h hz =>
    have := dim_pos year month h1 h12
    rw [← daysInMonth_eq] at this
    omega
  | case4 days month h0 h hz ih =>
    have hs := dbm_succ year month h1
    rw [daysInMonth_eq] at h ih
    have hlt : month < 12 := by
      rcases Nat.lt_or_ge month 12 with h' | h'
      · exact h'
      · have e : month = 12 := by omega
        subst e
        have := dbm_12 year
        have : dim (year : Int) 12 = 31 := rfl
        omega
    obtain ⟨d', m', g1, g2, g3, g4, g5⟩ := ih (by omega) (by omega) (by omega)
    refine ⟨d', m', ?_, g2, g3, g4, by omega⟩
    rw [monthLoop, if_neg h0, daysInMonth_eq, if_neg h, dif_neg (by rw [← daysInMonth_eq]; exact hz)]
    exact g1

/-- C33 (dates). For every number of days, `days_to_date` terminates with the date whose number is that many
days after 1970-01-01. -/
theorem C33_days_to_date (days : Nat) :
    ∃ y m d : Nat, daysToDate days = .ok (y, m, d) ∧ (Ymd.mk y m d).Valid ∧
      (Ymd.mk y m d).ord = (Ymd.mk 1970 1 1).ord + days := by
  obtain ⟨k, h1, h2, h3⟩ := yearLoop_spec days 1970
  generalize hyl : yearLoop days 1970 = r at h1 h2 h3
  obtain ⟨rd, ry⟩ := r
  simp only at h1 h2 h3
  subst h1
  obtain ⟨d', m', g1, g2, g3, g4, g5⟩ := monthLoop_spec (1970 + k) rd 1 (by omega) (by omega) (by
    have : dbm ((1970 + k : Nat) : Int) 1 = 0 := rfl
    omega)
  refine ⟨1970 + k, m', d' + 1, ?_, ⟨g2, g3, by simp, by simp only; omega⟩, ?_⟩
  · unfold daysToDate
    rw [hyl]
    exact bind_of_ok g1 rfl
  · have e1 : dbm ((1970 + k : Nat) : Int) 1 = 0 := rfl
    have e2 : dbm (1970 : Int) 1 = 0 := rfl
    simp only [Ymd.ord, e2]
    have e3 : ((1970 : Nat) : Int) = 1970 := rfl
    rw [e3] at h3
    omega

/-- The result of `days_to_date` as a calendar date. -/
def DateOf (days : Nat) (x : Ymd) : Prop :=
  ∃ y m d : Nat, daysToDate days = .ok (y, m, d) ∧ x = ⟨y, m, d⟩

/-- C33 (calendar). Day 0 is 1970-01-01, and consecutive days are consecutive dates of the Gregorian calendar. -/
theorem C33_consecutive :
    DateOf 0 ⟨1970, 1, 1⟩ ∧
    ∀ n x, DateOf n x → x.Valid ∧ DateOf (n + 1) x.next := by
  refine ⟨⟨1970, 1, 1, by decide +kernel, rfl⟩, ?_⟩
  rintro n x ⟨y, m, d, h, rfl⟩
  obtain ⟨y1, m1, d1, h1, v1, o1⟩ := C33_days_to_date n
  rw [h] at h1
  simp only [Except.ok.injEq, Prod.mk.injEq] at h1
  obtain ⟨rfl, rfl, rfl⟩ := h1
  refine ⟨v1, ?_⟩
  obtain ⟨y2, m2, d2, h2, v2, o2⟩ := C33_days_to_date (n + 1)
  refine ⟨y2, m2, d2, h2, ?_⟩
  apply ord_inj _ _ (next_valid _ v1) v2
  rw [ord_next _ v1, o1, o2]
  push_cast
  ring

/-- C33 (time of day). `time_components_from_unix_nano` are the hours, minutes, seconds and milliseconds of the
UTC day. -/
theorem C33_components (nano : Nat) :
    ∃ h mi s ms, timeComponents nano = (h, mi, s, ms) ∧ h < 24 ∧ mi < 60 ∧ s < 60 ∧ ms < 1000 ∧
      ∃ days rest, rest < 1000000 ∧
        nano = (((days * 24 + h) * 60 + mi) * 60 + s) * 1000000000 + ms * 1000000 + rest := by
  refine ⟨_, _, _, _, rfl, ?_, ?_, ?_, ?_, nano / 86400000000000, nano % 1000000, ?_, ?_⟩ <;> omega

theorem addI32_ok {m : Mode} {a b : Int} (h : -2 ^ 31 ≤ a + b ∧ a + b < 2 ^ 31) : addI32 m a b = .ok (a + b) := by
  unfold addI32; rw [if_pos h]

theorem asI32_small (x : Nat) (h : x < 2 ^ 31) : asI32 x = x := by
  unfold asI32; omega

/-- Specification: the fields of the local stamp `t` (nanoseconds since 1970-01-01 local time). -/
def IsLocal (t : Nat) (s : Stamp) : Prop :=
  (Ymd.mk s.year s.month s.day).Valid ∧ 0 ≤ s.hours ∧ s.hours < 24 ∧ s.minutes < 60 ∧ s.seconds < 60 ∧
  s.millis < 1000 ∧ s.micros < 1000 ∧ s.nanos < 1000 ∧
  (t : Int) = (((((Ymd.mk s.year s.month s.day).ord - epoch) * 24 + s.hours) * 60 + s.minutes) * 60 + s.seconds)
      * 1000000000 + s.millis * 1000000 + s.micros * 1000 + s.nanos

/-- A local stamp determines the printed fields. -/
theorem local_unique (t : Nat) (a b : Stamp) (ha : IsLocal t a) (hb : IsLocal t b) : a = b := by
  obtain ⟨a1, a2, a3, a4, a5, a6, a7, a8, a9⟩ := ha
  obtain ⟨b1, b2, b3, b4, b5, b6, b7, b8, b9⟩ := hb
  generalize hoa : (Ymd.mk a.year a.month a.day).ord = oa at *
  generalize hob : (Ymd.mk b.year b.month b.day).ord = ob at *
  have e0 : a.hours = b.hours := by omega
  have e1 : a.minutes = b.minutes := by omega
  have e2 : a.seconds = b.seconds := by omega
  have e3 : a.millis = b.millis := by omega
  have e4 : a.micros = b.micros := by omega
  have e5 : a.nanos = b.nanos := by omega
  have e6 : oa = ob := by omega
  have := ord_inj _ _ a1 b1 (by rw [hoa, hob, e6])
  simp only [Ymd.mk.injEq] at this
  obtain ⟨g1, g2, g3⟩ := this
  cases a; cases b
  simp only at *
  simp only [Stamp.mk.injEq]
  omega

theorem adjustOffset_ok (m : Mode) (th d : Int) (h1 : -24 ≤ th) (h2 : th < 48) (hd : 0 ≤ d) (hd2 : d < 1000000) :
    ∃ h' d', adjustOffset m th d = .ok (h', d') ∧ 0 ≤ h' ∧ h' < 24 ∧ d' * 24 + h' = d * 24 + th ∧
      -1 ≤ d' ∧ d' ≤ 1000000 := by
  unfold adjustOffset
  split
  · refine ⟨th - 24, d + 1, ?_, by omega, by omega, by omega, by omega, by omega⟩
    exact bind_of_ok (a := th - 24) (addI32_ok (by omega)) (bind_of_ok (addI32_ok (by omega)) rfl)
  · split
    · refine ⟨th + 24, d - 1, ?_, by omega, by omega, by omega, by omega, by omega⟩
      exact bind_of_ok (addI32_ok (by omega)) (bind_of_ok (a := d - 1) (addI32_ok (by omega)) rfl)
    · exact ⟨th, d, rfl, by omega, by omega, by omega, by omega, by omega⟩

/-- C33. For every stamp and every whole-hour offset of at most a day whose local time is not before 1970, the
printed fields are the Gregorian date and the time of day of the local stamp, in both build modes. -/
theorem C33_convert (m : Mode) (nano : Nat) (offset : Int) (hn : nano < U64) (h1 : -24 ≤ offset) (h2 : offset ≤ 24)
    (hloc : 0 ≤ (nano : Int) + offset * 3600000000000) :
    ∃ s t, stampOf m nano offset = .ok s ∧ (t : Nat) = (nano : Int) + offset * 3600000000000 ∧ IsLocal t s := by
  have hU : U64 = 18446744073709551616 := by unfold U64; norm_num
  rw [hU] at hn
  have hh : nano % 86400000000000 / 3600000000000 < 24 := by omega
  have hdd : nano / 86400000000000 < 1000000 := by omega
  have hth : addI32 m (asI32 (nano % 86400000000000 / 3600000000000)) offset
      = .ok ((nano % 86400000000000 / 3600000000000 : Nat) + offset) := by
    rw [asI32_small _ (by omega)]
    exact addI32_ok (by omega)
  obtain ⟨h', d', ha, g1, g2, g3, g4, g5⟩ := adjustOffset_ok m
    ((nano % 86400000000000 / 3600000000000 : Nat) + offset) (nano / 86400000000000 : Nat)
    (by omega) (by omega) (by omega) (by omega)
  have hd' : 0 ≤ d' := by omega
  have hasu : (asU32 d' : Int) = d' := by unfold asU32; omega
  obtain ⟨y, mo, dd, hyd, hv, ho⟩ := C33_days_to_date (asU32 d')
  rw [hasu] at ho
  refine ⟨⟨y, mo, dd, h', nano % 86400000000000 % 3600000000000 / 60000000000,
    nano % 86400000000000 % 3600000000000 % 60000000000 / 1000000000,
    nano % 86400000000000 % 3600000000000 % 60000000000 % 1000000000 / 1000000,
    nano % 86400000000000 % 3600000000000 % 60000000000 % 1000000000 % 1000000 / 1000,
    nano % 86400000000000 % 3600000000000 % 60000000000 % 1000000000 % 1000000 % 1000⟩,
    ((nano : Int) + offset * 3600000000000).toNat, ?_, by omega, ?_⟩
  · unfold stampOf
    refine bind_of_ok hth ?_
    have hdi : asI32 (nano / 86400000000000) = ((nano / 86400000000000 : Nat) : Int) := asI32_small _ (by omega)
    rw [hdi]
    refine bind_of_ok ha ?_
    exact bind_of_ok hyd rfl
  · refine ⟨hv, g1, g2, ?_, ?_, ?_, ?_, ?_, ?_⟩
    · simp only; omega
    · simp only; omega
    · simp only; omega
    · simp only; omega
    · simp only; omega
    · simp only [ho, epoch_ord]
      omega

/-- Concrete case: 2023-12-28 16:30:20.300111 UTC printed with offset 9 is 2023-12-29 01:30:20.300:111:000. -/
example : stampOf .checked 1703781020300111000 9 = .ok ⟨2023, 12, 29, 1, 30, 20, 300, 111, 0⟩ := by
  obtain ⟨s, t, h, ht, hl⟩ := C33_convert .checked 1703781020300111000 9 (by unfold U64; norm_num) (by norm_num)
    (by norm_num) (by norm_num)
  rw [h]
  refine congrArg Except.ok (local_unique t _ _ hl ?_)
  have : t = 1703813420300111000 := by omega
  subst this
  refine ⟨by decide, ?_⟩
  have e : (Ymd.mk ((2023 : Nat) : Int) 12 29).ord = 738883 := by decide
  simp only [e, epoch]
  norm_num

/-- What happens before 1970: a local time on the last day of 1969 is printed with a year in the eleventh
million (the day number -1 is cast to `u32`). -/
theorem fault_before_1970 (m : Mode) (nano : Nat) (offset : Int) (h1 : -24 ≤ offset)
    (hn : nano < 86400000000000) (hloc : (nano : Int) + offset * 3600000000000 < 0) :
    ∃ s, stampOf m nano offset = .ok s ∧
      (Ymd.mk s.year s.month s.day).ord = (Ymd.mk 1970 1 1).ord + 4294967295 ∧ s.year = 11761191 := by
  have hh : nano % 86400000000000 / 3600000000000 < 24 := by omega
  have hth : addI32 m (asI32 (nano % 86400000000000 / 3600000000000)) offset
      = .ok ((nano % 86400000000000 / 3600000000000 : Nat) + offset) := by
    rw [asI32_small _ (by omega)]
    exact addI32_ok (by omega)
  obtain ⟨h', d', ha, g1, g2, g3, g4, g5⟩ := adjustOffset_ok m
    ((nano % 86400000000000 / 3600000000000 : Nat) + offset) (nano / 86400000000000 : Nat)
    (by omega) (by omega) (by omega) (by omega)
  have hd' : d' = -1 := by omega
  obtain ⟨y, mo, dd, hyd, hv, ho⟩ := C33_days_to_date (asU32 d')
  have e : asU32 d' = 4294967295 := by rw [hd']; decide
  refine ⟨⟨y, mo, dd, h', nano % 86400000000000 % 3600000000000 / 60000000000,
    nano % 86400000000000 % 3600000000000 % 60000000000 / 1000000000,
    nano % 86400000000000 % 3600000000000 % 60000000000 % 1000000000 / 1000000,
    nano % 86400000000000 % 3600000000000 % 60000000000 % 1000000000 % 1000000 / 1000,
    nano % 86400000000000 % 3600000000000 % 60000000000 % 1000000000 % 1000000 % 1000⟩, ?_, ?_, ?_⟩
  · unfold stampOf
    refine bind_of_ok hth ?_
    have hdi : asI32 (nano / 86400000000000) = ((nano / 86400000000000 : Nat) : Int) := asI32_small _ (by omega)
    rw [hdi]
    refine bind_of_ok ha ?_
    exact bind_of_ok hyd rfl
  · simp only [ho, e]; rfl
  · rw [e] at ho
    have hb := doy_bounds _ hv
    have h0 : (Ymd.mk 1970 1 1).ord = 719163 := epoch_ord
    rw [h0] at ho
    simp only [Ymd.ord] at ho hb
    have hy := yearLen y
    have hl : yearLen (y : Int) ≤ 366 := by unfold yearLen; split <;> omega
    simp only
    unfold dby at ho
    omega

/-- Offsets beyond a day are adjusted by one day only: with 49 hours, midnight is printed as hour 25. -/
theorem fault_large_offset (m : Mode) (nano : Nat) (hn : nano < U64) (h0 : nano % 86400000000000 < 3600000000000) :
    ∃ s, stampOf m nano 49 = .ok s ∧ s.hours = 25 := by
  have hU : U64 = 18446744073709551616 := by unfold U64; norm_num
  rw [hU] at hn
  have hh : nano % 86400000000000 / 3600000000000 = 0 := by omega
  have hdi : asI32 (nano / 86400000000000) = ((nano / 86400000000000 : Nat) : Int) := asI32_small _ (by omega)
  obtain ⟨y, mo, dd, hyd, hv, ho⟩ := C33_days_to_date (asU32 ((nano / 86400000000000 : Nat) + 1))
  refine ⟨⟨y, mo, dd, 25, nano % 86400000000000 % 3600000000000 / 60000000000,
    nano % 86400000000000 % 3600000000000 % 60000000000 / 1000000000,
    nano % 86400000000000 % 3600000000000 % 60000000000 % 1000000000 / 1000000,
    nano % 86400000000000 % 3600000000000 % 60000000000 % 1000000000 % 1000000 / 1000,
    nano % 86400000000000 % 3600000000000 % 60000000000 % 1000000000 % 1000000 % 1000⟩, ?_, rfl⟩
  unfold stampOf
  refine bind_of_ok (a := 49) (by rw [hh, asI32_small _ (by omega)]; exact addI32_ok (by omega)) ?_
  refine bind_of_ok (a := (25, ((nano / 86400000000000 : Nat) : Int) + 1)) ?_ (bind_of_ok hyd rfl)
  rw [hdi]
  unfold adjustOffset
  rw [if_pos (by norm_num)]
  exact bind_of_ok (a := 25) (addI32_ok (by norm_num)) (bind_of_ok (addI32_ok (by omega)) rfl)

/-! ### The printed strings -/

theorem pad_length (w n : Nat) (h : n < 10 ^ w) : (pad w n).length = w := by
  induction w generalizing n with
  | zero =>
    have : n = 0 := by simpa using h
    subst this
    rw [pad, digits]; rfl
  | succ w ih =>
    rw [pad, List.length_append, ih (n / 10) (by rw [pow_succ] at h; omega)]; rfl

theorem digitChar_inj (a b : Nat) (ha : a < 10) (hb : b < 10) (h : Char.ofNat (48 + a) = Char.ofNat (48 + b)) :
    a = b := by
  interval_cases a <;> interval_cases b <;> first | rfl | (exact absurd h (by decide))

theorem pad_inj (w a b : Nat) (ha : a < 10 ^ w) (hb : b < 10 ^ w) (h : pad w a = pad w b) : a = b := by
  induction w generalizing a b with
  | zero => simp only [pow_zero] at ha hb; omega
  | succ w ih =>
    rw [pow_succ] at ha hb
    rw [pad, pad] at h
    have hl : (pad w (a / 10)).length = (pad w (b / 10)).length := by
      rw [pad_length _ _ (by omega), pad_length _ _ (by omega)]
    obtain ⟨h1, h2⟩ := List.append_inj h hl
    have e1 := ih (a / 10) (b / 10) (by omega) (by omega) h1
    have e2 := digitChar_inj (a % 10) (b % 10) (by omega) (by omega) (by simpa using h2)
    omega

theorem pad_append_inj (w a b : Nat) (X Y : List Char) (ha : a < 10 ^ w) (hb : b < 10 ^ w)
    (h : pad w a ++ X = pad w b ++ Y) : a = b ∧ X = Y := by
  obtain ⟨h1, h2⟩ := List.append_inj h (by rw [pad_length _ _ ha, pad_length _ _ hb])
  exact ⟨pad_inj w a b ha hb h1, h2⟩

theorem month_lt {y : Int} {m d : Nat} (h : (Ymd.mk y m d).Valid) : m < 10 ^ 2 ∧ d < 10 ^ 2 := by
  obtain ⟨h1, h2, h3, h4⟩ := h
  have := dim_le y m
  simp only at *
  omega

/-- C33 (printing). The printed date and time are lossless: two local stamps before the year 10000 with the same
two strings are the same stamp; the date has 8 and the time 20 characters. -/
theorem C33_render (t₁ t₂ : Nat) (a b : Stamp) (ha : IsLocal t₁ a) (hb : IsLocal t₂ b)
    (ya : a.year < 10000) (yb : b.year < 10000) :
    ((render a).1.length = 8 ∧ (render a).2.length = 20) ∧ (render a = render b → t₁ = t₂ ∧ a = b) := by
  have key : render a = render b → a = b := by
    intro h
    obtain ⟨a1, a2, a3, a4, a5, a6, a7, a8, a9⟩ := ha
    obtain ⟨b1, b2, b3, b4, b5, b6, b7, b8, b9⟩ := hb
    simp only [render, Prod.mk.injEq, padInt, a2, b2, if_true, List.append_assoc, List.cons_append] at h
    obtain ⟨hd, ht⟩ := h
    obtain ⟨e1, hd⟩ := pad_append_inj 4 _ _ _ _ (by omega) (by omega) hd
    obtain ⟨e2, hd⟩ := pad_append_inj 2 _ _ _ _ (month_lt a1).1 (month_lt b1).1 hd
    have e3 := pad_inj 2 _ _ (month_lt a1).2 (month_lt b1).2 hd
    obtain ⟨f1, ht⟩ := pad_append_inj 2 _ _ _ _ (by omega) (by omega) ht
    obtain ⟨f2, ht⟩ := pad_append_inj 2 _ _ _ _ (by omega) (by omega) (List.cons_inj_right _ |>.1 ht)
    obtain ⟨f3, ht⟩ := pad_append_inj 2 _ _ _ _ (by omega) (by omega) (List.cons_inj_right _ |>.1 ht)
    obtain ⟨f4, ht⟩ := pad_append_inj 3 _ _ _ _ (by omega) (by omega) (List.cons_inj_right _ |>.1 ht)
    obtain ⟨f5, ht⟩ := pad_append_inj 3 _ _ _ _ (by omega) (by omega) (List.cons_inj_right _ |>.1 ht)
    have f6 := pad_inj 3 _ _ (by omega) (by omega) (List.cons_inj_right _ |>.1 ht)
    cases a; cases b
    simp only [Stamp.mk.injEq] at *
    omega
  refine ⟨?_, fun h => ?_⟩
  · obtain ⟨a1, a2, a3, a4, a5, a6, a7, a8, a9⟩ := ha
    simp only [render, padInt, a2, if_true, List.length_append, List.length_cons]
    rw [pad_length 4 _ (by omega), pad_length 2 _ (month_lt a1).1, pad_length 2 _ (month_lt a1).2,
      pad_length 2 _ (by omega), pad_length 2 _ (by omega), pad_length 2 _ (by omega), pad_length 3 _ (by omega),
      pad_length 3 _ (by omega), pad_length 3 _ (by omega)]
    exact ⟨rfl, rfl⟩
  · have e := key h
    subst e
    refine ⟨?_, rfl⟩
    obtain ⟨_, _, _, _, _, _, _, _, a9⟩ := ha
    obtain ⟨_, _, _, _, _, _, _, _, b9⟩ := hb
    omega

end Verif.Props

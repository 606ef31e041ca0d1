import Verif.QL.DayCount
import Mathlib.Tactic
/-!
# C45, C55: day counts and the time between two date-times
-/
set_option autoImplicit false
namespace Verif.Props
open Verif Verif.Civil Verif.QL

/-! ## Lemmas -/

theorem isLeapYear_eq (y : Int) : isLeapYear y = leap y := by
  unfold isLeapYear leap
  have h : ∀ k : Int, (y.tmod k == 0) = (y % k == 0) := by
    intro k
    have : y.tmod k = 0 ↔ y % k = 0 := by
      rw [← Int.dvd_iff_tmod_eq_zero, ← Int.dvd_iff_emod_eq_zero]
    rw [Bool.eq_iff_iff]
    simpa using this
  simp only [bne, h]

theorem daysInYear_eq (y : Int) : daysInYear y = (yearLen y : Rat) := by
  unfold daysInYear yearLen
  rw [isLeapYear_eq]
  split <;> simp

theorem yearLen_cases (y : Int) : yearLen y = 365 ∨ yearLen y = 366 := by unfold yearLen; split <;> simp

theorem dec31 (y : Int) : (Ymd.mk y 12 31).ord = dby (y + 1) := by
  have := dbm_12 y
  have := dby_succ y
  unfold Ymd.ord
  simp only
  omega

theorem yearLoop_succ (sy : Int) (n : Nat) (p : Int → Rat) : yearLoop sy (sy + n) p = yearLoop sy (sy + n - 1) p + p (sy + n) := by
  unfold yearLoop
  rw [show (sy + (n : Int) + 1 - sy).toNat = n + 1 by omega, show (sy + (n : Int) - 1 + 1 - sy).toNat = n by omega,
    List.range_succ, List.foldl_append]
  rfl

theorem yearLoop_empty (sy ey : Int) (p : Int → Rat) (h : ey < sy) : yearLoop sy ey p = 0 := by
  unfold yearLoop
  rw [show (ey + 1 - sy).toNat = 0 by omega]
  rfl

theorem yearLoop_one (sy : Int) (p : Int → Rat) : yearLoop sy sy p = p sy := by
  have := yearLoop_succ sy 0 p
  simp only [Int.natCast_zero, add_zero] at this
  rw [this, yearLoop_empty _ _ _ (by omega), zero_add]

theorem yearLoop_middle (sy : Int) (n : Nat) (p : Int → Rat) (h : ∀ k, sy < k → k ≤ sy + n → p k = 1) :
    yearLoop sy (sy + n) p = p sy + n := by
  induction n with
  | zero => simpa using yearLoop_one sy p
  | succ n ih =>
    rw [yearLoop_succ, show sy + ((n + 1 : Nat) : Int) - 1 = sy + n by push_cast; ring,
      ih (fun k h1 h2 => h k h1 (by push_cast; omega)), h _ (by push_cast; omega) (le_refl _)]
    push_cast
    ring

theorem yearLoop_eq (sy ey : Int) (p : Int → Rat) (hlt : sy < ey) (h : ∀ k, sy < k → k < ey → p k = 1) :
    yearLoop sy ey p = p sy + (ey - sy - 1 : Int) + p ey := by
  obtain ⟨n, rfl⟩ : ∃ n : Nat, ey = sy + (n + 1 : Nat) := ⟨(ey - sy - 1).toNat, by push_cast; omega⟩
  rw [yearLoop_succ, show sy + ((n + 1 : Nat) : Int) - 1 = sy + n by push_cast; ring,
    yearLoop_middle sy n p (fun k h1 h2 => h k h1 (by push_cast; omega))]
  push_cast
  ring_nf

theorem day_bounds (day : Int) : dby (ofOrd day).y < day ∧ day ≤ dby (ofOrd day).y + yearLen (ofOrd day).y := by
  have e := ord_ofOrd day
  have b := doy_bounds (ofOrd day) (ofOrd_valid day)
  unfold Ymd.ord at e
  omega

theorem year_mono {a b : Int} (h : a ≤ b) : (ofOrd a).y ≤ (ofOrd b).y := by
  by_contra hlt
  have h1 := day_bounds a
  have h2 := day_bounds b
  have := dby_mono (ofOrd b).y (ofOrd a).y (by omega)
  omega

theorem dayNs_pos' : (0 : Int) < dayNs := by unfold dayNs; norm_num

/-- With the same offset the order of instants is the order of local times. -/
theorem day_le_of_instant {s e : DT} (hs : s.Valid) (he : e.Valid) (ho : s.off = e.off) (h : s.instant ≤ e.instant) :
    s.day ≤ e.day := by
  obtain ⟨_, _, h1⟩ := hs
  obtain ⟨_, _, h2⟩ := he
  unfold DT.instant DT.localNs at h
  rw [ho] at h
  have := dayNs_pos'
  by_contra hlt
  have : e.day * dayNs + dayNs ≤ s.day * dayNs := by
    have : (e.day + 1) * dayNs ≤ s.day * dayNs := Int.mul_le_mul_of_nonneg_right (by omega) (by omega)
    linarith
  omega

/-! ## C45: `year_fraction` -/

/-- C45. `year_fraction` fails iff the start is later than the end or the convention is `Dummy`. -/
theorem C45_error (s e : DT) (c : DCC) :
    (yearFraction s e c = .error .err ↔ e.instant < s.instant ∨ c = .dummy) ∧
    (¬ (e.instant < s.instant ∨ c = .dummy) → ∃ q, yearFraction s e c = .ok q) := by
  unfold yearFraction
  by_cases h : s.instant > e.instant
  · rw [if_pos h]
    exact ⟨by simp [h], fun hn => absurd (Or.inl h) hn⟩
  · rw [if_neg h]
    cases c <;> simp <;> omega

/-- The year length of the conventions that count actual days. -/
def fixedYear : DCC → Option Nat
  | .actual365Fixed => some 365
  | .actual360 => some 360
  | .actual364 => some 364
  | _ => none

/-- C45. Actual/365, /360, /364: the number of full days of 24 hours from start to end over 365, 360, 364. -/
theorem C45_actual (s e : DT) (c : DCC) (n : Nat) (hc : fixedYear c = some n) (h : s.instant ≤ e.instant) :
    yearFraction s e c = .ok (((e.instant - s.instant) / dayNs : Int) / (n : Rat)) := by
  have hw : wholeDays s e = (e.instant - s.instant) / dayNs := by
    unfold wholeDays
    exact Int.tdiv_eq_ediv_of_nonneg (by omega)
  unfold yearFraction
  rw [if_neg (by omega)]
  cases c <;> simp only [fixedYear, Option.some.injEq, reduceCtorEq] at hc <;> subst hc <;> simp only [hw] <;> norm_num

theorem ediv_split (a b d : Int) (hd : 0 < d) : a / d + b / d ≤ (a + b) / d ∧ (a + b) / d ≤ a / d + b / d + 1 := by
  have e1 := Int.emod_add_mul_ediv a d
  have e2 := Int.emod_add_mul_ediv b d
  have e3 := Int.emod_add_mul_ediv (a + b) d
  have r1 := Int.emod_nonneg a (by omega : d ≠ 0)
  have r2 := Int.emod_nonneg b (by omega : d ≠ 0)
  have r3 := Int.emod_nonneg (a + b) (by omega : d ≠ 0)
  have l1 := Int.emod_lt_of_pos a hd
  have l2 := Int.emod_lt_of_pos b hd
  have l3 := Int.emod_lt_of_pos (a + b) hd
  constructor <;> nlinarith

/-- C45. The actual-day fractions are non-negative, monotone in the end, additive over adjacent intervals when one of
them is a whole number of days, and otherwise at most one day more than the sum of the parts. -/
theorem C45_actual_additive (s m e : DT) (c : DCC) (n : Nat) (hc : fixedYear c = some n) (h1 : s.instant ≤ m.instant)
    (h2 : m.instant ≤ e.instant) :
    ∃ a b t : Rat, yearFraction s m c = .ok a ∧ yearFraction m e c = .ok b ∧ yearFraction s e c = .ok t ∧
      0 ≤ a ∧ a ≤ t ∧ a + b ≤ t ∧ t ≤ a + b + 1 / n ∧
      ((dayNs ∣ m.instant - s.instant ∨ dayNs ∣ e.instant - m.instant) → t = a + b) := by
  refine ⟨_, _, _, C45_actual s m c n hc h1, C45_actual m e c n hc h2, C45_actual s e c n hc (by omega), ?_⟩
  have hn : (0 : Rat) < n := by
    cases c <;> simp only [fixedYear, Option.some.injEq, reduceCtorEq] at hc <;> subst hc <;> norm_num
  have hs := ediv_split (m.instant - s.instant) (e.instant - m.instant) dayNs dayNs_pos'
  rw [show m.instant - s.instant + (e.instant - m.instant) = e.instant - s.instant by ring] at hs
  have p1 : 0 ≤ (m.instant - s.instant) / dayNs := Int.ediv_nonneg (by omega) (by have := dayNs_pos'; omega)
  have p2 : 0 ≤ (e.instant - m.instant) / dayNs := Int.ediv_nonneg (by omega) (by have := dayNs_pos'; omega)
  have hadd : (dayNs ∣ m.instant - s.instant ∨ dayNs ∣ e.instant - m.instant) →
      (e.instant - s.instant) / dayNs = (m.instant - s.instant) / dayNs + (e.instant - m.instant) / dayNs := by
    intro h
    rw [show e.instant - s.instant = m.instant - s.instant + (e.instant - m.instant) by ring]
    rcases h with h | h
    · exact Int.add_ediv_of_dvd_left h
    · exact Int.add_ediv_of_dvd_right h
  generalize (m.instant - s.instant) / dayNs = x at *
  generalize (e.instant - m.instant) / dayNs = y at *
  generalize (e.instant - s.instant) / dayNs = z at *
  have q1 : (0 : Rat) ≤ x := by exact_mod_cast p1
  have q2 : (0 : Rat) ≤ y := by exact_mod_cast p2
  have q3 : (x : Rat) + y ≤ z := by exact_mod_cast hs.1
  have q4 : (z : Rat) ≤ x + y + 1 := by exact_mod_cast hs.2
  refine ⟨by positivity, ?_, ?_, ?_, ?_⟩
  · exact div_le_div_of_nonneg_right (by linarith) hn.le
  · rw [← add_div]; exact div_le_div_of_nonneg_right q3 hn.le
  · rw [← add_div, ← add_div]; exact div_le_div_of_nonneg_right q4 hn.le
  · intro h
    rw [hadd h]
    push_cast
    rw [add_div]

/-- The 30/360 index of a date. -/
def index360 (x : Ymd) : Int := 360 * x.y + 30 * x.m + x.d

theorem index360_mono (a b : Int) (h : a ≤ b) : index360 (ofOrd a) ≤ index360 (ofOrd b) := by
  have va := ofOrd_valid a
  have vb := ofOrd_valid b
  have da := dim_le (ofOrd a).y (ofOrd a).m
  have db := dim_le (ofOrd b).y (ofOrd b).m
  have l := ord_lt_iff (ofOrd b) (ofOrd a) vb va
  rw [ord_ofOrd, ord_ofOrd] at l
  unfold Ymd.lt at l
  obtain ⟨a1, a2, a3, a4⟩ := va
  obtain ⟨b1, b2, b3, b4⟩ := vb
  unfold index360
  omega

/-- C45. 30/360 is the difference of the indices 360 y + 30 m + d over 360: additive; non-negative for dates at the same
offset. -/
theorem C45_thirty (s m e : DT) (h1 : s.instant ≤ m.instant) (h2 : m.instant ≤ e.instant) :
    ∃ a b t : Rat, yearFraction s m .thirty360 = .ok a ∧ yearFraction m e .thirty360 = .ok b ∧
      yearFraction s e .thirty360 = .ok t ∧ t = a + b ∧
      a = ((index360 m.ymd - index360 s.ymd : Int) : Rat) / 360 ∧
      (s.Valid → m.Valid → s.off = m.off → 0 ≤ a) := by
  have key : ∀ s e : DT, s.instant ≤ e.instant → yearFraction s e .thirty360 = .ok (((index360 e.ymd - index360 s.ymd : Int) : Rat) / 360) := by
    intro s e h
    unfold yearFraction
    rw [if_neg (by omega)]
    simp only [thirtyDays, index360]
    congr 3
    ring
  refine ⟨_, _, _, key s m h1, key m e h2, key s e (by omega), ?_, rfl, ?_⟩
  · push_cast; ring
  · intro hs hm ho
    have := index360_mono s.day m.day (day_le_of_instant hs hm ho h1)
    apply div_nonneg _ (by norm_num)
    exact_mod_cast (by unfold DT.ymd; omega : 0 ≤ index360 m.ymd - index360 s.ymd)

/-- The bond basis (30/360, U.S. street rule): day 31 of the start counts as 30, and so does day 31 of the end if the
start is then on 30. -/
def bondBasis (a b : Ymd) : Int :=
  let d1 := if a.d = 31 then 30 else a.d
  let d2 := if b.d = 31 ∧ d1 = 30 then 30 else b.d
  360 * (b.y - a.y) + 30 * ((b.m : Int) - a.m) + ((d2 : Int) - d1)

/-- C45. The street convention is the bond basis, except for periods that end on a 31st: 30 days short if they also
begin on a 31st, one day long if they begin on a 30th. -/
theorem C45_street (s e : DT) (h : s.instant ≤ e.instant) :
    yearFraction s e .streetConvention = .ok (((bondBasis s.ymd e.ymd +
      (if e.ymd.d = 31 then (if s.ymd.d = 31 then -30 else if s.ymd.d = 30 then 1 else 0) else 0) : Int) : Rat) / 360) := by
  unfold yearFraction
  rw [if_neg (by omega)]
  simp only [streetDays, thirtyDays, bondBasis]
  congr 3
  by_cases h1 : s.ymd.d = 31 <;> by_cases h2 : e.ymd.d = 31 <;> by_cases h3 : s.ymd.d = 30 <;>
    simp [h1, h2, h3] <;> omega

/-- From 31 January to 31 March the street convention gives 30/360 (bond basis: 60/360), and from a 31st to itself -30/360. -/
theorem fault_street_convention :
    yearFraction { day := (Ymd.mk 2024 1 31).ord, tod := 0, off := 0 } { day := (Ymd.mk 2024 3 31).ord, tod := 0, off := 0 }
      .streetConvention = .ok (30 / 360) ∧
    bondBasis (Ymd.mk 2024 1 31) (Ymd.mk 2024 3 31) = 60 ∧
    yearFraction { day := (Ymd.mk 2024 1 31).ord, tod := 0, off := 0 } { day := (Ymd.mk 2024 1 31).ord, tod := 0, off := 0 }
      .streetConvention = .ok (-30 / 360) := by
  refine ⟨by decide +kernel, by decide, by decide +kernel⟩

/-- Position of a day on the year axis, where every year has length one and ends with the day 31 December. -/
def dayPosition (day : Int) : Rat := (ofOrd day).y + ((day - dby (ofOrd day).y : Int) : Rat) / yearLen (ofOrd day).y

theorem dayPosition_mono {a b : Int} (h : a ≤ b) : dayPosition a ≤ dayPosition b := by
  have h1 := day_bounds a
  have h2 := day_bounds b
  have hy := year_mono h
  unfold dayPosition
  have pa : (0 : Rat) < yearLen (ofOrd a).y := by rcases yearLen_cases (ofOrd a).y with h | h <;> rw [h] <;> norm_num
  have pb : (0 : Rat) < yearLen (ofOrd b).y := by rcases yearLen_cases (ofOrd b).y with h | h <;> rw [h] <;> norm_num
  rcases Int.lt_or_eq_of_le hy with hlt | heq
  · have u : ((a - dby (ofOrd a).y : Int) : Rat) / yearLen (ofOrd a).y ≤ 1 := by
      rw [div_le_one pa]; exact_mod_cast (by omega : a - dby (ofOrd a).y ≤ yearLen (ofOrd a).y)
    have l : (0 : Rat) ≤ ((b - dby (ofOrd b).y : Int) : Rat) / yearLen (ofOrd b).y := by
      apply div_nonneg _ pb.le
      exact_mod_cast (by omega : 0 ≤ b - dby (ofOrd b).y)
    have : ((ofOrd a).y : Rat) + 1 ≤ (ofOrd b).y := by exact_mod_cast hlt
    linarith
  · rw [heq]
    have : ((a - dby (ofOrd b).y : Int) : Rat) / yearLen (ofOrd b).y ≤ ((b - dby (ofOrd b).y : Int) : Rat) / yearLen (ofOrd b).y := by
      apply div_le_div_of_nonneg_right _ pb.le
      exact_mod_cast (by omega : a - dby (ofOrd b).y ≤ b - dby (ofOrd b).y)
    linarith

/-- C45. Actual/Actual between two dates at the same time of day and offset: each year contributes the share of its days
(from 31 December to 31 December) that lies in the period. -/
theorem C45_isda (s e : DT) (hs : s.Valid) (he : e.Valid) (ho : s.off = e.off) (ht : s.tod = e.tod)
    (h : s.instant ≤ e.instant) :
    yearFraction s e .actActIsda = .ok (dayPosition e.day - dayPosition s.day) := by
  have hday := day_le_of_instant hs he ho h
  have hy : s.ymd.y ≤ e.ymd.y := year_mono hday
  have hw : wholeDays s e = e.day - s.day := by
    unfold wholeDays DT.instant DT.localNs
    rw [ho, ht, show e.day * dayNs + (e.tod : Int) - e.off * 1000000000 - (s.day * dayNs + (e.tod : Int) - e.off * 1000000000)
      = (e.day - s.day) * dayNs by ring]
    exact Int.mul_tdiv_cancel _ (by have := dayNs_pos'; omega)
  unfold yearFraction
  rw [if_neg (by omega)]
  simp only
  refine congrArg Except.ok ?_
  have pa : (yearLen s.ymd.y : Rat) ≠ 0 := by rcases yearLen_cases s.ymd.y with h | h <;> rw [h] <;> norm_num
  have pb : (yearLen e.ymd.y : Rat) ≠ 0 := by rcases yearLen_cases e.ymd.y with h | h <;> rw [h] <;> norm_num
  rcases Int.lt_or_eq_of_le hy with hlt | heq
  · rw [yearLoop_eq _ _ _ hlt]
    · unfold isdaPart dayPosition
      simp only [if_true, if_neg (show ¬ e.ymd.y = s.ymd.y by omega), daysInYear_eq, dec31]
      rw [show e.ymd.y - 1 + 1 = e.ymd.y by ring, dby_succ]
      change _ = ((e.ymd.y : Int) : Rat) + ((e.day - dby e.ymd.y : Int) : Rat) / yearLen e.ymd.y -
        (((s.ymd.y : Int) : Rat) + ((s.day - dby s.ymd.y : Int) : Rat) / yearLen s.ymd.y)
      push_cast
      field_simp
      ring
    · intro k h1 h2
      unfold isdaPart
      simp only [if_neg (show ¬ k = s.ymd.y by omega), if_neg (show ¬ k = e.ymd.y by omega)]
  · rw [← heq, yearLoop_one]
    unfold isdaPart dayPosition
    simp only [if_true, heq, daysInYear_eq, hw]
    have heq' : (ofOrd s.day).y = (ofOrd e.day).y := heq
    rw [heq']
    change _ = ((e.ymd.y : Int) : Rat) + ((e.day - dby e.ymd.y : Int) : Rat) / yearLen e.ymd.y -
        (((e.ymd.y : Int) : Rat) + ((s.day - dby e.ymd.y : Int) : Rat) / yearLen e.ymd.y)
    push_cast
    field_simp
    ring

/-- C45. So it is additive and non-negative. -/
theorem C45_isda_additive (s m e : DT) (hs : s.Valid) (hm : m.Valid) (he : e.Valid) (ho : s.off = m.off ∧ m.off = e.off)
    (ht : s.tod = m.tod ∧ m.tod = e.tod) (h1 : s.instant ≤ m.instant) (h2 : m.instant ≤ e.instant) :
    ∃ a b t : Rat, yearFraction s m .actActIsda = .ok a ∧ yearFraction m e .actActIsda = .ok b ∧
      yearFraction s e .actActIsda = .ok t ∧ t = a + b ∧ 0 ≤ a := by
  refine ⟨_, _, _, C45_isda s m hs hm ho.1 ht.1 h1, C45_isda m e hm he ho.2 ht.2 h2,
    C45_isda s e hs he (ho.1.trans ho.2) (ht.1.trans ht.2) (by omega), by ring, ?_⟩
  have := dayPosition_mono (day_le_of_instant hs hm ho.1 h1)
  linarith

/-- Full years are exact for dates in years of the same length, but not in general: from 2021-01-01 to 2024-01-01 the
result is 3 - 1/365 + 1/366 (the ISDA definition, which splits at 1 January, gives 3). -/
theorem fault_isda_first_of_january :
    yearFraction { day := (Ymd.mk 2021 1 1).ord, tod := 0, off := 0 } { day := (Ymd.mk 2024 1 1).ord, tod := 0, off := 0 }
      .actActIsda = .ok (3 - 1 / 365 + 1 / 366) := by
  decide +kernel

/-! ## C55: `get_time_difference` -/

/-- Position of a date-time on the year axis: years of length one from midnight 31 December to midnight 31 December, at
the offset `off`. -/
def position (off : Int) (x : DT) : Rat :=
  x.ymd.y + inDays (x.instant - (dby x.ymd.y * dayNs - off * 1000000000)) / yearLen x.ymd.y

theorem yearEndInstant_eq (y off : Int) : yearEndInstant y off = dby (y + 1) * dayNs - off * 1000000000 := by
  unfold yearEndInstant; rw [dec31]

/-- C55. The time from start to end is the difference of their positions on the year axis (of the start's offset); it is
zero if the end is in an earlier year. -/
theorem C55_position (s e : DT) :
    timeDifference s e = if s.ymd.y ≤ e.ymd.y then position s.off e - position s.off s else 0 := by
  unfold timeDifference
  have pa : (yearLen s.ymd.y : Rat) ≠ 0 := by rcases yearLen_cases s.ymd.y with h | h <;> rw [h] <;> norm_num
  have pb : (yearLen e.ymd.y : Rat) ≠ 0 := by rcases yearLen_cases e.ymd.y with h | h <;> rw [h] <;> norm_num
  have pd : (dayNs : Rat) ≠ 0 := by unfold dayNs; norm_num
  rcases Int.lt_trichotomy s.ymd.y e.ymd.y with hlt | heq | hgt
  · rw [if_pos hlt.le, yearLoop_eq _ _ _ hlt]
    · unfold timePart position
      simp only [if_true, if_neg (show ¬ e.ymd.y = s.ymd.y by omega), daysInYear_eq, yearEndInstant_eq]
      rw [show e.ymd.y - 1 + 1 = e.ymd.y by ring, dby_succ]
      unfold inDays
      push_cast
      field_simp
      ring
    · intro k h1 h2
      unfold timePart
      simp only [if_neg (show ¬ k = s.ymd.y by omega), if_neg (show ¬ k = e.ymd.y by omega)]
  · rw [if_pos heq.le, ← heq, yearLoop_one]
    unfold timePart position
    simp only [if_true, heq, daysInYear_eq]
    unfold inDays
    push_cast
    field_simp
    ring
  · rw [if_neg (by omega), yearLoop_empty _ _ _ hgt]

/-- C55. For date-times at one offset, in order of their years, the time difference is additive; from a date-time to
itself it is zero. -/
theorem C55_additive (s m e : DT) (h1 : s.off = m.off) (hy1 : s.ymd.y ≤ m.ymd.y) (hy2 : m.ymd.y ≤ e.ymd.y) :
    timeDifference s e = timeDifference s m + timeDifference m e ∧ timeDifference s s = 0 := by
  rw [C55_position, C55_position, C55_position, C55_position, if_pos (by omega), if_pos hy1, if_pos hy2,
    if_pos (le_refl _), h1]
  constructor <;> ring

theorem local_instant (x : DT) (off : Int) (h : x.off = off) :
    x.instant - (dby x.ymd.y * dayNs - off * 1000000000) = (x.day - dby x.ymd.y) * dayNs + x.tod := by
  unfold DT.instant DT.localNs
  rw [h]; ring

/-- C55. For date-times at one offset with start not after end, the time is non-negative if they are in one year or the
start is at midnight; in general it is above -(1/365 - 1/366). -/
theorem C55_nonneg (s e : DT) (hs : s.Valid) (he : e.Valid) (ho : s.off = e.off) (h : s.instant ≤ e.instant) :
    -(1 / 365 - 1 / 366 : Rat) < timeDifference s e ∧
    (s.tod = 0 ∨ s.ymd.y = e.ymd.y → 0 ≤ timeDifference s e) := by
  have hday := day_le_of_instant hs he ho h
  have hy : s.ymd.y ≤ e.ymd.y := year_mono hday
  have b1 := day_bounds s.day
  have b2 := day_bounds e.day
  change dby s.ymd.y < s.day ∧ s.day ≤ dby s.ymd.y + yearLen s.ymd.y at b1
  change dby e.ymd.y < e.day ∧ e.day ≤ dby e.ymd.y + yearLen e.ymd.y at b2
  have pd : (0 : Rat) < dayNs := by unfold dayNs; norm_num
  have pa : (0 : Rat) < yearLen s.ymd.y := by rcases yearLen_cases s.ymd.y with h | h <;> rw [h] <;> norm_num
  have pb : (0 : Rat) < yearLen e.ymd.y := by rcases yearLen_cases e.ymd.y with h | h <;> rw [h] <;> norm_num
  rw [C55_position, if_pos hy]
  unfold position
  rw [local_instant s s.off rfl, local_instant e s.off ho.symm]
  have hst : (s.tod : Rat) < dayNs := by exact_mod_cast hs.2.2
  have het : (0 : Rat) ≤ e.tod := by positivity
  have hst0 : (0 : Rat) ≤ s.tod := by positivity
  unfold inDays
  -- days as rationals
  have ex : (((s.day - dby s.ymd.y) * dayNs + s.tod : Int) : Rat) / dayNs = ((s.day - dby s.ymd.y : Int) : Rat) + s.tod / dayNs := by
    push_cast; field_simp
  have ey : (((e.day - dby e.ymd.y) * dayNs + e.tod : Int) : Rat) / dayNs = ((e.day - dby e.ymd.y : Int) : Rat) + e.tod / dayNs := by
    push_cast; field_simp
  rw [ex, ey]
  have fs1 : (s.tod : Rat) / dayNs < 1 := by rw [div_lt_one pd]; exact hst
  have fs0 : (0 : Rat) ≤ (s.tod : Rat) / dayNs := div_nonneg hst0 pd.le
  have fe0 : (0 : Rat) ≤ (e.tod : Rat) / dayNs := div_nonneg het pd.le
  have hsz : s.tod = 0 → (s.tod : Rat) / dayNs = 0 := by intro h; rw [h]; simp
  rcases Int.lt_or_eq_of_le hy with hlt | heq
  · have c1 : ((s.day - dby s.ymd.y : Int) : Rat) ≤ yearLen s.ymd.y := by
      exact_mod_cast (by omega : s.day - dby s.ymd.y ≤ yearLen s.ymd.y)
    have c2 : (1 : Rat) ≤ ((e.day - dby e.ymd.y : Int) : Rat) := by
      exact_mod_cast (by omega : 1 ≤ e.day - dby e.ymd.y)
    have c3 : ((s.ymd.y : Int) : Rat) + 1 ≤ (e.ymd.y : Int) := by exact_mod_cast hlt
    generalize ((s.day - dby s.ymd.y : Int) : Rat) = A at *
    generalize ((e.day - dby e.ymd.y : Int) : Rat) = B at *
    generalize (s.tod : Rat) / dayNs = f at *
    generalize (e.tod : Rat) / dayNs = g at *
    have k1 : (A + f) / (yearLen s.ymd.y : Rat) ≤ 1 + f / yearLen s.ymd.y := by
      rw [add_div]
      have : A / (yearLen s.ymd.y : Rat) ≤ 1 := by rw [div_le_one pa]; exact c1
      linarith
    have k2 : 1 / (yearLen e.ymd.y : Rat) ≤ (B + g) / yearLen e.ymd.y := by
      apply div_le_div_of_nonneg_right _ pb.le
      linarith
    have k3 : (1 : Rat) / 366 ≤ 1 / (yearLen e.ymd.y : Rat) := by
      rcases yearLen_cases e.ymd.y with h | h <;> rw [h] <;> norm_num
    have k4 : f / (yearLen s.ymd.y : Rat) < 1 / 365 := by
      rcases yearLen_cases s.ymd.y with h | h <;> rw [h] <;> push_cast
      · rw [div_lt_div_iff_of_pos_right (by norm_num)]; exact fs1
      · rw [div_lt_div_iff₀ (by norm_num) (by norm_num)]; linarith
    refine ⟨by linarith, fun hh => ?_⟩
    rcases hh with hh | hh
    · have k0 : f / (yearLen s.ymd.y : Rat) = 0 := by rw [hsz hh, zero_div]
      have : (0 : Rat) < 1 / 366 := by norm_num
      linarith
    · omega
  · have hl : (s.day - dby s.ymd.y) * dayNs + s.tod ≤ (e.day - dby e.ymd.y) * dayNs + e.tod := by
      rw [← local_instant s s.off rfl, ← local_instant e s.off ho.symm, heq]
      omega
    have hl' : ((s.day - dby s.ymd.y : Int) : Rat) + s.tod / dayNs ≤ ((e.day - dby e.ymd.y : Int) : Rat) + e.tod / dayNs := by
      rw [← ex, ← ey]
      apply div_le_div_of_nonneg_right _ pd.le
      exact_mod_cast hl
    have : (0 : Rat) ≤ ((e.ymd.y : Int) : Rat) + (((e.day - dby e.ymd.y : Int) : Rat) + e.tod / dayNs) / yearLen e.ymd.y -
        (((s.ymd.y : Int) : Rat) + (((s.day - dby s.ymd.y : Int) : Rat) + s.tod / dayNs) / yearLen s.ymd.y) := by
      rw [heq] at hl' ⊢
      have := div_le_div_of_nonneg_right hl' pb.le
      linarith
    exact ⟨by have : (0 : Rat) < 1 / 365 - 1 / 366 := by norm_num
              linarith, fun _ => this⟩

/-- The time from 2023-12-31 23:59 to 2024-01-01 00:00 is negative. -/
theorem fault_time_goes_back :
    timeDifference { day := (Ymd.mk 2023 12 31).ord, tod := 86340000000000, off := 0 }
      { day := (Ymd.mk 2024 1 1).ord, tod := 0, off := 0 } < 0 := by
  decide +kernel

/-- The time difference of an end in an earlier year is zero, not negative. -/
theorem fault_time_backwards :
    timeDifference { day := (Ymd.mk 2024 6 1).ord, tod := 0, off := 0 } { day := (Ymd.mk 2023 6 1).ord, tod := 0, off := 0 } = 0 := by
  decide +kernel

/-! ### Concrete cases -/

/-- The unit test of `get_time_difference` with different offsets. -/
example : timeDifference { day := (Ymd.mk 2020 1 1).ord, tod := 0, off := 0 }
    { day := (Ymd.mk 2021 1 1).ord, tod := 0, off := -21600 } = 1 - 1 / 366 + 1 / 365 + (1 / 4) / 365 := by decide +kernel

example : yearFraction { day := (Ymd.mk 2024 1 30).ord, tod := 0, off := 0 } { day := (Ymd.mk 2024 7 30).ord, tod := 0, off := 0 }
    .thirty360 = .ok (1 / 2) := by decide +kernel

/-- The hypotheses of the additive law for actual days are met by midnights at one offset. -/
example : let s : DT := { day := 738886, tod := 0, off := 32400 }
    let m : DT := { day := 738917, tod := 0, off := 32400 }
    s.instant ≤ m.instant ∧ dayNs ∣ m.instant - s.instant ∧ s.Valid ∧ m.Valid := by decide +kernel

end Verif.Props

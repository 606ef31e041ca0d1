import Verif.Props.Adjust
/-!
# C52, C53, C54: the holidays of the United States and Korean calendars
-/
set_option autoImplicit false
namespace Verif.Props
open Verif Verif.Civil Verif.QL

/-! ## Specification -/

/-- `day` is the `n`-th of its weekday in its month: the days of the month up to it are `day - i`, `i < d`. -/
def NthWeekday (n : Nat) (wd : Int) (month : Nat) (day : Int) : Prop :=
  (ofOrd day).m = month ∧ weekday day = wd ∧
    ((List.range (ofOrd day).d).filter (fun i : Nat => decide (weekday (day - (i : Int)) = wd))).length = n

/-- The last of its weekday in its month. -/
def LastWeekday (wd : Int) (month : Nat) (day : Int) : Prop :=
  (ofOrd day).m = month ∧ weekday day = wd ∧ ¬ SameMonth day (day + 7)

/-- A holiday on a fixed date, on Monday if that is a Sunday and on Friday if it is a Saturday. -/
def Observed (m d : Nat) (day : Int) : Prop :=
  let n := (Ymd.mk (ofOrd day).y m d).ord
  day = if weekday n = 6 then n + 1 else if weekday n = 5 then n - 1 else n

/-- The same, not moved if it is a Saturday. -/
def ObservedNoSaturday (m d : Nat) (day : Int) : Prop :=
  let n := (Ymd.mk (ofOrd day).y m d).ord
  day = if weekday n = 6 then n + 1 else n

/-- Friday 31 December before a new year's day on a Saturday. -/
def NewYearEveObserved (day : Int) : Prop :=
  let n := (Ymd.mk ((ofOrd day).y + 1) 1 1).ord
  weekday n = 5 ∧ day = n - 1

/-- Sundays are the multiples of seven; the first one strictly after a day. -/
def nextSunday (day : Int) : Int := (day / 7 + 1) * 7

/-- Easter Sunday of the Gregorian calendar: the Sunday after the paschal full moon (Knuth, TAOCP 1.3.2, exercise 14). -/
def westernEaster (y : Int) : Int :=
  let g := y % 19 + 1
  let c := y / 100 + 1
  let x := 3 * c / 4 - 12
  let z := (8 * c + 5) / 25 - 5
  let e := (11 * g + 20 + z - x) % 30
  let e := if (e = 25 ∧ g > 11) ∨ e = 24 then e + 1 else e
  let n := 44 - e
  let n := if n < 21 then n + 30 else n
  nextSunday ((Ymd.mk y 3 1).ord + n - 1)

/-- Easter Sunday of the Orthodox churches: the Sunday after the paschal full moon of the Julian calendar, 21 March plus
`(19 (y mod 19) + 15) mod 30` days, converted to the Gregorian calendar. -/
def orthodoxEaster (y : Int) : Int :=
  let n := 21 + (19 * (y % 19) + 15) % 30
  nextSunday ((Ymd.mk y 3 1).ord + n - 1 + (y / 100 - y / 400 - 2))

/-! ## Lemmas -/

theorem day_split (day : Int) : day = dby (ofOrd day).y + dbm (ofOrd day).y (ofOrd day).m + (ofOrd day).d :=
  (ord_ofOrd day).symm

theorem eq_ord_iff (day : Int) (m d : Nat) (hv : (Ymd.mk (ofOrd day).y m d).Valid) :
    day = (Ymd.mk (ofOrd day).y m d).ord ↔ (ofOrd day).m = m ∧ (ofOrd day).d = d := by
  constructor
  · intro h
    have := ofOrd_ord _ hv
    rw [← h] at this
    constructor
    · have := congrArg Ymd.m this; simpa using this
    · have := congrArg Ymd.d this; simpa using this
  · rintro ⟨h1, h2⟩
    have := ord_ofOrd day
    unfold Ymd.ord at this ⊢
    simp only [← h1, ← h2]
    exact this.symm

theorem mid_valid (y : Int) (m d : Nat) (h1 : 1 ≤ m) (h2 : m ≤ 12) (h3 : 1 ≤ d) (h4 : d ≤ 28) : (Ymd.mk y m d).Valid := by
  have := dim_pos y m h1 h2
  exact ⟨h1, h2, h3, by simp only; omega⟩

theorem not_weekend_iff (day : Int) : ¬ Weekend day ↔ weekday day = 0 ∨ weekday day = 1 ∨ weekday day = 2 ∨
    weekday day = 3 ∨ weekday day = 4 := by
  unfold Weekend weekday; omega

theorem observed_iff (day : Int) (hw : ¬ Weekend day) (m d : Nat) (h1 : 1 ≤ m) (h2 : m ≤ 12) (h3 : 2 ≤ d) (h4 : d ≤ 27) :
    Observed m d day ↔ ((ofOrd day).d = d ∨ ((ofOrd day).d = d + 1 ∧ weekday day = 0) ∨
      ((ofOrd day).d = d - 1 ∧ weekday day = 4)) ∧ (ofOrd day).m = m := by
  have e0 := eq_ord_iff day m d (mid_valid _ m d h1 h2 (by omega) (by omega))
  have e1 := eq_ord_iff day m (d + 1) (mid_valid _ m _ h1 h2 (by omega) (by omega))
  have e2 := eq_ord_iff day m (d - 1) (mid_valid _ m _ h1 h2 (by omega) (by omega))
  have o1 : (Ymd.mk (ofOrd day).y m (d + 1)).ord = (Ymd.mk (ofOrd day).y m d).ord + 1 := by unfold Ymd.ord; simp only; omega
  have o2 : (Ymd.mk (ofOrd day).y m (d - 1)).ord = (Ymd.mk (ofOrd day).y m d).ord - 1 := by unfold Ymd.ord; simp only; omega
  rw [o1] at e1
  rw [o2] at e2
  rw [not_weekend_iff] at hw
  unfold Observed
  simp only
  generalize (Ymd.mk (ofOrd day).y m d).ord = n at *
  constructor
  · intro h
    split at h
    · rename_i hn
      obtain ⟨a, b⟩ := e1.1 h
      refine ⟨Or.inr (Or.inl ⟨b, ?_⟩), a⟩
      unfold weekday at *; omega
    · split at h
      · obtain ⟨a, b⟩ := e2.1 h
        refine ⟨Or.inr (Or.inr ⟨b, ?_⟩), a⟩
        unfold weekday at *; omega
      · obtain ⟨a, b⟩ := e0.1 h
        exact ⟨Or.inl b, a⟩
  · rintro ⟨h | ⟨h, hm⟩ | ⟨h, hm⟩, hmm⟩
    · have := e0.2 ⟨hmm, h⟩
      subst this
      rw [if_neg (by omega), if_neg (by omega)]
    · have := e1.2 ⟨hmm, h⟩
      rw [if_pos (by unfold weekday at *; omega)]; exact this
    · have := e2.2 ⟨hmm, h⟩
      rw [if_neg (by unfold weekday at *; omega), if_pos (by unfold weekday at *; omega)]; exact this

theorem observedNoSaturday_iff (day : Int) (hw : ¬ Weekend day) (m d : Nat) (h1 : 1 ≤ m) (h2 : m ≤ 12) (h3 : 1 ≤ d)
    (h4 : d ≤ 27) :
    ObservedNoSaturday m d day ↔ ((ofOrd day).d = d ∨ ((ofOrd day).d = d + 1 ∧ weekday day = 0)) ∧ (ofOrd day).m = m := by
  have e0 := eq_ord_iff day m d (mid_valid _ m d h1 h2 (by omega) (by omega))
  have e1 := eq_ord_iff day m (d + 1) (mid_valid _ m _ h1 h2 (by omega) (by omega))
  have o1 : (Ymd.mk (ofOrd day).y m (d + 1)).ord = (Ymd.mk (ofOrd day).y m d).ord + 1 := by unfold Ymd.ord; simp only; omega
  rw [o1] at e1
  rw [not_weekend_iff] at hw
  unfold ObservedNoSaturday
  simp only
  generalize (Ymd.mk (ofOrd day).y m d).ord = n at *
  constructor
  · intro h
    split at h
    · obtain ⟨a, b⟩ := e1.1 h
      refine ⟨Or.inr ⟨b, ?_⟩, a⟩
      unfold weekday at *; omega
    · obtain ⟨a, b⟩ := e0.1 h
      exact ⟨Or.inl b, a⟩
  · rintro ⟨h | ⟨h, hm⟩, hmm⟩
    · have := e0.2 ⟨hmm, h⟩
      subst this
      rw [if_neg (by omega)]
    · have := e1.2 ⟨hmm, h⟩
      rw [if_pos (by unfold weekday at *; omega)]; exact this

theorem newYearEve_iff (day : Int) :
    NewYearEveObserved day ↔ ((ofOrd day).d = 31 ∧ weekday day = 4) ∧ (ofOrd day).m = 12 := by
  have e0 := eq_ord_iff day 12 31 ⟨by simp, by simp, by simp, by simp [dim]⟩
  have o : (Ymd.mk ((ofOrd day).y + 1) 1 1).ord = (Ymd.mk (ofOrd day).y 12 31).ord + 1 := by
    have := ord_next (Ymd.mk (ofOrd day).y 12 31) ⟨by simp, by simp, by simp, by simp [dim]⟩
    rw [← this]
    simp [Ymd.next, dim]
  unfold NewYearEveObserved
  simp only
  rw [o]
  generalize (Ymd.mk (ofOrd day).y 12 31).ord = n at *
  unfold weekday
  constructor
  · rintro ⟨h1, h2⟩
    obtain ⟨a, b⟩ := e0.1 (by omega)
    exact ⟨⟨b, by omega⟩, a⟩
  · rintro ⟨⟨h1, h2⟩, h3⟩
    have := e0.2 ⟨h3, h1⟩
    omega

theorem count_weekday (day : Int) (wd : Int) (hw : weekday day = wd) (d : Nat) (h1 : 1 ≤ d) (h2 : d ≤ 31) :
    ((List.range d).filter (fun i : Nat => decide (weekday (day - (i : Int)) = wd))).length = (d - 1) / 7 + 1 := by
  have e : (List.range d).filter (fun i : Nat => decide (weekday (day - (i : Int)) = wd))
      = (List.range d).filter (fun i => decide (i % 7 = 0)) := by
    apply List.filter_congr
    intro i _
    have : (weekday (day - (i : Int)) = wd) ↔ i % 7 = 0 := by unfold weekday at *; omega
    simp only [this]
  rw [e]
  clear e
  interval_cases d <;> decide

theorem nth_iff (n : Nat) (wd : Int) (m : Nat) (day : Int) :
    NthWeekday n wd m day ↔ (ofOrd day).m = m ∧ weekday day = wd ∧ ((ofOrd day).d - 1) / 7 + 1 = n := by
  have v := ofOrd_valid day
  have := dim_le (ofOrd day).y (ofOrd day).m
  unfold NthWeekday
  constructor
  · rintro ⟨a, b, c⟩
    rw [count_weekday day wd b _ v.2.2.1 (by have := v.2.2.2; omega)] at c
    exact ⟨a, b, c⟩
  · rintro ⟨a, b, c⟩
    refine ⟨a, b, ?_⟩
    rw [count_weekday day wd b _ v.2.2.1 (by have := v.2.2.2; omega)]
    exact c

theorem last_monday_may (day : Int) : LastWeekday 0 5 day ↔ (25 ≤ (ofOrd day).d ∧ weekday day = 0) ∧ (ofOrd day).m = 5 := by
  unfold LastWeekday
  have v := ofOrd_valid day
  constructor
  · rintro ⟨a, b, c⟩
    refine ⟨⟨?_, b⟩, a⟩
    by_contra hlt
    apply c
    have hv : (Ymd.mk (ofOrd day).y 5 ((ofOrd day).d + 7)).Valid := ⟨by simp, by simp, by simp, by simp only [dim]; omega⟩
    have : day + 7 = (Ymd.mk (ofOrd day).y 5 ((ofOrd day).d + 7)).ord := by
      have := day_split day
      unfold Ymd.ord
      rw [a] at this
      simp only
      omega
    unfold SameMonth
    rw [this, ofOrd_ord _ hv]
    exact ⟨rfl, a⟩
  · rintro ⟨⟨a, b⟩, c⟩
    refine ⟨c, b, ?_⟩
    rintro ⟨h1, h2⟩
    have v' := ofOrd_valid (day + 7)
    have e1 := day_split day
    have e2 := day_split (day + 7)
    rw [← h1, ← h2] at e2
    have := v'.2.2.2
    rw [← h2, c] at this
    simp only [dim] at this
    omega

/-! ## C53: Good Friday -/

theorem easter_tables : (List.range 299).all (fun i =>
    (easterMondays0.getD i 0 : Int) == westernEaster (1901 + i) + 1 - dby (1901 + i) &&
    (easterMondays1.getD i 0 : Int) == orthodoxEaster (1901 + i) + 1 - dby (1901 + i)) = true := by decide +kernel

theorem easter_table (y : Int) (h1 : 1901 ≤ y) (h2 : y ≤ 2199) :
    (easterMondays0.getD (y - 1901).toNat 0 : Int) = westernEaster y + 1 - dby y ∧
    (easterMondays1.getD (y - 1901).toNat 0 : Int) = orthodoxEaster y + 1 - dby y := by
  have := List.all_eq_true.1 easter_tables (y - 1901).toNat (by rw [List.mem_range]; omega)
  rw [show (1901 : Int) + ((y - 1901).toNat : Int) = y by omega] at this
  simpa using this

/-- C53. `is_good_friday(date, false)`, which every United States calendar asks, holds on the Friday before the
*Orthodox* Easter, and `is_good_friday(date, true)` on the Friday before the *Western* one: the tables are right and the
indices are exchanged. For every date; outside 1901..2199 there is no Good Friday. -/
theorem C53_good_friday (day : Int) :
    (isGoodFriday day false = true ↔ (1901 ≤ (ofOrd day).y ∧ (ofOrd day).y ≤ 2199) ∧ day = orthodoxEaster (ofOrd day).y - 2) ∧
    (isGoodFriday day true = true ↔ (1901 ≤ (ofOrd day).y ∧ (ofOrd day).y ≤ 2199) ∧ day = westernEaster (ofOrd day).y - 2) := by
  unfold isGoodFriday dayOfYear
  simp only
  by_cases h : (ofOrd day).y < 1901 ∨ (ofOrd day).y > 2199
  · simp only [if_pos h]
    constructor <;> (constructor <;> intro h' <;> first | cases h'; done | omega)
  · simp only [if_neg h]
    push Not at h
    obtain ⟨e1, e2⟩ := easter_table (ofOrd day).y h.1 h.2
    rw [e1, e2]
    simp only [Bool.false_eq_true, if_false, if_true, beq_iff_eq, h.1, h.2, true_and, and_self]
    constructor <;> (constructor <;> intro h' <;> linarith)

/-- Easter is a Sunday, in either church: Good Friday is a Friday. -/
theorem easter_sunday (y : Int) : weekday (westernEaster y) = 6 ∧ weekday (orthodoxEaster y) = 6 := by
  unfold westernEaster orthodoxEaster nextSunday weekday
  constructor <;> (simp only; omega)

/-- The New York Stock Exchange of the library trades on Good Friday 2024 (29 March) and rests on 3 May, the Orthodox one. -/
theorem fault_nyse_good_friday :
    (Ymd.mk 2024 3 29).ord = westernEaster 2024 - 2 ∧
    (Calendar.us .nyse [] []).isHoliday { day := (Ymd.mk 2024 3 29).ord, tod := 0, off := -18000 } = .ok false ∧
    (Calendar.us .nyse [] []).isHoliday { day := (Ymd.mk 2024 5 3).ord, tod := 0, off := -18000 } = .ok true := by
  refine ⟨by decide +kernel, by decide +kernel, by decide +kernel⟩

/-! ## C52: the rules of the United States calendars -/

/-- The Friday taken for Good Friday (see C53). -/
def GoodFridayUsed (day : Int) : Prop := (ofOrd day).y ≤ 2199 ∧ day = orthodoxEaster (ofOrd day).y - 2

/-- The holidays the calendars share. -/
def CommonHoliday (day : Int) : Prop :=
  ObservedNoSaturday 1 1 day ∨ NthWeekday 3 0 1 day ∨ NthWeekday 3 0 2 day ∨ LastWeekday 0 5 day ∨
  NthWeekday 1 0 9 day ∨ NthWeekday 4 3 11 day

/-- The holidays of each calendar from 2022 on. -/
def USHoliday : USType → Int → Prop
  | .nyse, day => CommonHoliday day ∨ Observed 6 19 day ∨ Observed 7 4 day ∨ Observed 12 25 day ∨ GoodFridayUsed day
  | .settlement, day => CommonHoliday day ∨ Observed 6 19 day ∨ Observed 7 4 day ∨ Observed 12 25 day ∨
      NewYearEveObserved day ∨ NthWeekday 2 0 10 day ∨ ObservedNoSaturday 11 11 day
  | .governmentBond, day => CommonHoliday day ∨ Observed 6 19 day ∨ Observed 7 4 day ∨ Observed 12 25 day ∨
      NthWeekday 2 0 10 day ∨ ObservedNoSaturday 11 11 day ∨ (GoodFridayUsed day ∧ (ofOrd day).y ≠ 2023)
  | .sofr, day => CommonHoliday day ∨ Observed 6 19 day ∨ Observed 7 4 day ∨ Observed 12 25 day ∨
      NthWeekday 2 0 10 day ∨ ObservedNoSaturday 11 11 day ∨ GoodFridayUsed day
  | .federalReserve, day => CommonHoliday day ∨ ObservedNoSaturday 6 19 day ∨ ObservedNoSaturday 7 4 day ∨
      ObservedNoSaturday 12 25 day ∨ NthWeekday 2 0 10 day ∨ ObservedNoSaturday 11 11 day

/-- C52. From 2022 on, a weekday is a holiday of a United States calendar iff it is one of the named holidays: new year
(Monday if on a Sunday; for settlement also Friday if on a Saturday), the third Mondays of January and February, the last
Monday of May, Juneteenth, Independence Day and Christmas (moved to Monday or Friday; for the Federal Reserve to Monday
only), the first Monday of September, the fourth Thursday of November; Columbus and Veterans Day except at the stock
exchange; Good Friday (in the sense of C53) at the exchange, for SOFR and, except 2023, for government bonds. -/
theorem C52_us_rules (t : USType) (day : Int) (hy : 2022 ≤ (ofOrd day).y) (hw : ¬ Weekend day) :
    usBase t day = true ↔ USHoliday t day := by
  have hgf : isGoodFriday day false = true ↔ GoodFridayUsed day := by
    rw [(C53_good_friday day).1]
    unfold GoodFridayUsed
    constructor
    · rintro ⟨⟨_, a⟩, b⟩; exact ⟨a, b⟩
    · rintro ⟨a, b⟩; exact ⟨⟨by omega, a⟩, b⟩
  have v := ofOrd_valid day
  have vd := v.2.2.1
  have ny := observedNoSaturday_iff day hw 1 1 (by omega) (by omega) (by omega) (by omega)
  have vet := observedNoSaturday_iff day hw 11 11 (by omega) (by omega) (by omega) (by omega)
  have j1 := observedNoSaturday_iff day hw 6 19 (by omega) (by omega) (by omega) (by omega)
  have i1 := observedNoSaturday_iff day hw 7 4 (by omega) (by omega) (by omega) (by omega)
  have c1 := observedNoSaturday_iff day hw 12 25 (by omega) (by omega) (by omega) (by omega)
  have j2 := observed_iff day hw 6 19 (by omega) (by omega) (by omega) (by omega)
  have i2 := observed_iff day hw 7 4 (by omega) (by omega) (by omega) (by omega)
  have c2 := observed_iff day hw 12 25 (by omega) (by omega) (by omega) (by omega)
  have ev := newYearEve_iff day
  have may := last_monday_may day
  have hNY : isUSNewYear day = true ↔ ObservedNoSaturday 1 1 day := by
    rw [ny]; simp [isUSNewYear]
  have hKing : ∀ y0, y0 ≤ 2022 → (isKingDay day y0 = true ↔ NthWeekday 3 0 1 day) := by
    intro y0 h0
    rw [nth_iff]; simp [isKingDay]; omega
  have hWash : isWashingtonBirthday day = true ↔ NthWeekday 3 0 2 day := by
    rw [nth_iff]
    unfold isWashingtonBirthday
    simp only [show (ofOrd day).y ≥ 1971 by omega, if_true]
    simp; omega
  have hMem : isMemorialDay day = true ↔ LastWeekday 0 5 day := by
    rw [may]
    unfold isMemorialDay
    simp only [show (ofOrd day).y ≥ 1971 by omega, if_true]
    simp
  have hLab : isLaborDay day = true ↔ NthWeekday 1 0 9 day := by
    rw [nth_iff]; simp [isLaborDay]; omega
  have hCol : isColumbusDay day = true ↔ NthWeekday 2 0 10 day := by
    rw [nth_iff]; simp [isColumbusDay]; omega
  have hVet : isVeteransDayNoSaturday day = true ↔ ObservedNoSaturday 11 11 day := by
    rw [vet]
    unfold isVeteransDayNoSaturday
    simp only [show (ofOrd day).y ≤ 1970 ∨ (ofOrd day).y ≥ 1978 by omega, if_true]
    simp
  have hJunT : isJuneteenth day true = true ↔ Observed 6 19 day := by
    rw [j2]; simp [isJuneteenth]; omega
  have hJunF : isJuneteenth day false = true ↔ ObservedNoSaturday 6 19 day := by
    rw [j1]; simp [isJuneteenth]; omega
  have hIndT : isIndependenceDay day true = true ↔ Observed 7 4 day := by
    rw [i2]; simp [isIndependenceDay]
    grind only
  have hIndF : isIndependenceDay day false = true ↔ ObservedNoSaturday 7 4 day := by
    rw [i1]; simp [isIndependenceDay]
  have hThx : isThanksgiving day = true ↔ NthWeekday 4 3 11 day := by
    rw [nth_iff]; simp [isThanksgiving]; omega
  have hChrT : isChristmas day true = true ↔ Observed 12 25 day := by
    rw [c2]; simp [isChristmas]
    grind only
  have hChrF : isChristmas day false = true ↔ ObservedNoSaturday 12 25 day := by
    rw [c1]; simp [isChristmas]
  have hBond : isGovernmentBondHoliday day = true ↔ USHoliday .governmentBond day := by
    unfold isGovernmentBondHoliday USHoliday CommonHoliday
    simp only [Bool.or_eq_true, Bool.and_eq_true, Bool.not_eq_true', Bool.or_eq_false_iff, beq_iff_eq,
      beq_eq_false_iff_ne, hNY, hKing 1983 (by omega), hWash, hgf, hMem, hJunT, hIndT, hLab, hCol, hVet, hThx, hChrT]
    rw [show ((ofOrd day).y = 2018) ↔ False from iff_false_intro (by omega),
      show ((ofOrd day).y = 2012) ↔ False from iff_false_intro (by omega),
      show ((ofOrd day).y = 2004) ↔ False from iff_false_intro (by omega),
      show ((ofOrd day).y ≠ 2015) ↔ True from iff_true_intro (by omega),
      show ((ofOrd day).y ≠ 2021) ↔ True from iff_true_intro (by omega)]
    grind only
  have hClose : isNyseClosing day = false := by
    unfold isNyseClosing
    have : ∀ k : Int, k ≤ 2018 → ((ofOrd day).y == k) = false := by
      intro k hk; simp only [beq_eq_false_iff_ne]; omega
    simp [this 2018, this 2012, this 2007, this 2004, this 2001, this 1994, this 1985, this 1977, this 1973, this 1972,
      this 1969, this 1968, this 1963, this 1961, this 1958, this 1954, this 1956, this 1965]
  cases t with
  | settlement =>
    unfold usBase USHoliday CommonHoliday
    simp only [Bool.or_eq_true, Bool.and_eq_true, beq_iff_eq, hNY, hKing 1983 (by omega), hWash, hMem, hJunT, hIndT, hLab,
      hCol, hVet, hThx, hChrT, ev]
    grind only
  | nyse =>
    unfold usBase USHoliday CommonHoliday
    simp only [Bool.or_eq_true, Bool.and_eq_true, beq_iff_eq, hNY, hKing 1998 (by omega), hWash, hMem, hJunT, hIndT, hLab,
      hThx, hChrT, hgf, hClose, decide_eq_true_eq, Bool.false_eq_true, or_false]
    rw [show ((ofOrd day).y ≤ 1968) ↔ False from iff_false_intro (by omega),
      show ((ofOrd day).y ≤ 1980) ↔ False from iff_false_intro (by omega)]
    grind only
  | governmentBond => exact hBond
  | sofr =>
    unfold usBase
    simp only [Bool.or_eq_true, hBond, hgf]
    unfold USHoliday
    grind only
  | federalReserve =>
    unfold usBase USHoliday CommonHoliday
    simp only [Bool.or_eq_true, hNY, hKing 1983 (by omega), hWash, hMem, hJunF, hIndF, hLab, hCol, hVet, hThx, hChrF]
    grind only

/-! ## C54: the Korean calendars -/

/-- The last day of its year that is not on a weekend. -/
def LastWeekdayOfYear (day : Int) : Prop :=
  ¬ Weekend day ∧ ∀ j, day < j → (ofOrd j).y = (ofOrd day).y → Weekend j

/-- 31 December, or the Friday before it. -/
def yearEnd (y : Int) : Int :=
  let n := dby (y + 1)
  if weekday n = 5 then n - 1 else if weekday n = 6 then n - 2 else n

theorem year_of_bounds (day y : Int) (h1 : dby y < day) (h2 : day ≤ dby (y + 1)) : (ofOrd day).y = y := by
  have e := day_split day
  have b := doy_bounds (ofOrd day) (ofOrd_valid day)
  rcases Int.lt_trichotomy (ofOrd day).y y with h | h | h
  · have := dby_mono _ _ h; omega
  · exact h
  · have := dby_mono _ _ h
    have := dby_succ y
    omega

theorem lastWeekday_iff (day : Int) : LastWeekdayOfYear day ↔ day = yearEnd (ofOrd day).y := by
  have e := day_split day
  have b := doy_bounds (ofOrd day) (ofOrd_valid day)
  have hs := dby_succ (ofOrd day).y
  have hl : 365 ≤ yearLen (ofOrd day).y := by unfold yearLen; split <;> omega
  have hle : day ≤ dby ((ofOrd day).y + 1) := by omega
  have yr : ∀ j, day ≤ j → j ≤ dby ((ofOrd day).y + 1) → (ofOrd j).y = (ofOrd day).y :=
    fun j h1 h2 => year_of_bounds j _ (by omega) h2
  unfold LastWeekdayOfYear yearEnd
  simp only
  generalize hn : dby ((ofOrd day).y + 1) = n at *
  constructor
  · rintro ⟨h1, h2⟩
    have k0 : day < n → Weekend n := fun h => h2 n h (yr n (by omega) (le_refl _))
    have k1 : day < n - 1 → Weekend (n - 1) := fun h => h2 (n - 1) h (yr _ (by omega) (by omega))
    have k2 : day < n - 2 → Weekend (n - 2) := fun h => h2 (n - 2) h (yr _ (by omega) (by omega))
    unfold Weekend weekday at *
    split
    · by_contra hne; omega
    · split
      · by_contra hne; omega
      · by_contra hne; omega
  · intro h
    have hj : ∀ j, day < j → (ofOrd j).y = (ofOrd day).y → j ≤ n := by
      intro j _ hjy
      have ej := day_split j
      have bj := doy_bounds (ofOrd j) (ofOrd_valid j)
      rw [hjy] at ej bj
      omega
    refine ⟨?_, fun j h1 h2 => ?_⟩
    · unfold Weekend weekday at *
      split at h
      · omega
      · split at h <;> omega
    · have := hj j h1 h2
      unfold Weekend weekday at *
      split at h
      · omega
      · split at h <;> omega

theorem krx_table : (krxYearEnds.all fun e => decide (Ymd.Valid ⟨e.1, e.2.1, e.2.2⟩) &&
      decide ((Ymd.mk e.1 e.2.1 e.2.2).ord = yearEnd e.1)) = true ∧
    ((List.range 100).all fun i => krxYearEnds.contains
      ((ofOrd (yearEnd (1951 + i))).y, (ofOrd (yearEnd (1951 + i))).m, (ofOrd (yearEnd (1951 + i))).d)) = true := by
  refine ⟨by decide +kernel, by decide +kernel⟩

/-- C54. In the years 1951 to 2050 the year-end closing of the Korea Exchange is the last weekday of the year, in other
years there is none (the table of the source goes on to 2100, but is not consulted). -/
theorem C54_year_end (day : Int) :
    isKrxYearEnd day = true ↔ (1951 ≤ (ofOrd day).y ∧ (ofOrd day).y ≤ 2050) ∧ LastWeekdayOfYear day := by
  rw [lastWeekday_iff]
  unfold isKrxYearEnd inTable
  simp only
  by_cases h : 1951 ≤ (ofOrd day).y ∧ (ofOrd day).y ≤ 2050
  · rw [if_neg (by simpa using h)]
    simp only [h, true_and, and_self]
    constructor
    · intro hc
      rw [List.contains_iff_mem] at hc
      have := List.all_eq_true.1 krx_table.1 _ hc
      simp only [Bool.and_eq_true, decide_eq_true_eq] at this
      have e := ord_ofOrd day
      rw [← this.2]
      exact e.symm
    · intro hd
      have := List.all_eq_true.1 krx_table.2 ((ofOrd day).y - 1951).toNat (by rw [List.mem_range]; omega)
      rw [show (1951 : Int) + (((ofOrd day).y - 1951).toNat : Int) = (ofOrd day).y by omega, ← hd] at this
      exact this
  · rw [if_pos h]
    constructor
    · intro h'; cases h'
    · rintro ⟨h', _⟩; exact absurd h' h

/-- The middle day of Chuseok in the table. -/
def chuseokMiddle (y : Int) : Int :=
  match chuseokDays.getD (3 * (y - 1951).toNat + 1) (0, 0, 0) with
  | (y, m, d) => (Ymd.mk y m d).ord

theorem chuseok_table : (List.range 100).all (fun i =>
    chuseokDays.filter (fun e => e.1 == 1951 + (i : Int)) ==
      [chuseokMiddle (1951 + i) - 1, chuseokMiddle (1951 + i), chuseokMiddle (1951 + i) + 1].map
        (fun k => ((ofOrd k).y, (ofOrd k).m, (ofOrd k).d))) = true := by decide +kernel

theorem triple_inj (a b : Int) (h : ((ofOrd a).y, (ofOrd a).m, (ofOrd a).d) = ((ofOrd b).y, (ofOrd b).m, (ofOrd b).d)) :
    a = b := by
  simp only [Prod.mk.injEq] at h
  rw [day_split a, day_split b, h.1, h.2.1, h.2.2]

/-- C54. In each year 1951 to 2050 Chuseok is a run of three consecutive days; in other years it is unknown to the
calendar. -/
theorem C54_chuseok (day : Int) : isChuseok day = true ↔
    (1951 ≤ (ofOrd day).y ∧ (ofOrd day).y ≤ 2050) ∧
      chuseokMiddle (ofOrd day).y - 1 ≤ day ∧ day ≤ chuseokMiddle (ofOrd day).y + 1 := by
  unfold isChuseok inTable
  simp only
  by_cases h : 1951 ≤ (ofOrd day).y ∧ (ofOrd day).y ≤ 2050
  · rw [if_neg (by simpa using h)]
    simp only [h, true_and, and_self]
    have ht := List.all_eq_true.1 chuseok_table ((ofOrd day).y - 1951).toNat (by rw [List.mem_range]; omega)
    rw [show (1951 : Int) + (((ofOrd day).y - 1951).toNat : Int) = (ofOrd day).y by omega] at ht
    rw [beq_iff_eq] at ht
    have hm : chuseokDays.contains ((ofOrd day).y, (ofOrd day).m, (ofOrd day).d) = true ↔
        ((ofOrd day).y, (ofOrd day).m, (ofOrd day).d) ∈ chuseokDays.filter (fun e => e.1 == (ofOrd day).y) := by
      rw [List.contains_iff_mem, List.mem_filter]
      simp
    rw [hm, ht, List.mem_map]
    generalize chuseokMiddle (ofOrd day).y = c
    constructor
    · rintro ⟨k, hk, e⟩
      have := triple_inj _ _ e
      subst this
      simp only [List.mem_cons, List.not_mem_nil, or_false] at hk
      omega
    · intro hd
      refine ⟨day, ?_, rfl⟩
      simp only [List.mem_cons, List.not_mem_nil, or_false]
      omega
  · rw [if_pos h]
    constructor
    · intro h'; cases h'
    · rintro ⟨h', _⟩; exact absurd h' h

/-- The lunar new year's day of the table. -/
def lunarNewYear (y : Int) : Int := dby y + (lunarNewYears.getD (y - 1901).toNat 0 : Int)

theorem lunar_table : (List.range 150).all (fun i => decide (21 < lunarNewYears.getD i 0 ∧ lunarNewYears.getD i 0 < 52)) = true := by
  decide +kernel

/-- C54. In each year 1901 to 2050 the lunar new year is the run of three days around a day between 22 January and 20
February. -/
theorem C54_lunar_new_year (day : Int) : (isLunarNewYear day = true ↔
    (1901 ≤ (ofOrd day).y ∧ (ofOrd day).y ≤ 2050) ∧
      lunarNewYear (ofOrd day).y - 1 ≤ day ∧ day ≤ lunarNewYear (ofOrd day).y + 1) ∧
    (∀ y, 1901 ≤ y → y ≤ 2050 → (Ymd.mk y 1 22).ord ≤ lunarNewYear y ∧ lunarNewYear y ≤ (Ymd.mk y 2 20).ord) := by
  constructor
  · unfold isLunarNewYear lunarNewYear
    simp only
    by_cases h : (ofOrd day).y > 2050 ∨ 1901 > (ofOrd day).y
    · rw [if_pos h]
      constructor
      · intro h'; cases h'
      · rintro ⟨h', _⟩; omega
    · rw [if_neg h]
      push Not at h
      simp only [Bool.or_eq_true, beq_iff_eq]
      omega
  · intro y h1 h2
    have := List.all_eq_true.1 lunar_table (y - 1901).toNat (by rw [List.mem_range]; omega)
    simp only [decide_eq_true_eq] at this
    unfold lunarNewYear Ymd.ord
    simp only [dbm, dim]
    omega

/-- C54. The holidays of the two Korean calendars: they differ by the year-end closing only. -/
theorem C54_korea (t : KRType) (day : Int) : krBase t day = true ↔
    isLunarNewYear day = true ∨ isChuseok day = true ∨ isBuddhaBirthday day = true ∨
    ((ofOrd day).m, (ofOrd day).d) ∈ [(1, 1), (3, 1), (5, 1), (5, 5), (6, 6), (8, 15), (10, 3), (10, 9), (12, 25)] ∨
    ((ofOrd day).y, (ofOrd day).m, (ofOrd day).d) ∈ koreanTemporary ∨
    (t = .krx ∧ (1951 ≤ (ofOrd day).y ∧ (ofOrd day).y ≤ 2050) ∧ LastWeekdayOfYear day) := by
  rw [← C54_year_end]
  have ht : inTable koreanTemporary day = true ↔ ((ofOrd day).y, (ofOrd day).m, (ofOrd day).d) ∈ koreanTemporary := by
    unfold inTable
    exact List.contains_iff_mem
  rw [← ht]
  unfold krBase
  simp only
  generalize (ofOrd day).m = m
  generalize (ofOrd day).d = d
  split
  · rename_i h
    simp only [Bool.or_eq_true, Bool.and_eq_true, beq_iff_eq] at h
    simp only [List.mem_cons, Prod.mk.injEq, List.not_mem_nil, or_false, true_iff]
    grind only
  · rename_i h
    simp only [Bool.or_eq_true, Bool.and_eq_true, beq_iff_eq] at h
    simp only [List.mem_cons, Prod.mk.injEq, List.not_mem_nil, or_false]
    split
    · simp_all
    · cases t
      · simp only [true_and]; grind only
      · simp only [reduceCtorEq, false_and, or_false]; grind only

/-- The Korea Exchange of the library trades on Friday 29 December 2051, the last weekday of that year. -/
theorem fault_krx_2051 : LastWeekdayOfYear (Ymd.mk 2051 12 29).ord ∧
    (Calendar.korea .krx [] []).isHoliday { day := (Ymd.mk 2051 12 29).ord, tod := 0, off := 32400 } = .ok false := by
  refine ⟨?_, by decide +kernel⟩
  rw [lastWeekday_iff]
  decide +kernel

/-! ### Concrete cases -/

example : ¬ Weekend (Ymd.mk 2026 7 3).ord ∧ USHoliday .nyse (Ymd.mk 2026 7 3).ord := by
  have hw : ¬ Weekend (Ymd.mk 2026 7 3).ord := by unfold Weekend; decide
  exact ⟨hw, (C52_us_rules .nyse _ (by decide +kernel) hw).1 (by decide +kernel)⟩

example : NthWeekday 4 3 11 (Ymd.mk 2024 11 28).ord := by
  refine ⟨by decide +kernel, by decide +kernel, by decide +kernel⟩

example : isChuseok (Ymd.mk 2024 9 17).ord = true ∧ isKrxYearEnd (Ymd.mk 2024 12 31).ord = true := by decide +kernel

end Verif.Props

import Mathlib.Tactic.IntervalCases
import Mathlib.Tactic.NormNum
/-!
# Specification of the proleptic Gregorian calendar

Written independently of the code. Dates are triples; `Ymd.next` is the calendar's successor; `Ymd.ord` numbers
the days (0001-01-01 is day 1, as in the proleptic Gregorian ordinal) and `ofOrd` is its inverse.
-/
set_option autoImplicit false
namespace Verif.Civil

/-- Leap years of the Gregorian calendar. -/
def leap (y : Int) : Bool := (y % 4 == 0 && y % 100 != 0) || y % 400 == 0

/-- Days in a month. -/
def dim (y : Int) (m : Nat) : Nat :=
  match m with
  | 1 => 31 | 2 => if leap y then 29 else 28 | 3 => 31 | 4 => 30 | 5 => 31 | 6 => 30
  | 7 => 31 | 8 => 31 | 9 => 30 | 10 => 31 | 11 => 30 | 12 => 31 | _ => 0

/-- Days in a year. -/
def yearLen (y : Int) : Nat := if leap y then 366 else 365

/-- A calendar date. -/
structure Ymd where
  y : Int
  m : Nat
  d : Nat
  deriving DecidableEq, Repr

/-- The date exists. -/
def Ymd.Valid (x : Ymd) : Prop := 1 ≤ x.m ∧ x.m ≤ 12 ∧ 1 ≤ x.d ∧ x.d ≤ dim x.y x.m

instance (x : Ymd) : Decidable x.Valid := by unfold Ymd.Valid; infer_instance

/-- The day after. -/
def Ymd.next (x : Ymd) : Ymd :=
  if x.d < dim x.y x.m then { x with d := x.d + 1 }
  else if x.m < 12 then { x with m := x.m + 1, d := 1 }
  else { y := x.y + 1, m := 1, d := 1 }

/-- Days before 1 January of year `y`. -/
def dby (y : Int) : Int := 365 * (y - 1) + (y - 1) / 4 - (y - 1) / 100 + (y - 1) / 400

/-- Days of the year before the first of the month. -/
def dbm (y : Int) : Nat → Nat
  | 0 => 0
  | 1 => 0
  | m + 2 => dbm y (m + 1) + dim y (m + 1)

/-- The number of the day. -/
def Ymd.ord (x : Ymd) : Int := dby x.y + (dbm x.y x.m : Int) + x.d

theorem leap_cases (y : Int) : (leap y = true ∧ y % 4 = 0 ∧ (y % 100 ≠ 0 ∨ y % 400 = 0)) ∨
    (leap y = false ∧ (y % 4 ≠ 0 ∨ (y % 100 = 0 ∧ y % 400 ≠ 0))) := by
  unfold leap
  by_cases h1 : y % 4 = 0 <;> by_cases h2 : y % 100 = 0 <;> by_cases h3 : y % 400 = 0 <;> simp [h1, h2, h3]
  all_goals omega

theorem dby_succ (y : Int) : dby (y + 1) = dby y + yearLen y := by
  unfold dby yearLen
  rcases leap_cases y with ⟨h, h1, h2⟩ | ⟨h, h1⟩ <;> rw [h] <;> simp <;> omega

theorem dbm_succ (y : Int) (m : Nat) (h : 1 ≤ m) : dbm y (m + 1) = dbm y m + dim y m := by
  cases m with
  | zero => omega
  | succ n => rfl

theorem dbm_13 (y : Int) : dbm y 13 = yearLen y := by
  simp only [dbm, dim, yearLen]; split <;> rfl

theorem dbm_12 (y : Int) : dbm y 12 + 31 = yearLen y := dbm_13 y

theorem dim_pos (y : Int) (m : Nat) (h1 : 1 ≤ m) (h2 : m ≤ 12) : 28 ≤ dim y m := by
  interval_cases m <;> simp only [dim] <;> first | omega | (split <;> omega)

theorem dim_le (y : Int) (m : Nat) : dim y m ≤ 31 := by
  unfold dim; split <;> first | omega | (split <;> omega)

theorem dbm_le (y : Int) (m k : Nat) (h1 : 1 ≤ m) (hk : m < k) : dbm y m + dim y m ≤ dbm y k := by
  induction k with
  | zero => omega
  | succ n ih =>
    rcases Nat.lt_or_ge m n with h | h
    · have := ih h
      rw [dbm_succ y n (by omega)]; omega
    · have : m = n := by omega
      subst this
      rw [dbm_succ y m h1]

/-- The day after a valid date is valid. -/
theorem next_valid (x : Ymd) (h : x.Valid) : x.next.Valid := by
  obtain ⟨h1, h2, h3, h4⟩ := h
  unfold Ymd.next
  split
  · exact ⟨h1, h2, by simp, by simp only; omega⟩
  · split
    · refine ⟨by simp, by simp only; omega, by simp, ?_⟩
      have := dim_pos x.y (x.m + 1) (by omega) (by omega)
      simp only; omega
    · exact ⟨by simp, by simp, by simp, by simp [dim]⟩

/-- `next` adds one to the number of the day. -/
theorem ord_next (x : Ymd) (h : x.Valid) : x.next.ord = x.ord + 1 := by
  obtain ⟨h1, h2, h3, h4⟩ := h
  unfold Ymd.next
  split
  · simp only [Ymd.ord]; omega
  · split
    · simp only [Ymd.ord]; rw [dbm_succ _ _ h1]; omega
    · have : x.m = 12 := by omega
      simp only [Ymd.ord, dby_succ, this, dbm]
      have := dbm_13 x.y
      simp only [dbm] at this
      have e : dim x.y x.m = dim x.y 12 := by rw [‹x.m = 12›]
      simp only [dim] at *
      omega

theorem doy_bounds (x : Ymd) (h : x.Valid) : 1 ≤ dbm x.y x.m + x.d ∧ dbm x.y x.m + x.d ≤ yearLen x.y := by
  obtain ⟨h1, h2, h3, h4⟩ := h
  have := dbm_le x.y x.m 13 h1 (by omega)
  rw [dbm_13] at this
  omega

theorem dby_mono_succ (y : Int) : dby y + 365 ≤ dby (y + 1) := by
  rw [dby_succ]; unfold yearLen; split <;> omega

theorem dby_mono (a b : Int) (h : a < b) : dby a + yearLen a ≤ dby b := by
  have : ∃ n : Nat, b = a + 1 + n := ⟨(b - a - 1).toNat, by omega⟩
  obtain ⟨n, rfl⟩ := this
  induction n with
  | zero => simp [dby_succ]
  | succ n ih =>
    have := ih (by omega)
    have h2 := dby_mono_succ (a + 1 + n)
    have e : a + 1 + ((n + 1 : Nat) : Int) = a + 1 + n + 1 := by omega
    rw [e]; omega

/-- Chronological order of dates. -/
def Ymd.lt (a b : Ymd) : Prop := a.y < b.y ∨ (a.y = b.y ∧ (a.m < b.m ∨ (a.m = b.m ∧ a.d < b.d)))

/-- The day number orders valid dates chronologically. -/
theorem ord_lt_of_lt (a b : Ymd) (ha : a.Valid) (hb : b.Valid) (h : a.lt b) : a.ord < b.ord := by
  have h1 := doy_bounds a ha
  have h2 := doy_bounds b hb
  rcases h with h | ⟨hy, h | ⟨hm, h⟩⟩
  · have := dby_mono a.y b.y h
    unfold Ymd.ord; omega
  · have := dbm_le a.y a.m b.m ha.1 h
    obtain ⟨_, _, a3, a4⟩ := ha
    obtain ⟨_, _, b3, b4⟩ := hb
    unfold Ymd.ord; rw [← hy] at *; omega
  · unfold Ymd.ord; rw [← hy, ← hm]; omega

theorem lt_trichotomy (a b : Ymd) : a.lt b ∨ a = b ∨ b.lt a := by
  obtain ⟨ay, am, ad⟩ := a
  obtain ⟨by', bm, bd⟩ := b
  unfold Ymd.lt
  simp only [Ymd.mk.injEq]
  omega

/-- Distinct valid dates have distinct numbers. -/
theorem ord_inj (a b : Ymd) (ha : a.Valid) (hb : b.Valid) (h : a.ord = b.ord) : a = b := by
  rcases lt_trichotomy a b with hl | he | hg
  · have := ord_lt_of_lt a b ha hb hl; omega
  · exact he
  · have := ord_lt_of_lt b a hb ha hg; omega

theorem ord_lt_iff (a b : Ymd) (ha : a.Valid) (hb : b.Valid) : a.ord < b.ord ↔ a.lt b := by
  refine ⟨fun h => ?_, ord_lt_of_lt a b ha hb⟩
  rcases lt_trichotomy a b with hl | he | hg
  · exact hl
  · rw [he] at h; omega
  · have := ord_lt_of_lt b a hb ha hg; omega

/-- The year of day `n`. -/
def yearOf (n : Int) : Int :=
  let y := 400 * (n - 1) / 146097 + 1
  if n ≤ dby y then y - 1 else if dby (y + 1) < n then y + 1 else y

theorem yearOf_spec (n : Int) : dby (yearOf n) < n ∧ n ≤ dby (yearOf n + 1) := by
  unfold yearOf
  generalize hy : 400 * (n - 1) / 146097 + 1 = y
  simp only
  have b1 := dby_mono_succ (y - 1)
  have b2 := dby_mono_succ (y + 1)
  rw [show y - 1 + 1 = y by omega] at b1
  have l : dby (y - 1) < n := by unfold dby; omega
  have u : n ≤ dby (y + 1 + 1) := by unfold dby; omega
  split
  · rw [show y - 1 + 1 = y by omega]; omega
  · split <;> omega

/-- The month of the `k`-th day (from 1) of year `y`. -/
def monthOf (y : Int) (k : Nat) : Nat :=
  if k ≤ dbm y 2 then 1 else if k ≤ dbm y 3 then 2 else if k ≤ dbm y 4 then 3 else if k ≤ dbm y 5 then 4
  else if k ≤ dbm y 6 then 5 else if k ≤ dbm y 7 then 6 else if k ≤ dbm y 8 then 7 else if k ≤ dbm y 9 then 8
  else if k ≤ dbm y 10 then 9 else if k ≤ dbm y 11 then 10 else if k ≤ dbm y 12 then 11 else 12

theorem monthOf_spec (y : Int) (k : Nat) (h1 : 1 ≤ k) (h2 : k ≤ yearLen y) :
    1 ≤ monthOf y k ∧ monthOf y k ≤ 12 ∧ dbm y (monthOf y k) < k ∧ k ≤ dbm y (monthOf y k + 1) := by
  rw [← dbm_13] at h2
  have e1 : dbm y 1 = 0 := rfl
  unfold monthOf
  repeat' split
  all_goals refine ⟨by norm_num, by norm_num, ?_, ?_⟩ <;> (norm_num at *; try omega)

/-- The date of day `n`. -/
def ofOrd (n : Int) : Ymd :=
  let y := yearOf n
  let k := (n - dby y).toNat
  { y := y, m := monthOf y k, d := k - dbm y (monthOf y k) }

theorem ofOrd_spec (n : Int) : (ofOrd n).Valid ∧ (ofOrd n).ord = n := by
  have hy := yearOf_spec n
  rw [dby_succ] at hy
  have hm := monthOf_spec (yearOf n) (n - dby (yearOf n)).toNat (by omega) (by omega)
  unfold ofOrd
  simp only
  generalize hk : (n - dby (yearOf n)).toNat = k at *
  generalize monthOf (yearOf n) k = m at *
  obtain ⟨h1, h2, h3, h4⟩ := hm
  rw [dbm_succ _ _ h1] at h4
  refine ⟨⟨h1, h2, by simp only; omega, by simp only; omega⟩, ?_⟩
  simp only [Ymd.ord]
  omega

theorem ofOrd_valid (n : Int) : (ofOrd n).Valid := (ofOrd_spec n).1
theorem ord_ofOrd (n : Int) : (ofOrd n).ord = n := (ofOrd_spec n).2

theorem ofOrd_ord (x : Ymd) (h : x.Valid) : ofOrd x.ord = x :=
  ord_inj _ _ (ofOrd_valid _) h (ord_ofOrd _)

theorem ofOrd_succ (n : Int) : ofOrd (n + 1) = (ofOrd n).next :=
  ord_inj _ _ (ofOrd_valid _) (next_valid _ (ofOrd_valid _))
    (by rw [ord_ofOrd, ord_next _ (ofOrd_valid _), ord_ofOrd])

/-- The day number of 1970-01-01. -/
def epoch : Int := 719163

theorem epoch_ord : (Ymd.mk 1970 1 1).ord = epoch := by decide

end Verif.Civil

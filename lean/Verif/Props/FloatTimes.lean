import Verif.Props.FloatYears
import Verif.Props.CurveTimes
/-!
# Act/Act and the time between two instants in single precision (C140, C141)
-/
set_option autoImplicit false
namespace Verif.Props
open Verif Verif.Float Verif.QL Verif.Civil

theorem daysInYearF_value (y : Int) : f32.Finite (daysInYearF y) (yearLen y) := by
  unfold daysInYearF yearLen
  rw [isLeapYear_eq]
  split
  · have := f32_lit 366 (by norm_num); exact_mod_cast this
  · have := f32_lit 365 (by norm_num); exact_mod_cast this

theorem yearLen_bounds (y : Int) : (365 : ℚ) ≤ yearLen y ∧ (yearLen y : ℚ) ≤ 366 := by
  rcases yearLen_cases y with h | h <;> rw [h] <;> norm_num

/-- Days of a year over its length. -/
theorem part_value (d y : Int) (hd : |d| ≤ 2 ^ 24) :
    f32.Finite (f32.div (f32.ofInt d) (daysInYearF y)) (f32.rnd ((d : ℚ) / yearLen y)) := by
  obtain ⟨l1, l2⟩ := yearLen_bounds y
  refine finite_div (f32_int d hd) (daysInYearF_value y) (by linarith) (le_f32_max ?_)
  rw [abs_div, abs_of_nonneg (by linarith : (0 : ℚ) ≤ yearLen y)]
  have h1 : |(d : ℚ)| ≤ 2 ^ 24 := by exact_mod_cast hd
  calc |(d : ℚ)| / yearLen y ≤ |(d : ℚ)| := div_le_self (abs_nonneg _) (by linarith)
    _ ≤ 2 ^ 100 := h1.trans (by norm_num)

/-- A part of a year that is between zero and one. -/
theorem part_unit (d y : Int) (h0 : 0 ≤ d) (h1 : d ≤ yearLen y) :
    0 ≤ f32.rnd ((d : ℚ) / yearLen y) ∧ f32.rnd ((d : ℚ) / yearLen y) ≤ 1 ∧
      |f32.rnd ((d : ℚ) / yearLen y) - (d : ℚ) / yearLen y| ≤ 2 * u24 := by
  obtain ⟨l1, l2⟩ := yearLen_bounds y
  have n0 : (0 : ℚ) ≤ d := by exact_mod_cast h0
  have n1 : (d : ℚ) ≤ yearLen y := by exact_mod_cast h1
  have q0 : 0 ≤ (d : ℚ) / yearLen y := div_nonneg n0 (by linarith)
  have q1 : (d : ℚ) / yearLen y ≤ 1 := by rw [div_le_one (by linarith)]; exact n1
  have r1 : f32.Rep 1 := f32_one.rep
  refine ⟨rnd_nonneg f32 q0, rnd_le f32 q1 r1, ?_⟩
  have := f32_rnd_err ((d : ℚ) / yearLen y)
  rw [abs_of_nonneg q0] at this
  refine this.trans ?_
  have := mul_le_mul_of_nonneg_right q1 (by norm_num : (0 : ℚ) ≤ u24)
  have hu : (0 : ℚ) < u24 := by norm_num
  linarith

theorem sy_days (s : DT) : 0 ≤ (Ymd.mk s.ymd.y 12 31).ord - s.day ∧ (Ymd.mk s.ymd.y 12 31).ord - s.day ≤ yearLen s.ymd.y := by
  have b := day_bounds s.day
  change dby s.ymd.y < s.day ∧ s.day ≤ dby s.ymd.y + yearLen s.ymd.y at b
  rw [dec31, dby_succ]
  omega

theorem ey_days (e : DT) : 0 ≤ e.day - (Ymd.mk (e.ymd.y - 1) 12 31).ord ∧ e.day - (Ymd.mk (e.ymd.y - 1) 12 31).ord ≤ yearLen e.ymd.y := by
  have b := day_bounds e.day
  change dby e.ymd.y < e.day ∧ e.day ≤ dby e.ymd.y + yearLen e.ymd.y at b
  rw [dec31, show e.ymd.y - 1 + 1 = e.ymd.y by ring]
  omega

theorem yearLen_small (y : Int) : yearLen y ≤ 2 ^ 24 := by rcases yearLen_cases y with h | h <;> rw [h] <;> norm_num

/-- **C140** (Act/Act ISDA, error). The sum over the years is within `3 n + 10` parts in `2 ^ 24` of the exact one, `n` the
number of years between the two dates. -/
theorem C140_isda (s e : DT) (hs : s.Valid) (he : e.Valid) (so : OffOk s) (eo : OffOk e) (q : ℚ)
    (h : yearFraction s e .actActIsda = .ok q) :
    ∃ f x, yearFractionF s e .actActIsda = .ok f ∧ f32.Finite f x ∧ |x - q| ≤ (3 * |e.ymd.y - s.ymd.y| + 10 : Int) / 2 ^ 24 := by
  have nn : (0 : ℚ) ≤ (3 * |e.ymd.y - s.ymd.y| + 10 : Int) / 2 ^ 24 := by
    have : (0 : Int) ≤ 3 * |e.ymd.y - s.ymd.y| + 10 := by have := abs_nonneg (e.ymd.y - s.ymd.y); omega
    have : (0 : ℚ) ≤ (3 * |e.ymd.y - s.ymd.y| + 10 : Int) := by exact_mod_cast this
    positivity
  unfold yearFraction at h
  unfold yearFractionF
  split_ifs at h with hlt
  rw [if_neg hlt]
  simp only [Except.ok.injEq] at h ⊢
  subst h
  suffices hx : ∃ x, f32.Finite (yearLoopF s.ymd.y e.ymd.y (isdaPartF s e)) x ∧
      |x - yearLoop s.ymd.y e.ymd.y (isdaPart s e)| ≤ (3 * |e.ymd.y - s.ymd.y| + 10 : Int) / 2 ^ 24 by
    obtain ⟨x, hx⟩ := hx
    exact ⟨_, x, rfl, hx⟩
  obtain ⟨a1, a2, -⟩ := year_range s hs
  obtain ⟨b1, b2, -⟩ := year_range e he
  rcases Int.lt_trichotomy s.ymd.y e.ymd.y with hy | hy | hy
  · have hne : ¬ e.ymd.y = s.ymd.y := by omega
    have p1 : f32.Finite (isdaPartF s e s.ymd.y) (f32.rnd ((((Ymd.mk s.ymd.y 12 31).ord - s.day : Int) : ℚ) / yearLen s.ymd.y)) := by
      unfold isdaPartF
      simp only [if_true, if_neg hne]
      obtain ⟨d1, d2⟩ := sy_days s
      have := yearLen_small s.ymd.y
      exact part_value _ _ (by rw [abs_of_nonneg d1]; omega)
    have p2 : f32.Finite (isdaPartF s e e.ymd.y) (f32.rnd (((e.day - (Ymd.mk (e.ymd.y - 1) 12 31).ord : Int) : ℚ) / yearLen e.ymd.y)) := by
      unfold isdaPartF
      simp only [if_true, if_neg hne]
      obtain ⟨d1, d2⟩ := ey_days e
      have := yearLen_small e.ymd.y
      exact part_value _ _ (by rw [abs_of_nonneg d1]; omega)
    obtain ⟨x1, x2, x3⟩ := part_unit _ _ (sy_days s).1 (sy_days s).2
    obtain ⟨y1, y2, y3⟩ := part_unit _ _ (ey_days e).1 (ey_days e).2
    obtain ⟨a, f1, f2⟩ := loop_total s.ymd.y e.ymd.y (isdaPartF s e) _ _ hy (by omega) p1 p2 (by linarith) (by linarith) (by linarith) (by linarith)
      (fun k h1 h2 => by
        unfold isdaPartF
        simp only [if_neg (show ¬ k = s.ymd.y by omega), if_neg (show ¬ k = e.ymd.y by omega)])
    refine ⟨a, f1, ?_⟩
    rw [yearLoop_eq _ _ _ hy (fun k h1 h2 => by
      unfold isdaPart
      simp only [if_neg (show ¬ k = s.ymd.y by omega), if_neg (show ¬ k = e.ymd.y by omega)])]
    have v1 : isdaPart s e s.ymd.y = (((Ymd.mk s.ymd.y 12 31).ord - s.day : Int) : ℚ) / yearLen s.ymd.y := by
      unfold isdaPart
      simp only [if_true, if_neg hne, daysInYear_eq]
    have v2 : isdaPart s e e.ymd.y = ((e.day - (Ymd.mk (e.ymd.y - 1) 12 31).ord : Int) : ℚ) / yearLen e.ymd.y := by
      unfold isdaPart
      simp only [if_true, if_neg hne, daysInYear_eq]
    rw [v1, v2, abs_of_pos (show 0 < e.ymd.y - s.ymd.y by omega)]
    have tg : ((3 * (e.ymd.y - s.ymd.y) + 10 : Int) : ℚ) / 2 ^ 24 = u24 * (3 * (e.ymd.y - s.ymd.y : Int) + 10) := by
      push_cast; norm_num; ring
    rw [tg]
    generalize f32.rnd ((((Ymd.mk s.ymd.y 12 31).ord - s.day : Int) : ℚ) / yearLen s.ymd.y) = X at *
    generalize f32.rnd (((e.day - (Ymd.mk (e.ymd.y - 1) 12 31).ord : Int) : ℚ) / yearLen e.ymd.y) = Y at *
    generalize (((Ymd.mk s.ymd.y 12 31).ord - s.day : Int) : ℚ) / yearLen s.ymd.y = X' at *
    generalize ((e.day - (Ymd.mk (e.ymd.y - 1) 12 31).ord : Int) : ℚ) / yearLen e.ymd.y = Y' at *
    generalize ((e.ymd.y - s.ymd.y - 1 : Int) : ℚ) = N at *
    generalize ((e.ymd.y - s.ymd.y : Int) : ℚ) = M at *
    generalize u24 = U at *
    have : a - (X' + N + Y') = (a - (X + N + Y)) + (X - X') + (Y - Y') := by ring
    rw [this]
    refine (abs_add_le _ _).trans ((add_le_add (abs_add_le _ _) le_rfl).trans ?_)
    linarith
  · have w := wholeDays_bound s e hs he so eo
    have p1 : f32.Finite (isdaPartF s e s.ymd.y) (f32.rnd ((wholeDays s e : ℚ) / yearLen s.ymd.y)) := by
      unfold isdaPartF
      simp only [if_true, if_pos hy.symm]
      exact part_value _ _ (by omega)
    rw [← hy, yearLoop_one]
    refine ⟨_, yearLoopF_one _ _ _ p1, ?_⟩
    have v1 : isdaPart s e s.ymd.y = (wholeDays s e : ℚ) / yearLen s.ymd.y := by
      unfold isdaPart
      simp only [if_true, if_pos hy.symm, daysInYear_eq]
    rw [v1, sub_self, abs_zero]
    -- the days of one year
    have wb : |wholeDays s e| ≤ 400 := by
      have b1 := day_bounds s.day
      change dby s.ymd.y < s.day ∧ s.day ≤ dby s.ymd.y + yearLen s.ymd.y at b1
      have b2 := day_bounds e.day
      change dby e.ymd.y < e.day ∧ e.day ≤ dby e.ymd.y + yearLen e.ymd.y at b2
      rw [← hy] at b2
      have hyl := yearLen_cases s.ymd.y
      obtain ⟨-, -, t1⟩ := hs
      obtain ⟨-, -, t2⟩ := he
      unfold OffOk at so eo
      rw [abs_le] at so eo
      have bd : |e.instant - s.instant| < 400 * dayNs := by
        unfold DT.instant DT.localNs
        unfold dayNs at *
        rw [abs_lt]
        constructor <;> omega
      unfold wholeDays
      rw [abs_lt] at bd
      have hp : (0 : Int) < dayNs := by decide
      have l1 := Int.tdiv_le_tdiv hp (show e.instant - s.instant ≤ 400 * dayNs by omega)
      have l2 := Int.tdiv_le_tdiv hp (show -400 * dayNs ≤ e.instant - s.instant by omega)
      rw [Int.mul_tdiv_cancel _ hp.ne'] at l1 l2
      rw [abs_le]
      omega
    obtain ⟨l1, l2⟩ := yearLen_bounds s.ymd.y
    have q1 : |(wholeDays s e : ℚ) / yearLen s.ymd.y| ≤ 2 := by
      rw [abs_div, abs_of_nonneg (by linarith : (0 : ℚ) ≤ yearLen s.ymd.y), div_le_iff₀ (by linarith)]
      have : |(wholeDays s e : ℚ)| ≤ 400 := by exact_mod_cast wb
      linarith
    have := f32_rnd_err ((wholeDays s e : ℚ) / yearLen s.ymd.y)
    refine this.trans ?_
    have := mul_le_mul_of_nonneg_right q1 (by norm_num : (0 : ℚ) ≤ u24)
    norm_num at *
    linarith
  · rw [yearLoop_empty _ _ _ hy, yearLoopF_empty _ _ _ hy]
    exact ⟨0, f32_zero, by rw [sub_zero, abs_zero]; exact nn⟩

/-! ### Order of Act/Act -/

theorem yearLoopF_congr (sy : Int) (p p' : Int → Fl) (n : Nat) (h : ∀ k, sy ≤ k → k ≤ sy + n → p k = p' k) :
    yearLoopF sy (sy + n) p = yearLoopF sy (sy + n) p' := by
  induction n with
  | zero =>
    have h1 := yearLoopF_succ sy 0 p
    have h2 := yearLoopF_succ sy 0 p'
    simp only [Int.natCast_zero, add_zero] at h1 h2 ⊢
    rw [h1, h2, yearLoopF_empty _ _ _ (by omega), yearLoopF_empty _ _ _ (by omega), h sy (le_refl _) (by simp)]
  | succ n ih =>
    rw [yearLoopF_succ, yearLoopF_succ, show sy + ((n + 1 : Nat) : Int) - 1 = sy + n by push_cast; ring,
      ih (fun k h1 h2 => h k h1 (by push_cast; omega)), h _ (by push_cast; omega) (le_refl _)]

/-- Adding what is not negative does not lower a sum. -/
theorem loop_grows (sy : Int) (p : Int → Fl) (v : Int → ℚ) (n m : Nat) (hnm : n ≤ m) (hm : m ≤ 20000)
    (hv : ∀ k, sy ≤ k → k ≤ sy + m → f32.Finite (p k) (v k) ∧ 0 ≤ v k ∧ v k ≤ 2) :
    ∃ a b, f32.Finite (yearLoopF sy (sy + n) p) a ∧ f32.Finite (yearLoopF sy (sy + m) p) b ∧ 0 ≤ a ∧ a ≤ b ∧ b ≤ 2 * (m + 1) := by
  have one : ∀ m : Nat, m ≤ 20000 → (∀ k, sy ≤ k → k ≤ sy + m → f32.Finite (p k) (v k) ∧ 0 ≤ v k ∧ v k ≤ 2) →
      ∃ b, f32.Finite (yearLoopF sy (sy + m) p) b ∧ 0 ≤ b ∧ b ≤ 2 * (m + 1) := by
    intro m
    induction m with
    | zero =>
      intro _ h
      obtain ⟨h1, h2, h3⟩ := h sy (le_refl _) (by simp)
      exact ⟨v sy, by simpa using yearLoopF_one sy p _ h1, h2, by simpa using h3⟩
    | succ m ih =>
      intro hm h
      obtain ⟨b, b1, b2, b3⟩ := ih (by omega) (fun k h1 h2 => h k h1 (by push_cast; omega))
      obtain ⟨h1, h2, h3⟩ := h (sy + (m + 1 : Nat)) (by omega) (le_refl _)
      have hm' : (m : ℚ) ≤ 20000 := by exact_mod_cast (by omega : m ≤ 20000)
      rw [yearLoopF_succ, show sy + ((m + 1 : Nat) : Int) - 1 = sy + m by push_cast; ring]
      have fin := finite_add b1 h1 (le_f32_max (by
      rw [abs_of_nonneg (by linarith)]
      have h9 : (100000 : ℚ) ≤ 2 ^ 100 := by norm_num
      linarith))
      refine ⟨_, fin, rnd_nonneg f32 (by linarith), ?_⟩
      have hr : f32.Rep ((2 * (m + 2) : Int) : ℚ) := rep_int f32 (by decide) _ (by
        rw [show f32.prec = 24 from rfl, abs_of_nonneg (by omega)]; omega)
      have := rnd_le f32 (x := b + v (sy + (m + 1 : Nat))) (by push_cast at h3 ⊢; linarith) hr
      push_cast at this ⊢
      linarith
  induction m, hnm using Nat.le_induction with
  | base =>
    obtain ⟨b, b1, b2, b3⟩ := one n hm hv
    exact ⟨b, b, b1, b1, b2, le_refl _, b3⟩
  | succ m hnm ih =>
    obtain ⟨a, b, a1, b1, a2, ab, b3⟩ := ih (by omega) (fun k h1 h2 => hv k h1 (by push_cast; omega))
    obtain ⟨c, c1, c2, c3⟩ := one (m + 1) hm hv
    obtain ⟨h1, h2, h3⟩ := hv (sy + (m + 1 : Nat)) (by omega) (le_refl _)
    refine ⟨a, c, a1, c1, a2, ?_, c3⟩
    have hm' : (m : ℚ) ≤ 20000 := by exact_mod_cast (by omega : m ≤ 20000)
    have fin := finite_add b1 h1 (le_f32_max (by
      rw [abs_of_nonneg (by linarith)]
      have h9 : (100000 : ℚ) ≤ 2 ^ 100 := by norm_num
      linarith))
    rw [yearLoopF_succ, show sy + ((m + 1 : Nat) : Int) - 1 = sy + m by push_cast; ring] at c1
    rw [c1.unique fin]
    exact ab.trans (le_rnd f32 (by linarith) b1.rep)

/-- The values of the parts of Act/Act when the end is in a later year. -/
noncomputable def isdaValue (s e : DT) (k : Int) : ℚ :=
  if k = s.ymd.y then f32.rnd ((((Ymd.mk s.ymd.y 12 31).ord - s.day : Int) : ℚ) / yearLen s.ymd.y)
  else if k = e.ymd.y then f32.rnd (((e.day - (Ymd.mk (e.ymd.y - 1) 12 31).ord : Int) : ℚ) / yearLen e.ymd.y)
  else 1

theorem isda_values (s e : DT) (hy : s.ymd.y < e.ymd.y) (k : Int) :
    f32.Finite (isdaPartF s e k) (isdaValue s e k) ∧ 0 ≤ isdaValue s e k ∧ isdaValue s e k ≤ 1 := by
  have hne : ¬ e.ymd.y = s.ymd.y := by omega
  unfold isdaPartF isdaValue
  dsimp only
  by_cases h1 : k = s.ymd.y
  · subst h1
    simp only [if_true, if_neg hne]
    obtain ⟨d1, d2⟩ := sy_days s
    have := yearLen_small s.ymd.y
    obtain ⟨x1, x2, -⟩ := part_unit _ _ d1 d2
    exact ⟨part_value _ _ (by rw [abs_of_nonneg d1]; omega), x1, x2⟩
  · simp only [if_neg h1]
    by_cases h2 : k = e.ymd.y
    · subst h2
      simp only [if_true]
      obtain ⟨d1, d2⟩ := ey_days e
      have := yearLen_small e.ymd.y
      obtain ⟨x1, x2, -⟩ := part_unit _ _ d1 d2
      exact ⟨part_value _ _ (by rw [abs_of_nonneg d1]; omega), x1, x2⟩
    · simp only [if_neg h2]
      exact ⟨f32_one, by norm_num, le_refl _⟩

/-- **C140** (Act/Act ISDA, order). For dates at one offset a later end gives no smaller year fraction in single precision. -/
theorem C140_isda_order (s e e' : DT) (hs : s.Valid) (he : e.Valid) (he' : e'.Valid) (so : OffOk s) (ho : e.off = s.off)
    (ho' : e'.off = s.off) (h : s.instant ≤ e.instant) (h' : e.instant ≤ e'.instant) :
    ∃ f f', yearFractionF s e .actActIsda = .ok f ∧ yearFractionF s e' .actActIsda = .ok f' ∧ f.le f' = true := by
  have eo : OffOk e := by unfold OffOk at *; rwa [ho]
  have eo' : OffOk e' := by unfold OffOk at *; rwa [ho']
  unfold yearFractionF
  rw [if_neg (by omega), if_neg (by omega)]
  refine ⟨_, _, rfl, rfl, ?_⟩
  have dse := day_le_of_instant hs he ho.symm h
  have dee := day_le_of_instant he he' (ho.trans ho'.symm) h'
  have y1 : s.ymd.y ≤ e.ymd.y := year_mono dse
  have y2 : e.ymd.y ≤ e'.ymd.y := year_mono dee
  obtain ⟨r1, r2, -⟩ := year_range s hs
  obtain ⟨r3, r4, -⟩ := year_range e' he'
  have dayp : (0 : Int) < dayNs := by decide
  rcases eq_or_lt_of_le y1 with hse | hse
  · -- the first end is in the year of the start
    have w := wholeDays_bound s e hs he so eo
    have p1 : f32.Finite (isdaPartF s e s.ymd.y) (f32.rnd ((wholeDays s e : ℚ) / yearLen s.ymd.y)) := by
      unfold isdaPartF
      simp only [if_true, if_pos hse.symm]
      exact part_value _ _ (by omega)
    have f1 := yearLoopF_one _ _ _ p1
    rw [← hse]
    obtain ⟨l1, l2⟩ := yearLen_bounds s.ymd.y
    rcases eq_or_lt_of_le (hse ▸ y2) with hse' | hse'
    · have w' := wholeDays_bound s e' hs he' so eo'
      have p2 : f32.Finite (isdaPartF s e' s.ymd.y) (f32.rnd ((wholeDays s e' : ℚ) / yearLen s.ymd.y)) := by
        unfold isdaPartF
        simp only [if_true, if_pos hse'.symm]
        exact part_value _ _ (by omega)
      have f2 := yearLoopF_one _ _ _ p2
      rw [← hse', finite_le f1 f2, decide_eq_true_eq]
      refine rnd_mono f32 (div_le_div_of_nonneg_right ?_ (by linarith))
      have : wholeDays s e ≤ wholeDays s e' := by
        unfold wholeDays
        exact Int.tdiv_le_tdiv dayp (by omega)
      exact_mod_cast this
    · obtain ⟨n, hn⟩ : ∃ n : Nat, e'.ymd.y = s.ymd.y + n := ⟨(e'.ymd.y - s.ymd.y).toNat, by omega⟩
      obtain ⟨a, b, a1, b1, -, ab, -⟩ := loop_grows s.ymd.y (isdaPartF s e') (isdaValue s e') 0 n (by omega) (by omega)
        (fun k _ _ => by
          obtain ⟨h1, h2, h3⟩ := isda_values s e' hse' k
          exact ⟨h1, h2, by linarith⟩)
      rw [hn, finite_le f1 b1, decide_eq_true_eq]
      refine le_trans ?_ ab
      have pa := isda_values s e' hse' s.ymd.y
      have a1' := yearLoopF_one _ _ _ pa.1
      rw [Int.natCast_zero, add_zero] at a1
      rw [a1.unique a1']
      unfold isdaValue
      rw [if_pos rfl]
      refine rnd_mono f32 (div_le_div_of_nonneg_right ?_ (by linarith))
      have : wholeDays s e ≤ (Ymd.mk s.ymd.y 12 31).ord - s.day := by
        have b := day_bounds e.day
        change dby e.ymd.y < e.day ∧ e.day ≤ dby e.ymd.y + yearLen e.ymd.y at b
        rw [dec31, dby_succ]
        rw [← hse] at b
        have wle : wholeDays s e ≤ e.day - s.day := by
          unfold wholeDays
          rw [Int.tdiv_eq_ediv_of_nonneg (by omega)]
          have : (e.instant - s.instant) / dayNs < e.day - s.day + 1 := by
            rw [Int.ediv_lt_iff_lt_mul dayp]
            have t2 := he.2.2
            unfold DT.instant DT.localNs
            rw [ho]
            have : (e.day - s.day + 1) * dayNs = e.day * dayNs - s.day * dayNs + dayNs := by ring
            omega
          omega
        omega
      exact_mod_cast this
  · -- both are later
    have hse' : s.ymd.y < e'.ymd.y := by omega
    obtain ⟨n, hn⟩ : ∃ n : Nat, e.ymd.y = s.ymd.y + (n + 1 : Nat) := ⟨(e.ymd.y - s.ymd.y - 1).toNat, by push_cast; omega⟩
    obtain ⟨m, hm⟩ : ∃ m : Nat, e'.ymd.y = s.ymd.y + m := ⟨(e'.ymd.y - s.ymd.y).toNat, by omega⟩
    have hv' : ∀ k, s.ymd.y ≤ k → k ≤ s.ymd.y + m → f32.Finite (isdaPartF s e' k) (isdaValue s e' k) ∧ 0 ≤ isdaValue s e' k ∧ isdaValue s e' k ≤ 2 := by
      intro k _ _
      obtain ⟨h1, h2, h3⟩ := isda_values s e' hse' k
      exact ⟨h1, h2, by linarith⟩
    obtain ⟨c, b, c1, b1, -, cb, -⟩ := loop_grows s.ymd.y (isdaPartF s e') (isdaValue s e') (n + 1) m (by omega) (by omega) hv'
    obtain ⟨a, -, a1, -, a0, -, -⟩ := loop_grows s.ymd.y (isdaPartF s e') (isdaValue s e') n n (le_refl _) (by omega)
      (fun k h1 h2 => hv' k h1 (by omega))
    obtain ⟨q, q', q1, -, q0, qq, qb⟩ := loop_grows s.ymd.y (isdaPartF s e') (isdaValue s e') n n (le_refl _) (by omega)
      (fun k h1 h2 => hv' k h1 (by omega))
    -- up to the year before the first end both sums are the same
    have same : yearLoopF s.ymd.y (s.ymd.y + n) (isdaPartF s e) = yearLoopF s.ymd.y (s.ymd.y + n) (isdaPartF s e') := by
      refine yearLoopF_congr _ _ _ _ fun k k1 k2 => ?_
      unfold isdaPartF
      dsimp only
      by_cases hk : k = s.ymd.y
      · simp only [if_pos hk, if_neg (show ¬ e.ymd.y = s.ymd.y by omega), if_neg (show ¬ e'.ymd.y = s.ymd.y by omega)]
      · simp only [if_neg hk, if_neg (show ¬ k = e.ymd.y by omega), if_neg (show ¬ k = e'.ymd.y by omega)]
    obtain ⟨g1, g2, g3⟩ := isda_values s e hse e.ymd.y
    obtain ⟨k1, k2, k3⟩ := isda_values s e' hse' e.ymd.y
    have step : isdaValue s e e.ymd.y ≤ isdaValue s e' e.ymd.y := by
      by_cases hee : e.ymd.y = e'.ymd.y
      · unfold isdaValue
        have n1 : ¬ e.ymd.y = s.ymd.y := by omega
        simp only [if_neg n1, if_true, if_pos hee, ← hee]
        obtain ⟨l1, l2⟩ := yearLen_bounds e.ymd.y
        refine rnd_mono f32 (div_le_div_of_nonneg_right ?_ (by linarith))
        exact_mod_cast (by omega : e.day - (Ymd.mk (e.ymd.y - 1) 12 31).ord ≤ e'.day - (Ymd.mk (e.ymd.y - 1) 12 31).ord)
      · have : isdaValue s e' e.ymd.y = 1 := by
          unfold isdaValue
          rw [if_neg (by omega), if_neg hee]
        rw [this]
        exact g3
    have hn' : (n : ℚ) ≤ 20000 := by exact_mod_cast (by push_cast at hn; omega : n ≤ 20000)
    have aq := a1.unique q1
    have fe := finite_add a1 g1 (le_f32_max (by
      rw [abs_of_nonneg (by linarith)]
      have h9 : (100000 : ℚ) ≤ 2 ^ 100 := by norm_num
      linarith))
    have fe' := finite_add a1 k1 (le_f32_max (by
      rw [abs_of_nonneg (by linarith)]
      have h9 : (100000 : ℚ) ≤ 2 ^ 100 := by norm_num
      linarith))
    have le1 : yearLoopF s.ymd.y e.ymd.y (isdaPartF s e) = f32.add (yearLoopF s.ymd.y (s.ymd.y + n) (isdaPartF s e')) (isdaPartF s e e.ymd.y) := by
      rw [← same, hn, yearLoopF_succ, show s.ymd.y + ((n + 1 : Nat) : Int) - 1 = s.ymd.y + n by push_cast; ring]
    have le2 : yearLoopF s.ymd.y (s.ymd.y + (n + 1 : Nat)) (isdaPartF s e') = f32.add (yearLoopF s.ymd.y (s.ymd.y + n) (isdaPartF s e')) (isdaPartF s e' e.ymd.y) := by
      rw [yearLoopF_succ, show s.ymd.y + ((n + 1 : Nat) : Int) - 1 = s.ymd.y + n by push_cast; ring, hn]
    rw [le2] at c1
    rw [le1, hm, finite_le fe b1, decide_eq_true_eq]
    refine le_trans ?_ cb
    rw [c1.unique fe']
    exact rnd_mono f32 (by linarith)

end Verif.Props

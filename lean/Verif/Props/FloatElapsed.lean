import Verif.Props.FloatTimes
/-!
# The time between two instants in single precision (C141) and the cached times of a curve (C142)
-/
set_option autoImplicit false
namespace Verif.Props
open Verif Verif.Float Verif.QL Verif.Civil

theorem secondsF_eq (ns : Int) : secondsF ns = normF64 9 ns := by
  unfold secondsF normF64
  dsimp only
  have h1 : powi10 9 = f64.ofInt 1000000000 := by decide +kernel
  have h2 : ns - ns.tdiv (10 ^ 9) * 10 ^ 9 = ns.tmod 1000000000 := by
    have := Int.tmod_add_tdiv_mul ns 1000000000
    norm_num
    omega
  rw [h1, h2]
  norm_num

/-- A difference of instants of less than 400 days. -/
def Short (ns : Int) : Prop := |ns| ≤ 400 * dayNs

theorem short_tdiv (ns : Int) (h : Short ns) : |Int.tdiv ns (10 ^ 9)| < 2 ^ 53 := by
  unfold Short dayNs at h
  rw [abs_le] at h
  have l1 := quotient_mono 1000000000 (by norm_num) (show ns ≤ 35000000 * 1000000000 by omega)
  have l2 := quotient_mono 1000000000 (by norm_num) (show -35000000 * 1000000000 ≤ ns by omega)
  rw [Int.mul_tdiv_cancel _ (by norm_num)] at l1 l2
  norm_num
  rw [abs_lt]
  constructor <;> omega

theorem f32_day : f32.Finite (f32.mul (f32.mul (f32.lit 24) (f32.lit 60)) (f32.lit 60)) 86400 := by
  have e : f32.mul (f32.mul (f32.lit 24) (f32.lit 60)) (f32.lit 60) = f32.lit 86400 := by decide +kernel
  rw [e]
  have := f32_lit 86400 (by norm_num)
  exact_mod_cast this

/-- The fraction of a year: value and error. -/
theorem span_value (ns y : Int) (h : Short ns) :
    ∃ S, f64.Finite (secondsF ns) S ∧
      f32.Finite (f32.div (inDaysF ns) (daysInYearF y)) (f32.rnd (f32.rnd (f32.rnd S / 86400) / yearLen y)) ∧
      |f32.rnd (f32.rnd (f32.rnd S / 86400) / yearLen y) - inDays ns / yearLen y| ≤ 4 * u24 := by
  obtain ⟨S, s1, s2⟩ := C134_norm_error 9 (by norm_num) ns (short_tdiv ns h)
  rw [← secondsF_eq] at s1
  refine ⟨S, s1, ?_⟩
  have hX : |(ns : ℚ) / 10 ^ 9| ≤ 400 * 86400 := by
    rw [abs_div, abs_of_pos (by norm_num : (0 : ℚ) < 10 ^ 9), div_le_iff₀ (by norm_num)]
    unfold Short dayNs at h
    have : |(ns : ℚ)| ≤ 400 * 86400000000000 := by exact_mod_cast h
    norm_num at this ⊢
    linarith
  have hm : max 1 |(ns : ℚ) / 10 ^ 9| ≤ 400 * 86400 := max_le (by norm_num) hX
  have hS : |S - (ns : ℚ) / 10 ^ 9| ≤ 1 / 10000000 := by
    refine s2.trans ((mul_le_mul_of_nonneg_left hm (by norm_num)).trans (by norm_num))
  obtain ⟨l1, l2⟩ := yearLen_bounds y
  have hid : inDays ns = (ns : ℚ) / 10 ^ 9 / 86400 := by
    unfold inDays dayNs
    push_cast
    rw [div_div]
    norm_num
  rw [hid]
  generalize (ns : ℚ) / 10 ^ 9 = X at *
  have bS : |S| ≤ 34560001 := by
    have := abs_sub_abs_le_abs_sub S X
    linarith
  -- as f32
  have c1 : f32.Finite (f32.cast (secondsF ns)) (f32.rnd S) := by
    obtain ⟨s, e, -, -, -⟩ := s1
    rw [e]
    refine finite_of f32 s S (le_f32_max (bS.trans (by norm_num)))
  have e1 := f32_rnd_err S
  have b1 : |f32.rnd S| ≤ 34560004 := by
    have := abs_sub_abs_le_abs_sub (f32.rnd S) S
    have := mul_le_mul_of_nonneg_right bS (by norm_num : (0 : ℚ) ≤ u24)
    norm_num at *
    linarith
  have q2 : |f32.rnd S / 86400| ≤ 401 := by
    rw [abs_div, abs_of_pos (by norm_num : (0 : ℚ) < 86400), div_le_iff₀ (by norm_num)]
    linarith
  have c2 : f32.Finite (inDaysF ns) (f32.rnd (f32.rnd S / 86400)) :=
    finite_div c1 f32_day (by norm_num) (le_f32_max (q2.trans (by norm_num)))
  have e2 := f32_rnd_err (f32.rnd S / 86400)
  have b2 : |f32.rnd (f32.rnd S / 86400)| ≤ 402 := by
    have := abs_sub_abs_le_abs_sub (f32.rnd (f32.rnd S / 86400)) (f32.rnd S / 86400)
    have := mul_le_mul_of_nonneg_right q2 (by norm_num : (0 : ℚ) ≤ u24)
    norm_num at *
    linarith
  have yp : (0 : ℚ) < yearLen y := by linarith
  have q3 : |f32.rnd (f32.rnd S / 86400) / yearLen y| ≤ 12 / 10 := by
    rw [abs_div, abs_of_pos yp, div_le_iff₀ yp]
    linarith
  have c3 := finite_div c2 (daysInYearF_value y) yp.ne' (le_f32_max (q3.trans (by norm_num)))
  refine ⟨c3, ?_⟩
  have e3 := f32_rnd_err (f32.rnd (f32.rnd S / 86400) / yearLen y)
  generalize f32.rnd (f32.rnd (f32.rnd S / 86400) / yearLen y) = V at *
  generalize f32.rnd (f32.rnd S / 86400) = D at *
  generalize f32.rnd S = T at *
  -- the errors in years
  have k1 : |V - D / yearLen y| ≤ 125 / 100 * u24 := by
    have := mul_le_mul_of_nonneg_right q3 (by norm_num : (0 : ℚ) ≤ u24)
    norm_num at *
    linarith
  have k2 : |D / yearLen y - T / 86400 / yearLen y| ≤ 115 / 100 * u24 := by
    rw [← sub_div, abs_div, abs_of_pos yp, div_le_iff₀ yp]
    have := mul_le_mul_of_nonneg_right q2 (by norm_num : (0 : ℚ) ≤ u24)
    have : (115 : ℚ) / 100 * u24 * 365 ≤ 115 / 100 * u24 * yearLen y := mul_le_mul_of_nonneg_left l1 (by norm_num)
    norm_num at *
    linarith
  have k3 : |T / 86400 / yearLen y - X / 86400 / yearLen y| ≤ 115 / 100 * u24 := by
    rw [← sub_div, ← sub_div, abs_div, abs_div, abs_of_pos yp, abs_of_pos (by norm_num : (0 : ℚ) < 86400), div_div,
      div_le_iff₀ (by positivity)]
    have h1 : |T - X| ≤ |T - S| + |S - X| := abs_sub_le _ _ _
    have h2 := mul_le_mul_of_nonneg_right bS (by norm_num : (0 : ℚ) ≤ u24)
    have h3 : (115 : ℚ) / 100 * u24 * (86400 * 365) ≤ 115 / 100 * u24 * (86400 * yearLen y) :=
      mul_le_mul_of_nonneg_left (by linarith) (by norm_num)
    norm_num at *
    linarith
  have t1 := abs_sub_le V (D / yearLen y) (X / 86400 / yearLen y)
  have t2 := abs_sub_le (D / (yearLen y : ℚ)) (T / 86400 / yearLen y) (X / 86400 / yearLen y)
  have hu : (0 : ℚ) < u24 := by norm_num
  linarith

theorem start_short (s : DT) (hs : s.Valid) : Short (yearEndInstant s.ymd.y s.off - s.instant) ∧
    -(1 / 300) ≤ inDays (yearEndInstant s.ymd.y s.off - s.instant) / yearLen s.ymd.y ∧
    inDays (yearEndInstant s.ymd.y s.off - s.instant) / yearLen s.ymd.y ≤ 1 := by
  have b := day_bounds s.day
  change dby s.ymd.y < s.day ∧ s.day ≤ dby s.ymd.y + yearLen s.ymd.y at b
  obtain ⟨-, -, t⟩ := hs
  have e : yearEndInstant s.ymd.y s.off - s.instant = (dby s.ymd.y + yearLen s.ymd.y - s.day) * dayNs - s.tod := by
    rw [yearEndInstant_eq, dby_succ]
    unfold DT.instant DT.localNs
    ring
  rw [e]
  have hl := yearLen_cases s.ymd.y
  obtain ⟨l1, l2⟩ := yearLen_bounds s.ymd.y
  refine ⟨?_, ?_, ?_⟩
  · unfold Short
    unfold dayNs at *
    rw [abs_le]
    constructor <;> omega
  · unfold inDays
    rw [le_div_iff₀ (by linarith), le_div_iff₀ (by unfold dayNs; norm_num)]
    have h1 : -dayNs ≤ (dby s.ymd.y + yearLen s.ymd.y - s.day) * dayNs - s.tod := by
      unfold dayNs at *; omega
    have h2 : -(dayNs : ℚ) ≤ (((dby s.ymd.y + yearLen s.ymd.y - s.day) * dayNs - s.tod : Int) : ℚ) := by exact_mod_cast h1
    refine le_trans ?_ h2
    have hd : (0 : ℚ) < dayNs := by unfold dayNs; norm_num
    nlinarith
  · unfold inDays
    rw [div_le_iff₀ (by linarith), div_le_iff₀ (by unfold dayNs; norm_num), one_mul]
    have h1 : (dby s.ymd.y + yearLen s.ymd.y - s.day) * dayNs - s.tod ≤ yearLen s.ymd.y * dayNs := by
      unfold dayNs at *; omega
    exact_mod_cast h1

theorem end_short (s e : DT) (he : e.Valid) (so : OffOk s) (eo : OffOk e) : Short (e.instant - yearEndInstant (e.ymd.y - 1) s.off) ∧
    -(1 / 100) ≤ inDays (e.instant - yearEndInstant (e.ymd.y - 1) s.off) / yearLen e.ymd.y ∧
    inDays (e.instant - yearEndInstant (e.ymd.y - 1) s.off) / yearLen e.ymd.y ≤ 11 / 10 := by
  have b := day_bounds e.day
  change dby e.ymd.y < e.day ∧ e.day ≤ dby e.ymd.y + yearLen e.ymd.y at b
  obtain ⟨-, -, t⟩ := he
  unfold OffOk at so eo
  rw [abs_le] at so eo
  have ee : e.instant - yearEndInstant (e.ymd.y - 1) s.off = (e.day - dby e.ymd.y) * dayNs + e.tod + (s.off - e.off) * 1000000000 := by
    rw [yearEndInstant_eq, show e.ymd.y - 1 + 1 = e.ymd.y by ring]
    unfold DT.instant DT.localNs
    ring
  rw [ee]
  have hl := yearLen_cases e.ymd.y
  obtain ⟨l1, l2⟩ := yearLen_bounds e.ymd.y
  have r1 : -3 * dayNs ≤ (e.day - dby e.ymd.y) * dayNs + e.tod + (s.off - e.off) * 1000000000 := by unfold dayNs at *; omega
  have r2 : (e.day - dby e.ymd.y) * dayNs + e.tod + (s.off - e.off) * 1000000000 ≤ 371 * dayNs := by unfold dayNs at *; omega
  generalize (e.day - dby e.ymd.y) * dayNs + e.tod + (s.off - e.off) * 1000000000 = N at *
  have hd : (0 : ℚ) < dayNs := by unfold dayNs; norm_num
  have r1' : -3 * (dayNs : ℚ) ≤ N := by exact_mod_cast r1
  have r2' : (N : ℚ) ≤ 371 * dayNs := by exact_mod_cast r2
  refine ⟨?_, ?_, ?_⟩
  · unfold Short
    unfold dayNs at *
    rw [abs_le]
    constructor <;> omega
  · unfold inDays
    rw [le_div_iff₀ (by linarith), le_div_iff₀ hd]
    nlinarith
  · unfold inDays
    rw [div_le_iff₀ (by linarith), div_le_iff₀ hd]
    nlinarith

theorem same_short (s e : DT) (hs : s.Valid) (he : e.Valid) (so : OffOk s) (eo : OffOk e) (hy : s.ymd.y = e.ymd.y) :
    Short (e.instant - s.instant) := by
  have b1 := day_bounds s.day
  change dby s.ymd.y < s.day ∧ s.day ≤ dby s.ymd.y + yearLen s.ymd.y at b1
  have b2 := day_bounds e.day
  change dby e.ymd.y < e.day ∧ e.day ≤ dby e.ymd.y + yearLen e.ymd.y at b2
  rw [← hy] at b2
  have hyl := yearLen_cases s.ymd.y
  obtain ⟨-, -, t1⟩ := hs
  obtain ⟨-, -, t2⟩ := he
  unfold OffOk at so eo
  rw [abs_le] at so eo
  unfold Short DT.instant DT.localNs
  unfold dayNs at *
  rw [abs_le]
  constructor <;> omega

/-- **C141** (accuracy). The time between two instants, any offsets and any number `n` of years apart, as it is computed in
single precision, is within `3 n + 14` parts in `2 ^ 24` of the exact one. -/
theorem C141_accuracy (s e : DT) (hs : s.Valid) (he : e.Valid) (so : OffOk s) (eo : OffOk e) :
    ∃ x, f32.Finite (timeDifferenceF s e) x ∧ |x - timeDifference s e| ≤ (3 * |e.ymd.y - s.ymd.y| + 14 : Int) / 2 ^ 24 := by
  have nn : (0 : ℚ) ≤ (3 * |e.ymd.y - s.ymd.y| + 14 : Int) / 2 ^ 24 := by
    have : (0 : Int) ≤ 3 * |e.ymd.y - s.ymd.y| + 14 := by have := abs_nonneg (e.ymd.y - s.ymd.y); omega
    have : (0 : ℚ) ≤ (3 * |e.ymd.y - s.ymd.y| + 14 : Int) := by exact_mod_cast this
    positivity
  obtain ⟨a1, a2, -⟩ := year_range s hs
  obtain ⟨b1, b2, -⟩ := year_range e he
  unfold timeDifferenceF timeDifference
  rcases Int.lt_trichotomy s.ymd.y e.ymd.y with hy | hy | hy
  · have hne : ¬ e.ymd.y = s.ymd.y := by omega
    obtain ⟨u1, u2, u3⟩ := start_short s hs
    obtain ⟨w1, w2, w3⟩ := end_short s e he so eo
    obtain ⟨S, -, p1, p2⟩ := span_value _ s.ymd.y u1
    obtain ⟨S', -, q1, q2⟩ := span_value _ e.ymd.y w1
    have f1 : timePartF s e s.ymd.y = f32.div (inDaysF (yearEndInstant s.ymd.y s.off - s.instant)) (daysInYearF s.ymd.y) := by
      unfold timePartF; simp only [if_true, if_neg hne]
    have f2 : timePartF s e e.ymd.y = f32.div (inDaysF (e.instant - yearEndInstant (e.ymd.y - 1) s.off)) (daysInYearF e.ymd.y) := by
      unfold timePartF; simp only [if_true, if_neg hne]
    rw [← f1] at p1
    rw [← f2] at q1
    have v1 : timePart s e s.ymd.y = inDays (yearEndInstant s.ymd.y s.off - s.instant) / yearLen s.ymd.y := by
      unfold timePart
      simp only [if_true, if_neg hne, daysInYear_eq]
    have v2 : timePart s e e.ymd.y = inDays (e.instant - yearEndInstant (e.ymd.y - 1) s.off) / yearLen e.ymd.y := by
      unfold timePart
      simp only [if_true, if_neg hne, daysInYear_eq]
    rw [yearLoop_eq _ _ _ hy (fun k h1 h2 => by
      unfold timePart
      simp only [if_neg (show ¬ k = s.ymd.y by omega), if_neg (show ¬ k = e.ymd.y by omega)]), v1, v2]
    generalize inDays (yearEndInstant s.ymd.y s.off - s.instant) / (yearLen s.ymd.y : ℚ) = X' at *
    generalize inDays (e.instant - yearEndInstant (e.ymd.y - 1) s.off) / (yearLen e.ymd.y : ℚ) = Y' at *
    generalize f32.rnd (f32.rnd (f32.rnd S / 86400) / yearLen s.ymd.y) = X at *
    generalize f32.rnd (f32.rnd (f32.rnd S' / 86400) / yearLen e.ymd.y) = Y at *
    have hu : (4 : ℚ) * u24 ≤ 1 / 1000 := by norm_num
    obtain ⟨px1, px2⟩ := abs_le.1 (p2.trans hu)
    obtain ⟨py1, py2⟩ := abs_le.1 (q2.trans hu)
    have X1 : -(1 / 2) ≤ X := by clear p2 q2 hu; linarith
    have X2 : X ≤ 2 := by clear p2 q2 hu; linarith
    have Y1 : -(1 / 2) ≤ Y := by clear p2 q2 hu; linarith
    have Y2 : Y ≤ 2 := by clear p2 q2 hu; linarith
    obtain ⟨a, g1, g2⟩ := loop_total s.ymd.y e.ymd.y (timePartF s e) X Y hy (by omega) p1 q1 X1 X2 Y1 Y2
      (fun k h1 h2 => by
        unfold timePartF
        simp only [if_neg (show ¬ k = s.ymd.y by omega), if_neg (show ¬ k = e.ymd.y by omega)])
    refine ⟨a, g1, ?_⟩
    rw [abs_of_pos (show 0 < e.ymd.y - s.ymd.y by omega)]
    have tg : ((3 * (e.ymd.y - s.ymd.y) + 14 : Int) : ℚ) / 2 ^ 24 = u24 * (3 * (e.ymd.y - s.ymd.y : Int) + 14) := by
      push_cast; norm_num; ring
    rw [tg]
    generalize ((e.ymd.y - s.ymd.y - 1 : Int) : ℚ) = N at *
    generalize ((e.ymd.y - s.ymd.y : Int) : ℚ) = M at *
    have : a - (X' + N + Y') = (a - (X + N + Y)) + (X - X') + (Y - Y') := by ring
    rw [this]
    refine (abs_add_le _ _).trans ((add_le_add (abs_add_le _ _) le_rfl).trans ?_)
    generalize u24 = U at *
    linarith
  · have sh := same_short s e hs he so eo hy
    obtain ⟨S, -, p1, p2⟩ := span_value _ s.ymd.y sh
    have f1 : timePartF s e s.ymd.y = f32.div (inDaysF (e.instant - s.instant)) (daysInYearF s.ymd.y) := by
      unfold timePartF; simp only [if_true, if_pos hy.symm]
    rw [← f1] at p1
    have v1 : timePart s e s.ymd.y = inDays (e.instant - s.instant) / yearLen s.ymd.y := by
      unfold timePart
      simp only [if_true, if_pos hy.symm, daysInYear_eq]
    rw [← hy, yearLoop_one, v1]
    refine ⟨_, yearLoopF_one _ _ _ p1, p2.trans ?_⟩
    rw [sub_self, abs_zero]
    norm_num
  · rw [yearLoop_empty _ _ _ hy, yearLoopF_empty _ _ _ hy]
    exact ⟨0, f32_zero, by rw [sub_zero, abs_zero]; exact nn⟩

/-- Of two instants in the year of the start, the later one is not at the smaller time. -/
theorem order_first_year (s e e' : DT) (hs : s.Valid) (he : e.Valid) (he' : e'.Valid) (so : OffOk s) (eo : OffOk e) (eo' : OffOk e')
    (hy : s.ymd.y = e.ymd.y) (hy' : s.ymd.y = e'.ymd.y) (h : e.instant ≤ e'.instant) :
    (timeDifferenceF s e).le (timeDifferenceF s e') = true := by
  have one : ∀ e : DT, e.Valid → OffOk e → s.ymd.y = e.ymd.y → ∃ S, f64.Finite (secondsF (e.instant - s.instant)) S ∧
      f32.Finite (timeDifferenceF s e) (f32.rnd (f32.rnd (f32.rnd S / 86400) / yearLen s.ymd.y)) := by
    intro e he eo hy
    obtain ⟨S, s1, p1, -⟩ := span_value _ s.ymd.y (same_short s e hs he so eo hy)
    have f1 : timePartF s e s.ymd.y = f32.div (inDaysF (e.instant - s.instant)) (daysInYearF s.ymd.y) := by
      unfold timePartF; simp only [if_true, if_pos hy.symm]
    rw [← f1] at p1
    refine ⟨S, s1, ?_⟩
    unfold timeDifferenceF
    rw [← hy]
    exact yearLoopF_one _ _ _ p1
  obtain ⟨S, s1, s2⟩ := one e he eo hy
  obtain ⟨S', t1, t2⟩ := one e' he' eo' hy'
  rw [finite_le s2 t2, decide_eq_true_eq]
  have hle : S ≤ S' := by
    have := C134_norm_order 9 (by norm_num) (e.instant - s.instant) (e'.instant - s.instant)
      (short_tdiv _ (same_short s e hs he so eo hy)) (short_tdiv _ (same_short s e' hs he' so eo' hy')) (by omega)
    rw [← secondsF_eq, ← secondsF_eq, finite_le s1 t1, decide_eq_true_eq] at this
    exact this
  obtain ⟨l1, l2⟩ := yearLen_bounds s.ymd.y
  exact rnd_mono f32 (div_le_div_of_nonneg_right (rnd_mono f32 (div_le_div_of_nonneg_right (rnd_mono f32 hle) (by norm_num))) (by linarith))

/-- The same in a later year. -/
theorem order_later_year (s e e' : DT) (hs : s.Valid) (he : e.Valid) (he' : e'.Valid) (so : OffOk s) (eo : OffOk e) (eo' : OffOk e')
    (hlt : s.ymd.y < e.ymd.y) (hy : e.ymd.y = e'.ymd.y) (h : e.instant ≤ e'.instant) :
    (timeDifferenceF s e).le (timeDifferenceF s e') = true := by
  obtain ⟨r1, r2, -⟩ := year_range s hs
  obtain ⟨r3, r4, -⟩ := year_range e he
  have hne : ¬ e.ymd.y = s.ymd.y := by omega
  have hne' : ¬ e'.ymd.y = s.ymd.y := by omega
  obtain ⟨u1, u2, u3⟩ := start_short s hs
  obtain ⟨S0, -, p1, p2⟩ := span_value _ s.ymd.y u1
  have f1 : timePartF s e s.ymd.y = f32.div (inDaysF (yearEndInstant s.ymd.y s.off - s.instant)) (daysInYearF s.ymd.y) := by
    unfold timePartF; simp only [if_true, if_neg hne]
  rw [← f1] at p1
  have hu : (4 : ℚ) * u24 ≤ 1 / 1000 := by norm_num
  obtain ⟨px1, px2⟩ := abs_le.1 (p2.trans hu)
  obtain ⟨n, hn⟩ : ∃ n : Nat, e.ymd.y = s.ymd.y + (n + 1 : Nat) := ⟨(e.ymd.y - s.ymd.y - 1).toNat, by push_cast; omega⟩
  have hn' : (n : ℚ) ≤ 20000 := by exact_mod_cast (by push_cast at hn; omega : n ≤ 20000)
  obtain ⟨a, a1, a2, a3, -⟩ := loop_full s.ymd.y (timePartF s e) _ p1 (by clear p2 hu; linarith) (by clear p2 hu; linarith) n
    (by push_cast at hn; omega) (fun k h1 h2 => by
      unfold timePartF
      simp only [if_neg (show ¬ k = s.ymd.y by omega), if_neg (show ¬ k = e.ymd.y by push_cast at hn; omega)])
  have same : yearLoopF s.ymd.y (s.ymd.y + n) (timePartF s e') = yearLoopF s.ymd.y (s.ymd.y + n) (timePartF s e) := by
    refine yearLoopF_congr _ _ _ _ (fun k h1 h2 => ?_)
    unfold timePartF
    simp only [if_neg hne, if_neg hne', if_neg (show ¬ k = e.ymd.y by push_cast at hn; omega),
      if_neg (show ¬ k = e'.ymd.y by push_cast at hn; omega)]
  have last : ∀ d : DT, d.Valid → OffOk d → d.ymd.y = e.ymd.y → ∃ S, f64.Finite (secondsF (d.instant - yearEndInstant (e.ymd.y - 1) s.off)) S ∧
      Short (d.instant - yearEndInstant (e.ymd.y - 1) s.off) ∧
      f32.Finite (timePartF s d d.ymd.y) (f32.rnd (f32.rnd (f32.rnd S / 86400) / yearLen e.ymd.y)) ∧
      |f32.rnd (f32.rnd (f32.rnd S / 86400) / yearLen e.ymd.y)| ≤ 2 := by
    intro d hd od hdy
    obtain ⟨w1, w2, w3⟩ := end_short s d hd so od
    obtain ⟨S, s1, q1, q2⟩ := span_value _ d.ymd.y w1
    have f2 : timePartF s d d.ymd.y = f32.div (inDaysF (d.instant - yearEndInstant (d.ymd.y - 1) s.off)) (daysInYearF d.ymd.y) := by
      unfold timePartF; simp only [if_true, if_neg (show ¬ d.ymd.y = s.ymd.y by omega)]
    rw [← f2] at q1
    obtain ⟨y1, y2⟩ := abs_le.1 (q2.trans hu)
    rw [hdy] at s1 w1 q1 y1 y2 w2 w3 ⊢
    refine ⟨S, s1, w1, q1, ?_⟩
    clear q2 p2 hu
    rw [abs_le]
    constructor <;> linarith
  obtain ⟨S, s1, sh, l1, b1⟩ := last e he eo rfl
  obtain ⟨S', s1', sh', l1', b1'⟩ := last e' he' eo' hy.symm
  have hle : S ≤ S' := by
    have := C134_norm_order 9 (by norm_num) _ _ (short_tdiv _ sh) (short_tdiv _ sh')
      (show e.instant - yearEndInstant (e.ymd.y - 1) s.off ≤ e'.instant - yearEndInstant (e.ymd.y - 1) s.off by omega)
    rw [← secondsF_eq, ← secondsF_eq, finite_le s1 s1', decide_eq_true_eq] at this
    exact this
  obtain ⟨y1, y2⟩ := yearLen_bounds e.ymd.y
  have hpart := rnd_mono f32 (div_le_div_of_nonneg_right (rnd_mono f32 (div_le_div_of_nonneg_right (rnd_mono f32 hle)
    (by norm_num : (0 : ℚ) ≤ 86400))) (by linarith : (0 : ℚ) ≤ yearLen e.ymd.y))
  unfold timeDifferenceF
  rw [← hy] at l1' ⊢
  rw [hn] at l1 l1' ⊢
  rw [yearLoopF_succ, yearLoopF_succ, show s.ymd.y + ((n + 1 : Nat) : Int) - 1 = s.ymd.y + n by push_cast; ring, same]
  rw [← hn] at l1 l1' ⊢
  generalize f32.rnd (f32.rnd (f32.rnd S / 86400) / yearLen e.ymd.y) = X at *
  generalize f32.rnd (f32.rnd (f32.rnd S' / 86400) / yearLen e.ymd.y) = X' at *
  have big : ∀ z : ℚ, |z| ≤ 2 → |a + z| ≤ 2 ^ 100 := by
    intro z hz
    rw [abs_le] at hz ⊢
    obtain ⟨z1, z2⟩ := hz
    have h9 : (100000 : ℚ) ≤ 2 ^ 100 := by norm_num
    have n0 : (0 : ℚ) ≤ n := by positivity
    constructor <;> linarith
  have g1 := finite_add a1 l1 (le_f32_max (big _ b1))
  have g2 := finite_add a1 l1' (le_f32_max (big _ b1'))
  rw [finite_le g1 g2, decide_eq_true_eq]
  exact rnd_mono f32 (by linarith)

/-- **C141** (order). Of two instants in one year the later one is not at the smaller time, whatever the start. -/
theorem C141_order (s e e' : DT) (hs : s.Valid) (he : e.Valid) (he' : e'.Valid) (so : OffOk s) (eo : OffOk e) (eo' : OffOk e')
    (hy : e.ymd.y = e'.ymd.y) (h : e.instant ≤ e'.instant) : (timeDifferenceF s e).le (timeDifferenceF s e') = true := by
  rcases Int.lt_trichotomy s.ymd.y e.ymd.y with q | q | q
  · exact order_later_year s e e' hs he he' so eo eo' q hy h
  · exact order_first_year s e e' hs he he' so eo eo' q (q.trans hy) h
  · unfold timeDifferenceF
    rw [yearLoopF_empty _ _ _ q, yearLoopF_empty _ _ _ (by omega)]
    decide +kernel

/-- **C141** (none). From an instant to itself the time is exactly zero. -/
theorem C141_zero (s : DT) : f32.Finite (timeDifferenceF s s) 0 := by
  have f1 : timePartF s s s.ymd.y = f32.div (inDaysF 0) (daysInYearF s.ymd.y) := by
    unfold timePartF; simp only [if_true, sub_self]
  obtain ⟨l1, l2⟩ := yearLen_bounds s.ymd.y
  have d0 : f32.Finite (inDaysF 0) 0 := by
    have e : inDaysF 0 = f32.lit 0 := by decide +kernel
    rw [e]; exact f32_zero
  have := finite_div d0 (daysInYearF_value s.ymd.y) (by linarith) (by rw [zero_div, abs_zero]; exact (maxFin_pos f32).le)
  rw [zero_div, rnd_zero, ← f1] at this
  exact yearLoopF_one _ _ _ this

/-- A UTC instant. -/
def utcAt (y : Int) (m d : Nat) (seconds : Nat) : DT := { day := (Ymd.mk y m d).ord, tod := seconds * 1000000000, off := 0 }

/-- **C141** (resolution). Late in a year two instants a second apart are at the same time, so that the order is not strict. -/
theorem C141_not_strict : (utcAt 2024 12 30 43200).instant < (utcAt 2024 12 30 43201).instant ∧
    timeDifferenceF (utcAt 2024 1 1 0) (utcAt 2024 12 30 43200) = timeDifferenceF (utcAt 2024 1 1 0) (utcAt 2024 12 30 43201) := by
  constructor <;> decide +kernel

example : (utcAt 2024 12 30 43200).Valid ∧ OffOk (utcAt 2024 12 30 43200) := by
  refine ⟨⟨?_, ?_, ?_⟩, ?_⟩ <;> first | decide +kernel | (unfold OffOk; decide +kernel)

example : timeDifferenceF (utcAt 2024 1 1 0) (utcAt 2034 7 1 0) = f32.lit (11005747 / 1048576) := by decide +kernel
example : timeDifference (utcAt 2024 1 1 0) (utcAt 2034 7 1 0) ≠ 11005747 / 1048576 := by decide +kernel

example : yearFractionF (utcAt 2024 1 1 0) (utcAt 2024 7 1 0) .actual365Fixed = .ok (f32.lit (182 / 365)) := by decide +kernel
example : yearFraction (utcAt 2024 1 1 0) (utcAt 2027 7 1 0) .actActIsda = .ok (467017 / 133590) := by decide +kernel
example : (yearFractionF (utcAt 2024 1 1 0) (utcAt 2027 7 1 0) .actActIsda).isOk = true := by decide +kernel

end Verif.Props

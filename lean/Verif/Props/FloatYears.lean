import Verif.Float.DayCount
import Verif.Props.FloatPrices
import Verif.Props.DayCount
/-!
# Year fractions in single precision (C140)
-/
set_option autoImplicit false
namespace Verif.Props
open Verif Verif.Float Verif.QL Verif.Civil

/-! ### Single precision -/

/-- `2 ^ -24` -/
abbrev u24 : ℚ := 1 / 16777216

theorem f32_big : (2 : ℚ) ^ 100 ≤ f32.maxFin := by decide +kernel

theorem le_f32_max {x : ℚ} (h : |x| ≤ 2 ^ 100) : |x| ≤ f32.maxFin := h.trans f32_big

theorem f32_int (n : Int) (h : |n| ≤ 2 ^ 24) : f32.Finite (f32.ofInt n) n :=
  finite_int (by decide) n h (by decide +kernel)

theorem f32_lit (n : Int) (h : |n| ≤ 2 ^ 24) : f32.Finite (f32.lit n) n := f32_int n h

theorem f32_rnd_err (x : ℚ) : |f32.rnd x - x| ≤ |x| * u24 + u24 / 1000000 := by
  have := rnd_err f32 x
  have e1 : |x| / 2 ^ f32.prec = |x| * u24 := by
    rw [show f32.prec = 24 from rfl]; norm_num; ring
  have e2 : (2 : ℚ) ^ (f32.emin - 1) ≤ u24 / 1000000 := by decide +kernel
  rw [e1] at this
  exact this.trans (add_le_add (le_refl _) e2)

theorem f32_err (x : ℚ) (h : x = 0 ∨ (2 : ℚ) ^ (-126 : Int) ≤ |x|) : |f32.rnd x - x| ≤ |x| / 2 ^ 24 := by
  rcases h with rfl | h
  · rw [rnd_zero, sub_zero, abs_zero, zero_div]
  · exact rnd_err_normal f32 x h

/-! ### Days over a fixed year -/

theorem daysOver_value (d n : Int) (hd : |d| ≤ 2 ^ 24) (hn : 1 ≤ n) (hn' : n ≤ 2 ^ 24) :
    f32.Finite (daysOverF d n) (f32.rnd ((d : ℚ) / n)) := by
  have hn0 : (1 : ℚ) ≤ n := by exact_mod_cast hn
  refine finite_div (f32_int d hd) (f32_lit n (by rw [abs_of_nonneg (by omega)]; exact hn')) (by linarith) (le_f32_max ?_)
  rw [abs_div, abs_of_nonneg (by linarith : (0 : ℚ) ≤ n)]
  have h1 : |(d : ℚ)| ≤ 2 ^ 24 := by exact_mod_cast hd
  calc |(d : ℚ)| / n ≤ |(d : ℚ)| := div_le_self (abs_nonneg _) hn0
    _ ≤ 2 ^ 100 := h1.trans (by norm_num)

/-- An offset a date can have in the crate `time`: less than 26 hours. -/
def OffOk (d : DT) : Prop := |d.off| ≤ 93599

theorem instant_diff (s e : DT) (hs : s.Valid) (he : e.Valid) (so : OffOk s) (eo : OffOk e) :
    |e.instant - s.instant| < 8388608 * dayNs := by
  obtain ⟨s1, s2, s3⟩ := hs
  obtain ⟨e1, e2, e3⟩ := he
  unfold OffOk at so eo
  rw [abs_le] at so eo
  rw [minDay_eq] at s1 e1
  have hM : maxDay = 3652059 := by decide
  rw [hM] at s2 e2
  unfold DT.instant DT.localNs
  unfold dayNs at *
  rw [abs_lt]
  constructor <;> omega

theorem wholeDays_bound (s e : DT) (hs : s.Valid) (he : e.Valid) (so : OffOk s) (eo : OffOk e) : |wholeDays s e| < 2 ^ 23 := by
  have h := instant_diff s e hs he so eo
  unfold wholeDays
  have hp : (0 : Int) < dayNs := by decide
  rw [abs_lt] at h ⊢
  constructor
  · rcases le_total 0 (e.instant - s.instant) with q | q
    · have := Int.tdiv_nonneg q hp.le
      omega
    · have e1 : (e.instant - s.instant).tdiv dayNs = -((s.instant - e.instant) / dayNs) := by
        rw [← Int.tdiv_eq_ediv_of_nonneg (by omega), ← Int.neg_tdiv]; congr 1; ring
      rw [e1]
      have : (s.instant - e.instant) / dayNs < 8388608 := by
        rw [Int.ediv_lt_iff_lt_mul hp]; omega
      omega
  · rcases le_total 0 (e.instant - s.instant) with q | q
    · rw [Int.tdiv_eq_ediv_of_nonneg q]
      have : (e.instant - s.instant) / dayNs < 8388608 := by
        rw [Int.ediv_lt_iff_lt_mul hp]; omega
      omega
    · have e1 : (e.instant - s.instant).tdiv dayNs = -((s.instant - e.instant) / dayNs) := by
        rw [← Int.tdiv_eq_ediv_of_nonneg (by omega), ← Int.neg_tdiv]; congr 1; ring
      rw [e1]
      have := Int.ediv_nonneg (a := s.instant - e.instant) (b := dayNs) (by omega) hp.le
      omega

theorem year_range (d : DT) (h : d.Valid) : -9999 ≤ d.ymd.y ∧ d.ymd.y ≤ 9999 ∧ d.ymd.Valid := by
  have v := ofOrd_valid d.day
  have := (day_range (ofOrd d.day) v).1 (by rw [ord_ofOrd]; exact ⟨h.1, h.2.1⟩)
  exact ⟨this.1, this.2, v⟩

theorem thirtyDays_bound (s e : DT) (hs : s.Valid) (he : e.Valid) : |thirtyDays s e| < 2 ^ 23 - 100 := by
  obtain ⟨a1, a2, a3, a4, a5, a6⟩ := year_range s hs
  obtain ⟨b1, b2, b3, b4, b5, b6⟩ := year_range e he
  have c1 := dim_le s.ymd.y s.ymd.m
  have c2 := dim_le e.ymd.y e.ymd.m
  unfold thirtyDays
  rw [abs_lt]
  constructor <;> omega

theorem streetDays_bound (s e : DT) (hs : s.Valid) (he : e.Valid) : |streetDays s e| < 2 ^ 23 := by
  have h := thirtyDays_bound s e hs he
  rw [abs_lt] at h ⊢
  unfold streetDays
  split_ifs <;> constructor <;> omega

/-- Days and year of a convention that divides once. -/
theorem single_division (s e : DT) (hs : s.Valid) (he : e.Valid) (so : OffOk s) (eo : OffOk e) (c : DCC) (hc : c ≠ .actActIsda)
    (q : ℚ) (h : yearFraction s e c = .ok q) :
    ∃ d n : Int, |d| < 2 ^ 23 ∧ 1 ≤ n ∧ n ≤ 365 ∧ (c = .actual365Fixed → n = 365) ∧ (c = .actual364 → n = 364) ∧
      (c ≠ .actual365Fixed → c ≠ .actual364 → n = 360) ∧ q = d / n ∧ yearFractionF s e c = .ok (daysOverF d n) := by
  unfold yearFraction at h
  unfold yearFractionF
  split_ifs at h with hlt
  rw [if_neg hlt]
  have w := wholeDays_bound s e hs he so eo
  cases c <;> simp only [Except.ok.injEq, reduceCtorEq] at h hc ⊢
  · exact ⟨wholeDays s e, 365, w, by norm_num, by norm_num, by norm_num, by norm_num, by norm_num, by rw [← h]; norm_num, rfl⟩
  · exact ⟨wholeDays s e, 360, w, by norm_num, by norm_num, by norm_num, by norm_num, by norm_num, by rw [← h]; norm_num, rfl⟩
  · exact ⟨wholeDays s e, 364, w, by norm_num, by norm_num, by norm_num, by norm_num, by norm_num, by rw [← h]; norm_num, rfl⟩
  · exact ⟨thirtyDays s e, 360, by have := thirtyDays_bound s e hs he; omega, by norm_num, by norm_num, by norm_num, by norm_num, by norm_num, by rw [← h]; norm_num, rfl⟩
  · exact absurd rfl hc
  · exact ⟨streetDays s e, 360, streetDays_bound s e hs he, by norm_num, by norm_num, by norm_num, by norm_num, by norm_num, by rw [← h]; norm_num, rfl⟩

/-- **C140** (nearest). For every convention but ActAct ISDA the year fraction is a single-precision number nearest to the
exact one. -/
theorem C140_nearest (s e : DT) (hs : s.Valid) (he : e.Valid) (so : OffOk s) (eo : OffOk e) (c : DCC) (hc : c ≠ .actActIsda)
    (q : ℚ) (h : yearFraction s e c = .ok q) :
    ∃ f x, yearFractionF s e c = .ok f ∧ f32.Finite f x ∧ ∀ y, f32.Rep y → |x - q| ≤ |y - q| := by
  obtain ⟨d, n, hd, n1, n2, -, -, -, rfl, hf⟩ := single_division s e hs he so eo c hc q h
  exact ⟨_, _, hf, daysOver_value d n (by omega) n1 (by omega), fun y hy => rnd_nearest f32 _ y hy⟩

/-- **C140** (order). Two year fractions of such a convention, of any dates, keep their order, and different ones stay
different. -/
theorem C140_order (s e s' e' : DT) (hs : s.Valid) (he : e.Valid) (so : OffOk s) (eo : OffOk e) (hs' : s'.Valid)
    (he' : e'.Valid) (so' : OffOk s') (eo' : OffOk e') (c : DCC) (hc : c ≠ .actActIsda) (q q' : ℚ)
    (h : yearFraction s e c = .ok q) (h' : yearFraction s' e' c = .ok q') (hq : q < q') :
    ∃ f f', yearFractionF s e c = .ok f ∧ yearFractionF s' e' c = .ok f' ∧ f.lt f' = true := by
  obtain ⟨d, n, hd, n1, n2, c1, c2, c3, rfl, hf⟩ := single_division s e hs he so eo c hc q h
  obtain ⟨d', n', hd', n1', n2', c1', c2', c3', rfl, hf'⟩ := single_division s' e' hs' he' so' eo' c hc q' h'
  have hn : n' = n := by
    by_cases a : c = .actual365Fixed
    · rw [c1 a, c1' a]
    · by_cases b : c = .actual364
      · rw [c2 b, c2' b]
      · rw [c3 a b, c3' a b]
  subst hn
  refine ⟨_, _, hf, hf', ?_⟩
  rw [finite_lt (daysOver_value d n' (by omega) n1 (by omega)) (daysOver_value d' n' (by omega) n1 (by omega)), decide_eq_true_eq]
  have np : (0 : ℚ) < n' := by exact_mod_cast (by omega : 0 < n')
  have dd : (d : ℚ) + 1 ≤ d' := by
    rw [div_lt_div_iff_of_pos_right np] at hq
    have : d < d' := by exact_mod_cast hq
    exact_mod_cast this
  have nt : ∀ k : Int, (k : ℚ) / n' = 0 ∨ (2 : ℚ) ^ (-126 : Int) ≤ |(k : ℚ) / n'| := by
    intro k
    by_cases k0 : k = 0
    · left; rw [k0]; simp
    · right
      rw [abs_div, abs_of_pos np, le_div_iff₀ np]
      have a1 : (1 : ℚ) ≤ |(k : ℚ)| := by exact_mod_cast Int.one_le_abs k0
      have a2 : (n' : ℚ) ≤ 365 := by exact_mod_cast n2
      calc (2 : ℚ) ^ (-126 : Int) * n' ≤ 2 ^ (-126 : Int) * 365 := mul_le_mul_of_nonneg_left a2 (pow2_pos _).le
        _ ≤ 1 := by decide +kernel
        _ ≤ _ := a1
  have e1 := abs_le.1 (f32_err _ (nt d))
  have e2 := abs_le.1 (f32_err _ (nt d'))
  rw [abs_div, abs_of_pos np] at e1 e2
  have b1 : |(d : ℚ)| < 2 ^ 23 := by exact_mod_cast hd
  have b2 : |(d' : ℚ)| < 2 ^ 23 := by exact_mod_cast hd'
  have k1 : |(d : ℚ)| / n' / 2 ^ 24 < 1 / 2 / n' := by
    rw [div_div, div_div, div_lt_div_iff₀ (by positivity) (by positivity)]
    nlinarith
  have k2 : |(d' : ℚ)| / n' / 2 ^ 24 < 1 / 2 / n' := by
    rw [div_div, div_div, div_lt_div_iff₀ (by positivity) (by positivity)]
    nlinarith
  have k3 : (d : ℚ) / n' + 1 / 2 / n' + 1 / 2 / n' ≤ d' / n' := by
    rw [← add_div, ← add_div]
    exact div_le_div_of_nonneg_right (by linarith) np.le
  linarith [e1.2, e2.1]

/-- **C140** (errors). A year fraction is refused in single precision exactly when it is in exact arithmetic. -/
theorem C140_errors (s e : DT) (c : DCC) :
    (∃ f, yearFractionF s e c = .ok f) ↔ ¬ (e.instant < s.instant ∨ c = .dummy) := by
  unfold yearFractionF
  by_cases h : s.instant > e.instant
  · rw [if_pos h]
    simp [h]
  · rw [if_neg h]
    cases c <;> simp <;> omega

/-! ### The loop over the years -/

theorem expo_mono (F : Fmt) {x y : ℚ} (hx : x ≠ 0) (h : |x| ≤ |y|) : F.expo x ≤ F.expo y := by
  unfold Fmt.expo
  have := Int.log_mono_right (b := 2) (abs_pos.2 hx) h
  omega

theorem expo_le_rnd (F : Fmt) (x : ℚ) : F.expo x ≤ F.expo (F.rnd x) := by
  by_cases hx : x = 0
  · subst hx; rw [rnd_zero]
  by_cases hl : F.emin ≤ Int.log 2 |x|
  · have h1 := le_rnd F (log_bounds x hx).1 (rep_pow2 F _ hl)
    rw [rnd_abs] at h1
    unfold Fmt.expo
    have h2 := Int.log_mono_right (b := 2) (pow2_pos (Int.log 2 |x|)) h1
    have h3 : Int.log 2 ((2 : ℚ) ^ Int.log 2 |x|) = Int.log 2 |x| := by exact_mod_cast Int.log_zpow (R := ℚ) (b := 2) (by norm_num) _
    rw [h3] at h2
    omega
  · have : F.expo x = F.emin := by
      unfold Fmt.expo
      have := F.hprec
      omega
    rw [this]
    exact emin_le_expo F _

/-- A number of the format is a multiple of the unit in its last place. -/
theorem rep_multiple (F : Fmt) {x : ℚ} (h : F.Rep x) : ∃ m : Int, x = m * 2 ^ F.expo x := ⟨rne (x / 2 ^ F.expo x), (rnd_rep F h).symm⟩

theorem rnd_multiple (F : Fmt) (x : ℚ) (m : Int) (h : x = m * 2 ^ F.expo x) : F.rnd x = x := by
  have hp := pow2_pos (F.expo x)
  unfold Fmt.rnd
  have : x / 2 ^ F.expo x = m := by
    rw [div_eq_iff hp.ne']; exact h
  rw [this, rne_int, ← h]

/-- Adding one to a sum: the error stays within one unit in the last place. -/
theorem add_one (F : Fmt) (a t : ℚ) (ha : F.Rep a) (h1 : -(1 / 2) ≤ a) (he : F.expo a ≤ 0) (h : |a - t| ≤ 2 ^ F.expo a ∨ a = t) :
    |F.rnd (a + 1) - (t + 1)| ≤ 2 ^ F.expo (F.rnd (a + 1)) := by
  have hx : |a| ≤ |a + 1| := by
    rw [abs_of_nonneg (by linarith : 0 ≤ a + 1), abs_le]
    constructor <;> linarith
  have hmono : F.expo a ≤ F.expo (a + 1) := by
    by_cases a0 : a = 0
    · subst a0
      unfold Fmt.expo
      rw [abs_zero, Int.log_zero_right, zero_add, abs_one, Int.log_one_right]
    · exact expo_mono F a0 hx
  have hr := expo_le_rnd F (a + 1)
  by_cases heq : F.expo (a + 1) = F.expo a
  · obtain ⟨m, hm⟩ := rep_multiple F ha
    have e : F.rnd (a + 1) = a + 1 := by
      refine rnd_multiple F _ (m + 2 ^ (-F.expo a).toNat) ?_
      rw [heq]
      push_cast
      rw [add_mul, ← hm]
      have : (2 : ℚ) ^ (-F.expo a).toNat * 2 ^ F.expo a = 1 := by
        rw [← zpow_natCast, ← pow2_add, Int.toNat_of_nonneg (by omega)]
        simp
      rw [this]
    rw [e, add_sub_add_right_eq_sub, heq]
    rcases h with h | h
    · exact h
    · rw [h, sub_self, abs_zero]; exact (pow2_pos _).le
  · have h2 : (2 : ℚ) ^ F.expo a ≤ 2 ^ F.expo (a + 1) / 2 := by
      have : (2 : ℚ) ^ (F.expo a + 1) ≤ 2 ^ F.expo (a + 1) := pow2_le (by omega)
      rw [pow2_add, zpow_one] at this
      linarith
    have h3 : |a - t| ≤ 2 ^ F.expo a := by
      rcases h with h | h
      · exact h
      · rw [h, sub_self, abs_zero]; exact (pow2_pos _).le
    have h4 := rnd_err_ulp F (a + 1)
    have h5 : (2 : ℚ) ^ F.expo (a + 1) ≤ 2 ^ F.expo (F.rnd (a + 1)) := pow2_le hr
    calc |F.rnd (a + 1) - (t + 1)| = |(F.rnd (a + 1) - (a + 1)) + (a - t)| := by congr 1; ring
      _ ≤ |F.rnd (a + 1) - (a + 1)| + |a - t| := abs_add_le _ _
      _ ≤ 2 ^ F.expo (F.rnd (a + 1)) := by linarith

theorem yearLoopF_succ (sy : Int) (n : Nat) (p : Int → Fl) :
    yearLoopF sy (sy + n) p = f32.add (yearLoopF sy (sy + n - 1) p) (p (sy + n)) := by
  unfold yearLoopF
  rw [show (sy + (n : Int) + 1 - sy).toNat = n + 1 by omega, show (sy + (n : Int) - 1 + 1 - sy).toNat = n by omega,
    List.range_succ, List.foldl_append]
  rfl

theorem yearLoopF_empty (sy ey : Int) (p : Int → Fl) (h : ey < sy) : yearLoopF sy ey p = f32.lit 0 := by
  unfold yearLoopF
  rw [show (ey + 1 - sy).toNat = 0 by omega]
  rfl

theorem f32_zero : f32.Finite (f32.lit 0) 0 := by
  have := f32_lit 0 (by norm_num); exact_mod_cast this

theorem f32_one : f32.Finite (f32.lit 1) 1 := by
  have := f32_lit 1 (by norm_num); exact_mod_cast this

theorem yearLoopF_one (sy : Int) (p : Int → Fl) (x : ℚ) (h : f32.Finite (p sy) x) : f32.Finite (yearLoopF sy sy p) x := by
  have := yearLoopF_succ sy 0 p
  simp only [Int.natCast_zero, add_zero] at this
  rw [this, yearLoopF_empty _ _ _ (by omega)]
  have := finite_add f32_zero h (by rw [zero_add]; exact h.le)
  rwa [zero_add, rnd_rep f32 h.rep] at this

theorem expo_small (x : ℚ) (h : |x| < 2 ^ 23) : f32.expo x ≤ 0 := by
  unfold Fmt.expo
  by_cases hx : x = 0
  · subst hx; rw [abs_zero, Int.log_zero_right]; decide
  · have := (log_bounds x hx).1
    have h2 : (2 : ℚ) ^ Int.log 2 |x| < 2 ^ (23 : Int) := lt_of_le_of_lt this (by exact_mod_cast h)
    rw [pow2_lt_iff] at h2
    have e1 : f32.emin = -149 := rfl
    have e2 : f32.prec = 24 := rfl
    rw [e1, e2]
    omega

/-- The first year and `n` full years. -/
theorem loop_full (sy : Int) (p : Int → Fl) (x : ℚ) (hp : f32.Finite (p sy) x) (x1 : -(1 / 2) ≤ x) (x2 : x ≤ 2) (n : Nat)
    (hn : n ≤ 20000) (h : ∀ k, sy < k → k ≤ sy + n → p k = f32.lit 1) :
    ∃ a, f32.Finite (yearLoopF sy (sy + n) p) a ∧ -(1 / 2) ≤ a ∧ a ≤ n + 2 ∧ ((a ≠ 0 ∧ |a - (x + n)| ≤ 2 ^ f32.expo a) ∨ a = x + n) := by
  induction n with
  | zero =>
    refine ⟨x, ?_, x1, by simpa using x2, Or.inr (by simp)⟩
    simpa using yearLoopF_one sy p x hp
  | succ n ih =>
    obtain ⟨a, a1, a2, a3, a4⟩ := ih (by omega) (fun k h1 h2 => h k h1 (by push_cast; omega))
    have hn' : (n : ℚ) ≤ 20000 := by exact_mod_cast (by omega : n ≤ 20000)
    rw [yearLoopF_succ, show sy + ((n + 1 : Nat) : Int) - 1 = sy + n by push_cast; ring, h _ (by push_cast; omega) (le_refl _)]
    have fin := finite_add a1 f32_one (le_f32_max (by
      rw [abs_of_nonneg (by linarith)]
      norm_num
      linarith))
    have hr2 : f32.Rep (2 ^ (-1 : Int)) := rep_pow2 f32 _ (by decide)
    have hge := le_rnd f32 (x := a + 1) (y := 2 ^ (-1 : Int)) (by norm_num; linarith) hr2
    have h0 : (0 : ℚ) < 2 ^ (-1 : Int) := pow2_pos _
    refine ⟨_, fin, ?_, ?_, Or.inl ⟨(lt_of_lt_of_le h0 hge).ne', ?_⟩⟩
    · linarith
    · have hr : f32.Rep ((n + 3 : Int) : ℚ) := rep_int f32 (by decide) _ (by
        rw [show f32.prec = 24 from rfl, abs_of_nonneg (by omega)]; omega)
      have := rnd_le f32 (x := a + 1) (by push_cast; linarith) hr
      push_cast at this ⊢
      linarith
    · have := add_one f32 a (x + n) a1.rep a2 (expo_small a (by
        rw [abs_lt]; constructor <;> norm_num <;> linarith)) (a4.imp (·.2) id)
      push_cast
      rw [show x + ((n : ℚ) + 1) = x + n + 1 by ring]
      exact this

/-- The unit in the last place is a small part of the number. -/
theorem ulp_le (a : ℚ) (ha : a ≠ 0) : (2 : ℚ) ^ f32.expo a ≤ 2 * u24 * |a| + u24 / 1000000 := by
  have hz : (2 : ℚ) ^ (-149 : Int) ≤ u24 / 1000000 := by decide +kernel
  have h0 : 0 ≤ 2 * u24 * |a| := by positivity
  rcases max_cases f32.emin (Int.log 2 |a| - (f32.prec - 1)) with ⟨q, -⟩ | ⟨q, hlt⟩
  · unfold Fmt.expo
    rw [q]
    have : f32.emin = -149 := rfl
    rw [this]
    exact hz.trans (le_add_of_nonneg_left h0)
  · unfold Fmt.expo
    rw [q, show (f32.prec : Int) - 1 = 23 from rfl, sub_eq_add_neg, pow2_add]
    have := (log_bounds a ha).1
    have e : (2 : ℚ) ^ (-23 : Int) = 2 * u24 := by decide +kernel
    rw [e]
    have h1 : (2 : ℚ) ^ Int.log 2 |a| * (2 * u24) ≤ |a| * (2 * u24) := mul_le_mul_of_nonneg_right this (by norm_num)
    have h2 : (0 : ℚ) ≤ u24 / 1000000 := by norm_num
    linarith

/-- Two ends and full years between them: the error of the sum. -/
theorem loop_total (sy ey : Int) (p : Int → Fl) (x y : ℚ) (hlt : sy < ey) (hle : ey ≤ sy + 20000) (hx : f32.Finite (p sy) x)
    (hy : f32.Finite (p ey) y) (x1 : -(1 / 2) ≤ x) (x2 : x ≤ 2) (y1 : -(1 / 2) ≤ y) (y2 : y ≤ 2)
    (h : ∀ k, sy < k → k < ey → p k = f32.lit 1) :
    ∃ a, f32.Finite (yearLoopF sy ey p) a ∧ |a - (x + (ey - sy - 1 : Int) + y)| ≤ u24 * (3 * (ey - sy : Int) + 6) := by
  obtain ⟨n, rfl⟩ : ∃ n : Nat, ey = sy + (n + 1 : Nat) := ⟨(ey - sy - 1).toNat, by push_cast; omega⟩
  obtain ⟨a, a1, a2, a3, a4⟩ := loop_full sy p x hx x1 x2 n (by push_cast at hle; omega)
    (fun k h1 h2 => h k h1 (by push_cast; omega))
  have hn' : (n : ℚ) ≤ 20000 := by exact_mod_cast (by push_cast at hle; omega : n ≤ 20000)
  rw [yearLoopF_succ, show sy + ((n + 1 : Nat) : Int) - 1 = sy + n by push_cast; ring]
  have n0 : (0 : ℚ) ≤ n := by positivity
  have fin := finite_add a1 hy (le_f32_max (by
    rw [abs_le]
    constructor <;> norm_num <;> linarith))
  refine ⟨_, fin, ?_⟩
  have e1 := f32_rnd_err (a + y)
  have e2 : |a - (x + n)| ≤ 2 * u24 * |a| + u24 / 1000000 := by
    rcases a4 with q | q
    · exact q.2.trans (ulp_le a q.1)
    · rw [q, sub_self, abs_zero]; positivity
  have b1 : |a| ≤ n + 2 := by rw [abs_le]; constructor <;> linarith
  have b2 : |a + y| ≤ n + 4 := by rw [abs_le]; constructor <;> linarith
  push_cast
  have e3 : |f32.rnd (a + y) - (x + (sy + (n + 1) - sy - 1) + y)| ≤ |f32.rnd (a + y) - (a + y)| + |a - (x + n)| := by
    rw [show f32.rnd (a + y) - (x + (sy + ((n : ℚ) + 1) - sy - 1) + y) = (f32.rnd (a + y) - (a + y)) + (a - (x + n)) by ring]
    exact abs_add_le _ _
  have c1 := mul_le_mul_of_nonneg_left b1 (by norm_num : (0 : ℚ) ≤ 2 * u24)
  have c2 := mul_le_mul_of_nonneg_right b2 (by norm_num : (0 : ℚ) ≤ u24)
  have hu : (0 : ℚ) < u24 := by norm_num
  generalize u24 = U at *
  generalize |f32.rnd (a + y) - (x + (sy + ((n : ℚ) + 1) - sy - 1) + y)| = T at *
  have : T ≤ U * (3 * n + 9) := by nlinarith
  linarith

end Verif.Props

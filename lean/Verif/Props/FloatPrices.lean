import Verif.Float.Feature
import Verif.Float.Lemmas
import Mathlib.Tactic.IntervalCases
/-!
# Prices as floating-point numbers (C134)
-/
set_option autoImplicit false
namespace Verif.Props
open Verif Verif.Float

/-! ### `f64` in numbers -/

theorem f64_emin : f64.emin = -1074 := rfl
theorem f64_prec : f64.prec = 53 := rfl

theorem f64_big : (2 : ℚ) ^ 200 ≤ f64.maxFin := by decide +kernel

theorem le_f64_max {x : ℚ} (h : |x| ≤ 2 ^ 200) : |x| ≤ f64.maxFin := h.trans f64_big

/-- Integers up to `2 ^ 53` are exact. -/
theorem f64_int (n : Int) (h : |n| ≤ 2 ^ 53) : f64.Finite (f64.ofInt n) n :=
  finite_int (by decide) n h (by decide +kernel)

/-- Every integer of 64 bits is rounded to the nearest number. -/
theorem f64_ofInt (n : Int) (h : |n| ≤ 2 ^ 64) : f64.Finite (f64.ofInt n) (f64.rnd n) := by
  refine finite_of f64 false (n : ℚ) (le_f64_max ?_)
  have : |(n : ℚ)| ≤ 2 ^ 64 := by exact_mod_cast h
  refine this.trans ?_
  norm_num

/-- Powers of ten up to `10 ^ 22` are computed exactly. -/
theorem powi10_exact (k : Nat) (h : k ≤ 22) : powi10 k = .fin false (10 ^ k) ∧ f64.rnd (10 ^ k) = 10 ^ k := by
  interval_cases k <;> decide +kernel

theorem powi10_finite (k : Nat) (h : k ≤ 22) : f64.Finite (powi10 k) (10 ^ k) := by
  obtain ⟨h1, h2⟩ := powi10_exact k h
  refine ⟨false, h1, ?_, ?_, fun q => absurd q (not_lt.2 (by positivity)), fun _ => rfl⟩
  · rw [← h2]; exact rep_rnd f64 _
  · refine le_f64_max ?_
    rw [abs_of_nonneg (by positivity)]
    calc (10 : ℚ) ^ k ≤ 10 ^ 22 := pow_le_pow_right₀ (by norm_num) h
      _ ≤ 2 ^ 200 := by norm_num

theorem f64_rnd_le_pow64 (n : Int) (h : |n| ≤ 2 ^ 64) : |f64.rnd (n : ℚ)| ≤ 2 ^ 64 := by
  have h1 : |(n : ℚ)| ≤ 2 ^ 64 := by exact_mod_cast h
  refine abs_rnd_le f64 h1 ?_
  exact_mod_cast rep_pow2 f64 64 (by decide)

theorem toF64_value (pl : Nat) (hpl : pl ≤ 22) (v : Int) (h : |v| ≤ 2 ^ 64) :
    f64.Finite (toF64 pl v) (f64.rnd (f64.rnd v / 10 ^ pl)) := by
  refine finite_div (f64_ofInt v h) (powi10_finite pl hpl) (by positivity) (le_f64_max ?_)
  rw [abs_div, abs_of_pos (by positivity : (0 : ℚ) < 10 ^ pl), div_le_iff₀ (by positivity)]
  have h1 := f64_rnd_le_pow64 v h
  have h2 : (1 : ℚ) ≤ 10 ^ pl := one_le_pow₀ (by norm_num)
  have h3 : (2 : ℚ) ^ 64 ≤ 2 ^ 200 := by norm_num
  nlinarith

/-- **C134** (nearest). An integer price up to `2 ^ 53` with `pl` digits behind the point becomes the `f64` nearest to its
value: no other number of the format is nearer. -/
theorem C134_nearest (pl : Nat) (hpl : pl ≤ 22) (v : Int) (h : |v| ≤ 2 ^ 53) :
    ∃ x, f64.Finite (toF64 pl v) x ∧ ∀ y, f64.Rep y → |x - v / 10 ^ pl| ≤ |y - v / 10 ^ pl| := by
  have h64 : |v| ≤ 2 ^ 64 := by omega
  refine ⟨_, toF64_value pl hpl v h64, fun y hy => ?_⟩
  have e : f64.rnd (v : ℚ) = v := rnd_rep f64 (rep_int f64 (by decide) v h)
  rw [e]
  exact rnd_nearest f64 _ y hy

/-- **C134** (order). Any two 64-bit prices keep their order. -/
theorem C134_order (pl : Nat) (hpl : pl ≤ 22) (v w : Int) (hv : |v| ≤ 2 ^ 64) (hw : |w| ≤ 2 ^ 64) (h : v ≤ w) :
    (toF64 pl v).le (toF64 pl w) = true := by
  rw [finite_le (toF64_value pl hpl v hv) (toF64_value pl hpl w hw), decide_eq_true_eq]
  refine rnd_mono f64 (div_le_div_of_nonneg_right (rnd_mono f64 ?_) (by positivity))
  exact_mod_cast h

/-- The error of a number that is zero or not tiny. -/
theorem f64_err (x : ℚ) (h : x = 0 ∨ (2 : ℚ) ^ (-1022 : Int) ≤ |x|) : |f64.rnd x - x| ≤ |x| / 2 ^ 53 := by
  rcases h with rfl | h
  · rw [rnd_zero, sub_zero, abs_zero, zero_div]
  · exact rnd_err_normal f64 x h

theorem quotient_not_tiny (pl : Nat) (hpl : pl ≤ 22) (v : ℚ) (h : v = 0 ∨ 1 ≤ |v|) :
    v / 10 ^ pl = 0 ∨ (2 : ℚ) ^ (-1022 : Int) ≤ |v / 10 ^ pl| := by
  rcases h with rfl | h
  · left; rw [zero_div]
  · right
    rw [abs_div, abs_of_pos (by positivity : (0 : ℚ) < 10 ^ pl), le_div_iff₀ (by positivity)]
    have h1 : (10 : ℚ) ^ pl ≤ 10 ^ 22 := pow_le_pow_right₀ (by norm_num) hpl
    have h2 : (2 : ℚ) ^ (-1022 : Int) * 10 ^ 22 ≤ 1 := by decide +kernel
    have h3 := mul_le_mul_of_nonneg_left h1 (pow2_pos (-1022)).le
    linarith

/-- **C134** (distinct). Two different prices below `2 ^ 52` stay different, and in order. -/
theorem C134_distinct (pl : Nat) (hpl : pl ≤ 22) (v w : Int) (hv : |v| < 2 ^ 52) (hw : |w| < 2 ^ 52) (h : v < w) :
    (toF64 pl v).lt (toF64 pl w) = true := by
  rw [finite_lt (toF64_value pl hpl v (by omega)) (toF64_value pl hpl w (by omega)), decide_eq_true_eq,
    rnd_rep f64 (rep_int f64 (by decide) v (by rw [f64_prec]; omega)), rnd_rep f64 (rep_int f64 (by decide) w (by rw [f64_prec]; omega))]
  have int01 : ∀ n : Int, (n : ℚ) = 0 ∨ 1 ≤ |(n : ℚ)| := by
    intro n
    by_cases h0 : n = 0
    · left; rw [h0]; simp
    · right; exact_mod_cast Int.one_le_abs h0
  have e1 := abs_le.1 (f64_err _ (quotient_not_tiny pl hpl v (int01 v)))
  have e2 := abs_le.1 (f64_err _ (quotient_not_tiny pl hpl w (int01 w)))
  have hp : (0 : ℚ) < 10 ^ pl := by positivity
  rw [abs_div, abs_of_pos hp] at e1 e2
  have b1 : |(v : ℚ)| ≤ 2 ^ 52 - 1 := by
    have : |v| ≤ 2 ^ 52 - 1 := by omega
    exact_mod_cast this
  have b2 : |(w : ℚ)| ≤ 2 ^ 52 - 1 := by
    have : |w| ≤ 2 ^ 52 - 1 := by omega
    exact_mod_cast this
  have gap : (v : ℚ) + 1 ≤ w := by exact_mod_cast h
  have g : (v : ℚ) / 10 ^ pl + 1 / 10 ^ pl ≤ w / 10 ^ pl := by
    rw [← add_div]
    exact div_le_div_of_nonneg_right gap hp.le
  have c1 : |(v : ℚ)| / 10 ^ pl / 2 ^ 53 + |(w : ℚ)| / 10 ^ pl / 2 ^ 53 < 1 / 10 ^ pl := by
    rw [← add_div, ← add_div, div_div, mul_comm, ← div_div]
    refine div_lt_div_of_pos_right ?_ hp
    rw [div_lt_one (by positivity)]
    have : (2 : ℚ) ^ 53 = 2 * 2 ^ 52 := by norm_num
    linarith
  linarith

/-- **C134** (error). For every 64-bit price the number is within three parts in `2 ^ 53` of the exact value. -/
theorem C134_error (pl : Nat) (hpl : pl ≤ 22) (v : Int) (h : |v| ≤ 2 ^ 64) :
    ∃ x, f64.Finite (toF64 pl v) x ∧ |x - v / 10 ^ pl| ≤ 3 / 2 ^ 53 * |(v : ℚ) / 10 ^ pl| := by
  refine ⟨_, toF64_value pl hpl v h, ?_⟩
  have hp : (0 : ℚ) < 10 ^ pl := by positivity
  have int01 : (v : ℚ) = 0 ∨ 1 ≤ |(v : ℚ)| := by
    by_cases h0 : v = 0
    · left; rw [h0]; simp
    · right; exact_mod_cast Int.one_le_abs h0
  have rnd01 : f64.rnd (v : ℚ) = 0 ∨ 1 ≤ |f64.rnd (v : ℚ)| := by
    rcases int01 with q | q
    · left; rw [q, rnd_zero]
    · right
      rw [← rnd_abs]
      exact le_rnd f64 q (by exact_mod_cast rep_pow2 f64 0 (by decide))
  have e1 := f64_err (v : ℚ) (by
    rcases int01 with q | q
    · exact Or.inl q
    · refine Or.inr (le_trans ?_ q)
      exact zpow_le_one_of_nonpos₀ (by norm_num) (by norm_num))
  have e2 := f64_err _ (quotient_not_tiny pl hpl _ rnd01)
  rw [abs_div, abs_of_pos hp] at e2
  have e3 : |f64.rnd (v : ℚ) / 10 ^ pl - v / 10 ^ pl| ≤ |(v : ℚ)| / 2 ^ 53 / 10 ^ pl := by
    rw [← sub_div, abs_div, abs_of_pos hp]
    exact div_le_div_of_nonneg_right e1 hp.le
  have e4 : |f64.rnd (v : ℚ)| ≤ |(v : ℚ)| + |(v : ℚ)| / 2 ^ 53 := by
    have := abs_sub_abs_le_abs_sub (f64.rnd (v : ℚ)) v
    linarith
  have e5 : |f64.rnd (v : ℚ)| / 10 ^ pl / 2 ^ 53 ≤ 2 / 2 ^ 53 * |(v : ℚ) / 10 ^ pl| := by
    rw [abs_div, abs_of_pos hp, div_div, mul_comm, ← div_div]
    have : |f64.rnd (v : ℚ)| / 2 ^ 53 ≤ 2 / 2 ^ 53 * |(v : ℚ)| := by
      rw [div_le_iff₀ (by positivity)]
      have := abs_nonneg (v : ℚ)
      have : |(v : ℚ)| / 2 ^ 53 ≤ |(v : ℚ)| := div_le_self this (by norm_num)
      linarith
    calc _ ≤ 2 / 2 ^ 53 * |(v : ℚ)| / 10 ^ pl := div_le_div_of_nonneg_right this hp.le
      _ = _ := by ring
  have e6 : |(v : ℚ)| / 2 ^ 53 / 10 ^ pl = 1 / 2 ^ 53 * |(v : ℚ) / 10 ^ pl| := by
    rw [abs_div, abs_of_pos hp]; ring
  have tri := abs_sub_le (f64.rnd (f64.rnd (v : ℚ) / 10 ^ pl)) (f64.rnd (v : ℚ) / 10 ^ pl) (v / 10 ^ pl)
  rw [e6] at e3
  have : (3 : ℚ) / 2 ^ 53 * |(v : ℚ) / 10 ^ pl| = 2 / 2 ^ 53 * |(v : ℚ) / 10 ^ pl| + 1 / 2 ^ 53 * |(v : ℚ) / 10 ^ pl| := by ring
  rw [this]
  exact tri.trans (add_le_add (e2.trans e5) e3)

/-! ### With a normaliser -/

theorem tdiv_parts (v : Int) (d : Int) (hd : 0 < d) : |v - Int.tdiv v d * d| < d ∧ (0 ≤ v → 0 ≤ Int.tdiv v d ∧ 0 ≤ v - Int.tdiv v d * d) ∧
    (v ≤ 0 → Int.tdiv v d ≤ 0 ∧ v - Int.tdiv v d * d ≤ 0) := by
  have hm : v - Int.tdiv v d * d = Int.tmod v d := by
    have := Int.tmod_add_tdiv_mul v d
    linarith
  rw [hm]
  refine ⟨?_, fun h => ⟨Int.tdiv_nonneg h hd.le, Int.tmod_nonneg d h⟩, fun h => ⟨?_, ?_⟩⟩
  · rw [abs_lt]
    have h1 := Int.tmod_lt_of_pos v hd
    have h2 := Int.tmod_lt_of_pos (-v) hd
    rw [Int.neg_tmod] at h2
    omega
  · have := Int.tdiv_nonneg (a := -v) (b := d) (by omega) hd.le
    rw [Int.neg_tdiv] at this
    omega
  · have := Int.tmod_nonneg (a := -v) d (by omega)
    rw [Int.neg_tmod] at this
    omega

/-- The fraction: a number between -1 and 1. -/
theorem fraction_value (e : Nat) (he : e ≤ 15) (r : Int) (hr : |r| < 10 ^ e) :
    f64.Finite (f64.div (f64.ofInt r) (powi10 e)) (f64.rnd (r / 10 ^ e)) ∧ |f64.rnd ((r : ℚ) / 10 ^ e)| ≤ 1 := by
  have hp : (0 : ℚ) < 10 ^ e := by positivity
  have h1 : |(r : ℚ) / 10 ^ e| ≤ 1 := by
    rw [abs_div, abs_of_pos hp, div_le_one hp]
    have : |r| ≤ 10 ^ e := hr.le
    exact_mod_cast this
  have h53 : |r| ≤ 2 ^ 53 := by
    have : (10 : Int) ^ e ≤ 10 ^ 15 := pow_le_pow_right₀ (by norm_num) he
    have : (10 : Int) ^ 15 ≤ 2 ^ 53 := by norm_num
    omega
  refine ⟨finite_div (f64_int r h53) (powi10_finite e (by omega)) hp.ne' (le_f64_max (h1.trans (by norm_num))), ?_⟩
  exact abs_rnd_le f64 h1 (by exact_mod_cast rep_pow2 f64 0 (by decide))

theorem normF64_value (e : Nat) (he : e ≤ 15) (v : Int) (hq : |Int.tdiv v (10 ^ e)| < 2 ^ 53) :
    f64.Finite (normF64 e v)
      (f64.rnd ((Int.tdiv v (10 ^ e) : Int) + f64.rnd (((v - Int.tdiv v (10 ^ e) * 10 ^ e : Int) : ℚ) / 10 ^ e))) := by
  obtain ⟨h1, -, -⟩ := tdiv_parts v (10 ^ e) (by positivity)
  obtain ⟨f1, f2⟩ := fraction_value e he _ h1
  refine finite_add (f64_int _ hq.le) f1 (le_f64_max ?_)
  refine (abs_add_le _ _).trans ?_
  have : |((Int.tdiv v (10 ^ e) : Int) : ℚ)| < 2 ^ 53 := by exact_mod_cast hq
  have : (2 : ℚ) ^ 53 + 1 ≤ 2 ^ 200 := by norm_num
  linarith

theorem quotient_mono (d : Int) (hd : 0 < d) {v w : Int} (h : v ≤ w) : Int.tdiv v d ≤ Int.tdiv w d := Int.tdiv_le_tdiv hd h

/-- **C134** (normaliser, order). With a normaliser too, any two prices keep their order. -/
theorem C134_norm_order (e : Nat) (he : e ≤ 15) (v w : Int) (hv : |Int.tdiv v (10 ^ e)| < 2 ^ 53)
    (hw : |Int.tdiv w (10 ^ e)| < 2 ^ 53) (h : v ≤ w) : (normF64 e v).le (normF64 e w) = true := by
  rw [finite_le (normF64_value e he v hv) (normF64_value e he w hw), decide_eq_true_eq]
  have hd : (0 : Int) < 10 ^ e := by positivity
  have hp : (0 : ℚ) < 10 ^ e := by positivity
  obtain ⟨a1, a2, a3⟩ := tdiv_parts v (10 ^ e) hd
  obtain ⟨b1, b2, b3⟩ := tdiv_parts w (10 ^ e) hd
  have hqq := quotient_mono (10 ^ e) hd h
  have fa := (fraction_value e he _ a1).2
  have fb := (fraction_value e he _ b1).2
  generalize Int.tdiv v (10 ^ e) = q at *
  generalize Int.tdiv w (10 ^ e) = q' at *
  refine rnd_mono f64 ?_
  rcases eq_or_lt_of_le hqq with rfl | hlt
  · refine add_le_add le_rfl (rnd_mono f64 (div_le_div_of_nonneg_right ?_ hp.le))
    have : v - q * 10 ^ e ≤ w - q * 10 ^ e := by omega
    exact_mod_cast this
  · rw [abs_le] at fa fb
    have g : (q : ℚ) + 1 ≤ q' := by exact_mod_cast hlt
    rcases le_total 0 v with hv0 | hv0
    · have : 0 ≤ w := by omega
      have n : 0 ≤ f64.rnd (((w - q' * 10 ^ e : Int) : ℚ) / 10 ^ e) := by
        refine rnd_nonneg f64 (div_nonneg ?_ hp.le)
        exact_mod_cast (b2 this).2
      linarith
    · have na : f64.rnd (((v - q * 10 ^ e : Int) : ℚ) / 10 ^ e) ≤ 0 := by
        refine rnd_nonpos f64 (div_nonpos_of_nonpos_of_nonneg ?_ hp.le)
        exact_mod_cast (a3 hv0).2
      linarith

/-- **C134** (normaliser, error). The number is within `2 ^ -52` of the exact value, relative to the value or to one,
whichever is larger. -/
theorem C134_norm_error (e : Nat) (he : e ≤ 15) (v : Int) (hv : |Int.tdiv v (10 ^ e)| < 2 ^ 53) :
    ∃ x, f64.Finite (normF64 e v) x ∧ |x - v / 10 ^ e| ≤ 3 / 2 ^ 53 * max 1 |(v : ℚ) / 10 ^ e| := by
  refine ⟨_, normF64_value e he v hv, ?_⟩
  have hd : (0 : Int) < 10 ^ e := by positivity
  have hp : (0 : ℚ) < 10 ^ e := by positivity
  obtain ⟨a1, a2, a3⟩ := tdiv_parts v (10 ^ e) hd
  have fa := (fraction_value e he _ a1).2
  have ev : (v : ℚ) / 10 ^ e = (Int.tdiv v (10 ^ e) : Int) + ((v - Int.tdiv v (10 ^ e) * 10 ^ e : Int) : ℚ) / 10 ^ e := by
    push_cast
    field_simp
    ring
  have f1 : |((v - Int.tdiv v (10 ^ e) * 10 ^ e : Int) : ℚ) / 10 ^ e| ≤ 1 := by
    rw [abs_div, abs_of_pos hp, div_le_one hp]
    have := a1.le
    exact_mod_cast this
  generalize Int.tdiv v (10 ^ e) = q at *
  rw [ev]
  generalize (((v - q * 10 ^ e : Int) : ℚ) / 10 ^ e) = t at *
  have r1 := rnd_err f64 t
  have r2 := rnd_err f64 ((q : ℚ) + f64.rnd t)
  have ht : |t| / 2 ^ f64.prec ≤ 1 / 2 ^ 53 := div_le_div_of_nonneg_right f1 (by positivity)
  have tiny : (2 : ℚ) ^ (f64.emin - 1) ≤ 1 / 2 ^ 60 := by decide +kernel
  have hs : |(q : ℚ) + f64.rnd t| ≤ |q + t| + (1 / 2 ^ 53 + 1 / 2 ^ 60) := by
    have e1 : (q : ℚ) + f64.rnd t = (q + t) + (f64.rnd t - t) := by ring
    rw [e1]
    refine (abs_add_le _ _).trans ?_
    linarith
  have hm1 : (1 : ℚ) ≤ max 1 |(q : ℚ) + t| := le_max_left _ _
  have hm2 : |(q : ℚ) + t| ≤ max 1 |(q : ℚ) + t| := le_max_right _ _
  have tri := abs_sub_le (f64.rnd ((q : ℚ) + f64.rnd t)) (q + f64.rnd t) (q + t)
  have e2 : (q : ℚ) + f64.rnd t - (q + t) = f64.rnd t - t := by ring
  rw [e2] at tri
  have h53 : (2 : ℚ) ^ f64.prec = 9007199254740992 := by rw [f64_prec]; norm_num
  rw [h53] at r1 r2 ht
  have n60 : (1 : ℚ) / 2 ^ 60 = 1 / 1152921504606846976 := by norm_num
  have n53 : (3 : ℚ) / 2 ^ 53 = 3 / 9007199254740992 := by norm_num
  have n53' : (1 : ℚ) / 2 ^ 53 = 1 / 9007199254740992 := by norm_num
  rw [n60] at tiny hs
  rw [n53'] at ht hs
  rw [n53]
  have : |(q : ℚ) + f64.rnd t| / 9007199254740992 ≤ (|(q : ℚ) + t| + (1 / 9007199254740992 + 1 / 1152921504606846976)) / 9007199254740992 :=
    div_le_div_of_nonneg_right hs (by norm_num)
  generalize max 1 |(q : ℚ) + t| = M at *
  linarith

/-- Two prices that differ by one and become the same number. -/
theorem fault_price_collapse : toF64 2 (2 ^ 53) = toF64 2 (2 ^ 53 + 1) := by decide +kernel

end Verif.Props

import Verif.Float.Ieee
import Mathlib.Tactic.Linarith
import Mathlib.Tactic.Ring
import Mathlib.Tactic.FieldSimp
import Mathlib.Tactic.Positivity
import Mathlib.Tactic.NormNum
/-!
# Rounding: representable, nearest, monotone, odd, and the size of the error
-/
set_option autoImplicit false
namespace Verif.Float

variable (F : Fmt)

theorem pow2_pos (e : Int) : (0 : ℚ) < 2 ^ e := zpow_pos (by norm_num) e

/-! ### The nearest integer -/

theorem rne_near (x : ℚ) : |(rne x : ℚ) - x| ≤ 1 / 2 := by
  have h1 := Int.floor_le x
  have h2 := Int.lt_floor_add_one x
  unfold rne
  dsimp only
  split_ifs with a b c
  · rw [abs_le]; constructor <;> linarith
  · push_cast; rw [abs_le]; constructor <;> linarith
  · rw [abs_le]; constructor <;> linarith
  · push_cast; rw [abs_le]; constructor <;> linarith

/-- No integer is nearer. -/
theorem rne_nearest (x : ℚ) (n : Int) : |(rne x : ℚ) - x| ≤ |(n : ℚ) - x| := by
  by_cases h : n = rne x
  · rw [h]
  · have h1 := rne_near x
    have h2 : (1 : ℚ) ≤ |(n : ℚ) - rne x| := by
      have : 1 ≤ |n - rne x| := Int.one_le_abs (sub_ne_zero.2 h)
      exact_mod_cast this
    have h3 : |(n : ℚ) - rne x| ≤ |(n : ℚ) - x| + |(rne x : ℚ) - x| := by
      have := abs_sub_le (n : ℚ) x (rne x)
      rw [abs_sub_comm x] at this
      exact this
    linarith

theorem rne_int (n : Int) : rne (n : ℚ) = n := by
  have h := rne_nearest (n : ℚ) n
  rw [sub_self, abs_zero] at h
  have := abs_eq_zero.1 (le_antisymm h (abs_nonneg _))
  exact_mod_cast sub_eq_zero.1 this

theorem rne_neg (x : ℚ) : rne (-x) = - rne x := by
  by_cases hi : ∃ n : Int, x = n
  · obtain ⟨n, rfl⟩ := hi
    rw [← Int.cast_neg, rne_int, rne_int]
  · have hf : ⌊-x⌋ = -⌊x⌋ - 1 := by
      rw [Int.floor_eq_iff]
      have h1 := Int.floor_le x
      have h2 := Int.lt_floor_add_one x
      have h3 : (⌊x⌋ : ℚ) ≠ x := fun q => hi ⟨_, q.symm⟩
      have h4 := lt_of_le_of_ne h1 h3
      push_cast
      constructor <;> linarith
    unfold rne
    dsimp only
    rw [hf]
    push_cast
    by_cases h1 : x - ⌊x⌋ < 1 / 2
    · rw [if_pos h1, if_neg (by linarith), if_pos (by linarith)]; ring
    · by_cases h2 : 1 / 2 < x - ⌊x⌋
      · rw [if_neg h1, if_pos h2, if_pos (by linarith)]; ring
      · rw [if_neg h1, if_neg h2, if_neg (by linarith), if_neg (by linarith)]
        by_cases h3 : ⌊x⌋ % 2 = 0
        · rw [if_pos h3, if_neg (by omega)]; ring
        · rw [if_neg h3, if_pos (by omega)]; ring

/-! ### Sizes -/

theorem log_bounds (x : ℚ) (hx : x ≠ 0) : (2 : ℚ) ^ Int.log 2 |x| ≤ |x| ∧ |x| < 2 ^ (Int.log 2 |x| + 1) := by
  have h1 := Int.zpow_log_le_self (b := 2) (r := |x|) (by norm_num) (abs_pos.2 hx)
  have h2 := Int.lt_zpow_succ_log_self (b := 2) (by norm_num) |x|
  exact ⟨by exact_mod_cast h1, by exact_mod_cast h2⟩

theorem pow2_le {a b : Int} (h : a ≤ b) : (2 : ℚ) ^ a ≤ 2 ^ b := zpow_le_zpow_right₀ (by norm_num) h

theorem pow2_lt {a b : Int} (h : a < b) : (2 : ℚ) ^ a < 2 ^ b := zpow_lt_zpow_right₀ (by norm_num) h

theorem pow2_lt_iff {a b : Int} : (2 : ℚ) ^ a < 2 ^ b ↔ a < b := zpow_lt_zpow_iff_right₀ (by norm_num)

theorem pow2_le_iff {a b : Int} : (2 : ℚ) ^ a ≤ 2 ^ b ↔ a ≤ b := zpow_le_zpow_iff_right₀ (by norm_num)

theorem pow2_add (a b : Int) : (2 : ℚ) ^ (a + b) = 2 ^ a * 2 ^ b := zpow_add₀ (by norm_num) a b

theorem expo_neg (x : ℚ) : F.expo (-x) = F.expo x := by unfold Fmt.expo; rw [abs_neg]

theorem emin_le_expo (x : ℚ) : F.emin ≤ F.expo x := le_max_left _ _

/-- A number is below `2 ^ prec` units of its last place. -/
theorem lt_expo (x : ℚ) : |x| < 2 ^ (F.prec : Int) * 2 ^ F.expo x := by
  rw [← pow2_add]
  by_cases hx : x = 0
  · subst hx; rw [abs_zero]; exact pow2_pos _
  · refine lt_of_lt_of_le (log_bounds x hx).2 (pow2_le ?_)
    have : Int.log 2 |x| - (F.prec - 1) ≤ F.expo x := le_max_right _ _
    omega

/-- If the last place is not the smallest one, the number has all its bits. -/
theorem full_bits (x : ℚ) (hx : x ≠ 0) (h : F.emin < F.expo x) : (2 : ℚ) ^ (F.prec - 1 + F.expo x : Int) ≤ |x| := by
  have h2 : F.expo x = Int.log 2 |x| - (F.prec - 1) := by
    unfold Fmt.expo at h ⊢
    rcases max_cases F.emin (Int.log 2 |x| - (F.prec - 1)) with q | q <;> omega
  rw [h2, show ((F.prec : Int) - 1 + (Int.log 2 |x| - (F.prec - 1))) = Int.log 2 |x| by ring]
  exact (log_bounds x hx).1

/-! ### Rounding -/

theorem rnd_err_ulp (x : ℚ) : |F.rnd x - x| ≤ 2 ^ F.expo x / 2 := by
  have hp := pow2_pos (F.expo x)
  have e : F.rnd x - x = (rne (x / 2 ^ F.expo x) - x / 2 ^ F.expo x) * 2 ^ F.expo x := by
    unfold Fmt.rnd
    field_simp
  rw [e, abs_mul, abs_of_pos hp]
  have := rne_near (x / 2 ^ F.expo x)
  nlinarith

theorem rnd_zero : F.rnd 0 = 0 := by
  unfold Fmt.rnd
  rw [zero_div, show (0 : ℚ) = ((0 : Int) : ℚ) by norm_num, rne_int]
  norm_num

theorem rnd_neg (x : ℚ) : F.rnd (-x) = -F.rnd x := by
  unfold Fmt.rnd
  rw [expo_neg, neg_div, rne_neg]
  push_cast
  ring

theorem rep_rnd (x : ℚ) : F.Rep (F.rnd x) := by
  refine ⟨rne (x / 2 ^ F.expo x), F.expo x, ?_, emin_le_expo F x, rfl⟩
  have hp := pow2_pos (F.expo x)
  have h1 : |x / 2 ^ F.expo x| < 2 ^ F.prec := by
    rw [abs_div, abs_of_pos hp, div_lt_iff₀ hp]
    exact_mod_cast lt_expo F x
  rw [abs_lt] at h1
  have h2 := abs_le.1 (rne_near (x / 2 ^ F.expo x))
  rw [abs_le]
  have a : ((rne (x / 2 ^ F.expo x) : Int) : ℚ) < ((2 ^ F.prec + 1 : Int) : ℚ) := by push_cast; linarith
  have b : ((-(2 ^ F.prec) - 1 : Int) : ℚ) < ((rne (x / 2 ^ F.expo x) : Int) : ℚ) := by push_cast; linarith
  have a' := Int.cast_lt.1 a
  have b' := Int.cast_lt.1 b
  constructor <;> omega

theorem rep_zero : F.Rep 0 := ⟨0, F.emin, by simp, le_refl _, by simp⟩

theorem rep_neg {x : ℚ} (h : F.Rep x) : F.Rep (-x) := by
  obtain ⟨m, e, h1, h2, rfl⟩ := h
  exact ⟨-m, e, by rwa [abs_neg], h2, by push_cast; ring⟩

theorem rep_pow2 (e : Int) (h : F.emin ≤ e) : F.Rep (2 ^ e) := by
  refine ⟨1, e, ?_, h, by simp⟩
  rw [abs_one]
  exact one_le_pow₀ (by norm_num)

/-- A multiple of the last place is not nearer than the rounded number. -/
theorem rnd_nearest_multiple (x : ℚ) (n : Int) : |F.rnd x - x| ≤ |n * 2 ^ F.expo x - x| := by
  have hp := pow2_pos (F.expo x)
  have e : ∀ m : Int, (m : ℚ) * 2 ^ F.expo x - x = (m - x / 2 ^ F.expo x) * 2 ^ F.expo x := by
    intro m; field_simp
  unfold Fmt.rnd
  rw [e, e, abs_mul, abs_mul]
  exact mul_le_mul_of_nonneg_right (rne_nearest _ n) (abs_nonneg _)

/-- No number of the format is nearer than the rounded number. -/
theorem rnd_nearest (x y : ℚ) (hy : F.Rep y) : |F.rnd x - x| ≤ |y - x| := by
  obtain ⟨m, e, hm, he, rfl⟩ := hy
  by_cases hx : x = 0
  · subst hx; rw [rnd_zero, sub_zero, abs_zero]; exact abs_nonneg _
  by_cases hee : F.expo x ≤ e
  · obtain ⟨k, hk⟩ := Int.eq_ofNat_of_zero_le (sub_nonneg.2 hee)
    have : (m : ℚ) * 2 ^ e = ((m * 2 ^ k : Int) : ℚ) * 2 ^ F.expo x := by
      rw [show e = (k : Int) + F.expo x by omega, pow2_add]
      push_cast
      rw [zpow_natCast]
      ring
    rw [this]
    exact rnd_nearest_multiple F x _
  · have hfull := full_bits F x hx (by omega)
    have hprec := F.hprec
    obtain ⟨k, hk⟩ : ∃ k : Nat, F.prec = k + 1 := ⟨F.prec - 1, by omega⟩
    have hsmall : |(m : ℚ) * 2 ^ e| ≤ 2 ^ (F.prec - 1 + F.expo x : Int) := by
      rw [abs_mul, abs_of_pos (pow2_pos e)]
      have h1 : |(m : ℚ)| ≤ 2 ^ (F.prec : Int) := by
        rw [zpow_natCast]
        exact_mod_cast hm
      calc |(m : ℚ)| * 2 ^ e ≤ 2 ^ (F.prec : Int) * 2 ^ e := mul_le_mul_of_nonneg_right h1 (pow2_pos e).le
        _ = 2 ^ (F.prec + e : Int) := (pow2_add _ _).symm
        _ ≤ _ := pow2_le (by omega)
    have hmul : (2 : ℚ) ^ (F.prec - 1 + F.expo x : Int) = ((2 ^ k : Int) : ℚ) * 2 ^ F.expo x := by
      rw [pow2_add, show ((F.prec : Int) - 1) = (k : Int) by omega, zpow_natCast]
      push_cast
      rfl
    rcases lt_or_gt_of_ne hx with hneg | hpos
    · rw [abs_of_neg hneg] at hfull
      have key := rnd_nearest_multiple F x (-(2 ^ k))
      have e1 : ((-(2 ^ k) : Int) : ℚ) * 2 ^ F.expo x = -(2 : ℚ) ^ (F.prec - 1 + F.expo x : Int) := by
        rw [hmul]; push_cast; ring
      rw [e1] at key
      refine key.trans ?_
      rw [abs_le] at hsmall
      rw [abs_of_nonneg (by linarith), abs_of_nonneg (by linarith)]
      linarith
    · rw [abs_of_pos hpos] at hfull
      have key := rnd_nearest_multiple F x (2 ^ k)
      rw [← hmul] at key
      refine key.trans ?_
      rw [abs_le] at hsmall
      rw [abs_of_nonpos (by linarith), abs_of_nonpos (by linarith)]
      linarith

/-- Numbers of the format are not changed. -/
theorem rnd_rep {x : ℚ} (h : F.Rep x) : F.rnd x = x := by
  have := rnd_nearest F x x h
  rw [sub_self, abs_zero] at this
  exact sub_eq_zero.1 (abs_eq_zero.1 (le_antisymm this (abs_nonneg _)))

theorem nearer_upper {x a b : ℚ} (hab : a < b) (h : |b - x| ≤ |a - x|) : (a + b) / 2 ≤ x := by
  by_contra hc
  rw [not_le] at hc
  rcases le_total x a with q | q
  · rw [abs_of_nonneg (by linarith), abs_of_nonneg (by linarith)] at h
    linarith
  · rw [abs_of_nonneg (by linarith : (0 : ℚ) ≤ b - x), abs_of_nonpos (by linarith : a - x ≤ 0)] at h
    linarith

theorem nearer_lower {x a b : ℚ} (hab : a < b) (h : |a - x| ≤ |b - x|) : x ≤ (a + b) / 2 := by
  have := nearer_upper (x := -x) (a := -b) (b := -a) (by linarith)
    (by rw [show -a - -x = -(a - x) by ring, show -b - -x = -(b - x) by ring, abs_neg, abs_neg]; exact h)
  linarith

/-- Rounding keeps the order. -/
theorem rnd_mono {x y : ℚ} (h : x ≤ y) : F.rnd x ≤ F.rnd y := by
  rcases eq_or_lt_of_le h with rfl | hlt
  · exact le_refl _
  · by_contra hc
    rw [not_le] at hc
    have h1 := rnd_nearest F x _ (rep_rnd F y)
    have h2 := rnd_nearest F y _ (rep_rnd F x)
    have h3 := nearer_upper hc h1
    have h4 := nearer_lower hc h2
    linarith

theorem rnd_le {x y : ℚ} (h : x ≤ y) (hy : F.Rep y) : F.rnd x ≤ y := (rnd_mono F h).trans (rnd_rep F hy).le

theorem le_rnd {x y : ℚ} (h : y ≤ x) (hy : F.Rep y) : y ≤ F.rnd x := (rnd_rep F hy).ge.trans (rnd_mono F h)

theorem rnd_nonneg {x : ℚ} (h : 0 ≤ x) : 0 ≤ F.rnd x := le_rnd F h (rep_zero F)

theorem rnd_nonpos {x : ℚ} (h : x ≤ 0) : F.rnd x ≤ 0 := rnd_le F h (rep_zero F)

theorem rnd_abs (x : ℚ) : F.rnd |x| = |F.rnd x| := by
  rcases le_total 0 x with h | h
  · rw [abs_of_nonneg h, abs_of_nonneg (rnd_nonneg F h)]
  · rw [abs_of_nonpos h, abs_of_nonpos (rnd_nonpos F h), rnd_neg]

theorem abs_rnd_le {x y : ℚ} (h : |x| ≤ y) (hy : F.Rep y) : |F.rnd x| ≤ y := by
  rw [← rnd_abs]; exact rnd_le F h hy

/-- Half a unit in the last place of a number with all its bits is at most the `2 ^ prec`-th part of it. -/
theorem rnd_err_normal (x : ℚ) (h : (2 : ℚ) ^ (F.emin + F.prec - 1 : Int) ≤ |x|) : |F.rnd x - x| ≤ |x| / 2 ^ F.prec := by
  have hx : x ≠ 0 := by
    rintro rfl
    rw [abs_zero] at h
    exact absurd (pow2_pos _) (not_lt.2 h)
  refine (rnd_err_ulp F x).trans ?_
  have hb := log_bounds x hx
  have hle : F.emin + F.prec - 1 ≤ Int.log 2 |x| := by
    have := pow2_lt_iff.1 (lt_of_le_of_lt h hb.2)
    omega
  have he : F.expo x = Int.log 2 |x| - (F.prec - 1) := by
    unfold Fmt.expo
    rw [max_eq_right]
    omega
  rw [he, le_div_iff₀ (by positivity)]
  have : (2 : ℚ) ^ (Int.log 2 |x| - (F.prec - 1)) / 2 * 2 ^ F.prec = 2 ^ Int.log 2 |x| := by
    rw [← zpow_natCast (2 : ℚ) F.prec, show Int.log 2 |x| - ((F.prec : Int) - 1) = (Int.log 2 |x| - F.prec) + 1 by ring, pow2_add,
      zpow_one, mul_div_cancel_right₀ _ (by norm_num : (2 : ℚ) ≠ 0), ← pow2_add]
    congr 1
    omega
  rw [this]
  exact hb.1

/-- The error of rounding any number. -/
theorem rnd_err (x : ℚ) : |F.rnd x - x| ≤ |x| / 2 ^ F.prec + 2 ^ (F.emin - 1) := by
  have hp : (0 : ℚ) ≤ |x| / 2 ^ F.prec := by positivity
  by_cases h : (2 : ℚ) ^ (F.emin + F.prec - 1 : Int) ≤ |x|
  · have := rnd_err_normal F x h
    have := pow2_pos (F.emin - 1)
    linarith
  · rw [not_le] at h
    have hh : 2 ^ F.expo x / 2 ≤ (2 : ℚ) ^ (F.emin - 1) ∨ x = 0 := by
      by_cases hx : x = 0
      · exact Or.inr hx
      · left
        have hb := log_bounds x hx
        have : Int.log 2 |x| < F.emin + F.prec - 1 := pow2_lt_iff.1 (lt_of_le_of_lt hb.1 h)
        have he : F.expo x = F.emin := by
          unfold Fmt.expo
          rw [max_eq_left]
          omega
        rw [he, sub_eq_add_neg, pow2_add, zpow_neg_one, div_eq_mul_inv]
    rcases hh with hh | rfl
    · have := rnd_err_ulp F x
      linarith
    · rw [rnd_zero, sub_zero, abs_zero]
      have := pow2_pos (F.emin - 1)
      simp only [zero_div, zero_add]
      exact this.le

/-! ### Integers, powers of two, the largest number -/

theorem rep_int (h0 : F.emin ≤ 0) (n : Int) (h : |n| ≤ 2 ^ F.prec) : F.Rep n := ⟨n, 0, h, h0, by simp⟩

theorem rep_scale {x : ℚ} (h : F.Rep x) (k : Nat) : F.Rep (x * 2 ^ k) := by
  obtain ⟨m, e, h1, h2, rfl⟩ := h
  refine ⟨m, e + k, h1, by omega, ?_⟩
  rw [pow2_add, zpow_natCast]
  ring

theorem rep_maxFin : F.Rep F.maxFin := by
  refine ⟨2 ^ F.prec - 1, F.emax, ?_, F.hexp, by unfold Fmt.maxFin; push_cast; rfl⟩
  rw [abs_of_nonneg]
  · omega
  · have : (1 : Int) ≤ 2 ^ F.prec := one_le_pow₀ (by norm_num)
    omega

theorem maxFin_pos : 0 < F.maxFin := by
  unfold Fmt.maxFin
  have h : (1 : ℚ) < 2 ^ F.prec := one_lt_pow₀ (by norm_num) (by have := F.hprec; omega)
  exact mul_pos (by linarith) (pow2_pos _)

theorem abs_rnd_maxFin {x : ℚ} (h : |x| ≤ F.maxFin) : |F.rnd x| ≤ F.maxFin := abs_rnd_le F h (rep_maxFin F)

/-! ### Operations on finite numbers -/

theorem finite_of (s : Bool) (x : ℚ) (h : |x| ≤ F.maxFin) : F.Finite (F.of s x) (F.rnd x) := by
  have hm := abs_rnd_maxFin F h
  unfold Fmt.of
  dsimp only
  rw [if_neg (not_lt.2 hm)]
  refine ⟨_, rfl, rep_rnd F x, hm, fun hn => ?_, fun hn => ?_⟩
  · have : x < 0 := by
      by_contra hc
      exact absurd hn (not_lt.2 (rnd_nonneg F (not_lt.1 hc)))
    rw [if_pos this]
  · have : 0 < x := by
      by_contra hc
      exact absurd hn (not_lt.2 (rnd_nonpos F (not_lt.1 hc)))
    rw [if_neg (not_lt.2 this.le), if_pos this]

/-- Conversely a finite result is the rounded exact value. -/
theorem of_finite (s : Bool) (x y : ℚ) (h : F.Finite (F.of s x) y) : y = F.rnd x := by
  obtain ⟨t, h, -⟩ := h
  unfold Fmt.of at h
  dsimp only at h
  split_ifs at h <;> first | (cases h; done) | exact ((Fl.fin.injEq _ _ _ _).mp h).2.symm

variable {F}

theorem Fmt.Finite.rep {a : Fl} {x : ℚ} (h : F.Finite a x) : F.Rep x := by obtain ⟨s, -, h, -⟩ := h; exact h

theorem Fmt.Finite.le {a : Fl} {x : ℚ} (h : F.Finite a x) : |x| ≤ F.maxFin := by obtain ⟨s, -, -, h, -⟩ := h; exact h

theorem Fmt.Finite.unique {a : Fl} {x y : ℚ} (h : F.Finite a x) (h' : F.Finite a y) : x = y := by
  obtain ⟨s, e, -⟩ := h
  obtain ⟨t, e', -⟩ := h'
  rw [e] at e'
  exact ((Fl.fin.injEq _ _ _ _).mp e').2

theorem Fmt.Finite.neg {a : Fl} {x : ℚ} (h : F.Finite a x) : F.Finite a.neg (-x) := by
  obtain ⟨s, rfl, h1, h2, h3, h4⟩ := h
  refine ⟨!s, rfl, rep_neg F h1, by rwa [abs_neg], fun q => ?_, fun q => ?_⟩
  · rw [h4 (by linarith)]; rfl
  · rw [h3 (by linarith)]; rfl

theorem Fmt.Finite.abs {a : Fl} {x : ℚ} (h : F.Finite a x) : F.Finite a.abs |x| := by
  obtain ⟨s, rfl, h1, h2, h3, h4⟩ := h
  refine ⟨false, rfl, ?_, by rwa [abs_abs], fun q => absurd q (not_lt.2 (abs_nonneg _)), fun _ => rfl⟩
  rcases abs_choice x with e | e <;> rw [e]
  · exact h1
  · exact rep_neg F h1

theorem finite_add {a b : Fl} {x y : ℚ} (ha : F.Finite a x) (hb : F.Finite b y) (h : |x + y| ≤ F.maxFin) :
    F.Finite (F.add a b) (F.rnd (x + y)) := by
  obtain ⟨s, rfl, -⟩ := ha
  obtain ⟨t, rfl, -⟩ := hb
  exact finite_of F _ _ h

theorem finite_sub {a b : Fl} {x y : ℚ} (ha : F.Finite a x) (hb : F.Finite b y) (h : |x - y| ≤ F.maxFin) :
    F.Finite (F.sub a b) (F.rnd (x - y)) := by
  have := finite_add ha hb.neg (by rwa [← sub_eq_add_neg])
  rwa [← sub_eq_add_neg] at this

theorem finite_mul {a b : Fl} {x y : ℚ} (ha : F.Finite a x) (hb : F.Finite b y) (h : |x * y| ≤ F.maxFin) :
    F.Finite (F.mul a b) (F.rnd (x * y)) := by
  obtain ⟨s, rfl, -⟩ := ha
  obtain ⟨t, rfl, -⟩ := hb
  exact finite_of F _ _ h

theorem finite_div {a b : Fl} {x y : ℚ} (ha : F.Finite a x) (hb : F.Finite b y) (hy : y ≠ 0) (h : |x / y| ≤ F.maxFin) :
    F.Finite (F.div a b) (F.rnd (x / y)) := by
  obtain ⟨s, rfl, -⟩ := ha
  obtain ⟨t, rfl, -⟩ := hb
  unfold Fmt.div
  dsimp only
  rw [if_neg hy]
  exact finite_of F _ _ h

theorem finite_int (h0 : F.emin ≤ 0) (n : Int) (h : |n| ≤ 2 ^ F.prec) (hm : (2 : ℚ) ^ F.prec ≤ F.maxFin) : F.Finite (F.ofInt n) n := by
  have h' : |(n : ℚ)| ≤ F.maxFin := by
    refine le_trans ?_ hm
    exact_mod_cast h
  have := finite_of F false (n : ℚ) h'
  rwa [rnd_rep F (rep_int F h0 n h)] at this

theorem finite_lt {a b : Fl} {x y : ℚ} (ha : F.Finite a x) (hb : F.Finite b y) : a.lt b = decide (x < y) := by
  obtain ⟨s, rfl, -⟩ := ha
  obtain ⟨t, rfl, -⟩ := hb
  rfl

theorem finite_beq {a b : Fl} {x y : ℚ} (ha : F.Finite a x) (hb : F.Finite b y) : a.beq b = decide (x = y) := by
  obtain ⟨s, rfl, -⟩ := ha
  obtain ⟨t, rfl, -⟩ := hb
  rfl

theorem finite_le {a b : Fl} {x y : ℚ} (ha : F.Finite a x) (hb : F.Finite b y) : a.le b = decide (x ≤ y) := by
  unfold Fl.le
  rw [finite_lt ha hb, finite_beq ha hb, ← Bool.decide_or, decide_eq_decide]
  exact le_iff_lt_or_eq.symm

end Verif.Float

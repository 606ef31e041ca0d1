import Verif.Props.FloatYears
import Verif.Float.Interp
/-!
# One segment of a single-precision linear interpolation

Lemmas for C143: relative errors of the five operations and their sum.
-/
set_option autoImplicit false
namespace Verif.Props
open Verif Verif.Float Verif.QL

/-- An operation rounds its exact result by a small factor and, where numbers are tiny, by a tiny amount. -/
theorem f32_model (x : ℚ) : ∃ δ e : ℚ, f32.rnd x = x * (1 + δ) + e ∧ |δ| ≤ u24 ∧ |e| ≤ 2 ^ (-150 : Int) := by
  by_cases h0 : x = 0
  · subst h0
    exact ⟨0, 0, by rw [rnd_zero]; ring, by norm_num, by rw [abs_zero]; exact (pow2_pos _).le⟩
  by_cases h : (2 : ℚ) ^ (-126 : Int) ≤ |x|
  · have := f32_err x (Or.inr h)
    refine ⟨(f32.rnd x - x) / x, 0, by field_simp; ring, ?_, by rw [abs_zero]; exact (pow2_pos _).le⟩
    rw [abs_div, div_le_iff₀ (abs_pos.2 h0)]
    refine this.trans (le_of_eq ?_)
    norm_num
    ring
  · refine ⟨0, f32.rnd x - x, by ring, by norm_num, ?_⟩
    have := rnd_err_ulp f32 x
    have e : f32.expo x = -149 := by
      unfold Fmt.expo
      rw [show f32.emin = -149 from rfl, show f32.prec = 24 from rfl]
      have h1 := (log_bounds x h0).1
      rw [not_le] at h
      have := pow2_lt_iff.1 (lt_of_le_of_lt h1 h)
      omega
    rw [e] at this
    exact this.trans (by decide +kernel)

/-- Sums and differences of numbers of the format have no error where they are tiny. -/
theorem f32_sub_model (a b : ℚ) (ha : f32.Rep a) (hb : f32.Rep b) : ∃ δ : ℚ, f32.rnd (a - b) = (a - b) * (1 + δ) ∧ |δ| ≤ u24 := by
  by_cases h0 : a - b = 0
  · exact ⟨0, by rw [h0, rnd_zero]; ring, by norm_num⟩
  by_cases h : (2 : ℚ) ^ (-126 : Int) ≤ |a - b|
  · have := f32_err _ (Or.inr h)
    refine ⟨(f32.rnd (a - b) - (a - b)) / (a - b), by field_simp; ring, ?_⟩
    rw [abs_div, div_le_iff₀ (abs_pos.2 h0)]
    refine this.trans (le_of_eq ?_)
    norm_num
    ring
  · refine ⟨0, ?_, by norm_num⟩
    rw [add_zero, mul_one]
    refine rnd_rep f32 ?_
    have mult : ∀ x, f32.Rep x → ∃ n : Int, x = n * 2 ^ (-149 : Int) := by
      rintro x ⟨m, e, -, he, rfl⟩
      have he' : (-149 : Int) ≤ e := he
      refine ⟨m * 2 ^ (e + 149).toNat, ?_⟩
      push_cast
      rw [mul_assoc, ← zpow_natCast, ← pow2_add, Int.toNat_of_nonneg (by omega)]
      congr 2
      omega
    obtain ⟨m, hm⟩ := mult a ha
    obtain ⟨n, hn⟩ := mult b hb
    have e : a - b = ((m - n : Int) : ℚ) * 2 ^ (-149 : Int) := by rw [hm, hn]; push_cast; ring
    refine ⟨m - n, -149, ?_, le_refl _, e⟩
    rw [not_le, e, abs_mul, abs_of_pos (pow2_pos (-149))] at h
    have h2 : (2 : ℚ) ^ (-126 : Int) = 2 ^ 23 * 2 ^ (-149 : Int) := by decide +kernel
    rw [h2] at h
    have h3 := lt_of_mul_lt_mul_right h (pow2_pos (-149)).le
    rw [show f32.prec = 24 from rfl]
    have h4 : |m - n| < 2 ^ 23 := by exact_mod_cast h3
    omega

theorem u24_half {δ : ℚ} (h : |δ| ≤ u24) : 0 < 1 + δ ∧ |1 + δ| ≤ 2 ∧ 1 - u24 ≤ 1 + δ ∧ |1 + δ| ≤ 1 + u24 := by
  have h1 : |δ| ≤ 1 / 2 := h.trans (by norm_num)
  have h2 := (abs_le.1 h1).1
  have h3 := (abs_le.1 h).1
  have h4 : |1 + δ| ≤ 1 + |δ| := (abs_add_le _ _).trans (by rw [abs_one])
  refine ⟨by clear h h3; linarith, by clear h h3; linarith, by rw [sub_eq_add_neg]; exact add_le_add le_rfl h3, h4.trans (add_le_add le_rfl h)⟩

theorem grow {p A δ : ℚ} (h : |p - 1| ≤ A) (hd : |δ| ≤ u24) : |p * (1 + δ) - 1| ≤ A + u24 + A * u24 := by
  have e : p * (1 + δ) - 1 = (p - 1) + δ + (p - 1) * δ := by ring
  rw [e]
  have hA : 0 ≤ A := (abs_nonneg _).trans h
  refine (abs_add_le _ _).trans (add_le_add ((abs_add_le _ _).trans (add_le_add h hd)) ?_)
  rw [abs_mul]
  exact mul_le_mul h hd (abs_nonneg _) hA

theorem shrink {p A δ : ℚ} (h : |p - 1| ≤ A) (hd : |δ| ≤ u24) : |p / (1 + δ) - 1| ≤ (A + u24) * (1 + 2 * u24) := by
  obtain ⟨hp, -, hl, -⟩ := u24_half hd
  have e : p / (1 + δ) - 1 = ((p - 1) - δ) / (1 + δ) := by field_simp; ring
  have hA : 0 ≤ A := (abs_nonneg _).trans h
  rw [e, abs_div, abs_of_pos hp, div_le_iff₀ hp]
  have h1 : |p - 1 - δ| ≤ A + u24 := (abs_sub _ _).trans (add_le_add h hd)
  refine h1.trans ?_
  have h2 : 1 ≤ (1 + 2 * u24) * (1 + δ) := by
    have : (1 + 2 * u24) * (1 - u24) ≤ (1 + 2 * u24) * (1 + δ) := mul_le_mul_of_nonneg_left hl (by norm_num)
    exact le_trans (by norm_num) this
  have h3 : 0 ≤ A + u24 := by positivity
  calc A + u24 = (A + u24) * 1 := by ring
    _ ≤ (A + u24) * ((1 + 2 * u24) * (1 + δ)) := mul_le_mul_of_nonneg_left h2 h3
    _ = _ := by ring

/-- The five errors of the increment together. -/
theorem five {δ1 δ2 δ3 δ4 δ5 : ℚ} (h1 : |δ1| ≤ u24) (h2 : |δ2| ≤ u24) (h3 : |δ3| ≤ u24) (h4 : |δ4| ≤ u24) (h5 : |δ5| ≤ u24) :
    |(1 + δ1) * (1 + δ3) * (1 + δ4) * (1 + δ5) / (1 + δ2) - 1| ≤ 6 * u24 := by
  have a1 : |(1 + δ1) - 1| ≤ u24 := by rw [add_sub_cancel_left]; exact h1
  exact (shrink (grow (grow (grow a1 h3) h4) h5) h2).trans (by norm_num)

/-- What is assumed of the two ends of a segment and of a point of it. -/
structure Segment (a b s t q : ℚ) : Prop where
  av : |a| ≤ 2 ^ 30
  bv : |b| ≤ 2 ^ 30
  sv : |s| ≤ 2 ^ 30
  tv : |t| ≤ 2 ^ 30
  gap : s + (1 / 2) ^ 30 ≤ t
  left : s ≤ q
  right : q ≤ t

/-- The slope of a segment in single precision. -/
def slopeVal (a b s t : ℚ) : ℚ := f32.rnd (f32.rnd (b - a) / f32.rnd (t - s))

/-- The value at a point of a segment in single precision. -/
def lineVal (a b s t q : ℚ) : ℚ := f32.rnd (a + f32.rnd (slopeVal a b s t * f32.rnd (q - s)))

theorem rep_p (k : Nat) (h : k ≤ 100) : f32.Rep (2 ^ k) := by
  have := rep_pow2 f32 (k : Int) (by rw [show f32.emin = -149 from rfl]; omega)
  rwa [zpow_natCast] at this

theorem slope_finite {v0 v1 d0 d1 : Fl} {a b s t : ℚ} (h0 : f32.Finite v0 a) (h1 : f32.Finite v1 b) (k0 : f32.Finite d0 s)
    (k1 : f32.Finite d1 t) (av : |a| ≤ 2 ^ 30) (bv : |b| ≤ 2 ^ 30) (sv : |s| ≤ 2 ^ 30) (tv : |t| ≤ 2 ^ 30)
    (gap : s + (1 / 2) ^ 30 ≤ t) :
    f32.Finite (f32.div (f32.sub v1 v0) (f32.sub d1 d0)) (slopeVal a b s t) ∧ |slopeVal a b s t| ≤ 2 ^ 61 ∧ 0 < f32.rnd (t - s) := by
  have x1 : |b - a| ≤ 2 ^ 31 := (abs_sub _ _).trans (by norm_num at *; linarith)
  have x2 : |t - s| ≤ 2 ^ 31 := (abs_sub _ _).trans (by norm_num at *; linarith)
  have f1 := finite_sub h1 h0 (le_f32_max (x1.trans (by norm_num)))
  have f2 := finite_sub k1 k0 (le_f32_max (x2.trans (by norm_num)))
  have r1 : |f32.rnd (b - a)| ≤ 2 ^ 31 := abs_rnd_le f32 x1 (rep_p 31 (by norm_num))
  have g : (2 : ℚ) ^ (-30 : Int) ≤ f32.rnd (t - s) := le_rnd f32 (by norm_num at *; linarith) (rep_pow2 f32 _ (by decide))
  have gp : 0 < f32.rnd (t - s) := lt_of_lt_of_le (pow2_pos _) g
  have q1 : |f32.rnd (b - a) / f32.rnd (t - s)| ≤ 2 ^ 61 := by
    rw [abs_div, abs_of_pos gp, div_le_iff₀ gp]
    refine r1.trans ?_
    have := mul_le_mul_of_nonneg_left g (by norm_num : (0 : ℚ) ≤ 2 ^ 61)
    refine le_trans ?_ this
    norm_num
  exact ⟨finite_div f1 f2 gp.ne' (le_f32_max (q1.trans (by norm_num))), abs_rnd_le f32 q1 (rep_p 61 (by norm_num)), gp⟩

/-- The line in single precision: a finite number. -/
theorem line_finite {v0 v1 d0 d1 x : Fl} {a b s t q : ℚ} (h0 : f32.Finite v0 a) (h1 : f32.Finite v1 b) (k0 : f32.Finite d0 s)
    (k1 : f32.Finite d1 t) (hx : f32.Finite x q) (hs : Segment a b s t q) :
    f32.Finite (lineF v0 (f32.div (f32.sub v1 v0) (f32.sub d1 d0)) d0 x) (lineVal a b s t q) := by
  obtain ⟨f1, g1, -⟩ := slope_finite h0 h1 k0 k1 hs.av hs.bv hs.sv hs.tv hs.gap
  have tv := abs_le.1 hs.tv
  have sv := abs_le.1 hs.sv
  have x1 : |q - s| ≤ 2 ^ 31 := by
    rw [abs_of_nonneg (sub_nonneg.2 hs.left)]
    have := hs.right
    norm_num at *
    linarith
  have f2 := finite_sub hx k0 (le_f32_max (x1.trans (by norm_num)))
  have r2 : |f32.rnd (q - s)| ≤ 2 ^ 31 := abs_rnd_le f32 x1 (rep_p 31 (by norm_num))
  have p1 : |slopeVal a b s t * f32.rnd (q - s)| ≤ 2 ^ 92 := by
    rw [abs_mul]
    refine (mul_le_mul g1 r2 (abs_nonneg _) (by norm_num)).trans (by norm_num)
  have f3 := finite_mul f1 f2 (le_f32_max (p1.trans (by norm_num)))
  have r3 : |f32.rnd (slopeVal a b s t * f32.rnd (q - s))| ≤ 2 ^ 92 := abs_rnd_le f32 p1 (rep_p 92 (by norm_num))
  have s1 : |a + f32.rnd (slopeVal a b s t * f32.rnd (q - s))| ≤ 2 ^ 93 := by
    refine (abs_add_le _ _).trans ?_
    have := hs.av
    norm_num at *
    linarith
  exact finite_add h0 f3 (le_f32_max (s1.trans (by norm_num)))

/-- The exact line. -/
def chordQ (a b s t q : ℚ) : ℚ := a + (b - a) / (t - s) * (q - s)

theorem chord_within {a b s t q : ℚ} (hs : Segment a b s t q) : |chordQ a b s t q| ≤ max |a| |b| := by
  have hd : 0 < t - s := by have := hs.gap; have : (0 : ℚ) < (1 / 2) ^ 30 := by norm_num
                            linarith
  have l0 : 0 ≤ (q - s) / (t - s) := div_nonneg (sub_nonneg.2 hs.left) hd.le
  have l1 : (q - s) / (t - s) ≤ 1 := by rw [div_le_one hd]; linarith [hs.right]
  have e : chordQ a b s t q = (1 - (q - s) / (t - s)) * a + (q - s) / (t - s) * b := by unfold chordQ; field_simp; ring
  rw [e]
  generalize (q - s) / (t - s) = l at *
  have m1 := le_max_left |a| |b|
  have m2 := le_max_right |a| |b|
  generalize max |a| |b| = M at *
  refine (abs_add_le _ _).trans ?_
  rw [abs_mul, abs_mul, abs_of_nonneg l0, abs_of_nonneg (by linarith : 0 ≤ 1 - l)]
  have c1 := mul_le_mul_of_nonneg_left m1 (by linarith : 0 ≤ 1 - l)
  have c2 := mul_le_mul_of_nonneg_left m2 l0
  linarith

/-- The error of one segment. -/
theorem line_error {a b s t q : ℚ} (ra : f32.Rep a) (rb : f32.Rep b) (rs : f32.Rep s) (rt : f32.Rep t) (rq : f32.Rep q)
    (hs : Segment a b s t q) :
    |lineVal a b s t q - chordQ a b s t q| ≤ (6 * |b - a| + 2 * max |a| |b|) / 2 ^ 24 + (1 / 2) ^ 100 := by
  obtain ⟨δ1, v1, e1⟩ := f32_sub_model b a rb ra
  obtain ⟨δ2, v2, e2⟩ := f32_sub_model t s rt rs
  obtain ⟨δ3, v3, e3⟩ := f32_sub_model q s rq rs
  obtain ⟨δ4, η4, v4, e4, e4'⟩ := f32_model (f32.rnd (b - a) / f32.rnd (t - s))
  obtain ⟨δ5, η5, v5, e5, e5'⟩ := f32_model (slopeVal a b s t * f32.rnd (q - s))
  obtain ⟨δ6, v6, e6⟩ := f32_sub_model a (-f32.rnd (slopeVal a b s t * f32.rnd (q - s))) ra (rep_neg f32 (rep_rnd f32 _))
  rw [sub_neg_eq_add] at v6
  have hd : 0 < t - s := by
    have := hs.gap
    have : (0 : ℚ) < (1 / 2) ^ 30 := by norm_num
    linarith
  have d2 : 0 < 1 + δ2 := (u24_half e2).1
  have vg : slopeVal a b s t = (b - a) / (t - s) * ((1 + δ1) * (1 + δ4) / (1 + δ2)) + η4 := by
    unfold slopeVal
    rw [v4, v1, v2]
    field_simp
  -- the increment
  have inc : f32.rnd (slopeVal a b s t * f32.rnd (q - s)) - (b - a) / (t - s) * (q - s) =
      (b - a) / (t - s) * (q - s) * ((1 + δ1) * (1 + δ3) * (1 + δ4) * (1 + δ5) / (1 + δ2) - 1) + (η4 * ((q - s) * (1 + δ3) * (1 + δ5)) + η5) := by
    rw [v5, vg, v3]
    field_simp
    ring
  have qs : |q - s| ≤ 2 ^ 31 := by
    rw [abs_of_nonneg (sub_nonneg.2 hs.left)]
    have tv := abs_le.1 hs.tv
    have sv := abs_le.1 hs.sv
    have := hs.right
    norm_num at *
    linarith
  have small : |η4 * ((q - s) * (1 + δ3) * (1 + δ5)) + η5| ≤ (1 / 2) ^ 110 := by
    refine (abs_add_le _ _).trans ?_
    rw [abs_mul, abs_mul, abs_mul]
    have c3 : |1 + δ3| ≤ 2 := (u24_half e3).2.1
    have c5 : |1 + δ5| ≤ 2 := (u24_half e5).2.1
    have m1 : |q - s| * |1 + δ3| * |1 + δ5| ≤ 2 ^ 31 * 2 * 2 :=
      mul_le_mul (mul_le_mul qs c3 (abs_nonneg _) (by norm_num)) c5 (abs_nonneg _) (by norm_num)
    have m2 : |η4| * (|q - s| * |1 + δ3| * |1 + δ5|) ≤ 2 ^ (-150 : Int) * (2 ^ 31 * 2 * 2) :=
      mul_le_mul e4' m1 (by positivity) (pow2_pos _).le
    refine (add_le_add m2 e5').trans ?_
    decide +kernel
  have frac : |(b - a) / (t - s) * (q - s)| ≤ |b - a| := by
    rw [abs_mul, abs_div, abs_of_pos hd, abs_of_nonneg (sub_nonneg.2 hs.left), div_mul_eq_mul_div, div_le_iff₀ hd]
    exact mul_le_mul_of_nonneg_left (by linarith [hs.right]) (abs_nonneg _)
  have incb : |f32.rnd (slopeVal a b s t * f32.rnd (q - s)) - (b - a) / (t - s) * (q - s)| ≤ |b - a| * (6 * u24) + (1 / 2) ^ 110 := by
    rw [inc]
    refine (abs_add_le _ _).trans (add_le_add ?_ small)
    rw [abs_mul]
    exact mul_le_mul frac (five e1 e2 e3 e4 e5) (abs_nonneg _) (abs_nonneg _)
  have cw := chord_within hs
  have lv : lineVal a b s t q - chordQ a b s t q =
      (f32.rnd (slopeVal a b s t * f32.rnd (q - s)) - (b - a) / (t - s) * (q - s)) * (1 + δ6) + chordQ a b s t q * δ6 := by
    unfold lineVal chordQ
    rw [v6]
    ring
  rw [lv]
  have c6 : |1 + δ6| ≤ 1 + u24 := (u24_half e6).2.2.2
  refine (abs_add_le _ _).trans ?_
  rw [abs_mul, abs_mul]
  have z1 := mul_le_mul incb c6 (abs_nonneg _) (by positivity)
  have z2 := mul_le_mul cw e6 (abs_nonneg _) (le_trans (abs_nonneg _) (le_max_left |a| |b|))
  refine (add_le_add z1 z2).trans ?_
  have vb : |b - a| ≤ 2 * max |a| |b| := (abs_sub _ _).trans (by linarith [le_max_left |a| |b|, le_max_right |a| |b|])
  have hv := abs_nonneg (b - a)
  generalize |b - a| = V at *
  generalize max |a| |b| = M at *
  clear inc small frac incb cw lv c6 z1 z2 qs v1 v2 v3 v4 v5 v6 vg
  norm_num
  linarith

end Verif.Props

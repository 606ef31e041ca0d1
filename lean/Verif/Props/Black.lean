import Verif.QL.Volatility
import Mathlib.MeasureTheory.Integral.IntervalIntegral.FundThmCalculus
import Mathlib.Analysis.Calculus.Deriv.MeanValue
import Mathlib.Analysis.SpecialFunctions.Log.Deriv
import Mathlib.Analysis.Calculus.MeanValue
/-!
# The expected payoff of an option on a lognormal price (used by C72)
-/
set_option autoImplicit false
namespace Verif.Props
open Verif Verif.QL MeasureTheory ProbabilityTheory Set

/-- Specification: the expected payoff of a call struck at `K` on a price with mean `F` whose logarithm has a normal
distribution with standard deviation `v`. -/
noncomputable def expectedCall (F K v : ℝ) : ℝ := ∫ z, max (F * Real.exp (v * z - v ^ 2 / 2) - K) 0 ∂(gaussianReal 0 1)

/-- Specification: the same for a put. -/
noncomputable def expectedPut (F K v : ℝ) : ℝ := ∫ z, max (K - F * Real.exp (v * z - v ^ 2 / 2)) 0 ∂(gaussianReal 0 1)

theorem normal_eq (x : ℝ) : normalCdf x = (gaussianReal 0 1).real (Iic x) := cdf_eq_real _ x

theorem tail_eq (μ a : ℝ) : (gaussianReal μ 1).real (Ici a) = normalCdf (μ - a) := by
  have h : gaussianReal μ 1 = (gaussianReal 0 1).map (fun x => μ - x) := by
    rw [gaussianReal_map_const_sub]; simp
  rw [h, normal_eq, map_measureReal_apply (by fun_prop) measurableSet_Ici]
  congr 1
  ext x
  simp only [mem_preimage, mem_Ici, mem_Iic]
  constructor <;> intro h <;> linarith

theorem normal_neg (x : ℝ) : normalCdf (-x) = 1 - normalCdf x := by
  have h := tail_eq 0 x
  rw [zero_sub] at h
  rw [← h, normal_eq]
  have : NullSingletonClass (gaussianReal 0 1) := nullSingletonClass_gaussianReal one_ne_zero
  have e : (gaussianReal 0 1).real (Ici x) = (gaussianReal 0 1).real (Ioi x) := by
    rw [measureReal_def, measureReal_def, measure_congr Ioi_ae_eq_Ici]
  rw [e, ← compl_Iic, probReal_compl_eq_one_sub measurableSet_Iic]

theorem pdf_shift (v x : ℝ) : gaussianPDFReal v 1 x = gaussianPDFReal 0 1 x * Real.exp (v * x - v ^ 2 / 2) := by
  simp only [gaussianPDFReal, mul_assoc, ← Real.exp_add]
  congr 2
  simp only [NNReal.coe_one]
  ring

theorem tilt_integral (v : ℝ) (s : Set ℝ) (hs : MeasurableSet s) :
    ∫ z in s, Real.exp (v * z - v ^ 2 / 2) ∂(gaussianReal 0 1) = (gaussianReal v 1).real s := by
  rw [← integral_indicator hs, integral_gaussianReal_eq_integral_smul one_ne_zero]
  rw [← integral_indicator_one hs, integral_gaussianReal_eq_integral_smul one_ne_zero]
  congr 1
  ext x
  by_cases hx : x ∈ s
  · simp only [hx, smul_eq_mul, indicator_of_mem, Pi.one_apply, mul_one]
    rw [pdf_shift v]
  · simp [hx]

theorem exp_integrable (v : ℝ) : Integrable (fun z => Real.exp (v * z - v ^ 2 / 2)) (gaussianReal 0 1) := by
  have h : (fun z => Real.exp (v * z - v ^ 2 / 2)) = fun z => Real.exp (v * z) * Real.exp (-(v ^ 2 / 2)) := by
    ext z; rw [← Real.exp_add]; ring_nf
  rw [h]
  exact (integrable_exp_mul_gaussianReal v).mul_const _

theorem exp_mean (v : ℝ) : ∫ z, Real.exp (v * z - v ^ 2 / 2) ∂(gaussianReal 0 1) = 1 := by
  have := tilt_integral v univ MeasurableSet.univ
  rw [setIntegral_univ] at this
  rw [this]
  simp

theorem payoff_integrable (F K v : ℝ) : Integrable (fun z => F * Real.exp (v * z - v ^ 2 / 2) - K) (gaussianReal 0 1) :=
  ((exp_integrable v).const_mul F).sub (integrable_const K)

theorem call_integrable (F K v : ℝ) : Integrable (fun z => max (F * Real.exp (v * z - v ^ 2 / 2) - K) 0) (gaussianReal 0 1) :=
  (payoff_integrable F K v).pos_part

theorem put_integrable (F K v : ℝ) : Integrable (fun z => max (K - F * Real.exp (v * z - v ^ 2 / 2)) 0) (gaussianReal 0 1) := by
  have := (payoff_integrable F K v).neg.pos_part
  refine this.congr (Filter.Eventually.of_forall fun z => ?_)
  simp

/-- Parity of the expected payoffs. -/
theorem expected_parity (F K v : ℝ) : expectedCall F K v - expectedPut F K v = F - K := by
  unfold expectedCall expectedPut
  rw [← integral_sub (call_integrable F K v) (put_integrable F K v)]
  have : ∀ z : ℝ, max (F * Real.exp (v * z - v ^ 2 / 2) - K) 0 - max (K - F * Real.exp (v * z - v ^ 2 / 2)) 0 = F * Real.exp (v * z - v ^ 2 / 2) - K := by
    intro z
    rcases le_total (F * Real.exp (v * z - v ^ 2 / 2)) K with h | h
    · rw [max_eq_right (by linarith), max_eq_left (by linarith)]; ring
    · rw [max_eq_left (by linarith), max_eq_right (by linarith)]; ring
  simp only [this]
  rw [integral_sub ((exp_integrable v).const_mul F) (integrable_const K), integral_const_mul, exp_mean]
  simp

/-- The closed form of the expected payoff of a call. -/
theorem expectedCall_eq (F K v : ℝ) (hF : 0 < F) (hK : 0 < K) (hv : 0 < v) :
    expectedCall F K v = F * normalCdf ((-Real.log (K / F) + v ^ 2 / 2) / v) - K * normalCdf ((-Real.log (K / F) + v ^ 2 / 2) / v - v) := by
  set d := (-Real.log (K / F) + v ^ 2 / 2) / v with hd
  have hiff : ∀ z, z ∈ Ici (v - d) ↔ K ≤ F * Real.exp (v * z - v ^ 2 / 2) := by
    intro z
    rw [mem_Ici, ← div_le_iff₀' hF, ← Real.log_le_iff_le_exp (by positivity)]
    have hvd : v * d = -Real.log (K / F) + v ^ 2 / 2 := by rw [hd]; field_simp
    constructor
    · intro h
      nlinarith [mul_le_mul_of_nonneg_left h hv.le]
    · intro h
      by_contra hc
      nlinarith [mul_lt_mul_of_pos_left (not_le.1 hc) hv]
  have hind : (fun z => max (F * Real.exp (v * z - v ^ 2 / 2) - K) 0) = (Ici (v - d)).indicator (fun z => F * Real.exp (v * z - v ^ 2 / 2) - K) := by
    ext z
    by_cases h : z ∈ Ici (v - d)
    · rw [indicator_of_mem h, max_eq_left (by linarith [(hiff z).1 h])]
    · rw [indicator_of_notMem h, max_eq_right]
      have := mt (hiff z).2 h
      linarith
  unfold expectedCall
  rw [hind, integral_indicator measurableSet_Ici, integral_sub ((exp_integrable v).const_mul F).integrableOn (integrable_const K).integrableOn,
    integral_const_mul, tilt_integral v _ measurableSet_Ici, tail_eq, setIntegral_const, tail_eq, smul_eq_mul]
  rw [show v - (v - d) = d by ring, show 0 - (v - d) = d - v by ring]
  ring

theorem expectedPut_eq (F K v : ℝ) (hF : 0 < F) (hK : 0 < K) (hv : 0 < v) :
    expectedPut F K v = K * (1 - normalCdf ((-Real.log (K / F) + v ^ 2 / 2) / v - v)) - F * (1 - normalCdf ((-Real.log (K / F) + v ^ 2 / 2) / v)) := by
  have h1 := expected_parity F K v
  have h2 := expectedCall_eq F K v hF hK hv
  linarith

/-! ### the distribution function is differentiable, and the price rises with the volatility -/

theorem normal_integral (x : ℝ) : normalCdf x = ∫ t in Iic x, gaussianPDFReal 0 1 t := by
  rw [normal_eq, measureReal_def, gaussianReal_apply_eq_integral _ one_ne_zero, ENNReal.toReal_ofReal]
  exact setIntegral_nonneg measurableSet_Iic fun t _ => gaussianPDFReal_nonneg _ _ _

theorem pdf_continuous : Continuous (gaussianPDFReal 0 1) := by
  unfold gaussianPDFReal
  fun_prop

theorem normal_hasDerivAt (x : ℝ) : HasDerivAt normalCdf (gaussianPDFReal 0 1 x) x := by
  have h : normalCdf = fun x => normalCdf 0 + ∫ t in (0 : ℝ)..x, gaussianPDFReal 0 1 t := by
    ext x
    have := intervalIntegral.integral_Iic_sub_Iic (f := gaussianPDFReal 0 1) (μ := volume) (a := 0) (b := x)
      (integrable_gaussianPDFReal 0 1).integrableOn (integrable_gaussianPDFReal 0 1).integrableOn
    rw [← normal_integral, ← normal_integral] at this
    linarith
  rw [h]
  apply HasDerivAt.const_add
  exact intervalIntegral.integral_hasDerivAt_right (pdf_continuous.intervalIntegrable _ _)
    (pdf_continuous.stronglyMeasurableAtFilter _ _) pdf_continuous.continuousAt

theorem pdf_pos (x : ℝ) : 0 < gaussianPDFReal 0 1 x := gaussianPDFReal_pos _ _ _ one_ne_zero

/-- The expected payoff of a call rises strictly with the standard deviation. -/
theorem expectedCall_strictMono (F K : ℝ) (hF : 0 < F) (hK : 0 < K) : StrictMonoOn (expectedCall F K) (Ioi 0) := by
  set g : ℝ → ℝ := fun v => F * normalCdf ((-Real.log (K / F) + v ^ 2 / 2) / v) - K * normalCdf ((-Real.log (K / F) + v ^ 2 / 2) / v - v) with hg
  have heq : EqOn (expectedCall F K) g (Ioi 0) := fun v hv => expectedCall_eq F K v hF hK hv
  have hder : ∀ v ∈ Ioi (0 : ℝ), HasDerivAt g (F * gaussianPDFReal 0 1 ((-Real.log (K / F) + v ^ 2 / 2) / v)) v := by
    intro v hv
    have hv0 : v ≠ 0 := (mem_Ioi.1 hv).ne'
    set L := Real.log (K / F) with hL
    have hd1 : HasDerivAt (fun v : ℝ => (-L + v ^ 2 / 2) / v) ((v * v - (-L + v ^ 2 / 2)) / v ^ 2) v := by
      have a : HasDerivAt (fun v : ℝ => -L + v ^ 2 / 2) v v := by
        have := ((hasDerivAt_pow 2 v).div_const 2).const_add (-L)
        simpa using this
      have := a.div (hasDerivAt_id v) hv0
      refine (this.congr_deriv ?_)
      simp
    have hd2 : HasDerivAt (fun v : ℝ => (-L + v ^ 2 / 2) / v - v) ((v * v - (-L + v ^ 2 / 2)) / v ^ 2 - 1) v := hd1.sub (hasDerivAt_id v)
    have h1 := (HasDerivAt.comp (h₂ := normalCdf) (h := fun v : ℝ => (-L + v ^ 2 / 2) / v) v (normal_hasDerivAt ((-L + v ^ 2 / 2) / v)) hd1).const_mul F
    have h2 := (HasDerivAt.comp (h₂ := normalCdf) (h := fun v : ℝ => (-L + v ^ 2 / 2) / v - v) v (normal_hasDerivAt ((-L + v ^ 2 / 2) / v - v)) hd2).const_mul K
    have h3 := h1.sub h2
    refine h3.congr_deriv ?_
    -- F φ(d1) = K φ(d2)
    have key : K * gaussianPDFReal 0 1 ((-L + v ^ 2 / 2) / v - v) = F * gaussianPDFReal 0 1 ((-L + v ^ 2 / 2) / v) := by
      set d := (-L + v ^ 2 / 2) / v with hd
      have hvd : v * d = -L + v ^ 2 / 2 := by rw [hd]; field_simp
      have e1 : gaussianPDFReal 0 1 (d - v) = gaussianPDFReal 0 1 d * Real.exp (v * d - v ^ 2 / 2) := by
        rw [← pdf_shift, gaussianPDFReal_sub]; simp
      have e2 : Real.exp (v * d - v ^ 2 / 2) = F / K := by
        rw [hvd, show -L + v ^ 2 / 2 - v ^ 2 / 2 = -L by ring, Real.exp_neg, hL, Real.exp_log (by positivity), inv_div]
      rw [e1, e2]
      field_simp
    linear_combination (-((v * v - (-L + v ^ 2 / 2)) / v ^ 2 - 1)) * key
  have hmono : StrictMonoOn g (Ioi 0) := by
    apply strictMonoOn_of_deriv_pos (convex_Ioi 0)
    · exact fun v hv => (hder v hv).continuousAt.continuousWithinAt
    · rw [interior_Ioi]
      intro v hv
      rw [(hder v hv).deriv]
      exact mul_pos hF (pdf_pos _)
  exact hmono.congr heq.symm

/-! ### bounds and dependence on strike and forward -/

theorem expectedCall_nonneg (F K v : ℝ) : 0 ≤ expectedCall F K v := integral_nonneg fun _ => le_max_right _ _

theorem expectedPut_nonneg (F K v : ℝ) : 0 ≤ expectedPut F K v := integral_nonneg fun _ => le_max_right _ _

theorem expectedCall_le (F K v : ℝ) (hF : 0 ≤ F) (hK : 0 ≤ K) : expectedCall F K v ≤ F := by
  have h : ∫ z, F * Real.exp (v * z - v ^ 2 / 2) ∂(gaussianReal 0 1) = F := by rw [integral_const_mul, exp_mean, mul_one]
  rw [← h]
  conv_lhs => rw [h]
  apply integral_mono (call_integrable F K v) ((exp_integrable v).const_mul F)
  intro z
  have : 0 ≤ F * Real.exp (v * z - v ^ 2 / 2) := by positivity
  exact max_le (by linarith) this

theorem expectedCall_strike_antitone (F v K K' : ℝ) (h : K ≤ K') : expectedCall F K' v ≤ expectedCall F K v := by
  apply integral_mono (call_integrable F K' v) (call_integrable F K v)
  intro z
  exact max_le_max (by linarith) (le_refl _)

theorem expectedPut_strike_mono (F v K K' : ℝ) (h : K ≤ K') : expectedPut F K v ≤ expectedPut F K' v := by
  apply integral_mono (put_integrable F K v) (put_integrable F K' v)
  intro z
  exact max_le_max (by linarith) (le_refl _)

theorem expectedCall_strike_convex (F v : ℝ) : ConvexOn ℝ univ (fun K => expectedCall F K v) := by
  refine ⟨convex_univ, fun K _ K' _ a b ha hb hab => ?_⟩
  simp only [smul_eq_mul]
  unfold expectedCall
  rw [← integral_const_mul, ← integral_const_mul, ← integral_add ((call_integrable F K v).const_mul a) ((call_integrable F K' v).const_mul b)]
  apply integral_mono (call_integrable F _ v) (((call_integrable F K v).const_mul a).add ((call_integrable F K' v).const_mul b))
  intro z
  simp only [Pi.add_apply]
  set X := F * Real.exp (v * z - v ^ 2 / 2)
  have h1 : X - K ≤ max (X - K) 0 := le_max_left _ _
  have h2 : X - K' ≤ max (X - K') 0 := le_max_left _ _
  have h3 : 0 ≤ max (X - K) 0 := le_max_right _ _
  have h4 : 0 ≤ max (X - K') 0 := le_max_right _ _
  apply max_le
  · have : X - (a * K + b * K') = a * (X - K) + b * (X - K') := by
      have : X = (a + b) * X := by rw [hab, one_mul]
      linear_combination this
    rw [this]
    exact add_le_add (mul_le_mul_of_nonneg_left h1 ha) (mul_le_mul_of_nonneg_left h2 hb)
  · positivity

theorem expectedCall_forward_mono (F F' K v : ℝ) (h : F ≤ F') : expectedCall F K v ≤ expectedCall F' K v := by
  apply integral_mono (call_integrable F K v) (call_integrable F' K v)
  intro z
  refine max_le_max ?_ (le_refl _)
  have := mul_le_mul_of_nonneg_right h (Real.exp_pos (v * z - v ^ 2 / 2)).le
  linarith

end Verif.Props

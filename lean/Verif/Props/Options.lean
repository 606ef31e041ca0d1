import Verif.Props.Black
import Verif.Props.Quotes
/-!
# C72, C73: the price of a European option
-/
set_option autoImplicit false
namespace Verif.Props
open Verif Verif.QL Verif.Civil

/-- Specification: what an option is priced with: forward `F`, time `t`, volatility `s` at the forward moneyness of the
strike, discount factor `D`. -/
structure PricedWith (p : OptionPricer) (o : Vanilla) (F t s D : ℝ) : Prop where
  forward : p.env.forward o.maturity = .ok F
  time : t = timeFrom p.env.eval o.maturity
  vol : p.vol.value t (o.strike / F) = .ok s
  disc : p.disc.df t = .ok D

theorem variance_of_value (v : Vol) (t x s : ℝ) (h : v.value t x = .ok s) : v.variance t x = .ok (s * s * t) := by
  cases v with
  | const v => cases h; rfl
  | surface f =>
    simp only [Vol.value] at h
    simp only [Vol.variance]
    cases hi : f.interp.interp t x with
    | ok y => rw [hi] at h; cases h; rfl
    | error e => rw [hi] at h; cases e <;> simp at h

theorem deviation_of_value (v : Vol) (t x s : ℝ) (ht : 0 ≤ t) (h : v.value t x = .ok s) : v.deviation t x = .ok (s * Real.sqrt t) := by
  have hs : sqrtK t = .ok (Real.sqrt t) := by unfold sqrtK; rw [if_neg (by linarith)]
  cases v with
  | const v => cases h; simp only [Vol.deviation, hs, Res.bind_ok]
  | surface f =>
    simp only [Vol.value] at h
    simp only [Vol.deviation]
    cases hi : f.interp.interp t x with
    | ok y => rw [hi] at h; cases h; simp only [Res.bind_ok, hs]
    | error e => rw [hi] at h; cases e <;> simp at h

/-- Specification: the quanto adjustment of the drift of the logarithm: volatility x time x FX volatility x correlation. -/
def QuantoAdjustment (p : OptionPricer) (t s x a : ℝ) : Prop :=
  match p.quanto with
  | none => a = 0
  | some q => ∃ w, q.fxVol.value t x = .ok w ∧ a = s * t * (w * q.corr)

theorem option_npv_eq (p : OptionPricer) (o : Vanilla) (F t s D a : ℝ) (h : PricedWith p o F t s D) (ht : 0 ≤ t)
    (hF : 0 < F) (hK : 0 < o.strike) (hq : o.ccy = o.undCcy ∨ p.quanto ≠ none) (ha : QuantoAdjustment p t s (o.strike / F) a) :
    p.npv o = (normals (-Real.log (o.strike / F) + s * s * t / 2 - a) (s * Real.sqrt t) >>= fun n =>
      .ok (if o.call then D * (F * n.1 - o.strike * n.2) else D * (o.strike * (1 - n.2) - F * (1 - n.1)))) := by
  obtain ⟨h1, h2, h3, h4⟩ := h
  subst h2
  unfold OptionPricer.npv
  rw [h1]
  simp only [Res.bind_ok]
  rw [show divK o.strike F = .ok (o.strike / F) from if_neg hF.ne']
  simp only [Res.bind_ok]
  rw [variance_of_value _ _ _ _ h3, deviation_of_value _ _ _ _ ht h3]
  simp only [Res.bind_ok]
  rw [if_neg (by rintro ⟨q1, q2⟩; rcases hq with q | q; exact q1 q; exact q (Option.isNone_iff_eq_none.1 q2)), h3]
  simp only [Res.bind_ok]
  have hl : lnK (o.strike / F) = .ok (Real.log (o.strike / F)) := if_neg (not_le.2 (by positivity))
  unfold QuantoAdjustment at ha
  cases hqq : p.quanto with
  | none =>
    rw [hqq] at ha
    simp only at ha
    subst ha
    simp only [Res.bind_ok, hl, h4]
  | some q =>
    rw [hqq] at ha
    obtain ⟨w, hw, rfl⟩ := ha
    simp only [Quanto.adjust, hw, Res.bind_ok, hl, h4]

theorem sqrt_sq_dev (s t : ℝ) (ht : 0 ≤ t) : s * s * t = (s * Real.sqrt t) ^ 2 := by
  rw [mul_pow, Real.sq_sqrt ht]; ring

/-- **C72** (value). Without a quanto, for a positive strike, forward, volatility and time, the price is the discounted
expected payoff on a lognormal price whose mean is the forward. -/
theorem C72_value (p : OptionPricer) (o : Vanilla) (F t s D : ℝ) (h : PricedWith p o F t s D) (ht : 0 < t) (hs : 0 < s)
    (hF : 0 < F) (hK : 0 < o.strike) (hc : o.ccy = o.undCcy) (hq : p.quanto = none) :
    p.npv o = .ok (D * if o.call then expectedCall F o.strike (s * Real.sqrt t) else expectedPut F o.strike (s * Real.sqrt t)) := by
  have hv : 0 < s * Real.sqrt t := mul_pos hs (Real.sqrt_pos.2 ht)
  rw [option_npv_eq p o F t s D 0 h ht.le hF hK (Or.inl hc) (by unfold QuantoAdjustment; rw [hq]), sub_zero, sqrt_sq_dev s t ht.le]
  unfold normals
  rw [if_neg hv.ne']
  simp only [Res.bind_ok]
  rw [expectedCall_eq F o.strike _ hF hK hv, expectedPut_eq F o.strike _ hF hK hv]
  cases o.call <;> simp

/-- **C72** (bounds). The price of a call lies between its discounted intrinsic value and the discounted forward; that of a
put between its discounted intrinsic value and the discounted strike. -/
theorem C72_bounds (p : OptionPricer) (o : Vanilla) (F t s D x : ℝ) (h : PricedWith p o F t s D) (ht : 0 < t) (hs : 0 < s)
    (hF : 0 < F) (hK : 0 < o.strike) (hD : 0 ≤ D) (hc : o.ccy = o.undCcy) (hq : p.quanto = none) (hx : p.npv o = .ok x) :
    (o.call = true → D * max (F - o.strike) 0 ≤ x ∧ x ≤ D * F) ∧
    (o.call = false → D * max (o.strike - F) 0 ≤ x ∧ x ≤ D * o.strike) := by
  rw [C72_value p o F t s D h ht hs hF hK hc hq] at hx
  obtain rfl := Except.ok.inj hx
  have hp := expected_parity F o.strike (s * Real.sqrt t)
  have h1 := expectedCall_nonneg F o.strike (s * Real.sqrt t)
  have h2 := expectedPut_nonneg F o.strike (s * Real.sqrt t)
  have h3 := expectedCall_le F o.strike (s * Real.sqrt t) hF.le hK.le
  constructor
  · intro e
    rw [e, if_pos rfl]
    exact ⟨mul_le_mul_of_nonneg_left (max_le (by linarith) h1) hD, mul_le_mul_of_nonneg_left h3 hD⟩
  · intro e
    rw [e, if_neg (by simp)]
    exact ⟨mul_le_mul_of_nonneg_left (max_le (by linarith) h2) hD, mul_le_mul_of_nonneg_left (by linarith) hD⟩

/-- **C72** (parity). A call and a put with the same terms have prices together, and the call is worth the discounted
difference of forward and strike more, at any volatility, with or without a quanto. -/
theorem C72_parity (p : OptionPricer) (o : Vanilla) (F t s D a : ℝ) (h : PricedWith p o F t s D) (ht : 0 ≤ t)
    (hF : 0 < F) (hK : 0 < o.strike) (hq : o.ccy = o.undCcy ∨ p.quanto ≠ none) (ha : QuantoAdjustment p t s (o.strike / F) a) :
    ((∃ c, p.npv { o with call := true } = .ok c) ↔ ∃ u, p.npv { o with call := false } = .ok u) ∧
    ∀ c u, p.npv { o with call := true } = .ok c → p.npv { o with call := false } = .ok u → c - u = D * (F - o.strike) := by
  have hh : ∀ b, PricedWith p { o with call := b } F t s D := fun b => ⟨h.1, h.2, h.3, h.4⟩
  have e1 := option_npv_eq p { o with call := true } F t s D a (hh true) ht hF hK hq ha
  have e2 := option_npv_eq p { o with call := false } F t s D a (hh false) ht hF hK hq ha
  simp only [if_true, Bool.false_eq_true, if_false] at e1 e2
  rw [e1, e2]
  cases normals (-Real.log (o.strike / F) + s * s * t / 2 - a) (s * Real.sqrt t) with
  | error e => simp
  | ok n =>
    simp only [Res.bind_ok, Except.ok.injEq, exists_eq', true_and]
    rintro c u rfl rfl
    ring

/-- **C72** (volatility). At a higher constant volatility the price is higher. -/
theorem C72_vega (p : OptionPricer) (o : Vanilla) (F t s s' D x x' : ℝ) (h : PricedWith { p with vol := .const s } o F t s D)
    (ht : 0 < t) (hs : 0 < s) (hss : s < s')
    (hF : 0 < F) (hK : 0 < o.strike) (hD : 0 < D) (hc : o.ccy = o.undCcy) (hq : p.quanto = none)
    (hx : OptionPricer.npv { p with vol := .const s } o = .ok x) (hx' : OptionPricer.npv { p with vol := .const s' } o = .ok x') : x < x' := by
  have h' : PricedWith { p with vol := .const s' } o F t s' D := ⟨h.1, h.2, rfl, h.4⟩
  rw [C72_value _ o F t s D h ht hs hF hK hc hq] at hx
  rw [C72_value _ o F t s' D h' ht (hs.trans hss) hF hK hc hq] at hx'
  obtain rfl := Except.ok.inj hx
  obtain rfl := Except.ok.inj hx'
  have hr := Real.sqrt_pos.2 ht
  have hm := expectedCall_strictMono F o.strike hF hK (mul_pos hs hr) (mul_pos (hs.trans hss) hr) (mul_lt_mul_of_pos_right hss hr)
  apply mul_lt_mul_of_pos_left _ hD
  cases o.call
  · simp only [Bool.false_eq_true, if_false]
    have p1 := expected_parity F o.strike (s * Real.sqrt t)
    have p2 := expected_parity F o.strike (s' * Real.sqrt t)
    linarith
  · simpa using hm

/-- **C72** (strikes). At one constant volatility call prices fall as the strike rises, by at most the discounted difference
of the strikes, and are convex in the strike: no spread or butterfly has a negative price. -/
theorem C72_strikes (p : OptionPricer) (o : Vanilla) (F t s D : ℝ) (hv : p.vol = .const s) (h : PricedWith p o F t s D)
    (ht : 0 < t) (hs : 0 < s) (hF : 0 < F) (hD : 0 ≤ D) (hc : o.ccy = o.undCcy) (hq : p.quanto = none) :
    (∀ K K' x x', 0 < K → K ≤ K' → p.npv { o with strike := K, call := true } = .ok x →
      p.npv { o with strike := K', call := true } = .ok x' → x' ≤ x ∧ x - x' ≤ D * (K' - K)) ∧
    (∀ K K' a b x y z, 0 < K → 0 < K' → 0 ≤ a → 0 ≤ b → a + b = 1 → p.npv { o with strike := K, call := true } = .ok x →
      p.npv { o with strike := K', call := true } = .ok y → p.npv { o with strike := a * K + b * K', call := true } = .ok z →
      z ≤ a * x + b * y) := by
  have key : ∀ K, 0 < K → p.npv { o with strike := K, call := true } = .ok (D * expectedCall F K (s * Real.sqrt t)) := by
    intro K hK
    have hh : PricedWith p { o with strike := K, call := true } F t s D := ⟨h.1, h.2, by rw [hv]; rfl, h.4⟩
    rw [C72_value p _ F t s D hh ht hs hF hK hc hq, if_pos rfl]
  constructor
  · intro K K' x x' hK hle hx hx'
    rw [key K hK] at hx
    rw [key K' (by linarith)] at hx'
    obtain rfl := Except.ok.inj hx
    obtain rfl := Except.ok.inj hx'
    have m1 := expectedCall_strike_antitone F (s * Real.sqrt t) K K' hle
    have m2 := expectedPut_strike_mono F (s * Real.sqrt t) K K' hle
    have p1 := expected_parity F K (s * Real.sqrt t)
    have p2 := expected_parity F K' (s * Real.sqrt t)
    refine ⟨mul_le_mul_of_nonneg_left m1 hD, ?_⟩
    rw [← mul_sub]
    exact mul_le_mul_of_nonneg_left (by linarith) hD
  · intro K K' a b x y z hK hK' ha hb hab hx hy hz
    have hpos : 0 < a * K + b * K' := by
      rcases ha.lt_or_eq with q | q
      · have := mul_pos q hK; have := mul_nonneg hb hK'.le; linarith
      · rw [← q] at hab ⊢; rw [zero_add] at hab; rw [hab]; linarith
    rw [key K hK] at hx
    rw [key K' hK'] at hy
    rw [key _ hpos] at hz
    obtain rfl := Except.ok.inj hx
    obtain rfl := Except.ok.inj hy
    obtain rfl := Except.ok.inj hz
    have := (expectedCall_strike_convex F (s * Real.sqrt t)).2 (Set.mem_univ K) (Set.mem_univ K') ha hb hab
    simp only [smul_eq_mul] at this
    calc _ ≤ D * (a * expectedCall F K (s * Real.sqrt t) + b * expectedCall F K' (s * Real.sqrt t)) := mul_le_mul_of_nonneg_left this hD
      _ = _ := by ring

/-- **C72** (expiry). With no time or no volatility left the price is the discounted intrinsic value, unless strike and
forward are equal: then it is not a number. -/
theorem C72_expiry (p : OptionPricer) (o : Vanilla) (F t s D : ℝ) (h : PricedWith p o F t s D) (ht : 0 ≤ t) (h0 : t = 0 ∨ s = 0)
    (hF : 0 < F) (hK : 0 < o.strike) (hc : o.ccy = o.undCcy) (hq : p.quanto = none) :
    (o.strike ≠ F → p.npv o = .ok (D * if o.call then max (F - o.strike) 0 else max (o.strike - F) 0)) ∧
    (o.strike = F → p.npv o = .error .nonfinite) := by
  have hdev : s * Real.sqrt t = 0 := by rcases h0 with q | q <;> simp [q]
  have hvar : s * s * t / 2 = 0 := by rcases h0 with q | q <;> simp [q]
  have e := option_npv_eq p o F t s D 0 h ht hF hK (Or.inl hc) (by unfold QuantoAdjustment; rw [hq])
  rw [hdev, hvar] at e
  unfold normals at e
  rw [if_pos rfl] at e
  constructor
  · intro hne
    rw [e]
    rcases lt_or_gt_of_ne hne with hlt | hgt
    · have hl : Real.log (o.strike / F) < 0 := Real.log_neg (by positivity) ((div_lt_one hF).2 hlt)
      rw [if_neg (by linarith), if_pos (by linarith)]
      simp only [Res.bind_ok]
      refine congrArg Except.ok ?_
      rw [max_eq_left (by linarith), max_eq_right (by linarith)]
      cases o.call <;> simp
    · have hl : 0 < Real.log (o.strike / F) := Real.log_pos ((one_lt_div hF).2 hgt)
      rw [if_neg (by linarith), if_neg (by linarith)]
      simp only [Res.bind_ok]
      refine congrArg Except.ok ?_
      rw [max_eq_right (by linarith), max_eq_left (by linarith)]
      cases o.call <;> simp
  · intro heq
    rw [e, if_pos (by rw [heq, div_self hF.ne']; simp)]
    rfl

/-- **C72** (currency). An option in another currency than its underlying is refused without a quanto. -/
theorem C72_refused (p : OptionPricer) (o : Vanilla) (hne : o.ccy ≠ o.undCcy) (hq : p.quanto = none) : ∀ x, p.npv o ≠ .ok x := by
  intro x h
  unfold OptionPricer.npv at h
  simp only [bind_ok_iff] at h
  obtain ⟨F, -, y, -, var, -, dev, -, h⟩ := h
  rw [if_pos ⟨hne, by rw [hq]; rfl⟩] at h
  cases h

/-- **C73** (quanto). With a quanto adjustment `a` the price of a call is the discounted expected payoff on a price whose mean
is the adjusted forward `F exp(-a)`, plus the discounted difference of the two forwards times the probability of exercise
under the share measure; the expected payoff alone (a correct quanto price) would not have the second term. -/
theorem C73_quanto (p : OptionPricer) (o : Vanilla) (F t s D a : ℝ) (h : PricedWith p o F t s D) (ht : 0 < t) (hs : 0 < s)
    (hF : 0 < F) (hK : 0 < o.strike) (hq : o.ccy = o.undCcy ∨ p.quanto ≠ none) (ha : QuantoAdjustment p t s (o.strike / F) a) :
    ∃ n, n = normalCdf ((-Real.log (o.strike / (F * Real.exp (-a))) + (s * Real.sqrt t) ^ 2 / 2) / (s * Real.sqrt t)) ∧ 0 ≤ n ∧ n ≤ 1 ∧
      p.npv { o with call := true } = .ok (D * (expectedCall (F * Real.exp (-a)) o.strike (s * Real.sqrt t) + F * (1 - Real.exp (-a)) * n)) ∧
      p.npv { o with call := false } = .ok (D * (expectedPut (F * Real.exp (-a)) o.strike (s * Real.sqrt t) - F * (1 - Real.exp (-a)) * (1 - n))) := by
  have hv : 0 < s * Real.sqrt t := mul_pos hs (Real.sqrt_pos.2 ht)
  have hFa : 0 < F * Real.exp (-a) := by positivity
  have hlog : -Real.log (o.strike / (F * Real.exp (-a))) = -Real.log (o.strike / F) - a := by
    rw [← div_div, Real.log_div (by positivity) (by positivity), Real.log_exp]; ring
  have hh : ∀ b, PricedWith p { o with call := b } F t s D := fun b => ⟨h.1, h.2, h.3, h.4⟩
  refine ⟨_, rfl, ProbabilityTheory.cdf_nonneg _ _, ProbabilityTheory.cdf_le_one _ _, ?_, ?_⟩
  · rw [option_npv_eq p { o with call := true } F t s D a (hh true) ht.le hF hK hq ha, sqrt_sq_dev s t ht.le]
    unfold normals
    rw [if_neg hv.ne', expectedCall_eq _ o.strike _ hFa hK hv, hlog]
    simp only [Res.bind_ok, if_true]
    refine congrArg Except.ok ?_
    rw [show -Real.log (o.strike / F) - a + (s * Real.sqrt t) ^ 2 / 2 = -Real.log (o.strike / F) + (s * Real.sqrt t) ^ 2 / 2 - a by ring]
    ring
  · rw [option_npv_eq p { o with call := false } F t s D a (hh false) ht.le hF hK hq ha, sqrt_sq_dev s t ht.le]
    unfold normals
    rw [if_neg hv.ne', expectedPut_eq _ o.strike _ hFa hK hv, hlog]
    simp only [Res.bind_ok, Bool.false_eq_true, if_false]
    refine congrArg Except.ok ?_
    rw [show -Real.log (o.strike / F) - a + (s * Real.sqrt t) ^ 2 / 2 = -Real.log (o.strike / F) + (s * Real.sqrt t) ^ 2 / 2 - a by ring]
    ring

/-- **C73** (zero). A quanto without correlation, or with a constant FX volatility of zero, changes no price. -/
theorem C73_zero (p : OptionPricer) (o : Vanilla) (F t s D : ℝ) (h : PricedWith p o F t s D) (ht : 0 ≤ t)
    (hF : 0 < F) (hK : 0 < o.strike) (hc : o.ccy = o.undCcy) (q : Quanto) (w : ℝ) (hw : q.fxVol.value t (o.strike / F) = .ok w)
    (hz : q.corr = 0 ∨ w = 0) :
    OptionPricer.npv { p with quanto := some q } o = OptionPricer.npv { p with quanto := none } o := by
  rw [option_npv_eq { p with quanto := some q } o F t s D 0 ⟨h.1, h.2, h.3, h.4⟩ ht hF hK (Or.inl hc)
      (by unfold QuantoAdjustment; exact ⟨w, hw, by rcases hz with e | e <;> rw [e] <;> ring⟩),
    option_npv_eq { p with quanto := none } o F t s D 0 ⟨h.1, h.2, h.3, h.4⟩ ht hF hK (Or.inl hc) rfl]

/-- An adjusted price is not an expected payoff: a call struck above the forward, with correlation -1 to the exchange rate,
has a negative price once the volatility of the exchange rate is high enough. (The code adjusts the drift inside the
normal distribution but not the forward it multiplies.) -/
theorem fault_quanto_negative (p : OptionPricer) (o : Vanilla) (F t s D : ℝ) (h : PricedWith p o F t s D) (ht : 0 < t) (hs : 0 < s)
    (hF : 0 < F) (hK : F < o.strike) (hD : 0 < D) (hcall : o.call = true) :
    ∃ W, ∀ w, W ≤ w → ∃ x, OptionPricer.npv { p with quanto := some { fxVol := .const w, corr := -1 } } o = .ok x ∧ x < 0 := by
  have hv : 0 < s * Real.sqrt t := mul_pos hs (Real.sqrt_pos.2 ht)
  have hst : 0 < s * t := mul_pos hs ht
  have key : ∀ w, OptionPricer.npv { p with quanto := some { fxVol := .const w, corr := -1 } } o = .ok (D *
      (F * normalCdf ((-Real.log (o.strike / F) + s * s * t / 2 + s * t * w) / (s * Real.sqrt t)) -
        o.strike * normalCdf ((-Real.log (o.strike / F) + s * s * t / 2 + s * t * w) / (s * Real.sqrt t) - s * Real.sqrt t))) := by
    intro w
    have e := option_npv_eq { p with quanto := some { fxVol := .const w, corr := -1 } } o F t s D (s * t * (w * -1)) ⟨h.1, h.2, h.3, h.4⟩ ht.le hF
      (hF.trans hK) (Or.inr (by simp)) (by unfold QuantoAdjustment; exact ⟨w, rfl, rfl⟩)
    rw [e]
    unfold normals
    rw [if_neg hv.ne']
    simp only [Res.bind_ok, hcall, if_true]
    rw [show -Real.log (o.strike / F) + s * s * t / 2 - s * t * (w * -1) = -Real.log (o.strike / F) + s * s * t / 2 + s * t * w by ring]
  have l1 : Filter.Tendsto (fun w : ℝ => (-Real.log (o.strike / F) + s * s * t / 2 + s * t * w) / (s * Real.sqrt t)) Filter.atTop Filter.atTop :=
    (Filter.tendsto_atTop_add_const_left _ _ (Filter.tendsto_id.const_mul_atTop hst)).atTop_div_const hv
  have l2 := Filter.tendsto_atTop_add_const_right Filter.atTop (-(s * Real.sqrt t)) l1
  have n1 := (ProbabilityTheory.tendsto_cdf_atTop (ProbabilityTheory.gaussianReal 0 1)).comp l1
  have n2 := (ProbabilityTheory.tendsto_cdf_atTop (ProbabilityTheory.gaussianReal 0 1)).comp l2
  have lim := ((n1.const_mul F).sub (n2.const_mul o.strike)).const_mul D
  have hneg : D * (F * 1 - o.strike * 1) < 0 := mul_neg_of_pos_of_neg hD (by linarith)
  obtain ⟨W, hW⟩ := Filter.eventually_atTop.1 (lim.eventually_lt_const hneg)
  exact ⟨W, fun w hw => ⟨_, key w, hW w hw⟩⟩

/-! ### A concrete option -/

/-- A call struck at 110 in one year on a share of 100. -/
noncomputable def sampleOption (call : Bool) : Vanilla :=
  { strike := 110, maturity := day0 2022 1 1, call := call, ccy := 1, undCcy := 1 }

/-- On a flat 3 % curve, at a constant volatility of 20 %, it is priced with the forward 100, the time 1 and a positive
discount factor: the hypotheses of the theorems of C72 hold, and the call and the put have prices. -/
theorem option_witness : ∃ c D, 0 < D ∧ Curve.new .checked (day0 2021 1 1) [1] [0.03] = .ok c ∧ ∀ call,
    PricedWith { env := { eval := day0 2021 1 1, spot := 100, dividend := none, coll := c, borrow := c }, disc := c, vol := .const 0.2, quanto := none }
      (sampleOption call) 100 1 0.2 D ∧
    ∃ x, OptionPricer.npv { env := { eval := day0 2021 1 1, spot := 100, dividend := none, coll := c, borrow := c }, disc := c, vol := .const 0.2, quanto := none }
      (sampleOption call) = .ok x ∧ 0 ≤ x := by
  obtain ⟨c, e, ok, -, hdf⟩ := sample_curve 0.03
  have ht : timeFrom (day0 2021 1 1) (day0 2022 1 1) = 1 := by
    have : timeDifference (day0 2021 1 1) (day0 2022 1 1) = 1 := by decide +kernel
    unfold timeFrom
    rw [this]
    norm_num
  obtain ⟨y, hy, hpos⟩ := hdf 1 (by norm_num) (by norm_num)
  have hat : Live.df { curve := c, eval := day0 2021 1 1 } (day0 2022 1 1) = .ok y := by
    have : Live.df { curve := c, eval := day0 2021 1 1 } (day0 2022 1 1) = c.df (timeFrom (day0 2021 1 1) (day0 2022 1 1)) := (C57_at_date c ok _ _).1
    rw [this, ht, hy]
  refine ⟨c, y, hpos, e, fun call => ?_⟩
  have hp : PricedWith { env := { eval := day0 2021 1 1, spot := 100, dividend := none, coll := c, borrow := c }, disc := c, vol := .const 0.2, quanto := none }
      (sampleOption call) 100 1 0.2 y :=
    ⟨(C68_forward _ _ _).2 ⟨y, y, 1, hat, hat, rfl, hpos.ne', by ring⟩, ht.symm, rfl, hy⟩
  have hv := C72_value _ _ _ _ _ _ hp (by norm_num) (by norm_num) (by norm_num) (by norm_num [sampleOption]) rfl rfl
  refine ⟨hp, _, hv, mul_nonneg hpos.le ?_⟩
  split
  · exact expectedCall_nonneg ..
  · exact expectedPut_nonneg ..

end Verif.Props

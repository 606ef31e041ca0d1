import Verif.Props.EngineDividends
import Verif.Props.EngineSwaps
/-!
# C183: the rhos of options
-/
set_option autoImplicit false
namespace Verif.Props
open Verif Verif.QL Verif.Civil MeasureTheory ProbabilityTheory

/-! ## Discounted payoffs -/

theorem expectedCall_scale (D F K v : ℝ) (hD : 0 ≤ D) : D * expectedCall F K v = expectedCall (D * F) (D * K) v := by
  unfold expectedCall
  rw [← integral_const_mul]
  congr 1
  funext z
  rw [mul_max_of_nonneg _ _ hD, mul_zero]
  congr 1
  ring

theorem expectedPut_scale (D F K v : ℝ) (hD : 0 ≤ D) : D * expectedPut F K v = expectedPut (D * F) (D * K) v := by
  unfold expectedPut
  rw [← integral_const_mul]
  congr 1
  funext z
  rw [mul_max_of_nonneg _ _ hD, mul_zero]
  congr 1
  ring

theorem expectedPayoff_nonneg (o : Vanilla) (F v : ℝ) : 0 ≤ expectedPayoff o F v := by
  unfold expectedPayoff
  split
  · exact expectedCall_nonneg _ _ _
  · exact expectedPut_nonneg _ _ _

/-- At an unchanged discounted forward, less discounting makes calls dearer and puts cheaper: the strike is paid later at a lower price. -/
theorem discounted_forward_kept (o : Vanilla) (hK : 0 < o.strike) (D D' F F' v : ℝ) (hD' : 0 < D') (hle : D' ≤ D) (h : D' * F' = D * F) :
    (o.call = true → D * expectedPayoff o F v ≤ D' * expectedPayoff o F' v) ∧ (o.call = false → D' * expectedPayoff o F' v ≤ D * expectedPayoff o F v) := by
  have hk : D' * o.strike ≤ D * o.strike := mul_le_mul_of_nonneg_right hle hK.le
  constructor <;> intro hc <;> unfold expectedPayoff <;> rw [hc] <;> simp only [if_true, Bool.false_eq_true, if_false]
  · rw [expectedCall_scale D _ _ _ (by linarith), expectedCall_scale D' _ _ _ hD'.le, h]
    exact expectedCall_strike_antitone _ _ _ _ hk
  · rw [expectedPut_scale D _ _ _ (by linarith), expectedPut_scale D' _ _ _ hD'.le, h]
    exact expectedPut_strike_mono _ _ _ _ hk

theorem expectedPayoff_forward (o : Vanilla) (F F' v : ℝ) (h : F ≤ F') :
    (o.call = true → expectedPayoff o F v ≤ expectedPayoff o F' v) ∧ (o.call = false → expectedPayoff o F' v ≤ expectedPayoff o F v) := by
  constructor <;> intro hc <;> unfold expectedPayoff <;> rw [hc] <;> simp only [if_true, Bool.false_eq_true, if_false]
  · exact expectedCall_forward_mono _ _ _ _ h
  · exact expectedPut_forward_anti _ _ _ _ h

/-! ## The theorem -/

/-- **C183**. With a flat volatility and in the currency of its underlying, an option has rhos to the curve it is discounted on (its funding curve, none if it is settled) and to the
collateral curve of its underlying, and to no other; their signs, for every way in which these curves and the borrowing curve may be the same. -/
theorem C183_options (g : EngCfg) (hg : OwnCodes g) (names : List String) (hns : names.Nodup) (ds : List DT) (M : Mkt) (hM : SoundMkt g ds M) (hn : g.conf.npv = true)
    (f : Fixed) (L : Loaded) (an : Bool) (i : Instr) (hi : i ∈ g.insts) (call s : Bool) (u : String) (hk : i.kind = .option call u i.ccy s) (pl : Plan) (o : Vanilla)
    (hp : PricedAs g f L an i pl (.option o)) (hK : 0 < o.strike) (hN : 0 ≤ i.notional) (σ : ℝ) (hσ : 0 ≤ σ) (hV : FlatVols M u σ) (hβ : 0 < g.conf.rhoBump) (e' : Eng)
    (h : calculate g names { mkt := M, action := g.insts, results := freshResults g.insts fun _ => none } = .ok e') :
    ∃ y d c b, e'.results i.code = some y ∧ (if s then d = "Dummy" else g.p.funding i.ccy = some d) ∧ g.p.collateral u = some c ∧ g.p.borrowing u = some b ∧
      (∀ k, k = "Dummy" ∨ (k ≠ d ∧ k ≠ c) → NoRho y k) ∧
      (d ≠ "Dummy" → d ≠ c → d ≠ b → RhosAre g M y d fun _ z => z ≤ 0) ∧
      (d ≠ "Dummy" → d ≠ c → d = b → RhosAre g M y d fun _ z => o.call = true → z ≤ 0) ∧
      (c ≠ "Dummy" → c ≠ b → RhosAre g M y c fun _ z => (o.call = true → 0 ≤ z) ∧ (o.call = false → z ≤ 0)) ∧
      (c ≠ "Dummy" → c ≠ d → c = b → RhosAre g M y c fun _ z => z = 0) ∧
      (c ≠ "Dummy" → c = d → c = b → RhosAre g M y c fun _ z => z ≤ 0) := by
  obtain ⟨-, hres⟩ := C97_new_engine g hg names hns ds M e' hM h
  obtain ⟨y, hy, ci⟩ := hres i hi
  obtain ⟨d, c, b, rfl, hn1, hn2, hn3⟩ := option_noquanto g.p L an i call s u hk pl hp.made
  obtain ⟨p, v, fl, c1, c2, -, c4, c5, -⟩ := ci.npv hn
  rw [hp.held] at c1
  obtain rfl := Option.some.inj c1
  have c3 : (do let x ← (Plan.option u u d c b none).npv g.md f (.option o) M; Except.ok (NpvResult.ofNpv x) : Res NpvResult) = .ok v := c2
  obtain ⟨x0, hx0, e0⟩ := (bind_ok_iff _ _ _).1 c3
  obtain rfl := Except.ok.inj e0
  have flat : ∀ w, M.vols u = some w → ∀ t x y, w.value t x = .ok y → y = σ := fun w hw t x y hy => flat_value M u σ hM.vols hV w hw t x y hy
  have flat0 : ∀ w, M.vols u = some w → ∀ t x y, w.value t x = .ok y → 0 ≤ y := fun w hw t x y hy => by rw [flat w hw t x y hy]; exact hσ
  have hcv : ∀ n cv, M.curves n = some cv → CurveOk cv := fun n cv q => (hM.curves n cv q).1
  obtain ⟨F, s0, D, vo, a1, a2, a3, a4, a5, a6, rfl⟩ := option_at g.md f M u d c b o (hcv d) hK flat0 x0 hx0
  obtain rfl := flat vo a2 _ _ _ a3
  generalize hτ : s0 * Real.sqrt (timeFrom M.w.date o.maturity) = τ at *
  have tn : i.typeName ≠ "Stock" ∧ i.typeName ≠ "Cash" := by unfold Instr.typeName; rw [hk]; cases call <;> simp
  have hd : if s then d = "Dummy" else g.p.funding i.ccy = some d := by
    unfold MatchParam.discountName at hn1
    rw [hk] at hn1
    cases s with
    | true => exact (Except.ok.inj hn1).symm
    | false => exact (orErr_eq _ _).1 hn1
  have hu : ∀ k, UsesCurve g.p k i ↔ k ≠ dummy ∧ (k = d ∨ k = c) := by
    intro k
    unfold UsesCurve curveRoles
    rw [hk]
    cases s with
    | true =>
      have hd' : d = dummy := hd
      simp only [if_true, List.nil_append, List.mem_singleton, hn2, Option.some.injEq]
      refine and_congr_right fun hkd => ⟨fun q => Or.inr q, ?_⟩
      rintro (q | q)
      · exact absurd (q.trans hd') hkd
      · exact q
    | false =>
      have hd' : g.p.funding i.ccy = some d := hd
      simp [hn2, hd']
  obtain ⟨env, dc, x1, x2, x3, x4⟩ := a1
  obtain ⟨q, X, Y, r, hq, hX, hY, hr, hF⟩ := carry_at M hcv u c b o.maturity F (by rw [x1, Res.bind_ok, x2])
  have hDd : DiscountOf M d o.maturity D := ⟨dc, x3, x4⟩
  have pos : ∀ n x, DiscountOf M n o.maturity x → 0 < x := by
    rintro n x ⟨C, h1, h2⟩
    exact df_positive C (hcv _ _ h1) _ _ h2
  have hXp := pos _ _ hX
  have hYp := pos _ _ hY
  have hA : 0 < q.2.value * r := by
    have h1 : 0 < q.2.value * r * Y := by
      have : 0 < F * X := mul_pos a4 hXp
      rw [hF] at this
      linarith
    exact (pos_iff_pos_of_mul_pos h1).2 hYp
  -- what a bump does
  have run : ∀ k win m z, CurveShifted k win g.conf.rhoBump M m → ForwardDiff g m g.conf.rhoBump 0.0001 i y.npv (some z) → ∃ F' D' X' Y',
      (0 < D' ∧ D' ≤ D ∧ (d ≠ k → D' = D)) ∧ (0 < X' ∧ X' ≤ X ∧ (c ≠ k → X' = X)) ∧ (0 < Y' ∧ Y' ≤ Y ∧ (b ≠ k → Y' = Y)) ∧ (c = d → X = D ∧ X' = D') ∧ (c = b → X = Y ∧ X' = Y') ∧ (d = b → D = Y ∧ D' = Y') ∧
      F' * X' = q.2.value * r * Y' ∧ z = (D' * expectedPayoff o F' τ - D * expectedPayoff o F τ) / g.conf.rhoBump * 0.0001 * i.notional := by
    intro k win m z hm hz
    obtain ⟨v', up, q1, q2, q3, q4⟩ := hz
    rw [c4] at q1
    obtain rfl := Option.some.inj q1
    have hcm := shifted_curves M m k win _ hM.curves hm
    have hsame : m.price u = M.price u ∧ m.divOf = M.divOf ∧ m.vols = M.vols ∧ m.w = M.w := by
      obtain ⟨c0, cB, -, -, -, -, -, rfl⟩ := hm
      exact ⟨rfl, rfl, rfl, rfl⟩
    obtain ⟨f1, f2, f3, f4⟩ := hsame
    unfold EngCfg.npv at q2
    rw [hp.held] at q2
    obtain ⟨F', s', D', w', b1, b2, b3, -, -, -, rfl⟩ := option_at g.md f m u d c b o (hcm d) hK (by rw [f3]; exact flat0) up q2
    rw [f3] at b2
    obtain rfl := flat w' b2 _ _ _ b3
    rw [f4, hτ] at q4
    obtain ⟨env', dc', y1, y2, y3, y4⟩ := b1
    obtain ⟨q', X', Y', r', hq', hX', hY', hr', hF'⟩ := carry_at m hcm u c b o.maturity F' (by rw [y1, Res.bind_ok, y2])
    rw [f1, hq] at hq'
    obtain rfl := Option.some.inj hq'
    rw [f2, hr] at hr'
    obtain rfl := Except.ok.inj hr'
    have hDd' : DiscountOf m d o.maturity D' := ⟨dc', y3, y4⟩
    refine ⟨F', D', X', Y', discountOf_shift M m k d win _ hβ.le hM.curves hm _ _ _ hDd hDd', discountOf_shift M m k c win _ hβ.le hM.curves hm _ _ _ hX hX',
      discountOf_shift M m k b win _ hβ.le hM.curves hm _ _ _ hY hY', ?_, ?_, ?_, by linarith, Option.some.inj q4⟩
    · rintro rfl; exact ⟨discountOf_unique hX hDd, discountOf_unique hX' hDd'⟩
    · rintro rfl; exact ⟨discountOf_unique hX hY, discountOf_unique hX' hY'⟩
    · rintro rfl; exact ⟨discountOf_unique hDd hY, discountOf_unique hDd' hY'⟩
  have up0 : ∀ a b' : ℝ, a ≤ b' → 0 ≤ (b' - a) / g.conf.rhoBump * 0.0001 * i.notional := fun a b' hab =>
    mul_nonneg (mul_nonneg (div_nonneg (by linarith) hβ.le) (by norm_num)) hN
  have down0 : ∀ a b' : ℝ, b' ≤ a → (b' - a) / g.conf.rhoBump * 0.0001 * i.notional ≤ 0 := fun a b' hab =>
    mul_nonpos_of_nonpos_of_nonneg (mul_nonpos_of_nonpos_of_nonneg (div_nonpos_of_nonpos_of_nonneg (by linarith) hβ.le) (by norm_num)) hN
  have hF0 : F * X = q.2.value * r * Y := by linarith
  refine ⟨y, d, c, b, hy, hd, hn2, hn3, fun k hkk => no_rho g names ds M _ i y ci k fun hh => ?_, fun hdd hdc hdb => ?_, fun hdd hdc hdb => ?_, fun hcd hcb => ?_, fun hcd hcd' hcb => ?_,
    fun hcd hcd' hcb => ?_⟩
  · obtain ⟨h1, h2⟩ := (hu k).1 hh
    rcases hkk with rfl | ⟨h3, h4⟩
    · exact h1 rfl
    · rcases h2 with h2 | h2
      · exact h3 h2
      · exact h4 h2
  · refine rho_parts g names ds M _ i y ci tn d ((hu d).2 ⟨hdd, Or.inl rfl⟩) _ fun win m z hm hz => ?_
    obtain ⟨F', D', X', Y', ⟨k1, k2, -⟩, ⟨-, -, k3⟩, ⟨-, -, k4⟩, -, -, -, k5, rfl⟩ := run d win m z hm hz
    rw [k3 (Ne.symm hdc), k4 (Ne.symm hdb), ← hF0] at k5
    rw [mul_right_cancel₀ hXp.ne' k5]
    exact down0 _ _ (mul_le_mul_of_nonneg_right k2 (expectedPayoff_nonneg ..))
  · refine rho_parts g names ds M _ i y ci tn d ((hu d).2 ⟨hdd, Or.inl rfl⟩) _ fun win m z hm hz hcall => ?_
    obtain ⟨F', D', X', Y', ⟨k1, k2, -⟩, ⟨-, -, k3⟩, ⟨-, k4, -⟩, -, -, -, k5, rfl⟩ := run d win m z hm hz
    rw [k3 (Ne.symm hdc)] at k5
    have hFF : F' ≤ F := by
      refine le_of_mul_le_mul_right ?_ hXp
      rw [k5, hF0]
      exact mul_le_mul_of_nonneg_left k4 hA.le
    exact down0 _ _ (mul_le_mul k2 ((expectedPayoff_forward o F' F τ hFF).1 hcall) (expectedPayoff_nonneg ..) a5.le)
  · refine rho_parts g names ds M _ i y ci tn c ((hu c).2 ⟨hcd, Or.inr rfl⟩) _ fun win m z hm hz => ?_
    obtain ⟨F', D', X', Y', ⟨k1, k2, k6⟩, ⟨k7, k3, -⟩, ⟨-, -, k4⟩, k8, -, -, k5, rfl⟩ := run c win m z hm hz
    rw [k4 (Ne.symm hcb), ← hF0] at k5
    by_cases hdc : c = d
    · obtain ⟨e1, e2⟩ := k8 hdc
      obtain ⟨r1, r2⟩ := discounted_forward_kept o hK D D' F F' τ k1 k2 (by rw [← e1, ← e2]; linarith)
      exact ⟨fun hc => up0 _ _ (r1 hc), fun hc => down0 _ _ (r2 hc)⟩
    · rw [k6 (Ne.symm hdc)]
      have hFF : F ≤ F' := by
        refine le_of_mul_le_mul_right ?_ k7
        rw [k5]
        exact mul_le_mul_of_nonneg_left k3 a4.le
      obtain ⟨r1, r2⟩ := expectedPayoff_forward o F F' τ hFF
      exact ⟨fun hc => up0 _ _ (mul_le_mul_of_nonneg_left (r1 hc) a5.le), fun hc => down0 _ _ (mul_le_mul_of_nonneg_left (r2 hc) a5.le)⟩
  · refine rho_parts g names ds M _ i y ci tn c ((hu c).2 ⟨hcd, Or.inr rfl⟩) _ fun win m z hm hz => ?_
    obtain ⟨F', D', X', Y', ⟨-, -, k6⟩, ⟨k7, -, -⟩, -, -, k8, -, k5, rfl⟩ := run c win m z hm hz
    obtain ⟨e1, e2⟩ := k8 hcb
    have h1 : F' = q.2.value * r := mul_right_cancel₀ k7.ne' (by rw [k5, ← e2])
    have h2 : F = q.2.value * r := mul_right_cancel₀ hXp.ne' (by rw [hF0, ← e1])
    rw [k6 (Ne.symm hcd'), h1, ← h2, sub_self]
    simp
  · refine rho_parts g names ds M _ i y ci tn c ((hu c).2 ⟨hcd, Or.inr rfl⟩) _ fun win m z hm hz => ?_
    obtain ⟨F', D', X', Y', ⟨k1, k2, -⟩, ⟨k7, -, -⟩, -, -, k8, -, k5, rfl⟩ := run c win m z hm hz
    obtain ⟨e1, e2⟩ := k8 hcb
    have h1 : F' = q.2.value * r := mul_right_cancel₀ k7.ne' (by rw [k5, ← e2])
    have h2 : F = q.2.value * r := mul_right_cancel₀ hXp.ne' (by rw [hF0, ← e1])
    rw [h1, ← h2]
    exact down0 _ _ (mul_le_mul_of_nonneg_right k2 (expectedPayoff_nonneg ..))

/-! ## A concrete engine -/

def fundedPlan : Plan := .option "A" "A" "D" "C" "C" none

/-- A call and a put -/
noncomputable def fundedInsts : List Instr :=
  [⟨"O", .option true "A" .krw false, .krw, 10, day0 2022 1 1, 0⟩, ⟨"P", .option false "A" .krw false, .krw, 10, day0 2022 1 1, 0⟩]

/-- The engine -/
noncomputable def fundedEngine : EngCfg where
  md := .checked
  pricers := fun c =>
    if c = "O" then some (fundedPlan.pricer .checked twinFixed (.option { twinOption with call := true }))
    else if c = "P" then some (fundedPlan.pricer .checked twinFixed (.option { twinOption with call := false }))
    else none
  p := { collateral := fun u => if u = "A" then some "C" else none, borrowing := fun u => if u = "A" then some "C" else none, bondDiscount := fun _ => none
         rateForward := fun _ => none, crs := fun _ => none, funding := fun c => if c = .krw then some "D" else none }
  conf := demoConf
  insts := fundedInsts

/-- What the pricers need of a market -/
structure FundedUsable (m : Mkt) : Prop where
  price : ∃ p v, m.price "A" = some (0, p) ∧ 60 < p.value ∧ m.divOf p = some v ∧ ∀ d, d.day < (day0 2023 6 1).day → v.ratio d = .ok 1
  curve : ∃ c, m.curves "C" = some c ∧ CurveOk c ∧ ∃ tl, c.times[c.times.length - 1]? = some tl ∧ 99 ≤ tl
  disc : ∃ c, m.curves "D" = some c ∧ CurveOk c ∧ ∃ tl, c.times[c.times.length - 1]? = some tl ∧ 99 ≤ tl
  vol : ∃ w, m.vols "A" = some w ∧ ∀ t x, ∃ y, w.value t x = .ok y
  date : m.w.date = day0 2021 1 1 ∨ m.w.date = day0 2021 1 2

theorem funded_forward (m : Mkt) (h : FundedUsable m) (d : DT) (h1 : ∀ e, e = day0 2021 1 1 ∨ e = day0 2021 1 2 → (0 : ℚ) ≤ timeDifference e d ∧ timeDifference e d < 99)
    (h2 : d.day < (day0 2023 6 1).day) : ∃ env c F, m.carry "A" "C" "C" = .ok env ∧ m.curves "D" = some c ∧ env.eval = m.w.date ∧ env.forward d = .ok F ∧ 60 < F ∧
      ∃ y, c.df (timeFrom m.w.date d) = .ok y := by
  obtain ⟨p, v, p1, p2, p3, p4⟩ := h.price
  obtain ⟨c, c1, c2, tl, c3, c4⟩ := h.curve
  obtain ⟨g1, g2⟩ := h1 _ h.date
  obtain ⟨cd, d1, d2, tl', d3, d4⟩ := h.disc
  obtain ⟨-, -, hrd, -⟩ := C57_range cd d2 tl' d3
  obtain ⟨yd, hyd, -⟩ := hrd ((timeDifference m.w.date d : ℚ) : ℝ) (by exact_mod_cast g1) (lt_of_lt_of_le (by exact_mod_cast g2) d4)
  obtain ⟨-, -, hr, -⟩ := C57_range c c2 tl c3
  obtain ⟨y, hy, hpos⟩ := hr ((timeDifference m.w.date d : ℚ) : ℝ) (by exact_mod_cast g1) (lt_of_lt_of_le (by exact_mod_cast g2) c4)
  have hat : Live.df { curve := c, eval := m.w.date } d = .ok y := ((C57_at_date c c2 _ _).1).trans hy
  refine ⟨{ eval := m.w.date, spot := p.value, dividend := some v, coll := c, borrow := c }, cd, p.value, ?_, d1, rfl,
    (C68_forward _ _ _).2 ⟨y, y, 1, hat, hat, p4 d h2, hpos.ne', by show p.value * y = p.value * y * 1; ring⟩, p2, yd, hyd⟩
  unfold Mkt.carry
  rw [p1, c1]
  show (Except.ok _ : Res FuturesPricer) = _
  rw [p3]

theorem funded_option (m : Mkt) (h : FundedUsable m) (call : Bool) : ∃ x, fundedPlan.npv .checked twinFixed (.option { twinOption with call := call }) m = .ok x := by
  have hq : ∀ e, e = day0 2021 1 1 ∨ e = day0 2021 1 2 → (0 : ℚ) < timeDifference e (day0 2022 1 1) ∧ timeDifference e (day0 2022 1 1) < 99 := by
    rintro e (rfl | rfl) <;> decide +kernel
  obtain ⟨env, c, F, e1, e2, e3, e4, e5, D, e6⟩ := funded_forward m h (day0 2022 1 1) (fun e he => ⟨(hq e he).1.le, (hq e he).2⟩) (by decide +kernel)
  obtain ⟨w, w1, w2⟩ := h.vol
  obtain ⟨s, hs⟩ := w2 (timeFrom m.w.date (day0 2022 1 1)) (50 / F)
  have ht : 0 < timeFrom m.w.date (day0 2022 1 1) := by
    have := (hq _ h.date).1
    show (0 : ℝ) < ((timeDifference m.w.date (day0 2022 1 1) : ℚ) : ℝ)
    exact_mod_cast this
  let P : OptionPricer := { env := env, disc := c, vol := w, quanto := none }
  have hP : m.optionPricer twinFixed "A" "A" "D" "C" "C" none = .ok P := by
    unfold Mkt.optionPricer
    rw [e1, w1, e2]
    rfl
  have hnpv := option_npv_eq P { twinOption with call := call } F (timeFrom m.w.date (day0 2022 1 1)) s D 0 ⟨e4, by rw [← e3]; rfl, hs, e6⟩ ht.le (by linarith) (by show (0 : ℝ) < 50; norm_num)
    (Or.inl rfl) rfl
  have : ∃ n, normals (-Real.log (50 / F) + s * s * timeFrom m.w.date (day0 2022 1 1) / 2 - 0) (s * Real.sqrt (timeFrom m.w.date (day0 2022 1 1))) = .ok n := by
    unfold normals
    by_cases hd : s * Real.sqrt (timeFrom m.w.date (day0 2022 1 1)) = 0
    · have hs0 : s = 0 := (mul_eq_zero.1 hd).resolve_right (Real.sqrt_pos.2 ht).ne'
      have hlog : Real.log (50 / F) < 0 := Real.log_neg (by positivity) ((div_lt_one (by linarith)).2 (by linarith))
      have hnum : 0 < -Real.log (50 / F) + s * s * timeFrom m.w.date (day0 2022 1 1) / 2 - 0 := by rw [hs0]; linarith
      rw [if_pos hd, if_neg hnum.ne', if_pos hnum]
      exact ⟨_, rfl⟩
    · rw [if_neg hd]
      exact ⟨_, rfl⟩
  obtain ⟨n, hn⟩ := this
  have hnpv' : P.npv { twinOption with call := call } = _ := hnpv
  rw [show (normals (-Real.log (({ twinOption with call := call } : Vanilla).strike / F) + s * s * timeFrom m.w.date (day0 2022 1 1) / 2 - 0)
    (s * Real.sqrt (timeFrom m.w.date (day0 2022 1 1)))) = .ok n from hn, Res.bind_ok] at hnpv'
  have hx : ∃ x, P.npv { twinOption with call := call } = .ok x := ⟨_, hnpv'⟩
  obtain ⟨x, hx⟩ := hx
  refine ⟨x, ?_⟩
  show (do let x ← m.optionPricer twinFixed "A" "A" "D" "C" "C" none; x.npv { twinOption with call := call }) = _
  rw [hP, Res.bind_ok]
  exact hx

/-- The same engine holding the instruments `L` -/
noncomputable def fundedOf (L : List Instr) : EngCfg := { fundedEngine with insts := L }

/-- The engine can be calculated: `C97_succeeds_in` applies to it. -/
theorem funded_markets (vs : List (List ℝ)) (hlen : vs.length = 3) (hcols : ∀ r ∈ vs, r.length = 3) : ∃ c v s, s.vols = vs ∧ Dividend.new (day0 2021 1 1) (some [day0 2023 6 1]) [(2 : ℝ)] 100 = .ok v ∧ ∀ (L : List Instr), (∀ i ∈ L, i ∈ fundedInsts) →
    (L.map Instr.code).Nodup → OwnCodes (fundedOf L) ∧ OneZone (fundedOf L) ∧ SoundMkt (fundedOf L) [day0 2021 7 1, day0 2022 1 1, day0 2023 1 1] (twinMkt c v s true) ∧
    ∃ e', calculate (fundedOf L) ["A"] { mkt := twinMkt c v s true, action := L, results := freshResults L fun _ => none } = .ok e' := by
  obtain ⟨c, v, s, hcn, hvn, -, hM0, -, -, -, hvs⟩ := engine_market vs hlen hcols
  obtain ⟨c', hcn', ok, ⟨tl, htl, htl'⟩, hdf⟩ := sample_curve 0.03
  rw [hcn] at hcn'
  obtain rfl := Except.ok.inj hcn'
  obtain ⟨v', hvn', hgd, hvd, hvp, hvr⟩ := demo_dividend
  rw [hvn] at hvn'
  obtain rfl := Except.ok.inj hvn'
  refine ⟨c.blank, v, s, hvs, hvn, fun L hL hnd => ?_⟩
  have hM : SoundMkt (fundedOf L) [day0 2021 7 1, day0 2022 1 1, day0 2023 1 1] (twinMkt c.blank v s true) := by
    refine ⟨?_, ?_, hM0.3, hM0.4, hM0.5, hM0.6⟩
    · intro n c0 h0
      obtain ⟨-, e⟩ := (Option.ite_none_right_eq_some).1 h0
      obtain rfl := Option.some.inj e
      exact hM0.1 "C" _ rfl
    · intro u w hw
      obtain ⟨a, e⟩ := (Option.ite_none_right_eq_some).1 hw
      subst a
      exact hM0.2 "A" w hw
  have hg : OwnCodes (fundedOf L) := by
    exact hnd
  have hmem : ∀ i ∈ (fundedOf L).insts, i.typeName ≠ "Stock" ∧ i.typeName ≠ "Cash" ∧ i.unds = ["A"] ∧ curveRoles (fundedOf L).p i = [some "D", some "C"] ∧ i.maturity = some (day0 2022 1 1) := by
    intro i hi
    replace hi := hL i hi
    simp only [fundedInsts, List.mem_cons, List.not_mem_nil, or_false] at hi
    rcases hi with rfl | rfl <;> simp [Instr.typeName, Instr.unds, curveRoles, Instr.maturity, fundedOf, fundedEngine]
  have hundA : ∀ i ∈ (fundedOf L).insts, ∀ u ∈ i.unds, u = "A" := by
    intro i hi u hu
    rw [(hmem i hi).2.2.1] at hu
    simpa using hu
  have hcurv : ∀ i ∈ (fundedOf L).insts, ∀ x ∈ curveRoles (fundedOf L).p i, x = some "C" ∨ x = some "D" := by
    intro i hi x hx
    rw [(hmem i hi).2.2.2.1] at hx
    simp at hx
    exact hx.symm
  have hmat : ∀ i ∈ (fundedOf L).insts, ∀ m, i.maturity = some m → m = day0 2022 1 1 := by
    intro i hi m hm
    rw [(hmem i hi).2.2.2.2] at hm
    exact (Option.some.inj hm).symm
  have hz : OneZone (fundedOf L) := by
    intro i hi j hj a b ha hb hab
    rw [hmat i hi a ha, hmat j hj b hb]
  have hb : (day0 2021 1 1).addNs (1 * dayNs) = .ok (day0 2021 1 2) := by decide +kernel
  have hlate : ∀ i ∈ (fundedOf L).insts, ∀ m, i.maturity = some m → (day0 2021 1 2).instant < m.instant := by
    intro i hi m hm
    rw [hmat i hi m hm]
    decide +kernel
  have hC : Complete (fundedOf L) ["A"] (twinMkt c.blank v s true) := by
    refine ⟨?_, ?_, ?_, ?_, ?_, ?_, ?_, ?_, ?_, ?_⟩
    · intro i hi u hu
      rw [hundA i hi u hu]
      exact ⟨0, _, rfl, rfl⟩
    · intro i hi
      unfold CurvesNamed
      intro x
      rcases hcurv i hi _ x with h | h <;> cases h
    · intro i hi n hn
      rcases hcurv i hi _ hn.2 with h | h <;> obtain rfl := Option.some.inj h <;> exact ⟨_, rfl⟩
    · intro i hi _ u hu
      rw [hundA i hi u hu]
      exact ⟨_, rfl⟩
    · intro i hi _ u hu
      rw [hundA i hi u hu]
      exact ⟨_, rfl⟩
    · intro u hu
      simp only [List.mem_cons, List.not_mem_nil, or_false] at hu
      rw [hu]
      exact ⟨_, rfl⟩
    · refine ⟨?_, ?_, ?_, ?_, ?_⟩ <;> simp [fundedOf, fundedEngine, demoConf] <;> norm_num
    · have t1 : timeFrom (day0 2021 1 1) (day0 2021 7 1) = 181 / 365 := by
        have : timeDifference (day0 2021 1 1) (day0 2021 7 1) = 181 / 365 := by decide +kernel
        unfold timeFrom; rw [this]; norm_num
      have t2 : timeFrom (day0 2021 1 1) (day0 2022 1 1) = 1 := by
        have : timeDifference (day0 2021 1 1) (day0 2022 1 1) = 1 := by decide +kernel
        unfold timeFrom; rw [this]; norm_num
      have hr : calcDates .checked (day0 2021 1 1) [['6', 'M'], ['1', 'Y']] = .ok [day0 2021 7 1, day0 2022 1 1] := by decide +kernel
      refine ⟨[day0 2021 7 1, day0 2022 1 1], hr, fun k hk => ?_⟩
      show (startOf [timeFrom (day0 2021 1 1) (day0 2021 7 1), timeFrom (day0 2021 1 1) (day0 2022 1 1)] k).getD (-99999999)
        ≤ ([timeFrom (day0 2021 1 1) (day0 2021 7 1), timeFrom (day0 2021 1 1) (day0 2022 1 1)][k]?).getD 99999999
      rw [t1, t2]
      have hk : k < 2 := hk
      interval_cases k
      · simp [startOf]; norm_num
      · simp [startOf]; norm_num
    · have hr : calcDates .checked (day0 2021 1 1) [['1', 'Y'], ['3', 'Y']] = .ok [day0 2022 1 1, day0 2024 1 1] := by decide +kernel
      refine ⟨[day0 2022 1 1, day0 2024 1 1], hr, fun k hk => ?_⟩
      have hk : k < 2 := hk
      unfold WindowOk
      interval_cases k <;> decide +kernel
    · refine ⟨day0 2021 1 2, hb, fun i hi ht d hd => ?_⟩
      rcases hd with ⟨-, rfl⟩ | ⟨⟨m, hm, hle⟩, -⟩
      · refine ⟨(C47_move_succeeds _ hM.date.wf _ hM.date.part ?_).2 ?_, ?_⟩
        · intro x hx _
          simp only [twinMkt, demoMarket, List.mem_cons, List.not_mem_nil, or_false] at hx
          subst hx
          refine ⟨?_, by rw [hvd]; simp, hgd.ordered⟩
          rw [hgd.yields, List.length_map]
          exact hgd.len
        · intro x hx _
          simp only [twinMkt, demoMarket, List.mem_cons, List.not_mem_nil, or_false] at hx
          subst hx
          refine ⟨day0 2023 6 1, by rw [hvd]; simp, by decide +kernel⟩
        · have : timeDifference (day0 2021 1 1) (day0 2021 1 2) = 1 / 365 := by decide +kernel
          show ((timeDifference (day0 2021 1 1) (day0 2021 1 2) : ℚ) : ℝ) ≠ 0
          rw [this]
          norm_num
      · have := hlate i hi m hm
        omega
  have ubase : FundedUsable (twinMkt c.blank v s true) :=
    ⟨⟨{ value := 100, at_ := day0 2021 1 1, div := some 0 }, v, rfl, by norm_num, rfl, hvr⟩, ⟨c.blank, rfl, curveOk_blank c ok, tl, htl, htl'⟩, ⟨c.blank, rfl, curveOk_blank c ok, tl, htl, htl'⟩,
      ⟨.surface s, rfl, goodVols_value _ hM.vols "A" _ rfl⟩, Or.inl rfl⟩
  have hdiv : ∀ (e : DT) (w w' : Dividend ℝ), (e = day0 2021 1 1 ∨ e = day0 2021 1 2) → w.dates = [day0 2023 6 1] → w.yields.length = 1 → w.update e = .ok w' →
      ∀ d, d.day < (day0 2023 6 1).day → w'.ratio d = .ok 1 := by
    intro e w w' he hd hy hw d hlt
    obtain ⟨w'', q1, -, -, -, -, q6⟩ := (C48_update w (by rw [hd, hy]; rfl) (by rw [hd]; simp) (by rw [hd]; exact ⟨by simp, by simp⟩) e).1
      ⟨day0 2023 6 1, by rw [hd]; simp, by rcases he with rfl | rfl <;> decide +kernel⟩
    rw [hw] at q1
    obtain rfl := Except.ok.inj q1
    rw [q6 d]
    unfold keep
    have : (w.pairs.filter fun p => due e d p.1) = [] := by
      rw [List.filter_eq_nil_iff]
      intro p hp
      have hp1 : p.1 ∈ w.dates := by
        unfold Dividend.pairs at hp
        exact (List.of_mem_zip hp).1
      rw [hd, List.mem_singleton] at hp1
      rw [hp1]
      unfold due
      simp only [decide_eq_true_eq]
      rintro ⟨-, q⟩
      omega
    rw [this]
    simp
  have hvy : v.yields.length = 1 := by
    rw [hgd.yields, List.length_map, ← hgd.len, hvd]; rfl
  have hR : Visits (fundedOf L) [day0 2021 7 1, day0 2022 1 1, day0 2023 1 1] (twinMkt c.blank v s true) FundedUsable := by
    refine ⟨ubase, ?_, ?_, ?_, ?_, ?_, ?_⟩
    · rintro u k m hk ⟨j, p, hj, hp, rfl⟩
      have hj' : u = "A" ∧ j = 0 := by
        obtain ⟨a, e⟩ := (Option.ite_none_right_eq_some).1 hj
        exact ⟨a, (Option.some.inj e).symm⟩
      obtain ⟨rfl, rfl⟩ := hj'
      obtain rfl := Option.some.inj hp
      refine ⟨⟨{ value := 100 * k, at_ := day0 2021 1 1, div := some 0 }, v, rfl, ?_, rfl, hvr⟩, ubase.curve, ubase.disc, ubase.vol, ubase.date⟩
      show (60 : ℝ) < 100 * k
      rcases hk with rfl | rfl
      · show (60 : ℝ) < 100 * (1 + 0.01); norm_num
      · show (60 : ℝ) < 100 * (1 - 0.01); norm_num
    · rintro n win m ⟨c0, c1, h0, h1, -, h3, -, rfl⟩
      obtain ⟨rfl | ⟨-, rfl⟩, e⟩ := (Option.ite_none_right_eq_some).1 h0
      · obtain rfl := Option.some.inj e
        refine ⟨ubase.price, ⟨c1, by show ((twinMkt c.blank v s true).curves.put "C" c1) "C" = _; exact put_self _ _ _, h1, tl, ?_, htl'⟩, ?_, ubase.vol, ubase.date⟩
        · rw [h3]
          exact htl
        · obtain ⟨c2, k1, k2⟩ := ubase.disc
          exact ⟨c2, by show ((twinMkt c.blank v s true).curves.put "C" c1) "D" = _; rw [put_other _ _ _ _ (by decide)]; exact k1, k2⟩
      · obtain rfl := Option.some.inj e
        refine ⟨ubase.price, ?_, ⟨c1, by show ((twinMkt c.blank v s true).curves.put "D" c1) "D" = _; exact put_self _ _ _, h1, tl, by rw [h3]; exact htl, htl'⟩, ubase.vol, ubase.date⟩
        obtain ⟨c2, k1, k2⟩ := ubase.curve
        exact ⟨c2, by show ((twinMkt c.blank v s true).curves.put "D" c1) "C" = _; rw [put_other _ _ _ _ (by decide)]; exact k1, k2⟩
    · rintro u win b m - ⟨s0, s1, env, h0, h1, h2, h3, h4, -, rfl⟩
      obtain ⟨rfl, e⟩ := (Option.ite_none_right_eq_some).1 h0
      obtain rfl := Vol.surface.inj (Option.some.inj e)
      refine ⟨ubase.price, ubase.curve, ubase.disc, ⟨.surface s1, by show ((twinMkt c.blank v s true).vols.put "A" (.surface s1)) "A" = _; exact put_self _ _ _, ?_⟩, ubase.date⟩
      obtain ⟨s2, env', fs, g0, g1, -, -, g4⟩ := hM.vols "A" (.surface s) rfl
      obtain rfl := Vol.surface.inj g0
      rw [h1] at g1
      obtain rfl := Except.ok.inj g1
      have g5 : Forwards env (builtAt env s1) s1.dates fs := by
        have e1 : s1.dates = s.dates := by rw [h4]
        have e2 : builtAt env s1 = builtAt env s := by rw [h4]; rfl
        rw [e1, e2]
        exact g4
      obtain ⟨s3, b1, -, b3⟩ := C74_value env s1 h2 fs g5
      rw [h3] at b1
      obtain rfl := Except.ok.inj b1
      exact fun t x => (b3 t x).1
    · rintro u win m ⟨k, w, w', f, h0, h1, h2, h3, h4, h5, h6, rfl⟩
      have hk : k = 0 := by
        obtain ⟨-, e⟩ := (Option.ite_none_right_eq_some).1 h0
        exact (Option.some.inj e).symm
      subst hk
      obtain ⟨rfl, rfl⟩ := Prod.mk.inj (Option.some.inj h1)
      refine ⟨⟨{ value := 100, at_ := day0 2021 1 1, div := some 0 }, w', rfl, by norm_num, rfl, ?_⟩, ubase.curve, ubase.disc, ubase.vol, ubase.date⟩
      refine hdiv _ w' w' (Or.inl rfl) (h2.trans hvd) ?_ h6
      rw [h5, List.length_map, h4, List.length_zipWith, ← hgd.len, hvd]
      rfl
    · rintro b i d w hb' hi - hd hw
      have hbe : b = day0 2021 1 2 := by
        have := hb'.symm.trans hb
        exact Except.ok.inj this
      subst hbe
      have hde : d = day0 2021 1 2 := by
        rcases hd with ⟨-, rfl⟩ | ⟨⟨m, hm, hle⟩, -⟩
        · rfl
        · have := hlate i hi m hm
          omega
      subst hde
      unfold World.setDate at hw
      obtain ⟨ps, hps, hw⟩ := (bind_ok_iff _ _ _).1 hw
      obtain ⟨dv, hdv, hw⟩ := (bind_ok_iff _ _ _).1 hw
      obtain rfl := Except.ok.inj hw
      obtain ⟨a1, a2⟩ := (mapRes_iff _ _ _).1 hps
      obtain ⟨b1, b2⟩ := (mapRes_iff _ _ _).1 hdv
      have ha : ps.length = 1 := a1
      have hb1 : dv.length = 1 := b1
      have hx := a2 0 { value := 100, at_ := day0 2021 1 1, div := some 0 } (ps[0]'(by omega)) rfl (List.getElem?_eq_getElem (by omega))
      have hy := b2 0 (v, true) (dv[0]'(by omega)) rfl (List.getElem?_eq_getElem (by omega))
      rw [if_pos rfl] at hy
      obtain ⟨w', hw', hy⟩ := (bind_ok_iff _ _ _).1 hy
      have hy' := Except.ok.inj hy
      have hpv : ps[0]'(by omega) = { value := 100, at_ := day0 2021 1 2, div := some 0 } := by
        unfold Price.update at hx
        simp only [twinMkt, demoMarket, List.map_cons, List.getElem?_cons_zero] at hx
        rw [if_pos (by decide +kernel)] at hx
        rw [← Except.ok.inj hx, hvp]
        congr 1
      refine ⟨⟨{ value := 100, at_ := day0 2021 1 2, div := some 0 }, w', ?_, by norm_num, ?_, hdiv _ v w' (Or.inr rfl) hvd hvy hw'⟩, ubase.curve, ubase.disc, ubase.vol, Or.inr rfl⟩
      · show (ps[0]?).map (fun p => (0, p)) = _
        rw [List.getElem?_eq_getElem (by omega), hpv]
        rfl
      · show (dv[0]?).map Prod.fst = _
        rw [List.getElem?_eq_getElem (by omega), ← hy']
        rfl
    · rintro m ⟨h1, h2, -, h4⟩
      obtain ⟨w, hw⟩ := h4 "A" ⟨_, rfl⟩
      rw [h1] at hw ⊢
      rw [h1] at h2
      exact ⟨ubase.price, ubase.curve, ubase.disc, ⟨w, hw, goodVols_value _ h2 "A" w hw⟩, ubase.date⟩
  have hP : CanPriceIn (fundedOf L) (twinMkt c.blank v s true) FundedUsable := by
    intro i hi
    have of : ∀ (pl : Plan) (t : Terms), (fundedOf L).pricers i.code = some (pl.pricer .checked twinFixed t) → (∀ m, FundedUsable m → ∃ x, pl.npv .checked twinFixed t m = .ok x) →
        (∀ x, pl.npv .checked twinFixed t (twinMkt c.blank v s true) = .ok x → pl.result .checked twinFixed t (twinMkt c.blank v s true) = .ok (NpvResult.ofNpv x)) →
        (∀ x, ∃ f, pl.exposure .checked twinFixed t i (twinMkt c.blank v s true) x = .ok f) →
        ∃ p v' fl, (fundedOf L).pricers i.code = some p ∧ (∀ m, FundedUsable m → ∃ x, p.npv i m = .ok x) ∧ p.result i (twinMkt c.blank v s true) = .ok v' ∧ v'.expected = .ok fl ∧
          ∃ f, p.exposure i (twinMkt c.blank v s true) v'.npv = .ok f := by
      intro pl t h1 h2 h3 h4
      obtain ⟨x, hx⟩ := h2 _ ubase
      exact ⟨_, NpvResult.ofNpv x, [], h1, h2, h3 x hx, rfl, h4 _⟩
    have hi' : i ∈ fundedInsts := hL i hi
    simp only [fundedInsts, List.mem_cons, List.not_mem_nil, or_false] at hi'
    rcases hi' with rfl | rfl
    · refine of fundedPlan _ rfl (fun m hm => funded_option m hm true) (fun x hx => ?_) (fun x => ⟨_, rfl⟩)
      unfold Plan.result
      dsimp only [fundedPlan]
      rw [show Plan.npv .checked twinFixed (.option "A" "A" "D" "C" "C" none) (.option { twinOption with call := true }) (twinMkt c.blank v s true) = .ok x from hx]
      rfl
    · refine of fundedPlan _ rfl (fun m hm => funded_option m hm false) (fun x hx => ?_) (fun x => ⟨_, rfl⟩)
      unfold Plan.result
      dsimp only [fundedPlan]
      rw [show Plan.npv .checked twinFixed (.option "A" "A" "D" "C" "C" none) (.option { twinOption with call := false }) (twinMkt c.blank v s true) = .ok x from hx]
      rfl
  exact ⟨hg, hz, hM, C97_succeeds_in (fundedOf L) hg ["A"] (by simp) _ _ hM hC FundedUsable hR hP rfl⟩

/-- All hypotheses of `C183_options` are met by the call and the put of this engine, with a discount curve of its own and one curve for the collateral and the borrowing; and by the
call of `dividends_witness`, where one curve serves for everything. -/
theorem option_rhos_witness : (∃ M, OwnCodes fundedEngine ∧ SoundMkt fundedEngine [day0 2021 7 1, day0 2022 1 1, day0 2023 1 1] M ∧ FlatVols M "A" 0.2 ∧
      (∃ e', calculate fundedEngine ["A"] { mkt := M, action := fundedInsts, results := freshResults fundedInsts fun _ => none } = .ok e')) ∧
    (∀ call : Bool, ∃ i ∈ fundedInsts, i.kind = .option call "A" i.ccy false ∧ 0 ≤ i.notional ∧
      PricedAs fundedEngine twinFixed { twinLoaded with curves := fun _ => true } true i fundedPlan (.option { twinOption with call := call })) ∧
    fundedEngine.p.funding .krw = some "D" ∧ fundedEngine.p.collateral "A" = some "C" ∧ fundedEngine.p.borrowing "A" = some "C" ∧
    fundedEngine.conf.npv = true ∧ fundedEngine.conf.rho = true ∧ fundedEngine.conf.rhoS = true ∧ 0 < fundedEngine.conf.rhoBump := by
  refine ⟨?_, ?_, rfl, rfl, rfl, rfl, rfl, rfl, by show (0 : ℝ) < 0.0001; norm_num⟩
  · obtain ⟨c, v, s, hvs, hvn, h⟩ := funded_markets [[0.2, 0.2, 0.2], [0.2, 0.2, 0.2], [0.2, 0.2, 0.2]] rfl (by simp)
    obtain ⟨hg, -, hM, he⟩ := h fundedInsts (fun _ h => h) (by simp [fundedInsts])
    refine ⟨_, hg, hM, ?_, he⟩
    intro z hz r hr x hx
    have hz' : some (Vol.surface s) = some (Vol.surface z) := hz
    obtain rfl := Vol.surface.inj (Option.some.inj hz')
    rw [hvs] at hr
    simp only [List.mem_cons, List.not_mem_nil, or_false, or_self] at hr
    subst hr
    simp only [List.mem_cons, List.not_mem_nil, or_false, or_self] at hx
    exact hx
  · intro call
    cases call with
    | true => exact ⟨⟨"O", .option true "A" .krw false, .krw, 10, day0 2022 1 1, 0⟩, by simp [fundedInsts], rfl, by show (0 : ℝ) ≤ 10; norm_num, ⟨rfl, rfl⟩⟩
    | false => exact ⟨⟨"P", .option false "A" .krw false, .krw, 10, day0 2022 1 1, 0⟩, by simp [fundedInsts], rfl, by show (0 : ℝ) ≤ 10; norm_num, ⟨rfl, rfl⟩⟩

end Verif.Props

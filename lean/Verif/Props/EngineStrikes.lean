import Verif.Props.EngineOptionRhos
/-!
# C188: options of one engine that differ in their strikes
-/
set_option autoImplicit false
namespace Verif.Props
open Verif Verif.QL Verif.Civil MeasureTheory ProbabilityTheory

/-! ## Specification -/

/-- Two instruments of the engine are options on `u`, in its currency, that differ in nothing but the strike (and their names). -/
structure StrikesOnly (g : EngCfg) (f : Fixed) (L : Loaded) (analytic : Bool) (i j : Instr) (u : String) (o : Vanilla) (K' : ℝ) : Prop where
  mem : i ∈ g.insts ∧ j ∈ g.insts
  kinds : ∃ call s, i.kind = .option call u i.ccy s ∧ j.kind = .option call u j.ccy s
  same : i.ccy = j.ccy ∧ i.notional = j.notional
  first : ∃ pl, PricedAs g f L analytic i pl (.option o)
  second : ∃ pl, PricedAs g f L analytic j pl (.option { o with strike := K' })

/-- The first less the second less the third plus the fourth is `x`. -/
def Box (a b a' b' : Option ℝ) (x : ℝ) : Prop := ∃ p q p' q', a = some p ∧ b = some q ∧ a' = some p' ∧ b' = some q' ∧ (p - q) - (p' - q') = x

/-! ## Expected payoffs and strikes -/

theorem expectedPayoff_strike (o : Vanilla) (F v K : ℝ) : expectedPayoff { o with strike := K } F v = if o.call then expectedCall F K v else expectedPut F K v := rfl

/-- A call loses no more than the strike gains. -/
theorem expectedCall_strike_lipschitz (F v K K' : ℝ) (h : K ≤ K') : expectedCall F K v - expectedCall F K' v ≤ K' - K := by
  have p1 := expected_parity F K v
  have p2 := expected_parity F K' v
  have := expectedPut_strike_mono F v K K' h
  linarith

/-- What a call gains with the forward falls with the strike. -/
theorem expectedCall_spread (F F' v K K' : ℝ) (h : K ≤ K') (hF : F' ≤ F) : expectedCall F K' v - expectedCall F' K' v ≤ expectedCall F K v - expectedCall F' K v := by
  have key : expectedCall F K' v + expectedCall F' K v ≤ expectedCall F K v + expectedCall F' K' v := by
    unfold expectedCall
    rw [← integral_add (call_integrable _ _ _) (call_integrable _ _ _), ← integral_add (call_integrable _ _ _) (call_integrable _ _ _)]
    apply integral_mono ((call_integrable _ _ _).add (call_integrable _ _ _)) ((call_integrable _ _ _).add (call_integrable _ _ _))
    intro z
    have he := mul_le_mul_of_nonneg_right hF (Real.exp_pos (v * z - v ^ 2 / 2)).le
    set e := Real.exp (v * z - v ^ 2 / 2)
    show max (F * e - K') 0 + max (F' * e - K) 0 ≤ max (F * e - K) 0 + max (F' * e - K') 0
    rcases max_cases (F * e - K') 0 with ⟨q, _⟩ | ⟨q, _⟩ <;> rcases max_cases (F' * e - K) 0 with ⟨q', _⟩ | ⟨q', _⟩ <;> rcases max_cases (F * e - K) 0 with ⟨q2, _⟩ | ⟨q2, _⟩ <;>
      rcases max_cases (F' * e - K') 0 with ⟨q3, _⟩ | ⟨q3, _⟩ <;> rw [q, q', q2, q3] <;> linarith
  linarith

/-! ## One option -/

/-- The value and the delta of an option on a flat surface after a calculation. -/
theorem option_formula (g : EngCfg) (hg : OwnCodes g) (names : List String) (hns : names.Nodup) (ds : List DT) (M : Mkt) (hM : SoundMkt g ds M) (hn : g.conf.npv = true)
    (f : Fixed) (L : Loaded) (an : Bool) (i : Instr) (hi : i ∈ g.insts) (call s : Bool) (u : String) (hk : i.kind = .option call u i.ccy s) (pl : Plan) (o : Vanilla)
    (hp : PricedAs g f L an i pl (.option o)) (hK : 0 < o.strike) (σ : ℝ) (hσ : 0 ≤ σ) (hV : FlatVols M u σ) (e' : Eng)
    (h : calculate g names { mkt := M, action := g.insts, results := freshResults g.insts fun _ => none } = .ok e') :
    ∃ y d c b F D, e'.results i.code = some y ∧ g.p.discountName i = .ok d ∧ g.p.collateral u = some c ∧ g.p.borrowing u = some b ∧ ForwardAt M u d c b o F D ∧
      0 < F ∧ 0 < D ∧ y.value = some (D * expectedPayoff o F (σ * Real.sqrt (timeFrom M.w.date o.maturity)) * i.notional) ∧
      (g.conf.delta = true → y.delta u = some ((D * expectedPayoff o (F * (1 + g.conf.deltaRatio)) (σ * Real.sqrt (timeFrom M.w.date o.maturity)) -
        D * expectedPayoff o (F * (1 - g.conf.deltaRatio)) (σ * Real.sqrt (timeFrom M.w.date o.maturity))) / (2 * g.conf.deltaRatio) * 0.01 * i.notional)) := by
  obtain ⟨-, hres⟩ := C97_new_engine g hg names hns ds M e' hM h
  obtain ⟨y, hy, ci⟩ := hres i hi
  obtain ⟨d, c, b, rfl, hn1, hn2, hn3⟩ := option_noquanto g.p L an i call s u hk pl hp.made
  obtain ⟨p, v, fl, c1, c2, -, c4, c5, -⟩ := ci.npv hn
  rw [hp.held] at c1
  obtain rfl := Option.some.inj c1
  have c3 : (do let x ← (Plan.option u u d c b none).npv g.md f (.option o) M; Except.ok (NpvResult.ofNpv x) : Res NpvResult) = .ok v := c2
  obtain ⟨x0, hx0, e0⟩ := (bind_ok_iff _ _ _).1 c3
  obtain rfl := Except.ok.inj e0
  have flat : ∀ w, M.vols u = some w → ∀ t x y, w.value t x = .ok y → y = σ := fun w hw t x y hy => flat_value M u σ hM.vols hV w hw t x y hy
  have flat0 : ∀ w, M.vols u = some w → ∀ t x y, w.value t x = .ok y → 0 ≤ y := fun w hw t x y hy => by rw [flat w hw t x y hy]; exact hσ
  have hcv : ∀ cv, M.curves d = some cv → CurveOk cv := fun cv q => (hM.curves d cv q).1
  obtain ⟨F, s0, D, w, a1, a2, a3, a4, a5, a6, rfl⟩ := option_at g.md f M u d c b o hcv hK flat0 x0 hx0
  obtain rfl := flat w a2 _ _ _ a3
  generalize hτ : s0 * Real.sqrt (timeFrom M.w.date o.maturity) = τ at *
  have scaled : ∀ k m x, PriceScaled u k M m → g.npv i m = .ok x → x = D * expectedPayoff o (F * k) τ := by
    intro k m x hm hx
    have hf := forwardAt_scaled hm a1
    have facts : m.curves = M.curves ∧ m.vols = M.vols ∧ m.w.date = M.w.date := by
      obtain ⟨j, pr, -, -, rfl⟩ := hm
      exact ⟨rfl, rfl, rfl⟩
    obtain ⟨f1, f2, f3⟩ := facts
    unfold EngCfg.npv at hx
    rw [hp.held] at hx
    obtain ⟨F', s', D', w', b1, b2, b3, -, -, -, rfl⟩ := option_at g.md f m u d c b o (by rw [f1]; exact hcv) hK (by rw [f2]; exact flat0) x hx
    obtain ⟨rfl, rfl⟩ := forwardAt_unique hf b1
    rw [f2] at b2
    obtain rfl := flat w' b2 _ _ _ b3
    rw [f3, hτ]
  refine ⟨y, d, c, b, F, D, hy, hn1, hn2, hn3, a1, a4, a5, c5, fun hd => ?_⟩
  have htn : i.typeName ≠ "Stock" ∧ i.typeName ≠ "Futures" := by
    unfold Instr.typeName
    rw [hk]
    cases call <;> simp
  obtain ⟨v', mu, md, up, dn, q1, s1, s2, s3, s4, -, s6, s7⟩ := ((ci.delta hd).2 htn).1 u (by unfold Instr.unds; rw [hk]; simp)
  obtain rfl := scaled _ _ _ s1 s3
  obtain rfl := scaled _ _ _ s2 s4
  exact s6

/-! ## The theorems -/

/-- Both options have the same forward and discount factor. -/
theorem strikes_formula (g : EngCfg) (hg : OwnCodes g) (names : List String) (hns : names.Nodup) (ds : List DT) (M : Mkt) (hM : SoundMkt g ds M) (hn : g.conf.npv = true)
    (f : Fixed) (L : Loaded) (an : Bool) (i j : Instr) (u : String) (o : Vanilla) (K' : ℝ) (hs : StrikesOnly g f L an i j u o K') (hK : 0 < o.strike) (hK' : 0 < K')
    (σ : ℝ) (hσ : 0 ≤ σ) (hV : FlatVols M u σ) (e' : Eng)
    (h : calculate g names { mkt := M, action := g.insts, results := freshResults g.insts fun _ => none } = .ok e') :
    ∃ y z d c b F D v, e'.results i.code = some y ∧ e'.results j.code = some z ∧ g.p.discountName i = .ok d ∧ g.p.collateral u = some c ∧ g.p.borrowing u = some b ∧
      ForwardAt M u d c b o F D ∧ 0 < F ∧ 0 < D ∧ v = σ * Real.sqrt (timeFrom M.w.date o.maturity) ∧
      y.value = some (D * expectedPayoff o F v * i.notional) ∧ z.value = some (D * expectedPayoff { o with strike := K' } F v * i.notional) ∧
      (g.conf.delta = true →
        y.delta u = some ((D * expectedPayoff o (F * (1 + g.conf.deltaRatio)) v - D * expectedPayoff o (F * (1 - g.conf.deltaRatio)) v) / (2 * g.conf.deltaRatio) * 0.01 * i.notional) ∧
        z.delta u = some ((D * expectedPayoff { o with strike := K' } (F * (1 + g.conf.deltaRatio)) v - D * expectedPayoff { o with strike := K' } (F * (1 - g.conf.deltaRatio)) v)
          / (2 * g.conf.deltaRatio) * 0.01 * i.notional)) := by
  obtain ⟨call, s, ki, kj⟩ := hs.kinds
  obtain ⟨pl, p1⟩ := hs.first
  obtain ⟨pl', p2⟩ := hs.second
  obtain ⟨y, d, c, b, F, D, hy, a1, a2, a3, a4, a5, a6, a7, a8⟩ := option_formula g hg names hns ds M hM hn f L an i hs.mem.1 call s u ki pl o p1 hK σ hσ hV e' h
  obtain ⟨z, d', c', b', F', D', hz, b1, b2, b3, b4, b5, b6, b7, b8⟩ := option_formula g hg names hns ds M hM hn f L an j hs.mem.2 call s u kj pl' _ p2 hK' σ hσ hV e' h
  have hd : g.p.discountName j = g.p.discountName i := by
    unfold MatchParam.discountName
    rw [ki, kj, hs.same.1]
  rw [hd, a1] at b1
  obtain rfl := Except.ok.inj b1
  rw [a2] at b2
  obtain rfl := Option.some.inj b2
  rw [a3] at b3
  obtain rfl := Option.some.inj b3
  obtain ⟨rfl, rfl⟩ := forwardAt_unique a4 (show ForwardAt M u d c b o F' D' from b4)
  rw [← hs.same.2] at b7 b8
  exact ⟨y, z, d, c, b, F, D, _, hy, hz, a1, a2, a3, a4, a5, a6, rfl, a7, b7, fun q => ⟨a8 q, b8 q⟩⟩

/-- **C188** (order). On a flat surface, of two options that differ in the strike alone, the call with the higher strike is worth no more than the other, by no more than the discounted
difference of the strikes, and the put no less, by no more than that; and the delta of the one with the higher strike is not larger, call or put. -/
theorem C188_order (g : EngCfg) (hg : OwnCodes g) (names : List String) (hns : names.Nodup) (ds : List DT) (M : Mkt) (hM : SoundMkt g ds M) (hn : g.conf.npv = true)
    (f : Fixed) (L : Loaded) (an : Bool) (i j : Instr) (u : String) (o : Vanilla) (K' : ℝ) (hs : StrikesOnly g f L an i j u o K') (hK : 0 < o.strike) (hle : o.strike ≤ K')
    (hN : 0 ≤ i.notional) (σ : ℝ) (hσ : 0 ≤ σ) (hV : FlatVols M u σ) (e' : Eng)
    (h : calculate g names { mkt := M, action := g.insts, results := freshResults g.insts fun _ => none } = .ok e') :
    ∃ y z d c b F D x x', e'.results i.code = some y ∧ e'.results j.code = some z ∧ y.value = some x ∧ z.value = some x' ∧
      g.p.discountName i = .ok d ∧ g.p.collateral u = some c ∧ g.p.borrowing u = some b ∧ ForwardAt M u d c b o F D ∧ 0 < D ∧
      (o.call = true → 0 ≤ x - x' ∧ x - x' ≤ D * (K' - o.strike) * i.notional) ∧ (o.call = false → 0 ≤ x' - x ∧ x' - x ≤ D * (K' - o.strike) * i.notional) ∧
      (g.conf.delta = true → 0 < g.conf.deltaRatio → ∃ w w', y.delta u = some w ∧ z.delta u = some w' ∧ w' ≤ w) := by
  obtain ⟨y, z, d, c, b, F, D, v, hy, hz, a1, a2, a3, a4, a5, a6, -, a7, a8, a9⟩ := strikes_formula g hg names hns ds M hM hn f L an i j u o K' hs hK (hK.trans_le hle) σ hσ hV e' h
  have hDN : 0 ≤ D * i.notional := mul_nonneg a6.le hN
  have c1 := expectedCall_strike_antitone F v _ _ hle
  have c2 := expectedCall_strike_lipschitz F v _ _ hle
  have p1 := expected_parity F o.strike v
  have p2 := expected_parity F K' v
  refine ⟨y, z, d, c, b, F, D, _, _, hy, hz, a7, a8, a1, a2, a3, a4, a6, fun q => ?_, fun q => ?_, fun q hr => ?_⟩
  · rw [expectedPayoff_strike, expectedPayoff, q]
    simp only [if_true]
    constructor
    · have := mul_nonneg hDN (sub_nonneg.2 c1)
      nlinarith
    · have := mul_le_mul_of_nonneg_left c2 hDN
      nlinarith
  · rw [expectedPayoff_strike, expectedPayoff, q]
    simp only [Bool.false_eq_true, if_false]
    constructor
    · have := mul_nonneg hDN (show 0 ≤ expectedPut F K' v - expectedPut F o.strike v by linarith)
      nlinarith
    · have := mul_le_mul_of_nonneg_left (show expectedPut F K' v - expectedPut F o.strike v ≤ K' - o.strike by linarith) hDN
      nlinarith
  · obtain ⟨w1, w2⟩ := a9 q
    refine ⟨_, _, w1, w2, ?_⟩
    generalize g.conf.deltaRatio = r at *
    have hF : F * (1 - r) ≤ F * (1 + r) := by nlinarith
    have s1 := expectedCall_spread (F * (1 + r)) (F * (1 - r)) v _ _ hle hF
    have q1 := expected_parity (F * (1 + r)) o.strike v
    have q2 := expected_parity (F * (1 - r)) o.strike v
    have q3 := expected_parity (F * (1 + r)) K' v
    have q4 := expected_parity (F * (1 - r)) K' v
    have key : expectedPayoff { o with strike := K' } (F * (1 + r)) v - expectedPayoff { o with strike := K' } (F * (1 - r)) v ≤
        expectedPayoff o (F * (1 + r)) v - expectedPayoff o (F * (1 - r)) v := by
      rw [expectedPayoff_strike, expectedPayoff_strike, expectedPayoff, expectedPayoff]
      cases o.call <;> simp only [if_true, Bool.false_eq_true, if_false] <;> linarith
    refine mul_le_mul_of_nonneg_right (mul_le_mul_of_nonneg_right (div_le_div_of_nonneg_right ?_ (by linarith)) (by norm_num)) hN
    have := mul_le_mul_of_nonneg_left key a6.le
    linarith

/-- **C188** (butterflies). On a flat surface, of three options that differ in the strike alone, the one with the strike between is worth no more than the other two weighted by how
near their strikes are, calls and puts alike. -/
theorem C188_butterfly (g : EngCfg) (hg : OwnCodes g) (names : List String) (hns : names.Nodup) (ds : List DT) (M : Mkt) (hM : SoundMkt g ds M) (hn : g.conf.npv = true)
    (f : Fixed) (L : Loaded) (an : Bool) (i j k : Instr) (u : String) (o : Vanilla) (K K' : ℝ) (hs : StrikesOnly g f L an i j u o K) (hs' : StrikesOnly g f L an i k u o K')
    (hK : 0 < o.strike) (h1 : o.strike ≤ K) (h2 : K ≤ K') (hlt : o.strike < K')
    (hN : 0 ≤ i.notional) (σ : ℝ) (hσ : 0 ≤ σ) (hV : FlatVols M u σ) (e' : Eng)
    (h : calculate g names { mkt := M, action := g.insts, results := freshResults g.insts fun _ => none } = .ok e') :
    ∃ y z w a b c, e'.results i.code = some y ∧ e'.results j.code = some z ∧ e'.results k.code = some w ∧ y.value = some a ∧ z.value = some b ∧ w.value = some c ∧
      b * (K' - o.strike) ≤ a * (K' - K) + c * (K - o.strike) := by
  obtain ⟨y, z, d, c, b, F, D, v, hy, hz, a1, a2, a3, a4, a5, a6, hv, a7, a8, -⟩ := strikes_formula g hg names hns ds M hM hn f L an i j u o K hs hK (hK.trans_le h1) σ hσ hV e' h
  obtain ⟨y', w, d', c', b', F', D', v', hy', hw, b1, b2, b3, b4, b5, b6, hv', b7, b8, -⟩ :=
    strikes_formula g hg names hns ds M hM hn f L an i k u o K' hs' hK (hK.trans hlt) σ hσ hV e' h
  rw [a1] at b1
  obtain rfl := Except.ok.inj b1
  rw [a2] at b2
  obtain rfl := Option.some.inj b2
  rw [a3] at b3
  obtain rfl := Option.some.inj b3
  obtain ⟨rfl, rfl⟩ := forwardAt_unique a4 b4
  obtain rfl : v = v' := hv.trans hv'.symm
  refine ⟨y, z, w, _, _, _, hy, hz, hw, a7, a8, b8, ?_⟩
  have hpos : 0 < K' - o.strike := sub_pos.2 hlt
  have cv := (expectedCall_strike_convex F v).2 (Set.mem_univ o.strike) (Set.mem_univ K') (div_nonneg (sub_nonneg.2 h2) hpos.le) (div_nonneg (sub_nonneg.2 h1) hpos.le)
    (by field_simp; ring)
  simp only [smul_eq_mul] at cv
  rw [show (K' - K) / (K' - o.strike) * o.strike + (K - o.strike) / (K' - o.strike) * K' = K by field_simp; ring] at cv
  have cv' : expectedCall F K v * (K' - o.strike) ≤ expectedCall F o.strike v * (K' - K) + expectedCall F K' v * (K - o.strike) := by
    have := mul_le_mul_of_nonneg_right cv hpos.le
    have e : ((K' - K) / (K' - o.strike) * expectedCall F o.strike v + (K - o.strike) / (K' - o.strike) * expectedCall F K' v) * (K' - o.strike) =
        expectedCall F o.strike v * (K' - K) + expectedCall F K' v * (K - o.strike) := by field_simp
    linarith
  have q1 := expected_parity F o.strike v
  have q2 := expected_parity F K v
  have q3 := expected_parity F K' v
  have key : expectedPayoff { o with strike := K } F v * (K' - o.strike) ≤ expectedPayoff o F v * (K' - K) + expectedPayoff { o with strike := K' } F v * (K - o.strike) := by
    rw [expectedPayoff_strike, expectedPayoff_strike, expectedPayoff]
    cases o.call <;> simp only [if_true, Bool.false_eq_true, if_false]
    · rw [show expectedPut F K v = expectedCall F K v - (F - K) by linarith, show expectedPut F o.strike v = expectedCall F o.strike v - (F - o.strike) by linarith,
        show expectedPut F K' v = expectedCall F K' v - (F - K') by linarith]
      nlinarith
    · exact cv'
  have := mul_le_mul_of_nonneg_left key (mul_nonneg a6.le hN)
  nlinarith

/-- **C188** (boxes). On any surface: a call and a put on the same terms, and another such pair with the strike `K'` instead and nothing else changed. The first call less the first put less
the second call plus the second put is worth exactly the discounted difference of the strikes, and its delta, gamma and vega are zero. -/
theorem C188_box (g : EngCfg) (hg : OwnCodes g) (hz : OneZone g) (names : List String) (hns : names.Nodup) (ds : List DT) (M : Mkt) (hM : SoundMkt g ds M)
    (hn : g.conf.npv = true) (f : Fixed) (L : Loaded) (an : Bool) (i j i' j' : Instr) (u : String) (o : Vanilla) (K' : ℝ) (ht : Twins g f L an i j u o)
    (ht' : Twins g f L an i' j' u { o with strike := K' }) (hs : i.kind = i'.kind ∧ i.ccy = i'.ccy ∧ i.notional = i'.notional) (e' : Eng)
    (h : calculate g names { mkt := M, action := g.insts, results := freshResults g.insts fun _ => none } = .ok e') :
    ∃ y z y' z' d c b F D, e'.results i.code = some y ∧ e'.results j.code = some z ∧ e'.results i'.code = some y' ∧ e'.results j'.code = some z' ∧
      g.p.discountName i = .ok d ∧ g.p.collateral u = some c ∧ g.p.borrowing u = some b ∧ ForwardAt M u d c b o F D ∧
      Box y.value z.value y'.value z'.value (D * (K' - o.strike) * i.notional) ∧
      (g.conf.delta = true → Box (y.delta u) (z.delta u) (y'.delta u) (z'.delta u) 0 ∧ Box (y.gamma u) (z.gamma u) (y'.gamma u) (z'.gamma u) 0) ∧
      (g.conf.vega = true → Box (y.vega u) (z.vega u) (y'.vega u) (z'.vega u) 0) := by
  obtain ⟨d, c, b, y, z, a1, a2, a3, hy, hz1, P⟩ := C156_parity g hg hz names hns ds M hM hn f L an i j u o ht e' h
  obtain ⟨d', c', b', y', z', b1, b2, b3, hy', hz', P'⟩ := C156_parity g hg hz names hns ds M hM hn f L an i' j' u _ ht' e' h
  have hd : g.p.discountName i' = g.p.discountName i := by
    unfold MatchParam.discountName
    rw [← hs.1, hs.2.1]
  rw [hd, a1] at b1
  obtain rfl := Except.ok.inj b1
  rw [a2] at b2
  obtain rfl := Option.some.inj b2
  rw [a3] at b3
  obtain rfl := Option.some.inj b3
  obtain ⟨w, ⟨F, D, hFD, rfl⟩, p, q, v1, v2, v3⟩ := P.value
  obtain ⟨w', ⟨F', D', hFD', rfl⟩, p', q', v1', v2', v3'⟩ := P'.value
  obtain ⟨rfl, rfl⟩ := forwardAt_unique hFD (show ForwardAt M u d c b o F' D' from hFD')
  dsimp only at v3'
  refine ⟨y, z, y', z', d, c, b, F, D, hy, hz1, hy', hz', a1, a2, a3, hFD, ⟨p, q, p', q', v1, v2, v1', v2', ?_⟩, fun hq => ⟨?_, ?_⟩, fun hq => ?_⟩
  · rw [v3, v3', ← hs.2.2]
    ring
  · obtain ⟨F1, D1, e1, p1, q1, t1, t2, t3⟩ := P.delta hq
    obtain ⟨F2, D2, e2, p2, q2, r1, r2, r3⟩ := P'.delta hq
    obtain ⟨rfl, rfl⟩ := forwardAt_unique e1 (show ForwardAt M u d c b o F2 D2 from e2)
    refine ⟨p1, q1, p2, q2, t1, t2, r1, r2, ?_⟩
    rw [t3, r3, hs.2.2, sub_self]
  · obtain ⟨x, t1, t2⟩ := P.gamma hq
    obtain ⟨x', r1, r2⟩ := P'.gamma hq
    exact ⟨x, x, x', x', t1, t2, r1, r2, by ring⟩
  · obtain ⟨x, t1, t2⟩ := P.vega hq
    obtain ⟨x', r1, r2⟩ := P'.vega hq
    exact ⟨x, x, x', x', t1, t2, r1, r2, by ring⟩

/-! ## A concrete engine -/

noncomputable def strikeOption (K : ℝ) (call : Bool) : Vanilla := { strike := K, maturity := day0 2022 1 1, call := call, ccy := 0, undCcy := 0 }

/-- Three calls and three puts -/
noncomputable def strikesInsts : List Instr :=
  [⟨"C1", .option true "A" .krw false, .krw, 10, day0 2022 1 1, 0⟩, ⟨"C2", .option true "A" .krw false, .krw, 10, day0 2022 1 1, 0⟩, ⟨"C3", .option true "A" .krw false, .krw, 10, day0 2022 1 1, 0⟩,
   ⟨"P1", .option false "A" .krw false, .krw, 10, day0 2022 1 1, 0⟩, ⟨"P2", .option false "A" .krw false, .krw, 10, day0 2022 1 1, 0⟩, ⟨"P3", .option false "A" .krw false, .krw, 10, day0 2022 1 1, 0⟩]

/-- The engine: strikes 40, 50 and 58 -/
noncomputable def strikesEngine : EngCfg where
  md := .checked
  pricers := fun c =>
    if c = "C1" then some (fundedPlan.pricer .checked twinFixed (.option (strikeOption 40 true)))
    else if c = "C2" then some (fundedPlan.pricer .checked twinFixed (.option (strikeOption 50 true)))
    else if c = "C3" then some (fundedPlan.pricer .checked twinFixed (.option (strikeOption 58 true)))
    else if c = "P1" then some (fundedPlan.pricer .checked twinFixed (.option (strikeOption 40 false)))
    else if c = "P2" then some (fundedPlan.pricer .checked twinFixed (.option (strikeOption 50 false)))
    else if c = "P3" then some (fundedPlan.pricer .checked twinFixed (.option (strikeOption 58 false)))
    else none
  p := fundedEngine.p
  conf := demoConf
  insts := strikesInsts

theorem strike_option (m : Mkt) (h : FundedUsable m) (call : Bool) (K : ℝ) (hK0 : 0 < K) (hK : K ≤ 60) : ∃ x, fundedPlan.npv .checked twinFixed (.option (strikeOption K call)) m = .ok x := by
  have hq : ∀ e, e = day0 2021 1 1 ∨ e = day0 2021 1 2 → (0 : ℚ) < timeDifference e (day0 2022 1 1) ∧ timeDifference e (day0 2022 1 1) < 99 := by
    rintro e (rfl | rfl) <;> decide +kernel
  obtain ⟨env, c, F, e1, e2, e3, e4, e5, D, e6⟩ := funded_forward m h (day0 2022 1 1) (fun e he => ⟨(hq e he).1.le, (hq e he).2⟩) (by decide +kernel)
  obtain ⟨w, w1, w2⟩ := h.vol
  obtain ⟨s, hs⟩ := w2 (timeFrom m.w.date (day0 2022 1 1)) (K / F)
  have ht : 0 < timeFrom m.w.date (day0 2022 1 1) := by
    have := (hq _ h.date).1
    show (0 : ℝ) < ((timeDifference m.w.date (day0 2022 1 1) : ℚ) : ℝ)
    exact_mod_cast this
  let P : OptionPricer := { env := env, disc := c, vol := w, quanto := none }
  have hP : m.optionPricer twinFixed "A" "A" "D" "C" "C" none = .ok P := by
    unfold Mkt.optionPricer
    rw [e1, w1, e2]
    rfl
  have hnpv := option_npv_eq P (strikeOption K call) F (timeFrom m.w.date (day0 2022 1 1)) s D 0 ⟨e4, by rw [← e3]; rfl, hs, e6⟩ ht.le (by linarith) hK0
    (Or.inl rfl) rfl
  have : ∃ n, normals (-Real.log (K / F) + s * s * timeFrom m.w.date (day0 2022 1 1) / 2 - 0) (s * Real.sqrt (timeFrom m.w.date (day0 2022 1 1))) = .ok n := by
    unfold normals
    by_cases hd : s * Real.sqrt (timeFrom m.w.date (day0 2022 1 1)) = 0
    · have hs0 : s = 0 := (mul_eq_zero.1 hd).resolve_right (Real.sqrt_pos.2 ht).ne'
      have hlog : Real.log (K / F) < 0 := Real.log_neg (by positivity) ((div_lt_one (by linarith)).2 (by linarith))
      have hnum : 0 < -Real.log (K / F) + s * s * timeFrom m.w.date (day0 2022 1 1) / 2 - 0 := by rw [hs0]; linarith
      rw [if_pos hd, if_neg hnum.ne', if_pos hnum]
      exact ⟨_, rfl⟩
    · rw [if_neg hd]
      exact ⟨_, rfl⟩
  obtain ⟨n, hn⟩ := this
  have hnpv' : P.npv (strikeOption K call) = _ := hnpv
  rw [show (normals (-Real.log ((strikeOption K call).strike / F) + s * s * timeFrom m.w.date (day0 2022 1 1) / 2 - 0)
    (s * Real.sqrt (timeFrom m.w.date (day0 2022 1 1)))) = .ok n from hn, Res.bind_ok] at hnpv'
  have hx : ∃ x, P.npv (strikeOption K call) = .ok x := ⟨_, hnpv'⟩
  obtain ⟨x, hx⟩ := hx
  refine ⟨x, ?_⟩
  show (do let x ← m.optionPricer twinFixed "A" "A" "D" "C" "C" none; x.npv (strikeOption K call)) = _
  rw [hP, Res.bind_ok]
  exact hx
/-- The same engine holding the instruments `L` -/
noncomputable def strikesOf (L : List Instr) : EngCfg := { strikesEngine with insts := L }

/-- The engine can be calculated: `C97_succeeds_in` applies to it. -/
theorem strikes_markets (vs : List (List ℝ)) (hlen : vs.length = 3) (hcols : ∀ r ∈ vs, r.length = 3) : ∃ c v s, s.vols = vs ∧ Dividend.new (day0 2021 1 1) (some [day0 2023 6 1]) [(2 : ℝ)] 100 = .ok v ∧ ∀ (L : List Instr), (∀ i ∈ L, i ∈ strikesInsts) →
    (L.map Instr.code).Nodup → OwnCodes (strikesOf L) ∧ OneZone (strikesOf L) ∧ SoundMkt (strikesOf L) [day0 2021 7 1, day0 2022 1 1, day0 2023 1 1] (twinMkt c v s true) ∧
    ∃ e', calculate (strikesOf L) ["A"] { mkt := twinMkt c v s true, action := L, results := freshResults L fun _ => none } = .ok e' := by
  obtain ⟨c, v, s, hcn, hvn, -, hM0, -, -, -, hvs⟩ := engine_market vs hlen hcols
  obtain ⟨c', hcn', ok, ⟨tl, htl, htl'⟩, hdf⟩ := sample_curve 0.03
  rw [hcn] at hcn'
  obtain rfl := Except.ok.inj hcn'
  obtain ⟨v', hvn', hgd, hvd, hvp, hvr⟩ := demo_dividend
  rw [hvn] at hvn'
  obtain rfl := Except.ok.inj hvn'
  refine ⟨c.blank, v, s, hvs, hvn, fun L hL hnd => ?_⟩
  have hM : SoundMkt (strikesOf L) [day0 2021 7 1, day0 2022 1 1, day0 2023 1 1] (twinMkt c.blank v s true) := by
    refine ⟨?_, ?_, hM0.3, hM0.4, hM0.5, hM0.6⟩
    · intro n c0 h0
      obtain ⟨-, e⟩ := (Option.ite_none_right_eq_some).1 h0
      obtain rfl := Option.some.inj e
      exact hM0.1 "C" _ rfl
    · intro u w hw
      obtain ⟨a, e⟩ := (Option.ite_none_right_eq_some).1 hw
      subst a
      exact hM0.2 "A" w hw
  have hg : OwnCodes (strikesOf L) := by
    exact hnd
  have hmem : ∀ i ∈ (strikesOf L).insts, i.typeName ≠ "Stock" ∧ i.typeName ≠ "Cash" ∧ i.unds = ["A"] ∧ curveRoles (strikesOf L).p i = [some "D", some "C"] ∧ i.maturity = some (day0 2022 1 1) := by
    intro i hi
    replace hi := hL i hi
    simp only [strikesInsts, List.mem_cons, List.not_mem_nil, or_false] at hi
    rcases hi with rfl | rfl | rfl | rfl | rfl | rfl <;> simp [Instr.typeName, Instr.unds, curveRoles, Instr.maturity, strikesOf, strikesEngine, fundedEngine]
  have hundA : ∀ i ∈ (strikesOf L).insts, ∀ u ∈ i.unds, u = "A" := by
    intro i hi u hu
    rw [(hmem i hi).2.2.1] at hu
    simpa using hu
  have hcurv : ∀ i ∈ (strikesOf L).insts, ∀ x ∈ curveRoles (strikesOf L).p i, x = some "C" ∨ x = some "D" := by
    intro i hi x hx
    rw [(hmem i hi).2.2.2.1] at hx
    simp at hx
    exact hx.symm
  have hmat : ∀ i ∈ (strikesOf L).insts, ∀ m, i.maturity = some m → m = day0 2022 1 1 := by
    intro i hi m hm
    rw [(hmem i hi).2.2.2.2] at hm
    exact (Option.some.inj hm).symm
  have hz : OneZone (strikesOf L) := by
    intro i hi j hj a b ha hb hab
    rw [hmat i hi a ha, hmat j hj b hb]
  have hb : (day0 2021 1 1).addNs (1 * dayNs) = .ok (day0 2021 1 2) := by decide +kernel
  have hlate : ∀ i ∈ (strikesOf L).insts, ∀ m, i.maturity = some m → (day0 2021 1 2).instant < m.instant := by
    intro i hi m hm
    rw [hmat i hi m hm]
    decide +kernel
  have hC : Complete (strikesOf L) ["A"] (twinMkt c.blank v s true) := by
    refine ⟨?_, ?_, ?_, ?_, ?_, ?_, ?_, ?_, ?_, ?_⟩
    · intro i hi u hu
      rw [hundA i hi u hu]
      exact ⟨0, _, rfl, rfl⟩
    · intro i hi
      unfold CurvesNamed
      intro x
      rcases hcurv i hi _ x with h | h <;> cases h
    · intro i hi n hn
      rcases hcurv i hi _ hn.2 with h | h <;> obtain rfl := Option.some.inj h <;> exact ⟨_, rfl⟩
    · intro i hi _ u hu
      rw [hundA i hi u hu]
      exact ⟨_, rfl⟩
    · intro i hi _ u hu
      rw [hundA i hi u hu]
      exact ⟨_, rfl⟩
    · intro u hu
      simp only [List.mem_cons, List.not_mem_nil, or_false] at hu
      rw [hu]
      exact ⟨_, rfl⟩
    · refine ⟨?_, ?_, ?_, ?_, ?_⟩ <;> simp [strikesOf, strikesEngine, demoConf] <;> norm_num
    · have t1 : timeFrom (day0 2021 1 1) (day0 2021 7 1) = 181 / 365 := by
        have : timeDifference (day0 2021 1 1) (day0 2021 7 1) = 181 / 365 := by decide +kernel
        unfold timeFrom; rw [this]; norm_num
      have t2 : timeFrom (day0 2021 1 1) (day0 2022 1 1) = 1 := by
        have : timeDifference (day0 2021 1 1) (day0 2022 1 1) = 1 := by decide +kernel
        unfold timeFrom; rw [this]; norm_num
      have hr : calcDates .checked (day0 2021 1 1) [['6', 'M'], ['1', 'Y']] = .ok [day0 2021 7 1, day0 2022 1 1] := by decide +kernel
      refine ⟨[day0 2021 7 1, day0 2022 1 1], hr, fun k hk => ?_⟩
      show (startOf [timeFrom (day0 2021 1 1) (day0 2021 7 1), timeFrom (day0 2021 1 1) (day0 2022 1 1)] k).getD (-99999999)
        ≤ ([timeFrom (day0 2021 1 1) (day0 2021 7 1), timeFrom (day0 2021 1 1) (day0 2022 1 1)][k]?).getD 99999999
      rw [t1, t2]
      have hk : k < 2 := hk
      interval_cases k
      · simp [startOf]; norm_num
      · simp [startOf]; norm_num
    · have hr : calcDates .checked (day0 2021 1 1) [['1', 'Y'], ['3', 'Y']] = .ok [day0 2022 1 1, day0 2024 1 1] := by decide +kernel
      refine ⟨[day0 2022 1 1, day0 2024 1 1], hr, fun k hk => ?_⟩
      have hk : k < 2 := hk
      unfold WindowOk
      interval_cases k <;> decide +kernel
    · refine ⟨day0 2021 1 2, hb, fun i hi ht d hd => ?_⟩
      rcases hd with ⟨-, rfl⟩ | ⟨⟨m, hm, hle⟩, -⟩
      · refine ⟨(C47_move_succeeds _ hM.date.wf _ hM.date.part ?_).2 ?_, ?_⟩
        · intro x hx _
          simp only [twinMkt, demoMarket, List.mem_cons, List.not_mem_nil, or_false] at hx
          subst hx
          refine ⟨?_, by rw [hvd]; simp, hgd.ordered⟩
          rw [hgd.yields, List.length_map]
          exact hgd.len
        · intro x hx _
          simp only [twinMkt, demoMarket, List.mem_cons, List.not_mem_nil, or_false] at hx
          subst hx
          refine ⟨day0 2023 6 1, by rw [hvd]; simp, by decide +kernel⟩
        · have : timeDifference (day0 2021 1 1) (day0 2021 1 2) = 1 / 365 := by decide +kernel
          show ((timeDifference (day0 2021 1 1) (day0 2021 1 2) : ℚ) : ℝ) ≠ 0
          rw [this]
          norm_num
      · have := hlate i hi m hm
        omega
  have ubase : FundedUsable (twinMkt c.blank v s true) :=
    ⟨⟨{ value := 100, at_ := day0 2021 1 1, div := some 0 }, v, rfl, by norm_num, rfl, hvr⟩, ⟨c.blank, rfl, curveOk_blank c ok, tl, htl, htl'⟩, ⟨c.blank, rfl, curveOk_blank c ok, tl, htl, htl'⟩,
      ⟨.surface s, rfl, goodVols_value _ hM.vols "A" _ rfl⟩, Or.inl rfl⟩
  have hdiv : ∀ (e : DT) (w w' : Dividend ℝ), (e = day0 2021 1 1 ∨ e = day0 2021 1 2) → w.dates = [day0 2023 6 1] → w.yields.length = 1 → w.update e = .ok w' →
      ∀ d, d.day < (day0 2023 6 1).day → w'.ratio d = .ok 1 := by
    intro e w w' he hd hy hw d hlt
    obtain ⟨w'', q1, -, -, -, -, q6⟩ := (C48_update w (by rw [hd, hy]; rfl) (by rw [hd]; simp) (by rw [hd]; exact ⟨by simp, by simp⟩) e).1
      ⟨day0 2023 6 1, by rw [hd]; simp, by rcases he with rfl | rfl <;> decide +kernel⟩
    rw [hw] at q1
    obtain rfl := Except.ok.inj q1
    rw [q6 d]
    unfold keep
    have : (w.pairs.filter fun p => due e d p.1) = [] := by
      rw [List.filter_eq_nil_iff]
      intro p hp
      have hp1 : p.1 ∈ w.dates := by
        unfold Dividend.pairs at hp
        exact (List.of_mem_zip hp).1
      rw [hd, List.mem_singleton] at hp1
      rw [hp1]
      unfold due
      simp only [decide_eq_true_eq]
      rintro ⟨-, q⟩
      omega
    rw [this]
    simp
  have hvy : v.yields.length = 1 := by
    rw [hgd.yields, List.length_map, ← hgd.len, hvd]; rfl
  have hR : Visits (strikesOf L) [day0 2021 7 1, day0 2022 1 1, day0 2023 1 1] (twinMkt c.blank v s true) FundedUsable := by
    refine ⟨ubase, ?_, ?_, ?_, ?_, ?_, ?_⟩
    · rintro u k m hk ⟨j, p, hj, hp, rfl⟩
      have hj' : u = "A" ∧ j = 0 := by
        obtain ⟨a, e⟩ := (Option.ite_none_right_eq_some).1 hj
        exact ⟨a, (Option.some.inj e).symm⟩
      obtain ⟨rfl, rfl⟩ := hj'
      obtain rfl := Option.some.inj hp
      refine ⟨⟨{ value := 100 * k, at_ := day0 2021 1 1, div := some 0 }, v, rfl, ?_, rfl, hvr⟩, ubase.curve, ubase.disc, ubase.vol, ubase.date⟩
      show (60 : ℝ) < 100 * k
      rcases hk with rfl | rfl
      · show (60 : ℝ) < 100 * (1 + 0.01); norm_num
      · show (60 : ℝ) < 100 * (1 - 0.01); norm_num
    · rintro n win m ⟨c0, c1, h0, h1, -, h3, -, rfl⟩
      obtain ⟨rfl | ⟨-, rfl⟩, e⟩ := (Option.ite_none_right_eq_some).1 h0
      · obtain rfl := Option.some.inj e
        refine ⟨ubase.price, ⟨c1, by show ((twinMkt c.blank v s true).curves.put "C" c1) "C" = _; exact put_self _ _ _, h1, tl, ?_, htl'⟩, ?_, ubase.vol, ubase.date⟩
        · rw [h3]
          exact htl
        · obtain ⟨c2, k1, k2⟩ := ubase.disc
          exact ⟨c2, by show ((twinMkt c.blank v s true).curves.put "C" c1) "D" = _; rw [put_other _ _ _ _ (by decide)]; exact k1, k2⟩
      · obtain rfl := Option.some.inj e
        refine ⟨ubase.price, ?_, ⟨c1, by show ((twinMkt c.blank v s true).curves.put "D" c1) "D" = _; exact put_self _ _ _, h1, tl, by rw [h3]; exact htl, htl'⟩, ubase.vol, ubase.date⟩
        obtain ⟨c2, k1, k2⟩ := ubase.curve
        exact ⟨c2, by show ((twinMkt c.blank v s true).curves.put "D" c1) "C" = _; rw [put_other _ _ _ _ (by decide)]; exact k1, k2⟩
    · rintro u win b m - ⟨s0, s1, env, h0, h1, h2, h3, h4, -, rfl⟩
      obtain ⟨rfl, e⟩ := (Option.ite_none_right_eq_some).1 h0
      obtain rfl := Vol.surface.inj (Option.some.inj e)
      refine ⟨ubase.price, ubase.curve, ubase.disc, ⟨.surface s1, by show ((twinMkt c.blank v s true).vols.put "A" (.surface s1)) "A" = _; exact put_self _ _ _, ?_⟩, ubase.date⟩
      obtain ⟨s2, env', fs, g0, g1, -, -, g4⟩ := hM.vols "A" (.surface s) rfl
      obtain rfl := Vol.surface.inj g0
      rw [h1] at g1
      obtain rfl := Except.ok.inj g1
      have g5 : Forwards env (builtAt env s1) s1.dates fs := by
        have e1 : s1.dates = s.dates := by rw [h4]
        have e2 : builtAt env s1 = builtAt env s := by rw [h4]; rfl
        rw [e1, e2]
        exact g4
      obtain ⟨s3, b1, -, b3⟩ := C74_value env s1 h2 fs g5
      rw [h3] at b1
      obtain rfl := Except.ok.inj b1
      exact fun t x => (b3 t x).1
    · rintro u win m ⟨k, w, w', f, h0, h1, h2, h3, h4, h5, h6, rfl⟩
      have hk : k = 0 := by
        obtain ⟨-, e⟩ := (Option.ite_none_right_eq_some).1 h0
        exact (Option.some.inj e).symm
      subst hk
      obtain ⟨rfl, rfl⟩ := Prod.mk.inj (Option.some.inj h1)
      refine ⟨⟨{ value := 100, at_ := day0 2021 1 1, div := some 0 }, w', rfl, by norm_num, rfl, ?_⟩, ubase.curve, ubase.disc, ubase.vol, ubase.date⟩
      refine hdiv _ w' w' (Or.inl rfl) (h2.trans hvd) ?_ h6
      rw [h5, List.length_map, h4, List.length_zipWith, ← hgd.len, hvd]
      rfl
    · rintro b i d w hb' hi - hd hw
      have hbe : b = day0 2021 1 2 := by
        have := hb'.symm.trans hb
        exact Except.ok.inj this
      subst hbe
      have hde : d = day0 2021 1 2 := by
        rcases hd with ⟨-, rfl⟩ | ⟨⟨m, hm, hle⟩, -⟩
        · rfl
        · have := hlate i hi m hm
          omega
      subst hde
      unfold World.setDate at hw
      obtain ⟨ps, hps, hw⟩ := (bind_ok_iff _ _ _).1 hw
      obtain ⟨dv, hdv, hw⟩ := (bind_ok_iff _ _ _).1 hw
      obtain rfl := Except.ok.inj hw
      obtain ⟨a1, a2⟩ := (mapRes_iff _ _ _).1 hps
      obtain ⟨b1, b2⟩ := (mapRes_iff _ _ _).1 hdv
      have ha : ps.length = 1 := a1
      have hb1 : dv.length = 1 := b1
      have hx := a2 0 { value := 100, at_ := day0 2021 1 1, div := some 0 } (ps[0]'(by omega)) rfl (List.getElem?_eq_getElem (by omega))
      have hy := b2 0 (v, true) (dv[0]'(by omega)) rfl (List.getElem?_eq_getElem (by omega))
      rw [if_pos rfl] at hy
      obtain ⟨w', hw', hy⟩ := (bind_ok_iff _ _ _).1 hy
      have hy' := Except.ok.inj hy
      have hpv : ps[0]'(by omega) = { value := 100, at_ := day0 2021 1 2, div := some 0 } := by
        unfold Price.update at hx
        simp only [twinMkt, demoMarket, List.map_cons, List.getElem?_cons_zero] at hx
        rw [if_pos (by decide +kernel)] at hx
        rw [← Except.ok.inj hx, hvp]
        congr 1
      refine ⟨⟨{ value := 100, at_ := day0 2021 1 2, div := some 0 }, w', ?_, by norm_num, ?_, hdiv _ v w' (Or.inr rfl) hvd hvy hw'⟩, ubase.curve, ubase.disc, ubase.vol, Or.inr rfl⟩
      · show (ps[0]?).map (fun p => (0, p)) = _
        rw [List.getElem?_eq_getElem (by omega), hpv]
        rfl
      · show (dv[0]?).map Prod.fst = _
        rw [List.getElem?_eq_getElem (by omega), ← hy']
        rfl
    · rintro m ⟨h1, h2, -, h4⟩
      obtain ⟨w, hw⟩ := h4 "A" ⟨_, rfl⟩
      rw [h1] at hw ⊢
      rw [h1] at h2
      exact ⟨ubase.price, ubase.curve, ubase.disc, ⟨w, hw, goodVols_value _ h2 "A" w hw⟩, ubase.date⟩
  have hP : CanPriceIn (strikesOf L) (twinMkt c.blank v s true) FundedUsable := by
    intro i hi
    have of : ∀ (pl : Plan) (t : Terms), (strikesOf L).pricers i.code = some (pl.pricer .checked twinFixed t) → (∀ m, FundedUsable m → ∃ x, pl.npv .checked twinFixed t m = .ok x) →
        (∀ x, pl.npv .checked twinFixed t (twinMkt c.blank v s true) = .ok x → pl.result .checked twinFixed t (twinMkt c.blank v s true) = .ok (NpvResult.ofNpv x)) →
        (∀ x, ∃ f, pl.exposure .checked twinFixed t i (twinMkt c.blank v s true) x = .ok f) →
        ∃ p v' fl, (strikesOf L).pricers i.code = some p ∧ (∀ m, FundedUsable m → ∃ x, p.npv i m = .ok x) ∧ p.result i (twinMkt c.blank v s true) = .ok v' ∧ v'.expected = .ok fl ∧
          ∃ f, p.exposure i (twinMkt c.blank v s true) v'.npv = .ok f := by
      intro pl t h1 h2 h3 h4
      obtain ⟨x, hx⟩ := h2 _ ubase
      exact ⟨_, NpvResult.ofNpv x, [], h1, h2, h3 x hx, rfl, h4 _⟩
    have hi' : i ∈ strikesInsts := hL i hi
    simp only [strikesInsts, List.mem_cons, List.not_mem_nil, or_false] at hi'
    rcases hi' with rfl | rfl | rfl | rfl | rfl | rfl
    · refine of fundedPlan _ rfl (fun m hm => strike_option m hm true 40 (by norm_num) (by norm_num)) (fun x hx => ?_) (fun x => ⟨_, rfl⟩)
      unfold Plan.result
      dsimp only [fundedPlan]
      rw [show Plan.npv .checked twinFixed (.option "A" "A" "D" "C" "C" none) (.option (strikeOption 40 true)) (twinMkt c.blank v s true) = .ok x from hx]
      rfl
    · refine of fundedPlan _ rfl (fun m hm => strike_option m hm true 50 (by norm_num) (by norm_num)) (fun x hx => ?_) (fun x => ⟨_, rfl⟩)
      unfold Plan.result
      dsimp only [fundedPlan]
      rw [show Plan.npv .checked twinFixed (.option "A" "A" "D" "C" "C" none) (.option (strikeOption 50 true)) (twinMkt c.blank v s true) = .ok x from hx]
      rfl
    · refine of fundedPlan _ rfl (fun m hm => strike_option m hm true 58 (by norm_num) (by norm_num)) (fun x hx => ?_) (fun x => ⟨_, rfl⟩)
      unfold Plan.result
      dsimp only [fundedPlan]
      rw [show Plan.npv .checked twinFixed (.option "A" "A" "D" "C" "C" none) (.option (strikeOption 58 true)) (twinMkt c.blank v s true) = .ok x from hx]
      rfl
    · refine of fundedPlan _ rfl (fun m hm => strike_option m hm false 40 (by norm_num) (by norm_num)) (fun x hx => ?_) (fun x => ⟨_, rfl⟩)
      unfold Plan.result
      dsimp only [fundedPlan]
      rw [show Plan.npv .checked twinFixed (.option "A" "A" "D" "C" "C" none) (.option (strikeOption 40 false)) (twinMkt c.blank v s true) = .ok x from hx]
      rfl
    · refine of fundedPlan _ rfl (fun m hm => strike_option m hm false 50 (by norm_num) (by norm_num)) (fun x hx => ?_) (fun x => ⟨_, rfl⟩)
      unfold Plan.result
      dsimp only [fundedPlan]
      rw [show Plan.npv .checked twinFixed (.option "A" "A" "D" "C" "C" none) (.option (strikeOption 50 false)) (twinMkt c.blank v s true) = .ok x from hx]
      rfl
    · refine of fundedPlan _ rfl (fun m hm => strike_option m hm false 58 (by norm_num) (by norm_num)) (fun x hx => ?_) (fun x => ⟨_, rfl⟩)
      unfold Plan.result
      dsimp only [fundedPlan]
      rw [show Plan.npv .checked twinFixed (.option "A" "A" "D" "C" "C" none) (.option (strikeOption 58 false)) (twinMkt c.blank v s true) = .ok x from hx]
      rfl
  exact ⟨hg, hz, hM, C97_succeeds_in (strikesOf L) hg ["A"] (by simp) _ _ hM hC FundedUsable hR hP rfl⟩

/-- All hypotheses of C188 are met by calls and puts with the strikes 40, 50 and 58. -/
theorem strikes_witness : (∃ M e', OwnCodes strikesEngine ∧ SoundMkt strikesEngine [day0 2021 7 1, day0 2022 1 1, day0 2023 1 1] M ∧ FlatVols M "A" 0.2 ∧
      calculate strikesEngine ["A"] { mkt := M, action := strikesInsts, results := freshResults strikesInsts fun _ => none } = .ok e') ∧
    (∀ call : Bool, ∃ i j k, StrikesOnly strikesEngine twinFixed { twinLoaded with curves := fun _ => true } true i j "A" (strikeOption 40 call) 50 ∧
      StrikesOnly strikesEngine twinFixed { twinLoaded with curves := fun _ => true } true i k "A" (strikeOption 40 call) 58 ∧ 0 ≤ i.notional) ∧
    (∃ i j i' j', Twins strikesEngine twinFixed { twinLoaded with curves := fun _ => true } true i j "A" (strikeOption 40 true) ∧
      Twins strikesEngine twinFixed { twinLoaded with curves := fun _ => true } true i' j' "A" { strikeOption 40 true with strike := 58 } ∧
      i.kind = i'.kind ∧ i.ccy = i'.ccy ∧ i.notional = i'.notional) ∧ OneZone strikesEngine ∧
    strikesEngine.conf.npv = true ∧ strikesEngine.conf.delta = true ∧ 0 < strikesEngine.conf.deltaRatio := by
  refine ⟨?_, fun call => ?_, ?_, ?_, rfl, rfl, by simp [strikesEngine, demoConf]; norm_num⟩
  · obtain ⟨c, v, s, hvs, hvn, h⟩ := strikes_markets [[0.2, 0.2, 0.2], [0.2, 0.2, 0.2], [0.2, 0.2, 0.2]] rfl (by simp)
    obtain ⟨hg, -, hM, e', he⟩ := h strikesInsts (fun _ h => h) (by simp [strikesInsts])
    refine ⟨_, e', hg, hM, fun z hz r hr v hvr => ?_, he⟩
    obtain rfl : s = z := Vol.surface.inj (Option.some.inj hz)
    rw [hvs] at hr
    simp only [List.mem_cons, List.not_mem_nil, or_false, or_self] at hr
    subst hr
    simp only [List.mem_cons, List.not_mem_nil, or_false, or_self] at hvr
    exact hvr
  · cases call
    · exact ⟨⟨"P1", .option false "A" .krw false, .krw, 10, day0 2022 1 1, 0⟩, ⟨"P2", .option false "A" .krw false, .krw, 10, day0 2022 1 1, 0⟩,
        ⟨"P3", .option false "A" .krw false, .krw, 10, day0 2022 1 1, 0⟩,
        ⟨⟨by simp [strikesEngine, strikesInsts], by simp [strikesEngine, strikesInsts]⟩, ⟨_, _, rfl, rfl⟩, ⟨rfl, rfl⟩, ⟨_, rfl, rfl⟩, ⟨_, rfl, rfl⟩⟩,
        ⟨⟨by simp [strikesEngine, strikesInsts], by simp [strikesEngine, strikesInsts]⟩, ⟨_, _, rfl, rfl⟩, ⟨rfl, rfl⟩, ⟨_, rfl, rfl⟩, ⟨_, rfl, rfl⟩⟩, by norm_num⟩
    · exact ⟨⟨"C1", .option true "A" .krw false, .krw, 10, day0 2022 1 1, 0⟩, ⟨"C2", .option true "A" .krw false, .krw, 10, day0 2022 1 1, 0⟩,
        ⟨"C3", .option true "A" .krw false, .krw, 10, day0 2022 1 1, 0⟩,
        ⟨⟨by simp [strikesEngine, strikesInsts], by simp [strikesEngine, strikesInsts]⟩, ⟨_, _, rfl, rfl⟩, ⟨rfl, rfl⟩, ⟨_, rfl, rfl⟩, ⟨_, rfl, rfl⟩⟩,
        ⟨⟨by simp [strikesEngine, strikesInsts], by simp [strikesEngine, strikesInsts]⟩, ⟨_, _, rfl, rfl⟩, ⟨rfl, rfl⟩, ⟨_, rfl, rfl⟩, ⟨_, rfl, rfl⟩⟩, by norm_num⟩
  · exact ⟨⟨"C1", .option true "A" .krw false, .krw, 10, day0 2022 1 1, 0⟩, ⟨"P1", .option false "A" .krw false, .krw, 10, day0 2022 1 1, 0⟩,
      ⟨"C3", .option true "A" .krw false, .krw, 10, day0 2022 1 1, 0⟩, ⟨"P3", .option false "A" .krw false, .krw, 10, day0 2022 1 1, 0⟩,
      ⟨⟨by simp [strikesEngine, strikesInsts], by simp [strikesEngine, strikesInsts]⟩, ⟨_, _, rfl, rfl⟩, ⟨rfl, rfl, rfl⟩, ⟨_, rfl, rfl⟩, ⟨_, rfl, rfl⟩⟩,
      ⟨⟨by simp [strikesEngine, strikesInsts], by simp [strikesEngine, strikesInsts]⟩, ⟨_, _, rfl, rfl⟩, ⟨rfl, rfl, rfl⟩, ⟨_, rfl, rfl⟩, ⟨_, rfl, rfl⟩⟩, rfl, rfl, rfl⟩
  · obtain ⟨c, v, s, hvs, hvn, h⟩ := strikes_markets [[0.2, 0.2, 0.2], [0.2, 0.2, 0.2], [0.2, 0.2, 0.2]] rfl (by simp)
    exact (h strikesInsts (fun _ h => h) (by simp [strikesInsts])).2.1

end Verif.Props

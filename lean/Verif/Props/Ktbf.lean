import Verif.QL.Ktbf
import Verif.Props.Yields
import Verif.Props.Surface
import Mathlib.Topology.Order.IntermediateValue
import Mathlib.Analysis.SpecialFunctions.Pow.Continuity
/-!
# C124, C125: the yield of a bond and the price of a KTB future

The optimiser is a parameter. What is proved about the search: which yield it looks for (it exists and is the only one), and
that objective and slope lead to it. What is proved about the future: its price for any optimiser, and that every exact
optimiser gives the same price.
-/
set_option autoImplicit false
set_option linter.unusedSectionVars false
namespace Verif.Props
open Verif Verif.QL Verif.Civil

/-- Specification: the bond owes the amounts `m` after its pricing day, nothing owed is negative, something is positive, it
was issued by then, and the number of periods between two payments is not negative (see `C71_forwards`). -/
structure Owes (md : Mode) (eval : DT) (mk : Market) (b : ListedBond) (m : Flows) : Prop where
  frequency : b.freq ≠ .none
  issued : b.issue.day ≤ (b.bond.pricing.getD eval).day
  flows : b.bond.flows md mk (b.bond.pricing.getD eval) = .ok m
  nonneg : ∀ x ∈ m, (b.bond.pricing.getD eval).day < x.1.day → 0 ≤ x.2
  something : ∃ x ∈ m, (b.bond.pricing.getD eval).day < x.1.day ∧ 0 < x.2
  forwards : ∀ x ∈ m, ∀ y ∈ m, (b.bond.pricing.getD eval).day < x.1.day → (b.bond.pricing.getD eval).day < y.1.day →
    x.1.instant ≤ y.1.instant → ∃ q, frac x.1 y.1 .streetConvention = .ok q ∧ 0 ≤ q

/-- The price as a formula. -/
theorem price_form {md : Mode} {eval : DT} {mk : Market} {b : ListedBond} {m : Flows} (h : Owes md eval mk b m) :
    ∃ first w, 0 < w ∧ w ≤ 1 ∧
      (∀ x ∈ m, (b.bond.pricing.getD eval).day < x.1.day → 0 ≤ valOf (frac first x.1 .streetConvention) * (b.freq.perYear : ℝ)) ∧
      ∀ y, -(b.freq.perYear : ℝ) < y → 0 < 1 + y / b.freq.perYear * w ∧ b.price md eval mk y =
        .ok (yieldSum (b.bond.pricing.getD eval) first (y / b.freq.perYear) b.freq.perYear m / (1 + y / b.freq.perYear * w)) := by
  obtain ⟨hf, hissue, hm, hpos, hex, hfw⟩ := h
  have hf1 := perYear_pos b.freq hf
  have hn := nextPayment_of b.bond (b.bond.pricing.getD eval) m
  have hp := previousPayment_of b.bond b.issue (b.bond.pricing.getD eval)
  obtain ⟨x0, hx0, hx0d, -⟩ := hex
  obtain ⟨xf, hxf, hfe, hfd, hmin⟩ : ∃ x ∈ m, x.1 = (nextFlow (b.bond.pricing.getD eval) m).getD b.bond.maturity ∧
      (b.bond.pricing.getD eval).day < ((nextFlow (b.bond.pricing.getD eval) m).getD b.bond.maturity).day ∧
      ∀ y ∈ m, (b.bond.pricing.getD eval).day < y.1.day →
        ((nextFlow (b.bond.pricing.getD eval) m).getD b.bond.maturity).instant ≤ y.1.instant := by
    rcases hn with ⟨q, -⟩ | q
    · exact absurd (q x0 hx0) (by omega)
    · exact q
  have hprev : ((lastPaid (b.bond.pricing.getD eval) (b.bond.schedule.map fun c => c.1.payment)).getD b.issue).day
      ≤ (b.bond.pricing.getD eval).day := by
    rcases hp with ⟨-, q⟩ | ⟨c, -, -, q, -⟩
    · rw [q]; exact hissue
    · exact q
  refine ⟨(nextFlow (b.bond.pricing.getD eval) m).getD b.bond.maturity,
    ((((nextFlow (b.bond.pricing.getD eval) m).getD b.bond.maturity).day - (b.bond.pricing.getD eval).day : Int) : ℝ) /
      ((((nextFlow (b.bond.pricing.getD eval) m).getD b.bond.maturity).day -
        ((lastPaid (b.bond.pricing.getD eval) (b.bond.schedule.map fun c => c.1.payment)).getD b.issue).day : Int) : ℝ), ?_, ?_, ?_, fun y hy => ?_⟩
  · apply div_pos <;> exact_mod_cast (by omega)
  · have : (0 : ℝ) < ((((nextFlow (b.bond.pricing.getD eval) m).getD b.bond.maturity).day -
        ((lastPaid (b.bond.pricing.getD eval) (b.bond.schedule.map fun c => c.1.payment)).getD b.issue).day : Int) : ℝ) := by
      exact_mod_cast (by omega)
    rw [div_le_one this]
    exact_mod_cast (by omega)
  · intro x hx hd
    obtain ⟨q, hq, hq0⟩ := hfw xf hxf x hx (by rw [hfe]; exact hfd) hd (by rw [hfe]; exact hmin x hx hd)
    rw [hfe] at hq
    rw [hq]
    exact mul_nonneg hq0 hf1.le
  · have hy1 : 0 < 1 + y / b.freq.perYear := by
      have : -1 < y / b.freq.perYear := by rw [lt_div_iff₀ hf1]; linarith
      linarith
    have hden : (((((nextFlow (b.bond.pricing.getD eval) m).getD b.bond.maturity).day -
        ((lastPaid (b.bond.pricing.getD eval) (b.bond.schedule.map fun c => c.1.payment)).getD b.issue).day : Int) : ℝ)) ≠ 0 := by
      exact_mod_cast (by omega)
    have hw0 : (0 : ℝ) < ((((nextFlow (b.bond.pricing.getD eval) m).getD b.bond.maturity).day - (b.bond.pricing.getD eval).day : Int) : ℝ) /
      ((((nextFlow (b.bond.pricing.getD eval) m).getD b.bond.maturity).day -
        ((lastPaid (b.bond.pricing.getD eval) (b.bond.schedule.map fun c => c.1.payment)).getD b.issue).day : Int) : ℝ) := by
      apply div_pos <;> exact_mod_cast (by omega)
    have hw1 : ((((nextFlow (b.bond.pricing.getD eval) m).getD b.bond.maturity).day - (b.bond.pricing.getD eval).day : Int) : ℝ) /
      ((((nextFlow (b.bond.pricing.getD eval) m).getD b.bond.maturity).day -
        ((lastPaid (b.bond.pricing.getD eval) (b.bond.schedule.map fun c => c.1.payment)).getD b.issue).day : Int) : ℝ) ≤ 1 := by
      have : (0 : ℝ) < ((((nextFlow (b.bond.pricing.getD eval) m).getD b.bond.maturity).day -
        ((lastPaid (b.bond.pricing.getD eval) (b.bond.schedule.map fun c => c.1.payment)).getD b.issue).day : Int) : ℝ) := by
        exact_mod_cast (by omega)
      rw [div_le_one this]
      exact_mod_cast (by omega)
    have hd1 : 0 < 1 + y / b.freq.perYear * (((((nextFlow (b.bond.pricing.getD eval) m).getD b.bond.maturity).day - (b.bond.pricing.getD eval).day : Int) : ℝ) /
      ((((nextFlow (b.bond.pricing.getD eval) m).getD b.bond.maturity).day -
        ((lastPaid (b.bond.pricing.getD eval) (b.bond.schedule.map fun c => c.1.payment)).getD b.issue).day : Int) : ℝ)) := by
      nlinarith
    refine ⟨hd1, ?_⟩
    have hloop := (krxLoop_iff (b.bond.pricing.getD eval) ((nextFlow (b.bond.pricing.getD eval) m).getD b.bond.maturity)
      (y / b.freq.perYear) b.freq.perYear hy1 m 0 _).2 ⟨fun x hx hd => by
        obtain ⟨q, hq, -⟩ := hfw xf hxf x hx (by rw [hfe]; exact hfd) hd (by rw [hfe]; exact hmin x hx hd)
        rw [hfe] at hq
        exact ⟨q, hq⟩, rfl⟩
    unfold ListedBond.price krxNpv
    dsimp only
    simp only [divK, if_neg hf1.ne', Res.bind_ok, hm, hloop, if_neg hden, if_neg hd1.ne', zero_add]

/-- The sum of the discounted payments is positive, falls with the rate and depends continuously on it. -/
theorem yieldSum_facts (pr first : DT) (f : ℝ) (m : Flows) (hnn : ∀ x ∈ m, pr.day < x.1.day → 0 ≤ x.2)
    (hex : ∃ x ∈ m, pr.day < x.1.day ∧ 0 < x.2)
    (hexp : ∀ x ∈ m, pr.day < x.1.day → 0 ≤ valOf (frac first x.1 .streetConvention) * f) :
    (∀ e, -1 < e → 0 < yieldSum pr first e f m) ∧
    (∀ e1 e2, -1 < e1 → e1 ≤ e2 → yieldSum pr first e2 f m ≤ yieldSum pr first e1 f m) ∧
    ContinuousOn (fun e => yieldSum pr first e f m) (Set.Ioi (-1)) := by
  refine ⟨fun e he => ?_, fun e1 e2 he h12 => ?_, ?_⟩
  · obtain ⟨x0, hx0, hd0, hp0⟩ := hex
    unfold yieldSum
    have hpw : ∀ z : ℝ, 0 < (1 + e) ^ z := fun z => Real.rpow_pos_of_pos (by linarith) _
    have hall : ∀ z ∈ m.map (fun x => if pr.day < x.1.day then x.2 / (1 + e) ^ (valOf (frac first x.1 .streetConvention) * f) else 0), 0 ≤ z := by
      intro z hz
      obtain ⟨x, hx, rfl⟩ := List.mem_map.1 hz
      by_cases hd : pr.day < x.1.day
      · simp only [if_pos hd]
        exact div_nonneg (hnn x hx hd) (hpw _).le
      · simp only [if_neg hd]; exact le_refl _
    have := List.single_le_sum hall _ (List.mem_map.2 ⟨x0, hx0, rfl⟩)
    simp only [if_pos hd0] at this
    exact lt_of_lt_of_le (div_pos hp0 (hpw _)) this
  · unfold yieldSum
    apply List.sum_le_sum
    intro x hx
    by_cases hd : pr.day < x.1.day
    · rw [if_pos hd, if_pos hd]
      apply div_le_div_of_nonneg_left (hnn x hx hd) (Real.rpow_pos_of_pos (by linarith) _)
      exact Real.rpow_le_rpow (by linarith) (by linarith) (hexp x hx hd)
    · rw [if_neg hd, if_neg hd]
  · clear hnn hex hexp
    unfold yieldSum
    induction m with
    | nil => simpa using continuousOn_const
    | cons x m ih =>
      simp only [List.map_cons, List.sum_cons]
      refine ContinuousOn.add ?_ ih
      by_cases hd : pr.day < x.1.day
      · simp only [if_pos hd]
        apply ContinuousOn.div continuousOn_const
        · apply ContinuousOn.rpow_const (by fun_prop)
          intro e he
          left
          have : (-1 : ℝ) < e := he
          intro h0
          linarith
        · intro e he
          have : (-1 : ℝ) < e := he
          exact (Real.rpow_pos_of_pos (by linarith) _).ne'
      · simp only [if_neg hd]
        exact continuousOn_const

/-- What the price does as a function of the yield. -/
theorem price_facts {md : Mode} {eval : DT} {mk : Market} {b : ListedBond} {m : Flows} (h : Owes md eval mk b m) :
    ∃ P : ℝ → ℝ, (∀ y, -(b.freq.perYear : ℝ) < y → b.price md eval mk y = .ok (P y) ∧ 0 < P y) ∧
      (∀ y1 y2, -(b.freq.perYear : ℝ) < y1 → y1 < y2 → P y2 < P y1) ∧
      ContinuousOn P (Set.Ioi (-(b.freq.perYear : ℝ))) ∧
      ∀ y0 t, -(b.freq.perYear : ℝ) < y0 → 0 < t → ∃ y, y0 ≤ y ∧ P y ≤ t := by
  have hf1 := perYear_pos b.freq h.frequency
  obtain ⟨first, w, hw0, hw1, hexp, hform⟩ := price_form h
  obtain ⟨s1, s2, s3⟩ := yieldSum_facts (b.bond.pricing.getD eval) first b.freq.perYear m h.nonneg h.something hexp
  have hgt : ∀ y, -(b.freq.perYear : ℝ) < y → -1 < y / (b.freq.perYear : ℝ) := fun y hy => by
    rw [lt_div_iff₀ hf1]; linarith
  refine ⟨fun y => yieldSum (b.bond.pricing.getD eval) first (y / b.freq.perYear) b.freq.perYear m / (1 + y / b.freq.perYear * w),
    fun y hy => ⟨(hform y hy).2, div_pos (s1 _ (hgt y hy)) (hform y hy).1⟩, fun y1 y2 hy h12 => ?_, ?_, fun y0 t hy0 ht => ?_⟩
  · have h12' : y1 / (b.freq.perYear : ℝ) < y2 / b.freq.perYear := (div_lt_div_iff_of_pos_right hf1).2 h12
    have d1 := (hform y1 hy).1
    have d2 := (hform y2 (by linarith)).1
    show _ / _ < _ / _
    calc _ ≤ yieldSum (b.bond.pricing.getD eval) first (y1 / b.freq.perYear) b.freq.perYear m / (1 + y2 / b.freq.perYear * w) :=
          div_le_div_of_nonneg_right (s2 _ _ (hgt y1 hy) h12'.le) d2.le
      _ < _ := div_lt_div_of_pos_left (s1 _ (hgt y1 hy)) d1 (by nlinarith)
  · apply ContinuousOn.div
    · apply s3.comp (f := fun y => y / (b.freq.perYear : ℝ)) (by fun_prop)
      intro y hy
      exact hgt y hy
    · fun_prop
    · intro y hy
      exact (hform y hy).1.ne'
  · set S := yieldSum (b.bond.pricing.getD eval) first (y0 / b.freq.perYear) b.freq.perYear m with hS
    have hS0 : 0 < S := s1 _ (hgt y0 hy0)
    refine ⟨max y0 (b.freq.perYear * (S / t / w)), le_max_left _ _, ?_⟩
    set y := max y0 (b.freq.perYear * (S / t / w)) with hy
    have hyy : -(b.freq.perYear : ℝ) < y := lt_of_lt_of_le hy0 (le_max_left _ _)
    have hd := (hform y hyy).1
    have h2 : S / t ≤ y / b.freq.perYear * w := by
      have : (b.freq.perYear : ℝ) * (S / t / w) ≤ y := le_max_right _ _
      calc S / t = (b.freq.perYear * (S / t / w)) / b.freq.perYear * w := by field_simp
        _ ≤ y / b.freq.perYear * w := by gcongr
    show _ / _ ≤ t
    rw [div_le_iff₀ hd]
    have h3 : yieldSum (b.bond.pricing.getD eval) first (y / b.freq.perYear) b.freq.perYear m ≤ S :=
      s2 _ _ (hgt y0 hy0) (by gcongr; exact le_max_left _ _)
    have h4 : S ≤ t * (y / b.freq.perYear * w) := by
      have := mul_le_mul_of_nonneg_left h2 ht.le
      rwa [mul_div_cancel₀ _ ht.ne'] at this
    nlinarith

/-- **C124** (the yield exists). Every price between nothing and the price at some yield belongs to exactly one yield above
-frequency. -/
theorem C124_yield_exists (md : Mode) (eval : DT) (mk : Market) (b : ListedBond) (m : Flows) (h : Owes md eval mk b m)
    (y0 v0 t : ℝ) (hy0 : -(b.freq.perYear : ℝ) < y0) (hv0 : b.price md eval mk y0 = .ok v0) (ht : 0 < t) (htv : t ≤ v0) :
    ∃ y, y0 ≤ y ∧ b.price md eval mk y = .ok t ∧
      ∀ y', -(b.freq.perYear : ℝ) < y' → b.price md eval mk y' = .ok t → y' = y := by
  obtain ⟨P, p1, p2, p3, p4⟩ := price_facts h
  have e0 : P y0 = v0 := Except.ok.inj ((p1 y0 hy0).1.symm.trans hv0)
  obtain ⟨y1, h01, hy1⟩ := p4 y0 t hy0 ht
  have hc : ContinuousOn P (Set.Icc y0 y1) := p3.mono fun x hx => lt_of_lt_of_le hy0 hx.1
  obtain ⟨y, hy, hPy⟩ := intermediate_value_Icc' h01 hc ⟨hy1, e0 ▸ htv⟩
  have hyf : -(b.freq.perYear : ℝ) < y := lt_of_lt_of_le hy0 hy.1
  refine ⟨y, hy.1, by rw [(p1 y hyf).1, hPy], fun y' hy' e => ?_⟩
  have e' : P y' = t := Except.ok.inj ((p1 y' hy').1.symm.trans e)
  rcases lt_trichotomy y' y with q | q | q
  · have := p2 y' y hy' q; linarith
  · exact q
  · have := p2 y y' hyf q; linarith

/-- **C124** (the objective). The objective is never negative; it is zero exactly at the yields whose price is the target. -/
theorem C124_objective (md : Mode) (eval : DT) (mk : Market) (b : ListedBond) (t y : ℝ) :
    (∀ c, b.cost md eval mk t y = .ok c → 0 ≤ c) ∧ (b.cost md eval mk t y = .ok 0 ↔ b.price md eval mk y = .ok t) := by
  unfold ListedBond.cost
  cases hp : b.price md eval mk y with
  | error e => simp [Res.bind_error]
  | ok v =>
    simp only [Res.bind_ok]
    refine ⟨fun c hc => ?_, ⟨fun q => ?_, fun q => ?_⟩⟩
    · rw [← Except.ok.inj hc]; positivity
    · have := pow_eq_zero_iff (two_ne_zero) |>.1 (Except.ok.inj q)
      rw [show v = t by linarith]
    · rw [Except.ok.inj q]; simp

/-- **C124** (downhill). Around the yield `y` that has the target price the objective falls up to `y` and rises after it. -/
theorem C124_downhill (md : Mode) (eval : DT) (mk : Market) (b : ListedBond) (m : Flows) (h : Owes md eval mk b m)
    (t y y1 y2 c1 c2 : ℝ) (hy1 : -(b.freq.perYear : ℝ) < y1) (h12 : y1 < y2) (hy : b.price md eval mk y = .ok t)
    (hyf : -(b.freq.perYear : ℝ) < y) (e1 : b.cost md eval mk t y1 = .ok c1) (e2 : b.cost md eval mk t y2 = .ok c2) :
    (y2 ≤ y → c2 < c1) ∧ (y ≤ y1 → c1 < c2) := by
  obtain ⟨P, p1, p2, -, -⟩ := price_facts h
  have ey : P y = t := Except.ok.inj ((p1 y hyf).1.symm.trans hy)
  have a1 : c1 = (P y1 - t) ^ 2 := by
    unfold ListedBond.cost at e1
    rw [(p1 y1 hy1).1, Res.bind_ok] at e1
    exact (Except.ok.inj e1).symm
  have a2 : c2 = (P y2 - t) ^ 2 := by
    unfold ListedBond.cost at e2
    rw [(p1 y2 (by linarith)).1, Res.bind_ok] at e2
    exact (Except.ok.inj e2).symm
  have d12 := p2 y1 y2 hy1 h12
  refine ⟨fun q => ?_, fun q => ?_⟩
  · have : t ≤ P y2 := by
      rcases eq_or_lt_of_le q with r | r
      · rw [r, ey]
      · have := p2 y2 y (by linarith) r; linarith
    rw [a1, a2]; nlinarith
  · have : P y1 ≤ t := by
      rcases eq_or_lt_of_le q with r | r
      · rw [← r, ey]
      · have := p2 y y1 hyf r; linarith
    rw [a1, a2]; nlinarith

theorem yieldStep_pos : 0 < yieldStep := by unfold yieldStep; norm_num

/-- **C124** (slope). The slope is defined more than 0.00005 above -frequency; it points downhill more than 0.00005 away from the
yield that has the target price, so where it is zero that yield is less than 0.00005 away. -/
theorem C124_slope (md : Mode) (eval : DT) (mk : Market) (b : ListedBond) (m : Flows) (h : Owes md eval mk b m) (t y x : ℝ)
    (hy : b.price md eval mk y = .ok t) (hyf : -(b.freq.perYear : ℝ) < y) (hx : -(b.freq.perYear : ℝ) < x - 0.00005) :
    ∃ g, b.slope md eval mk t x = .ok g ∧ (x ≤ y - 0.00005 → g < 0) ∧ (y + 0.00005 ≤ x → 0 < g) ∧ (g = 0 → |x - y| < 0.00005) := by
  obtain ⟨P, p1, p2, -, -⟩ := price_facts h
  have hs : yieldStep = 0.00005 := by unfold yieldStep; norm_num
  have hpos : (0 : ℝ) < 2 * 0.00005 := by norm_num
  have cu : b.cost md eval mk t (x + yieldStep) = .ok ((P (x + yieldStep) - t) ^ 2) := by
    unfold ListedBond.cost
    rw [(p1 _ (by rw [hs]; linarith)).1, Res.bind_ok]
  have cd : b.cost md eval mk t (x - yieldStep) = .ok ((P (x - yieldStep) - t) ^ 2) := by
    unfold ListedBond.cost
    rw [(p1 _ (by rw [hs]; linarith)).1, Res.bind_ok]
  have hg : b.slope md eval mk t x = .ok (((P (x + yieldStep) - t) ^ 2 - (P (x - yieldStep) - t) ^ 2) / (2 * yieldStep)) := by
    unfold ListedBond.slope
    rw [cu, Res.bind_ok, cd, Res.bind_ok]
    unfold divK
    rw [if_neg (by rw [hs]; norm_num)]
  have dn := (C124_downhill md eval mk b m h t y (x - yieldStep) (x + yieldStep) _ _ (by rw [hs]; linarith)
    (by rw [hs]; linarith) hy hyf cd cu)
  rw [hs] at dn hg
  have l1 : x ≤ y - 0.00005 → ((P (x + 0.00005) - t) ^ 2 - (P (x - 0.00005) - t) ^ 2) / (2 * 0.00005) < 0 := fun q =>
    div_neg_of_neg_of_pos (by linarith [dn.1 (by linarith)]) hpos
  have l2 : y + 0.00005 ≤ x → 0 < ((P (x + 0.00005) - t) ^ 2 - (P (x - 0.00005) - t) ^ 2) / (2 * 0.00005) := fun q =>
    div_pos (by linarith [dn.2 (by linarith)]) hpos
  refine ⟨_, hg, l1, l2, fun q => ?_⟩
  rw [abs_lt]
  constructor
  · by_contra hc
    have := l1 (by linarith)
    linarith
  · by_contra hc
    have := l2 (by linarith)
    linarith

/-- **C124** (no interest). At a yield of zero the price is the sum of what is owed. -/
theorem C124_at_zero (md : Mode) (eval : DT) (mk : Market) (b : ListedBond) (m : Flows) (h : Owes md eval mk b m) :
    b.price md eval mk 0 = .ok (m.map fun x => if (b.bond.pricing.getD eval).day < x.1.day then x.2 else 0).sum := by
  obtain ⟨first, w, -, -, -, hform⟩ := price_form h
  have hf1 := perYear_pos b.freq h.frequency
  rw [(hform 0 (by linarith)).2]
  refine congrArg Except.ok ?_
  simp [yieldSum]

/-- **C124** (values below what is owed). A value that is positive and not above the sum of what is owed has exactly one
yield above -frequency, and it is not negative. -/
theorem C124_discounted_value (md : Mode) (eval : DT) (mk : Market) (b : ListedBond) (m : Flows) (h : Owes md eval mk b m) (t : ℝ)
    (ht : 0 < t) (hle : t ≤ (m.map fun x => if (b.bond.pricing.getD eval).day < x.1.day then x.2 else 0).sum) :
    ∃ y, 0 ≤ y ∧ b.price md eval mk y = .ok t ∧
      ∀ y', -(b.freq.perYear : ℝ) < y' → b.price md eval mk y' = .ok t → y' = y :=
  C124_yield_exists md eval mk b m h 0 _ t (by linarith [perYear_pos b.freq h.frequency]) (C124_at_zero md eval mk b m h) ht hle

/-- **C124** (the search). The answer is the optimiser's, run on this objective and this slope from the guess (2 % without a
guess); it fails if the optimiser has no best argument. -/
theorem C124_search (search : Search) (md : Mode) (eval : DT) (mk : Market) (b : ListedBond) (t : ℝ) (guess : Option ℝ) (y : ℝ) :
    (findYield search md eval mk b t guess = .ok y ↔
      search (b.cost md eval mk t) (b.slope md eval mk t) (guess.getD 0.02) = .ok (some y)) ∧
    (search (b.cost md eval mk t) (b.slope md eval mk t) (guess.getD 0.02) = .ok none →
      findYield search md eval mk b t guess = .error .err) := by
  unfold findYield
  generalize search (b.cost md eval mk t) (b.slope md eval mk t) (guess.getD 0.02) = r
  cases r with
  | error e => simp [Res.bind_error]
  | ok r => cases r <;> simp [Res.bind_ok]

/-! ### C125 -/

/-- **C125** (construction). A future is accepted exactly if every bond of its basket is priced at its maturity. -/
theorem C125_accepts (k : Ktbf) :
    (k.new = .ok k ↔ ∀ b ∈ k.bonds, ∃ p, b.bond.pricing = some p ∧ p.instant = k.maturity.instant) ∧
    (k.new = .ok k ∨ k.new = .error .err) := by
  have one : ∀ b, Ktbf.checkBond k.maturity b = .ok () ∧ (∃ p, b.bond.pricing = some p ∧ p.instant = k.maturity.instant) ∨
      Ktbf.checkBond k.maturity b = .error .err ∧ ¬ ∃ p, b.bond.pricing = some p ∧ p.instant = k.maturity.instant := by
    intro b
    unfold Ktbf.checkBond
    cases hp : b.bond.pricing with
    | none => right; simp
    | some p =>
      dsimp only
      by_cases hi : p.instant = k.maturity.instant
      · left; rw [if_pos hi]; exact ⟨rfl, p, rfl, hi⟩
      · right
        rw [if_neg hi]
        refine ⟨rfl, ?_⟩
        rintro ⟨p', e, hp'⟩
        cases e
        exact hi hp'
  have all : ∀ l : List ListedBond,
      (mapRes (Ktbf.checkBond k.maturity) l = .ok (l.map fun _ => ()) ∧ ∀ b ∈ l, ∃ p, b.bond.pricing = some p ∧ p.instant = k.maturity.instant) ∨
      (mapRes (Ktbf.checkBond k.maturity) l = .error .err ∧ ¬ ∀ b ∈ l, ∃ p, b.bond.pricing = some p ∧ p.instant = k.maturity.instant) := by
    intro l
    induction l with
    | nil => left; exact ⟨rfl, by simp⟩
    | cons b l ih =>
      unfold mapRes
      rcases one b with ⟨q1, q2⟩ | ⟨q1, q2⟩
      · rcases ih with ⟨r1, r2⟩ | ⟨r1, r2⟩
        · left
          rw [q1, Res.bind_ok, r1, Res.bind_ok]
          refine ⟨rfl, fun x hx => ?_⟩
          rcases List.mem_cons.1 hx with e | e
          · rw [e]; exact q2
          · exact r2 x e
        · right
          rw [q1, Res.bind_ok, r1, Res.bind_error]
          exact ⟨rfl, fun q => r2 fun x hx => q x (List.mem_cons_of_mem _ hx)⟩
      · right
        rw [q1, Res.bind_error]
        exact ⟨rfl, fun q => q2 (q b (List.mem_cons_self ..))⟩
  unfold Ktbf.new
  rcases all k.bonds with ⟨r1, r2⟩ | ⟨r1, r2⟩
  · rw [r1, Res.bind_ok]
    exact ⟨⟨fun _ => r2, fun _ => rfl⟩, Or.inl rfl⟩
  · rw [r1, Res.bind_error]
    exact ⟨⟨fun q => (by cases q), fun q => absurd q r2⟩, Or.inr rfl⟩

/-- **C125** (value). For any optimiser: a yield is found for the value of every bond of the basket on the discount curve,
starting at the simple rate to the maturity of the first; the price is the virtual bond at the average of these yields, times
the discount factor of the borrowing curve to the maturity of the future. -/
theorem C125_value (search : Search) (md : Mode) (eval : DT) (disc borrow : Curve) (k : Ktbf) (v : ℝ) :
    k.npv search md eval disc borrow = .ok v ↔
      ∃ b0 rest guess ys p d, k.bonds = b0 :: rest ∧ disc.fwdFromEval eval b0.bond.maturity .simple = .ok guess ∧
        List.Forall₂ (fun b y => ∃ t, BondPricer.npv md { eval := eval, disc := disc, mkt := { fwd := none, close := none } } b.bond = .ok t ∧
          findYield search md eval { fwd := none, close := none } b t (some guess) = .ok y) k.bonds ys ∧
        ktbfNpv md k.years k.coupon k.freq k.notional (ys.sum / (k.bonds.length : ℝ)) = .ok p ∧
        borrow.dfAt eval k.maturity = .ok d ∧ v = p * d := by
  have hy : ∀ guess b y, Ktbf.bondYield search md eval disc guess b = .ok y ↔
      ∃ t, BondPricer.npv md { eval := eval, disc := disc, mkt := { fwd := none, close := none } } b.bond = .ok t ∧
          findYield search md eval { fwd := none, close := none } b t (some guess) = .ok y := by
    intro guess b y
    unfold Ktbf.bondYield
    rw [bind_ok_iff]
    rfl
  unfold Ktbf.npv Ktbf.firstBond
  simp only [bind_ok_iff]
  constructor
  · rintro ⟨b0, h0, guess, hg, ys, hys, avg, ha, p, hp, d, hd, hv⟩
    cases hb : k.bonds with
    | nil => rw [hb] at h0; cases h0
    | cons b rest =>
      rw [hb] at h0
      obtain rfl := Except.ok.inj h0
      have hfa := mapRes_forall₂ _ _ _ hys
      have hlen := hfa.length_eq
      rw [← hlen] at ha
      unfold divK at ha
      split at ha
      · cases ha
      · obtain rfl := Except.ok.inj ha
        rw [← hb]
        exact ⟨b, rest, guess, ys, p, d, hb, hg, hfa.imp fun a c q => (hy guess a c).1 q, hp, hd, (Except.ok.inj hv).symm⟩
  · rintro ⟨b0, rest, guess, ys, p, d, hb, hg, hfa, hp, hd, hv⟩
    have hlen := hfa.length_eq
    have hys : mapRes (Ktbf.bondYield search md eval disc guess) k.bonds = .ok ys := by
      rw [mapRes_iff]
      refine ⟨hlen.symm, fun i x y hx hyy => (hy guess x y).2 ?_⟩
      obtain ⟨-, q⟩ := List.forall₂_iff_get.1 hfa
      obtain ⟨i1, rfl⟩ := List.getElem?_eq_some_iff.1 hx
      obtain ⟨i2, rfl⟩ := List.getElem?_eq_some_iff.1 hyy
      exact q i i1 i2
    refine ⟨b0, by rw [hb], guess, hg, ys, hys, ys.sum / (ys.length : ℝ), ?_, p, by rw [← hlen]; exact hp, d, hd, by rw [hv]⟩
    unfold divK
    rw [if_neg]
    rw [← hlen, hb]
    simp only [List.length_cons]
    positivity

/-- A future on no bond at all is accepted, and its price panics. -/
theorem C125_empty (search : Search) (md : Mode) (eval : DT) (disc borrow : Curve) (k : Ktbf) (h : k.bonds = []) :
    k.new = .ok k ∧ k.npv search md eval disc borrow = .error .index := by
  refine ⟨(C125_accepts k).1.2 (by rw [h]; simp), ?_⟩
  unfold Ktbf.npv Ktbf.firstBond
  rw [h]
  rfl

/-- Specification: an optimiser that, whenever an argument at which the objective is zero exists above `lo`, returns one. -/
def ExactAbove (lo : ℝ) (search : Search) : Prop :=
  ∀ cost slope g y, search cost slope g = .ok (some y) → (∃ z, lo < z ∧ cost z = .ok 0) → lo < y ∧ cost y = .ok 0

/-- Specification: with this optimiser and this discount curve every bond of the basket has a yield for its value, and the
optimiser is exact. -/
def Solved (search : Search) (md : Mode) (eval : DT) (disc : Curve) (k : Ktbf) : Prop :=
  ∀ b ∈ k.bonds, (∃ m, Owes md eval { fwd := none, close := none } b m) ∧ ExactAbove (-(b.freq.perYear : ℝ)) search ∧
    ∀ t, BondPricer.npv md { eval := eval, disc := disc, mkt := { fwd := none, close := none } } b.bond = .ok t →
      ∃ y, -(b.freq.perYear : ℝ) < y ∧ b.price md eval { fwd := none, close := none } y = .ok t

/-- The yields found by an exact optimiser. -/
theorem solved_yield {search : Search} {md : Mode} {eval : DT} {disc : Curve} {k : Ktbf} (h : Solved search md eval disc k)
    {b : ListedBond} (hb : b ∈ k.bonds) {t y guess : ℝ}
    (ht : BondPricer.npv md { eval := eval, disc := disc, mkt := { fwd := none, close := none } } b.bond = .ok t)
    (hy : findYield search md eval { fwd := none, close := none } b t (some guess) = .ok y) :
    -(b.freq.perYear : ℝ) < y ∧ b.price md eval { fwd := none, close := none } y = .ok t := by
  obtain ⟨-, x1, hz⟩ := h b hb
  obtain ⟨z, hz1, hz2⟩ := hz t ht
  have hc := (C124_objective md eval { fwd := none, close := none } b t z).2.2 hz2
  obtain ⟨a1, a2⟩ := x1 _ _ _ _ ((C124_search search _ _ _ _ _ _ _).1.1 hy) ⟨z, hz1, hc⟩
  exact ⟨a1, (C124_objective _ _ _ _ _ _).2.1 a2⟩

/-- **C125** (determined). The price does not depend on how the yields are found: two exact optimisers give the same. -/
theorem C125_determined (s1 s2 : Search) (md : Mode) (eval : DT) (disc borrow : Curve) (k : Ktbf) (v1 v2 : ℝ)
    (q1 : Solved s1 md eval disc k) (q2 : Solved s2 md eval disc k)
    (h1 : k.npv s1 md eval disc borrow = .ok v1) (h2 : k.npv s2 md eval disc borrow = .ok v2) : v1 = v2 := by
  obtain ⟨b0, rest, guess, ys, p, d, e0, eg, hf, hp, hd, rfl⟩ := (C125_value s1 md eval disc borrow k v1).1 h1
  obtain ⟨b0', rest', guess', ys', p', d', e0', eg', hf', hp', hd', rfl⟩ := (C125_value s2 md eval disc borrow k v2).1 h2
  rw [hd] at hd'
  obtain rfl := Except.ok.inj hd'
  have hys : ys = ys' := by
    apply List.ext_getElem (by rw [← hf.length_eq, hf'.length_eq])
    intro i i1 i2
    have j : i < k.bonds.length := by rw [hf.length_eq]; exact i1
    obtain ⟨t, ht, hy⟩ := (List.forall₂_iff_get.1 hf).2 i j i1
    obtain ⟨t', ht', hy'⟩ := (List.forall₂_iff_get.1 hf').2 i j i2
    rw [ht] at ht'
    obtain rfl := Except.ok.inj ht'
    have hmem := List.get_mem k.bonds ⟨i, j⟩
    obtain ⟨a1, a2⟩ := solved_yield q1 hmem ht hy
    obtain ⟨b1, b2⟩ := solved_yield q2 hmem ht hy'
    obtain ⟨m, hm⟩ := (q1 _ hmem).1
    obtain ⟨P, p1, p2, -, -⟩ := price_facts hm
    have c1 := Except.ok.inj ((p1 _ a1).1.symm.trans a2)
    have c2 := Except.ok.inj ((p1 _ b1).1.symm.trans b2)
    show ys.get ⟨i, i1⟩ = ys'.get ⟨i, i2⟩
    rcases lt_trichotomy (ys.get ⟨i, i1⟩) (ys'.get ⟨i, i2⟩) with q | q | q
    · have := p2 _ _ a1 q; linarith
    · exact q
    · have := p2 _ _ b1 q; linarith
  rw [hys, hp'] at hp
  rw [Except.ok.inj hp]

/-- **C125** (direction). If every bond of the basket is worth less on a second discount curve, the future is worth less:
for exact optimisers, coupons that are not negative and bonds that pay as often as the virtual bond. -/
theorem C125_direction (s1 s2 : Search) (md : Mode) (eval : DT) (disc1 disc2 borrow : Curve) (k : Ktbf) (v1 v2 : ℝ)
    (q1 : Solved s1 md eval disc1 k) (q2 : Solved s2 md eval disc2 k) (hfreq : ∀ b ∈ k.bonds, b.freq = k.freq)
    (years : Nat) (hyr : k.years = years) (h0 : 0 < years) (hn : years * k.freq.perYear < 2 ^ 31) (hc : 0 ≤ k.coupon)
    (hnot : 0 < k.notional) (hd : ∀ d, borrow.dfAt eval k.maturity = .ok d → 0 < d)
    (hless : ∀ b ∈ k.bonds, ∀ t1 t2,
      BondPricer.npv md { eval := eval, disc := disc1, mkt := { fwd := none, close := none } } b.bond = .ok t1 →
      BondPricer.npv md { eval := eval, disc := disc2, mkt := { fwd := none, close := none } } b.bond = .ok t2 → t2 < t1)
    (h1 : k.npv s1 md eval disc1 borrow = .ok v1) (h2 : k.npv s2 md eval disc2 borrow = .ok v2) : v2 < v1 := by
  obtain ⟨b0, rest, guess, ys, p, d, e0, eg, hf, hp, hd1, rfl⟩ := (C125_value s1 md eval disc1 borrow k v1).1 h1
  obtain ⟨b0', rest', guess', ys', p', d', e0', eg', hf', hp', hd2, rfl⟩ := (C125_value s2 md eval disc2 borrow k v2).1 h2
  rw [hd1] at hd2
  obtain rfl := Except.ok.inj hd2
  have hb0 : b0 ∈ k.bonds := by rw [e0]; exact List.mem_cons_self ..
  have hfn : k.freq ≠ .none := by
    rw [← hfreq b0 hb0]
    obtain ⟨m, hm⟩ := (q1 b0 hb0).1
    exact hm.frequency
  have hlen : (0 : ℝ) < (k.bonds.length : ℝ) := by rw [e0, List.length_cons]; positivity
  have hall : List.Forall₂ (fun y y' => -(k.freq.perYear : ℝ) < y ∧ y < y') ys ys' := by
    refine List.forall₂_iff_get.2 ⟨by rw [← hf.length_eq, hf'.length_eq], fun i i1 i2 => ?_⟩
    have j : i < k.bonds.length := by rw [hf.length_eq]; exact i1
    obtain ⟨t, ht, hy⟩ := (List.forall₂_iff_get.1 hf).2 i j i1
    obtain ⟨t', ht', hy'⟩ := (List.forall₂_iff_get.1 hf').2 i j i2
    have hmem := List.get_mem k.bonds ⟨i, j⟩
    have hlt := hless _ hmem t t' ht ht'
    obtain ⟨a1, a2⟩ := solved_yield q1 hmem ht hy
    obtain ⟨b1, b2⟩ := solved_yield q2 hmem ht' hy'
    obtain ⟨m, hm⟩ := (q1 _ hmem).1
    obtain ⟨P, p1, p2, -, -⟩ := price_facts hm
    have c1 := Except.ok.inj ((p1 _ a1).1.symm.trans a2)
    have c2 := Except.ok.inj ((p1 _ b1).1.symm.trans b2)
    rw [hfreq _ hmem] at a1
    refine ⟨a1, ?_⟩
    rcases lt_trichotomy (ys.get ⟨i, i1⟩) (ys'.get ⟨i, i2⟩) with q | q | q
    · exact q
    · rw [q] at c1; linarith
    · have := p2 _ _ b1 q; linarith
  have hsum : ∀ l l' : List ℝ, List.Forall₂ (fun y y' => -(k.freq.perYear : ℝ) < y ∧ y < y') l l' → l ≠ [] →
      l.sum < l'.sum ∧ -(k.freq.perYear : ℝ) * (l.length : ℝ) < l.sum := by
    intro l l' h
    induction h with
    | nil => intro q; exact absurd rfl q
    | @cons a a' l l' hc t ih =>
      intro _
      rcases eq_or_ne l [] with q | q
      · subst q
        cases t
        simp only [List.sum_cons, List.sum_nil, List.length_cons, List.length_nil]
        constructor
        · linarith [hc.2]
        · push_cast; linarith [hc.1]
      · obtain ⟨r1, r2⟩ := ih q
        simp only [List.sum_cons, List.length_cons]
        constructor
        · linarith [hc.2]
        · push_cast; linarith [hc.1]
  have hne : ys ≠ [] := by
    intro q
    have := hf.length_eq
    rw [q, e0] at this
    simp at this
  obtain ⟨r1, r2⟩ := hsum ys ys' hall hne
  rw [← hf.length_eq] at r2
  rw [hyr] at hp hp'
  refine mul_lt_mul_of_pos_right (C70_decreasing md years k.coupon k.freq k.notional _ _ p p' hfn h0 hn hc hnot ?_ ?_ hp hp')
    (hd d hd1)
  · rw [lt_div_iff₀ hlen]; exact r2
  · exact (div_lt_div_iff_of_pos_right hlen).2 r1

/-! ### A concrete future -/

/-- A bond that pays 1 on 30 July 2022, priced on 15 June 2021 -/
noncomputable def basketBond : ListedBond :=
  { bond := { zeroBond (day0 2022 7 30) with pricing := some (day0 2021 6 15) }, freq := .semiAnnually, issue := day0 2021 1 1 }

/-- A three-year future on it, with maturity on 15 June 2021 -/
noncomputable def sampleFuture : Ktbf :=
  { maturity := day0 2021 6 15, bonds := [basketBond], years := 3, coupon := 0.05, freq := .semiAnnually, notional := 100 }

/-- The search that finds the exact yield above -2 if there is one. -/
noncomputable def exactSearch : Search := fun cost _ g =>
  open Classical in if h : ∃ y, -2 < y ∧ cost y = .ok 0 then .ok (some h.choose) else .ok (some g)

theorem exactSearch_exact : ExactAbove (-2) exactSearch := by
  intro cost slope g y h hz
  unfold exactSearch at h
  rw [dif_pos hz] at h
  obtain rfl := Option.some.inj (Except.ok.inj h)
  exact hz.choose_spec

theorem basketBond_flows (md : Mode) : basketBond.bond.flows md noMarket (day0 2021 6 15) = .ok [(day0 2022 7 30, 1)] := by
  unfold Bond.flows
  simp only [basketBond, zeroBond, flowLoop, Res.bind_ok, true_and, ge_iff_le]
  rw [if_pos (by decide +kernel)]
  rfl

theorem basketBond_owes (md : Mode) : Owes md (day0 2021 1 1) noMarket basketBond [(day0 2022 7 30, 1)] := by
  refine ⟨by decide, by decide +kernel, basketBond_flows md, ?_, ?_, ?_⟩
  · intro x hx _
    rw [List.mem_singleton.1 hx]; norm_num
  · exact ⟨_, List.mem_singleton.2 rfl, by decide +kernel, by norm_num⟩
  · intro x hx y hy _ _ _
    rw [List.mem_singleton.1 hx, List.mem_singleton.1 hy]
    refine ⟨0, ?_, le_refl _⟩
    unfold frac
    rw [show yearFraction (day0 2022 7 30) (day0 2022 7 30) .streetConvention = .ok 0 from by decide +kernel]
    simp

/-- On flat curves the future has a price, and with an exact search the yield of its bond exists: the hypotheses of C124 and
C125 are met. -/
theorem future_witness : ∃ c, Curve.new .checked (day0 2021 1 1) [1] [0.03] = .ok c ∧ sampleFuture.new = .ok sampleFuture ∧
    (∃ v, sampleFuture.npv exactSearch .checked (day0 2021 1 1) c c = .ok v) ∧
    Solved exactSearch .checked (day0 2021 1 1) c sampleFuture ∧
    (∀ t, BondPricer.npv .checked { eval := day0 2021 1 1, disc := c, mkt := noMarket } basketBond.bond = .ok t →
      ∃ y, 0 ≤ y ∧ basketBond.price .checked (day0 2021 1 1) noMarket y = .ok t) := by
  obtain ⟨c, e, ok, ⟨tl, htl, h99⟩, hdf⟩ := sample_curve 0.03
  have hv : (day0 2021 1 1).Valid := by refine ⟨?_, ?_, ?_⟩ <;> decide +kernel
  obtain ⟨c', ds, e', -, -, -, -, hr⟩ := C57_new .checked (day0 2021 1 1) hv (by decide +kernel) [1] [0.03] rfl (by simp) (by simp)
  rw [e] at e'
  obtain rfl := Except.ok.inj e'
  have hprod : (List.zipWith (· * ·) c.rates c.times).Pairwise (· ≤ ·) := by
    have hinc := ok.inc
    have : ∀ (ts rs : List ℝ), List.Forall₂ (fun _ r => r = 0.03) ts rs → List.zipWith (· * ·) rs ts = ts.map fun t => 0.03 * t := by
      intro ts rs h
      induction h with
      | nil => rfl
      | cons h _ ih => simp only [List.zipWith_cons_cons, List.map_cons, ih, h]
    rw [this c.times c.rates (hr.imp fun t r q => q.1 _ rfl), List.pairwise_map]
    exact hinc.imp fun q => by nlinarith
  have t1 : timeDifference (day0 2021 1 1) (day0 2021 6 15) = 165 / 365 := by decide +kernel
  have t2 : timeDifference (day0 2021 1 1) (day0 2022 7 30) = 575 / 365 := by decide +kernel
  obtain ⟨x, hx, px⟩ := hdf (((165 / 365 : ℚ)) : ℝ) (by norm_num) (by norm_num)
  obtain ⟨z, hz, pz⟩ := hdf (((575 / 365 : ℚ)) : ℝ) (by norm_num) (by norm_num)
  have hzx : z ≤ x := C57_antitone c ok hprod _ _ x z (by norm_num) hx hz
  have hdx : c.dfAt (day0 2021 1 1) (day0 2021 6 15) = .ok x := by rw [(C57_at_date c ok _ _).1, t1, hx]
  have hdz : c.dfAt (day0 2021 1 1) (day0 2022 7 30) = .ok z := by rw [(C57_at_date c ok _ _).1, t2, hz]
  have hnpv : BondPricer.npv .checked { eval := day0 2021 1 1, disc := c, mkt := noMarket } basketBond.bond = .ok (z / x) := by
    unfold BondPricer.npv BondPricer.pricing
    have ep : basketBond.bond.pricing.getD (day0 2021 1 1) = day0 2021 6 15 := rfl
    dsimp only
    rw [ep, basketBond_flows, Res.bind_ok]
    have hd : (day0 2021 6 15).day < (day0 2022 7 30).day := by decide +kernel
    simp only [discounted, Live.df, if_pos hd, hdx, hdz, Res.bind_ok, divK, if_neg px.ne']
    simp
  have hy : ∃ y, 0 ≤ y ∧ basketBond.price .checked (day0 2021 1 1) noMarket y = .ok (z / x) := by
    obtain ⟨y, h0, hy, -⟩ := C124_discounted_value .checked (day0 2021 1 1) noMarket basketBond _ (basketBond_owes .checked) (z / x)
      (div_pos pz px) (by
        have hd : (basketBond.bond.pricing.getD (day0 2021 1 1)).day < (day0 2022 7 30).day := by decide +kernel
        simp only [List.map_cons, List.map_nil, List.sum_cons, List.sum_nil, if_pos hd, add_zero]
        exact (div_le_one px).2 hzx)
    exact ⟨y, h0, hy⟩
  have hguess : ∃ g, c.fwdFromEval (day0 2021 1 1) (day0 2022 7 30) .simple = .ok g := by
    rw [(C58_dates c _ (day0 2022 7 30) _ _).2.2.2 (by decide +kernel), t2]
    obtain ⟨-, -, -, s, -, -, -, hs, -⟩ := C58_rates c ok tl htl 0 (((575 / 365 : ℚ)) : ℝ) (le_refl _) (by norm_num) (by
      have : ((575 / 365 : ℚ) : ℝ) < 99 := by norm_num
      linarith)
    exact ⟨s, hs⟩
  obtain ⟨g, hg⟩ := hguess
  obtain ⟨y, hy0, hyp⟩ := hy
  have hcost := (C124_objective .checked (day0 2021 1 1) noMarket basketBond (z / x) y).2.2 hyp
  have hex : ∃ y, (-2 : ℝ) < y ∧ basketBond.cost .checked (day0 2021 1 1) noMarket (z / x) y = .ok 0 := ⟨y, by linarith, hcost⟩
  have hfind : findYield exactSearch .checked (day0 2021 1 1) noMarket basketBond (z / x) (some g) = .ok hex.choose := by
    rw [(C124_search _ _ _ _ _ _ _ _).1]
    unfold exactSearch
    rw [dif_pos hex]
  have hv := C70_value .checked 3 0.05 .semiAnnually 100 hex.choose (by decide) (by decide) (by
    have := hex.choose_spec.1
    simp only [Freq.perYear, Nat.cast_ofNat]
    intro q
    linarith)
  have hv' : ∃ p, ktbfNpv .checked 3 0.05 .semiAnnually 100 hex.choose = .ok p := ⟨_, hv⟩
  obtain ⟨p, hp⟩ := hv'
  refine ⟨c, e, (C125_accepts sampleFuture).1.2 ?_, ⟨p * x, (C125_value _ _ _ _ _ _ _).2 ⟨basketBond, [], g, [hex.choose], p, x, rfl, hg,
    List.Forall₂.cons ⟨z / x, hnpv, hfind⟩ List.Forall₂.nil, ?_, hdx, rfl⟩⟩, fun b hb => ?_, fun t ht => ?_⟩
  · intro b hb
    rw [List.mem_singleton.1 hb]
    exact ⟨_, rfl, rfl⟩
  · have : ([hex.choose] : List ℝ).sum / ((sampleFuture.bonds.length : Nat) : ℝ) = hex.choose := by
      simp [sampleFuture]
    rw [this]
    exact hp
  · rw [List.mem_singleton.1 hb]
    refine ⟨⟨_, basketBond_owes .checked⟩, exactSearch_exact, fun t ht => ⟨y, ?_, ?_⟩⟩
    · show -((2 : Nat) : ℝ) < y
      push_cast
      linarith
    · have : t = z / x := Except.ok.inj (ht.symm.trans hnpv)
      rw [this]
      exact hyp
  · rw [hnpv] at ht
    obtain rfl := Except.ok.inj ht
    exact ⟨y, hy0, hyp⟩

end Verif.Props

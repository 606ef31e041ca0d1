import Verif.Props.EngineSwaps
import Verif.Props.Floating
/-!
# C182: what a rise of the index curve does to floating coupons
-/
set_option autoImplicit false
namespace Verif.Props
open Verif Verif.QL Verif.Civil

/-! ## Specification -/

/-- No year fraction of the coupon is negative, and no factor of its compounding: a compounding period does not lose more than all. -/
def CouponMild (md : Mode) (v : FloatEnv) (comp : Option (List Char)) (sp : Option ℝ) (c : Coupon) : Prop :=
  (∀ f, frac c.start c.stop v.dcc = .ok f → 0 ≤ f) ∧
  ∀ cm, comp = some cm → c.fixing.instant < v.pricing.instant → ∀ e spot, addPeriod md v.pricing cm = .ok e → v.fwd.fwd v.pricing e = .ok spot → ∀ ps, Tiled md cm c.stop c.start ps →
    ∀ p ∈ ps, ∀ f, frac p.1 p.2 v.dcc = .ok f → 0 ≤ f ∧ ∀ r, SubRateIs md v spot p.1 r → 0 ≤ 1 + (r + sp.getD 0) * f

/-! ## Forward rates -/

/-- All rates up by the same: no discount factor between two times goes up. -/
theorem df_parallel (c c' : Curve) (hc : CurveOk c) (hc' : CurveOk c') (ht : c'.times = c.times) (b : ℝ) (hb : 0 ≤ b)
    (hr : ∀ (i : Nat) r, c.rates[i]? = some r → c'.rates[i]? = some (r + b)) (s e : ℝ) (hse : s ≤ e) (x y x' y' : ℝ) (h1 : c.df s = .ok x) (h2 : c.df e = .ok y)
    (h3 : c'.df s = .ok x') (h4 : c'.df e = .ok y') : y' * x ≤ x' * y := by
  rcases df_pair c c' hc hc' ht s with ⟨g, -⟩ | ⟨i, t0, t1, r0, r1, r0', r1', a0, a1, ti, ti1, ri, ri1, ri', ri1', ls, us, p0, p1, ha0, ha1, ea0, ea1, e1, e1'⟩
  · rw [g] at h1; cases h1
  rcases df_pair c c' hc hc' ht e with ⟨g, -⟩ | ⟨j, u0, u1, q0, q1, q0', q1', b0, b1, tj, tj1, rj, rj1, rj', rj1', le, ue, w0, w1, hb0, hb1, eb0, eb1, e2, e2'⟩
  · rw [g] at h2; cases h2
  rw [e1] at h1
  rw [e2] at h2
  rw [e1'] at h3
  rw [e2'] at h4
  have sh : ∀ (n : Nat) r r', c.rates[n]? = some r → c'.rates[n]? = some r' → r' = r + b := by
    intro n r r' g1 g2
    rw [hr n r g1] at g2
    exact (Option.some.inj g2).symm
  rw [sh _ _ _ ri ri', sh _ _ _ ri1 ri1'] at h3
  rw [sh _ _ _ rj rj', sh _ _ _ rj1 rj1'] at h4
  obtain rfl := (Except.ok.inj h1).symm
  obtain rfl := (Except.ok.inj h2).symm
  obtain rfl := (Except.ok.inj h3).symm
  obtain rfl := (Except.ok.inj h4).symm
  have split' : ∀ r t : ℝ, Real.exp (-((r + b) * t)) = Real.exp (-(r * t)) * Real.exp (-(b * t)) := by
    intro r t
    rw [← Real.exp_add]
    congr 1
    ring
  rw [split', split', split', split']
  have anti : ∀ t t' : ℝ, t ≤ t' → Real.exp (-(b * t')) ≤ Real.exp (-(b * t)) := fun t t' h => Real.exp_le_exp.2 (by nlinarith)
  have inc : ∀ (m n : Nat) (z z' : ℝ), m < n → c.times[m]? = some z → c.times[n]? = some z' → z < z' := by
    intro m n z z' hmn g1 g2
    obtain ⟨k1, rfl⟩ := List.getElem?_eq_some_iff.1 g1
    obtain ⟨k2, rfl⟩ := List.getElem?_eq_some_iff.1 g2
    exact List.pairwise_iff_getElem.1 hc.inc m n k1 k2 hmn
  have E0 := (Real.exp_pos (-(r0 * t0))).le
  have E1 := (Real.exp_pos (-(r1 * t1))).le
  have F0 := (Real.exp_pos (-(q0 * u0))).le
  have F1 := (Real.exp_pos (-(q1 * u1))).le
  rcases lt_trichotomy i j with hij | rfl | hij
  · have t1u0 : t1 ≤ u0 := by
      rcases Nat.lt_or_ge (i + 1) j with k | k
      · exact (inc _ _ _ _ k ti1 tj).le
      · obtain rfl : j = i + 1 := by omega
        rw [ti1] at tj
        exact (Option.some.inj tj).le
    have t0t1 : t0 < t1 := inc _ _ _ _ (Nat.lt_succ_self i) ti ti1
    have u0u1 : u0 < u1 := inc _ _ _ _ (Nat.lt_succ_self j) tj tj1
    have z0 := anti u0 u1 u0u1.le
    have z1 := anti t1 u0 t1u0
    have z2 := anti t0 u0 (by linarith)
    have X : (a0 * Real.exp (-(r0 * t0)) + a1 * Real.exp (-(r1 * t1))) * Real.exp (-(b * u0)) ≤
        a0 * (Real.exp (-(r0 * t0)) * Real.exp (-(b * t0))) + a1 * (Real.exp (-(r1 * t1)) * Real.exp (-(b * t1))) := by
      have := mul_le_mul_of_nonneg_left z2 (mul_nonneg ha0 E0)
      have := mul_le_mul_of_nonneg_left z1 (mul_nonneg ha1 E1)
      linarith
    have Y : b0 * (Real.exp (-(q0 * u0)) * Real.exp (-(b * u0))) + b1 * (Real.exp (-(q1 * u1)) * Real.exp (-(b * u1))) ≤
        (b0 * Real.exp (-(q0 * u0)) + b1 * Real.exp (-(q1 * u1))) * Real.exp (-(b * u0)) := by
      have := mul_le_mul_of_nonneg_left z0 (mul_nonneg hb1 F1)
      linarith
    have px : 0 ≤ a0 * Real.exp (-(r0 * t0)) + a1 * Real.exp (-(r1 * t1)) := add_nonneg (mul_nonneg ha0 E0) (mul_nonneg ha1 E1)
    have py : 0 ≤ b0 * Real.exp (-(q0 * u0)) + b1 * Real.exp (-(q1 * u1)) := add_nonneg (mul_nonneg hb0 F0) (mul_nonneg hb1 F1)
    calc _ ≤ (b0 * Real.exp (-(q0 * u0)) + b1 * Real.exp (-(q1 * u1))) * Real.exp (-(b * u0)) * (a0 * Real.exp (-(r0 * t0)) + a1 * Real.exp (-(r1 * t1))) :=
          mul_le_mul_of_nonneg_right Y px
      _ = (a0 * Real.exp (-(r0 * t0)) + a1 * Real.exp (-(r1 * t1))) * Real.exp (-(b * u0)) * (b0 * Real.exp (-(q0 * u0)) + b1 * Real.exp (-(q1 * u1))) := by ring
      _ ≤ _ := mul_le_mul_of_nonneg_right X py
  · rw [ti] at tj
    rw [ti1] at tj1
    rw [ri] at rj
    rw [ri1] at rj1
    obtain rfl := Option.some.inj tj
    obtain rfl := Option.some.inj tj1
    obtain rfl := Option.some.inj rj
    obtain rfl := Option.some.inj rj1
    have t0t1 : t0 < t1 := inc _ _ _ _ (Nat.lt_succ_self i) ti ti1
    have hd : 0 < t1 - t0 := by linarith
    have k0 : b0 ≤ a0 := by rw [ea0, eb0]; exact div_le_div_of_nonneg_right (by linarith) hd.le
    have k1 : a1 ≤ b1 := by rw [ea1, eb1]; exact div_le_div_of_nonneg_right (by linarith) hd.le
    have z0 := anti t0 t1 t0t1.le
    have k2 : b0 * a1 ≤ a0 * b1 := mul_le_mul k0 k1 ha1 (by linarith)
    have k3 : 0 ≤ (Real.exp (-(b * t0)) - Real.exp (-(b * t1))) * (a0 * b1 - b0 * a1) * (Real.exp (-(r0 * t0)) * Real.exp (-(r1 * t1))) :=
      mul_nonneg (mul_nonneg (by linarith) (by linarith)) (mul_nonneg E0 E1)
    nlinarith [k3]
  · exfalso
    have : u1 ≤ t0 := by
      rcases Nat.lt_or_ge (j + 1) i with k | k
      · exact (inc _ _ _ _ k tj1 ti).le
      · obtain rfl : i = j + 1 := by omega
        rw [tj1] at ti
        exact (Option.some.inj ti).le
    linarith

/-- `c'` is `c` with all rates up by `b`. -/
def AllUp (c c' : Curve) (b : ℝ) : Prop := CurveOk c ∧ CurveOk c' ∧ c'.times = c.times ∧ ∀ (i : Nat) r, c.rates[i]? = some r → c'.rates[i]? = some (r + b)

theorem between_le (c c' : Curve) (b : ℝ) (hb : 0 ≤ b) (h : AllUp c c' b) (s e x x' : ℝ) (h1 : c.dfBetween s e = .ok x) (h2 : c'.dfBetween s e = .ok x') : x' ≤ x := by
  obtain ⟨hc, hc', ht, hr⟩ := h
  unfold Curve.dfBetween at h1 h2
  by_cases hse : s ≤ e
  · rw [if_pos hse] at h1 h2
    simp only [bind_ok_iff, divK_ok_iff] at h1 h2
    obtain ⟨y, hy, z, hz, hz0, rfl⟩ := h1
    obtain ⟨y', hy', z', hz', hz0', rfl⟩ := h2
    have := df_parallel c c' hc hc' ht b hb hr s e hse z y z' y' hz hy hz' hy'
    have := df_positive c hc _ _ hz
    have := df_positive c' hc' _ _ hz'
    rw [div_le_div_iff₀ (by assumption) (by assumption)]
    linarith
  · rw [if_neg hse] at h1; cases h1

/-- No simple forward rate goes down. -/
theorem fwd_le (c c' : Curve) (b : ℝ) (hb : 0 ≤ b) (h : AllUp c c' b) (s e r r' : ℝ) (h1 : c.fwd s e .simple = .ok r) (h2 : c'.fwd s e .simple = .ok r') : r ≤ r' := by
  unfold Curve.fwd at h1 h2
  by_cases hse : s ≤ e
  · rw [if_pos hse] at h1 h2
    have key : ∃ d d', d' ≤ d ∧ rateOf d (e - s) .simple = .ok r ∧ rateOf d' (e - s) .simple = .ok r' := by
      by_cases hh : |e - s| > 1e-6
      · rw [if_pos hh] at h1 h2
        obtain ⟨d, hd, g1⟩ := (bind_ok_iff _ _ _).1 h1
        obtain ⟨d', hd', g2⟩ := (bind_ok_iff _ _ _).1 h2
        exact ⟨d, d', between_le c c' b hb h _ _ _ _ hd hd', g1, g2⟩
      · rw [if_neg hh] at h1 h2
        obtain ⟨d, hd, g1⟩ := (bind_ok_iff _ _ _).1 h1
        obtain ⟨d', hd', g2⟩ := (bind_ok_iff _ _ _).1 h2
        exact ⟨d, d', between_le c c' b hb h _ _ _ _ hd hd', g1, g2⟩
    obtain ⟨d, d', hdd, g1, g2⟩ := key
    unfold rateOf at g1 g2
    simp only [divK_ok_iff] at g1 g2
    obtain ⟨-, rfl⟩ := g1
    obtain ⟨-, rfl⟩ := g2
    exact div_le_div_of_nonneg_right (by linarith) (by linarith)
  · rw [if_neg hse] at h1; cases h1

theorem live_fwd_le (c c' : Curve) (b : ℝ) (hb : 0 ≤ b) (h : AllUp c c' b) (eval s e : DT) (r r' : ℝ) (h1 : Live.fwd { curve := c, eval := eval } s e = .ok r)
    (h2 : Live.fwd { curve := c', eval := eval } s e = .ok r') : r ≤ r' := by
  unfold Live.fwd Curve.fwdDates at h1 h2
  dsimp only at h1 h2
  by_cases hse : s.instant > e.instant
  · rw [if_pos hse] at h1; cases h1
  · rw [if_neg hse] at h1 h2
    exact fwd_le c c' b hb h _ _ _ _ h1 h2

theorem live_spot_le (c c' : Curve) (b : ℝ) (hb : 0 ≤ b) (h : AllUp c c' b) (eval e : DT) (r r' : ℝ) (h1 : Live.spot { curve := c, eval := eval } e = .ok r)
    (h2 : Live.spot { curve := c', eval := eval } e = .ok r') : r ≤ r' := by
  unfold Live.spot Curve.fwdFromEval at h1 h2
  dsimp only at h1 h2
  by_cases hse : e.instant < eval.instant
  · rw [if_pos hse] at h1; cases h1
  · rw [if_neg hse] at h1 h2
    exact live_fwd_le c c' b hb h eval eval e r r' h1 h2

/-! ## Coupons -/

theorem tiled_unique (md : Mode) (comp : List Char) (stop : DT) : ∀ (s : DT) (ps ps' : List (DT × DT)), Tiled md comp stop s ps → Tiled md comp stop s ps' → ps = ps' := by
  intro s ps ps' h
  induction h generalizing ps' with
  | done s hd =>
    intro h'
    cases h' with
    | done => rfl
    | step _ _ _ _ q => omega
  | step s nx fin rest h1 h2 hf h5 t ih =>
    intro h'
    cases h' with
    | done _ q => omega
    | step _ nx' fin' rest' h1' h2' hf' h5' t' =>
      rw [h2] at h2'
      cases h2'
      rw [← hf'] at hf
      subst hf
      rw [ih _ t']

/-- **C182** (coupons). When all rates of the index curve go up, no floating coupon pays less. -/
theorem C182_coupon (md : Mode) (v : FloatEnv) (comp : Option (List Char)) (sp : Option ℝ) (c : Coupon) (hm : CouponMild md v comp sp c) (k k' : Curve) (eval : DT) (hv : v.fwd = { curve := k, eval := eval })
    (b : ℝ) (hb : 0 ≤ b) (h : AllUp k k' b) (x x' : ℝ) (hx : v.amount md comp sp c = .ok x)
    (hx' : ({ v with fwd := { curve := k', eval := eval } } : FloatEnv).amount md comp sp c = .ok x') : x ≤ x' := by
  cases comp with
  | none =>
    obtain ⟨r, f, ⟨stop, s1, s2, s3⟩, hf, rfl⟩ := (C66_simple md v sp c x).1 hx
    obtain ⟨r', f', ⟨stop', s1', s2', s3'⟩, hf', rfl⟩ := (C66_simple md _ sp c x').1 hx'
    rw [hf] at hf'
    obtain rfl := Except.ok.inj hf'
    rw [s1] at s1'
    obtain rfl := Except.ok.inj s1'
    have hf0 := hm.1 f hf
    have hrr : r ≤ r' := by
      dsimp only at s2' s3'
      rw [hv] at s2 s3
      rcases le_or_gt v.pricing.instant c.fixing.instant with q | q
      · exact live_fwd_le k k' b hb h eval _ _ _ _ (s2 q) (s2' q)
      · cases hcl : v.close c.fixing.day with
        | some z => rw [(s3 q).1 z hcl, (s3' q).1 z hcl]
        | none => exact live_spot_le k k' b hb h eval _ _ _ ((s3 q).2 hcl) ((s3' q).2 hcl)
    exact mul_le_mul_of_nonneg_right (by linarith) hf0
  | some cm =>
    rcases le_or_gt v.pricing.instant c.fixing.instant with q | q
    · obtain ⟨e1, r1, last, e2, r2, f, g1, g2, g3, g4, g5, g6, rfl⟩ := (C66_future md v cm sp c x q).1 hx
      obtain ⟨e1', r1', last', e2', r2', f', g1', g2', g3', g4', g5', g6', rfl⟩ := (C66_future md ({ v with fwd := { curve := k', eval := eval } } : FloatEnv) cm sp c x' q).1 hx'
      dsimp only at g1' g2' g3' g4' g5' g6'
      rw [g1] at g1'
      obtain rfl := Except.ok.inj g1'
      rw [g3] at g3'
      obtain rfl := Except.ok.inj g3'
      rw [g4] at g4'
      obtain rfl := Except.ok.inj g4'
      rw [g6] at g6'
      obtain rfl := Except.ok.inj g6'
      rw [hv] at g2 g5
      have k1 := live_fwd_le k k' b hb h eval _ _ _ _ g2 g2'
      have k2 := live_fwd_le k k' b hb h eval _ _ _ _ g5 g5'
      exact mul_le_mul_of_nonneg_right (by linarith) (hm.1 f g6)
    · obtain ⟨e, spot, ps, rs, g1, g2, g3, g4, rfl⟩ := (C66_compounded md v cm sp c x q).1 hx
      obtain ⟨e', spot', ps', rs', g1', g2', g3', g4', rfl⟩ := (C66_compounded md ({ v with fwd := { curve := k', eval := eval } } : FloatEnv) cm sp c x' q).1 hx'
      dsimp only at g1' g2' g3'
      rw [g1] at g1'
      obtain rfl := Except.ok.inj g1'
      obtain rfl := tiled_unique md cm c.stop c.start ps ps' g3 g3'
      have hmild := hm.2 cm rfl q e spot g1 g2 ps g3
      rw [hv] at g2
      have hsp := live_fwd_le k k' b hb h eval _ _ _ _ g2 g2'
      have main : ∀ (ps : List (DT × DT)) (rs rs' : List (ℝ × ℝ)), (∀ p ∈ ps, ∀ f, frac p.1 p.2 v.dcc = .ok f → 0 ≤ f ∧ ∀ r, SubRateIs md v spot p.1 r → 0 ≤ 1 + (r + sp.getD 0) * f) →
          List.Forall₂ (fun (p : DT × DT) (q : ℝ × ℝ) => SubRateIs md v spot p.1 q.1 ∧ frac p.1 p.2 v.dcc = .ok q.2) ps rs →
          List.Forall₂ (fun (p : DT × DT) (q : ℝ × ℝ) => SubRateIs md { v with fwd := { curve := k', eval := eval } } spot' p.1 q.1 ∧ frac p.1 p.2 v.dcc = .ok q.2) ps rs' →
          0 ≤ (rs.map fun q => 1 + (q.1 + sp.getD 0) * q.2).prod ∧ (rs.map fun q => 1 + (q.1 + sp.getD 0) * q.2).prod ≤ (rs'.map fun q => 1 + (q.1 + sp.getD 0) * q.2).prod := by
        intro ps rs rs' hps h1
        induction h1 generalizing rs' with
        | nil => intro h2; cases h2; simp
        | cons hq fa ih =>
          rename_i p w ps rs
          intro h2
          cases h2 with
          | cons hq' fa' =>
          rename_i w' rs'
          obtain ⟨i1, i2⟩ := ih rs' (fun p hp => hps p (List.mem_cons_of_mem _ hp)) fa'
          obtain ⟨⟨z, fix, z1, z2, z3, z4⟩, f1⟩ := hq
          obtain ⟨⟨z', fix', z1', z2', z3', z4'⟩, f1'⟩ := hq'
          dsimp only at z1' z2' z3' z4'
          rw [z1] at z1'
          obtain rfl := Except.ok.inj z1'
          rw [z2] at z2'
          obtain rfl := Except.ok.inj z2'
          rw [f1] at f1'
          have ff := Except.ok.inj f1'
          obtain ⟨hf0, hfac⟩ := hps p (List.mem_cons_self ..) w.2 f1
          have hpos := hfac w.1 ⟨z, fix, z1, z2, z3, z4⟩
          have hww : w.1 ≤ w'.1 := by
            rcases le_or_gt v.pricing.instant fix.instant with g | g
            · obtain ⟨e3, e4, e5⟩ := z4 g
              obtain ⟨e3', e4', e5'⟩ := z4' g
              rw [e4] at e4'
              obtain rfl := Except.ok.inj e4'
              rw [hv] at e5
              exact live_fwd_le k k' b hb h eval _ _ _ _ e5 e5'
            · rw [z3 g, z3' g]
              cases v.close fix.day with
              | none => exact hsp
              | some _ => exact le_refl _
          have hle : 1 + (w.1 + sp.getD 0) * w.2 ≤ 1 + (w'.1 + sp.getD 0) * w'.2 := by
            rw [← ff]
            have := mul_le_mul_of_nonneg_right hww hf0
            linarith
          rw [List.map_cons, List.prod_cons, List.map_cons, List.prod_cons]
          exact ⟨mul_nonneg hpos i1, mul_le_mul hle i2 i1 (hpos.trans hle)⟩
      have := (main ps rs rs' hmild g4 g4').2
      linarith

/-! ## Swaps -/

/-- **C182** (floating legs). When all rates of the index curve go up, a floating leg discounted on another curve is not worth less. -/
theorem C182_leg (md : Mode) (f : Fixed) (M m : Mkt) (hM : GoodCurves M) (s : Swap) (c u k : String) (q : Option String) (A B A' B' : ℝ) (β : ℝ) (hβ : 0 ≤ β)
    (hm : CurveShifted k (fun _ => True) β M m) (h : SwapWorth md f M s c u (some k) q A B) (h' : SwapWorth md f m s c u (some k) q A' B') (hku : k ≠ u)
    (h0 : ∀ z, s.initFloat = some z → 0 ≤ z)
    (hmild : ∀ tenor l, s.index = some tenor → (M.fixings f (some k) q).fwd = some l → ∀ x ∈ s.floatLegs, M.w.date.day < x.payment.day →
      CouponMild md (floatEnv s (M.fixings f (some k) q) l M.w.date tenor) s.comp none x) : B ≤ B' := by
  obtain ⟨a, b, h1, h2, -, rfl, hdef⟩ := h
  obtain ⟨a', b', h1', h2', -, rfl, hdef'⟩ := h'
  obtain ⟨c0, cB, m1, m2, m3, m4, m5, rfl⟩ := hm
  change (M.curves.put k cB) u = some b' at h2'
  rw [put_other _ _ _ _ (Ne.symm hku), h2] at h2'
  obtain rfl := Option.some.inj h2'
  have hM0 := (hM k c0 m1).1
  have hup : AllUp c0 cB β := ⟨hM0, m2, m4, fun i r hr => by
    obtain ⟨hi, -⟩ := List.getElem?_eq_some_iff.1 hr
    have := m5 i _ r (List.getElem?_eq_getElem (by rw [← hM0.len]; exact hi)) hr
    rwa [if_pos trivial] at this⟩
  have f1 : (M.fixings f (some k) q).fwd = some { curve := c0, eval := M.w.date } := by
    show (M.curves k).map _ = _
    rw [m1]
    rfl
  have f2 : (({ M with curves := M.curves.put k cB } : Mkt).fixings f (some k) q).fwd = some { curve := cB, eval := M.w.date } := by
    show ((M.curves.put k cB) k).map _ = _
    rw [put_self]
    rfl
  unfold legValue
  dsimp only
  refine add_le_add (le_refl _) (List.sum_le_sum fun x hx => ?_)
  by_cases hp : M.w.date.day < x.payment.day
  · rw [if_pos hp, if_pos hp]
    have hdf : 0 ≤ dfOf { curve := b, eval := M.w.date } x.payment := by
      have hcb := (hM u b h2).1
      rw [dfOf_eq b hcb]
      cases hh : b.df (timeFrom M.w.date x.payment) with
      | error e => simp [valOf]
      | ok y => exact (df_positive b hcb _ _ hh).le
    refine mul_le_mul_of_nonneg_right ?_ hdf
    unfold floatCoupon
    cases hi : s.index with
    | none => exact le_refl _
    | some tenor =>
      rw [f1, f2]
      dsimp only
      obtain ⟨l, z, g1, g2⟩ := hdef tenor hi x hx hp.le
      obtain ⟨l', z', g1', g2'⟩ := hdef' tenor hi x hx hp.le
      rw [f1] at g1
      rw [f2] at g1'
      obtain rfl := Option.some.inj g1
      obtain rfl := Option.some.inj g1'
      dsimp only at g2'
      rw [g2, g2']
      have hle : z ≤ z' := C182_coupon md _ s.comp none x (hmild tenor _ hi f1 x hx hp) c0 cB M.w.date rfl β hβ hup z z' g2 g2'
      refine mul_le_mul_of_nonneg_right hle ?_
      split
      · cases hh : s.initFloat with
        | none => simp
        | some y => exact h0 y hh
      · norm_num
  · rw [if_neg hp, if_neg hp]

/-- **C182**. The rho of a swap to its index curve, with no leg discounted on that curve - always so for an interest rate swap - is not negative. -/
theorem C182_rho (g : EngCfg) (hg : OwnCodes g) (names : List String) (hns : names.Nodup) (ds : List DT) (M : Mkt) (hM : SoundMkt g ds M) (hn : g.conf.npv = true)
    (f : Fixed) (L : Loaded) (an : Bool) (i : Instr) (hi : i ∈ g.insts) (t : SwapType) (a b : Currency) (j : IndexId) (hk : i.kind = .swap t a b (some j)) (pl : Plan) (s : Swap)
    (hne : s.eff.instant ≠ s.maturity.instant) (hc : Coherent (legDates s s.fixedLegs)) (hc' : Coherent (legDates s s.floatLegs))
    (k : String) (hkj : g.p.rateForward j.code = some k) (hkd : k ≠ "Dummy") (hother : t ≠ .irs → g.p.crs a ≠ some k ∧ g.p.crs b ≠ some k)
    (h0 : ∀ z, s.initFloat = some z → 0 ≤ z) (hf : ∀ r, f.fx ⟨b, a⟩ = some r → 0 ≤ r) (hN : 0 ≤ i.notional) (hβ : 0 < g.conf.rhoBump)
    (hmild : ∀ tenor l, s.index = some tenor → (M.fixings f (some k) (some j.name)).fwd = some l → ∀ x ∈ s.floatLegs, M.w.date.day < x.payment.day →
      CouponMild g.md (floatEnv s (M.fixings f (some k) (some j.name)) l M.w.date tenor) s.comp none x)
    (hp : PricedAs g f L an i pl (.swap s)) (hrho : g.conf.rho = true) (e' : Eng)
    (h : calculate g names { mkt := M, action := g.insts, results := freshResults g.insts fun _ => none } = .ok e') :
    ∃ y z, e'.results i.code = some y ∧ y.rho k = some z ∧ 0 ≤ z := by
  obtain ⟨y, c, u, w, q, v, A, B, hy, l1, l2, l3, l4, -, w1, -, nr, rh⟩ := C181_swaps g hg names hns ds M hM hn f L an i hi t a b (some j) hk pl s hne hc hc' hp e' h
  obtain ⟨e1, -, rfl⟩ := l4 j rfl
  rw [hkj] at e1
  subst e1
  have hkc : k ≠ c := by
    rcases l1 with ⟨-, rfl⟩ | ⟨ht, hh⟩
    · exact hkd
    · rintro rfl; exact (hother ht).1 hh
  have hku : k ≠ u := by
    rcases l2 with ⟨-, rfl⟩ | ⟨ht, hh⟩
    · exact hkd
    · rintro rfl; exact (hother ht).2 hh
  obtain ⟨z, z1, m, A', B', hm, w3, rfl, s1, -⟩ := (rh k hkd (Or.inr (Or.inr rfl))).1 hrho
  refine ⟨y, _, hy, z1, ?_⟩
  have hB := C182_leg g.md f M m hM.curves s c u k (some j.name) A B A' B' _ hβ.le hm w1 w3 hku h0 hmild
  have hr : 0 ≤ (if a = b then 1 else (f.fx ⟨b, a⟩).getD 1) := by
    split
    · norm_num
    · cases hh : f.fx ⟨b, a⟩ with
      | none => simp
      | some r => exact hf r hh
  rw [s1 hkc, sub_self, zero_add]
  exact mul_nonneg (mul_nonneg (div_nonneg (mul_nonneg hr (by linarith)) hβ.le) (by norm_num)) hN

/-! ## A concrete engine -/

/-- An interest rate swap of half a year on the index "I" -/
def irsInstr : Instr := ⟨"X", .swap .irs .krw .krw (some ⟨"I", "N"⟩), .krw, 100, day0 2022 1 1, 0⟩

/-- From the middle of 2021 to the end of the year -/
def irsCoupon : Coupon where
  fixing := day0 2021 7 1
  start := day0 2021 7 1
  stop := day0 2022 1 1
  payment := day0 2022 1 1

noncomputable def irsTerms : Swap where
  fixedLegs := [irsCoupon]
  floatLegs := [irsCoupon]
  fixedRate := some 0.02
  index := some ['6', 'M']
  comp := none
  hol := fun _ => .ok false
  notional := 100
  issue := day0 2021 1 1
  eff := day0 2021 7 1
  maturity := day0 2022 1 1
  fixedCcy := 0
  floatCcy := 0
  initFixed := none
  initFloat := none
  lastFixed := none
  lastFloat := none
  fixedDcc := .actual365Fixed
  floatDcc := .actual365Fixed
  fixGap := 0

noncomputable def irsEngine : EngCfg where
  md := .checked
  pricers := fun c => if c = "X" then some (Plan.pricer .checked fxfFixed (.swap irsTerms) (.swap "Dummy" "Dummy" (some "U") (some "N") none)) else none
  p := { collateral := fun _ => none, borrowing := fun _ => none, bondDiscount := fun _ => none, rateForward := fun _ => some "U", crs := fun _ => none, funding := fun _ => none }
  conf := fxfEngine.conf
  insts := [irsInstr]

/-- The curve of the index and the one the legs are discounted on -/
def irsMarket (a b : Curve) : Mkt where
  w := { date := day0 2021 1 1, prices := [], divs := [] }
  equity := fun _ => none
  dividend := fun _ => none
  curves := fun n => if n = "U" then some a else if n = "Dummy" then some b else none
  vols := fun _ => none
  volCurves := fun _ => none

/-- What the pricer needs of a market -/
structure IrsCurves (m : Mkt) : Prop where
  a : ∃ c, m.curves "U" = some c ∧ CurveOk c ∧ ∃ tl, c.times[c.times.length - 1]? = some tl ∧ 99 ≤ tl
  b : ∃ c, m.curves "Dummy" = some c ∧ CurveOk c ∧ ∃ tl, c.times[c.times.length - 1]? = some tl ∧ 99 ≤ tl
  date : m.w.date = day0 2021 1 1 ∨ m.w.date = day0 2021 1 2

theorem irs_frac : frac (day0 2021 7 1) (day0 2022 1 1) .actual365Fixed = .ok (184 / 365) := by
  have h : yearFraction (day0 2021 7 1) (day0 2022 1 1) .actual365Fixed = .ok (184 / 365) := by decide +kernel
  unfold frac
  rw [h, Res.bind_ok]
  refine congrArg Except.ok ?_
  norm_num

theorem irs_dates : irsTerms.eff.instant ≠ irsTerms.maturity.instant ∧ Coherent (legDates irsTerms irsTerms.fixedLegs) ∧ Coherent (legDates irsTerms irsTerms.floatLegs) ∧
    IsKind irsTerms .irs := by
  have h1 : (day0 2021 7 1).instant ≠ (day0 2022 1 1).instant := by decide +kernel
  have hc : Coherent (legDates irsTerms [irsCoupon]) := by
    have e : legDates irsTerms [irsCoupon] = [day0 2021 7 1, day0 2022 1 1, day0 2022 1 1] := rfl
    rw [e]
    intro d hd d' hd' e
    simp only [List.mem_cons, List.not_mem_nil, or_false] at hd hd'
    rcases hd with rfl | rfl | rfl <;> rcases hd' with rfl | rfl | rfl
    all_goals first | rfl | exact absurd e h1 | exact absurd e.symm h1
  refine ⟨h1, hc, hc, ?_⟩
  simp [IsKind, NoInitial, NoFinal, Rates, irsTerms]

theorem irs_price (m : Mkt) (h : IrsCurves m) : ∃ r fl ex, Plan.result .checked fxfFixed (.swap "Dummy" "Dummy" (some "U") (some "N") none) (.swap irsTerms) m = .ok r ∧ r.expected = .ok fl ∧
    Plan.npv .checked fxfFixed (.swap "Dummy" "Dummy" (some "U") (some "N") none) (.swap irsTerms) m = .ok r.npv ∧
    Plan.exposure .checked fxfFixed (.swap "Dummy" "Dummy" (some "U") (some "N") none) (.swap irsTerms) irsInstr m r.npv = .ok ex := by
  obtain ⟨a, a1, a2, ta, a3, a4⟩ := h.a
  obtain ⟨b, b1, b2, tb, b3, b4⟩ := h.b
  obtain ⟨hne, hc, hc', -⟩ := irs_dates
  have ht : ((0 : ℚ) ≤ timeDifference m.w.date (day0 2022 1 1) ∧ timeDifference m.w.date (day0 2022 1 1) < 99) ∧ ¬ (day0 2022 1 1).day < m.w.date.day ∧
      ((0 : ℚ) ≤ timeDifference m.w.date (day0 2021 7 1) ∧ (1 / 10 : ℚ) < timeDifference m.w.date (day0 2022 1 1) - timeDifference m.w.date (day0 2021 7 1)) ∧ m.w.date.instant ≤ (day0 2021 7 1).instant := by
    rcases h.date with e | e <;> rw [e] <;> decide +kernel
  obtain ⟨⟨t1, t2⟩, t3, ⟨t4, t5⟩, t6⟩ := ht
  obtain ⟨y, hy⟩ : ∃ y, Live.df { curve := b, eval := m.w.date } (day0 2022 1 1) = .ok y := by
    obtain ⟨-, -, hdf, -⟩ := C57_range b b2 tb b3
    obtain ⟨y, hy, -⟩ := hdf (timeFrom m.w.date (day0 2022 1 1)) (by unfold timeFrom; exact_mod_cast t1) (lt_of_lt_of_le (by unfold timeFrom; exact_mod_cast t2) b4)
    refine ⟨y, ?_⟩
    unfold Live.df
    rw [(C57_at_date b b2 _ _).1]
    exact hy
  have t1' : (0 : ℝ) ≤ ((timeDifference m.w.date (day0 2022 1 1) : ℚ) : ℝ) := by exact_mod_cast t1
  have t2' : ((timeDifference m.w.date (day0 2022 1 1) : ℚ) : ℝ) < 99 := by exact_mod_cast t2
  have t4' : (0 : ℝ) ≤ ((timeDifference m.w.date (day0 2021 7 1) : ℚ) : ℝ) := by exact_mod_cast t4
  have t5' : (1 / 10 : ℝ) < ((timeDifference m.w.date (day0 2022 1 1) : ℚ) : ℝ) - ((timeDifference m.w.date (day0 2021 7 1) : ℚ) : ℝ) := by
    have : (((1 / 10 : ℚ)) : ℝ) < (((timeDifference m.w.date (day0 2022 1 1) - timeDifference m.w.date (day0 2021 7 1) : ℚ)) : ℝ) := by exact_mod_cast t5
    push_cast at this
    linarith
  obtain ⟨-, -, -, s, -, -, -, es, -⟩ := C58_rates a a2 ta a3 _ _ t4' (by linarith [(by norm_num : (1e-6 : ℝ) < 1 / 10)]) (lt_of_lt_of_le t2' a4)
  have hs : Live.fwd { curve := a, eval := m.w.date } (day0 2021 7 1) (day0 2022 1 1) = .ok s := by
    unfold Live.fwd
    rw [(C58_dates a _ _ _ .simple).2.1 (by decide +kernel)]
    exact es
  have hm : m.fixings fxfFixed (some "U") (some "N") = { fwd := some { curve := a, eval := m.w.date }, close := fxfFixed.past "N" } := by
    unfold Mkt.fixings
    rw [Option.bind_some, a1]
    rfl
  have ham : FloatEnv.amount .checked { fwd := { curve := a, eval := m.w.date }, close := (fxfFixed.past "N").getD fun _ => none, pricing := m.w.date, tenor := ['6', 'M'], hol := irsTerms.hol, dcc := irsTerms.floatDcc, fixDays := irsTerms.fixGap }
      none none irsCoupon = .ok ((s + 0) * (184 / 365)) := by
    rw [C66_simple]
    refine ⟨s, 184 / 365, ⟨day0 2022 1 1, by show addPeriod .checked (day0 2021 7 1) ['6', 'M'] = _; decide +kernel, fun _ => hs, fun q => absurd q ?_⟩, irs_frac, by simp⟩
    exact not_lt.2 t6
  have hP : m.swapPricer fxfFixed "Dummy" "Dummy" (some "U") (some "N") none = .ok { eval := m.w.date, fixedCurve := b, floatCurve := b, mkt := m.fixings fxfFixed (some "U") (some "N"), fx := none } := by
    unfold Mkt.swapPricer
    rw [b1]
    rfl
  have f1 : ∃ x, irsTerms.fixedFlows m.w.date = .ok [(day0 2022 1 1, x)] := by
    refine ⟨-0.02 * (184 / 365) * 1, ?_⟩
    have hp : irsTerms.fixedPrincipal m.w.date = [] := by rw [fixedPrincipal_eq]; rfl
    show flowLoop Coupon.payment (irsTerms.fixedAmount 0.02) m.w.date [irsCoupon] (irsTerms.fixedPrincipal m.w.date) = _
    rw [hp]
    unfold flowLoop
    rw [if_neg (show ¬ irsCoupon.payment.day < m.w.date.day from t3)]
    have : irsTerms.fixedAmount 0.02 irsCoupon = .ok (-0.02 * (184 / 365) * 1) := by
      show (do let f ← frac (day0 2021 7 1) (day0 2022 1 1) .actual365Fixed; Except.ok (-0.02 * f * 1) : Res ℝ) = _
      rw [irs_frac, Res.bind_ok]
    rw [this, Res.bind_ok]
    rfl
  have f2 : ∃ x, irsTerms.floatFlows .checked (m.fixings fxfFixed (some "U") (some "N")) m.w.date = .ok [(day0 2022 1 1, x)] := by
    refine ⟨(s + 0) * (184 / 365) * irsTerms.floatBase m.w.date, ?_⟩
    have hp : irsTerms.floatPrincipal m.w.date = [] := by rw [floatPrincipal_eq]; rfl
    show flowLoop Coupon.payment (irsTerms.floatAmount .checked (m.fixings fxfFixed (some "U") (some "N")) m.w.date ['6', 'M']) m.w.date [irsCoupon] (irsTerms.floatPrincipal m.w.date) = _
    rw [hp, hm]
    unfold flowLoop
    rw [if_neg (show ¬ irsCoupon.payment.day < m.w.date.day from t3)]
    have : irsTerms.floatAmount .checked { fwd := some { curve := a, eval := m.w.date }, close := fxfFixed.past "N" } m.w.date ['6', 'M'] irsCoupon = .ok ((s + 0) * (184 / 365) * irsTerms.floatBase m.w.date) := by
      unfold Swap.floatAmount
      dsimp only
      have hcomp : irsTerms.comp = none := rfl
      rw [hcomp, ham, Res.bind_ok]
    rw [this, Res.bind_ok]
    rfl
  obtain ⟨x1, f1⟩ := f1
  obtain ⟨x2, f2⟩ := f2
  obtain ⟨p, hp⟩ : ∃ p : SwapPricer, p = { eval := m.w.date, fixedCurve := b, floatCurve := b, mkt := m.fixings fxfFixed (some "U") (some "N"), fx := none } := ⟨_, rfl⟩
  rw [← hp] at hP
  have hparts : ∃ u v, SwapParts .checked p irsTerms [(day0 2022 1 1, x1)] [(day0 2022 1 1, x2)] u v := by
    subst hp
    refine ⟨_, _, f1, f2, (discounted_iff _ _ _ _ _).2 ⟨fun z hz _ => ?_, rfl⟩, (discounted_iff _ _ _ _ _).2 ⟨fun z hz _ => ?_, rfl⟩⟩
    · rw [List.mem_singleton.1 hz]; exact ⟨y, hy⟩
    · rw [List.mem_singleton.1 hz]; exact ⟨y, hy⟩
  obtain ⟨u, v, hparts⟩ := hparts
  have hn := (swap_npv_iff .checked p irsTerms _).2 ⟨_, _, u, v, hparts, rfl⟩
  have hr := (swap_result_iff .checked p irsTerms _).2 ⟨_, _, u, v, hparts, rfl⟩
  obtain ⟨e, he⟩ := (C65_exposure .checked p irsTerms hne hc hc').1.1 ⟨_, hn⟩
  obtain ⟨r, hr', hrn, fl, hfl⟩ : ∃ r, p.result .checked irsTerms = .ok r ∧ p.npv .checked irsTerms = .ok r.npv ∧ ∃ fl, r.expected = .ok fl :=
    ⟨_, hr, hn, _, expected_fold _ _ (fun z hz => List.mem_map.2 ⟨z, hz, rfl⟩) _⟩
  refine ⟨r, fl, e, ?_, hfl, ?_, ?_⟩
  rotate_left
  · show (do let z ← m.swapPricer fxfFixed "Dummy" "Dummy" (some "U") (some "N") none; z.npv .checked irsTerms) = _
    rw [hP, Res.bind_ok]
    exact hrn
  · show (do let z ← m.swapPricer fxfFixed "Dummy" "Dummy" (some "U") (some "N") none; z.exposure .checked irsTerms) = _
    rw [hP, Res.bind_ok]
    exact he
  · show (do let z ← m.swapPricer fxfFixed "Dummy" "Dummy" (some "U") (some "N") none; z.result .checked irsTerms) = _
    rw [hP, Res.bind_ok]
    exact hr'

/-- All hypotheses of `C182_rho` are met by this engine. -/
theorem index_witness : (∃ M, OwnCodes irsEngine ∧ SoundMkt irsEngine [day0 2021 7 1, day0 2022 1 1, day0 2023 1 1] M ∧
    PricedAs irsEngine fxfFixed { twinLoaded with pasts := fun _ => true, curves := fun _ => true } true irsInstr (.swap "Dummy" "Dummy" (some "U") (some "N") none) (.swap irsTerms) ∧
    irsInstr ∈ irsEngine.insts ∧ irsEngine.conf.npv = true ∧ irsEngine.conf.rho = true ∧ 0 < irsEngine.conf.rhoBump ∧
    ∃ e', calculate irsEngine [] { mkt := M, action := irsEngine.insts, results := freshResults irsEngine.insts fun _ => none } = .ok e') ∧
    (irsTerms.eff.instant ≠ irsTerms.maturity.instant ∧ Coherent (legDates irsTerms irsTerms.fixedLegs) ∧ Coherent (legDates irsTerms irsTerms.floatLegs) ∧ IsKind irsTerms .irs) ∧
    irsEngine.p.rateForward "I" = some "U" ∧ irsTerms.initFloat = none ∧ 0 ≤ irsInstr.notional ∧
    ∀ mk l d tenor, ∀ x ∈ irsTerms.floatLegs, CouponMild .checked (floatEnv irsTerms mk l d tenor) irsTerms.comp none x := by
  refine ⟨?_, irs_dates, rfl, rfl, by show (0 : ℝ) ≤ 100; norm_num, ?_⟩
  rotate_left
  · intro mk l d tenor x hx
    have hx' : x ∈ [irsCoupon] := hx
    rw [List.mem_singleton] at hx'
    subst hx'
    refine ⟨fun f hf => ?_, fun cm h => ?_⟩
    · have hf' : frac (day0 2021 7 1) (day0 2022 1 1) .actual365Fixed = .ok f := hf
      rw [irs_frac] at hf'
      rw [← Except.ok.inj hf']
      norm_num
    · have h' : (none : Option (List Char)) = some cm := h
      cases h'
  obtain ⟨a, han, oka, ⟨ta, hta, hta'⟩, -⟩ := sample_curve 0.03
  obtain ⟨b, hbn, okb, ⟨tb, htb, htb'⟩, -⟩ := sample_curve 0.01
  have hcs : ∀ n c', (irsMarket a.blank b.blank).curves n = some c' → (n = "U" ∧ c' = a.blank) ∨ (n = "Dummy" ∧ c' = b.blank) := by
    intro n c' h
    change (if n = "U" then some a.blank else if n = "Dummy" then some b.blank else none) = some c' at h
    by_cases h1 : n = "U"
    · rw [if_pos h1] at h; exact Or.inl ⟨h1, (Option.some.inj h).symm⟩
    · rw [if_neg h1] at h
      by_cases h2 : n = "Dummy"
      · rw [if_pos h2] at h; exact Or.inr ⟨h2, (Option.some.inj h).symm⟩
      · rw [if_neg h2] at h; cases h
  have hM : SoundMkt irsEngine [day0 2021 7 1, day0 2022 1 1, day0 2023 1 1] (irsMarket a.blank b.blank) := by
    refine ⟨?_, ?_, ?_, ⟨?_, ?_, ?_, ?_⟩, ?_, ?_⟩
    · intro n c' h
      rcases hcs n c' h with ⟨-, rfl⟩ | ⟨-, rfl⟩
      · exact ⟨curveOk_blank a oka, rfl, sample_times _ a han⟩
      · exact ⟨curveOk_blank b okb, rfl, sample_times _ b hbn⟩
    · intro u v h; cases h
    · intro u k h; cases h
    · intro p hp; cases hp
    · intro p hp; cases hp
    · intro p hp; cases hp
    · intro p hp; cases hp
    · show calcDates .checked (day0 2021 1 1) [['6', 'M'], ['1', 'Y'], ['2', 'Y']] = _
      decide +kernel
    · intro u s h; cases h
  have hg : OwnCodes irsEngine := by
    show ([_].map Instr.code).Nodup
    simp
  have hroles : ∀ i ∈ irsEngine.insts, curveRoles irsEngine.p i = [some "U", some "U"] ∧ i.unds = [] ∧ i.maturity = some (day0 2022 1 1) := by
    intro i hi
    have hi' : i ∈ [irsInstr] := hi
    rw [List.mem_singleton] at hi'
    subst hi'
    exact ⟨rfl, rfl, rfl⟩
  have hr : calcDates .checked (day0 2021 1 1) [['1', 'Y'], ['3', 'Y']] = .ok [day0 2022 1 1, day0 2024 1 1] := by decide +kernel
  have t1 : timeFrom (day0 2021 1 1) (day0 2022 1 1) = 1 := by
    have : timeDifference (day0 2021 1 1) (day0 2022 1 1) = 1 := by decide +kernel
    unfold timeFrom; rw [this]; norm_num
  have t3 : timeFrom (day0 2021 1 1) (day0 2024 1 1) = 400769 / 133590 := by
    have : timeDifference (day0 2021 1 1) (day0 2024 1 1) = 400769 / 133590 := by decide +kernel
    unfold timeFrom; rw [this]; norm_num
  have hb : (day0 2021 1 1).addNs (1 * dayNs) = .ok (day0 2021 1 2) := by decide +kernel
  have hlate : (day0 2021 1 2).instant < (day0 2022 1 1).instant := by decide +kernel
  have hsd : (irsMarket a.blank b.blank).w.setDate (day0 2021 1 2) = .ok { date := day0 2021 1 2, prices := [], divs := [] } := rfl
  have hC : Complete irsEngine [] (irsMarket a.blank b.blank) := by
    refine ⟨?_, ?_, ?_, ?_, ?_, ?_, ?_, ?_, ?_, ?_⟩
    · intro i hi u hu; rw [(hroles i hi).2.1] at hu; cases hu
    · intro i hi; unfold CurvesNamed; rw [(hroles i hi).1]; simp
    · rintro i hi n ⟨-, hn⟩
      rw [(hroles i hi).1] at hn
      simp at hn
      rw [hn]; exact ⟨a.blank, rfl⟩
    · intro i hi _ u hu; rw [(hroles i hi).2.1] at hu; cases hu
    · intro i hi _ u hu; rw [(hroles i hi).2.1] at hu; cases hu
    · intro u hu; cases hu
    · refine ⟨?_, ?_, ?_, ?_, ?_⟩ <;> simp [irsEngine, fxfEngine, demoConf] <;> norm_num
    · refine ⟨_, hr, fun k hk => ?_⟩
      show (startOf [timeFrom (day0 2021 1 1) (day0 2022 1 1), timeFrom (day0 2021 1 1) (day0 2024 1 1)] k).getD (-99999999)
        ≤ ([timeFrom (day0 2021 1 1) (day0 2022 1 1), timeFrom (day0 2021 1 1) (day0 2024 1 1)][k]?).getD 99999999
      rw [t1, t3]
      have hk : k < 2 := hk
      interval_cases k
      · simp [startOf]; norm_num
      · simp [startOf]; norm_num
    · refine ⟨_, hr, fun k hk => ?_⟩
      have hk : k < 2 := hk
      unfold WindowOk
      interval_cases k <;> decide +kernel
    · refine ⟨day0 2021 1 2, hb, fun i hi ht d hd => ?_⟩
      have hde : d = day0 2021 1 2 := by
        rcases hd with ⟨-, rfl⟩ | ⟨⟨m, hm, hle⟩, -⟩
        · rfl
        · rw [(hroles i hi).2.2] at hm
          obtain rfl := Option.some.inj hm
          omega
      subst hde
      refine ⟨⟨_, hsd⟩, ?_⟩
      have : timeDifference (day0 2021 1 1) (day0 2021 1 2) = 1 / 365 := by decide +kernel
      show ((timeDifference (day0 2021 1 1) (day0 2021 1 2) : ℚ) : ℝ) ≠ 0
      rw [this]
      norm_num
  have ubase : IrsCurves (irsMarket a.blank b.blank) := ⟨⟨a.blank, rfl, curveOk_blank a oka, ta, hta, hta'⟩, ⟨b.blank, rfl, curveOk_blank b okb, tb, htb, htb'⟩, Or.inl rfl⟩
  have hR : Visits irsEngine [day0 2021 7 1, day0 2022 1 1, day0 2023 1 1] (irsMarket a.blank b.blank) IrsCurves := by
    refine ⟨ubase, ?_, ?_, ?_, ?_, ?_, ?_⟩
    · rintro u k m hk ⟨j, p, hj, -⟩; cases hj
    · rintro n win m ⟨c0, c1, h0, h1, -, h3, -, rfl⟩
      rcases hcs _ _ h0 with ⟨rfl, rfl⟩ | ⟨rfl, rfl⟩
      · refine ⟨⟨c1, by show ((irsMarket a.blank b.blank).curves.put "U" c1) "U" = _; exact put_self _ _ _, h1, ta, ?_, hta'⟩,
          ⟨b.blank, by show ((irsMarket a.blank b.blank).curves.put "U" c1) "Dummy" = _; rw [put_other _ _ _ _ (by decide)]; rfl, curveOk_blank b okb, tb, htb, htb'⟩, ubase.date⟩
        rw [h3]
        exact hta
      · refine ⟨⟨a.blank, by show ((irsMarket a.blank b.blank).curves.put "Dummy" c1) "U" = _; rw [put_other _ _ _ _ (by decide)]; rfl, curveOk_blank a oka, ta, hta, hta'⟩,
          ⟨c1, by show ((irsMarket a.blank b.blank).curves.put "Dummy" c1) "Dummy" = _; exact put_self _ _ _, h1, tb, ?_, htb'⟩, ubase.date⟩
        rw [h3]
        exact htb
    · rintro u win b m - ⟨s0, s1, env, h0, -⟩; cases h0
    · rintro u win m ⟨k, w, w', f, h0, -⟩; cases h0
    · rintro b' i d w hb' hi - hd hw
      have hbe : b' = day0 2021 1 2 := Except.ok.inj (hb'.symm.trans hb)
      subst hbe
      have hde : d = day0 2021 1 2 := by
        rcases hd with ⟨-, rfl⟩ | ⟨⟨m, hm, hle⟩, -⟩
        · rfl
        · rw [(hroles i hi).2.2] at hm
          obtain rfl := Option.some.inj hm
          omega
      subst hde
      rw [hsd] at hw
      obtain rfl := Except.ok.inj hw
      exact ⟨ubase.a, ubase.b, Or.inr rfl⟩
    · rintro m ⟨h1, -, -, -⟩
      rw [h1]
      exact ⟨ubase.a, ubase.b, ubase.date⟩
  have hP : CanPriceIn irsEngine (irsMarket a.blank b.blank) IrsCurves := by
    intro i hi
    have hi' : i ∈ [irsInstr] := hi
    rw [List.mem_singleton] at hi'
    subst hi'
    obtain ⟨r, fl, ex, x1, x2, x3, x4⟩ := irs_price _ ubase
    refine ⟨_, r, fl, rfl, fun m hm => ?_, x1, x2, ex, x4⟩
    obtain ⟨r', -, -, -, -, x3', -⟩ := irs_price m hm
    exact ⟨_, x3'⟩
  exact ⟨irsMarket a.blank b.blank, hg, hM, ⟨rfl, rfl⟩, List.mem_singleton.2 rfl, rfl, rfl, by show (0 : ℝ) < 0.0001; norm_num,
    C97_succeeds_in irsEngine hg [] List.nodup_nil _ _ hM hC IrsCurves hR hP rfl⟩

/-- A compounding coupon of two known days, for `C182_coupon`: nothing of it is negative, at any index curve. -/
theorem compounding_mild (l : Live) : CouponMild .checked
    { fwd := l, close := fun _ => some 0.01, pricing := day0 2021 1 1, tenor := ['1', 'D'], hol := fun _ => .ok false, dcc := .actual365Fixed, fixDays := 0 }
      (some ['1', 'D']) none { fixing := day0 2020 12 30, start := day0 2020 12 30, stop := day0 2021 1 1, payment := day0 2021 1 1 } := by
  have hf : ∀ a b q, yearFraction a b .actual365Fixed = .ok q → frac a b .actual365Fixed = .ok (q : ℝ) := by
    intro a b q h
    unfold frac
    rw [h, Res.bind_ok]
  have f1 := hf (day0 2020 12 30) (day0 2020 12 31) (1 / 365) (by decide +kernel)
  have f2 := hf (day0 2020 12 31) (day0 2021 1 1) (1 / 365) (by decide +kernel)
  have f3 := hf (day0 2020 12 30) (day0 2021 1 1) (2 / 365) (by decide +kernel)
  have ht : Tiled .checked ['1', 'D'] (day0 2021 1 1) (day0 2020 12 30) [(day0 2020 12 30, day0 2020 12 31), (day0 2020 12 31, day0 2021 1 1)] := by
    refine .step _ (day0 2020 12 31) _ _ (by decide +kernel) (by decide +kernel) (by decide +kernel) (by decide +kernel) ?_
    refine .step _ (day0 2021 1 1) _ _ (by decide +kernel) (by decide +kernel) (by decide +kernel) (by decide +kernel) ?_
    exact .done _ (by decide +kernel)
  refine ⟨fun f h => ?_, fun cm hcm _ e spot _ _ ps hps p hp f h => ?_⟩
  · rw [f3] at h
    rw [← Except.ok.inj h]
    norm_num
  · cases hcm
    rw [tiled_unique _ _ _ _ _ _ hps ht] at hp
    have key : ∀ d, d = day0 2020 12 30 ∨ d = day0 2020 12 31 → f = 1 / 365 → ∀ r, SubRateIs .checked
        { fwd := l, close := fun _ => some 0.01, pricing := day0 2021 1 1, tenor := ['1', 'D'], hol := fun _ => .ok false, dcc := .actual365Fixed, fixDays := 0 } spot d r → 0 ≤ 1 + (r + 0) * f := by
      rintro d hd hf r ⟨x, fix, x1, x2, x3, -⟩
      dsimp only at x1 x2 x3
      have hx : x = d := by
        have : d.addDays (-0) = .ok d := by rcases hd with rfl | rfl <;> decide +kernel
        rw [this] at x1
        exact (Except.ok.inj x1).symm
      subst hx
      have hfx : fix = x := by
        rw [C43_business_day _ _ (by rcases hd with rfl | rfl <;> decide +kernel) rfl .preceding] at x2
        exact (Except.ok.inj x2).symm
      subst hfx
      rw [x3 (by rcases hd with rfl | rfl <;> decide +kernel), hf]
      norm_num
    simp only [List.mem_cons, List.not_mem_nil, or_false] at hp
    rcases hp with rfl | rfl
    · rw [f1] at h
      have h' : f = 1 / 365 := by rw [← Except.ok.inj h]; norm_num
      exact ⟨by rw [h']; norm_num, key _ (Or.inl rfl) h'⟩
    · rw [f2] at h
      have h' : f = 1 / 365 := by rw [← Except.ok.inj h]; norm_num
      exact ⟨by rw [h']; norm_num, key _ (Or.inr rfl) h'⟩

end Verif.Props

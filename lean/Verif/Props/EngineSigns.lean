import Verif.Props.EngineLinear
/-!
# C158: the signs of vegas, deltas, gammas and rhos
-/
set_option autoImplicit false
namespace Verif.Props
open Verif Verif.QL Verif.Civil MeasureTheory ProbabilityTheory

/-! ## Expected payoffs -/

/-- Specification: the expected payoff of an option on a lognormal price with mean `F` and deviation `v` of its logarithm. -/
noncomputable def expectedPayoff (o : Vanilla) (F v : ℝ) : ℝ := if o.call then expectedCall F o.strike v else expectedPut F o.strike v

theorem expectedCall_zero (F K : ℝ) : expectedCall F K 0 = max (F - K) 0 := by
  unfold expectedCall
  simp

theorem expectedPut_zero (F K : ℝ) : expectedPut F K 0 = max (K - F) 0 := by
  unfold expectedPut
  simp

/-- More volatility, more expected payoff. -/
theorem expectedPayoff_mono (o : Vanilla) (F v v' : ℝ) (hF : 0 < F) (hK : 0 < o.strike) (hv : 0 ≤ v) (h : v ≤ v') : expectedPayoff o F v ≤ expectedPayoff o F v' := by
  have hc : expectedCall F o.strike v ≤ expectedCall F o.strike v' := by
    rcases hv.lt_or_eq with q | q
    · exact (expectedCall_strictMono F o.strike hF hK).monotoneOn q (q.trans_le h) h
    · rw [← q, expectedCall_zero]
      have p1 := expected_parity F o.strike v'
      exact max_le (by linarith [expectedPut_nonneg F o.strike v']) (expectedCall_nonneg _ _ _)
  unfold expectedPayoff
  have p1 := expected_parity F o.strike v
  have p2 := expected_parity F o.strike v'
  split <;> linarith

/-- The expected payoff is convex in the forward: twice that of the middle is at most that of the ends. -/
theorem expectedCall_middle (F a K v : ℝ) : 2 * expectedCall F K v ≤ expectedCall (F + a) K v + expectedCall (F - a) K v := by
  unfold expectedCall
  rw [← integral_add (call_integrable _ _ _) (call_integrable _ _ _), ← integral_const_mul]
  apply integral_mono ((call_integrable F K v).const_mul 2) ((call_integrable _ _ _).add (call_integrable _ _ _))
  intro z
  set e := Real.exp (v * z - v ^ 2 / 2)
  show 2 * max (F * e - K) 0 ≤ max ((F + a) * e - K) 0 + max ((F - a) * e - K) 0
  have h1 := le_max_left ((F + a) * e - K) 0
  have h2 := le_max_right ((F + a) * e - K) 0
  have h3 := le_max_left ((F - a) * e - K) 0
  have h4 := le_max_right ((F - a) * e - K) 0
  rcases max_cases (F * e - K) 0 with ⟨q, -⟩ | ⟨q, -⟩ <;> rw [q] <;> linarith

theorem expectedPayoff_middle (o : Vanilla) (F a v : ℝ) : 2 * expectedPayoff o F v ≤ expectedPayoff o (F + a) v + expectedPayoff o (F - a) v := by
  have h := expectedCall_middle F a o.strike v
  have p1 := expected_parity F o.strike v
  have p2 := expected_parity (F + a) o.strike v
  have p3 := expected_parity (F - a) o.strike v
  unfold expectedPayoff
  split <;> linarith

theorem expectedPut_forward_anti (F F' K v : ℝ) (h : F ≤ F') : expectedPut F' K v ≤ expectedPut F K v := by
  apply integral_mono (put_integrable F' K v) (put_integrable F K v)
  intro z
  refine max_le_max ?_ (le_refl _)
  have := mul_le_mul_of_nonneg_right h (Real.exp_pos (v * z - v ^ 2 / 2)).le
  linarith

/-- A price is a discounted expected payoff, also with no time or volatility left. -/
theorem option_expected (p : OptionPricer) (o : Vanilla) (hq : p.quanto = none) (hK : 0 < o.strike) (hd : CurveOk p.disc) (hs : ∀ t x y, p.vol.value t x = .ok y → 0 ≤ y)
    (x : ℝ) (h : p.npv o = .ok x) : ∃ F s D, PricedWith p o F (timeFrom p.env.eval o.maturity) s D ∧ 0 < F ∧ 0 ≤ timeFrom p.env.eval o.maturity ∧ 0 < D ∧ 0 ≤ s ∧
      x = D * expectedPayoff o F (s * Real.sqrt (timeFrom p.env.eval o.maturity)) := by
  have h' := h
  unfold OptionPricer.npv at h'
  obtain ⟨F, hF, h1⟩ := (bind_ok_iff _ _ _).1 h'
  obtain ⟨k, hk, h2⟩ := (bind_ok_iff _ _ _).1 h1
  dsimp only at h2
  obtain ⟨var, hvar, h3⟩ := (bind_ok_iff _ _ _).1 h2
  obtain ⟨dev, hdev, h4⟩ := (bind_ok_iff _ _ _).1 h3
  by_cases hc : o.ccy ≠ o.undCcy ∧ p.quanto.isNone
  · rw [if_pos hc] at h4; cases h4
  have hcc : o.ccy = o.undCcy := by
    by_contra hcon
    exact hc ⟨hcon, by rw [hq]; rfl⟩
  rw [if_neg hc] at h4
  obtain ⟨s, hvol, h5⟩ := (bind_ok_iff _ _ _).1 h4
  rw [hq] at h5
  obtain ⟨adj, -, h6⟩ := (bind_ok_iff _ _ _).1 h5
  obtain ⟨l, hl, h7⟩ := (bind_ok_iff _ _ _).1 h6
  obtain ⟨D, hD, -⟩ := (bind_ok_iff _ _ _).1 h7
  have hk' : F ≠ 0 ∧ k = o.strike / F := by
    unfold divK at hk
    split at hk
    · cases hk
    · exact ⟨by assumption, (Except.ok.inj hk).symm⟩
  obtain ⟨hF0, rfl⟩ := hk'
  have hpos : 0 < o.strike / F := by
    unfold lnK at hl
    split at hl
    · cases hl
    · linarith
  have hFp : 0 < F := by
    rcases lt_trichotomy F 0 with q | q | q
    · exact absurd (div_neg_of_pos_of_neg hK q) (by linarith)
    · exact absurd q hF0
    · exact q
  have htwo := hd.two
  obtain ⟨-, -, hr, herr⟩ := C57_range p.disc hd _ (List.getElem?_eq_getElem (by omega : p.disc.times.length - 1 < p.disc.times.length))
  have ht : 0 ≤ timeFrom p.env.eval o.maturity ∧ timeFrom p.env.eval o.maturity < p.disc.times[p.disc.times.length - 1] := by
    by_contra hcon
    rw [herr _ (by by_contra hh; push Not at hh; exact hcon hh)] at hD
    cases hD
  have hDp : 0 < D := by
    obtain ⟨y, hy, hy'⟩ := hr _ ht.1 ht.2
    rw [hD] at hy
    obtain rfl := Except.ok.inj hy
    exact hy'
  have hs0 := hs _ _ _ hvol
  have hw : PricedWith p o F (timeFrom p.env.eval o.maturity) s D := ⟨hF, rfl, hvol, hD⟩
  refine ⟨F, s, D, hw, hFp, ht.1, hDp, hs0, ?_⟩
  by_cases h0 : timeFrom p.env.eval o.maturity = 0 ∨ s = 0
  · have hdz : s * Real.sqrt (timeFrom p.env.eval o.maturity) = 0 := by rcases h0 with q | q <;> simp [q]
    obtain ⟨e1, e2⟩ := C72_expiry p o F _ s D hw ht.1 h0 hFp hK hcc hq
    by_cases hKF : o.strike = F
    · rw [e2 hKF] at h; cases h
    · rw [e1 hKF] at h
      rw [← Except.ok.inj h, hdz]
      unfold expectedPayoff
      rw [expectedCall_zero, expectedPut_zero]
  · push Not at h0
    have e := C72_value p o F _ s D hw (lt_of_le_of_ne ht.1 (Ne.symm h0.1)) (lt_of_le_of_ne hs0 (Ne.symm h0.2)) hFp hK hcc hq
    rw [e] at h
    exact (Except.ok.inj h).symm

/-! ## Higher surfaces -/

theorem polyline_mono (dom val val' : List ℝ) (hs : dom.Pairwise (· < ·)) (hl : dom.length = val.length) (hl' : dom.length = val'.length) (hd : dom ≠ [])
    (hv : ∀ (i : Nat) v v', val[i]? = some v → val'[i]? = some v' → v ≤ v') (x y y' : ℝ) (h : Polyline dom val x y) (h' : Polyline dom val' x y') : y ≤ y' := by
  have key : ∃ z, Polyline dom val' x z ∧ y ≤ z := by
    rcases h with ⟨a, v, ha, hb, hx, rfl⟩ | ⟨i, a, b, v, w, ha, hb, h3, h4, h1, h2, rfl⟩ | ⟨a, v, ha, hb, hx, rfl⟩
    · obtain ⟨k, -⟩ := List.getElem?_eq_some_iff.1 hb
      have e := List.getElem?_eq_getElem (by omega : 0 < val'.length)
      exact ⟨_, Or.inl ⟨a, _, ha, e, hx, rfl⟩, hv 0 _ _ hb e⟩
    · obtain ⟨k, -⟩ := List.getElem?_eq_some_iff.1 h4
      have e1 := List.getElem?_eq_getElem (by omega : i < val'.length)
      have e2 := List.getElem?_eq_getElem (by omega : i + 1 < val'.length)
      refine ⟨_, Or.inr (Or.inl ⟨i, a, b, _, _, ha, hb, e1, e2, h1, h2, rfl⟩), ?_⟩
      have q1 := hv i _ _ h3 e1
      have q2 := hv (i + 1) _ _ h4 e2
      have r0 : 0 ≤ (x - a) / (b - a) := div_nonneg (by linarith) (by linarith)
      have r1 : (x - a) / (b - a) ≤ 1 := (div_le_one (by linarith)).2 (by linarith)
      nlinarith
    · obtain ⟨k, -⟩ := List.getElem?_eq_some_iff.1 hb
      have e := List.getElem?_eq_getElem (by omega : dom.length - 1 < val'.length)
      exact ⟨_, Or.inr (Or.inr ⟨a, _, ha, e, hx, rfl⟩), hv _ _ _ hb e⟩
  obtain ⟨z, hz, hyz⟩ := key
  rw [polyline_unique dom val' hs hl' hd x y' z h' hz]
  exact hyz

theorem surfaceAt_mono (times : List ℝ) (axes vols vols' : List (List ℝ)) (ht : times.Pairwise (· < ·)) (hne : times ≠ [])
    (ha : axes.length = times.length) (hv : vols.length = times.length) (hv' : vols'.length = times.length)
    (hr : ∀ (i : Nat) (ax row : List ℝ), axes[i]? = some ax → vols[i]? = some row → ax.Pairwise (· < ·) ∧ ax ≠ [] ∧ ax.length = row.length)
    (hr' : ∀ (i : Nat) (ax row : List ℝ), axes[i]? = some ax → vols'[i]? = some row → ax.Pairwise (· < ·) ∧ ax ≠ [] ∧ ax.length = row.length)
    (hc : ∀ (i j : Nat) v v', cell vols i j = some v → cell vols' i j = some v' → v ≤ v')
    (t x y y' : ℝ) (h : SurfaceAt times axes vols t x y) (h' : SurfaceAt times axes vols' t x y') : y ≤ y' := by
  obtain ⟨ys, l, hy, hp⟩ := h
  obtain ⟨ys', l', hy', hp'⟩ := h'
  refine polyline_mono times ys ys' ht l.symm l'.symm hne (fun i v v' e e' => ?_) t y y' hp hp'
  obtain ⟨hi, -⟩ := List.getElem?_eq_some_iff.1 e
  have e1 : axes[i]? = some axes[i] := List.getElem?_eq_getElem (by omega)
  have e2 : vols[i]? = some vols[i] := List.getElem?_eq_getElem (by omega)
  have e3 : vols'[i]? = some vols'[i] := List.getElem?_eq_getElem (by omega)
  obtain ⟨a, b, c⟩ := hr i _ _ e1 e2
  obtain ⟨-, -, c'⟩ := hr' i _ _ e1 e3
  refine polyline_mono _ _ _ a c c' b (fun j w w' g g' => hc i j w w' ?_ ?_) x v v' (hy i _ _ _ e1 e2 e) (hy' i _ _ _ e1 e3 e')
  · unfold cell; rw [e2]; exact g
  · unfold cell; rw [e3]; exact g'

/-- Specification: no volatility of the surface of `u` is negative. -/
def NonnegVols (M : Mkt) (u : String) : Prop := ∀ s, M.vols u = some (.surface s) → ∀ r ∈ s.vols, ∀ v ∈ r, 0 ≤ v

theorem volShifted_self (M : Mkt) (u : String) (b : ℝ) (hM : GoodVols M) (w : Vol) (hw : M.vols u = some w) : VolShifted u (fun _ _ => False) b M M := by
  obtain ⟨s, env, fs, rfl, g1, g2, g3, -⟩ := hM u w hw
  refine ⟨s, s, env, hw, g1, g2, g3, rfl, fun i j t x v _ _ hv => ?_, ?_⟩
  · simp only [if_false]; exact hv
  · have : M.vols.put u (.surface s) = M.vols := by
      funext k
      by_cases e : k = u
      · rw [e, put_self, hw]
      · exact put_other _ _ _ _ e
    rw [this]

/-- Surfaces raised in more places are higher everywhere. -/
theorem volShifted_mono (M m m' : Mkt) (u : String) (win win' : ℝ → ℝ → Prop) (b : ℝ) (hb : 0 ≤ b) (hM : GoodVols M) (hp : NonnegVols M u)
    (h : VolShifted u win b M m) (h' : VolShifted u win' b M m') (hw : ∀ t x, win t x → win' t x) :
    ∃ v v', m.vols u = some v ∧ m'.vols u = some v' ∧ (∀ t x y, v.value t x = .ok y → 0 ≤ y) ∧ (∀ t x y, v'.value t x = .ok y → 0 ≤ y) ∧
      ∀ t x y y', v.value t x = .ok y → v'.value t x = .ok y' → y ≤ y' := by
  obtain ⟨s, s1, env, h0, h1, h2, h3, h4, h5, rfl⟩ := h
  obtain ⟨s', s2, env', k0, k1, k2, k3, k4, k5, rfl⟩ := h'
  rw [h0] at k0
  obtain rfl := Vol.surface.inj (Option.some.inj k0)
  rw [h1] at k1
  obtain rfl := Except.ok.inj k1
  obtain ⟨s3, env', fs, g0, g1, g2, -, g4⟩ := hM u _ h0
  obtain rfl := Vol.surface.inj g0
  rw [h1] at g1
  obtain rfl := Except.ok.inj g1
  have hfw : ∀ z : Surf, z = { s with vols := z.vols, interp := z.interp } → Forwards env (builtAt env z) z.dates fs ∧ z.times = s.times ∧ z.mon = s.mon ∧ z.spot = s.spot := by
    intro z hz
    have e1 : z.dates = s.dates := by rw [hz]
    have e2 : builtAt env z = builtAt env s := by rw [hz]; rfl
    refine ⟨by rw [e1, e2]; exact g4, ?_, ?_, ?_⟩ <;> rw [hz]
  obtain ⟨f1, t1, m1, p1⟩ := hfw s1 h4
  obtain ⟨f2, t2, m2, p2⟩ := hfw s2 k4
  have fpos := (forwards_mapRes env _ _ fs g4).2.1
  have flen := (forwards_mapRes env _ _ fs g4).2.2
  obtain ⟨r1, a1, -, a3⟩ := C74_value env s1 h2 fs f1
  rw [h3] at a1
  obtain rfl := Except.ok.inj a1
  obtain ⟨r2, b1, -, b3⟩ := C74_value env s2 k2 fs f2
  rw [k3] at b1
  obtain rfl := Except.ok.inj b1
  have cells : ∀ (i j : Nat) w, (cell s1.vols i j = some w ∨ cell s2.vols i j = some w) → ∃ t x v, s.times[i]? = some t ∧ s.mon[j]? = some x ∧ cell s.vols i j = some v := by
    have : ∀ (z : Surf), GoodSurf z → z.times = s.times → z.mon = s.mon → ∀ (i j : Nat) w, cell z.vols i j = some w →
        ∃ t x v, s.times[i]? = some t ∧ s.mon[j]? = some x ∧ cell s.vols i j = some v := by
      intro z hz e1 e2 i j w hcw
      unfold cell at hcw
      obtain ⟨row, hrow, hj⟩ := Option.bind_eq_some_iff.1 hcw
      obtain ⟨hi, rfl⟩ := List.getElem?_eq_some_iff.1 hrow
      obtain ⟨hj', -⟩ := List.getElem?_eq_some_iff.1 hj
      have l1 := hz.rows
      have l2 := hz.cols _ (List.mem_of_getElem? hrow)
      rw [e1] at l1
      rw [e2] at l2
      have l3 := g2.rows
      have hi' : i < s.vols.length := by omega
      have l4 := g2.cols _ (List.getElem_mem hi')
      refine ⟨_, _, (s.vols[i]'hi')[j]'(by omega), List.getElem?_eq_getElem (by omega), List.getElem?_eq_getElem (by omega), ?_⟩
      unfold cell
      rw [List.getElem?_eq_getElem hi']
      exact List.getElem?_eq_getElem (by omega)
    rintro i j w (q | q)
    · exact this s1 h2 t1 m1 i j w q
    · exact this s2 k2 t2 m2 i j w q
  have scell : ∀ (i j : Nat) v, cell s.vols i j = some v → 0 ≤ v := by
    intro i j v hv
    unfold cell at hv
    obtain ⟨row, hrow, hj⟩ := Option.bind_eq_some_iff.1 hv
    exact hp s h0 row (List.mem_of_getElem? hrow) v (List.mem_of_getElem? hj)
  have mem_cell : ∀ (l : List (List ℝ)), ∀ r ∈ l, ∀ v ∈ r, ∃ i j : Nat, cell l i j = some v := by
    intro l r hr v hv
    obtain ⟨i, hi, rfl⟩ := List.getElem_of_mem hr
    obtain ⟨j, hj, rfl⟩ := List.getElem_of_mem hv
    exact ⟨i, j, by unfold cell; rw [List.getElem?_eq_getElem hi]; exact List.getElem?_eq_getElem hj⟩
  have nn1 : ∀ (i j : Nat) v, cell s1.vols i j = some v → 0 ≤ v := by
    intro i j v hv
    obtain ⟨t, x, w, q1, q2, q3⟩ := cells i j v (Or.inl hv)
    rw [h5 i j t x w q1 q2 q3] at hv
    rw [← Option.some.inj hv]
    have := scell i j w q3
    split <;> linarith
  have nn2 : ∀ (i j : Nat) v, cell s2.vols i j = some v → 0 ≤ v := by
    intro i j v hv
    obtain ⟨t, x, w, q1, q2, q3⟩ := cells i j v (Or.inr hv)
    rw [k5 i j t x w q1 q2 q3] at hv
    rw [← Option.some.inj hv]
    have := scell i j w q3
    split <;> linarith
  have nonneg : ∀ (z : Surf), GoodSurf z → z.times = s.times → z.mon = s.mon → z.spot = s.spot → (∀ (i j : Nat) v, cell z.vols i j = some v → 0 ≤ v) →
      ∀ t x y, SurfaceAt z.times (fs.map (axis z.mon z.spot)) z.vols t x y → 0 ≤ y := by
    intro z hz e1 e2 e3 hn t x y hy
    have l1 := hz.rows
    have l2 := g2.dates
    have hmax : ∃ hi, ∀ r ∈ z.vols, ∀ v ∈ r, v ≤ hi := by
      have : ∀ l : List (List ℝ), ∃ hi : ℝ, ∀ r ∈ l, ∀ v ∈ r, v ≤ hi := by
        intro l
        have inner : ∀ r : List ℝ, ∃ hi : ℝ, ∀ v ∈ r, v ≤ hi := by
          intro r
          induction r with
          | nil => exact ⟨0, by simp⟩
          | cons a r ih =>
            obtain ⟨hi, h⟩ := ih
            refine ⟨max a hi, fun v hv => ?_⟩
            rcases List.mem_cons.1 hv with rfl | hv
            · exact le_max_left _ _
            · exact (h v hv).trans (le_max_right _ _)
        induction l with
        | nil => exact ⟨0, by simp⟩
        | cons a l ih =>
          obtain ⟨hi, h⟩ := ih
          obtain ⟨k, hk⟩ := inner a
          refine ⟨max k hi, fun r hr v hv => ?_⟩
          rcases List.mem_cons.1 hr with rfl | hr
          · exact (hk v hv).trans (le_max_left _ _)
          · exact (h r hr v hv).trans (le_max_right _ _)
      exact this _
    obtain ⟨hi, hmax⟩ := hmax
    refine (surfaceAt_bounds z.times _ z.vols ?_ l1 0 hi t x y (fun r hr v hv => ⟨?_, hmax r hr v hv⟩) hy).1
    · rw [List.length_map, flen, e1]; exact l2
    · obtain ⟨i, j, hij⟩ := mem_cell z.vols r hr v hv
      exact hn i j v hij
  refine ⟨.surface s1, .surface s2, put_self _ _ _, put_self _ _ _, fun t x y hy => ?_, fun t x y hy => ?_, fun t x y y' hy hy' => ?_⟩
  · exact nonneg s1 h2 t1 m1 p1 nn1 t x y (((a3 t x).2 y).1 hy)
  · exact nonneg s2 k2 t2 m2 p2 nn2 t x y (((b3 t x).2 y).1 hy)
  · have q1 := ((a3 t x).2 y).1 hy
    have q2 := ((b3 t x).2 y').1 hy'
    have ga1 := good_axes s1 h2 fs fpos
    have ga2 := good_axes s2 k2 fs fpos
    have l1 := h2.rows
    have l2 := k2.rows
    rw [t1, m1, p1] at q1
    rw [t2, m2, p2] at q2
    rw [m1, p1] at ga1
    rw [m2, p2] at ga2
    rw [t1] at l1
    rw [t2] at l2
    refine surfaceAt_mono s.times (fs.map (axis s.mon s.spot)) s1.vols s2.vols g2.times g2.some (by rw [List.length_map, flen]; exact g2.dates) l1 l2 ga1 ga2
      (fun i j v v' hv hv' => ?_) t x y y' q1 q2
    obtain ⟨tt, xx, w, c1, c2, c3⟩ := cells i j v (Or.inl hv)
    rw [h5 i j tt xx w c1 c2 c3] at hv
    rw [k5 i j tt xx w c1 c2 c3] at hv'
    rw [← Option.some.inj hv, ← Option.some.inj hv']
    by_cases hwin : win tt xx
    · rw [if_pos hwin, if_pos (hw _ _ hwin)]
    · rw [if_neg hwin]
      split <;> linarith

/-! ## Options in the market -/

/-- An option in the currency of its underlying is priced without quanto adjustment. -/
theorem option_noquanto (p : MatchParam) (L : Loaded) (an : Bool) (i : Instr) (call s : Bool) (u : String) (hk : i.kind = .option call u i.ccy s) (pl : Plan)
    (h : createPricer p L an i = .ok pl) : ∃ d c b, pl = .option u u d c b none ∧ p.discountName i = .ok d ∧ p.collateral u = some c ∧ p.borrowing u = some b := by
  obtain ⟨d, c, b, q, rfl, h1, h2, h3⟩ := option_plan p L an i call s u i.ccy hk pl h
  refine ⟨d, c, b, ?_, h1, h2, h3⟩
  unfold createPricer at h
  rw [hk] at h
  dsimp only at h
  obtain ⟨_, _, k1⟩ := (bind_ok_iff _ _ _).1 h
  obtain ⟨_, _, k2⟩ := (bind_ok_iff _ _ _).1 k1
  obtain ⟨_, _, k3⟩ := (bind_ok_iff _ _ _).1 k2
  obtain ⟨_, _, k4⟩ := (bind_ok_iff _ _ _).1 k3
  obtain ⟨_, _, k5⟩ := (bind_ok_iff _ _ _).1 k4
  obtain ⟨_, _, k6⟩ := (bind_ok_iff _ _ _).1 k5
  obtain ⟨_, _, k7⟩ := (bind_ok_iff _ _ _).1 k6
  obtain ⟨_, _, k8⟩ := (bind_ok_iff _ _ _).1 k7
  obtain ⟨_, _, k9⟩ := (bind_ok_iff _ _ _).1 k8
  obtain ⟨_, _, k10⟩ := (bind_ok_iff _ _ _).1 k9
  obtain ⟨q', hq', k11⟩ := (bind_ok_iff _ _ _).1 k10
  unfold quantoPart at hq'
  rw [if_pos rfl] at hq'
  obtain rfl := Except.ok.inj hq'
  cases an with
  | false => cases k11
  | true => injection Except.ok.inj k11 with _ _ _ _ _ e; rw [e]

/-- The price of an option in a market: the discounted expected payoff. -/
theorem option_at (md : Mode) (f : Fixed) (m : Mkt) (u d c b : String) (o : Vanilla) (hd : ∀ cv, m.curves d = some cv → CurveOk cv) (hK : 0 < o.strike)
    (hs : ∀ w, m.vols u = some w → ∀ t x y, w.value t x = .ok y → 0 ≤ y) (x : ℝ) (h : (Plan.option u u d c b none).npv md f (.option o) m = .ok x) :
    ∃ F s D w, ForwardAt m u d c b o F D ∧ m.vols u = some w ∧ w.value (timeFrom m.w.date o.maturity) (o.strike / F) = .ok s ∧ 0 < F ∧ 0 < D ∧ 0 ≤ s ∧
      x = D * expectedPayoff o F (s * Real.sqrt (timeFrom m.w.date o.maturity)) := by
  unfold Plan.npv at h
  dsimp only at h
  obtain ⟨p, hp, h1⟩ := (bind_ok_iff _ _ _).1 h
  unfold Mkt.optionPricer at hp
  obtain ⟨env, he, hp1⟩ := (bind_ok_iff _ _ _).1 hp
  obtain ⟨vol, hv, hp2⟩ := (bind_ok_iff _ _ _).1 hp1
  obtain ⟨dc, hdc, hp3⟩ := (bind_ok_iff _ _ _).1 hp2
  obtain rfl := Except.ok.inj hp3
  have hev : env.eval = m.w.date := by
    have he' := he
    unfold Mkt.carry at he'
    obtain ⟨_, _, he1⟩ := (bind_ok_iff _ _ _).1 he'
    obtain ⟨_, _, he2⟩ := (bind_ok_iff _ _ _).1 he1
    obtain ⟨_, _, he3⟩ := (bind_ok_iff _ _ _).1 he2
    rw [← Except.ok.inj he3]
  obtain ⟨F, s, D, w, w1, w2, w3, w4, w5⟩ := option_expected _ o rfl hK (hd dc ((orErr_eq _ _).1 hdc)) (hs vol ((orErr_eq _ _).1 hv)) x h1
  dsimp only at w w2 w5
  rw [hev] at w5
  refine ⟨F, s, D, vol, ⟨env, dc, he, w.forward, (orErr_eq _ _).1 hdc, ?_⟩, (orErr_eq _ _).1 hv, ?_, w1, w3, w4, w5⟩
  · have := w.disc
    dsimp only at this
    rw [hev] at this
    exact this
  · have := w.vol
    dsimp only at this
    rw [hev] at this
    exact this

/-- Raised in more places, the volatilities give a higher price. -/
theorem vega_order {g : EngCfg} {f : Fixed} {i : Instr} {u d c b : String} {o : Vanilla} (hp : g.pricers i.code = some ((Plan.option u u d c b none).pricer g.md f (.option o)))
    (hK : 0 < o.strike) {M m m' : Mkt} (hc : GoodCurves M) (hv : GoodVols M) (hn : NonnegVols M u) {win win' : ℝ → ℝ → Prop} {β x x' : ℝ} (hβ : 0 ≤ β)
    (h : VolShifted u win β M m) (h' : VolShifted u win' β M m') (hw : ∀ t y, win t y → win' t y) (hx : g.npv i m = .ok x) (hx' : g.npv i m' = .ok x') : x ≤ x' := by
  obtain ⟨v, v', e1, e2, n1, n2, hle⟩ := volShifted_mono M m m' u win win' β hβ hv hn h h' hw
  have only : ∀ (n : Mkt) (wn : ℝ → ℝ → Prop), VolShifted u wn β M n → n = { M with vols := n.vols } := by
    rintro n wn ⟨_, _, _, -, -, -, -, -, -, rfl⟩
    rfl
  have o1 := only m _ h
  have o2 := only m' _ h'
  unfold EngCfg.npv at hx hx'
  rw [hp] at hx hx'
  have cv1 : ∀ cv, m.curves d = some cv → CurveOk cv := by rw [o1]; exact fun cv hcv => (hc d cv hcv).1
  have cv2 : ∀ cv, m'.curves d = some cv → CurveOk cv := by rw [o2]; exact fun cv hcv => (hc d cv hcv).1
  obtain ⟨F, s, D, w, a1, a2, a3, a4, a5, a6, rfl⟩ := option_at g.md f m u d c b o cv1 hK (fun w hw => by rw [e1] at hw; obtain rfl := Option.some.inj hw; exact n1) x hx
  obtain ⟨F', s', D', w', b1, b2, b3, b4, b5, b6, rfl⟩ := option_at g.md f m' u d c b o cv2 hK (fun w hw => by rw [e2] at hw; obtain rfl := Option.some.inj hw; exact n2) x' hx'
  have t1 : m.w = M.w := by rw [o1]
  have t2 : m'.w = M.w := by rw [o2]
  have a1' : ForwardAt M u d c b o F D := by rw [o1] at a1; exact a1
  have b1' : ForwardAt M u d c b o F' D' := by rw [o2] at b1; exact b1
  rw [t1] at a3 ⊢
  rw [t2] at b3 ⊢
  obtain ⟨rfl, rfl⟩ := forwardAt_unique a1' b1'
  rw [e1] at a2
  rw [e2] at b2
  obtain rfl := Option.some.inj a2
  obtain rfl := Option.some.inj b2
  have := hle _ _ _ _ a3 b3
  exact mul_le_mul_of_nonneg_left (expectedPayoff_mono o F _ _ a4 hK (mul_nonneg a6 (Real.sqrt_nonneg _)) (mul_le_mul_of_nonneg_right this (Real.sqrt_nonneg _))) a5.le

theorem fromTenor_succ (times : List ℝ) (hs : times.Pairwise (· < ·)) (k : Nat) (hk : k < times.length) (t : ℝ) (h : FromTenor times (k + 1) t) : FromTenor times k t := by
  intro s h0 h1
  have h2 := h _ (by omega) (List.getElem?_eq_getElem hk)
  obtain ⟨h3, rfl⟩ := List.getElem?_eq_some_iff.1 h1
  have := List.pairwise_iff_getElem.1 hs (k - 1) k h3 hk (by omega)
  linarith

theorem beyond_succ (times : List ℝ) (hs : times.Pairwise (· < ·)) (T : ℝ) (k : Nat) (hk : k < times.length) (h : TenorBeyond times T k) : TenorBeyond times T (k + 1) := by
  obtain ⟨h0, s, h1, h2⟩ := h
  obtain ⟨h3, rfl⟩ := List.getElem?_eq_some_iff.1 h1
  have := List.pairwise_iff_getElem.1 hs (k - 1) k h3 hk (by omega)
  exact ⟨by omega, _, List.getElem?_eq_getElem hk, by linarith⟩

/-- **C158** (vegas). An option in the currency of its underlying, on a surface without negative volatilities, with nonnegative notional: its vega is not negative, nor is
the vega of any tenor, nor the vega of any cell of tenor and moneyness. -/
theorem C158_vega (g : EngCfg) (hg : OwnCodes g) (names : List String) (hns : names.Nodup) (ds : List DT) (M : Mkt) (hM : SoundMkt g ds M) (hn : g.conf.npv = true)
    (f : Fixed) (L : Loaded) (an : Bool) (i : Instr) (hi : i ∈ g.insts) (call s : Bool) (u : String) (hk : i.kind = .option call u i.ccy s) (pl : Plan) (o : Vanilla)
    (hp : PricedAs g f L an i pl (.option o)) (hK : 0 < o.strike) (hN : 0 ≤ i.notional) (hV : NonnegVols M u) (e' : Eng)
    (h : calculate g names { mkt := M, action := g.insts, results := freshResults g.insts fun _ => none } = .ok e') :
    ∃ y, e'.results i.code = some y ∧
      (g.conf.vega = true → 0 < g.conf.vegaBump → ∃ x, y.vega u = some x ∧ 0 ≤ x) ∧
      (g.conf.vegaS = true → 0 < g.conf.vegaSBump → ∃ l, y.vegaS u = some l ∧ l.length = ds.length ∧ ∀ x ∈ l, 0 ≤ x) ∧
      (g.conf.vegaM = true → 0 < g.conf.vegaSBump → ∃ l, y.vegaM u = some l ∧ l.length = ds.length ∧ ∀ r ∈ l, r.length = g.conf.moneyness.length ∧ ∀ x ∈ r, 0 ≤ x) := by
  obtain ⟨-, hres⟩ := C97_new_engine g hg names hns ds M e' hM h
  obtain ⟨y, hy, ci⟩ := hres i hi
  obtain ⟨d, c, b, rfl, -⟩ := option_noquanto g.p L an i call s u hk pl hp.made
  obtain ⟨p, v, fl, c1, c2, -, c4, -⟩ := ci.npv hn
  rw [hp.held] at c1
  obtain rfl := Option.some.inj c1
  have c3 : (do let x ← (Plan.option u u d c b none).npv g.md f (.option o) M; Except.ok (NpvResult.ofNpv x) : Res NpvResult) = .ok v := c2
  obtain ⟨x0, hx0, e0⟩ := (bind_ok_iff _ _ _).1 c3
  obtain rfl := Except.ok.inj e0
  have hnpv : g.npv i M = .ok x0 := by
    unfold EngCfg.npv
    rw [hp.held]
    exact hx0
  have hvol : ∃ w, M.vols u = some w := by
    have := hx0
    unfold Plan.npv at this
    dsimp only at this
    obtain ⟨z, hz, -⟩ := (bind_ok_iff _ _ _).1 this
    unfold Mkt.optionPricer at hz
    obtain ⟨_, _, z1⟩ := (bind_ok_iff _ _ _).1 hz
    obtain ⟨w, hw, -⟩ := (bind_ok_iff _ _ _).1 z1
    exact ⟨w, (orErr_eq _ _).1 hw⟩
  obtain ⟨w, hw⟩ := hvol
  have self := fun β => volShifted_self M u β hM.vols w hw
  have hu : i.unds = [u] := by unfold Instr.unds; rw [hk]
  have htn : i.typeName ≠ "Cash" ∧ i.typeName ≠ "Stock" ∧ i.typeName ≠ "Futures" := by
    unfold Instr.typeName
    rw [hk]
    cases call <;> simp
  have hon : OnVol i u := ⟨by rw [hu]; simp, htn⟩
  have order : ∀ {m m' : Mkt} {win win' : ℝ → ℝ → Prop} {β x x' : ℝ}, 0 < β → VolShifted u win β M m → VolShifted u win' β M m' → (∀ t y, win t y → win' t y) →
      g.npv i m = .ok x → g.npv i m' = .ok x' → x ≤ x' := fun hβ a1 a2 a3 a4 a5 => vega_order hp.held hK hM.curves hM.vols hV hβ.le a1 a2 a3 a4 a5
  have sgn : ∀ β a a' : ℝ, 0 < β → a ≤ a' → 0 ≤ (a' - a) / β * 0.01 * i.notional := fun β a a' h1 h2 =>
    mul_nonneg (mul_nonneg (div_nonneg (by linarith) h1.le) (by norm_num)) hN
  have htimes : (ds.map (timeFrom M.w.date)).Pairwise (· < ·) := by
    obtain ⟨s', env, fs, rfl, -, gs, -, -⟩ := hM.vols u w hw
    rw [← (hM.grid u s' hw).1]
    exact gs.times
  refine ⟨y, hy, fun hv hβ => ?_, fun hv hβ => ?_, fun hv hβ => ?_⟩
  · obtain ⟨m, s1, v', up, q1, s2, s3, s4⟩ := ((ci.vega hv) u).1 ⟨hon.1, htn.2⟩
    rw [c4] at q1
    obtain rfl := Option.some.inj q1
    exact ⟨_, s4, sgn _ _ _ hβ (order hβ (self _) s1 (fun _ _ q => q.elim) hnpv s2)⟩
  · obtain ⟨T, -, v', z, q1, -, d3, d4, d5⟩ := ((ci.vegaS hv) u).1 hon
    rw [c4] at q1
    obtain rfl := Option.some.inj q1
    refine ⟨_, d5, by simp, fun x hx => ?_⟩
    obtain ⟨k, hk', rfl⟩ := List.mem_map.1 hx
    rw [List.mem_range] at hk'
    refine sgn _ _ _ hβ ?_
    by_cases b1 : TenorBeyond (ds.map (timeFrom M.w.date)) T k
    · rw [d4 k hk'.le (Or.inr b1), d4 (k + 1) hk' (Or.inr (beyond_succ _ htimes T k hk' b1))]
    · obtain ⟨m, s1, s2⟩ := d3 k hk' b1
      by_cases b2 : k + 1 = (ds.map (timeFrom M.w.date)).length ∨ TenorBeyond (ds.map (timeFrom M.w.date)) T (k + 1)
      · rw [d4 (k + 1) hk' b2]
        exact order hβ (self _) s1 (fun _ _ q => q.elim) hnpv s2
      · obtain ⟨m', t1, t2⟩ := d3 (k + 1) (by omega) (fun q => b2 (Or.inr q))
        exact order hβ t1 s1 (fun t _ q => fromTenor_succ _ htimes k hk' t q) t2 s2
  · obtain ⟨T, Mu, l, s1, -, s3, s4, -, ⟨v', z, q1, -, d2, d3, d4, d5, d6, d7⟩, -⟩ := (ci.vegaM hv).1 u hon
    rw [c4] at q1
    obtain rfl := Option.some.inj q1
    refine ⟨l, s1, by rw [d4]; simp, fun r hr => ⟨d5 r hr, fun x hx => ?_⟩⟩
    generalize hord : matrixOrder (ds.map (timeFrom M.w.date)) T g.conf.moneyness.length = ord at d3 d6 d7
    have same : ∀ m m' : Mkt, m = { m' with vols := m.vols } → m.vols u = m'.vols u → g.npv i m = g.npv i m' := by
      intro m m' e ev
      have hq : m.optionPricer f u u d c b none = m'.optionPricer f u u d c b none := by
        unfold Mkt.optionPricer
        rw [ev, e]
        rfl
      unfold EngCfg.npv
      rw [hp.held]
      show (do let x ← m.optionPricer f u u d c b none; x.npv o) = (do let x ← m'.optionPricer f u u d c b none; x.npv o)
      rw [hq]
    have at' : ∀ k, k ≤ ord.length → ∃ m, VolShifted u (fun t x => ∃ c ∈ ord.take k, InCell (ds.map (timeFrom M.w.date)) g.conf.moneyness c t x) g.conf.vegaSBump M m ∧ g.npv i m = .ok (z k) := by
      intro k hk'
      cases k with
      | zero =>
        refine ⟨M, ?_, by rw [d2]; exact hnpv⟩
        simpa using self g.conf.vegaSBump
      | succ k =>
        obtain ⟨m, l1, l2⟩ := d3 k hk'
        obtain ⟨m0, l3, l4, l5⟩ := volShifted_other s3 s4 l1
        exact ⟨m0, l3, by rw [← same _ _ l4 l5]; exact l2⟩
    obtain ⟨a, ha, rfl⟩ := List.getElem_of_mem hr
    obtain ⟨j, hj, rfl⟩ := List.getElem_of_mem hx
    have hcell : cell l a j = some l[a][j] := by
      unfold cell
      rw [List.getElem?_eq_getElem ha]
      exact List.getElem?_eq_getElem hj
    have hcols := d5 _ hr
    by_cases hm : (a, j) ∈ ord
    · obtain ⟨n, hn', e⟩ := List.getElem_of_mem hm
      rw [d6 n (a, j) (by rw [List.getElem?_eq_getElem hn', e])] at hcell
      rw [← Option.some.inj hcell]
      obtain ⟨m, k1, k2⟩ := at' n hn'.le
      obtain ⟨m', k3, k4⟩ := at' (n + 1) hn'
      refine sgn _ _ _ hβ (order hβ k1 k3 (fun t x q => ?_) k2 k4)
      obtain ⟨cc, hc1, hc2⟩ := q
      exact ⟨cc, (List.take_subset_take_left ord (Nat.le_succ n)) hc1, hc2⟩
    · rw [d7 a j (by omega) (by omega) hm] at hcell
      rw [← Option.some.inj hcell]

/-! ## Deltas and gammas -/

/-- Specification: all volatilities of the surface of `u` are `s`. -/
def FlatVols (M : Mkt) (u : String) (s : ℝ) : Prop := ∀ z, M.vols u = some (.surface z) → ∀ r ∈ z.vols, ∀ v ∈ r, v = s

theorem flat_value (M : Mkt) (u : String) (s : ℝ) (hM : GoodVols M) (h : FlatVols M u s) (w : Vol) (hw : M.vols u = some w) (t x y : ℝ) (hy : w.value t x = .ok y) : y = s := by
  obtain ⟨z, env, fs, rfl, -, g1, g2, g3⟩ := hM u w hw
  obtain ⟨r, b1, -, b3⟩ := C74_value env z g1 fs g3
  rw [g2] at b1
  obtain rfl := Except.ok.inj b1
  have flen := (forwards_mapRes env _ _ fs g3).2.2
  have := surfaceAt_bounds z.times _ z.vols (by rw [List.length_map, flen]; exact g1.dates) g1.rows s s t x y (fun r hr v hv => by rw [h z hw r hr v hv]; exact ⟨le_refl _, le_refl _⟩) (((b3 t x).2 y).1 hy)
  exact le_antisymm this.2 this.1

/-- **C158** (deltas and gammas). An option in the currency of its underlying, on a flat surface, with nonnegative notional, bumped by less than the whole price: with
`F` the forward and `D` the discount factor, the delta of a call is between 0 and 1 % of `D F` per unit of notional, that of a put between minus that and 0; the gamma is not
negative; and the value is between 0 and what the payoff could be at most. -/
theorem C158_delta (g : EngCfg) (hg : OwnCodes g) (names : List String) (hns : names.Nodup) (ds : List DT) (M : Mkt) (hM : SoundMkt g ds M) (hn : g.conf.npv = true)
    (f : Fixed) (L : Loaded) (an : Bool) (i : Instr) (hi : i ∈ g.insts) (call s : Bool) (u : String) (hk : i.kind = .option call u i.ccy s) (pl : Plan) (o : Vanilla)
    (hp : PricedAs g f L an i pl (.option o)) (hK : 0 < o.strike) (hN : 0 ≤ i.notional) (σ : ℝ) (hσ : 0 ≤ σ) (hV : FlatVols M u σ) (e' : Eng)
    (h : calculate g names { mkt := M, action := g.insts, results := freshResults g.insts fun _ => none } = .ok e') :
    ∃ y d c b F D, e'.results i.code = some y ∧ g.p.discountName i = .ok d ∧ g.p.collateral u = some c ∧ g.p.borrowing u = some b ∧ ForwardAt M u d c b o F D ∧
      0 < F ∧ 0 < D ∧
      (∃ x, y.value = some x ∧ 0 ≤ x ∧ x ≤ D * (if o.call then F else o.strike) * i.notional) ∧
      (g.conf.delta = true → 0 < g.conf.deltaRatio → g.conf.deltaRatio < 1 → ∃ x z, y.delta u = some x ∧ y.gamma u = some z ∧ 0 ≤ z ∧
        (o.call = true → 0 ≤ x ∧ x ≤ D * F * 0.01 * i.notional) ∧ (o.call = false → -(D * F * 0.01 * i.notional) ≤ x ∧ x ≤ 0)) := by
  obtain ⟨-, hres⟩ := C97_new_engine g hg names hns ds M e' hM h
  obtain ⟨y, hy, ci⟩ := hres i hi
  obtain ⟨d, c, b, rfl, hn1, hn2, hn3⟩ := option_noquanto g.p L an i call s u hk pl hp.made
  obtain ⟨p, v, fl, c1, c2, -, c4, c5, -⟩ := ci.npv hn
  rw [hp.held] at c1
  obtain rfl := Option.some.inj c1
  have c3 : (do let x ← (Plan.option u u d c b none).npv g.md f (.option o) M; Except.ok (NpvResult.ofNpv x) : Res NpvResult) = .ok v := c2
  obtain ⟨x0, hx0, e0⟩ := (bind_ok_iff _ _ _).1 c3
  obtain rfl := Except.ok.inj e0
  have flat : ∀ w, M.vols u = some w → ∀ t x y, w.value t x = .ok y → y = σ := fun w hw t x y hy => flat_value M u σ hM.vols hV w hw t x y hy
  have flat0 : ∀ w, M.vols u = some w → ∀ t x y, w.value t x = .ok y → 0 ≤ y := fun w hw t x y hy => by rw [flat w hw t x y hy]; exact hσ
  have hcv : ∀ cv, M.curves d = some cv → CurveOk cv := fun cv q => (hM.curves d cv q).1
  obtain ⟨F, s0, D, w, a1, a2, a3, a4, a5, a6, rfl⟩ := option_at g.md f M u d c b o hcv hK flat0 x0 hx0
  obtain rfl := flat w a2 _ _ _ a3
  generalize hτ : s0 * Real.sqrt (timeFrom M.w.date o.maturity) = τ at *
  have pay_nonneg : ∀ G, 0 ≤ expectedPayoff o G τ := by
    intro G
    unfold expectedPayoff
    split
    · exact expectedCall_nonneg _ _ _
    · exact expectedPut_nonneg _ _ _
  have scaled : ∀ k m x, PriceScaled u k M m → g.npv i m = .ok x → x = D * expectedPayoff o (F * k) τ := by
    intro k m x hm hx
    have hf := forwardAt_scaled hm a1
    have facts : m.curves = M.curves ∧ m.vols = M.vols ∧ m.w.date = M.w.date := by
      obtain ⟨j, pr, -, -, rfl⟩ := hm
      exact ⟨rfl, rfl, rfl⟩
    obtain ⟨f1, f2, f3⟩ := facts
    unfold EngCfg.npv at hx
    rw [hp.held] at hx
    obtain ⟨F', s', D', w', b1, b2, b3, -, -, -, rfl⟩ := option_at g.md f m u d c b o (by rw [f1]; exact hcv) hK (by rw [f2]; exact flat0) x hx
    obtain ⟨rfl, rfl⟩ := forwardAt_unique hf b1
    rw [f2] at b2
    obtain rfl := flat w' b2 _ _ _ b3
    rw [f3, hτ]
  refine ⟨y, d, c, b, F, D, hy, hn1, hn2, hn3, a1, a4, a5, ?_, fun hd h0 h1 => ?_⟩
  · refine ⟨_, c5, mul_nonneg (mul_nonneg a5.le (pay_nonneg F)) hN, mul_le_mul_of_nonneg_right (mul_le_mul_of_nonneg_left ?_ a5.le) hN⟩
    unfold expectedPayoff
    have p1 := expected_parity F o.strike τ
    split
    · exact expectedCall_le F o.strike τ a4.le hK.le
    · have := expectedCall_le F o.strike τ a4.le hK.le
      linarith
  · have htn : i.typeName ≠ "Stock" ∧ i.typeName ≠ "Futures" := by
      unfold Instr.typeName
      rw [hk]
      cases call <;> simp
    obtain ⟨v', mu, md, up, dn, q1, s1, s2, s3, s4, -, s6, s7⟩ := ((ci.delta hd).2 htn).1 u (by unfold Instr.unds; rw [hk]; simp)
    rw [c4] at q1
    obtain rfl := Option.some.inj q1
    obtain rfl := scaled _ _ _ s1 s3
    obtain rfl := scaled _ _ _ s2 s4
    generalize hr : g.conf.deltaRatio = r at *
    refine ⟨_, _, s6, s7, ?_, fun hcall => ?_, fun hcall => ?_⟩
    · refine mul_nonneg (mul_nonneg (div_nonneg ?_ (sq_nonneg _)) (by norm_num)) hN
      have := expectedPayoff_middle o F (F * r) τ
      rw [show F * (1 + r) = F + F * r by ring, show F * (1 - r) = F - F * r by ring]
      show 0 ≤ D * expectedPayoff o (F + F * r) τ - 2 * (D * expectedPayoff o F τ) + D * expectedPayoff o (F - F * r) τ
      nlinarith
    all_goals
      unfold expectedPayoff
      rw [hcall]
      simp only [if_true, Bool.false_eq_true, if_false]
      have hle : F * (1 - r) ≤ F * (1 + r) := by nlinarith
      have m1 := expectedCall_forward_mono (F * (1 - r)) (F * (1 + r)) o.strike τ hle
      have m2 := expectedPut_forward_anti (F * (1 - r)) (F * (1 + r)) o.strike τ hle
      have p1 := expected_parity (F * (1 - r)) o.strike τ
      have p2 := expected_parity (F * (1 + r)) o.strike τ
    · generalize expectedCall (F * (1 - r)) o.strike τ = C1 at *
      generalize expectedCall (F * (1 + r)) o.strike τ = C2 at *
      have hle2 : C2 - C1 ≤ 2 * r * F := by linarith
      have e1 : (D * C2 - D * C1) / (2 * r) = D * ((C2 - C1) / (2 * r)) := by ring
      have e2 : (C2 - C1) / (2 * r) ≤ F := (div_le_iff₀ (by linarith)).2 (by linarith)
      have e3 : 0 ≤ (C2 - C1) / (2 * r) := div_nonneg (by linarith) (by linarith)
      rw [e1]
      refine ⟨mul_nonneg (mul_nonneg (mul_nonneg a5.le e3) (by norm_num)) hN, mul_le_mul_of_nonneg_right (mul_le_mul_of_nonneg_right (mul_le_mul_of_nonneg_left e2 a5.le) (by norm_num)) hN⟩
    · generalize expectedPut (F * (1 - r)) o.strike τ = C1 at *
      generalize expectedPut (F * (1 + r)) o.strike τ = C2 at *
      have e1 : (D * C2 - D * C1) / (2 * r) = -(D * ((C1 - C2) / (2 * r))) := by ring
      have e2 : (C1 - C2) / (2 * r) ≤ F := (div_le_iff₀ (by linarith)).2 (by linarith)
      have e3 : 0 ≤ (C1 - C2) / (2 * r) := div_nonneg (by linarith) (by linarith)
      rw [e1]
      have f1 := mul_nonneg (mul_nonneg (mul_nonneg a5.le e3) (by norm_num : (0:ℝ) ≤ 0.01)) hN
      have f2 := mul_le_mul_of_nonneg_right (mul_le_mul_of_nonneg_right (mul_le_mul_of_nonneg_left e2 a5.le) (by norm_num : (0:ℝ) ≤ 0.01)) hN
      constructor <;> linarith

/-- The hypotheses of C158 are met: by both options of the engine of `twin_witness`, on a skewed surface (vegas) and on a flat one (deltas). -/
theorem signs_witness : (∃ M e', OwnCodes twinEngine ∧ SoundMkt twinEngine [day0 2021 7 1, day0 2022 1 1, day0 2023 1 1] M ∧ NonnegVols M "A" ∧ ¬ (∃ σ, FlatVols M "A" σ) ∧
      calculate twinEngine ["A"] { mkt := M, action := twinInsts, results := freshResults twinInsts fun _ => none } = .ok e') ∧
    (∃ M e', SoundMkt twinEngine [day0 2021 7 1, day0 2022 1 1, day0 2023 1 1] M ∧ FlatVols M "A" 0.2 ∧
      calculate twinEngine ["A"] { mkt := M, action := twinInsts, results := freshResults twinInsts fun _ => none } = .ok e') ∧
    PricedAs twinEngine twinFixed twinLoaded true ⟨"O", .option true "A" .krw false, .krw, 10, day0 2022 1 1, 0⟩ twinPlan (.option { twinOption with call := true }) ∧
    PricedAs twinEngine twinFixed twinLoaded true ⟨"P", .option false "A" .krw false, .krw, 10, day0 2022 1 1, 0⟩ twinPlan (.option { twinOption with call := false }) ∧
    0 < twinOption.strike ∧ twinEngine.conf.npv = true ∧ twinEngine.conf.vega = true ∧ twinEngine.conf.vegaS = true ∧ twinEngine.conf.vegaM = true ∧ twinEngine.conf.delta = true ∧
    0 < twinEngine.conf.vegaBump ∧ 0 < twinEngine.conf.vegaSBump ∧ 0 < twinEngine.conf.deltaRatio ∧ twinEngine.conf.deltaRatio < 1 := by
  refine ⟨?_, ?_, ⟨rfl, rfl⟩, ⟨rfl, rfl⟩, ?_, rfl, rfl, rfl, rfl, rfl, ?_, ?_, ?_, ?_⟩
  · obtain ⟨M, ⟨s, hs, hv⟩, hg, -, hM, -, e', he⟩ := twin_market [[0.2, 0.2, 0.3], [0.2, 0.25, 0.3], [0.3, 0.3, 0.3]] rfl (by simp)
    refine ⟨M, e', hg, hM, fun z hz r hr v hvr => ?_, ?_, he⟩
    · rw [hs] at hz
      obtain rfl := Vol.surface.inj (Option.some.inj hz)
      rw [hv] at hr
      simp only [List.mem_cons, List.not_mem_nil, or_false] at hr
      rcases hr with rfl | rfl | rfl <;> simp only [List.mem_cons, List.not_mem_nil, or_false] at hvr <;> rcases hvr with rfl | rfl | rfl <;> norm_num
    · rintro ⟨σ, hσ⟩
      have h1 := hσ s hs [0.2, 0.2, 0.3] (by rw [hv]; simp) 0.2 (by simp)
      have h2 := hσ s hs [0.2, 0.2, 0.3] (by rw [hv]; simp) 0.3 (by simp)
      rw [← h1] at h2
      norm_num at h2
  · obtain ⟨M, ⟨s, hs, hv⟩, -, -, hM, -, e', he⟩ := twin_market [[0.2, 0.2, 0.2], [0.2, 0.2, 0.2], [0.2, 0.2, 0.2]] rfl (by simp)
    refine ⟨M, e', hM, fun z hz r hr v hvr => ?_, he⟩
    rw [hs] at hz
    obtain rfl := Vol.surface.inj (Option.some.inj hz)
    rw [hv] at hr
    simp only [List.mem_cons, List.not_mem_nil, or_false, or_self] at hr
    subst hr
    simp only [List.mem_cons, List.not_mem_nil, or_false, or_self] at hvr
    exact hvr
  all_goals simp [twinEngine, demoConf, twinOption]
  all_goals norm_num

end Verif.Props

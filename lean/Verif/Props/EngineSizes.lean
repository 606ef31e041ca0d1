import Verif.Props.EngineStrikes
import Verif.Props.EngineCompany
/-!
# C189: results are proportional to the notional
-/
set_option autoImplicit false
namespace Verif.Props
open Verif Verif.QL Verif.Civil

/-! ## Specification -/

/-- The instrument `i` with `k` times the notional, under the code `c` -/
noncomputable def resized (k : ℝ) (c : String) (i : Instr) : Instr := { i with code := c, notional := k * i.notional }

/-- The same terms; a swap carries its notional in them. -/
noncomputable def sized (k : ℝ) : Terms → Terms
  | .swap s => .swap { s with notional := k * s.notional }
  | t => t

/-- The engine holds an instrument and the same with `k` times the notional, with the pricers the factory makes of one plan. -/
structure Sizes (g : EngCfg) (f : Fixed) (i j : Instr) (k : ℝ) (pl : Plan) (t : Terms) : Prop where
  mem : i ∈ g.insts ∧ j ∈ g.insts
  copy : j = resized k j.code i
  first : g.pricers i.code = some (pl.pricer g.md f t)
  second : g.pricers j.code = some (pl.pricer g.md f (sized k t))

/-- The second number is `k` times the first, or both are missing. -/
def Times (k : ℝ) (a b : Option ℝ) : Prop := b = a.map (k * ·)

/-- So is each number of a row, -/
def TimesRow (k : ℝ) (a b : Option (List ℝ)) : Prop := b = a.map (List.map (k * ·))

/-- and of a table. -/
def TimesTable (k : ℝ) (a b : Option (List (List ℝ))) : Prop := b = a.map (List.map (List.map (k * ·)))

/-! ## Pricers and the notional -/

theorem sized_npv (md : Mode) (f : Fixed) (k : ℝ) (pl : Plan) (t : Terms) (m : Mkt) : pl.npv md f (sized k t) m = pl.npv md f t m := by
  cases pl <;> cases t <;> rfl

theorem sized_result (md : Mode) (f : Fixed) (k : ℝ) (pl : Plan) (t : Terms) (m : Mkt) : pl.result md f (sized k t) m = pl.result md f t m := by
  cases pl <;> cases t <;> rfl

theorem put_of (c : Nat) (a : ℝ) (n : Nat) : Exposure.of n (Exposure.put c a []) = if c = n then a else 0 := rfl

/-- What the plan says of the exposure of the larger instrument -/
theorem sized_exposure (md : Mode) (f : Fixed) (k : ℝ) (c : String) (pl : Plan) (t : Terms) (i : Instr) (m : Mkt) (x : ℝ) (E E' : Exposure)
    (h : pl.exposure md f t i m x = .ok E) (h' : pl.exposure md f (sized k t) (resized k c i) m x = .ok E') :
    ((∃ fx a b mat avg u, pl = .fxFutures fx a b ∧ t = .fxFutures mat avg u) → E' = E) ∧
    (¬ (∃ fx a b mat avg u, pl = .fxFutures fx a b ∧ t = .fxFutures mat avg u) → ∀ n, E'.of n = k * E.of n) := by
  have dflt : defaultExposure (f.num i.ccy) i.notional x = E → defaultExposure (f.num i.ccy) (k * i.notional) x = E' → ∀ n, E'.of n = k * E.of n := by
    rintro rfl rfl n
    unfold defaultExposure
    rw [put_of, put_of]
    split <;> ring
  have other : ∀ (pl' : Plan) (t' : Terms), pl = pl' → t = t' → pl'.exposure md f t' i m x = .ok (defaultExposure (f.num i.ccy) i.notional x) →
      pl'.exposure md f (sized k t') (resized k c i) m x = .ok (defaultExposure (f.num i.ccy) (k * i.notional) x) → ∀ n, E'.of n = k * E.of n := by
    rintro _ _ rfl rfl q q'
    exact dflt (Except.ok.inj (q.symm.trans h)) (Except.ok.inj (q'.symm.trans h'))
  refine ⟨?_, fun hn => ?_⟩
  · rintro ⟨fx, a, b, mat, avg, u, rfl, rfl⟩
    exact Except.ok.inj (h'.symm.trans h)
  · cases pl with
    | futures u a b =>
      cases t with
      | futures mat avg =>
        have h1 : (do let y ← m.carry u a b; y.exposure mat avg i.notional (f.num i.ccy) : Res Exposure) = .ok E := h
        have h2 : (do let y ← m.carry u a b; y.exposure mat avg (k * i.notional) (f.num i.ccy) : Res Exposure) = .ok E' := h'
        obtain ⟨y, hy, h1⟩ := (bind_ok_iff _ _ _).1 h1
        rw [hy, Res.bind_ok] at h2
        unfold FuturesPricer.exposure at h1 h2
        cases hF : y.forward mat with
        | error e => rw [hF] at h1; cases h1
        | ok F =>
          rw [hF] at h1 h2
          obtain rfl := Except.ok.inj h1
          obtain rfl := Except.ok.inj h2
          intro n
          rw [put_of, put_of]
          split <;> ring
      | _ => exact other _ _ rfl rfl rfl rfl
    | fxFutures fx a b =>
      cases t with
      | fxFutures mat avg u => exact absurd ⟨fx, a, b, mat, avg, u, rfl, rfl⟩ hn
      | _ => exact other _ _ rfl rfl rfl rfl
    | swap a b w p fx =>
      cases t with
      | swap s =>
        have h1 : (do let y ← m.swapPricer f a b w p fx; y.exposure md s : Res Exposure) = .ok E := h
        have h2 : (do let y ← m.swapPricer f a b w p fx; y.exposure md { s with notional := k * s.notional } : Res Exposure) = .ok E' := h'
        obtain ⟨y, hy, h1⟩ := (bind_ok_iff _ _ _).1 h1
        rw [hy, Res.bind_ok] at h2
        unfold SwapPricer.exposure at h1 h2
        obtain ⟨fl, a1, h1⟩ := (bind_ok_iff _ _ _).1 h1
        obtain ⟨fl', a2, h1⟩ := (bind_ok_iff _ _ _).1 h1
        obtain ⟨v, a3, h1⟩ := (bind_ok_iff _ _ _).1 h1
        obtain ⟨v', a4, h1⟩ := (bind_ok_iff _ _ _).1 h1
        have b1 : Swap.fixedFlows { s with notional := k * s.notional } y.eval = .ok fl := a1
        have b2 : Swap.floatFlows md { s with notional := k * s.notional } y.mkt y.eval = .ok fl' := a2
        rw [b1, Res.bind_ok, b2, Res.bind_ok, a3, Res.bind_ok, a4, Res.bind_ok] at h2
        obtain rfl := Except.ok.inj h1
        obtain rfl := Except.ok.inj h2
        intro n
        simp only [Exposure.add]
        by_cases q : s.fixedCcy = s.floatCcy
        · simp only [q, if_true, Exposure.of]
          split <;> ring
        · simp only [q, if_false, Exposure.of]
          split
          · ring
          · split <;> ring
      | _ => exact other _ _ rfl rfl rfl rfl
    | bond d w p => cases t <;> exact other _ _ rfl rfl rfl rfl
    | option u v d c b q => cases t <;> exact other _ _ rfl rfl rfl rfl
    | ktbf d c => cases t <;> exact other _ _ rfl rfl rfl rfl
    | stock u => cases t <;> exact other _ _ rfl rfl rfl rfl
    | cash => cases t <;> exact other _ _ rfl rfl rfl rfl

/-- A greek by tenors of the larger instrument -/
theorem byTenor_times (g : EngCfg) (k : ℝ) (i j : Instr) (moved : Nat → Mkt → Prop) (huniq : ∀ a m m', moved a m → moved a m' → m = m') (b unit : ℝ) (dates : List DT)
    (P : Instr → Prop) (npv : Option NpvResult) (x x' : Option (List ℝ))
    (fd : ∀ m b unit npv a a', ForwardDiff g m b unit i npv a → ForwardDiff g m b unit j npv a' → Times k a a')
    (h : ByTenor g moved b unit dates P i npv x) (h' : ByTenor g moved b unit dates P j npv x') : TimesRow k x x' := by
  obtain ⟨L, rfl, l1, l2⟩ := h
  obtain ⟨L', rfl, l1', l2'⟩ := h'
  unfold TimesRow
  rw [Option.map_some]
  congr 1
  refine List.ext_getElem? fun a => ?_
  rw [List.getElem?_map]
  by_cases ha : a < dates.length
  · by_cases hR : TenorReached P dates a
    · obtain ⟨m, m1, m2⟩ := (l2 a ha).1 hR
      obtain ⟨m', m1', m2'⟩ := (l2' a ha).1 hR
      obtain rfl := huniq a m m' m1 m1'
      exact fd _ _ _ _ _ _ m2 m2'
    · rw [(l2 a ha).2 hR, (l2' a ha).2 hR, Option.map_some, mul_zero]
  · rw [List.getElem?_eq_none (by omega), List.getElem?_eq_none (by omega)]
    rfl

/-! ## The theorem -/

/-- **C189**. In one engine, an instrument and the same with `k` times the notional have the same npv and cash flows. Value, exposure by currency (but for FX futures, whose
exposure is the same: the notional is not used), delta, gamma, vega, rho, dividend delta, theta, and vega, rho and dividend delta by tenor, and vega by tenor and moneyness,
are `k` times as large: whatever the instrument, the market and `k`, which may be negative or zero. -/
theorem C189_notional (g : EngCfg) (hg : OwnCodes g) (hz : OneZone g) (names : List String) (hns : names.Nodup) (ds : List DT) (M : Mkt) (hM : SoundMkt g ds M)
    (f : Fixed) (i j : Instr) (k : ℝ) (pl : Plan) (t : Terms) (hs : Sizes g f i j k pl t) (e : Eng)
    (h : calculate g names { mkt := M, action := g.insts, results := freshResults g.insts fun _ => none } = .ok e) :
    ∃ y z, e.results i.code = some y ∧ e.results j.code = some z ∧ z.npv = y.npv ∧ z.flows = y.flows ∧ Times k y.value z.value ∧
      (g.conf.exposure = true → ∃ E E', y.exposure = some E ∧ z.exposure = some E' ∧
        ((∃ fx a b mat avg u, pl = .fxFutures fx a b ∧ t = .fxFutures mat avg u) → E' = E) ∧
        (¬ (∃ fx a b mat avg u, pl = .fxFutures fx a b ∧ t = .fxFutures mat avg u) → ∀ n, E'.of n = k * E.of n)) ∧
      (i.typeName = "Stock" ∨ i.typeName = "Futures" → Times k (y.delta i.code) (z.delta j.code) ∧ Times k (y.gamma i.code) (z.gamma j.code)) ∧
      (i.typeName ≠ "Stock" ∧ i.typeName ≠ "Futures" → ∀ u, Times k (y.delta u) (z.delta u) ∧ Times k (y.gamma u) (z.gamma u)) ∧
      (∀ u, Times k (y.vega u) (z.vega u)) ∧ (∀ n, Times k (y.rho n) (z.rho n)) ∧ (∀ u, Times k (y.divDelta u) (z.divDelta u)) ∧ Times k y.theta z.theta ∧
      (∀ u, TimesRow k (y.vegaS u) (z.vegaS u)) ∧ (∀ n, TimesRow k (y.rhoS n) (z.rhoS n)) ∧ (∀ u, TimesRow k (y.divS u) (z.divS u)) ∧
      ∀ u, OnVol i u → (∀ w ∈ (planNames pl).1, w = u) → TimesTable k (y.vegaM u) (z.vegaM u) := by
  obtain ⟨-, hres⟩ := C97_new_engine g hg names hns ds M e hM h
  obtain ⟨y, hy, ci⟩ := hres i hs.mem.1
  obtain ⟨z, hz', cj⟩ := hres j hs.mem.2
  have hty : j.typeName = i.typeName := by rw [hs.copy]; rfl
  have hun : j.unds = i.unds := by rw [hs.copy]; rfl
  have hmt : j.maturity = i.maturity := by rw [hs.copy]; rfl
  have hro : ∀ n, UsesCurve g.p n j ↔ UsesCurve g.p n i := by
    intro n
    have : curveRoles g.p j = curveRoles g.p i := by rw [hs.copy]; rfl
    unfold UsesCurve
    rw [this]
  have hov : ∀ u, OnVol j u ↔ OnVol i u := by
    intro u
    unfold OnVol
    rw [hty, hun]
  have hno : j.notional = k * i.notional := by rw [hs.copy]; rfl
  have hyn : y.notional = i.notional := ci.same.1
  have hzn : z.notional = k * i.notional := cj.same.1.trans hno
  have npvAt : ∀ m, g.npv j m = g.npv i m := by
    intro m
    unfold EngCfg.npv
    rw [hs.first, hs.second]
    exact sized_npv g.md f k pl t m
  have fd : ∀ m b unit npv a a', ForwardDiff g m b unit i npv a → ForwardDiff g m b unit j npv a' → Times k a a' := by
    rintro m b unit npv a a' ⟨v, up, a1, a2, a3, rfl⟩ ⟨v', up', b1, b2, b3, rfl⟩
    rw [a1] at b1
    obtain rfl := Option.some.inj b1
    rw [npvAt m, a2] at b2
    obtain rfl := Except.ok.inj b2
    unfold Times
    rw [hno, Option.map_some]
    congr 1
    ring
  have none' : ∀ a b : Option ℝ, a = none → b = none → Times k a b := by rintro _ _ rfl rfl; rfl
  have noneR : ∀ a b : Option (List ℝ), a = none → b = none → TimesRow k a b := by rintro _ _ rfl rfl; rfl
  have n1 : z.npv = y.npv ∧ z.flows = y.flows ∧ Times k y.value z.value := by
    cases hf : g.conf.npv with
    | true =>
      obtain ⟨p, v, fl, a1, a2, a3, a4, a5, a6⟩ := ci.npv hf
      obtain ⟨p', v', fl', b1, b2, b3, b4, b5, b6⟩ := cj.npv hf
      rw [hs.first] at a1
      obtain rfl := Option.some.inj a1
      rw [hs.second] at b1
      obtain rfl := Option.some.inj b1
      have b2' : pl.result g.md f (sized k t) M = .ok v' := b2
      rw [sized_result, show pl.result g.md f t M = .ok v from a2] at b2'
      obtain rfl := Except.ok.inj b2'
      rw [a3] at b3
      obtain rfl := Except.ok.inj b3
      refine ⟨by rw [a4, b4], by rw [a6, b6], ?_⟩
      unfold Times
      rw [a5, b5, Option.map_some]
      congr 1
      show v.npv * j.notional = k * (v.npv * i.notional)
      rw [hno]
      ring
    | false =>
      obtain ⟨a1, a2, a3⟩ := ci.npvOff hf
      obtain ⟨b1, b2, b3⟩ := cj.npvOff hf
      exact ⟨by rw [a1, b1]; rfl, by rw [a3, b3]; rfl, none' _ _ a2 b2⟩
  obtain ⟨n1, n2, n3⟩ := n1
  refine ⟨y, z, hy, hz', n1, n2, n3, fun hf => ?_, fun ht => ?_, fun ht u => ?_, fun u => ?_, fun n => ?_, fun u => ?_, ?_, fun u => ?_, fun n => ?_, fun u => ?_, fun u hu hpn => ?_⟩
  · obtain ⟨p, v, E, a1, a2, a3, a4⟩ := ci.exposure hf
    obtain ⟨p', v', E', b1, b2, b3, b4⟩ := cj.exposure hf
    rw [hs.first] at a1
    obtain rfl := Option.some.inj a1
    rw [hs.second] at b1
    obtain rfl := Option.some.inj b1
    rw [n1, a2] at b2
    obtain rfl := Option.some.inj b2
    have b3' : pl.exposure g.md f (sized k t) j M v.npv = .ok E' := b3
    rw [hs.copy] at b3'
    exact ⟨E, E', a4, b4, sized_exposure g.md f k j.code pl t i M v.npv E E' a3 b3'⟩
  · cases hf : g.conf.delta with
    | true =>
      obtain ⟨v, p1, p2, p3⟩ := (ci.delta hf).1 ht
      obtain ⟨v', q1, q2, q3⟩ := (cj.delta hf).1 (by rw [hty]; exact ht)
      rw [n1, p1] at q1
      obtain rfl := Option.some.inj q1
      rw [p2, q2, p3, q3, put_self, put_self, put_self, put_self]
      unfold Times
      rw [hno, Option.map_some, Option.map_some]
      exact ⟨by congr 1; ring, by congr 1; ring⟩
    | false =>
      obtain ⟨a1, a2⟩ := ci.deltaOff hf
      obtain ⟨b1, b2⟩ := cj.deltaOff hf
      rw [a1, a2, b1, b2]
      exact ⟨rfl, rfl⟩
  · cases hf : g.conf.delta with
    | true =>
      obtain ⟨p1, p2⟩ := (ci.delta hf).2 ht
      obtain ⟨q1, q2⟩ := (cj.delta hf).2 (by rw [hty]; exact ht)
      rw [hun] at q1 q2
      by_cases hu : u ∈ i.unds
      · obtain ⟨v, mu, md, up, dn, c1, c2, c3, c4, c5, c6, c7, c8⟩ := p1 u hu
        obtain ⟨v', mu', md', up', dn', d1, d2, d3, d4, d5, d6, d7, d8⟩ := q1 u hu
        obtain rfl := priceScaled_unique c2 d2
        obtain rfl := priceScaled_unique c3 d3
        rw [npvAt, c4] at d4
        rw [npvAt, c5] at d5
        obtain rfl := Except.ok.inj d4
        obtain rfl := Except.ok.inj d5
        rw [n1, c1] at d1
        obtain rfl := Option.some.inj d1
        dsimp only at c7 c8 d7 d8
        unfold Times
        rw [c7, c8, d7, d8, hno, Option.map_some, Option.map_some]
        exact ⟨by congr 1; ring, by congr 1; ring⟩
      · exact ⟨none' _ _ (p2 u hu).1 (q2 u hu).1, none' _ _ (p2 u hu).2 (q2 u hu).2⟩
    | false =>
      obtain ⟨a1, a2⟩ := ci.deltaOff hf
      obtain ⟨b1, b2⟩ := cj.deltaOff hf
      rw [a1, a2, b1, b2]
      exact ⟨rfl, rfl⟩
  · cases hf : g.conf.vega with
    | true =>
      have a := ci.vega hf u
      have b := cj.vega hf u
      rw [hun, hty, n1] at b
      by_cases hu : u ∈ i.unds ∧ i.typeName ≠ "Stock" ∧ i.typeName ≠ "Futures"
      · obtain ⟨m, a1, a2⟩ := a.1 hu
        obtain ⟨m', b1, b2⟩ := b.1 hu
        obtain rfl := volShifted_unique _ _ _ _ _ _ hM.vols a1 b1
        exact fd _ _ _ _ _ _ a2 b2
      · exact none' _ _ (a.2 hu) (b.2 hu)
    | false => exact none' _ _ (by rw [ci.vegaOff hf]; rfl) (by rw [cj.vegaOff hf]; rfl)
  · cases hf : g.conf.rho with
    | true =>
      have a := ci.rho hf n
      have b := cj.rho hf n
      rw [hro, hty, n1] at b
      by_cases hu : UsesCurve g.p n i ∧ i.typeName ≠ "Stock"
      · obtain ⟨m, a1, a2⟩ := a.1 hu
        obtain ⟨m', b1, b2⟩ := b.1 hu
        obtain rfl := curveShifted_unique _ _ _ _ _ _ hM.curves a1 b1
        exact fd _ _ _ _ _ _ a2 b2
      · exact none' _ _ (a.2 hu) (b.2 hu)
    | false => exact none' _ _ (by rw [ci.rhoOff hf]; rfl) (by rw [cj.rhoOff hf]; rfl)
  · cases hf : g.conf.divDelta with
    | true =>
      have a := ci.divDelta hf u
      have b := cj.divDelta hf u
      rw [hun, hty, n1] at b
      by_cases hu : u ∈ i.unds ∧ i.typeName ≠ "Stock" ∧ i.typeName ≠ "Cash"
      · obtain ⟨m, a1, a2⟩ := a.1 hu
        obtain ⟨m', b1, b2⟩ := b.1 hu
        obtain rfl := divShifted_unique _ _ _ _ _ _ a1 b1
        exact fd _ _ _ _ _ _ a2 b2
      · exact none' _ _ (a.2 hu) (b.2 hu)
    | false => exact none' _ _ (by rw [ci.divDeltaOff hf]; rfl) (by rw [cj.divDeltaOff hf]; rfl)
  · cases hf : g.conf.theta with
    | true =>
      obtain ⟨b, a1, a2, a3⟩ := ci.theta hf
      obtain ⟨b', b1, b2, b3⟩ := cj.theta hf
      rw [a1] at b1
      obtain rfl := Except.ok.inj b1
      rw [hty] at b2 b3
      by_cases ht : i.typeName = "Stock" ∨ i.typeName = "Cash"
      · unfold Times
        rw [a2 ht, b2 ht, Option.map_some, mul_zero]
      · obtain ⟨d, d1, w, v, v', fl, p1, p2, p3, p4, p5, p6⟩ := a3 (not_or.1 ht)
        obtain ⟨d', d1', w', x, x', fl', q1, q2, q3, q4, q5, q6⟩ := b3 (not_or.1 ht)
        obtain rfl := thetaDate_unique g hz b i j hmt.symm d d' d1 d1'
        rw [p1] at q1
        obtain rfl := Except.ok.inj q1
        rw [npvAt, p2] at q2
        obtain rfl := Except.ok.inj q2
        rw [npvAt, p3] at q3
        obtain rfl := Except.ok.inj q3
        rw [n2, p4] at q4
        obtain rfl := Option.some.inj q4
        unfold Times
        rw [p6, q6, hyn, hzn, Option.map_some]
        congr 1
        ring
    | false => exact none' _ _ (by rw [ci.thetaOff hf]; rfl) (by rw [cj.thetaOff hf]; rfl)
  · cases hf : g.conf.vegaS with
    | true =>
      have a := ci.vegaS hf u
      have b := cj.vegaS hf u
      rw [hov, n1] at b
      by_cases hu : OnVol i u
      · obtain ⟨T, t1, v, r, c1, c2, c3, c4, c5⟩ := a.1 hu
        obtain ⟨T', t1', v', r', d1, d2, d3, d4, d5⟩ := b.1 hu
        obtain rfl := doneBy_unique g hz _ _ (fun _ q => q.1) T T' t1 t1'
        rw [c1] at d1
        obtain rfl := Option.some.inj d1
        have hr : ∀ a, a ≤ (ds.map (timeFrom M.w.date)).length → r a = r' a := by
          intro a ha
          by_cases hb : a = (ds.map (timeFrom M.w.date)).length ∨ TenorBeyond (ds.map (timeFrom M.w.date)) T a
          · rw [c4 a ha hb, d4 a ha hb]
          · obtain ⟨hb1, hb2⟩ := not_or.1 hb
            obtain ⟨m, m1, m2⟩ := c3 a (by omega) hb2
            obtain ⟨m', m1', m2'⟩ := d3 a (by omega) hb2
            obtain rfl := volShifted_unique _ _ _ _ _ _ hM.vols m1 m1'
            rw [npvAt, m2] at m2'
            exact Except.ok.inj m2'
        unfold TimesRow
        rw [c5, d5, Option.map_some, List.map_map]
        congr 1
        refine List.map_congr_left fun a ha => ?_
        rw [List.mem_range] at ha
        rw [Function.comp_apply, hr a (by omega), hr (a + 1) (by omega), hno]
        ring
      · exact noneR _ _ (a.2 hu) (b.2 hu)
    | false => exact noneR _ _ (by rw [ci.vegaSOff hf]; rfl) (by rw [cj.vegaSOff hf]; rfl)
  · cases hf : g.conf.rhoS with
    | true =>
      obtain ⟨dr, a1, a2⟩ := ci.rhoS hf
      obtain ⟨dr', b1, b2⟩ := cj.rhoS hf
      rw [a1] at b1
      obtain rfl := Except.ok.inj b1
      have a := a2 n
      have b := b2 n
      rw [hro, hty, n1] at b
      by_cases hu : UsesCurve g.p n i ∧ i.typeName ≠ "Stock" ∧ i.typeName ≠ "Cash"
      · exact byTenor_times g k i j (fun a m => CurveShifted n (InTenor (dr.map (timeFrom M.w.date)) a) g.conf.rhoBump M m) (fun a m m' q q' => curveShifted_unique _ _ _ _ _ _ hM.curves q q') _ _ _ _ _ _ _ fd (a.1 hu) (b.1 hu)
      · exact noneR _ _ (a.2 hu) (b.2 hu)
    | false => exact noneR _ _ (by rw [ci.rhoSOff hf]; rfl) (by rw [cj.rhoSOff hf]; rfl)
  · cases hf : g.conf.divS with
    | true =>
      obtain ⟨dr, a1, a2⟩ := ci.divS hf
      obtain ⟨dr', b1, b2⟩ := cj.divS hf
      rw [a1] at b1
      obtain rfl := Except.ok.inj b1
      have a := a2 u
      have b := b2 u
      rw [hun, hty, n1] at b
      by_cases hu : u ∈ names ∧ u ∈ i.unds ∧ i.typeName ≠ "Stock" ∧ i.typeName ≠ "Cash"
      · exact byTenor_times g k i j (fun a m => DivShifted u (DayInTenor dr a) g.conf.divBump M m) (fun a m m' q q' => divShifted_unique _ _ _ _ _ _ q q') _ _ _ _ _ _ _ fd (a.1 hu) (b.1 hu)
      · exact noneR _ _ (a.2 hu) (b.2 hu)
    | false => exact noneR _ _ (by rw [ci.divSOff hf]; rfl) (by rw [cj.divSOff hf]; rfl)
  · cases hf : g.conf.vegaM with
    | true =>
      obtain ⟨T, Mu, L, c1, t1, c2, c3, -, c5, -⟩ := (ci.vegaM hf).1 u hu
      obtain ⟨T', Mu', L', d1, t1', d2, d3, -, d5, -⟩ := (cj.vegaM hf).1 u ((hov u).2 hu)
      obtain rfl := doneBy_unique g hz _ _ (fun _ q => q.1) T T' t1 t1'
      obtain ⟨v, r, p1, p2, p3, p4, p5, p6, p7, p8⟩ := c5
      obtain ⟨v', r', q1, q2, q3, q4, q5, q6, q7, q8⟩ := d5
      rw [n1, p1] at q1
      obtain rfl := Option.some.inj q1
      have hus : ∀ a ∈ [u], ∀ b ∈ [u], a = b := fun a ha b hb => (List.mem_singleton.1 ha).trans (List.mem_singleton.1 hb).symm
      have hsee : SeesOnly [u] (planNames pl).2 (pl.pricer g.md f t) i := plan_sees g.md f t pl [u] _ (fun w hw => List.mem_singleton.2 (hpn w hw)) (fun _ q => q) i
      generalize hord : matrixOrder (ds.map (timeFrom M.w.date)) T g.conf.moneyness.length = order at *
      have hr : ∀ a, a ≤ order.length → r a = r' a := by
        intro a ha
        cases a with
        | zero => rw [p3, q3]
        | succ a =>
          obtain ⟨m, m1, m2⟩ := p4 a (by omega)
          obtain ⟨m', m1', m2'⟩ := q4 a (by omega)
          obtain ⟨m0, s1, s2⟩ := vol_transplant [u] (planNames pl).2 hus M Mu m c2 u (by simp) c3 _ _ m1
          obtain ⟨m0', s1', s2'⟩ := vol_transplant [u] (planNames pl).2 hus M Mu' m' d2 u (by simp) d3 _ _ m1'
          obtain rfl := volShifted_unique _ _ _ _ _ _ hM.vols s1 s1'
          have al := alike_trans _ _ _ _ _ s2 (alike_symm _ _ _ _ s2')
          have := (hsee m m' al).1
          rw [npvAt] at m2'
          unfold EngCfg.npv at m2 m2'
          rw [hs.first] at m2 m2'
          have m3 : (pl.pricer g.md f t).npv i m = .ok (r (a + 1)) := m2
          have m3' : (pl.pricer g.md f t).npv i m' = .ok (r' (a + 1)) := m2'
          rw [this, m3'] at m3
          exact (Except.ok.inj m3).symm
      have scl : ∀ a b, cell (L.map (List.map (k * ·))) a b = (cell L a b).map (k * ·) := by
        intro a b
        unfold cell
        rw [List.getElem?_map]
        cases L[a]? with
        | none => rfl
        | some row =>
          show (row.map (k * ·))[b]? = (row[b]?).map _
          rw [List.getElem?_map]
      unfold TimesTable
      rw [c1, d1, Option.map_some]
      congr 1
      refine cells_ext (ds.map (timeFrom M.w.date)).length g.conf.moneyness.length _ _ q5 (by rw [List.length_map]; exact p5) q6 (fun row hrow => ?_) fun a b ha hb => ?_
      · obtain ⟨row', h1, rfl⟩ := List.mem_map.1 hrow
        rw [List.length_map]
        exact p6 row' h1
      · rw [scl]
        by_cases hm : (a, b) ∈ order
        · obtain ⟨l, hl, hl'⟩ := List.getElem_of_mem hm
          have hg' : order[l]? = some (a, b) := by rw [List.getElem?_eq_getElem hl, hl']
          have w1 := p7 l _ hg'
          have w2 := q7 l _ hg'
          dsimp only at w1 w2
          rw [w1, w2, hr l (by omega), hr (l + 1) (by omega), hno, Option.map_some]
          congr 1
          ring
        · rw [p8 a b ha hb hm, q8 a b ha hb hm, Option.map_some, mul_zero]
    | false =>
      unfold TimesTable
      rw [ci.vegaMOff hf, cj.vegaMOff hf]
      rfl

/-! ## An example -/

/-- Two calls, the second with minus three times the notional -/
noncomputable def sizesInsts : List Instr :=
  [⟨"C1", .option true "A" .krw false, .krw, 10, day0 2022 1 1, 0⟩, ⟨"C2", .option true "A" .krw false, .krw, -3 * 10, day0 2022 1 1, 0⟩]

/-- The engine holding them -/
noncomputable def sizesEngine : EngCfg where
  md := .checked
  pricers := fun c =>
    if c = "C1" then some (fundedPlan.pricer .checked twinFixed (.option (strikeOption 40 true)))
    else if c = "C2" then some (fundedPlan.pricer .checked twinFixed (.option (strikeOption 40 true)))
    else none
  p := fundedEngine.p
  conf := demoConf
  insts := sizesInsts

/-- The same engine holding the instruments `L` -/
noncomputable def sizesOf (L : List Instr) : EngCfg := { sizesEngine with insts := L }

/-- The engine can be calculated: `C97_succeeds_in` applies to it. -/
theorem sizes_markets (vs : List (List ℝ)) (hlen : vs.length = 3) (hcols : ∀ r ∈ vs, r.length = 3) : ∃ c v s, s.vols = vs ∧ Dividend.new (day0 2021 1 1) (some [day0 2023 6 1]) [(2 : ℝ)] 100 = .ok v ∧ ∀ (L : List Instr), (∀ i ∈ L, i ∈ sizesInsts) →
    (L.map Instr.code).Nodup → OwnCodes (sizesOf L) ∧ OneZone (sizesOf L) ∧ SoundMkt (sizesOf L) [day0 2021 7 1, day0 2022 1 1, day0 2023 1 1] (twinMkt c v s true) ∧
    ∃ e', calculate (sizesOf L) ["A"] { mkt := twinMkt c v s true, action := L, results := freshResults L fun _ => none } = .ok e' := by
  obtain ⟨c, v, s, hcn, hvn, -, hM0, -, -, -, hvs⟩ := engine_market vs hlen hcols
  obtain ⟨c', hcn', ok, ⟨tl, htl, htl'⟩, hdf⟩ := sample_curve 0.03
  rw [hcn] at hcn'
  obtain rfl := Except.ok.inj hcn'
  obtain ⟨v', hvn', hgd, hvd, hvp, hvr⟩ := demo_dividend
  rw [hvn] at hvn'
  obtain rfl := Except.ok.inj hvn'
  refine ⟨c.blank, v, s, hvs, hvn, fun L hL hnd => ?_⟩
  have hM : SoundMkt (sizesOf L) [day0 2021 7 1, day0 2022 1 1, day0 2023 1 1] (twinMkt c.blank v s true) := by
    refine ⟨?_, ?_, hM0.3, hM0.4, hM0.5, hM0.6⟩
    · intro n c0 h0
      obtain ⟨-, e⟩ := (Option.ite_none_right_eq_some).1 h0
      obtain rfl := Option.some.inj e
      exact hM0.1 "C" _ rfl
    · intro u w hw
      obtain ⟨a, e⟩ := (Option.ite_none_right_eq_some).1 hw
      subst a
      exact hM0.2 "A" w hw
  have hg : OwnCodes (sizesOf L) := by
    exact hnd
  have hmem : ∀ i ∈ (sizesOf L).insts, i.typeName ≠ "Stock" ∧ i.typeName ≠ "Cash" ∧ i.unds = ["A"] ∧ curveRoles (sizesOf L).p i = [some "D", some "C"] ∧ i.maturity = some (day0 2022 1 1) := by
    intro i hi
    replace hi := hL i hi
    simp only [sizesInsts, List.mem_cons, List.not_mem_nil, or_false] at hi
    rcases hi with rfl | rfl <;> simp [Instr.typeName, Instr.unds, curveRoles, Instr.maturity, sizesOf, sizesEngine, fundedEngine]
  have hundA : ∀ i ∈ (sizesOf L).insts, ∀ u ∈ i.unds, u = "A" := by
    intro i hi u hu
    rw [(hmem i hi).2.2.1] at hu
    simpa using hu
  have hcurv : ∀ i ∈ (sizesOf L).insts, ∀ x ∈ curveRoles (sizesOf L).p i, x = some "C" ∨ x = some "D" := by
    intro i hi x hx
    rw [(hmem i hi).2.2.2.1] at hx
    simp at hx
    exact hx.symm
  have hmat : ∀ i ∈ (sizesOf L).insts, ∀ m, i.maturity = some m → m = day0 2022 1 1 := by
    intro i hi m hm
    rw [(hmem i hi).2.2.2.2] at hm
    exact (Option.some.inj hm).symm
  have hz : OneZone (sizesOf L) := by
    intro i hi j hj a b ha hb hab
    rw [hmat i hi a ha, hmat j hj b hb]
  have hb : (day0 2021 1 1).addNs (1 * dayNs) = .ok (day0 2021 1 2) := by decide +kernel
  have hlate : ∀ i ∈ (sizesOf L).insts, ∀ m, i.maturity = some m → (day0 2021 1 2).instant < m.instant := by
    intro i hi m hm
    rw [hmat i hi m hm]
    decide +kernel
  have hC : Complete (sizesOf L) ["A"] (twinMkt c.blank v s true) := by
    refine ⟨?_, ?_, ?_, ?_, ?_, ?_, ?_, ?_, ?_, ?_⟩
    · intro i hi u hu
      rw [hundA i hi u hu]
      exact ⟨0, _, rfl, rfl⟩
    · intro i hi
      unfold CurvesNamed
      intro x
      rcases hcurv i hi _ x with h | h <;> cases h
    · intro i hi n hn
      rcases hcurv i hi _ hn.2 with h | h <;> obtain rfl := Option.some.inj h <;> exact ⟨_, rfl⟩
    · intro i hi _ u hu
      rw [hundA i hi u hu]
      exact ⟨_, rfl⟩
    · intro i hi _ u hu
      rw [hundA i hi u hu]
      exact ⟨_, rfl⟩
    · intro u hu
      simp only [List.mem_cons, List.not_mem_nil, or_false] at hu
      rw [hu]
      exact ⟨_, rfl⟩
    · refine ⟨?_, ?_, ?_, ?_, ?_⟩ <;> simp [sizesOf, sizesEngine, demoConf] <;> norm_num
    · have t1 : timeFrom (day0 2021 1 1) (day0 2021 7 1) = 181 / 365 := by
        have : timeDifference (day0 2021 1 1) (day0 2021 7 1) = 181 / 365 := by decide +kernel
        unfold timeFrom; rw [this]; norm_num
      have t2 : timeFrom (day0 2021 1 1) (day0 2022 1 1) = 1 := by
        have : timeDifference (day0 2021 1 1) (day0 2022 1 1) = 1 := by decide +kernel
        unfold timeFrom; rw [this]; norm_num
      have hr : calcDates .checked (day0 2021 1 1) [['6', 'M'], ['1', 'Y']] = .ok [day0 2021 7 1, day0 2022 1 1] := by decide +kernel
      refine ⟨[day0 2021 7 1, day0 2022 1 1], hr, fun k hk => ?_⟩
      show (startOf [timeFrom (day0 2021 1 1) (day0 2021 7 1), timeFrom (day0 2021 1 1) (day0 2022 1 1)] k).getD (-99999999)
        ≤ ([timeFrom (day0 2021 1 1) (day0 2021 7 1), timeFrom (day0 2021 1 1) (day0 2022 1 1)][k]?).getD 99999999
      rw [t1, t2]
      have hk : k < 2 := hk
      interval_cases k
      · simp [startOf]; norm_num
      · simp [startOf]; norm_num
    · have hr : calcDates .checked (day0 2021 1 1) [['1', 'Y'], ['3', 'Y']] = .ok [day0 2022 1 1, day0 2024 1 1] := by decide +kernel
      refine ⟨[day0 2022 1 1, day0 2024 1 1], hr, fun k hk => ?_⟩
      have hk : k < 2 := hk
      unfold WindowOk
      interval_cases k <;> decide +kernel
    · refine ⟨day0 2021 1 2, hb, fun i hi ht d hd => ?_⟩
      rcases hd with ⟨-, rfl⟩ | ⟨⟨m, hm, hle⟩, -⟩
      · refine ⟨(C47_move_succeeds _ hM.date.wf _ hM.date.part ?_).2 ?_, ?_⟩
        · intro x hx _
          simp only [twinMkt, demoMarket, List.mem_cons, List.not_mem_nil, or_false] at hx
          subst hx
          refine ⟨?_, by rw [hvd]; simp, hgd.ordered⟩
          rw [hgd.yields, List.length_map]
          exact hgd.len
        · intro x hx _
          simp only [twinMkt, demoMarket, List.mem_cons, List.not_mem_nil, or_false] at hx
          subst hx
          refine ⟨day0 2023 6 1, by rw [hvd]; simp, by decide +kernel⟩
        · have : timeDifference (day0 2021 1 1) (day0 2021 1 2) = 1 / 365 := by decide +kernel
          show ((timeDifference (day0 2021 1 1) (day0 2021 1 2) : ℚ) : ℝ) ≠ 0
          rw [this]
          norm_num
      · have := hlate i hi m hm
        omega
  have ubase : FundedUsable (twinMkt c.blank v s true) :=
    ⟨⟨{ value := 100, at_ := day0 2021 1 1, div := some 0 }, v, rfl, by norm_num, rfl, hvr⟩, ⟨c.blank, rfl, curveOk_blank c ok, tl, htl, htl'⟩, ⟨c.blank, rfl, curveOk_blank c ok, tl, htl, htl'⟩,
      ⟨.surface s, rfl, goodVols_value _ hM.vols "A" _ rfl⟩, Or.inl rfl⟩
  have hdiv : ∀ (e : DT) (w w' : Dividend ℝ), (e = day0 2021 1 1 ∨ e = day0 2021 1 2) → w.dates = [day0 2023 6 1] → w.yields.length = 1 → w.update e = .ok w' →
      ∀ d, d.day < (day0 2023 6 1).day → w'.ratio d = .ok 1 := by
    intro e w w' he hd hy hw d hlt
    obtain ⟨w'', q1, -, -, -, -, q6⟩ := (C48_update w (by rw [hd, hy]; rfl) (by rw [hd]; simp) (by rw [hd]; exact ⟨by simp, by simp⟩) e).1
      ⟨day0 2023 6 1, by rw [hd]; simp, by rcases he with rfl | rfl <;> decide +kernel⟩
    rw [hw] at q1
    obtain rfl := Except.ok.inj q1
    rw [q6 d]
    unfold keep
    have : (w.pairs.filter fun p => due e d p.1) = [] := by
      rw [List.filter_eq_nil_iff]
      intro p hp
      have hp1 : p.1 ∈ w.dates := by
        unfold Dividend.pairs at hp
        exact (List.of_mem_zip hp).1
      rw [hd, List.mem_singleton] at hp1
      rw [hp1]
      unfold due
      simp only [decide_eq_true_eq]
      rintro ⟨-, q⟩
      omega
    rw [this]
    simp
  have hvy : v.yields.length = 1 := by
    rw [hgd.yields, List.length_map, ← hgd.len, hvd]; rfl
  have hR : Visits (sizesOf L) [day0 2021 7 1, day0 2022 1 1, day0 2023 1 1] (twinMkt c.blank v s true) FundedUsable := by
    refine ⟨ubase, ?_, ?_, ?_, ?_, ?_, ?_⟩
    · rintro u k m hk ⟨j, p, hj, hp, rfl⟩
      have hj' : u = "A" ∧ j = 0 := by
        obtain ⟨a, e⟩ := (Option.ite_none_right_eq_some).1 hj
        exact ⟨a, (Option.some.inj e).symm⟩
      obtain ⟨rfl, rfl⟩ := hj'
      obtain rfl := Option.some.inj hp
      refine ⟨⟨{ value := 100 * k, at_ := day0 2021 1 1, div := some 0 }, v, rfl, ?_, rfl, hvr⟩, ubase.curve, ubase.disc, ubase.vol, ubase.date⟩
      show (60 : ℝ) < 100 * k
      rcases hk with rfl | rfl
      · show (60 : ℝ) < 100 * (1 + 0.01); norm_num
      · show (60 : ℝ) < 100 * (1 - 0.01); norm_num
    · rintro n win m ⟨c0, c1, h0, h1, -, h3, -, rfl⟩
      obtain ⟨rfl | ⟨-, rfl⟩, e⟩ := (Option.ite_none_right_eq_some).1 h0
      · obtain rfl := Option.some.inj e
        refine ⟨ubase.price, ⟨c1, by show ((twinMkt c.blank v s true).curves.put "C" c1) "C" = _; exact put_self _ _ _, h1, tl, ?_, htl'⟩, ?_, ubase.vol, ubase.date⟩
        · rw [h3]
          exact htl
        · obtain ⟨c2, k1, k2⟩ := ubase.disc
          exact ⟨c2, by show ((twinMkt c.blank v s true).curves.put "C" c1) "D" = _; rw [put_other _ _ _ _ (by decide)]; exact k1, k2⟩
      · obtain rfl := Option.some.inj e
        refine ⟨ubase.price, ?_, ⟨c1, by show ((twinMkt c.blank v s true).curves.put "D" c1) "D" = _; exact put_self _ _ _, h1, tl, by rw [h3]; exact htl, htl'⟩, ubase.vol, ubase.date⟩
        obtain ⟨c2, k1, k2⟩ := ubase.curve
        exact ⟨c2, by show ((twinMkt c.blank v s true).curves.put "D" c1) "C" = _; rw [put_other _ _ _ _ (by decide)]; exact k1, k2⟩
    · rintro u win b m - ⟨s0, s1, env, h0, h1, h2, h3, h4, -, rfl⟩
      obtain ⟨rfl, e⟩ := (Option.ite_none_right_eq_some).1 h0
      obtain rfl := Vol.surface.inj (Option.some.inj e)
      refine ⟨ubase.price, ubase.curve, ubase.disc, ⟨.surface s1, by show ((twinMkt c.blank v s true).vols.put "A" (.surface s1)) "A" = _; exact put_self _ _ _, ?_⟩, ubase.date⟩
      obtain ⟨s2, env', fs, g0, g1, -, -, g4⟩ := hM.vols "A" (.surface s) rfl
      obtain rfl := Vol.surface.inj g0
      rw [h1] at g1
      obtain rfl := Except.ok.inj g1
      have g5 : Forwards env (builtAt env s1) s1.dates fs := by
        have e1 : s1.dates = s.dates := by rw [h4]
        have e2 : builtAt env s1 = builtAt env s := by rw [h4]; rfl
        rw [e1, e2]
        exact g4
      obtain ⟨s3, b1, -, b3⟩ := C74_value env s1 h2 fs g5
      rw [h3] at b1
      obtain rfl := Except.ok.inj b1
      exact fun t x => (b3 t x).1
    · rintro u win m ⟨k, w, w', f, h0, h1, h2, h3, h4, h5, h6, rfl⟩
      have hk : k = 0 := by
        obtain ⟨-, e⟩ := (Option.ite_none_right_eq_some).1 h0
        exact (Option.some.inj e).symm
      subst hk
      obtain ⟨rfl, rfl⟩ := Prod.mk.inj (Option.some.inj h1)
      refine ⟨⟨{ value := 100, at_ := day0 2021 1 1, div := some 0 }, w', rfl, by norm_num, rfl, ?_⟩, ubase.curve, ubase.disc, ubase.vol, ubase.date⟩
      refine hdiv _ w' w' (Or.inl rfl) (h2.trans hvd) ?_ h6
      rw [h5, List.length_map, h4, List.length_zipWith, ← hgd.len, hvd]
      rfl
    · rintro b i d w hb' hi - hd hw
      have hbe : b = day0 2021 1 2 := by
        have := hb'.symm.trans hb
        exact Except.ok.inj this
      subst hbe
      have hde : d = day0 2021 1 2 := by
        rcases hd with ⟨-, rfl⟩ | ⟨⟨m, hm, hle⟩, -⟩
        · rfl
        · have := hlate i hi m hm
          omega
      subst hde
      unfold World.setDate at hw
      obtain ⟨ps, hps, hw⟩ := (bind_ok_iff _ _ _).1 hw
      obtain ⟨dv, hdv, hw⟩ := (bind_ok_iff _ _ _).1 hw
      obtain rfl := Except.ok.inj hw
      obtain ⟨a1, a2⟩ := (mapRes_iff _ _ _).1 hps
      obtain ⟨b1, b2⟩ := (mapRes_iff _ _ _).1 hdv
      have ha : ps.length = 1 := a1
      have hb1 : dv.length = 1 := b1
      have hx := a2 0 { value := 100, at_ := day0 2021 1 1, div := some 0 } (ps[0]'(by omega)) rfl (List.getElem?_eq_getElem (by omega))
      have hy := b2 0 (v, true) (dv[0]'(by omega)) rfl (List.getElem?_eq_getElem (by omega))
      rw [if_pos rfl] at hy
      obtain ⟨w', hw', hy⟩ := (bind_ok_iff _ _ _).1 hy
      have hy' := Except.ok.inj hy
      have hpv : ps[0]'(by omega) = { value := 100, at_ := day0 2021 1 2, div := some 0 } := by
        unfold Price.update at hx
        simp only [twinMkt, demoMarket, List.map_cons, List.getElem?_cons_zero] at hx
        rw [if_pos (by decide +kernel)] at hx
        rw [← Except.ok.inj hx, hvp]
        congr 1
      refine ⟨⟨{ value := 100, at_ := day0 2021 1 2, div := some 0 }, w', ?_, by norm_num, ?_, hdiv _ v w' (Or.inr rfl) hvd hvy hw'⟩, ubase.curve, ubase.disc, ubase.vol, Or.inr rfl⟩
      · show (ps[0]?).map (fun p => (0, p)) = _
        rw [List.getElem?_eq_getElem (by omega), hpv]
        rfl
      · show (dv[0]?).map Prod.fst = _
        rw [List.getElem?_eq_getElem (by omega), ← hy']
        rfl
    · rintro m ⟨h1, h2, -, h4⟩
      obtain ⟨w, hw⟩ := h4 "A" ⟨_, rfl⟩
      rw [h1] at hw ⊢
      rw [h1] at h2
      exact ⟨ubase.price, ubase.curve, ubase.disc, ⟨w, hw, goodVols_value _ h2 "A" w hw⟩, ubase.date⟩
  have hP : CanPriceIn (sizesOf L) (twinMkt c.blank v s true) FundedUsable := by
    intro i hi
    have of : ∀ (pl : Plan) (t : Terms), (sizesOf L).pricers i.code = some (pl.pricer .checked twinFixed t) → (∀ m, FundedUsable m → ∃ x, pl.npv .checked twinFixed t m = .ok x) →
        (∀ x, pl.npv .checked twinFixed t (twinMkt c.blank v s true) = .ok x → pl.result .checked twinFixed t (twinMkt c.blank v s true) = .ok (NpvResult.ofNpv x)) →
        (∀ x, ∃ f, pl.exposure .checked twinFixed t i (twinMkt c.blank v s true) x = .ok f) →
        ∃ p v' fl, (sizesOf L).pricers i.code = some p ∧ (∀ m, FundedUsable m → ∃ x, p.npv i m = .ok x) ∧ p.result i (twinMkt c.blank v s true) = .ok v' ∧ v'.expected = .ok fl ∧
          ∃ f, p.exposure i (twinMkt c.blank v s true) v'.npv = .ok f := by
      intro pl t h1 h2 h3 h4
      obtain ⟨x, hx⟩ := h2 _ ubase
      exact ⟨_, NpvResult.ofNpv x, [], h1, h2, h3 x hx, rfl, h4 _⟩
    have hi' : i ∈ sizesInsts := hL i hi
    simp only [sizesInsts, List.mem_cons, List.not_mem_nil, or_false] at hi'
    rcases hi' with rfl | rfl
    · refine of fundedPlan _ rfl (fun m hm => strike_option m hm true 40 (by norm_num) (by norm_num)) (fun x hx => ?_) (fun x => ⟨_, rfl⟩)
      unfold Plan.result
      dsimp only [fundedPlan]
      rw [show Plan.npv .checked twinFixed (.option "A" "A" "D" "C" "C" none) (.option (strikeOption 40 true)) (twinMkt c.blank v s true) = .ok x from hx]
      rfl
    · refine of fundedPlan _ rfl (fun m hm => strike_option m hm true 40 (by norm_num) (by norm_num)) (fun x hx => ?_) (fun x => ⟨_, rfl⟩)
      unfold Plan.result
      dsimp only [fundedPlan]
      rw [show Plan.npv .checked twinFixed (.option "A" "A" "D" "C" "C" none) (.option (strikeOption 40 true)) (twinMkt c.blank v s true) = .ok x from hx]
      rfl
  exact ⟨hg, hz, hM, C97_succeeds_in (sizesOf L) hg ["A"] (by simp) _ _ hM hC FundedUsable hR hP rfl⟩

/-- All hypotheses of C189 are met by them. -/
theorem sizes_witness : ∃ M e i j, OwnCodes sizesEngine ∧ OneZone sizesEngine ∧ SoundMkt sizesEngine [day0 2021 7 1, day0 2022 1 1, day0 2023 1 1] M ∧
    Sizes sizesEngine twinFixed i j (-3) fundedPlan (.option (strikeOption 40 true)) ∧ i.notional = 10 ∧ OnVol i "A" ∧ (∀ w ∈ (planNames fundedPlan).1, w = "A") ∧
    calculate sizesEngine ["A"] { mkt := M, action := sizesInsts, results := freshResults sizesInsts fun _ => none } = .ok e ∧
    sizesEngine.conf.npv = true ∧ sizesEngine.conf.delta = true ∧ sizesEngine.conf.theta = true ∧ sizesEngine.conf.vegaM = true := by
  obtain ⟨c, v, s, -, -, h⟩ := sizes_markets [[0.2, 0.2, 0.3], [0.2, 0.25, 0.3], [0.3, 0.3, 0.3]] rfl (by simp)
  obtain ⟨hg, hz, hM, e, he⟩ := h sizesInsts (fun _ h => h) (by simp [sizesInsts])
  refine ⟨_, e, ⟨"C1", .option true "A" .krw false, .krw, 10, day0 2022 1 1, 0⟩, ⟨"C2", .option true "A" .krw false, .krw, -3 * 10, day0 2022 1 1, 0⟩, hg, hz, hM,
    ⟨⟨by simp [sizesEngine, sizesInsts], by simp [sizesEngine, sizesInsts]⟩, rfl, rfl, rfl⟩, rfl, ?_, ?_, he, rfl, rfl, rfl, rfl⟩
  · refine ⟨by simp [Instr.unds], ?_, ?_, ?_⟩ <;> simp [Instr.typeName]
  · simp [planNames, fundedPlan]

end Verif.Props

import Verif.Props.EngineSizes
/-!
# C190: the order of the portfolio does not matter
-/
set_option autoImplicit false
namespace Verif.Props
open Verif Verif.QL Verif.Civil

theorem byTenor_order (g g' : EngCfg) (i : Instr) (hnpv : ∀ m, g'.npv i m = g.npv i m) (moved : Nat → Mkt → Prop) (huniq : ∀ a m m', moved a m → moved a m' → m = m') (b unit : ℝ) (dates : List DT)
    (P P' : Instr → Prop) (hPP : ∀ j, P j ↔ P' j) (npv : Option NpvResult) (x x' : Option (List ℝ))
    (fd : ∀ m b unit npv a a', ForwardDiff g m b unit i npv a → ForwardDiff g' m b unit i npv a' → a' = a)
    (h : ByTenor g moved b unit dates P i npv x) (h' : ByTenor g' moved b unit dates P' i npv x') : x' = x := by
  obtain rfl : P = P' := funext fun j => propext (hPP j)
  obtain ⟨L, rfl, l1, l2⟩ := h
  obtain ⟨L', rfl, l1', l2'⟩ := h'
  congr 1
  refine List.ext_getElem? fun a => ?_
  by_cases ha : a < dates.length
  · by_cases hR : TenorReached P dates a
    · obtain ⟨m, m1, m2⟩ := (l2 a ha).1 hR
      obtain ⟨m', m1', m2'⟩ := (l2' a ha).1 hR
      obtain rfl := huniq a m m' m1 m1'
      exact fd _ _ _ _ _ _ m2 m2'
    · rw [(l2 a ha).2 hR, (l2' a ha).2 hR]
  · rw [List.getElem?_eq_none (by omega), List.getElem?_eq_none (by omega)]

theorem thetaDate_order (g : EngCfg) (l : List Instr) (hl : l.Perm g.insts) (b : DT) (i : Instr) (d : DT) (h : ThetaDate { g with insts := l } b i d) : ThetaDate g b i d := by
  rcases h with h | ⟨h1, ⟨j, j1, j2⟩, h3, h4⟩
  · exact Or.inl h
  · exact Or.inr ⟨h1, ⟨j, hl.mem_iff.1 j1, j2⟩, h3, fun j hj => h4 j (hl.mem_iff.2 hj)⟩

/-- **C190**. Two engines with the same instruments in another order (and the names of the underlyings in another order), in the same sound market: if both calculations end, every
instrument has the same result in both, in every part but the tables of vegas by tenor and moneyness; those to a name of its own are the same too. -/
theorem C190_order (g : EngCfg) (hg : OwnCodes g) (hz : OneZone g) (names names' : List String) (hns : names.Nodup) (hnn : names'.Perm names) (l : List Instr) (hl : l.Perm g.insts)
    (ds : List DT) (M : Mkt) (hM : SoundMkt g ds M) (e e' : Eng)
    (h : calculate g names { mkt := M, action := g.insts, results := freshResults g.insts fun _ => none } = .ok e)
    (h' : calculate { g with insts := l } names' { mkt := M, action := l, results := freshResults l fun _ => none } = .ok e') :
    (∀ c, c ∉ g.insts.map Instr.code → e.results c = none ∧ e'.results c = none) ∧
    ∀ i ∈ g.insts, ∃ y z, e.results i.code = some y ∧ e'.results i.code = some z ∧ z = { y with vegaM := z.vegaM } ∧
      ∀ u, OnVol i u → (∃ pl f t, g.pricers i.code = some (Plan.pricer g.md f t pl) ∧ ∀ w ∈ (planNames pl).1, w = u) → z.vegaM u = y.vegaM u := by
  have hM' : SoundMkt { g with insts := l } ds M := ⟨hM.1, hM.2, hM.3, hM.4, hM.5, hM.6⟩
  have hg' : OwnCodes { g with insts := l } := (hl.map Instr.code).nodup_iff.2 hg
  obtain ⟨hno, hres⟩ := C97_new_engine g hg names hns ds M e hM h
  obtain ⟨hno', hres'⟩ := C97_new_engine { g with insts := l } hg' names' (hnn.nodup_iff.2 hns) ds M e' hM' h'
  refine ⟨fun c hc => ⟨hno c hc, hno' c fun q => hc ((hl.map Instr.code).mem_iff.1 q)⟩, fun i hi => ?_⟩
  obtain ⟨y, hy, ci⟩ := hres i hi
  obtain ⟨z, hz', cj⟩ := hres' i (hl.mem_iff.2 hi)
  have npvAt : ∀ m, EngCfg.npv { g with insts := l } i m = g.npv i m := fun _ => rfl
  have fd : ∀ m b unit npv a a', ForwardDiff g m b unit i npv a → ForwardDiff { g with insts := l } m b unit i npv a' → a' = a := by
    rintro m b unit npv a a' ⟨v, up, a1, a2, a3, rfl⟩ ⟨v', up', b1, b2, b3, rfl⟩
    rw [a1] at b1
    obtain rfl := Option.some.inj b1
    rw [npvAt m, a2] at b2
    obtain rfl := Except.ok.inj b2
    rfl
  have n1 : z.npv = y.npv ∧ z.flows = y.flows ∧ z.value = y.value := by
    cases hf : g.conf.npv with
    | true =>
      obtain ⟨p, v, fl, a1, a2, a3, a4, a5, a6⟩ := ci.npv hf
      obtain ⟨p', v', fl', b1, b2, b3, b4, b5, b6⟩ := cj.npv hf
      obtain rfl := Option.some.inj (a1.symm.trans b1)
      obtain rfl := Except.ok.inj (a2.symm.trans b2)
      obtain rfl := Except.ok.inj (a3.symm.trans b3)
      exact ⟨by rw [a4, b4], by rw [a6, b6], by rw [a5, b5]⟩
    | false =>
      obtain ⟨a1, a2, a3⟩ := ci.npvOff hf
      obtain ⟨b1, b2, b3⟩ := cj.npvOff hf
      exact ⟨by rw [a1, b1], by rw [a3, b3], by rw [a2, b2]⟩
  obtain ⟨n1, n2, n3⟩ := n1
  have n4 : z.exposure = y.exposure := by
    cases hf : g.conf.exposure with
    | true =>
      obtain ⟨p, v, E, a1, a2, a3, a4⟩ := ci.exposure hf
      obtain ⟨p', v', E', b1, b2, b3, b4⟩ := cj.exposure hf
      obtain rfl := Option.some.inj (a1.symm.trans b1)
      rw [n1, a2] at b2
      obtain rfl := Option.some.inj b2
      obtain rfl := Except.ok.inj (a3.symm.trans b3)
      rw [a4, b4]
    | false => rw [ci.exposureOff hf, cj.exposureOff hf]
  have n5 : z.delta = y.delta ∧ z.gamma = y.gamma := by
    cases hf : g.conf.delta with
    | true =>
      by_cases ht : i.typeName = "Stock" ∨ i.typeName = "Futures"
      · obtain ⟨v, p1, p2, p3⟩ := (ci.delta hf).1 ht
        obtain ⟨v', q1, q2, q3⟩ := (cj.delta hf).1 ht
        rw [n1, p1] at q1
        obtain rfl := Option.some.inj q1
        exact ⟨by rw [p2, q2], by rw [p3, q3]⟩
      · obtain ⟨p1, p2⟩ := (ci.delta hf).2 (not_or.1 ht)
        obtain ⟨q1, q2⟩ := (cj.delta hf).2 (not_or.1 ht)
        have both : ∀ u, z.delta u = y.delta u ∧ z.gamma u = y.gamma u := by
          intro u
          by_cases hu : u ∈ i.unds
          · obtain ⟨v, mu, md, up, dn, c1, c2, c3, c4, c5, c6, c7, c8⟩ := p1 u hu
            obtain ⟨v', mu', md', up', dn', d1, d2, d3, d4, d5, d6, d7, d8⟩ := q1 u hu
            obtain rfl := priceScaled_unique c2 d2
            obtain rfl := priceScaled_unique c3 d3
            rw [npvAt, c4] at d4
            rw [npvAt, c5] at d5
            obtain rfl := Except.ok.inj d4
            obtain rfl := Except.ok.inj d5
            rw [n1, c1] at d1
            obtain rfl := Option.some.inj d1
            exact ⟨d7.trans c7.symm, d8.trans c8.symm⟩
          · exact ⟨(q2 u hu).1.trans (p2 u hu).1.symm, (q2 u hu).2.trans (p2 u hu).2.symm⟩
        exact ⟨funext fun u => (both u).1, funext fun u => (both u).2⟩
    | false =>
      obtain ⟨a1, a2⟩ := ci.deltaOff hf
      obtain ⟨b1, b2⟩ := cj.deltaOff hf
      exact ⟨by rw [a1, b1], by rw [a2, b2]⟩
  have n6 : z.vega = y.vega := by
    cases hf : g.conf.vega with
    | true =>
      funext u
      have a := ci.vega hf u
      have b := cj.vega hf u
      rw [n1] at b
      by_cases hu : u ∈ i.unds ∧ i.typeName ≠ "Stock" ∧ i.typeName ≠ "Futures"
      · obtain ⟨m, a1, a2⟩ := a.1 hu
        obtain ⟨m', b1, b2⟩ := b.1 hu
        obtain rfl := volShifted_unique _ _ _ _ _ _ hM.vols a1 b1
        exact fd _ _ _ _ _ _ a2 b2
      · exact (b.2 hu).trans (a.2 hu).symm
    | false => rw [ci.vegaOff hf, cj.vegaOff hf]
  have n7 : z.rho = y.rho := by
    cases hf : g.conf.rho with
    | true =>
      funext u
      have a := ci.rho hf u
      have b := cj.rho hf u
      rw [n1] at b
      by_cases hu : UsesCurve g.p u i ∧ i.typeName ≠ "Stock"
      · obtain ⟨m, a1, a2⟩ := a.1 hu
        obtain ⟨m', b1, b2⟩ := b.1 hu
        obtain rfl := curveShifted_unique _ _ _ _ _ _ hM.curves a1 b1
        exact fd _ _ _ _ _ _ a2 b2
      · exact (b.2 hu).trans (a.2 hu).symm
    | false => rw [ci.rhoOff hf, cj.rhoOff hf]
  have n8 : z.divDelta = y.divDelta := by
    cases hf : g.conf.divDelta with
    | true =>
      funext u
      have a := ci.divDelta hf u
      have b := cj.divDelta hf u
      rw [n1] at b
      by_cases hu : u ∈ i.unds ∧ i.typeName ≠ "Stock" ∧ i.typeName ≠ "Cash"
      · obtain ⟨m, a1, a2⟩ := a.1 hu
        obtain ⟨m', b1, b2⟩ := b.1 hu
        obtain rfl := divShifted_unique _ _ _ _ _ _ a1 b1
        exact fd _ _ _ _ _ _ a2 b2
      · exact (b.2 hu).trans (a.2 hu).symm
    | false => rw [ci.divDeltaOff hf, cj.divDeltaOff hf]
  have n9 : z.theta = y.theta := by
    cases hf : g.conf.theta with
    | true =>
      obtain ⟨b, a1, a2, a3⟩ := ci.theta hf
      obtain ⟨b', b1, b2, b3⟩ := cj.theta hf
      obtain rfl := Except.ok.inj (a1.symm.trans b1)
      by_cases ht : i.typeName = "Stock" ∨ i.typeName = "Cash"
      · rw [a2 ht, b2 ht]
      · obtain ⟨d, d1, w, v, v', fl, p1, p2, p3, p4, p5, p6⟩ := a3 (not_or.1 ht)
        obtain ⟨d', d1', w', x, x', fl', q1, q2, q3, q4, q5, q6⟩ := b3 (not_or.1 ht)
        obtain rfl := thetaDate_unique g hz b i i rfl d d' d1 (thetaDate_order g l hl b i d' d1')
        rw [p1] at q1
        obtain rfl := Except.ok.inj q1
        rw [npvAt, p2] at q2
        obtain rfl := Except.ok.inj q2
        rw [npvAt, p3] at q3
        obtain rfl := Except.ok.inj q3
        rw [n2, p4] at q4
        obtain rfl := Option.some.inj q4
        rw [p6, q6, ci.same.1, cj.same.1]
    | false => rw [ci.thetaOff hf, cj.thetaOff hf]
  have done : ∀ u T T', DoneBy M.w.date (fun j => j ∈ g.insts ∧ OnVol j u) T → DoneBy M.w.date (fun j => j ∈ l ∧ OnVol j u) T' → T = T' := by
    intro u T T' t1 t2
    have : (fun j => j ∈ l ∧ OnVol j u) = fun j => j ∈ g.insts ∧ OnVol j u := funext fun j => propext (by rw [hl.mem_iff])
    rw [this] at t2
    exact doneBy_unique g hz _ _ (fun _ q => q.1) T T' t1 t2
  have n10 : z.vegaS = y.vegaS := by
    cases hf : g.conf.vegaS with
    | true =>
      funext u
      have a := ci.vegaS hf u
      have b := cj.vegaS hf u
      rw [n1] at b
      by_cases hu : OnVol i u
      · obtain ⟨T, t1, v, r, c1, c2, c3, c4, c5⟩ := a.1 hu
        obtain ⟨T', t1', v', r', d1, d2, d3, d4, d5⟩ := b.1 hu
        obtain rfl := done u T T' t1 t1'
        rw [c1] at d1
        obtain rfl := Option.some.inj d1
        have hr : ∀ a, a ≤ (ds.map (timeFrom M.w.date)).length → r a = r' a := by
          intro a ha
          by_cases hb : a = (ds.map (timeFrom M.w.date)).length ∨ TenorBeyond (ds.map (timeFrom M.w.date)) T a
          · rw [c4 a ha hb, d4 a ha hb]
          · obtain ⟨hb1, hb2⟩ := not_or.1 hb
            obtain ⟨m, m1, m2⟩ := c3 a (by omega) hb2
            obtain ⟨m', m1', m2'⟩ := d3 a (by omega) hb2
            obtain rfl := volShifted_unique _ _ _ _ _ _ hM.vols m1 m1'
            rw [npvAt, m2] at m2'
            exact Except.ok.inj m2'
        rw [c5, d5]
        congr 1
        refine List.map_congr_left fun a ha => ?_
        rw [List.mem_range] at ha
        rw [hr a (by omega), hr (a + 1) (by omega)]
      · exact (b.2 hu).trans (a.2 hu).symm
    | false => rw [ci.vegaSOff hf, cj.vegaSOff hf]
  have n11 : z.rhoS = y.rhoS := by
    cases hf : g.conf.rhoS with
    | true =>
      funext n
      obtain ⟨dr, a1, a2⟩ := ci.rhoS hf
      obtain ⟨dr', b1, b2⟩ := cj.rhoS hf
      obtain rfl := Except.ok.inj (a1.symm.trans b1)
      have a := a2 n
      have b := b2 n
      rw [n1] at b
      by_cases hu : UsesCurve g.p n i ∧ i.typeName ≠ "Stock" ∧ i.typeName ≠ "Cash"
      · exact byTenor_order g _ i npvAt (fun a m => CurveShifted n (InTenor (dr.map (timeFrom M.w.date)) a) g.conf.rhoBump M m)
          (fun a m m' q q' => curveShifted_unique _ _ _ _ _ _ hM.curves q q') _ _ _ _ _ (fun j => by rw [hl.mem_iff]) _ _ _ fd (a.1 hu) (b.1 hu)
      · exact (b.2 hu).trans (a.2 hu).symm
    | false => rw [ci.rhoSOff hf, cj.rhoSOff hf]
  have n12 : z.divS = y.divS := by
    cases hf : g.conf.divS with
    | true =>
      funext u
      obtain ⟨dr, a1, a2⟩ := ci.divS hf
      obtain ⟨dr', b1, b2⟩ := cj.divS hf
      obtain rfl := Except.ok.inj (a1.symm.trans b1)
      have a := a2 u
      have b := b2 u
      rw [n1, hnn.mem_iff] at b
      by_cases hu : u ∈ names ∧ u ∈ i.unds ∧ i.typeName ≠ "Stock" ∧ i.typeName ≠ "Cash"
      · exact byTenor_order g _ i npvAt (fun a m => DivShifted u (DayInTenor dr a) g.conf.divBump M m) (fun a m m' q q' => divShifted_unique _ _ _ _ _ _ q q') _ _ _ _ _
          (fun j => by rw [hl.mem_iff]) _ _ _ fd (a.1 hu) (b.1 hu)
      · exact (b.2 hu).trans (a.2 hu).symm
    | false => rw [ci.divSOff hf, cj.divSOff hf]
  refine ⟨y, z, hy, hz', ?_, fun u hu hpl => ?_⟩
  · have n13 : z.notional = y.notional := cj.same.1.trans ci.same.1.symm
    have n14 : z.ccy = y.ccy := cj.same.2.trans ci.same.2.symm
    obtain ⟨n5, n5'⟩ := n5
    cases y
    cases z
    simp only at n1 n2 n3 n4 n5 n5' n6 n7 n8 n9 n10 n11 n12 n13 n14
    subst n1 n2 n3 n4 n5 n5' n6 n7 n8 n9 n10 n11 n12 n13 n14
    rfl
  · obtain ⟨pl, f, t, hP, hpn⟩ := hpl
    cases hf : g.conf.vegaM with
    | true =>
      obtain ⟨T, Mu, L, c1, t1, c2, c3, -, c5, -⟩ := (ci.vegaM hf).1 u hu
      obtain ⟨T', Mu', L', d1, t1', d2, d3, -, d5, -⟩ := (cj.vegaM hf).1 u hu
      obtain rfl := done u T T' t1 t1'
      obtain ⟨v, r, p1, p2, p3, p4, p5, p6, p7, p8⟩ := c5
      obtain ⟨v', r', q1, q2, q3, q4, q5, q6, q7, q8⟩ := d5
      rw [n1, p1] at q1
      obtain rfl := Option.some.inj q1
      have hus : ∀ a ∈ [u], ∀ b ∈ [u], a = b := fun a ha b hb => (List.mem_singleton.1 ha).trans (List.mem_singleton.1 hb).symm
      have hsee : SeesOnly [u] (planNames pl).2 (pl.pricer g.md f t) i := plan_sees g.md f t pl [u] _ (fun w hw => List.mem_singleton.2 (hpn w hw)) (fun _ q => q) i
      dsimp only at q4 q5 q6 q7 q8
      generalize hord : matrixOrder (ds.map (timeFrom M.w.date)) T g.conf.moneyness.length = order at *
      have hr : ∀ a, a ≤ order.length → r a = r' a := by
        intro a ha
        cases a with
        | zero => rw [p3, q3]
        | succ a =>
          obtain ⟨m, m1, m2⟩ := p4 a (by omega)
          obtain ⟨m', m1', m2'⟩ := q4 a (by omega)
          obtain ⟨m0, s1, s2⟩ := vol_transplant [u] (planNames pl).2 hus M Mu m c2 u (by simp) c3 _ _ m1
          obtain ⟨m0', s1', s2'⟩ := vol_transplant [u] (planNames pl).2 hus M Mu' m' d2 u (by simp) d3 _ _ m1'
          obtain rfl := volShifted_unique _ _ _ _ _ _ hM.vols s1 s1'
          have al := alike_trans _ _ _ _ _ s2 (alike_symm _ _ _ _ s2')
          have := (hsee m m' al).1
          rw [npvAt] at m2'
          unfold EngCfg.npv at m2 m2'
          rw [hP] at m2 m2'
          have m3 : (pl.pricer g.md f t).npv i m = .ok (r (a + 1)) := m2
          have m3' : (pl.pricer g.md f t).npv i m' = .ok (r' (a + 1)) := m2'
          rw [this, m3'] at m3
          exact (Except.ok.inj m3).symm
      rw [c1, d1]
      congr 1
      refine cells_ext (ds.map (timeFrom M.w.date)).length g.conf.moneyness.length _ _ q5 p5 q6 p6 fun a b ha hb => ?_
      by_cases hm : (a, b) ∈ order
      · obtain ⟨o, ho, ho'⟩ := List.getElem_of_mem hm
        have hgo : order[o]? = some (a, b) := by rw [List.getElem?_eq_getElem ho, ho']
        have w1 := p7 o _ hgo
        have w2 := q7 o _ hgo
        dsimp only at w1 w2
        rw [w1, w2, hr o (by omega), hr (o + 1) (by omega)]
      · rw [p8 a b ha hb hm, q8 a b ha hb hm]
    | false => rw [ci.vegaMOff hf, cj.vegaMOff hf]

/-- The hypotheses of C190 are met: the five instruments of `twinInsts`, and the same backwards. -/
theorem order_witness : ∃ M e e', OwnCodes (twinOf twinInsts) ∧ OneZone (twinOf twinInsts) ∧ twinInsts.reverse.Perm twinInsts ∧ twinInsts.length = 5 ∧ twinInsts.reverse ≠ twinInsts ∧
    SoundMkt (twinOf twinInsts) [day0 2021 7 1, day0 2022 1 1, day0 2023 1 1] M ∧
    calculate (twinOf twinInsts) ["A"] { mkt := M, action := twinInsts, results := freshResults twinInsts fun _ => none } = .ok e ∧
    calculate { twinOf twinInsts with insts := twinInsts.reverse } ["A"] { mkt := M, action := twinInsts.reverse, results := freshResults twinInsts.reverse fun _ => none } = .ok e' := by
  obtain ⟨c, v, s, -, -, h⟩ := twin_markets [[0.2, 0.2, 0.3], [0.2, 0.25, 0.3], [0.3, 0.3, 0.3]] rfl (by simp)
  obtain ⟨a1, a2, a3, e, a4⟩ := h false twinInsts (fun _ h => h) (by simp [twinInsts])
  obtain ⟨-, -, -, e', b4⟩ := h false twinInsts.reverse (fun _ h => List.mem_reverse.1 h) (by simp [twinInsts])
  exact ⟨_, e, e', a1, a2, List.reverse_perm _, rfl, by simp [twinInsts], a3, a4, b4⟩

end Verif.Props

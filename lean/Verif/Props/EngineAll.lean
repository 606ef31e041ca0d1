import Verif.Props.EngineMatrix
/-!
# C97, C98: everything a calculation of the engine sets, and the conversion of its results
-/
set_option autoImplicit false
namespace Verif.Props
open Verif Verif.QL Verif.Civil

/-! ## Specification -/

/-- The market an engine is given after loading: curves, volatilities and dividends are sound, prices and dividends are those of the evaluation
date, and the surfaces are on the tenors `ds` and the moneynesses of the configuration. -/
structure SoundMkt (g : EngCfg) (ds : List DT) (M : Mkt) : Prop where
  curves : GoodCurves M
  vols : GoodVols M
  divs : GoodDivs M
  date : AtDate M.w
  tenors : calcDates g.md M.w.date g.conf.vegaTenors = .ok ds
  grid : OnGrid M (ds.map (timeFrom M.w.date)) g.conf.moneyness

/-- What a calculation in the market `M` does to the result of the instrument `i`, which was `x` before: each part that is switched on is set, to
numbers made from npvs in markets that differ from `M` only in what the part is about; each part that is switched off is what it was. `M'` is the market
after the calculation. -/
structure Calculated (g : EngCfg) (names : List String) (ds : List DT) (M M' : Mkt) (i : Instr) (x y : EResult) : Prop where
  same : y.notional = x.notional ∧ y.ccy = x.ccy
  npv : g.conf.npv = true → ∃ p v fl, g.pricers i.code = some p ∧ p.result i M = .ok v ∧ v.expected = .ok fl ∧
    y.npv = some v ∧ y.value = some (v.npv * x.notional) ∧ y.flows = some fl
  npvOff : g.conf.npv = false → y.npv = x.npv ∧ y.value = x.value ∧ y.flows = x.flows
  exposure : g.conf.exposure = true → ∃ p v f, g.pricers i.code = some p ∧ y.npv = some v ∧ p.exposure i M v.npv = .ok f ∧ y.exposure = some f
  exposureOff : g.conf.exposure = false → y.exposure = x.exposure
  delta : g.conf.delta = true →
    (i.typeName = "Stock" ∨ i.typeName = "Futures" → ∃ v, y.npv = some v ∧
      y.delta = x.delta.put i.code (v.npv * 0.01 * i.notional) ∧ y.gamma = x.gamma.put i.code 0) ∧
    (i.typeName ≠ "Stock" ∧ i.typeName ≠ "Futures" → (∀ u ∈ i.unds, CentralDiff g M u i y.npv (y.delta u, y.gamma u)) ∧
      ∀ k, k ∉ i.unds → y.delta k = x.delta k ∧ y.gamma k = x.gamma k)
  deltaOff : g.conf.delta = false → y.delta = x.delta ∧ y.gamma = x.gamma
  theta : g.conf.theta = true → ∃ b, M.w.date.addNs (g.conf.thetaDay * dayNs) = .ok b ∧
    (i.typeName = "Stock" ∨ i.typeName = "Cash" → y.theta = some 0) ∧
    (i.typeName ≠ "Stock" ∧ i.typeName ≠ "Cash" → ∃ d, ThetaDate g b i d ∧ ThetaAt g M d i y y.theta)
  thetaOff : g.conf.theta = false → y.theta = x.theta
  vega : g.conf.vega = true → ∀ u,
    (u ∈ i.unds ∧ i.typeName ≠ "Stock" ∧ i.typeName ≠ "Futures" → ∃ m, VolShifted u (fun _ _ => True) g.conf.vegaBump M m ∧
      ForwardDiff g m g.conf.vegaBump 0.01 i y.npv (y.vega u)) ∧
    (¬ (u ∈ i.unds ∧ i.typeName ≠ "Stock" ∧ i.typeName ≠ "Futures") → y.vega u = x.vega u)
  vegaOff : g.conf.vega = false → y.vega = x.vega
  rho : g.conf.rho = true → ∀ n,
    (UsesCurve g.p n i ∧ i.typeName ≠ "Stock" → ∃ m, CurveShifted n (fun _ => True) g.conf.rhoBump M m ∧
      ForwardDiff g m g.conf.rhoBump 0.0001 i y.npv (y.rho n)) ∧
    (¬ (UsesCurve g.p n i ∧ i.typeName ≠ "Stock") → y.rho n = x.rho n)
  rhoOff : g.conf.rho = false → y.rho = x.rho
  divDelta : g.conf.divDelta = true → ∀ u,
    (u ∈ i.unds ∧ i.typeName ≠ "Stock" ∧ i.typeName ≠ "Cash" → ∃ m, DivShifted u (fun _ => True) g.conf.divBump M m ∧
      ForwardDiff g m g.conf.divBump 0.0001 i y.npv (y.divDelta u)) ∧
    (¬ (u ∈ i.unds ∧ i.typeName ≠ "Stock" ∧ i.typeName ≠ "Cash") → y.divDelta u = x.divDelta u)
  divDeltaOff : g.conf.divDelta = false → y.divDelta = x.divDelta
  vegaS : g.conf.vegaS = true → ∀ u,
    (OnVol i u → ∃ T, DoneBy M.w.date (fun j => j ∈ g.insts ∧ OnVol j u) T ∧
      VegaByTenor g M u g.conf.vegaSBump T (ds.map (timeFrom M.w.date)) i y.npv (y.vegaS u)) ∧
    (¬ OnVol i u → y.vegaS u = x.vegaS u)
  vegaSOff : g.conf.vegaS = false → y.vegaS = x.vegaS
  rhoS : g.conf.rhoS = true → ∃ dr, calcDates g.md M.w.date g.conf.rhoTenors = .ok dr ∧ ∀ n,
    (UsesCurve g.p n i ∧ i.typeName ≠ "Stock" ∧ i.typeName ≠ "Cash" →
      ByTenor g (fun k m => CurveShifted n (InTenor (dr.map (timeFrom M.w.date)) k) g.conf.rhoBump M m) g.conf.rhoBump 0.0001 dr
        (fun j => j ∈ g.insts ∧ UsesCurve g.p n j ∧ j.typeName ≠ "Stock" ∧ j.typeName ≠ "Cash") i y.npv (y.rhoS n)) ∧
    (¬ (UsesCurve g.p n i ∧ i.typeName ≠ "Stock" ∧ i.typeName ≠ "Cash") → y.rhoS n = x.rhoS n)
  rhoSOff : g.conf.rhoS = false → y.rhoS = x.rhoS
  divS : g.conf.divS = true → ∃ dd, calcDates g.md M.w.date g.conf.divTenors = .ok dd ∧ ∀ u,
    (u ∈ names ∧ u ∈ i.unds ∧ i.typeName ≠ "Stock" ∧ i.typeName ≠ "Cash" →
      ByTenor g (fun k m => DivShifted u (DayInTenor dd k) g.conf.divBump M m) g.conf.divBump 0.0001 dd
        (fun j => j ∈ g.insts ∧ u ∈ j.unds ∧ j.typeName ≠ "Stock" ∧ j.typeName ≠ "Cash") i y.npv (y.divS u)) ∧
    (¬ (u ∈ names ∧ u ∈ i.unds ∧ i.typeName ≠ "Stock" ∧ i.typeName ≠ "Cash") → y.divS u = x.divS u)
  divSOff : g.conf.divS = false → y.divS = x.divS
  vegaM : g.conf.vegaM = true →
    (∀ u, OnVol i u → ∃ T Mu L, y.vegaM u = some L ∧ DoneBy M.w.date (fun j => j ∈ g.insts ∧ OnVol j u) T ∧
      Mu = { M with vols := Mu.vols } ∧ Mu.vols u = M.vols u ∧ (∀ w, Mu.vols w = M.vols w ∨ Mu.vols w = M'.vols w) ∧
      VegaMatrix g Mu u g.conf.vegaSBump (ds.map (timeFrom M.w.date)) g.conf.moneyness
        (matrixOrder (ds.map (timeFrom M.w.date)) T g.conf.moneyness.length) i y.npv L ∧
      ∀ pre suf, allUnds g.insts = pre ++ u :: suf → ∀ w, w ≠ u →
        ((w ∈ suf ∧ ∃ j ∈ g.insts, OnVol j w) → y.vegaM w = some L) ∧ (¬ (w ∈ suf ∧ ∃ j ∈ g.insts, OnVol j w) → y.vegaM w = x.vegaM w)) ∧
    ((∀ u, ¬ OnVol i u) → y.vegaM = x.vegaM)
  vegaMOff : g.conf.vegaM = false → y.vegaM = x.vegaM

/-! ## The parts one after the other -/

theorem onlyIf_true {flag : Bool} {f : Eng → Res Eng} {e e' : Eng} (h : onlyIf flag f e = .ok e') (hf : flag = true) : f e = .ok e' := by
  subst hf; exact h

theorem onlyIf_false {flag : Bool} {f : Eng → Res Eng} {e e' : Eng} (h : onlyIf flag f e = .ok e') (hf : flag = false) : e' = e := by
  subst hf; exact (Except.ok.inj h).symm

/-- A part that leaves the market as it is and changes results by `put`. -/
def Part1 (g : EngCfg) {α : Type} (put : EResult → α → EResult) (Q : Mkt → Instr → EResult → α → Prop) (e e' : Eng) : Prop :=
  e'.mkt = e.mkt ∧ (∀ c, c ∉ g.insts.map Instr.code → e'.results c = e.results c) ∧
  ∀ i ∈ g.insts, ∀ x, e.results i.code = some x → ∃ v, e'.results i.code = some (put x v) ∧ Q e.mkt i x v

theorem part_run (g : EngCfg) {α : Type} (get : EResult → α) (put : EResult → α → EResult) (hself : ∀ x, put x (get x) = x) (Q : Mkt → Instr → EResult → α → Prop) (flag : Bool)
    (f : Eng → Res Eng) (e e' : Eng) (hf : f e = .ok e' → Part1 g put Q e e') (h : onlyIf flag f e = .ok e') :
    Part1 g put (fun M i x v => (flag = true → Q M i x v) ∧ (flag = false → v = get x)) e e' := by
  cases flag with
  | true =>
    obtain ⟨h1, h2, h3⟩ := hf h
    refine ⟨h1, h2, fun i hi x hx => ?_⟩
    obtain ⟨v, a, b⟩ := h3 i hi x hx
    exact ⟨v, a, fun _ => b, fun hc => nomatch hc⟩
  | false =>
    obtain rfl := (Except.ok.inj h).symm
    exact ⟨rfl, fun _ _ => rfl, fun i hi x hx => ⟨get x, by rw [hself]; exact hx, fun hc => (nomatch hc), fun _ => rfl⟩⟩

/-- **C97**. A calculation of an engine with all its instruments to be priced, in a sound market. Every instrument has the result described by `Calculated`; no
other result changes; the market is what it was, but for what the matrix leaves lower (`LoweredTails`). -/
theorem C97_calculate (g : EngCfg) (hg : OwnCodes g) (names : List String) (hns : names.Nodup) (ds : List DT) (e e' : Eng) (hM : SoundMkt g ds e.mkt)
    (ha : e.action = g.insts) (h : calculate g names e = .ok e') :
    (g.conf.vegaM = false → e'.mkt = e.mkt) ∧ (g.conf.vegaM = true → LoweredTails g (allUnds g.insts) (ds.map (timeFrom e.mkt.w.date)) e.mkt e'.mkt) ∧
    (∀ c, c ∉ g.insts.map Instr.code → e'.results c = e.results c) ∧
    ∀ i ∈ g.insts, ∀ x, e.results i.code = some x → ∃ y, e'.results i.code = some y ∧ Calculated g names ds e.mkt e'.mkt i x y := by
  unfold calculate at h
  obtain ⟨e1, h1, h⟩ := (bind_ok_iff _ _ _).1 h
  obtain ⟨e2, h2, h⟩ := (bind_ok_iff _ _ _).1 h
  obtain ⟨e3, h3, h⟩ := (bind_ok_iff _ _ _).1 h
  obtain ⟨e4, h4, h⟩ := (bind_ok_iff _ _ _).1 h
  obtain ⟨e5, h5, h⟩ := (bind_ok_iff _ _ _).1 h
  obtain ⟨e6, h6, h⟩ := (bind_ok_iff _ _ _).1 h
  obtain ⟨e7, h7, h⟩ := (bind_ok_iff _ _ _).1 h
  obtain ⟨e8, h8, h⟩ := (bind_ok_iff _ _ _).1 h
  obtain ⟨e9, h9, h⟩ := (bind_ok_iff _ _ _).1 h
  obtain ⟨e10, h10, h11⟩ := (bind_ok_iff _ _ _).1 h
  clear h
  have hall : ∀ f : Eng, f.action = g.insts → Among g f.action := fun f hf => by rw [hf]; exact fun i hi => hi
  -- npv
  have a1 : e1.action = g.insts := by
    cases hf : g.conf.npv with
    | true => rw [((C87_npv g hg e e1 (hall e ha)).1 (onlyIf_true h1 hf)).2.2.1, ha]
    | false => rw [onlyIf_false h1 hf, ha]
  obtain ⟨m1, c1, r1⟩ := part_run g (fun x => (x.npv, x.value, x.flows)) (fun x v => { x with npv := v.1, value := v.2.1, flows := v.2.2 }) (fun _ => rfl)
    (fun M i x v => ∃ p w fl, g.pricers i.code = some p ∧ p.result i M = .ok w ∧ w.expected = .ok fl ∧ v.1 = some w ∧ v.2.1 = some (w.npv * x.notional) ∧ v.2.2 = some fl)
    g.conf.npv (setNpvs g) e e1 (fun q => by
      obtain ⟨-, q1, -, q2, q3⟩ := (C87_npv g hg e e1 (hall e ha)).1 q
      refine ⟨q1, q3, fun i hi x hx => ?_⟩
      obtain ⟨x', p, v, fl, b1, b2, b3, b4, b5⟩ := q2 i hi
      rw [hx] at b1
      obtain rfl := Option.some.inj b1
      exact ⟨(some v, some (v.npv * x.notional), some fl), b5, p, v, fl, b2, b3, b4, rfl, rfl, rfl⟩) h1
  -- exposure
  obtain ⟨m2, c2, r2⟩ := part_run g (fun x => x.exposure) (fun x v => { x with exposure := v }) (fun _ => rfl)
    (fun M i x v => ∃ p w f, g.pricers i.code = some p ∧ x.npv = some w ∧ p.exposure i M w.npv = .ok f ∧ v = some f)
    g.conf.exposure (setExposures g) e1 e2 (fun q => by
      obtain ⟨-, q1, -, q2, q3⟩ := (C87_exposure g hg e1 e2 (hall e1 a1)).1 q
      refine ⟨q1, q3, fun i hi x hx => ?_⟩
      obtain ⟨x', p, v, f, b1, b2, b3, b4, b5⟩ := q2 i hi
      rw [hx] at b1
      obtain rfl := Option.some.inj b1
      exact ⟨some f, b5, p, v, f, b3, b2, b4, rfl⟩) h2
  -- delta
  obtain ⟨m3, c3, r3⟩ := part_run g (fun x => (x.delta, x.gamma)) (fun x v => { x with delta := v.1, gamma := v.2 }) (fun _ => rfl)
    (fun M i x v => (i.typeName = "Stock" ∨ i.typeName = "Futures" → ∃ w, x.npv = some w ∧
        v.1 = x.delta.put i.code (w.npv * 0.01 * i.notional) ∧ v.2 = x.gamma.put i.code 0) ∧
      (i.typeName ≠ "Stock" ∧ i.typeName ≠ "Futures" → (∀ u ∈ i.unds, CentralDiff g M u i x.npv (v.1 u, v.2 u)) ∧
        ∀ k, k ∉ i.unds → v.1 k = x.delta k ∧ v.2 k = x.gamma k))
    g.conf.delta (setDeltas g) e2 e3 (fun q => by
      obtain ⟨q1, q2, q3⟩ := C88_delta g hg e2 e3 q
      refine ⟨q1, q2, fun i hi x hx => ?_⟩
      obtain ⟨y, y1, y2, y3, y4⟩ := q3 i hi x hx
      exact ⟨(y.delta, y.gamma), y1.trans (congrArg some y2), y3, y4⟩) h3
  -- theta
  have d3 : e3.mkt = e.mkt := m3.trans (m2.trans m1)
  obtain ⟨m4, c4, r4⟩ := part_run g (fun x => x.theta) (fun x v => { x with theta := v }) (fun _ => rfl)
    (fun M i x v => ∃ b, M.w.date.addNs (g.conf.thetaDay * dayNs) = .ok b ∧ (i.typeName = "Stock" ∨ i.typeName = "Cash" → v = some 0) ∧
      (i.typeName ≠ "Stock" ∧ i.typeName ≠ "Cash" → ∃ d, ThetaDate g b i d ∧ ThetaAt g M d i x v))
    g.conf.theta (setTheta g) e3 e4 (fun q => by
      obtain ⟨q1, q2, b, q3, q4⟩ := C92_theta g hg e3 e4 (by rw [d3]; exact hM.date) q
      refine ⟨q1, q2, fun i hi x hx => ?_⟩
      obtain ⟨y, y1, y2, y3, y4⟩ := q4 i hi x hx
      exact ⟨y.theta, y1.trans (congrArg some y2), b, q3, y3, y4⟩) h4
  -- vega
  have d4 : e4.mkt = e.mkt := m4.trans d3
  obtain ⟨m5, c5, r5⟩ := part_run g (fun x => x.vega) (fun x v => { x with vega := v }) (fun _ => rfl)
    (fun M i x v => ∀ u, (u ∈ i.unds ∧ i.typeName ≠ "Stock" ∧ i.typeName ≠ "Futures" → ∃ m, VolShifted u (fun _ _ => True) g.conf.vegaBump M m ∧
        ForwardDiff g m g.conf.vegaBump 0.01 i x.npv (v u)) ∧
      (¬ (u ∈ i.unds ∧ i.typeName ≠ "Stock" ∧ i.typeName ≠ "Futures") → v u = x.vega u))
    g.conf.vega (setVega g) e4 e5 (fun q => by
      obtain ⟨q1, q2, q3⟩ := C90_vega g hg e4 e5 (by rw [d4]; exact hM.vols) q
      refine ⟨q1, q2, fun i hi x hx => ?_⟩
      obtain ⟨y, y1, y2, y3⟩ := q3 i hi x hx
      exact ⟨y.vega, y1.trans (congrArg some y2), y3⟩) h5
  -- rho
  have d5 : e5.mkt = e.mkt := m5.trans d4
  obtain ⟨m6, c6, r6⟩ := part_run g (fun x => x.rho) (fun x v => { x with rho := v }) (fun _ => rfl)
    (fun M i x v => ∀ n, (UsesCurve g.p n i ∧ i.typeName ≠ "Stock" → ∃ m, CurveShifted n (fun _ => True) g.conf.rhoBump M m ∧
        ForwardDiff g m g.conf.rhoBump 0.0001 i x.npv (v n)) ∧
      (¬ (UsesCurve g.p n i ∧ i.typeName ≠ "Stock") → v n = x.rho n))
    g.conf.rho (setRho g) e5 e6 (fun q => by
      obtain ⟨-, q1, q2, q3⟩ := C89_rho g hg e5 e6 (by rw [d5]; exact hM.curves) q
      refine ⟨q1, q2, fun i hi x hx => ?_⟩
      obtain ⟨y, y1, y2, y3⟩ := q3 i hi x hx
      exact ⟨y.rho, y1.trans (congrArg some y2), y3⟩) h6
  -- dividend delta
  have d6 : e6.mkt = e.mkt := m6.trans d5
  obtain ⟨m7, c7, r7⟩ := part_run g (fun x => x.divDelta) (fun x v => { x with divDelta := v }) (fun _ => rfl)
    (fun M i x v => ∀ u, (u ∈ i.unds ∧ i.typeName ≠ "Stock" ∧ i.typeName ≠ "Cash" → ∃ m, DivShifted u (fun _ => True) g.conf.divBump M m ∧
        ForwardDiff g m g.conf.divBump 0.0001 i x.npv (v u)) ∧
      (¬ (u ∈ i.unds ∧ i.typeName ≠ "Stock" ∧ i.typeName ≠ "Cash") → v u = x.divDelta u))
    g.conf.divDelta (setDivDelta g) e6 e7 (fun q => by
      obtain ⟨q1, q2, q3⟩ := C91_div_delta g hg e6 e7 (by rw [d6]; exact hM.divs) q
      refine ⟨q1, q2, fun i hi x hx => ?_⟩
      obtain ⟨y, y1, y2, y3⟩ := q3 i hi x hx
      exact ⟨y.divDelta, y1.trans (congrArg some y2), y3⟩) h7
  -- vega by tenor
  have d7 : e7.mkt = e.mkt := m7.trans d6
  obtain ⟨m8, c8, r8⟩ := part_run g (fun x => x.vegaS) (fun x v => { x with vegaS := v }) (fun _ => rfl)
    (fun M i x v => ∀ u, (OnVol i u → ∃ T, DoneBy M.w.date (fun j => j ∈ g.insts ∧ OnVol j u) T ∧
        VegaByTenor g M u g.conf.vegaSBump T (ds.map (timeFrom M.w.date)) i x.npv (v u)) ∧
      (¬ OnVol i u → v u = x.vegaS u))
    g.conf.vegaS (setVegaS g) e7 e8 (fun q => by
      obtain ⟨q1, q2, q3⟩ := C93_vega_structure g hg e7 e8 (by rw [d7]; exact hM.vols) ds (by rw [d7]; exact hM.tenors)
        (by rw [d7]; exact fun u s hs => (hM.grid u s hs).1) q
      refine ⟨q1, q2, fun i hi x hx => ?_⟩
      obtain ⟨y, y1, y2, y3⟩ := q3 i hi x hx
      exact ⟨y.vegaS, y1.trans (congrArg some y2), y3⟩) h8
  -- rho by tenor
  have d8 : e8.mkt = e.mkt := m8.trans d7
  obtain ⟨m9, c9, r9⟩ := part_run g (fun x => x.rhoS) (fun x v => { x with rhoS := v }) (fun _ => rfl)
    (fun M i x v => ∃ dr, calcDates g.md M.w.date g.conf.rhoTenors = .ok dr ∧ ∀ n,
      (UsesCurve g.p n i ∧ i.typeName ≠ "Stock" ∧ i.typeName ≠ "Cash" →
        ByTenor g (fun k m => CurveShifted n (InTenor (dr.map (timeFrom M.w.date)) k) g.conf.rhoBump M m) g.conf.rhoBump 0.0001 dr
          (fun j => j ∈ g.insts ∧ UsesCurve g.p n j ∧ j.typeName ≠ "Stock" ∧ j.typeName ≠ "Cash") i x.npv (v n)) ∧
      (¬ (UsesCurve g.p n i ∧ i.typeName ≠ "Stock" ∧ i.typeName ≠ "Cash") → v n = x.rhoS n))
    g.conf.rhoS (setRhoS g) e8 e9 (fun q => by
      obtain ⟨-, q1, q2, dr, q3, q4⟩ := C94_rho_structure g hg e8 e9 (by rw [d8]; exact hM.curves) q
      refine ⟨q1, q2, fun i hi x hx => ?_⟩
      obtain ⟨y, y1, y2, y3⟩ := q4 i hi x hx
      exact ⟨y.rhoS, y1.trans (congrArg some y2), dr, q3, y3⟩) h9
  -- dividend delta by tenor
  have d9 : e9.mkt = e.mkt := m9.trans d8
  obtain ⟨m10, c10, r10⟩ := part_run g (fun x => x.divS) (fun x v => { x with divS := v }) (fun _ => rfl)
    (fun M i x v => ∃ dd, calcDates g.md M.w.date g.conf.divTenors = .ok dd ∧ ∀ u,
      (u ∈ names ∧ u ∈ i.unds ∧ i.typeName ≠ "Stock" ∧ i.typeName ≠ "Cash" →
        ByTenor g (fun k m => DivShifted u (DayInTenor dd k) g.conf.divBump M m) g.conf.divBump 0.0001 dd
          (fun j => j ∈ g.insts ∧ u ∈ j.unds ∧ j.typeName ≠ "Stock" ∧ j.typeName ≠ "Cash") i x.npv (v u)) ∧
      (¬ (u ∈ names ∧ u ∈ i.unds ∧ i.typeName ≠ "Stock" ∧ i.typeName ≠ "Cash") → v u = x.divS u))
    g.conf.divS (setDivS g names) e9 e10 (fun q => by
      obtain ⟨q1, q2, dd, q3, q4⟩ := C95_div_structure g hg names hns e9 e10 (by rw [d9]; exact hM.divs) q
      refine ⟨q1, q2, fun i hi x hx => ?_⟩
      obtain ⟨y, y1, y2, y3⟩ := q4 i hi x hx
      exact ⟨y.divS, y1.trans (congrArg some y2), dd, q3, y3⟩) h10
  -- vega matrix
  have d10 : e10.mkt = e.mkt := m10.trans d9
  have r11 : (∀ c, c ∉ g.insts.map Instr.code → e'.results c = e10.results c) ∧
      ∀ i ∈ g.insts, ∀ x, e10.results i.code = some x → ∃ v, e'.results i.code = some { x with vegaM := v } ∧ (g.conf.vegaM = false → v = x.vegaM) ∧
      (g.conf.vegaM = true → (∀ u, OnVol i u → ∃ T Mu L, v u = some L ∧ DoneBy e.mkt.w.date (fun j => j ∈ g.insts ∧ OnVol j u) T ∧
        Mu = { e.mkt with vols := Mu.vols } ∧ Mu.vols u = e.mkt.vols u ∧ (∀ w, Mu.vols w = e.mkt.vols w ∨ Mu.vols w = e'.mkt.vols w) ∧
        VegaMatrix g Mu u g.conf.vegaSBump (ds.map (timeFrom e.mkt.w.date)) g.conf.moneyness
          (matrixOrder (ds.map (timeFrom e.mkt.w.date)) T g.conf.moneyness.length) i x.npv L ∧
        ∀ pre suf, allUnds g.insts = pre ++ u :: suf → ∀ w, w ≠ u →
          ((w ∈ suf ∧ ∃ j ∈ g.insts, OnVol j w) → v w = some L) ∧ (¬ (w ∈ suf ∧ ∃ j ∈ g.insts, OnVol j w) → v w = x.vegaM w)) ∧
        ((∀ u, ¬ OnVol i u) → v = x.vegaM)) := by
    cases hf : g.conf.vegaM with
    | false =>
      obtain rfl := onlyIf_false h11 hf
      exact ⟨fun _ _ => rfl, fun i hi x hx => ⟨x.vegaM, hx, fun _ => rfl, fun hc => (nomatch hc)⟩⟩
    | true =>
      have q := C96_vega_matrix g hg e10 e' (by rw [d10]; exact hM.vols) ds (by rw [d10]; exact hM.tenors) (by rw [d10]; exact hM.grid) (onlyIf_true h11 hf)
      rw [d10] at q
      obtain ⟨-, q2, q3⟩ := q
      refine ⟨fun c hc => q2 c fun i hi u _ ei => hc (ei ▸ List.mem_map_of_mem hi), fun i hi x hx => ?_⟩
      by_cases hon : ∃ u, OnVol i u
      · obtain ⟨u, hu⟩ := hon
        obtain ⟨T, Mu, y, L, y1, y2, y3, y4, y5, y6, y7, y8, y9⟩ := q3 i hi u hu x hx
        refine ⟨y.vegaM, y1.trans (congrArg some y2), fun hc => (nomatch hc), fun _ => ⟨fun u' hu' => ?_, fun hn => absurd hu (hn u)⟩⟩
        obtain rfl := onVol_unique i u u' hu hu'
        exact ⟨T, Mu, L, y3, y4, y5, y6, y7, y8, y9⟩
      · refine ⟨x.vegaM, ?_, fun hc => (nomatch hc), fun _ => ⟨fun u hu => absurd ⟨u, hu⟩ hon, fun _ => rfl⟩⟩
        rw [q2 i.code fun j hj u hu ej => hon ⟨u, code_unique g hg j i hj hi ej ▸ hu⟩]
        exact hx
  refine ⟨fun hf => by rw [onlyIf_false h11 hf, d10], fun hf => ?_, fun c hc => ?_, fun i hi x0 hx0 => ?_⟩
  · have q := C96_vega_matrix g hg e10 e' (by rw [d10]; exact hM.vols) ds (by rw [d10]; exact hM.tenors) (by rw [d10]; exact hM.grid) (onlyIf_true h11 hf)
    rw [d10] at q
    exact q.1
  · rw [r11.1 c hc, c10 c hc, c9 c hc, c8 c hc, c7 c hc, c6 c hc, c5 c hc, c4 c hc, c3 c hc, c2 c hc, c1 c hc]
  · rw [m1] at r2
    rw [m2, m1] at r3
    rw [d3] at r4
    rw [d4] at r5
    rw [d5] at r6
    rw [d6] at r7
    rw [d7] at r8
    rw [d8] at r9
    rw [d9] at r10
    obtain ⟨v1, x1, s1, t1⟩ := r1 i hi x0 hx0
    obtain ⟨v2, x2, s2, t2⟩ := r2 i hi _ x1
    obtain ⟨v3, x3, s3, t3⟩ := r3 i hi _ x2
    obtain ⟨v4, x4, s4, t4⟩ := r4 i hi _ x3
    obtain ⟨v5, x5, s5, t5⟩ := r5 i hi _ x4
    obtain ⟨v6, x6, s6, t6⟩ := r6 i hi _ x5
    obtain ⟨v7, x7, s7, t7⟩ := r7 i hi _ x6
    obtain ⟨v8, x8, s8, t8⟩ := r8 i hi _ x7
    obtain ⟨v9, x9, s9, t9⟩ := r9 i hi _ x8
    obtain ⟨v10, x10, s10, t10⟩ := r10 i hi _ x9
    obtain ⟨v11, x11, t11, s11⟩ := r11.2 i hi _ x10
    refine ⟨_, x11, ⟨rfl, rfl⟩, s1, ?_, s2, t2, s3, ?_, s4, t4, s5, t5, s6, t6, s7, t7, s8, t8, s9, t9, s10, t10, s11, t11⟩
    · intro hf
      rw [t1 hf]
      exact ⟨rfl, rfl, rfl⟩
    · intro hf
      rw [t3 hf]
      exact ⟨rfl, rfl⟩

/-- **C97** (the market). Without the matrix, or if no tenor starts after the last maturity on any underlying, the market is what it was. -/
theorem C97_restored (g : EngCfg) (hg : OwnCodes g) (names : List String) (hns : names.Nodup) (ds : List DT) (e e' : Eng) (hM : SoundMkt g ds e.mkt)
    (ha : e.action = g.insts) (h : calculate g names e = .ok e')
    (hall : g.conf.vegaM = true → ∀ u T, (∃ i ∈ g.insts, OnVol i u) → DoneBy e.mkt.w.date (fun j => j ∈ g.insts ∧ OnVol j u) T →
      ∀ k, k < ds.length → ¬ TenorBeyond (ds.map (timeFrom e.mkt.w.date)) T k) : e'.mkt = e.mkt := by
  obtain ⟨h1, h2, -⟩ := C97_calculate g hg names hns ds e e' hM ha h
  cases hf : g.conf.vegaM with
  | false => exact h1 hf
  | true => exact (C96_restored g _ _ e.mkt e'.mkt hM.vols hM.grid (h2 hf) fun u T hu hT k hk => hall hf u T hu hT k (by simpa using hk)).1

/-- The results of a new engine: one per instrument, empty. -/
theorem freshResults_spec (l : List Instr) : ∀ (r : Results), (l.map Instr.code).Nodup → (∀ i ∈ l, freshResults l r i.code = some (EResult.fresh i)) ∧
    ∀ c, c ∉ l.map Instr.code → freshResults l r c = r c := by
  induction l with
  | nil => exact fun r _ => ⟨by simp, fun _ _ => rfl⟩
  | cons i l ih =>
    intro r hnd
    rw [List.map_cons, List.nodup_cons] at hnd
    obtain ⟨h1, h2⟩ := ih (r.put i.code (EResult.fresh i)) hnd.2
    unfold freshResults
    refine ⟨fun j hj => ?_, fun c hc => ?_⟩
    · rcases List.mem_cons.1 hj with rfl | hj
      · rw [h2 _ hnd.1, put_self]
      · exact h1 j hj
    · simp only [List.map_cons, List.mem_cons, not_or] at hc
      rw [h2 c hc.2, put_other _ _ _ _ hc.1]

/-- **C97** (a new engine): every instrument gets its result, with exactly the parts switched on. -/
theorem C97_new_engine (g : EngCfg) (hg : OwnCodes g) (names : List String) (hns : names.Nodup) (ds : List DT) (M : Mkt) (e' : Eng) (hM : SoundMkt g ds M)
    (h : calculate g names { mkt := M, action := g.insts, results := freshResults g.insts fun _ => none } = .ok e') :
    (∀ c, c ∉ g.insts.map Instr.code → e'.results c = none) ∧
    ∀ i ∈ g.insts, ∃ y, e'.results i.code = some y ∧ Calculated g names ds M e'.mkt i (EResult.fresh i) y := by
  obtain ⟨-, -, h1, h2⟩ := C97_calculate g hg names hns ds _ e' hM rfl h
  obtain ⟨f1, f2⟩ := freshResults_spec g.insts (fun _ => none) hg
  exact ⟨fun c hc => (h1 c hc).trans (f2 c hc), fun i hi => h2 i hi _ (f1 i hi)⟩

/-- **C97** (no npv, no greeks). A new engine with the npv switched off fails if delta, vega or the exposure is switched on and there is an instrument that has one. -/
theorem C97_needs_npv (g : EngCfg) (hg : OwnCodes g) (names : List String) (hns : names.Nodup) (ds : List DT) (M : Mkt) (hM : SoundMkt g ds M) (hn : g.conf.npv = false)
    (i : Instr) (hi : i ∈ g.insts)
    (hw : g.conf.exposure = true ∨ (g.conf.delta = true ∧ i.unds ≠ []) ∨ (g.conf.vega = true ∧ ∃ u, OnVol i u)) :
    ∀ e', calculate g names { mkt := M, action := g.insts, results := freshResults g.insts fun _ => none } ≠ .ok e' := by
  intro e' h
  obtain ⟨-, h2⟩ := C97_new_engine g hg names hns ds M e' hM h
  obtain ⟨y, -, hc⟩ := h2 i hi
  have hnone : y.npv = none := (hc.npvOff hn).1
  rcases hw with hw | ⟨hw, hu⟩ | ⟨hw, u, hu⟩
  · obtain ⟨_, _, _, -, q, -⟩ := hc.exposure hw
    rw [hnone] at q; cases q
  · by_cases ht : i.typeName = "Stock" ∨ i.typeName = "Futures"
    · obtain ⟨_, q, -⟩ := (hc.delta hw).1 ht
      rw [hnone] at q; cases q
    · rw [not_or] at ht
      obtain ⟨u, hu⟩ := List.exists_mem_of_ne_nil _ hu
      obtain ⟨_, _, _, _, _, q, -⟩ := ((hc.delta hw).2 ht).1 u hu
      rw [hnone] at q; cases q
  · obtain ⟨_, -, _, _, q, -⟩ := ((hc.vega hw) u).1 ⟨hu.1, hu.2.2.1, hu.2.2.2⟩
    rw [hnone] at q; cases q

/-! ## A second calculation -/

theorem eachName_action (pick : String → Res (List Instr)) (round : String → Eng → Res Eng) (hr : ∀ n e e', round n e = .ok e' → e'.action = e.action) :
    ∀ (ns : List String) (n : String) (e e' : Eng), eachName pick round (ns ++ [n]) e = .ok e' → pick n = .ok e'.action
  | [], n, e, e', h => by
    rw [List.nil_append] at h
    unfold eachName at h
    obtain ⟨act, ha, h⟩ := (bind_ok_iff _ _ _).1 h
    by_cases he : act.isEmpty
    · rw [if_pos he] at h
      obtain rfl := Except.ok.inj h
      rw [ha, List.isEmpty_iff.1 he]
    · rw [if_neg he] at h
      obtain ⟨e1, h1, h2⟩ := (bind_ok_iff _ _ _).1 h
      obtain rfl := Except.ok.inj h2
      rw [ha, hr _ _ _ h1]
  | k :: ns, n, e, e', h => by
    rw [List.cons_append] at h
    unfold eachName at h
    obtain ⟨act, ha, h⟩ := (bind_ok_iff _ _ _).1 h
    by_cases he : act.isEmpty
    · rw [if_pos he] at h
      exact eachName_action pick round hr ns n _ e' h
    · rw [if_neg he] at h
      obtain ⟨e1, h1, h2⟩ := (bind_ok_iff _ _ _).1 h
      exact eachName_action pick round hr ns n _ e' h2

/-- A fault (C97): an engine calculates once. After npv and delta have been calculated, with no part after them, only the instruments (no stock, no
future) on the last underlying are left to be priced, and the next calculation fails if there is any other instrument. -/
theorem fault_second_calculation (g : EngCfg) (hg : OwnCodes g) (names : List String) (e e' e'' : Eng)
    (hn : g.conf.npv = true) (hd : g.conf.delta = true) (hoff : g.conf.theta = false ∧ g.conf.vega = false ∧ g.conf.rho = false ∧ g.conf.divDelta = false ∧
      g.conf.vegaS = false ∧ g.conf.rhoS = false ∧ g.conf.divS = false ∧ g.conf.vegaM = false)
    (us : List String) (u : String) (hu : allUnds g.insts = us ++ [u]) (i : Instr) (hi : i ∈ g.insts) (hno : u ∉ i.unds ∨ i.typeName = "Stock" ∨ i.typeName = "Futures")
    (h : calculate g names e = .ok e') : calculate g names e' ≠ .ok e'' := by
  intro h'
  obtain ⟨o1, o2, o3, o4, o5, o6, o7, o8⟩ := hoff
  have hact : e'.action = withUnderlying g.insts u ["Stock", "Futures"] := by
    unfold calculate onlyIf at h
    simp only [hn, hd, o1, o2, o3, o4, o5, o6, o7, o8, if_true, Bool.false_eq_true, if_false] at h
    obtain ⟨e1, -, h⟩ := (bind_ok_iff _ _ _).1 h
    obtain ⟨e2, -, h⟩ := (bind_ok_iff _ _ _).1 h
    simp only [Res.bind_ok] at h
    unfold setDeltas setDelta at h
    obtain ⟨e3, h3, h⟩ := (bind_ok_iff _ _ _).1 h
    obtain ⟨e4, -, h3⟩ := (bind_ok_iff _ _ _).1 h3
    rw [hu] at h3
    have := eachName_action _ _ (fun n e e' q => by
      unfold deltaRound at q
      obtain ⟨_, -, q⟩ := (bind_ok_iff _ _ _).1 q
      obtain ⟨_, -, q⟩ := (bind_ok_iff _ _ _).1 q
      obtain ⟨_, -, q⟩ := (bind_ok_iff _ _ _).1 q
      obtain ⟨_, -, q⟩ := (bind_ok_iff _ _ _).1 q
      obtain rfl := Except.ok.inj q
      rfl) us u _ _ h3
    obtain rfl := Except.ok.inj h
    exact (Except.ok.inj this).symm
  have ham : Among g e'.action := by
    rw [hact]
    exact fun j hj => ((withUnderlying_mem _ _ _ _).1 hj).1
  unfold calculate at h'
  obtain ⟨e1, h1, -⟩ := (bind_ok_iff _ _ _).1 h'
  have := ((C87_npv g hg e' e1 ham).1 (onlyIf_true h1 hn)).1 i hi
  rw [hact, withUnderlying_mem] at this
  rcases hno with hno | hno | hno
  · exact hno this.2.1
  · exact this.2.2 (by simp [hno])
  · exact this.2.2 (by simp [hno])

/-! ## C98: another currency -/

/-- **C98**. Converting a result to its own currency changes nothing. Otherwise the value, every exposure and every greek, of every name, tenor and cell, is
multiplied by the rate, and the currency is the new one; the npv per unit, the notional and the cash flows stay as they are. -/
theorem C98_convert (x : EResult) (c : Currency) (fx : ℝ) :
    (c = x.ccy → x.convert c fx = x) ∧
    (c ≠ x.ccy → (x.convert c fx).ccy = c ∧ (x.convert c fx).npv = x.npv ∧ (x.convert c fx).notional = x.notional ∧ (x.convert c fx).flows = x.flows ∧
      (∀ v, (x.convert c fx).value = some v ↔ ∃ w, x.value = some w ∧ v = w * fx) ∧
      (∀ v, (x.convert c fx).theta = some v ↔ ∃ w, x.theta = some w ∧ v = w * fx) ∧
      (∀ l, (x.convert c fx).exposure = some l ↔ ∃ k, x.exposure = some k ∧ l = k.map fun e => (e.1, e.2 * fx)) ∧
      (∀ n v, (x.convert c fx).delta n = some v ↔ ∃ w, x.delta n = some w ∧ v = w * fx) ∧
      (∀ n v, (x.convert c fx).gamma n = some v ↔ ∃ w, x.gamma n = some w ∧ v = w * fx) ∧
      (∀ n v, (x.convert c fx).vega n = some v ↔ ∃ w, x.vega n = some w ∧ v = w * fx) ∧
      (∀ n v, (x.convert c fx).rho n = some v ↔ ∃ w, x.rho n = some w ∧ v = w * fx) ∧
      (∀ n v, (x.convert c fx).divDelta n = some v ↔ ∃ w, x.divDelta n = some w ∧ v = w * fx) ∧
      (∀ n l, (x.convert c fx).vegaS n = some l ↔ ∃ k, x.vegaS n = some k ∧ l = k.map (· * fx)) ∧
      (∀ n l, (x.convert c fx).rhoS n = some l ↔ ∃ k, x.rhoS n = some k ∧ l = k.map (· * fx)) ∧
      (∀ n l, (x.convert c fx).divS n = some l ↔ ∃ k, x.divS n = some k ∧ l = k.map (· * fx)) ∧
      (∀ n t, (x.convert c fx).vegaM n = some t ↔ ∃ k, x.vegaM n = some k ∧ t = k.map (·.map (· * fx)))) := by
  constructor
  · intro h
    unfold EResult.convert
    rw [if_pos h]
  · intro h
    have e : x.convert c fx = _ := if_neg h
    rw [e]
    refine ⟨rfl, rfl, rfl, rfl, ?_, ?_, ?_, ?_, ?_, ?_, ?_, ?_, ?_, ?_, ?_, ?_⟩ <;> intros <;> simp only [Option.map_eq_some_iff] <;>
      exact exists_congr fun w => and_congr_right fun _ => eq_comm

/-- **C98** (there and back, and on). Converted to another currency and back at the reciprocal rate a result is what it was; converted twice, it is as if
converted once at the product of the rates. -/
theorem C98_chain (x : EResult) (c d : Currency) (a b : ℝ) (h1 : c ≠ x.ccy) (h2 : d ≠ c) :
    (a ≠ 0 → (x.convert c a).convert x.ccy (1 / a) = x) ∧ (d ≠ x.ccy → (x.convert c a).convert d b = x.convert d (a * b)) := by
  have e1 : (x.convert c a).ccy = c := ((C98_convert x c a).2 h1).1
  have key : ∀ (f : ℝ → ℝ), (∀ v, f v = v) → ∀ o : Option ℝ, o.map f = o := fun f hf o => by cases o <;> simp [hf]
  constructor
  · intro ha
    have hm : ∀ v : ℝ, v * a * (1 / a) = v := fun v => by field_simp
    unfold EResult.convert
    rw [if_neg h1]
    dsimp only
    rw [if_neg (Ne.symm h1)]
    simp only [Option.map_map, Function.comp_def, List.map_map, hm, Option.map_id', List.map_id']
  · intro hd
    have hm : ∀ v : ℝ, v * a * b = v * (a * b) := fun v => mul_assoc _ _ _
    unfold EResult.convert
    rw [if_neg h1, if_neg hd]
    dsimp only
    rw [if_neg h2]
    simp only [Option.map_map, Function.comp_def, List.map_map, hm]

end Verif.Props

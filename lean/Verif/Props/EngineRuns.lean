import Verif.Props.EngineAll
/-!
# C97: calculations that succeed, and a concrete one
-/
set_option autoImplicit false
namespace Verif.Props
open Verif Verif.QL Verif.Civil

/-- Specification: the market `m` has everything `M` has, under the same names. -/
structure SameNames (M m : Mkt) : Prop where
  equity : m.equity = M.equity
  dividend : m.dividend = M.dividend
  prices : m.w.prices.length = M.w.prices.length
  divs : m.w.divs.length = M.w.divs.length
  curves : ∀ n, (∃ c, M.curves n = some c) → ∃ c, m.curves n = some c
  vols : ∀ u, (∃ v, M.vols u = some v) → ∃ v, m.vols u = some v

/-- Specification: what the instruments and the configuration ask for is there. -/
structure Complete (g : EngCfg) (names : List String) (M : Mkt) : Prop where
  prices : ∀ i ∈ g.insts, ∀ u ∈ i.unds, ∃ j p, M.equity u = some j ∧ M.w.prices[j]? = some p
  named : ∀ i ∈ g.insts, CurvesNamed g.p i
  curves : ∀ i ∈ g.insts, ∀ n, UsesCurve g.p n i → ∃ c, M.curves n = some c
  vols : ∀ i ∈ g.insts, i.typeName ≠ "Stock" ∧ i.typeName ≠ "Futures" → ∀ u ∈ i.unds, ∃ v, M.vols u = some v
  divs : ∀ i ∈ g.insts, i.typeName ≠ "Stock" → ∀ u ∈ i.unds, ∃ k, M.dividend u = some k
  divNames : ∀ u ∈ names, ∃ k, M.dividend u = some k
  bumps : g.conf.deltaRatio ≠ 0 ∧ g.conf.vegaBump ≠ 0 ∧ g.conf.vegaSBump ≠ 0 ∧ g.conf.rhoBump ≠ 0 ∧ g.conf.divBump ≠ 0
  rhoTenors : ∃ dr, calcDates g.md M.w.date g.conf.rhoTenors = .ok dr ∧
    ∀ k, k < dr.length → (startOf (dr.map (timeFrom M.w.date)) k).getD (-99999999) ≤ ((dr.map (timeFrom M.w.date))[k]?).getD 99999999
  divTenors : ∃ dd, calcDates g.md M.w.date g.conf.divTenors = .ok dd ∧ ∀ k, k < dd.length → WindowOk (startOf dd k) dd[k]?
  moved : ∃ b, M.w.date.addNs (g.conf.thetaDay * dayNs) = .ok b ∧ ∀ i ∈ g.insts, i.typeName ≠ "Stock" ∧ i.typeName ≠ "Cash" → ∀ d, ThetaDate g b i d →
    (∃ w, M.w.setDate d = .ok w) ∧ timeFrom M.w.date d ≠ 0

/-- Specification: every instrument has a pricer that can price it in every market with the same names, and tells its exposure and cash
flows in `M`. -/
def CanPrice (g : EngCfg) (M : Mkt) : Prop :=
  ∀ i ∈ g.insts, ∃ p v fl, g.pricers i.code = some p ∧ (∀ m, SameNames M m → ∃ x, p.npv i m = .ok x) ∧ p.result i M = .ok v ∧ v.expected = .ok fl ∧
    ∃ f, p.exposure i M v.npv = .ok f

/-- Specification: the markets a calculation prices in: the market itself, and the bumped and moved ones. -/
structure Visits (g : EngCfg) (ds : List DT) (M : Mkt) (R : Mkt → Prop) : Prop where
  base : R M
  price : ∀ u k m, k = 1 + g.conf.deltaRatio ∨ k = 1 - g.conf.deltaRatio → PriceScaled u k M m → R m
  curve : ∀ n win m, CurveShifted n win g.conf.rhoBump M m → R m
  vol : ∀ u win b m, b = g.conf.vegaBump ∨ b = g.conf.vegaSBump → VolShifted u win b M m → R m
  div : ∀ u win m, DivShifted u win g.conf.divBump M m → R m
  date : ∀ b i d w, M.w.date.addNs (g.conf.thetaDay * dayNs) = .ok b → i ∈ g.insts → i.typeName ≠ "Stock" ∧ i.typeName ≠ "Cash" → ThetaDate g b i d →
    M.w.setDate d = .ok w → R { M with w := w }
  others : ∀ m, OtherVols M (ds.map (timeFrom M.w.date)) g.conf.moneyness m → R m

/-- Specification: every instrument has a pricer that can price it in every market of `R`, and tells its exposure and cash flows in `M`. -/
def CanPriceIn (g : EngCfg) (M : Mkt) (R : Mkt → Prop) : Prop :=
  ∀ i ∈ g.insts, ∃ p v fl, g.pricers i.code = some p ∧ (∀ m, R m → ∃ x, p.npv i m = .ok x) ∧ p.result i M = .ok v ∧ v.expected = .ok fl ∧
    ∃ f, p.exposure i M v.npv = .ok f

theorem sameNames_self (M : Mkt) : SameNames M M := ⟨rfl, rfl, rfl, rfl, fun _ h => h, fun _ h => h⟩

theorem put_has {α : Type} (m : Map String α) (k : String) (v : α) (n : String) (h : ∃ c, m n = some c) : ∃ c, (m.put k v) n = some c := by
  by_cases e : n = k
  · subst e; exact ⟨v, put_self _ _ _⟩
  · rw [put_other _ _ _ _ e]; exact h

theorem sameNames_price (M m : Mkt) (u : String) (k : ℝ) (h : PriceScaled u k M m) : SameNames M m := by
  obtain ⟨j, p, -, -, rfl⟩ := h
  exact ⟨rfl, rfl, by simp, rfl, fun _ h => h, fun _ h => h⟩

theorem sameNames_curve (M m : Mkt) (n : String) (win : ℝ → Prop) (b : ℝ) (h : CurveShifted n win b M m) : SameNames M m := by
  obtain ⟨c, c', -, -, -, -, -, rfl⟩ := h
  exact ⟨rfl, rfl, rfl, rfl, fun k hk => put_has _ _ _ _ hk, fun _ h => h⟩

theorem sameNames_vol (M m : Mkt) (u : String) (win : ℝ → ℝ → Prop) (b : ℝ) (h : VolShifted u win b M m) : SameNames M m := by
  obtain ⟨s, s', env, -, -, -, -, -, -, rfl⟩ := h
  exact ⟨rfl, rfl, rfl, rfl, fun _ h => h, fun k hk => put_has _ _ _ _ hk⟩

theorem sameNames_div (M m : Mkt) (u : String) (win : DT → Prop) (b : ℝ) (h : DivShifted u win b M m) : SameNames M m := by
  obtain ⟨k, v, v', f, -, -, -, -, -, -, -, rfl⟩ := h
  exact ⟨rfl, rfl, rfl, by simp, fun _ h => h, fun _ h => h⟩

/-- What stays true from part to part. -/
def Ready (g : EngCfg) (M : Mkt) (e : Eng) : Prop := e.mkt = M ∧ ∀ i ∈ g.insts, ∃ x v fl, e.results i.code = some x ∧ x.npv = some v ∧ x.flows = some fl

theorem ready_valued (g : EngCfg) (M : Mkt) (e : Eng) (h : Ready g M e) : Valued g.insts e.results := fun i hi => by
  obtain ⟨x, v, -, a, b, -⟩ := h.2 i hi
  exact ⟨x, v, a, b⟩

theorem ready_next (g : EngCfg) (M : Mkt) (e e' : Eng) (h : Ready g M e) (hm : e'.mkt = e.mkt)
    (hk : ∀ i ∈ g.insts, ∀ x, e.results i.code = some x → ∃ y, e'.results i.code = some y ∧ y.npv = x.npv ∧ y.flows = x.flows) : Ready g M e' :=
  ⟨hm.trans h.1, fun i hi => by
    obtain ⟨x, v, fl, a, b, c⟩ := h.2 i hi
    obtain ⟨y, y1, y2, y3⟩ := hk i hi x a
    exact ⟨y, v, fl, y1, y2.trans b, y3.trans c⟩⟩

theorem onlyIf_next (flag : Bool) (f : Eng → Res Eng) (P : Eng → Prop) (e : Eng) (h : P e) (hf : ∃ e', f e = .ok e' ∧ P e') : ∃ e', onlyIf flag f e = .ok e' ∧ P e' := by
  cases flag with
  | true => exact hf
  | false => exact ⟨e, rfl, h⟩

/-- **C97** (when it succeeds). A new engine whose market is sound and has what the instruments and the configuration ask for, and whose pricers
can price in the markets it visits, calculates the npvs and whatever else is switched on. -/
theorem C97_succeeds_in (g : EngCfg) (hg : OwnCodes g) (names : List String) (hns : names.Nodup) (ds : List DT) (M : Mkt) (hM : SoundMkt g ds M) (hc : Complete g names M)
    (R : Mkt → Prop) (hR : Visits g ds M R) (hp : CanPriceIn g M R) (hn : g.conf.npv = true) :
    ∃ e', calculate g names { mkt := M, action := g.insts, results := freshResults g.insts fun _ => none } = .ok e' := by
  obtain ⟨f1, f2⟩ := freshResults_spec g.insts (fun _ => none) hg
  have hprice : ∀ i ∈ g.insts, ∀ m, R m → ∃ x, g.npv i m = .ok x := by
    intro i hi m hm
    obtain ⟨p, v, fl, p1, p2, -⟩ := hp i hi
    obtain ⟨x, hx⟩ := p2 m hm
    exact ⟨x, by unfold EngCfg.npv; rw [p1]; exact hx⟩
  obtain ⟨b1, b2, b3, b4, b5⟩ := hc.bumps
  -- npv
  have s1 : ∃ e1, setNpvs g { mkt := M, action := g.insts, results := freshResults g.insts fun _ => none } = .ok e1 ∧ Ready g M e1 ∧ e1.action = g.insts ∧
      ∀ i ∈ g.insts, ∃ x v p f, e1.results i.code = some x ∧ x.npv = some v ∧ g.pricers i.code = some p ∧ p.exposure i M v.npv = .ok f := by
    choose p v fl hp1 hp2 hp3 hp4 hp5 using hp
    classical
    let R' : Results := fun c => if h : ∃ i ∈ g.insts, i.code = c then
        some { EResult.fresh h.choose with npv := some (v _ h.choose_spec.1), value := some ((v _ h.choose_spec.1).npv * h.choose.notional), flows := some (fl _ h.choose_spec.1) }
      else none
    have hR' : ∀ i (hi : i ∈ g.insts), R' i.code = some { EResult.fresh i with npv := some (v i hi), value := some ((v i hi).npv * i.notional), flows := some (fl i hi) } := by
      intro i hi
      have h : ∃ j ∈ g.insts, j.code = i.code := ⟨i, hi, rfl⟩
      have e : h.choose = i := code_unique g hg _ _ h.choose_spec.1 hi h.choose_spec.2
      show (if h : ∃ j ∈ g.insts, j.code = i.code then _ else none) = _
      rw [dif_pos h]
      simp only [e]
    refine ⟨{ mkt := M, action := g.insts, results := R' }, (C87_npv g hg _ _ fun i hi => hi).2 ⟨fun i hi => hi, rfl, rfl, fun i hi => ?_, fun c hcc => ?_⟩, ⟨rfl, fun i hi => ?_⟩, rfl, fun i hi => ?_⟩
    · exact ⟨_, p i hi, v i hi, fl i hi, f1 i hi, hp1 i hi, hp3 i hi, hp4 i hi, hR' i hi⟩
    · show R' c = freshResults g.insts (fun _ => none) c
      rw [f2 c hcc]
      refine dif_neg ?_
      rintro ⟨i, hi, rfl⟩
      exact hcc (List.mem_map_of_mem hi)
    · exact ⟨_, _, _, hR' i hi, rfl, rfl⟩
    · obtain ⟨f, hf⟩ := hp5 i hi
      exact ⟨_, _, p i hi, f, hR' i hi, rfl, hp1 i hi, hf⟩
  obtain ⟨e1, h1, r1, a1, x1⟩ := s1
  -- exposure
  have s2 : ∃ e2, onlyIf g.conf.exposure (setExposures g) e1 = .ok e2 ∧ Ready g M e2 := by
    refine onlyIf_next _ _ _ _ r1 ?_
    choose x v p f y1 y2 y3 y4 using x1
    classical
    let R' : Results := fun c => if h : ∃ i ∈ g.insts, i.code = c then some { x _ h.choose_spec.1 with exposure := some (f _ h.choose_spec.1) } else e1.results c
    have hR' : ∀ i (hi : i ∈ g.insts), R' i.code = some { x i hi with exposure := some (f i hi) } := by
      intro i hi
      have h : ∃ j ∈ g.insts, j.code = i.code := ⟨i, hi, rfl⟩
      have e : h.choose = i := code_unique g hg _ _ h.choose_spec.1 hi h.choose_spec.2
      show (if h : ∃ j ∈ g.insts, j.code = i.code then _ else _) = _
      rw [dif_pos h]
      simp only [e]
    have ok : setExposures g e1 = .ok { mkt := e1.mkt, action := e1.action, results := R' } := by
      refine (C87_exposure g hg _ _ (by rw [a1]; exact fun i hi => hi)).2 ⟨by rw [a1]; exact fun i hi => hi, rfl, rfl, fun i hi => ?_, fun c hcc => ?_⟩
      · exact ⟨_, p i hi, v i hi, f i hi, y1 i hi, y2 i hi, y3 i hi, by rw [r1.1]; exact y4 i hi, hR' i hi⟩
      · refine dif_neg ?_
        rintro ⟨i, hi, rfl⟩
        exact hcc (List.mem_map_of_mem hi)
    refine ⟨_, ok, ready_next g M e1 _ r1 rfl fun i hi z hz => ?_⟩
    rw [y1 i hi] at hz
    obtain rfl := Option.some.inj hz
    exact ⟨_, hR' i hi, rfl, rfl⟩
  obtain ⟨e2, h2, r2⟩ := s2
  -- delta
  have s3 : ∃ e3, onlyIf g.conf.delta (setDeltas g) e2 = .ok e3 ∧ Ready g M e3 := by
    refine onlyIf_next _ _ _ _ r2 ?_
    obtain ⟨e3, h3⟩ := C88_succeeds g hg e2 (ready_valued g M e2 r2) b1 fun i hi _ u hu => by
      rw [r2.1]
      obtain ⟨j, p, q1, q2⟩ := hc.prices i hi u hu
      have z1 : PriceScaled u (1 + g.conf.deltaRatio) M _ := ⟨j, p, q1, q2, rfl⟩
      have z2 : PriceScaled u (1 - g.conf.deltaRatio) M _ := ⟨j, p, q1, q2, rfl⟩
      obtain ⟨up, hup⟩ := hprice i hi _ (hR.price u _ _ (Or.inl rfl) z1)
      obtain ⟨dn, hdn⟩ := hprice i hi _ (hR.price u _ _ (Or.inr rfl) z2)
      exact ⟨_, _, up, dn, z1, z2, hup, hdn⟩
    obtain ⟨q1, -, q3⟩ := C88_delta g hg e2 e3 h3
    refine ⟨e3, h3, ready_next g M e2 e3 r2 q1 fun i hi x hx => ?_⟩
    obtain ⟨y, y1, y2, -⟩ := q3 i hi x hx
    exact ⟨y, y1, by rw [y2], by rw [y2]⟩
  obtain ⟨e3, h3, r3⟩ := s3
  -- theta
  have s4 : ∃ e4, onlyIf g.conf.theta (setTheta g) e3 = .ok e4 ∧ Ready g M e4 := by
    refine onlyIf_next _ _ _ _ r3 ?_
    obtain ⟨b, hb, hd⟩ := hc.moved
    obtain ⟨e4, h4⟩ := C92_succeeds g hg e3 (by rw [r3.1]; exact hM.date) b (by rw [r3.1]; exact hb)
      (fun i hi => by obtain ⟨x, v, fl, q1, -, q3⟩ := r3.2 i hi; exact ⟨x, fl, q1, q3⟩) fun i hi ht d hdd => by
        rw [r3.1]
        obtain ⟨⟨w, hw⟩, hne⟩ := hd i hi ht d hdd
        obtain ⟨v, hv⟩ := hprice i hi M hR.base
        obtain ⟨v', hv'⟩ := hprice i hi { M with w := w } (hR.date b i d w hb hi ht hdd hw)
        exact ⟨w, v, v', hw, hv, hv', hne⟩
    obtain ⟨q1, -, _, -, q4⟩ := C92_theta g hg e3 e4 (by rw [r3.1]; exact hM.date) h4
    refine ⟨e4, h4, ready_next g M e3 e4 r3 q1 fun i hi x hx => ?_⟩
    obtain ⟨y, y1, y2, -⟩ := q4 i hi x hx
    exact ⟨y, y1, by rw [y2], by rw [y2]⟩
  obtain ⟨e4, h4, r4⟩ := s4
  -- vega
  have s5 : ∃ e5, onlyIf g.conf.vega (setVega g) e4 = .ok e5 ∧ Ready g M e5 := by
    refine onlyIf_next _ _ _ _ r4 ?_
    have hv : GoodVols e4.mkt := by rw [r4.1]; exact hM.vols
    obtain ⟨e5, h5⟩ := C90_succeeds g hg e4 hv (ready_valued g M e4 r4) b2 fun i hi ht u hu => by
      rw [r4.1]
      obtain ⟨v, q⟩ := hc.vols i hi ht u hu
      obtain ⟨m, hm⟩ := bumpVol_ok M hM.vols u none none none none g.conf.vegaBump v q
      have z := volShifted_all u _ _ _ (bumpVol_spec M m hM.vols u none none none none _ hm).1
      obtain ⟨up, hup⟩ := hprice i hi _ (hR.vol u _ _ _ (Or.inl rfl) z)
      exact ⟨m, up, z, hup⟩
    obtain ⟨q1, -, q3⟩ := C90_vega g hg e4 e5 hv h5
    refine ⟨e5, h5, ready_next g M e4 e5 r4 q1 fun i hi x hx => ?_⟩
    obtain ⟨y, y1, y2, -⟩ := q3 i hi x hx
    exact ⟨y, y1, by rw [y2], by rw [y2]⟩
  obtain ⟨e5, h5, r5⟩ := s5
  -- rho
  have s6 : ∃ e6, onlyIf g.conf.rho (setRho g) e5 = .ok e6 ∧ Ready g M e6 := by
    refine onlyIf_next _ _ _ _ r5 ?_
    have hv : GoodCurves e5.mkt := by rw [r5.1]; exact hM.curves
    obtain ⟨e6, h6⟩ := C89_succeeds g hg e5 hv (ready_valued g M e5 r5) b4 hc.named fun i hi ht n hn' => by
      rw [r5.1]
      obtain ⟨c, q⟩ := hc.curves i hi n hn'
      obtain ⟨m, hm⟩ := bumpCurve_ok M hM.curves n none none g.conf.rhoBump c q (by norm_num)
      have z := curveShifted_all n _ _ _ hM.curves (bumpCurve_spec M m hM.curves n none none _ hm).1
      obtain ⟨up, hup⟩ := hprice i hi _ (hR.curve n _ _ z)
      exact ⟨m, up, z, hup⟩
    obtain ⟨-, q1, -, q3⟩ := C89_rho g hg e5 e6 hv h6
    refine ⟨e6, h6, ready_next g M e5 e6 r5 q1 fun i hi x hx => ?_⟩
    obtain ⟨y, y1, y2, -⟩ := q3 i hi x hx
    exact ⟨y, y1, by rw [y2], by rw [y2]⟩
  obtain ⟨e6, h6, r6⟩ := s6
  -- dividend delta
  have s7 : ∃ e7, onlyIf g.conf.divDelta (setDivDelta g) e6 = .ok e7 ∧ Ready g M e7 := by
    refine onlyIf_next _ _ _ _ r6 ?_
    have hv : GoodDivs e6.mkt := by rw [r6.1]; exact hM.divs
    obtain ⟨e7, h7⟩ := C91_succeeds g hg e6 hv (ready_valued g M e6 r6) b5 fun i hi ht u hu => by
      rw [r6.1]
      obtain ⟨k, q⟩ := hc.divs i hi ht.1 u hu
      obtain ⟨m, hm⟩ := bumpDiv_ok M hM.divs u none none g.conf.divBump k q (by unfold WindowOk bumpLow bumpHigh; decide)
      have z := divShifted_all u _ _ _ (bumpDiv_spec M m hM.divs u none none _ hm).1
      obtain ⟨up, hup⟩ := hprice i hi _ (hR.div u _ _ z)
      exact ⟨m, up, z, hup⟩
    obtain ⟨q1, -, q3⟩ := C91_div_delta g hg e6 e7 hv h7
    refine ⟨e7, h7, ready_next g M e6 e7 r6 q1 fun i hi x hx => ?_⟩
    obtain ⟨y, y1, y2, -⟩ := q3 i hi x hx
    exact ⟨y, y1, by rw [y2], by rw [y2]⟩
  obtain ⟨e7, h7, r7⟩ := s7
  -- vega by tenor
  have s8 : ∃ e8, onlyIf g.conf.vegaS (setVegaS g) e7 = .ok e8 ∧ Ready g M e8 := by
    refine onlyIf_next _ _ _ _ r7 ?_
    have hv : GoodVols e7.mkt := by rw [r7.1]; exact hM.vols
    have ht : calcDates g.md e7.mkt.w.date g.conf.vegaTenors = .ok ds := by rw [r7.1]; exact hM.tenors
    have hgr : TenorGrid e7.mkt ds := by rw [r7.1]; exact fun u s hs => (hM.grid u s hs).1
    obtain ⟨e8, h8⟩ := C93_succeeds g hg e7 hv (ready_valued g M e7 r7) b3 ds ht hgr fun i hi ht u hu => by
      rw [r7.1]
      refine ⟨hc.vols i hi ⟨ht.2.1, ht.2.2⟩ u hu, fun k _ m hm => hprice i hi m (hR.vol u _ _ _ (Or.inr rfl) hm)⟩
    obtain ⟨q1, -, q3⟩ := C93_vega_structure g hg e7 e8 hv ds ht hgr h8
    refine ⟨e8, h8, ready_next g M e7 e8 r7 q1 fun i hi x hx => ?_⟩
    obtain ⟨y, y1, y2, -⟩ := q3 i hi x hx
    exact ⟨y, y1, by rw [y2], by rw [y2]⟩
  obtain ⟨e8, h8, r8⟩ := s8
  -- rho by tenor
  have s9 : ∃ e9, onlyIf g.conf.rhoS (setRhoS g) e8 = .ok e9 ∧ Ready g M e9 := by
    refine onlyIf_next _ _ _ _ r8 ?_
    have hv : GoodCurves e8.mkt := by rw [r8.1]; exact hM.curves
    obtain ⟨dr, t1, t2⟩ := hc.rhoTenors
    obtain ⟨e9, h9⟩ := C94_succeeds g hg e8 hv (ready_valued g M e8 r8) b4 hc.named dr (by rw [r8.1]; exact t1) (by rw [r8.1]; exact t2) fun i hi ht n hn' => by
      rw [r8.1]
      exact ⟨hc.curves i hi n hn', fun k _ m hm => hprice i hi m (hR.curve n _ _ hm)⟩
    obtain ⟨-, q1, -, _, -, q3⟩ := C94_rho_structure g hg e8 e9 hv h9
    refine ⟨e9, h9, ready_next g M e8 e9 r8 q1 fun i hi x hx => ?_⟩
    obtain ⟨y, y1, y2, -⟩ := q3 i hi x hx
    exact ⟨y, y1, by rw [y2], by rw [y2]⟩
  obtain ⟨e9, h9, r9⟩ := s9
  -- dividend delta by tenor
  have s10 : ∃ e10, onlyIf g.conf.divS (setDivS g names) e9 = .ok e10 ∧ Ready g M e10 := by
    refine onlyIf_next _ _ _ _ r9 ?_
    have hv : GoodDivs e9.mkt := by rw [r9.1]; exact hM.divs
    obtain ⟨dd, t1, t2⟩ := hc.divTenors
    obtain ⟨e10, h10⟩ := C95_succeeds g hg names e9 hv (ready_valued g M e9 r9) b5 (by rw [r9.1]; exact hc.divNames) dd (by rw [r9.1]; exact t1) t2 fun u _ i hi ht _ k _ m hm => by
      rw [r9.1] at hm
      exact hprice i hi m (hR.div u _ _ hm)
    obtain ⟨q1, -, _, -, q3⟩ := C95_div_structure g hg names hns e9 e10 hv h10
    refine ⟨e10, h10, ready_next g M e9 e10 r9 q1 fun i hi x hx => ?_⟩
    obtain ⟨y, y1, y2, -⟩ := q3 i hi x hx
    exact ⟨y, y1, by rw [y2], by rw [y2]⟩
  obtain ⟨e10, h10, r10⟩ := s10
  -- vega matrix
  have s11 : ∃ e11, onlyIf g.conf.vegaM (setVegaM g) e10 = .ok e11 ∧ True := by
    refine onlyIf_next _ _ _ _ trivial ?_
    obtain ⟨e11, h11⟩ := C96_succeeds g hg e10 (by rw [r10.1]; exact hM.vols) (ready_valued g M e10 r10) b3 ds (by rw [r10.1]; exact hM.tenors) (by rw [r10.1]; exact hM.grid)
      fun i hi u hu => by
        rw [r10.1]
        refine ⟨hc.vols i hi ⟨hu.2.2.1, hu.2.2.2⟩ u hu.1, fun m hm => hprice i hi m (hR.others m hm)⟩
    exact ⟨e11, h11, trivial⟩
  obtain ⟨e11, h11, -⟩ := s11
  refine ⟨e11, ?_⟩
  unfold calculate
  rw [hn]
  rw [show onlyIf true (setNpvs g) { mkt := M, action := g.insts, results := freshResults g.insts fun _ => none } = setNpvs g { mkt := M, action := g.insts, results := freshResults g.insts fun _ => none } from rfl]
  simp only [h1, Res.bind_ok, h2, h3, h4, h5, h6, h7, h8, h9, h10, h11]

/-- **C97** (when it succeeds), for pricers that can price in every market with the same names. -/
theorem C97_succeeds (g : EngCfg) (hg : OwnCodes g) (names : List String) (hns : names.Nodup) (ds : List DT) (M : Mkt) (hM : SoundMkt g ds M) (hc : Complete g names M)
    (hp : CanPrice g M) (hn : g.conf.npv = true) :
    ∃ e', calculate g names { mkt := M, action := g.insts, results := freshResults g.insts fun _ => none } = .ok e' := by
  refine C97_succeeds_in g hg names hns ds M hM hc (SameNames M) ⟨sameNames_self M, fun u k m _ h => sameNames_price _ _ _ _ h, fun n win m h => sameNames_curve _ _ _ _ _ h,
    fun u win b m _ h => sameNames_vol _ _ _ _ _ h, fun u win m h => sameNames_div _ _ _ _ _ h, fun b i d w _ _ _ _ hw => ?_, fun m hm => ?_⟩ hp hn
  · obtain ⟨-, l1, -, dl1, -⟩ := setDate_ok M.w w d hw
    exact ⟨rfl, rfl, l1, dl1, fun _ h => h, fun _ h => h⟩
  · obtain ⟨q1, -, -, q4⟩ := hm
    exact ⟨by rw [q1], by rw [q1], by rw [q1], by rw [q1], by rw [q1]; exact fun _ h => h, q4⟩

/-! ## A concrete engine -/

/-- The flat curve of the concrete cases has no time beyond 101 years. -/
theorem sample_times (r : ℝ) (c : Curve) (h : Curve.new .checked (day0 2021 1 1) [1] [r] = .ok c) : ∀ t ∈ c.times, t ≤ 99999999 := by
  have hv : (day0 2021 1 1).Valid := by refine ⟨?_, ?_, ?_⟩ <;> decide +kernel
  obtain ⟨c', ds, e, ok, l, hds, et, -⟩ := C57_new .checked (day0 2021 1 1) hv (by decide +kernel) [1] [r] rfl (by simp) (by simp)
  rw [h] at e
  obtain rfl := Except.ok.inj e
  have hlen : ds.length = 29 := by rw [← l, et, List.length_map]
  have h28 := (List.forall₂_iff_get.1 hds).2 28 (by decide) (by omega)
  have e28 : addPeriod .checked (day0 2021 1 1) ['1', '0', '0', 'Y'] = .ok (day0 2121 1 1) := by decide +kernel
  have hx : ds.get ⟨28, by omega⟩ = day0 2121 1 1 := by
    have : addPeriod .checked (day0 2021 1 1) (tenors.get ⟨28, by decide⟩) = .ok (day0 2121 1 1) := e28
    rw [this] at h28
    exact (Except.ok.inj h28).symm
  have hlast : c.times[28]? = some ((timeDifference (day0 2021 1 1) (day0 2121 1 1) : ℚ) : ℝ) := by
    rw [et, List.getElem?_map]
    have : ds[28]? = some (day0 2121 1 1) := by
      rw [List.getElem?_eq_getElem (by omega)]
      exact congrArg some hx
    rw [this]
    rfl
  have h101 : ((timeDifference (day0 2021 1 1) (day0 2121 1 1) : ℚ) : ℝ) ≤ 99999999 := by
    have : timeDifference (day0 2021 1 1) (day0 2121 1 1) ≤ 99999999 := by decide +kernel
    exact_mod_cast this
  intro t ht
  obtain ⟨k, hk, rfl⟩ := List.mem_iff_getElem.1 ht
  obtain ⟨h28', e28'⟩ := List.getElem?_eq_some_iff.1 hlast
  rcases Nat.lt_or_ge k 28 with hlt | hge
  · have := (List.pairwise_iff_getElem.1 ok.inc) k 28 hk h28' hlt
    rw [e28'] at this
    linarith
  · have hk28 : k = 28 := by omega
    subst hk28
    rw [e28']
    exact h101

/-- An option, a future, the stock and cash -/
noncomputable def demoInsts : List Instr :=
  [⟨"O", .option true "A" .krw false, .krw, 10, day0 2024 1 1, 0⟩, ⟨"F", .futures "A" .krw, .krw, 5, day0 2021 6 1, 0⟩,
   ⟨"A", .stock "A", .krw, 3, day0 2021 1 1, 0⟩, ⟨"M", .cash, .krw, 2, day0 2021 1 1, 0⟩]

/-- Everything switched on -/
noncomputable def demoConf : CalcConf where
  npv := true
  exposure := true
  delta := true
  vega := true
  rho := true
  divDelta := true
  theta := true
  vegaS := true
  rhoS := true
  divS := true
  vegaM := true
  deltaRatio := 0.01
  vegaBump := 0.01
  vegaSBump := 0.01
  rhoBump := 0.0001
  divBump := 0.0001
  thetaDay := 1
  rhoTenors := [['6', 'M'], ['1', 'Y']]
  vegaTenors := [['6', 'M'], ['1', 'Y'], ['2', 'Y']]
  divTenors := [['1', 'Y'], ['3', 'Y']]
  moneyness := [0.9, 1, 1.1]

/-- A price that depends on all of the market -/
noncomputable def demoNpv (i : Instr) (m : Mkt) : Res ℝ :=
  match m.price "A", m.curves "C", m.vols "A" with
  | some q, some c, some (.surface s) => .ok (q.2.value * q.2.value * (c.rates.sum + (s.vols.map List.sum).sum) + i.notional)
  | some _, some _, some (.const v) => .ok v
  | _, _, _ => .error .err

noncomputable def demoPricer : EPricer where
  npv := demoNpv
  result := fun i m => do
    let x ← demoNpv i m
    .ok (NpvResult.ofNpv x)
  exposure := fun i _ x => .ok [(0, x * i.notional)]

noncomputable def demoEngine : EngCfg where
  md := .checked
  pricers := fun _ => some demoPricer
  p := { collateral := fun u => if u = "A" then some "C" else none, borrowing := fun _ => none, bondDiscount := fun _ => none
         rateForward := fun _ => none, crs := fun _ => none, funding := fun c => if c = .krw then some "C" else none }
  conf := demoConf
  insts := demoInsts

/-- The market: a price of 100 with a dividend of 2 in 2023, a curve and a surface -/
def demoMarket (c : Curve) (v : Dividend ℝ) (s : Surf) : Mkt where
  w := { date := day0 2021 1 1, prices := [{ value := 100, at_ := day0 2021 1 1, div := some 0 }], divs := [(v, true)] }
  equity := fun u => if u = "A" then some 0 else none
  dividend := fun u => if u = "A" then some 0 else none
  curves := fun n => if n = "C" then some c else none
  vols := fun u => if u = "A" then some (.surface s) else none
  volCurves := fun u => if u = "A" then some ("C", "C") else none

theorem demo_dividend : ∃ v, Dividend.new (day0 2021 1 1) (some [day0 2023 6 1]) [(2 : ℝ)] 100 = .ok v ∧ GoodDiv (day0 2021 1 1) v ∧ v.dates = [day0 2023 6 1] ∧
    v.pairs = [(day0 2023 6 1, 0.02)] ∧ ∀ d, d.day < (day0 2023 6 1).day → v.ratio d = .ok 1 := by
  obtain ⟨v, hv, h2, h3⟩ := (C48_new (day0 2021 1 1) [day0 2023 6 1] [(2 : ℝ)] 100 rfl (by simp) ⟨by simp, by simp⟩ (by norm_num)).1 ⟨day0 2023 6 1, by simp, by decide +kernel⟩
  have hp : v.pairs = [(day0 2023 6 1, 0.02)] := by rw [h2]; norm_num
  have hq := hv
  unfold Dividend.new at hq
  dsimp only at hq
  rw [yieldsOf_eq _ _ (by norm_num), Res.bind_ok] at hq
  obtain ⟨kept, k1, hq⟩ := (bind_ok_iff _ _ _).1 hq
  obtain ⟨it, k2, hq⟩ := (bind_ok_iff _ _ _).1 hq
  obtain rfl := Except.ok.inj hq
  refine ⟨_, hv, ⟨rfl, by norm_num, rfl, ⟨by simp, by simp⟩, ?_, ?_, ?_⟩, rfl, hp, fun d hd => ?_⟩
  · intro d hd
    simp only [List.mem_cons, List.not_mem_nil, or_false] at hd
    subst hd
    decide +kernel
  · intro d hd
    simp only [List.mem_cons, List.not_mem_nil, or_false] at hd
    subst hd
    decide +kernel
  · unfold Dividend.update
    dsimp only
    simp only [k1, Res.bind_ok, k2]
  · rw [h3 d, hp]
    have : due (day0 2021 1 1) d (day0 2023 6 1) = false := by
      unfold due
      rw [decide_eq_false_iff_not]
      rintro ⟨-, q⟩
      omega
    simp [keep, this]

/-- The hypotheses of the theorems on the engine (C87 to C97) are met by an option, a future, a stock and cash, with everything switched on, and the
calculation of a new engine succeeds, with any volatilities. -/
theorem engine_market (vs : List (List ℝ)) (hlen : vs.length = 3) (hcols : ∀ r ∈ vs, r.length = 3) : ∃ c v s, Curve.new .checked (day0 2021 1 1) [1] [0.03] = .ok c ∧
    Dividend.new (day0 2021 1 1) (some [day0 2023 6 1]) [(2 : ℝ)] 100 = .ok v ∧
    OwnCodes demoEngine ∧ SoundMkt demoEngine [day0 2021 7 1, day0 2022 1 1, day0 2023 1 1] (demoMarket c.blank v s) ∧
    Complete demoEngine ["A"] (demoMarket c.blank v s) ∧ CanPrice demoEngine (demoMarket c.blank v s) ∧
    (∃ e', calculate demoEngine ["A"] { mkt := demoMarket c.blank v s, action := demoInsts, results := freshResults demoInsts fun _ => none } = .ok e') ∧ s.vols = vs := by
  obtain ⟨c, hcn, ok, -, hdf⟩ := sample_curve 0.03
  obtain ⟨v, hvn, hgd, hvd, hvp, hvr⟩ := demo_dividend
  have t1 : timeFrom (day0 2021 1 1) (day0 2021 7 1) = 181 / 365 := by
    have : timeDifference (day0 2021 1 1) (day0 2021 7 1) = 181 / 365 := by decide +kernel
    unfold timeFrom; rw [this]; norm_num
  have t2 : timeFrom (day0 2021 1 1) (day0 2022 1 1) = 1 := by
    have : timeDifference (day0 2021 1 1) (day0 2022 1 1) = 1 := by decide +kernel
    unfold timeFrom; rw [this]; norm_num
  have t3 : timeFrom (day0 2021 1 1) (day0 2023 1 1) = 2 := by
    have : timeDifference (day0 2021 1 1) (day0 2023 1 1) = 2 := by decide +kernel
    unfold timeFrom; rw [this]; norm_num
  let env : FuturesPricer := { eval := day0 2021 1 1, spot := 100, dividend := some v, coll := c.blank, borrow := c.blank }
  have hfwd : ∀ d, (0 : ℚ) ≤ timeDifference (day0 2021 1 1) d → timeDifference (day0 2021 1 1) d < 99 → d.day < (day0 2023 6 1).day →
      FuturesPricer.forward env d = .ok 100 := by
    intro d h1 h2 h3
    obtain ⟨y, hy, hpos⟩ := hdf ((timeDifference (day0 2021 1 1) d : ℚ) : ℝ) (by exact_mod_cast h1) (by exact_mod_cast h2)
    have hat : Live.df { curve := c.blank, eval := day0 2021 1 1 } d = .ok y := ((C57_at_date c ok _ _).1).trans hy
    exact (C68_forward _ _ _).2 ⟨y, y, 1, hat, hat, hvr d h3, hpos.ne', by show (100 : ℝ) * y = 100 * y * 1; ring⟩
  let s0 : Surf := { vols := vs, dates := [day0 2021 7 1, day0 2022 1 1, day0 2023 1 1], times := [181 / 365, 1, 2]
                     mon := [0.9, 1, 1.1], spot := 100, toStrike := true, interp := noSurface }
  have hg0 : GoodSurf s0 := by
    refine ⟨?_, ?_, rfl, hlen, ?_, ?_, ?_, ?_⟩
    · show [(181 : ℝ) / 365, 1, 2].Pairwise (· < ·)
      norm_num
    · simp [s0]
    · show [(0.9 : ℝ), 1, 1.1].Pairwise (· < ·)
      norm_num
    · simp [s0]
    · exact hcols
    · show (0 : ℝ) < 100
      norm_num
  have hf0 : Forwards env (builtAt env s0) s0.dates [100, 100, 100] := by
    have : builtAt env s0 = 100 := by unfold builtAt; simp [s0, env]
    rw [this]
    unfold Forwards
    refine .cons ⟨hfwd _ (by decide +kernel) (by decide +kernel) (by decide +kernel), by norm_num⟩
      (.cons ⟨hfwd _ (by decide +kernel) (by decide +kernel) (by decide +kernel), by norm_num⟩
        (.cons ⟨hfwd _ (by decide +kernel) (by decide +kernel) (by decide +kernel), by norm_num⟩ .nil))
  obtain ⟨s, hs, es, -⟩ := C74_value env s0 hg0 _ hf0
  have hgs : GoodSurf s := by rw [es]; exact ⟨hg0.1, hg0.2, hg0.3, hg0.4, hg0.5, hg0.6, hg0.7, hg0.8⟩
  have hst : s.times = [181 / 365, 1, 2] := by rw [es]
  have hsm : s.mon = [0.9, 1, 1.1] := by rw [es]
  have hsd : s.dates = s0.dates := by rw [es]
  have hbs : Surf.build env s = .ok s := by
    have : Surf.build env s = Surf.build env s0 := by rw [es]; rfl
    rw [this, hs]
  have hfs : Forwards env (builtAt env s) s.dates [100, 100, 100] := by
    have : builtAt env s = builtAt env s0 := by rw [es]; rfl
    rw [this, hsd]
    exact hf0
  have henv : (demoMarket c.blank v s).env "A" = .ok env := rfl
  have hg : OwnCodes demoEngine := by
    show (demoInsts.map Instr.code).Nodup
    simp [demoInsts]
  have hds : calcDates .checked (day0 2021 1 1) [['6', 'M'], ['1', 'Y'], ['2', 'Y']] = .ok [day0 2021 7 1, day0 2022 1 1, day0 2023 1 1] := by decide +kernel
  have hM : SoundMkt demoEngine [day0 2021 7 1, day0 2022 1 1, day0 2023 1 1] (demoMarket c.blank v s) := by
    refine ⟨?_, ?_, ?_, ?_, hds, ?_⟩
    · intro n c' h
      obtain ⟨-, e⟩ := (Option.ite_none_right_eq_some).1 h
      obtain rfl := Option.some.inj e
      exact ⟨curveOk_blank c ok, rfl, sample_times _ c hcn⟩
    · intro u w h
      obtain ⟨rfl, e⟩ := (Option.ite_none_right_eq_some).1 h
      obtain rfl := Option.some.inj e
      exact ⟨s, env, _, rfl, henv, hgs, hbs, hfs⟩
    · intro u k h
      obtain ⟨-, e⟩ := (Option.ite_none_right_eq_some).1 h
      obtain rfl := Option.some.inj e
      exact ⟨v, true, rfl, hgd⟩
    · refine ⟨?_, ?_, ?_, ?_⟩
      · intro p hp k hk
        simp only [demoMarket, List.mem_cons, List.not_mem_nil, or_false] at hp
        subst hp
        obtain rfl := Option.some.inj hk
        exact ⟨_, rfl⟩
      · intro p hp _
        simp only [demoMarket, List.mem_cons, List.not_mem_nil, or_false] at hp
        subst hp
        rfl
      · intro p hp q hq
        simp only [demoMarket, List.mem_cons, List.not_mem_nil, or_false] at hp
        subst hp
        have : pairsOf (demoMarket c.blank v s).w { value := 100, at_ := day0 2021 1 1, div := some 0 } = v.pairs := rfl
        rw [this, hvp] at hq
        simp only [List.mem_cons, List.not_mem_nil, or_false] at hq
        subst hq
        norm_num
      · intro x hx
        simp only [demoMarket, List.mem_cons, List.not_mem_nil, or_false] at hx
        subst hx
        exact ⟨rfl, hgd.built⟩
    · intro u s' h
      obtain ⟨-, e⟩ := (Option.ite_none_right_eq_some).1 h
      obtain rfl := Vol.surface.inj (Option.some.inj e)
      refine ⟨?_, hsm⟩
      rw [hst]
      show _ = [timeFrom (day0 2021 1 1) (day0 2021 7 1), timeFrom (day0 2021 1 1) (day0 2022 1 1), timeFrom (day0 2021 1 1) (day0 2023 1 1)]
      rw [t1, t2, t3]
  have hmem : ∀ i ∈ demoEngine.insts, (i.typeName = "VanillaCall" ∧ i.unds = ["A"] ∧ curveRoles demoEngine.p i = [some "C", some "C"] ∧ i.maturity = some (day0 2024 1 1)) ∨
      (i.typeName = "Futures" ∧ i.unds = ["A"] ∧ curveRoles demoEngine.p i = [some "C"] ∧ i.maturity = some (day0 2021 6 1)) ∨
      (i.typeName = "Stock" ∧ i.unds = ["A"] ∧ curveRoles demoEngine.p i = [some "C"] ∧ i.maturity = none) ∨
      (i.typeName = "Cash" ∧ i.unds = [] ∧ curveRoles demoEngine.p i = [] ∧ i.maturity = none) := by
    intro i hi
    change i ∈ demoInsts at hi
    simp only [demoInsts, List.mem_cons, List.not_mem_nil, or_false] at hi
    rcases hi with rfl | rfl | rfl | rfl
    · left; simp [Instr.typeName, Instr.unds, curveRoles, Instr.maturity, demoEngine]
    · right; left; simp [Instr.typeName, Instr.unds, curveRoles, Instr.maturity, demoEngine]
    · right; right; left; simp [Instr.typeName, Instr.unds, curveRoles, Instr.maturity, demoEngine]
    · right; right; right; simp [Instr.typeName, Instr.unds, curveRoles, Instr.maturity]
  have hundA : ∀ i ∈ demoEngine.insts, ∀ u ∈ i.unds, u = "A" := by
    intro i hi u hu
    rcases hmem i hi with ⟨-, h, -⟩ | ⟨-, h, -⟩ | ⟨-, h, -⟩ | ⟨-, h, -⟩ <;> rw [h] at hu <;> simp at hu <;> exact hu
  have hb : (day0 2021 1 1).addNs (1 * dayNs) = .ok (day0 2021 1 2) := by decide +kernel
  have hC : Complete demoEngine ["A"] (demoMarket c.blank v s) := by
    refine ⟨?_, ?_, ?_, ?_, ?_, ?_, ?_, ?_, ?_, ?_⟩
    · intro i hi u hu
      rw [hundA i hi u hu]
      exact ⟨0, _, rfl, rfl⟩
    · intro i hi
      unfold CurvesNamed
      rcases hmem i hi with ⟨-, -, h, -⟩ | ⟨-, -, h, -⟩ | ⟨-, -, h, -⟩ | ⟨-, -, h, -⟩ <;> rw [h] <;> simp
    · intro i hi n hn
      have : n = "C" := by
        have := hn.2
        rcases hmem i hi with ⟨-, -, h, -⟩ | ⟨-, -, h, -⟩ | ⟨-, -, h, -⟩ | ⟨-, -, h, -⟩ <;> rw [h] at this <;> simp at this <;> exact this
      rw [this]
      exact ⟨_, rfl⟩
    · intro i hi _ u hu
      rw [hundA i hi u hu]
      exact ⟨_, rfl⟩
    · intro i hi _ u hu
      rw [hundA i hi u hu]
      exact ⟨_, rfl⟩
    · intro u hu
      simp only [List.mem_cons, List.not_mem_nil, or_false] at hu
      rw [hu]
      exact ⟨_, rfl⟩
    · refine ⟨?_, ?_, ?_, ?_, ?_⟩ <;> simp [demoEngine, demoConf] <;> norm_num
    · have hr : calcDates .checked (day0 2021 1 1) [['6', 'M'], ['1', 'Y']] = .ok [day0 2021 7 1, day0 2022 1 1] := by decide +kernel
      refine ⟨[day0 2021 7 1, day0 2022 1 1], hr, fun k hk => ?_⟩
      show (startOf [timeFrom (day0 2021 1 1) (day0 2021 7 1), timeFrom (day0 2021 1 1) (day0 2022 1 1)] k).getD (-99999999)
        ≤ ([timeFrom (day0 2021 1 1) (day0 2021 7 1), timeFrom (day0 2021 1 1) (day0 2022 1 1)][k]?).getD 99999999
      rw [t1, t2]
      have hk : k < 2 := hk
      interval_cases k
      · simp [startOf]; norm_num
      · simp [startOf]; norm_num
    · have hr : calcDates .checked (day0 2021 1 1) [['1', 'Y'], ['3', 'Y']] = .ok [day0 2022 1 1, day0 2024 1 1] := by decide +kernel
      refine ⟨[day0 2022 1 1, day0 2024 1 1], hr, fun k hk => ?_⟩
      have hk : k < 2 := hk
      unfold WindowOk
      interval_cases k <;> decide +kernel
    · refine ⟨day0 2021 1 2, hb, fun i hi ht d hd => ?_⟩
      have hlate : ∀ m, i.maturity = some m → (day0 2021 1 2).instant < m.instant := by
        intro m hm
        rcases hmem i hi with ⟨-, -, -, h⟩ | ⟨-, -, -, h⟩ | ⟨-, -, -, h⟩ | ⟨-, -, -, h⟩ <;> rw [h] at hm
        · obtain rfl := Option.some.inj hm; decide +kernel
        · obtain rfl := Option.some.inj hm; decide +kernel
        · cases hm
        · cases hm
      rcases hd with ⟨-, rfl⟩ | ⟨⟨m, hm, hle⟩, -⟩
      · refine ⟨(C47_move_succeeds _ hM.date.wf _ hM.date.part ?_).2 ?_, ?_⟩
        · intro x hx _
          simp only [demoMarket, List.mem_cons, List.not_mem_nil, or_false] at hx
          subst hx
          refine ⟨?_, by rw [hvd]; simp, hgd.ordered⟩
          rw [hgd.yields, List.length_map]
          exact hgd.len
        · intro x hx _
          simp only [demoMarket, List.mem_cons, List.not_mem_nil, or_false] at hx
          subst hx
          refine ⟨day0 2023 6 1, by rw [hvd]; simp, by decide +kernel⟩
        · have : timeDifference (day0 2021 1 1) (day0 2021 1 2) = 1 / 365 := by decide +kernel
          show ((timeDifference (day0 2021 1 1) (day0 2021 1 2) : ℚ) : ℝ) ≠ 0
          rw [this]
          norm_num
      · have := hlate m hm
        omega
  have hnpv : ∀ i m, SameNames (demoMarket c.blank v s) m → ∃ x, demoNpv i m = .ok x := by
    intro i m hm
    obtain ⟨c1, hc1⟩ := hm.curves "C" ⟨_, rfl⟩
    obtain ⟨v1, hv1⟩ := hm.vols "A" ⟨_, rfl⟩
    have hl : m.w.prices.length = 1 := hm.prices
    have hpr : ∃ q, m.price "A" = some q := by
      have he : m.equity "A" = some 0 := by rw [hm.equity]; rfl
      unfold Mkt.price
      rw [he]
      dsimp only
      rw [List.getElem?_eq_getElem (by omega)]
      exact ⟨_, rfl⟩
    obtain ⟨q, hq⟩ := hpr
    unfold demoNpv
    rw [hq, hc1, hv1]
    cases v1 with
    | const x => exact ⟨_, rfl⟩
    | surface s1 => exact ⟨_, rfl⟩
  have hP : CanPrice demoEngine (demoMarket c.blank v s) := by
    intro i hi
    obtain ⟨x, hx⟩ := hnpv i _ (sameNames_self _)
    refine ⟨demoPricer, NpvResult.ofNpv x, [], rfl, fun m hm => hnpv i m hm, ?_, rfl, ⟨_, rfl⟩⟩
    show (do let x ← demoNpv i (demoMarket c.blank v s); .ok (NpvResult.ofNpv x) : Res NpvResult) = _
    rw [hx]
    rfl
  exact ⟨c, v, s, hcn, hvn, hg, hM, hC, hP, C97_succeeds demoEngine hg ["A"] (by simp) _ _ hM hC hP rfl, by rw [es]⟩

/-- A case with a skew -/
theorem engine_witness : ∃ c v s, Curve.new .checked (day0 2021 1 1) [1] [0.03] = .ok c ∧
    Dividend.new (day0 2021 1 1) (some [day0 2023 6 1]) [(2 : ℝ)] 100 = .ok v ∧
    OwnCodes demoEngine ∧ SoundMkt demoEngine [day0 2021 7 1, day0 2022 1 1, day0 2023 1 1] (demoMarket c.blank v s) ∧
    Complete demoEngine ["A"] (demoMarket c.blank v s) ∧ CanPrice demoEngine (demoMarket c.blank v s) ∧
    ∃ e', calculate demoEngine ["A"] { mkt := demoMarket c.blank v s, action := demoInsts, results := freshResults demoInsts fun _ => none } = .ok e' := by
  obtain ⟨c, v, s, h1, h2, h3, h4, h5, h6, h7, -⟩ := engine_market [[0.2, 0.2, 0.3], [0.2, 0.25, 0.3], [0.3, 0.3, 0.3]] rfl (by simp)
  exact ⟨c, v, s, h1, h2, h3, h4, h5, h6, h7⟩

end Verif.Props

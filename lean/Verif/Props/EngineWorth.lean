import Verif.Props.EngineCompany
import Verif.Props.Swap
/-!
# C161: what an instrument is worth after a calculation

From the names the configuration gives to the numbers in the results: stocks, cash, futures, currency futures, options, bonds and swaps.
-/
set_option autoImplicit false
namespace Verif.Props
open Verif Verif.QL Verif.Civil

/-! ## Specification -/

/-- `D` is the discount factor to the date `d` on the curve called `n`. -/
def DiscountedOn (M : Mkt) (n : String) (d : DT) (D : ℝ) : Prop := ∃ c, M.curves n = some c ∧ c.df (timeFrom M.w.date d) = .ok D

/-- `r` is the share of the price of `u` left by the dividends up to `d`. -/
def ShareLeft (M : Mkt) (u : String) (d : DT) (r : ℝ) : Prop :=
  ∃ q, M.price u = some q ∧ match M.divOf q.2 with
    | none => r = 1
    | some v => v.ratio d = .ok r

/-- `F` is the forward price of `u` at `d`: the price, less dividends, carried with the two curves configured for `u`. -/
def ForwardOf (p : MatchParam) (M : Mkt) (u : String) (d : DT) (F : ℝ) : Prop :=
  ∃ q nc nb C B r, M.price u = some q ∧ p.collateral u = some nc ∧ p.borrowing u = some nb ∧ DiscountedOn M nc d C ∧ DiscountedOn M nb d B ∧ ShareLeft M u d r ∧
    C ≠ 0 ∧ F * C = q.2.value * B * r

/-- The curve a payoff of an option is discounted with: the funding curve of its currency, `Dummy` if settled daily. -/
def PayoffCurve (p : MatchParam) (i : Instr) (settled : Bool) (n : String) : Prop :=
  (settled = true ∧ n = "Dummy") ∨ (settled = false ∧ p.funding i.ccy = some n)

/-- The rate index of a coupon: its forward curve and its fixings -/
def IndexOf (p : MatchParam) (f : Fixed) (M : Mkt) (x : Option IndexId) (mk : Market) : Prop :=
  match x with
  | none => mk = ⟨none, none⟩
  | some x => ∃ n, p.rateForward x.code = some n ∧ mk.fwd = (M.curves n).map (fun c => { curve := c, eval := M.w.date }) ∧ mk.close = f.past x.name

/-- The exchange rate of a swap from the currency `b` of the floating leg to the currency `a` of the fixed leg -/
def LegRate (f : Fixed) (a b : Currency) (r : ℝ) : Prop := (a = b ∧ r = 1) ∨ (a ≠ b ∧ r = (f.fx ⟨b, a⟩).getD 1)

/-- What `i` is worth per unit of notional in the market `M`, and its exposure `ex` if that was asked for. -/
def Worth (g : EngCfg) (f : Fixed) (M : Mkt) (i : Instr) (t : Terms) (x : ℝ) (ex : Exposure → Prop) : Prop :=
  match i.kind, t with
  | .stock _, _ => (∃ q, M.price i.code = some q ∧ x = q.2.value) ∧ ∀ e, ex e → ∀ k, Exposure.of k e = if k = f.num i.ccy then x * i.notional else 0
  | .cash, _ => x = 1 ∧ ∀ e, ex e → ∀ k, Exposure.of k e = if k = f.num i.ccy then x * i.notional else 0
  | .futures u _, .futures mat avg => ForwardOf g.p M u mat x ∧ ∀ e, ex e → ∀ k, Exposure.of k e = if k = f.num i.ccy then (x - avg) * i.notional else 0
  | .fxFutures c fx, .fxFutures mat avg uc => ∃ rate nu no U O, f.fx fx = some rate ∧ g.p.crs c = some nu ∧ g.p.crs i.ccy = some no ∧ DiscountedOn M nu mat U ∧
      DiscountedOn M no mat O ∧ O ≠ 0 ∧ x * O = rate * U ∧
      ∀ e, ex e → f.num i.ccy ≠ uc → Exposure.of uc e = U ∧ Exposure.of (f.num i.ccy) e = -(O * avg) ∧ Exposure.of (f.num i.ccy) e + rate * Exposure.of uc e = O * (x - avg)
  | .option _ u uc settled, .option o => 0 < o.strike → (∀ w, M.vols u = some w → ∀ t x y, w.value t x = .ok y → 0 ≤ y) →
      ∃ F n D w s, ForwardOf g.p M u o.maturity F ∧ 0 < F ∧ PayoffCurve g.p i settled n ∧ DiscountedOn M n o.maturity D ∧ M.vols u = some w ∧
        w.value (timeFrom M.w.date o.maturity) (o.strike / F) = .ok s ∧
        (uc = i.ccy → x = D * expectedPayoff o F (s * Real.sqrt (timeFrom M.w.date o.maturity))) ∧
        (uc ≠ i.ccy → o.ccy ≠ o.undCcy → 0 < timeFrom M.w.date o.maturity → 0 < s → ∃ Q z a n', f.quanto (u, ⟨uc, i.ccy⟩) = some Q ∧
          Q.fxVol.value (timeFrom M.w.date o.maturity) (o.strike / F) = .ok z ∧ a = s * timeFrom M.w.date o.maturity * (z * Q.corr) ∧ 0 ≤ n' ∧ n' ≤ 1 ∧
          x = D * (expectedPayoff o (F * Real.exp (-a)) (s * Real.sqrt (timeFrom M.w.date o.maturity)) + F * (1 - Real.exp (-a)) * (if o.call then n' else n' - 1))) ∧
        ∀ e, ex e → ∀ k, Exposure.of k e = if k = f.num i.ccy then x * i.notional else 0
  | .bond a b c y, .bond z => Coherent (Bond.dates z) → ∃ n cv mk d, n = (g.p.bondDiscount (a, b, c, i.ccy)).getD "Dummy" ∧ M.curves n = some cv ∧ IndexOf g.p f M y mk ∧
      Live.df { curve := cv, eval := M.w.date } (pricedAt z M.w.date) = .ok d ∧ d ≠ 0 ∧
      x * d = bondValue g.md { curve := cv, eval := M.w.date } z mk (pricedAt z M.w.date) ∧ ∀ e, ex e → ∀ k, Exposure.of k e = if k = f.num i.ccy then x * i.notional else 0
  | .swap ty a b y, .swap s => ty ≠ .irs → s.eff.instant ≠ s.maturity.instant → Coherent (legDates s s.fixedLegs) → Coherent (legDates s s.floatLegs) →
      ∃ na nb A B mk r X Y, g.p.crs a = some na ∧ g.p.crs b = some nb ∧ M.curves na = some A ∧ M.curves nb = some B ∧ IndexOf g.p f M y mk ∧ LegRate f a b r ∧
        X = legValue { curve := A, eval := M.w.date } s s.initFixed (s.lastFixed.map fun y => -y) s.fixedLegs (fixedCoupon s) ∧
        Y = legValue { curve := B, eval := M.w.date } s (s.initFloat.map fun y => -y) s.lastFloat s.floatLegs (floatCoupon g.md s mk M.w.date) ∧ x = X + r * Y ∧
        ∀ e, ex e → s.fixedCcy ≠ s.floatCcy → Exposure.of s.fixedCcy e = X * s.notional ∧ Exposure.of s.floatCcy e = Y * s.notional ∧
          ∀ k, k ≠ s.fixedCcy → k ≠ s.floatCcy → Exposure.of k e = 0
  | _, _ => False

/-! ## The plans -/

theorem need_eq {κ : Type} (f : κ → Bool) (k k' : κ) (h : need f k = .ok k') : k' = k := by
  unfold need at h
  split at h
  · exact (Except.ok.inj h).symm
  · cases h

theorem index_parts (p : MatchParam) (L : Loaded) (i : Instr) (x : Option IndexId) (hx : p.rateIndexName i = p.indexName x) (r : Option String × Option String)
    (h : indexParts p L i x = .ok r) (f : Fixed) (M : Mkt) : IndexOf p f M x (M.fixings f r.1 r.2) := by
  unfold indexParts at h
  unfold IndexOf
  cases x with
  | none =>
    obtain rfl := Except.ok.inj h
    rfl
  | some x =>
    dsimp only at h ⊢
    obtain ⟨n, hn, h1⟩ := (bind_ok_iff _ _ _).1 h
    obtain ⟨n', hn', h2⟩ := (bind_ok_iff _ _ _).1 h1
    obtain ⟨z, hz, h3⟩ := (bind_ok_iff _ _ _).1 h2
    obtain rfl := Except.ok.inj h3
    obtain rfl := need_eq _ _ _ hn'
    obtain rfl := need_eq _ _ _ hz
    rw [hx] at hn
    exact ⟨_, (orErr_eq _ _).1 hn, rfl, rfl⟩

theorem default_exposure (k c : Nat) (n x : ℝ) : Exposure.of k (defaultExposure c n x) = if k = c then x * n else 0 := by
  unfold defaultExposure
  simp only [Exposure.put, Exposure.of]
  by_cases h : k = c
  · rw [if_pos h, if_pos h.symm]
  · rw [if_neg h, if_neg (Ne.symm h)]

theorem carry_parts (p : MatchParam) (M : Mkt) (hM : GoodCurves M) (u c b : String) (hc : p.collateral u = some c) (hb : p.borrowing u = some b) (env : FuturesPricer)
    (he : M.carry u c b = .ok env) (d : DT) (F : ℝ) (hF : env.forward d = .ok F) : env.eval = M.w.date ∧ ForwardOf p M u d F := by
  unfold Mkt.carry at he
  obtain ⟨q, hq, he1⟩ := (bind_ok_iff _ _ _).1 he
  obtain ⟨C, hC, he2⟩ := (bind_ok_iff _ _ _).1 he1
  obtain ⟨B, hB, he3⟩ := (bind_ok_iff _ _ _).1 he2
  obtain rfl := Except.ok.inj he3
  have hq' := (orErr_eq _ _).1 hq
  have hC' := (orErr_eq _ _).1 hC
  have hB' := (orErr_eq _ _).1 hB
  obtain ⟨x, y, r, h1, h2, h3, h4, h5⟩ := (C68_forward _ d F).1 hF
  dsimp only at h1 h2 h3 h5
  unfold Live.df at h1 h2
  dsimp only at h1 h2
  rw [(C57_at_date C (hM _ _ hC').1 M.w.date d).1] at h1
  rw [(C57_at_date B (hM _ _ hB').1 M.w.date d).1] at h2
  refine ⟨rfl, q, c, b, x, y, r, hq', hc, hb, ⟨C, hC', h1⟩, ⟨B, hB', h2⟩, ⟨q, hq', ?_⟩, h4, h5⟩
  cases hv : M.divOf q.2 with
  | none => rw [hv] at h3; exact (Except.ok.inj h3).symm
  | some v => rw [hv] at h3; exact h3

/-- The price of an option with an adjustment for the exchange rate -/
theorem quanto_value (p : OptionPricer) (o : Vanilla) (hK : 0 < o.strike) (hc : o.ccy ≠ o.undCcy) (x : ℝ) (h : p.npv o = .ok x) :
    ∃ F s D Q z, PricedWith p o F (timeFrom p.env.eval o.maturity) s D ∧ 0 < F ∧ p.quanto = some Q ∧ Q.fxVol.value (timeFrom p.env.eval o.maturity) (o.strike / F) = .ok z ∧
      (0 < timeFrom p.env.eval o.maturity → 0 < s → ∃ a n', a = s * timeFrom p.env.eval o.maturity * (z * Q.corr) ∧ 0 ≤ n' ∧ n' ≤ 1 ∧
        x = D * (expectedPayoff o (F * Real.exp (-a)) (s * Real.sqrt (timeFrom p.env.eval o.maturity)) + F * (1 - Real.exp (-a)) * (if o.call then n' else n' - 1))) := by
  have h' := h
  unfold OptionPricer.npv at h'
  obtain ⟨F, hF, h1⟩ := (bind_ok_iff _ _ _).1 h'
  obtain ⟨k, hk, h2⟩ := (bind_ok_iff _ _ _).1 h1
  dsimp only at h2
  obtain ⟨var, hvar, h3⟩ := (bind_ok_iff _ _ _).1 h2
  obtain ⟨dev, hdev, h4⟩ := (bind_ok_iff _ _ _).1 h3
  cases hq : p.quanto with
  | none =>
    rw [if_pos ⟨hc, by rw [hq]; rfl⟩] at h4
    cases h4
  | some Q =>
    have hqn : ¬ (o.ccy ≠ o.undCcy ∧ p.quanto.isNone) := by rw [hq]; simp
    rw [if_neg hqn] at h4
    obtain ⟨s, hvol, h5⟩ := (bind_ok_iff _ _ _).1 h4
    rw [hq] at h5
    dsimp only at h5
    obtain ⟨aa, haa, h55⟩ := (bind_ok_iff _ _ _).1 h5
    obtain ⟨adj, hadj, h6⟩ := (bind_ok_iff _ _ _).1 h55
    obtain ⟨l, hl, h7⟩ := (bind_ok_iff _ _ _).1 h6
    obtain ⟨D, hD, -⟩ := (bind_ok_iff _ _ _).1 h7
    have hk' : F ≠ 0 ∧ k = o.strike / F := by
      unfold divK at hk
      split at hk
      · cases hk
      · exact ⟨by assumption, (Except.ok.inj hk).symm⟩
    obtain ⟨hF0, rfl⟩ := hk'
    have hpos : 0 < o.strike / F := by
      unfold lnK at hl
      split at hl
      · cases hl
      · linarith
    have hFp : 0 < F := by
      rcases lt_trichotomy F 0 with q | q | q
      · exact absurd (div_neg_of_pos_of_neg hK q) (by linarith)
      · exact absurd q hF0
      · exact q
    unfold Quanto.adjust at haa
    obtain ⟨z, hz, haa'⟩ := (bind_ok_iff _ _ _).1 haa
    obtain rfl := Except.ok.inj haa'
    have hw : PricedWith p o F (timeFrom p.env.eval o.maturity) s D := ⟨hF, rfl, hvol, hD⟩
    refine ⟨F, s, D, Q, z, hw, hFp, rfl, hz, fun ht hs => ?_⟩
    obtain ⟨n, -, n0, n1, e1, e2⟩ := C73_quanto p o F _ s D (s * timeFrom p.env.eval o.maturity * (z * Q.corr)) hw ht hs hFp hK (Or.inr (by rw [hq]; simp))
      (by unfold QuantoAdjustment; rw [hq]; exact ⟨z, hz, rfl⟩)
    refine ⟨_, n, rfl, n0, n1, ?_⟩
    unfold expectedPayoff
    cases hcall : o.call with
    | true =>
      have : ({ o with call := true } : Vanilla) = o := by rw [← hcall]
      rw [this, h] at e1
      simp only [if_true]
      exact Except.ok.inj e1
    | false =>
      have : ({ o with call := false } : Vanilla) = o := by rw [← hcall]
      rw [this, h] at e2
      simp only [Bool.false_eq_true, if_false]
      rw [Except.ok.inj e2]
      ring

/-! ## The theorem -/

/-- **C161.** After a calculation every instrument has the worth of its kind, its value is that times its notional, and the exposure is that of its kind. -/
theorem C161_worth (g : EngCfg) (hg : OwnCodes g) (names : List String) (hns : names.Nodup) (ds : List DT) (M : Mkt) (hM : SoundMkt g ds M) (hn : g.conf.npv = true) (f : Fixed)
    (L : Loaded) (an : Bool) (i : Instr) (hi : i ∈ g.insts) (pl : Plan) (t : Terms) (hp : PricedAs g f L an i pl t) (e' : Eng)
    (h : calculate g names { mkt := M, action := g.insts, results := freshResults g.insts fun _ => none } = .ok e') :
    ∃ y v, e'.results i.code = some y ∧ y.npv = some v ∧ y.value = some (v.npv * i.notional) ∧ (g.conf.exposure = true → ∃ e, y.exposure = some e) ∧
      Worth g f M i t v.npv fun e => g.conf.exposure = true ∧ y.exposure = some e := by
  obtain ⟨-, hres⟩ := C97_new_engine g hg names hns ds M e' hM h
  obtain ⟨y, hy, ci⟩ := hres i hi
  obtain ⟨p, v, fl, c1, c2, -, c4, c5, -⟩ := ci.npv hn
  rw [hp.held] at c1
  obtain rfl := Option.some.inj c1
  have c2' : pl.result g.md f t M = .ok v := c2
  have hex : g.conf.exposure = true → ∃ e, y.exposure = some e ∧ pl.exposure g.md f t i M v.npv = .ok e := by
    intro hx
    obtain ⟨p', v', e, d1, d2, d3, d4⟩ := ci.exposure hx
    rw [hp.held] at d1
    obtain rfl := Option.some.inj d1
    rw [c4] at d2
    obtain rfl := Option.some.inj d2
    exact ⟨e, d4, d3⟩
  have hex' : ∀ e, (g.conf.exposure = true ∧ y.exposure = some e) → pl.exposure g.md f t i M v.npv = .ok e := by
    rintro e ⟨hx, he⟩
    obtain ⟨e', d1, d2⟩ := hex hx
    rw [he] at d1
    obtain rfl := Option.some.inj d1
    exact d2
  refine ⟨y, v, hy, c4, c5, fun hx => ?_, ?_⟩
  · obtain ⟨e, d1, -⟩ := hex hx
    exact ⟨e, d1⟩
  generalize hE : (fun e => g.conf.exposure = true ∧ y.exposure = some e) = E
  have hE' : ∀ e, E e → pl.exposure g.md f t i M v.npv = .ok e := by
    intro e he
    rw [← hE] at he
    exact hex' e he
  clear hE hex hex'
  -- what is not reported in detail
  have plain : ∀ x, pl.npv g.md f t M = .ok x → (∀ r, pl.result g.md f t M = .ok r → ∃ x', pl.npv g.md f t M = .ok x' ∧ r = NpvResult.ofNpv x') → v.npv = x := by
    intro x hx hr
    obtain ⟨x', h1, h2⟩ := hr v c2'
    rw [hx] at h1
    obtain rfl := Except.ok.inj h1
    rw [h2]
    rfl
  unfold Worth
  cases hk : i.kind with
  | stock u =>
    obtain rfl := stock_plan g.p L an i u hk pl hp.made
    dsimp only
    unfold Plan.result at c2'
    obtain ⟨x, hx, c3⟩ := (bind_ok_iff _ _ _).1 c2'
    obtain rfl := Except.ok.inj c3
    obtain ⟨q, hq, hx'⟩ := (bind_ok_iff _ _ _).1 (show (do let p ← orErr (M.price i.code); .ok p.2.value : Res ℝ) = .ok x from hx)
    obtain rfl := Except.ok.inj hx'
    refine ⟨⟨q, (orErr_eq _ _).1 hq, rfl⟩, fun e he k => ?_⟩
    have := hE' e he
    obtain rfl := Except.ok.inj (show Except.ok (defaultExposure (f.num i.ccy) i.notional _) = Except.ok e from this)
    exact default_exposure _ _ _ _
  | cash =>
    have hpl : pl = .cash := by
      have := hp.made
      unfold createPricer at this
      rw [hk] at this
      exact (Except.ok.inj this).symm
    subst hpl
    dsimp only
    unfold Plan.result at c2'
    obtain ⟨x, hx, c3⟩ := (bind_ok_iff _ _ _).1 c2'
    obtain rfl := Except.ok.inj c3
    obtain rfl := Except.ok.inj (show Except.ok 1 = Except.ok x from hx)
    refine ⟨rfl, fun e he k => ?_⟩
    have := hE' e he
    obtain rfl := Except.ok.inj (show Except.ok (defaultExposure (f.num i.ccy) i.notional _) = Except.ok e from this)
    exact default_exposure _ _ _ _
  | futures u uc =>
    obtain ⟨c, b, rfl, hc, hb⟩ := futures_plan g.p L an i u uc hk pl hp.made
    unfold Plan.result at c2'
    obtain ⟨x, hx, c3⟩ := (bind_ok_iff _ _ _).1 c2'
    obtain rfl := Except.ok.inj c3
    cases t <;> try (exact absurd hx (by unfold Plan.npv; exact fun h => by cases h))
    rename_i mat avg
    dsimp only
    obtain ⟨env, he, hx'⟩ := (bind_ok_iff _ _ _).1 (show (do let x ← M.carry u c b; x.forward mat) = .ok x from hx)
    refine ⟨(carry_parts g.p M hM.curves u c b hc hb env he mat x hx').2, fun e hee k => ?_⟩
    have hx2 := hE' e hee
    have hx3 : (do let x ← M.carry u c b; x.exposure mat avg i.notional (f.num i.ccy)) = .ok e := hx2
    rw [he, Res.bind_ok] at hx3
    obtain ⟨e2, h1, h2, h3⟩ := (C68_exposure env mat avg i.notional (f.num i.ccy)).1 x hx'
    rw [hx3] at h1
    obtain rfl := Except.ok.inj h1
    by_cases hkk : k = f.num i.ccy
    · rw [if_pos hkk, hkk]; exact h2
    · rw [if_neg hkk]; exact h3 k hkk
  | fxFutures c fx =>
    have hm := hp.made
    unfold createPricer at hm
    rw [hk] at hm
    dsimp only at hm
    obtain ⟨fx', hfx, m1⟩ := (bind_ok_iff _ _ _).1 hm
    obtain ⟨nu, hnu, m2⟩ := (bind_ok_iff _ _ _).1 m1
    obtain ⟨nu', hnu', m3⟩ := (bind_ok_iff _ _ _).1 m2
    obtain ⟨no, hno, m4⟩ := (bind_ok_iff _ _ _).1 m3
    obtain ⟨no', hno', m5⟩ := (bind_ok_iff _ _ _).1 m4
    obtain rfl := Except.ok.inj m5
    obtain rfl := need_eq _ _ _ hfx
    obtain rfl := need_eq _ _ _ hnu'
    obtain rfl := need_eq _ _ _ hno'
    unfold MatchParam.floatCrsName at hnu
    unfold MatchParam.crsName at hno
    rw [hk] at hnu hno
    dsimp only at hnu hno
    unfold Plan.result at c2'
    obtain ⟨x, hx, c3⟩ := (bind_ok_iff _ _ _).1 c2'
    obtain rfl := Except.ok.inj c3
    cases t <;> try (exact absurd hx (by unfold Plan.npv; exact fun h => by cases h))
    rename_i mat avg uc
    dsimp only
    obtain ⟨P, hP, hx'⟩ := (bind_ok_iff _ _ _).1 (show (do let x ← M.fxPricer f fx' nu' no'; x.npv mat) = .ok x from hx)
    have hP0 := hP
    unfold Mkt.fxPricer at hP
    obtain ⟨rate, hr, p1⟩ := (bind_ok_iff _ _ _).1 hP
    obtain ⟨A, hA, p2⟩ := (bind_ok_iff _ _ _).1 p1
    obtain ⟨B, hB, p3⟩ := (bind_ok_iff _ _ _).1 p2
    obtain rfl := Except.ok.inj p3
    have hA' := (orErr_eq _ _).1 hA
    have hB' := (orErr_eq _ _).1 hB
    have key : ∃ U O, Live.df { curve := A, eval := M.w.date } mat = .ok U ∧ Live.df { curve := B, eval := M.w.date } mat = .ok O ∧ O ≠ 0 ∧ x * O = rate * U := by
      have hx2 := hx'
      unfold FxFuturesPricer.npv at hx2
      simp only [bind_ok_iff, divK_ok_iff] at hx2
      obtain ⟨U, hU, O, hO, h0, hv⟩ := hx2
      exact ⟨U, O, hU, hO, h0, by rw [hv]; field_simp⟩
    obtain ⟨U, O, hU, hO, h0, hv⟩ := key
    have hU' : A.df (timeFrom M.w.date mat) = .ok U := by
      unfold Live.df at hU
      rw [(C57_at_date A (hM.curves _ _ hA').1 M.w.date mat).1] at hU
      exact hU
    have hO' : B.df (timeFrom M.w.date mat) = .ok O := by
      unfold Live.df at hO
      rw [(C57_at_date B (hM.curves _ _ hB').1 M.w.date mat).1] at hO
      exact hO
    refine ⟨rate, nu', no', U, O, (orErr_eq _ _).1 hr, (orErr_eq _ _).1 hnu, (orErr_eq _ _).1 hno, ⟨A, hA', hU'⟩, ⟨B, hB', hO'⟩, h0, hv, fun e he hne => ?_⟩
    have hx3 : (do let x ← M.fxPricer f fx' nu' no'; x.exposure mat avg (f.num i.ccy) uc) = .ok e := hE' e he
    rw [hP0, Res.bind_ok] at hx3
    obtain ⟨U2, O2, e2, k1, k2, -, -, k5, k6, k7, k8⟩ := C68_fx _ mat avg (f.num i.ccy) uc hne x hx'
    rw [hx3] at k5
    obtain rfl := Except.ok.inj k5
    rw [show Live.df { curve := A, eval := M.w.date } mat = .ok U from hU] at k1
    obtain rfl := Except.ok.inj k1
    rw [show Live.df { curve := B, eval := M.w.date } mat = .ok O from hO] at k2
    obtain rfl := Except.ok.inj k2
    exact ⟨k6, k7, k8⟩
  | option call u uc settled =>
    obtain ⟨d, c, b, q, rfl, hd, hc, hb⟩ := option_plan g.p L an i call settled u uc hk pl hp.made
    have hqq : (uc = i.ccy → q = none) ∧ (uc ≠ i.ccy → q = some (u, ⟨uc, i.ccy⟩)) := by
      have hm := hp.made
      unfold createPricer at hm
      rw [hk] at hm
      dsimp only at hm
      obtain ⟨_, _, k1⟩ := (bind_ok_iff _ _ _).1 hm
      obtain ⟨_, _, k2⟩ := (bind_ok_iff _ _ _).1 k1
      obtain ⟨_, _, k3⟩ := (bind_ok_iff _ _ _).1 k2
      obtain ⟨_, _, k4⟩ := (bind_ok_iff _ _ _).1 k3
      obtain ⟨_, _, k5⟩ := (bind_ok_iff _ _ _).1 k4
      obtain ⟨_, _, k6⟩ := (bind_ok_iff _ _ _).1 k5
      obtain ⟨_, _, k7⟩ := (bind_ok_iff _ _ _).1 k6
      obtain ⟨_, _, k8⟩ := (bind_ok_iff _ _ _).1 k7
      obtain ⟨_, _, k9⟩ := (bind_ok_iff _ _ _).1 k8
      obtain ⟨_, _, k10⟩ := (bind_ok_iff _ _ _).1 k9
      obtain ⟨q', hq', k11⟩ := (bind_ok_iff _ _ _).1 k10
      cases an with
      | false => cases k11
      | true =>
        injection Except.ok.inj k11 with _ _ _ _ _ e
        rw [← e]
        unfold quantoPart at hq'
        by_cases hu : uc = i.ccy
        · rw [if_pos hu] at hq'
          obtain rfl := Except.ok.inj hq'
          exact ⟨fun _ => rfl, fun hn => absurd hu hn⟩
        · rw [if_neg hu] at hq'
          obtain ⟨q2, h2, hq3⟩ := (bind_ok_iff _ _ _).1 hq'
          obtain rfl := Except.ok.inj hq3
          obtain rfl := need_eq _ _ _ h2
          exact ⟨fun hy => absurd hy hu, fun _ => rfl⟩
    have hcurve : PayoffCurve g.p i settled d := by
      unfold MatchParam.discountName at hd
      rw [hk] at hd
      dsimp only at hd
      unfold PayoffCurve
      cases settled with
      | true => left; rw [if_pos rfl] at hd; exact ⟨rfl, (Except.ok.inj hd).symm⟩
      | false => right; rw [if_neg (by simp)] at hd; exact ⟨rfl, (orErr_eq _ _).1 hd⟩
    unfold Plan.result at c2'
    obtain ⟨x, hx, c3⟩ := (bind_ok_iff _ _ _).1 c2'
    obtain rfl := Except.ok.inj c3
    cases t <;> try (exact absurd hx (by unfold Plan.npv; exact fun h => by cases h))
    rename_i o
    dsimp only
    intro hK hvols
    have hexp : ∀ e, E e → ∀ k, Exposure.of k e = if k = f.num i.ccy then x * i.notional else 0 := by
      intro e he k
      have := hE' e he
      obtain rfl := Except.ok.inj (show Except.ok (defaultExposure (f.num i.ccy) i.notional _) = Except.ok e from this)
      exact default_exposure _ _ _ _
    have hcd : ∀ cv, M.curves d = some cv → CurveOk cv := fun cv hcv => (hM.curves _ _ hcv).1
    have fwdOf : ∀ F D, ForwardAt M u d c b o F D → ForwardOf g.p M u o.maturity F ∧ DiscountedOn M d o.maturity D := by
      rintro F D ⟨env, cv, a1, a2, a3, a4⟩
      exact ⟨(carry_parts g.p M hM.curves u c b hc hb env a1 o.maturity F a2).2, ⟨cv, a3, a4⟩⟩
    by_cases hu : uc = i.ccy
    · obtain rfl := hqq.1 hu
      obtain ⟨F, s, D, w, w1, w2, w3, w4, -, -, w7⟩ := option_at g.md f M u d c b o hcd hK hvols x hx
      obtain ⟨f1, f2⟩ := fwdOf F D w1
      exact ⟨F, d, D, w, s, f1, w4, hcurve, f2, w2, w3, fun _ => w7, fun hn => absurd hu hn, hexp⟩
    · obtain rfl := hqq.2 hu
      obtain ⟨P, hP, hx'⟩ := (bind_ok_iff _ _ _).1 (show (do let x ← M.optionPricer f u u d c b (some (u, ⟨uc, i.ccy⟩)); x.npv o) = .ok x from hx)
      unfold Mkt.optionPricer at hP
      obtain ⟨env, he, hp1⟩ := (bind_ok_iff _ _ _).1 hP
      obtain ⟨vol, hv, hp2⟩ := (bind_ok_iff _ _ _).1 hp1
      obtain ⟨dc, hdc, hp3⟩ := (bind_ok_iff _ _ _).1 hp2
      obtain rfl := Except.ok.inj hp3
      have hv' := (orErr_eq _ _).1 hv
      have hdc' := (orErr_eq _ _).1 hdc
      -- the parts of any successful price
      have parts : ∃ F s D, env.forward o.maturity = .ok F ∧ 0 < F ∧ vol.value (timeFrom env.eval o.maturity) (o.strike / F) = .ok s ∧ dc.df (timeFrom env.eval o.maturity) = .ok D := by
        have h' := hx'
        unfold OptionPricer.npv at h'
        obtain ⟨F, hF, h1⟩ := (bind_ok_iff _ _ _).1 h'
        obtain ⟨k, hkk, h2⟩ := (bind_ok_iff _ _ _).1 h1
        dsimp only at h2
        obtain ⟨var, hvar, h3⟩ := (bind_ok_iff _ _ _).1 h2
        obtain ⟨dev, hdev, h4⟩ := (bind_ok_iff _ _ _).1 h3
        split at h4
        · cases h4
        obtain ⟨s, hvol, h5⟩ := (bind_ok_iff _ _ _).1 h4
        have h57 : ∃ l D, lnK k = .ok l ∧ dc.df (timeFrom env.eval o.maturity) = .ok D := by
          split at h5
          · obtain ⟨aa, haa, h55⟩ := (bind_ok_iff _ _ _).1 h5
            obtain ⟨adj, hadj, h6⟩ := (bind_ok_iff _ _ _).1 h55
            obtain ⟨l, hl, h7⟩ := (bind_ok_iff _ _ _).1 h6
            obtain ⟨D, hD, -⟩ := (bind_ok_iff _ _ _).1 h7
            exact ⟨l, D, hl, hD⟩
          · obtain ⟨adj, hadj, h6⟩ := (bind_ok_iff _ _ _).1 h5
            obtain ⟨l, hl, h7⟩ := (bind_ok_iff _ _ _).1 h6
            obtain ⟨D, hD, -⟩ := (bind_ok_iff _ _ _).1 h7
            exact ⟨l, D, hl, hD⟩
        obtain ⟨l, D, hl, hD⟩ := h57
        have hk' : F ≠ 0 ∧ k = o.strike / F := by
          unfold divK at hkk
          split at hkk
          · cases hkk
          · exact ⟨by assumption, (Except.ok.inj hkk).symm⟩
        obtain ⟨hF0, rfl⟩ := hk'
        have hpos : 0 < o.strike / F := by
          unfold lnK at hl
          split at hl
          · cases hl
          · linarith
        have hFp : 0 < F := by
          rcases lt_trichotomy F 0 with q | q | q
          · exact absurd (div_neg_of_pos_of_neg hK q) (by linarith)
          · exact absurd q hF0
          · exact q
        exact ⟨F, s, D, hF, hFp, hvol, hD⟩
      obtain ⟨F, s, D, r1, r2, r3, r4⟩ := parts
      obtain ⟨hev, hfo⟩ := carry_parts g.p M hM.curves u c b hc hb env he o.maturity F r1
      rw [hev] at r3 r4
      refine ⟨F, d, D, vol, s, hfo, r2, hcurve, ⟨dc, hdc', r4⟩, hv', r3, fun hy => absurd hy hu, fun _ hcc ht hs => ?_, hexp⟩
      obtain ⟨F2, s2, D2, Q, z, hw, -, hQ, hz, hfin⟩ := quanto_value _ o hK hcc x hx'
      have e1 := hw.forward
      dsimp only at e1
      rw [r1] at e1
      obtain rfl := Except.ok.inj e1
      have e2 := hw.vol
      dsimp only at e2
      rw [hev, r3] at e2
      obtain rfl := Except.ok.inj e2
      have e3 := hw.disc
      dsimp only at e3
      rw [hev, r4] at e3
      obtain rfl := Except.ok.inj e3
      dsimp only at hfin hQ hz
      rw [hev] at hfin hz
      obtain ⟨a, n', a1, a2, a3, a4⟩ := hfin ht hs
      exact ⟨Q, z, a, n', hQ, hz, a1, a2, a3, a4⟩
  | bond a b c y =>
    have hm := hp.made
    unfold createPricer at hm
    rw [hk] at hm
    dsimp only at hm
    obtain ⟨d, hd, m1⟩ := (bind_ok_iff _ _ _).1 hm
    obtain ⟨d', hd', m2⟩ := (bind_ok_iff _ _ _).1 m1
    obtain ⟨fp, hfp, m3⟩ := (bind_ok_iff _ _ _).1 m2
    obtain rfl := Except.ok.inj m3
    obtain rfl := need_eq _ _ _ hd'
    unfold MatchParam.discountName at hd
    rw [hk] at hd
    have hd2 := Except.ok.inj hd
    have hidx := index_parts g.p L i y (by unfold MatchParam.rateIndexName; rw [hk]) fp hfp f M
    cases t <;> try (exact absurd c2' (by unfold Plan.result Plan.npv; exact fun h => by cases h))
    rename_i z
    dsimp only
    intro hco
    obtain ⟨P, hP, hx'⟩ := (bind_ok_iff _ _ _).1 (show (do let x ← M.bondPricer f d' fp.1 fp.2; x.result g.md z) = .ok v from c2')
    unfold Mkt.bondPricer at hP
    obtain ⟨cv, hcv, p1⟩ := (bind_ok_iff _ _ _).1 hP
    obtain rfl := Except.ok.inj p1
    have hnpv := ((C62_result g.md _ z).1 v.npv).2 ⟨v, hx', rfl⟩
    obtain ⟨D, hD, hD0, e⟩ := C62_npv g.md _ z v.npv hnpv hco
    refine ⟨d', cv, _, D, hd2.symm, (orErr_eq _ _).1 hcv, hidx, hD, hD0, ?_, fun e he k => ?_⟩
    · rw [e]
      field_simp
    · have := hE' e he
      obtain rfl := Except.ok.inj (show Except.ok (defaultExposure (f.num i.ccy) i.notional _) = Except.ok e from this)
      exact default_exposure _ _ _ _
  | swap ty a b y =>
    have hm := hp.made
    unfold createPricer at hm
    rw [hk] at hm
    dsimp only at hm
    obtain ⟨na, hna, m1⟩ := (bind_ok_iff _ _ _).1 hm
    obtain ⟨na', hna', m2⟩ := (bind_ok_iff _ _ _).1 m1
    obtain ⟨nb, hnb, m3⟩ := (bind_ok_iff _ _ _).1 m2
    obtain ⟨nb', hnb', m4⟩ := (bind_ok_iff _ _ _).1 m3
    obtain ⟨fp, hfp, m5⟩ := (bind_ok_iff _ _ _).1 m4
    obtain ⟨fx, hfx, m6⟩ := (bind_ok_iff _ _ _).1 m5
    obtain rfl := Except.ok.inj m6
    obtain rfl := need_eq _ _ _ hna'
    obtain rfl := need_eq _ _ _ hnb'
    unfold MatchParam.crsName at hna
    unfold MatchParam.floatCrsName at hnb
    rw [hk] at hna hnb
    dsimp only at hna hnb
    have hidx := index_parts g.p L i y (by unfold MatchParam.rateIndexName; rw [hk]) fp hfp f M
    cases t <;> try (exact absurd c2' (by unfold Plan.result Plan.npv; exact fun h => by cases h))
    rename_i s
    dsimp only
    intro hty hne hc1 hc2
    rw [if_neg hty] at hna hnb
    obtain ⟨P, hP, hx'⟩ := (bind_ok_iff _ _ _).1 (show (do let x ← M.swapPricer f na' nb' fp.1 fp.2 fx; x.result g.md s) = .ok v from c2')
    have hP0 := hP
    unfold Mkt.swapPricer at hP
    obtain ⟨A, hA, p1⟩ := (bind_ok_iff _ _ _).1 hP
    obtain ⟨B, hB, p2⟩ := (bind_ok_iff _ _ _).1 p1
    obtain rfl := Except.ok.inj p2
    have hnpv := ((C65_result g.md _ s hne hc1 hc2).1 v.npv).2 ⟨v, hx', rfl⟩
    have hval := C65_npv g.md _ s hne hc1 hc2 v.npv hnpv
    have hr : LegRate f a b ((fx.bind f.fx).getD 1) := by
      unfold swapFxPart at hfx
      unfold LegRate
      by_cases hab : a = b
      · rw [if_pos hab] at hfx
        obtain rfl := Except.ok.inj hfx
        exact Or.inl ⟨hab, rfl⟩
      · rw [if_neg hab] at hfx
        obtain ⟨z, hz, hfx'⟩ := (bind_ok_iff _ _ _).1 hfx
        obtain rfl := Except.ok.inj hfx'
        obtain rfl := need_eq _ _ _ hz
        exact Or.inr ⟨hab, rfl⟩
    refine ⟨na', nb', A, B, _, _, _, _, (orErr_eq _ _).1 hna, (orErr_eq _ _).1 hnb, (orErr_eq _ _).1 hA, (orErr_eq _ _).1 hB, hidx, hr, rfl, rfl, hval, fun e he hcc => ?_⟩
    have hx3 : (do let x ← M.swapPricer f na' nb' fp.1 fp.2 fx; x.exposure g.md s) = .ok e := hE' e he
    rw [hP0, Res.bind_ok] at hx3
    obtain ⟨k1, k2, k3⟩ := (C65_exposure g.md _ s hne hc1 hc2).2 v.npv e hnpv hx3
    exact ⟨(k1 hcc).1, (k1 hcc).2.1, k3⟩
  | ktbf tag =>
    exfalso
    have hm := hp.made
    unfold createPricer at hm
    rw [hk] at hm
    dsimp only at hm
    obtain ⟨d, hd, m1⟩ := (bind_ok_iff _ _ _).1 hm
    obtain ⟨cs, hcs, m2⟩ := (bind_ok_iff _ _ _).1 m1
    obtain ⟨c, hc, m3⟩ := (bind_ok_iff _ _ _).1 m2
    unfold MatchParam.collateralNames at hcs
    rw [show i.unds = [] by unfold Instr.unds; rw [hk]] at hcs
    obtain rfl := Except.ok.inj hcs
    cases hc
  | bondFutures =>
    exfalso
    have hm := hp.made
    unfold createPricer at hm
    rw [hk] at hm
    cases hm

/-! ## A concrete engine -/

/-- A dollar costs 1200 won. -/
noncomputable def fxFixed : Fixed where
  fx := fun c => if c = ⟨.usd, .krw⟩ then some 1200 else none
  quanto := fun _ => none
  past := fun _ => none
  search := fun _ _ _ => .ok none
  num := fun c => if c = .krw then 0 else 1

def fxLoaded : Loaded where
  fxs := fun c => decide (c = ⟨.usd, .krw⟩)
  equities := fun _ => false
  curves := fun n => n == "K" || n == "U"
  vols := fun _ => false
  quantos := fun _ => false
  pasts := fun _ => false

/-- A forward: on 1 July 2022 a dollar is received for 1180 won. -/
noncomputable def fxForward : Swap where
  fixedLegs := []
  floatLegs := []
  fixedRate := none
  index := none
  comp := none
  hol := fun _ => .ok false
  notional := 10
  issue := day0 2020 12 15
  eff := day0 2020 12 17
  maturity := day0 2022 7 1
  fixedCcy := 0
  floatCcy := 1
  initFixed := none
  initFloat := none
  lastFixed := some 1180
  lastFloat := some 1
  fixedDcc := .actual365Fixed
  floatDcc := .actual365Fixed
  fixGap := 1

noncomputable def fxInsts : List Instr :=
  [⟨"X", .fxFutures .usd ⟨.usd, .krw⟩, .krw, 10, day0 2022 7 1, 1190⟩, ⟨"S", .swap .fxForward .krw .usd none, .krw, 10, day0 2022 7 1, 0⟩]

/-- The engine holds ten currency futures and the forward. -/
noncomputable def fxEngine : EngCfg where
  md := .checked
  pricers := fun c =>
    if c = "X" then some (Plan.pricer .checked fxFixed (.fxFutures (day0 2022 7 1) 1190 1) (.fxFutures ⟨.usd, .krw⟩ "U" "K"))
    else if c = "S" then some (Plan.pricer .checked fxFixed (.swap fxForward) (.swap "K" "U" none none (some ⟨.usd, .krw⟩)))
    else none
  p := { collateral := fun _ => none, borrowing := fun _ => none, bondDiscount := fun _ => none, rateForward := fun _ => none, crs := fun c => if c = .krw then some "K" else some "U", funding := fun _ => none }
  conf := { demoConf with rhoTenors := [['1', 'Y'], ['3', 'Y']] }
  insts := fxInsts

/-- Nothing but the two curves -/
def fxMarket (k u : Curve) : Mkt where
  w := { date := day0 2021 1 1, prices := [], divs := [] }
  equity := fun _ => none
  dividend := fun _ => none
  curves := fun n => if n = "K" then some k else if n = "U" then some u else none
  vols := fun _ => none
  volCurves := fun _ => none

/-- What the pricers need of a market -/
structure Converting (m : Mkt) : Prop where
  curve : ∀ n, n = "K" ∨ n = "U" → ∃ c, m.curves n = some c ∧ CurveOk c ∧ ∃ tl, c.times[c.times.length - 1]? = some tl ∧ 99 ≤ tl
  date : m.w.date = day0 2021 1 1 ∨ m.w.date = day0 2021 1 2

theorem converting_df (m : Mkt) (h : Converting m) (n : String) (hn : n = "K" ∨ n = "U") :
    ∃ c y, m.curves n = some c ∧ Live.df { curve := c, eval := m.w.date } (day0 2022 7 1) = .ok y ∧ 0 < y := by
  obtain ⟨c, c1, ok, tl, htl, h99⟩ := h.curve n hn
  obtain ⟨-, -, hdf, -⟩ := C57_range c ok tl htl
  have ht : ((0 : ℚ) ≤ timeDifference m.w.date (day0 2022 7 1) ∧ timeDifference m.w.date (day0 2022 7 1) < 99) := by
    rcases h.date with e | e <;> rw [e] <;> decide +kernel
  obtain ⟨y, h1, h2⟩ := hdf (timeFrom m.w.date (day0 2022 7 1)) (by unfold timeFrom; exact_mod_cast ht.1) (lt_of_lt_of_le (by unfold timeFrom; exact_mod_cast ht.2) h99)
  refine ⟨c, y, c1, ?_, h2⟩
  unfold Live.df
  rw [(C57_at_date c ok _ _).1]
  exact h1

theorem converting_future (m : Mkt) (h : Converting m) : ∃ x, Plan.npv .checked fxFixed (.fxFutures ⟨.usd, .krw⟩ "U" "K") (.fxFutures (day0 2022 7 1) 1190 1) m = .ok x := by
  obtain ⟨u, y, u1, u2, u3⟩ := converting_df m h "U" (Or.inr rfl)
  obtain ⟨k, z, k1, k2, k3⟩ := converting_df m h "K" (Or.inl rfl)
  refine ⟨1200 * y / z, ?_⟩
  show (do let x ← m.fxPricer fxFixed ⟨.usd, .krw⟩ "U" "K"; x.npv (day0 2022 7 1)) = _
  have : m.fxPricer fxFixed ⟨.usd, .krw⟩ "U" "K" = .ok { eval := m.w.date, fx := 1200, und := u, fut := k } := by
    unfold Mkt.fxPricer
    rw [u1, k1]
    simp [fxFixed, orErr, Res.bind_ok]
  rw [this, Res.bind_ok]
  unfold FxFuturesPricer.npv
  unfold Live.df at u2 k2
  dsimp only at u2 k2 ⊢
  rw [u2, Res.bind_ok, k2, Res.bind_ok]
  unfold divK
  rw [if_neg (ne_of_gt k3)]

theorem converting_forward (m : Mkt) (h : Converting m) : ∃ v fl e, Plan.result .checked fxFixed (.swap "K" "U" none none (some ⟨.usd, .krw⟩)) (.swap fxForward) m = .ok v ∧ v.expected = .ok fl ∧
    Plan.npv .checked fxFixed (.swap "K" "U" none none (some ⟨.usd, .krw⟩)) (.swap fxForward) m = .ok v.npv ∧
    Plan.exposure .checked fxFixed (.swap "K" "U" none none (some ⟨.usd, .krw⟩)) (.swap fxForward) ⟨"S", .swap .fxForward .krw .usd none, .krw, 10, day0 2022 7 1, 0⟩ m v.npv = .ok e := by
  obtain ⟨u, y, u1, u2, u3⟩ := converting_df m h "U" (Or.inr rfl)
  obtain ⟨k, z, k1, k2, k3⟩ := converting_df m h "K" (Or.inl rfl)
  let P : SwapPricer := { eval := m.w.date, fixedCurve := k, floatCurve := u, mkt := { fwd := none, close := none }, fx := some 1200 }
  have hP : m.swapPricer fxFixed "K" "U" none none (some ⟨.usd, .krw⟩) = .ok P := by
    unfold Mkt.swapPricer
    rw [u1, k1]
    simp [fxFixed, orErr, Res.bind_ok, P, Mkt.fixings]
  have hday : m.w.date.day < (day0 2022 7 1).day := by
    rcases h.date with e | e <;> rw [e] <;> decide +kernel
  have hf : fxForward.fixedFlows P.eval = .ok [(day0 2022 7 1, -1180)] := by
    show Except.ok (fxForward.fixedPrincipal m.w.date) = _
    unfold Swap.fixedPrincipal
    simp only [fxForward, putAt]
    rw [if_pos (by omega)]
  have hg : fxForward.floatFlows .checked P.mkt P.eval = .ok [(day0 2022 7 1, 1)] := by
    show Except.ok (fxForward.floatPrincipal m.w.date) = _
    unfold Swap.floatPrincipal
    simp only [fxForward, putAt]
    rw [if_pos (by omega)]
  have hx : discounted { curve := P.fixedCurve, eval := P.eval } P.eval [(day0 2022 7 1, -1180)] 0 = .ok (0 + -1180 * z) := by
    unfold discounted
    rw [if_pos hday, show Live.df { curve := P.fixedCurve, eval := P.eval } (day0 2022 7 1) = .ok z from k2, Res.bind_ok]
    rfl
  have hy : discounted { curve := P.floatCurve, eval := P.eval } P.eval [(day0 2022 7 1, 1)] 0 = .ok (0 + 1 * y) := by
    unfold discounted
    rw [if_pos hday, show Live.df { curve := P.floatCurve, eval := P.eval } (day0 2022 7 1) = .ok y from u2, Res.bind_ok]
    rfl
  have hres : ∃ r, P.result .checked fxForward = .ok r ∧ P.npv .checked fxForward = .ok r.npv ∧ ∃ e, P.exposure .checked fxForward = .ok e := by
    unfold SwapPricer.result SwapPricer.npv SwapPricer.exposure
    simp only [hf, hg, hx, hy, Res.bind_ok]
    exact ⟨_, rfl, rfl, _, rfl⟩
  obtain ⟨r, h1, h2, e, h3⟩ := hres
  have hex : ∃ fl, r.expected = .ok fl := by
    obtain ⟨_, _, -, -, hw, -⟩ := C67_swap .checked P fxForward (by decide +kernel) (coherent_of_offset _ 0 (by decide +kernel)) (coherent_of_offset _ 0 (by decide +kernel)) r h1
    obtain ⟨fl, h, -⟩ := hw r.amounts (List.Perm.refl _)
    exact ⟨fl, h⟩
  obtain ⟨fl, hfl⟩ := hex
  refine ⟨r, fl, e, ?_, hfl, ?_, ?_⟩
  · show (do let x ← m.swapPricer fxFixed "K" "U" none none (some ⟨.usd, .krw⟩); x.result .checked fxForward) = _
    rw [hP, Res.bind_ok, h1]
  · show (do let x ← m.swapPricer fxFixed "K" "U" none none (some ⟨.usd, .krw⟩); x.npv .checked fxForward) = _
    rw [hP, Res.bind_ok, h2]
  · show (do let x ← m.swapPricer fxFixed "K" "U" none none (some ⟨.usd, .krw⟩); x.exposure .checked fxForward) = _
    rw [hP, Res.bind_ok, h3]

/-- All hypotheses of `C161_worth` are met by the currency future and the forward of this engine; both currencies of the forward differ. -/
theorem worth_witness : ∃ M, OwnCodes fxEngine ∧ SoundMkt fxEngine [day0 2021 7 1, day0 2022 1 1, day0 2023 1 1] M ∧ fxEngine.conf.npv = true ∧ fxEngine.conf.exposure = true ∧
    PricedAs fxEngine fxFixed fxLoaded true ⟨"X", .fxFutures .usd ⟨.usd, .krw⟩, .krw, 10, day0 2022 7 1, 1190⟩ (.fxFutures ⟨.usd, .krw⟩ "U" "K") (.fxFutures (day0 2022 7 1) 1190 1) ∧
    PricedAs fxEngine fxFixed fxLoaded true ⟨"S", .swap .fxForward .krw .usd none, .krw, 10, day0 2022 7 1, 0⟩ (.swap "K" "U" none none (some ⟨.usd, .krw⟩)) (.swap fxForward) ∧
    fxForward.eff.instant ≠ fxForward.maturity.instant ∧ Coherent (legDates fxForward fxForward.fixedLegs) ∧ Coherent (legDates fxForward fxForward.floatLegs) ∧
    fxForward.classify true = .ok .fxForward ∧ fxForward.fixedCcy ≠ fxForward.floatCcy ∧ fxFixed.num .krw ≠ 1 ∧
    ∃ e', calculate fxEngine [] { mkt := M, action := fxEngine.insts, results := freshResults fxEngine.insts fun _ => none } = .ok e' := by
  obtain ⟨k, hkn, okk, ⟨tk, htk, htk'⟩, -⟩ := sample_curve 0.03
  obtain ⟨u, hun, oku, ⟨tu, htu, htu'⟩, -⟩ := sample_curve 0.01
  have hcur : ∀ n c', (fxMarket k.blank u.blank).curves n = some c' → (n = "K" ∧ c' = k.blank) ∨ (n = "U" ∧ c' = u.blank) := by
    intro n c' h
    have h : (if n = "K" then some k.blank else if n = "U" then some u.blank else none) = some c' := h
    by_cases e : n = "K"
    · rw [if_pos e] at h; exact Or.inl ⟨e, (Option.some.inj h).symm⟩
    · rw [if_neg e] at h
      obtain ⟨e', h⟩ := (Option.ite_none_right_eq_some).1 h
      exact Or.inr ⟨e', (Option.some.inj h).symm⟩
  have hM : SoundMkt fxEngine [day0 2021 7 1, day0 2022 1 1, day0 2023 1 1] (fxMarket k.blank u.blank) := by
    refine ⟨?_, ?_, ?_, ⟨?_, ?_, ?_, ?_⟩, ?_, ?_⟩
    · intro n c' h
      rcases hcur n c' h with ⟨-, rfl⟩ | ⟨-, rfl⟩
      · exact ⟨curveOk_blank k okk, rfl, sample_times _ k hkn⟩
      · exact ⟨curveOk_blank u oku, rfl, sample_times _ u hun⟩
    · intro u v h; cases h
    · intro u k h; cases h
    · intro p hp; cases hp
    · intro p hp; cases hp
    · intro p hp; cases hp
    · intro p hp; cases hp
    · show calcDates .checked (day0 2021 1 1) [['6', 'M'], ['1', 'Y'], ['2', 'Y']] = _
      decide +kernel
    · intro u s h; cases h
  have hg : OwnCodes fxEngine := by
    show (fxInsts.map Instr.code).Nodup
    simp [fxInsts]
  have hroles : ∀ i ∈ fxEngine.insts, curveRoles fxEngine.p i = [some "K", some "U"] ∧ i.unds = [] ∧ i.maturity = some (day0 2022 7 1) := by
    intro i hi
    have hi' : i ∈ fxInsts := hi
    unfold fxInsts at hi'
    rcases List.mem_cons.1 hi' with rfl | hi'
    · exact ⟨rfl, rfl, rfl⟩
    · rw [List.mem_singleton] at hi'
      subst hi'
      exact ⟨rfl, rfl, rfl⟩
  have hr : calcDates .checked (day0 2021 1 1) [['1', 'Y'], ['3', 'Y']] = .ok [day0 2022 1 1, day0 2024 1 1] := by decide +kernel
  have t1 : timeFrom (day0 2021 1 1) (day0 2022 1 1) = 1 := by
    have : timeDifference (day0 2021 1 1) (day0 2022 1 1) = 1 := by decide +kernel
    unfold timeFrom; rw [this]; norm_num
  have t3 : timeFrom (day0 2021 1 1) (day0 2024 1 1) = 400769 / 133590 := by
    have : timeDifference (day0 2021 1 1) (day0 2024 1 1) = 400769 / 133590 := by decide +kernel
    unfold timeFrom; rw [this]; norm_num
  have hb : (day0 2021 1 1).addNs (1 * dayNs) = .ok (day0 2021 1 2) := by decide +kernel
  have hlate : (day0 2021 1 2).instant < (day0 2022 7 1).instant := by decide +kernel
  have hsd : (fxMarket k.blank u.blank).w.setDate (day0 2021 1 2) = .ok { date := day0 2021 1 2, prices := [], divs := [] } := rfl
  have hC : Complete fxEngine [] (fxMarket k.blank u.blank) := by
    refine ⟨?_, ?_, ?_, ?_, ?_, ?_, ?_, ?_, ?_, ?_⟩
    · intro i hi u hu; rw [(hroles i hi).2.1] at hu; cases hu
    · intro i hi; unfold CurvesNamed; rw [(hroles i hi).1]; simp
    · rintro i hi n ⟨-, hn⟩
      rw [(hroles i hi).1] at hn
      simp at hn
      rcases hn with rfl | rfl
      · exact ⟨_, rfl⟩
      · exact ⟨_, rfl⟩
    · intro i hi _ u hu; rw [(hroles i hi).2.1] at hu; cases hu
    · intro i hi _ u hu; rw [(hroles i hi).2.1] at hu; cases hu
    · intro u hu; cases hu
    · refine ⟨?_, ?_, ?_, ?_, ?_⟩ <;> simp [fxEngine, demoConf] <;> norm_num
    · refine ⟨_, hr, fun k hk => ?_⟩
      show (startOf [timeFrom (day0 2021 1 1) (day0 2022 1 1), timeFrom (day0 2021 1 1) (day0 2024 1 1)] k).getD (-99999999)
        ≤ ([timeFrom (day0 2021 1 1) (day0 2022 1 1), timeFrom (day0 2021 1 1) (day0 2024 1 1)][k]?).getD 99999999
      rw [t1, t3]
      have hk : k < 2 := hk
      interval_cases k
      · simp [startOf]; norm_num
      · simp [startOf]; norm_num
    · refine ⟨_, hr, fun k hk => ?_⟩
      have hk : k < 2 := hk
      unfold WindowOk
      interval_cases k <;> decide +kernel
    · refine ⟨day0 2021 1 2, hb, fun i hi ht d hd => ?_⟩
      have hde : d = day0 2021 1 2 := by
        rcases hd with ⟨-, rfl⟩ | ⟨⟨m, hm, hle⟩, -⟩
        · rfl
        · rw [(hroles i hi).2.2] at hm
          obtain rfl := Option.some.inj hm
          omega
      subst hde
      refine ⟨⟨_, hsd⟩, ?_⟩
      have : timeDifference (day0 2021 1 1) (day0 2021 1 2) = 1 / 365 := by decide +kernel
      show ((timeDifference (day0 2021 1 1) (day0 2021 1 2) : ℚ) : ℝ) ≠ 0
      rw [this]
      norm_num
  have ubase : Converting (fxMarket k.blank u.blank) := by
    refine ⟨?_, Or.inl rfl⟩
    rintro n (rfl | rfl)
    · exact ⟨k.blank, rfl, curveOk_blank k okk, tk, htk, htk'⟩
    · exact ⟨u.blank, rfl, curveOk_blank u oku, tu, htu, htu'⟩
  have hR : Visits fxEngine [day0 2021 7 1, day0 2022 1 1, day0 2023 1 1] (fxMarket k.blank u.blank) Converting := by
    refine ⟨ubase, ?_, ?_, ?_, ?_, ?_, ?_⟩
    · rintro u k m hk ⟨j, p, hj, -⟩; cases hj
    · rintro n win m ⟨c0, c1, h0, h1, -, h3, -, rfl⟩
      refine ⟨?_, ubase.date⟩
      intro n' hn'
      by_cases e : n' = n
      · subst e
        refine ⟨c1, by show ((fxMarket k.blank u.blank).curves.put n' c1) n' = _; exact put_self _ _ _, h1, ?_⟩
        rw [h3]
        obtain ⟨c', e1, -, e3⟩ := ubase.curve n' hn'
        rw [h0] at e1
        obtain rfl := Option.some.inj e1
        exact e3
      · obtain ⟨c', e1, e2, e3⟩ := ubase.curve n' hn'
        exact ⟨c', by show ((fxMarket k.blank u.blank).curves.put n c1) n' = _; rw [put_other _ _ _ _ e]; exact e1, e2, e3⟩
    · rintro u win b m - ⟨s0, s1, env, h0, -⟩; cases h0
    · rintro u win m ⟨k, w, w', f, h0, -⟩; cases h0
    · rintro b i d w hb' hi - hd hw
      have hbe : b = day0 2021 1 2 := Except.ok.inj (hb'.symm.trans hb)
      subst hbe
      have hde : d = day0 2021 1 2 := by
        rcases hd with ⟨-, rfl⟩ | ⟨⟨m, hm, hle⟩, -⟩
        · rfl
        · rw [(hroles i hi).2.2] at hm
          obtain rfl := Option.some.inj hm
          omega
      subst hde
      rw [hsd] at hw
      obtain rfl := Except.ok.inj hw
      exact ⟨ubase.curve, Or.inr rfl⟩
    · rintro m ⟨h1, -, -, -⟩
      rw [h1]
      exact ⟨ubase.curve, ubase.date⟩
  have hP : CanPriceIn fxEngine (fxMarket k.blank u.blank) Converting := by
    intro i hi
    have hi' : i ∈ fxInsts := hi
    unfold fxInsts at hi'
    rcases List.mem_cons.1 hi' with rfl | hi'
    · obtain ⟨x, hx⟩ := converting_future _ ubase
      refine ⟨_, NpvResult.ofNpv x, [], rfl, fun m hm => converting_future m hm, ?_, rfl, ?_⟩
      · show (do let x ← Plan.npv .checked fxFixed (.fxFutures ⟨.usd, .krw⟩ "U" "K") (.fxFutures (day0 2022 7 1) 1190 1) (fxMarket k.blank u.blank); .ok (NpvResult.ofNpv x)) = _
        rw [hx, Res.bind_ok]
      · obtain ⟨cu, y, u1, u2, u3⟩ := converting_df _ ubase "U" (Or.inr rfl)
        obtain ⟨ck, z, k1, k2, k3⟩ := converting_df _ ubase "K" (Or.inl rfl)
        have hfx : (fxMarket k.blank u.blank).fxPricer fxFixed ⟨.usd, .krw⟩ "U" "K" = .ok { eval := (fxMarket k.blank u.blank).w.date, fx := 1200, und := cu, fut := ck } := by
          unfold Mkt.fxPricer
          rw [u1, k1]
          simp [fxFixed, orErr, Res.bind_ok]
        have hx' : (do let x ← (fxMarket k.blank u.blank).fxPricer fxFixed ⟨.usd, .krw⟩ "U" "K"; x.npv (day0 2022 7 1)) = .ok x := hx
        rw [hfx, Res.bind_ok] at hx'
        obtain ⟨-, -, e, -, -, -, -, he, -⟩ := C68_fx _ (day0 2022 7 1) 1190 0 1 (by decide) x hx'
        refine ⟨e, ?_⟩
        show (do let x ← (fxMarket k.blank u.blank).fxPricer fxFixed ⟨.usd, .krw⟩ "U" "K"; x.exposure (day0 2022 7 1) 1190 0 1) = _
        rw [hfx, Res.bind_ok, he]
    · rw [List.mem_singleton] at hi'
      subst hi'
      obtain ⟨v, fl, e, v1, v2, -, v4⟩ := converting_forward _ ubase
      refine ⟨_, v, fl, rfl, fun m hm => ?_, v1, v2, ⟨e, v4⟩⟩
      obtain ⟨v', -, -, -, -, v3, -⟩ := converting_forward m hm
      exact ⟨_, v3⟩
  refine ⟨fxMarket k.blank u.blank, hg, hM, rfl, rfl, ⟨rfl, rfl⟩, ⟨rfl, rfl⟩, by decide +kernel, coherent_of_offset _ 0 (by decide +kernel), coherent_of_offset _ 0 (by decide +kernel), ?_, by decide, by decide,
    C97_succeeds_in fxEngine hg [] List.nodup_nil _ _ hM hC Converting hR hP rfl⟩
  rw [(C63_kind fxForward (by decide +kernel)).1]
  simp [IsKind, NoInitial, Final, Bare, fxForward]
  decide +kernel

end Verif.Props

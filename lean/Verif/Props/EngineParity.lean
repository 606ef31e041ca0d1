import Verif.QL.Wire
import Verif.Props.EngineRuns
import Verif.Props.Options
/-!
# C156: put-call parity of the numbers of an engine
-/
set_option autoImplicit false
namespace Verif.Props
open Verif Verif.QL Verif.Civil

/-! ## Specification -/

/-- The instrument `i` is priced by what `create_pricer` makes for it, on the terms `t`. -/
structure PricedAs (g : EngCfg) (f : Fixed) (L : Loaded) (analytic : Bool) (i : Instr) (pl : Plan) (t : Terms) : Prop where
  made : createPricer g.p L analytic i = .ok pl
  held : g.pricers i.code = some (pl.pricer g.md f t)

/-- A call `i` and a put `j` of one engine, on the same underlying, with the same currencies, notional, maturity and strike, and both or none settled. -/
structure Twins (g : EngCfg) (f : Fixed) (L : Loaded) (analytic : Bool) (i j : Instr) (u : String) (o : Vanilla) : Prop where
  mem : i ∈ g.insts ∧ j ∈ g.insts
  kinds : ∃ uc s, i.kind = .option true u uc s ∧ j.kind = .option false u uc s
  same : i.ccy = j.ccy ∧ i.notional = j.notional ∧ i.mat = j.mat
  call : ∃ pl, PricedAs g f L analytic i pl (.option { o with call := true })
  put : ∃ pl, PricedAs g f L analytic j pl (.option { o with call := false })

/-- In the market `m`: the forward of `u` for the maturity of the option, made from the price, the dividend, the collateral and the borrowing curve, and the
discount factor of the discount curve. -/
def ForwardAt (m : Mkt) (u disc coll borrow : String) (o : Vanilla) (F D : ℝ) : Prop :=
  ∃ env c, m.carry u coll borrow = .ok env ∧ env.forward o.maturity = .ok F ∧ m.curves disc = some c ∧ c.df (timeFrom m.w.date o.maturity) = .ok D

/-- In the market `m`: `x` is the discounted difference of forward and strike. -/
def Carry (m : Mkt) (u disc coll borrow : String) (o : Vanilla) (x : ℝ) : Prop :=
  ∃ F D, ForwardAt m u disc coll borrow o F D ∧ x = D * (F - o.strike)

/-- Maturities at the same instant are written in the same time zone. -/
def OneZone (g : EngCfg) : Prop :=
  ∀ j ∈ g.insts, ∀ k ∈ g.insts, ∀ a b, j.maturity = some a → k.maturity = some b → a.instant = b.instant → a = b

/-- Two numbers with the difference `x`. -/
def Differ (a b : Option ℝ) (x : ℝ) : Prop := ∃ p q, a = some p ∧ b = some q ∧ p - q = x

/-- Two rows of numbers, one per tenor; the numbers of tenor `k` differ by some `x` with `P k x`. -/
def DifferByTenor (n : Nat) (a b : Option (List ℝ)) (P : Nat → ℝ → Prop) : Prop :=
  ∃ p q, a = some p ∧ b = some q ∧ p.length = n ∧ q.length = n ∧ ∀ k, k < n → ∃ x, P k x ∧ Differ p[k]? q[k]? x

/-- The numbers of a call (`c`) and of a put (`p`) that are twins, in the market `M`. With `W` the discounted difference of forward and strike:
the values differ by `W`; the deltas by the discounted forward; gammas and vegas are the same; rhos, dividend deltas and thetas differ by what `W` gains in the
moved market. -/
structure ParityOf (g : EngCfg) (names : List String) (M : Mkt) (i : Instr) (u : String) (W : Mkt → ℝ → Prop) (FD : ℝ → ℝ → Prop) (c p : EResult) : Prop where
  value : ∃ w, W M w ∧ Differ c.value p.value (w * i.notional)
  delta : g.conf.delta = true → ∃ F D, FD F D ∧ Differ (c.delta u) (p.delta u) (D * F * 0.01 * i.notional)
  gamma : g.conf.delta = true → ∃ x, c.gamma u = some x ∧ p.gamma u = some x
  vega : g.conf.vega = true → ∃ x, c.vega u = some x ∧ p.vega u = some x
  vegaS : g.conf.vegaS = true → ∃ x, c.vegaS u = some x ∧ p.vegaS u = some x
  vegaM : g.conf.vegaM = true → ∃ x, c.vegaM u = some x ∧ p.vegaM u = some x
  rho : g.conf.rho = true → ∀ n, UsesCurve g.p n i → ∃ m w w', CurveShifted n (fun _ => True) g.conf.rhoBump M m ∧ W M w ∧ W m w' ∧
    Differ (c.rho n) (p.rho n) ((w' - w) / g.conf.rhoBump * 0.0001 * i.notional)
  rhoS : g.conf.rhoS = true → ∃ dr, calcDates g.md M.w.date g.conf.rhoTenors = .ok dr ∧ ∀ n, UsesCurve g.p n i →
    DifferByTenor dr.length (c.rhoS n) (p.rhoS n) fun k x => x = 0 ∧ ¬ TenorReached (fun j => j ∈ g.insts ∧ UsesCurve g.p n j ∧ j.typeName ≠ "Stock" ∧ j.typeName ≠ "Cash") dr k ∨
      ∃ m w w', CurveShifted n (InTenor (dr.map (timeFrom M.w.date)) k) g.conf.rhoBump M m ∧ W M w ∧ W m w' ∧
        x = (w' - w) / g.conf.rhoBump * 0.0001 * i.notional
  divDelta : g.conf.divDelta = true → ∃ m w w', DivShifted u (fun _ => True) g.conf.divBump M m ∧ W M w ∧ W m w' ∧
    Differ (c.divDelta u) (p.divDelta u) ((w' - w) / g.conf.divBump * 0.0001 * i.notional)
  divS : g.conf.divS = true → u ∈ names → ∃ dd, calcDates g.md M.w.date g.conf.divTenors = .ok dd ∧
    DifferByTenor dd.length (c.divS u) (p.divS u) fun k x => x = 0 ∧ ¬ TenorReached (fun j => j ∈ g.insts ∧ u ∈ j.unds ∧ j.typeName ≠ "Stock" ∧ j.typeName ≠ "Cash") dd k ∨
      ∃ m w w', DivShifted u (DayInTenor dd k) g.conf.divBump M m ∧ W M w ∧ W m w' ∧ x = (w' - w) / g.conf.divBump * 0.0001 * i.notional
  theta : g.conf.theta = true → ∃ b d w' x x', M.w.date.addNs (g.conf.thetaDay * dayNs) = .ok b ∧ ThetaDate g b i d ∧ M.w.setDate d = .ok w' ∧
    W M x ∧ W { M with w := w' } x' ∧ Differ c.theta p.theta ((x' - x) * i.notional / timeFrom M.w.date d / 365)

/-! ## Parity in a market -/

theorem forwardAt_unique {m : Mkt} {u d c b : String} {o : Vanilla} {F D F' D' : ℝ} (h : ForwardAt m u d c b o F D) (h' : ForwardAt m u d c b o F' D') :
    F = F' ∧ D = D' := by
  obtain ⟨e, k, h1, h2, h3, h4⟩ := h
  obtain ⟨e', k', g1, g2, g3, g4⟩ := h'
  rw [h1] at g1
  obtain rfl := Except.ok.inj g1
  rw [h3] at g3
  obtain rfl := Option.some.inj g3
  rw [h2] at g2
  rw [h4] at g4
  exact ⟨Except.ok.inj g2, Except.ok.inj g4⟩

theorem carry_unique {m : Mkt} {u d c b : String} {o : Vanilla} {x x' : ℝ} (h : Carry m u d c b o x) (h' : Carry m u d c b o x') : x = x' := by
  obtain ⟨F, D, h1, rfl⟩ := h
  obtain ⟨F', D', h2, rfl⟩ := h'
  obtain ⟨rfl, rfl⟩ := forwardAt_unique h1 h2
  rfl

/-- A call and a put on the same terms differ by the discounted difference of forward and strike, and are priced together. -/
theorem option_pair (p : OptionPricer) (o : Vanilla) :
    (∀ a b, p.npv { o with call := true } = .ok a → p.npv { o with call := false } = .ok b → ∃ F D, p.env.forward o.maturity = .ok F ∧
      p.disc.df (timeFrom p.env.eval o.maturity) = .ok D ∧ a - b = D * (F - o.strike)) := by
  intro a b h1 h2
  unfold OptionPricer.npv at h1 h2
  obtain ⟨F, hF, h1⟩ := (bind_ok_iff _ _ _).1 h1
  rw [show p.env.forward o.maturity = .ok F from hF, Res.bind_ok] at h2
  obtain ⟨x, hx, h1⟩ := (bind_ok_iff _ _ _).1 h1
  rw [show divK o.strike F = .ok x from hx, Res.bind_ok] at h2
  dsimp only at h1 h2
  obtain ⟨var, hvar, h1⟩ := (bind_ok_iff _ _ _).1 h1
  rw [hvar, Res.bind_ok] at h2
  obtain ⟨dev, hdev, h1⟩ := (bind_ok_iff _ _ _).1 h1
  rw [hdev, Res.bind_ok] at h2
  by_cases hc : o.ccy ≠ o.undCcy ∧ p.quanto.isNone
  · rw [if_pos hc] at h1
    cases h1
  rw [if_neg hc] at h1 h2
  obtain ⟨vol, hvol, h1⟩ := (bind_ok_iff _ _ _).1 h1
  rw [hvol, Res.bind_ok] at h2
  have tail : ∀ adj : ℝ, (do
        let y ← lnK x
        let dsc ← p.disc.df (timeFrom p.env.eval o.maturity)
        let n ← normals (-y + var / 2 - adj) dev
        Except.ok (dsc * (F * n.1 - o.strike * n.2)) : Res ℝ) = .ok a →
      (do
        let y ← lnK x
        let dsc ← p.disc.df (timeFrom p.env.eval o.maturity)
        let n ← normals (-y + var / 2 - adj) dev
        Except.ok (dsc * (o.strike * (1 - n.2) - F * (1 - n.1))) : Res ℝ) = .ok b →
      ∃ F D, p.env.forward o.maturity = .ok F ∧ p.disc.df (timeFrom p.env.eval o.maturity) = .ok D ∧ a - b = D * (F - o.strike) := by
    intro adj h1 h2
    obtain ⟨y, hy, h1⟩ := (bind_ok_iff _ _ _).1 h1
    rw [hy, Res.bind_ok] at h2
    obtain ⟨D, hD, h1⟩ := (bind_ok_iff _ _ _).1 h1
    rw [hD, Res.bind_ok] at h2
    obtain ⟨n, hn, h1⟩ := (bind_ok_iff _ _ _).1 h1
    rw [hn, Res.bind_ok] at h2
    obtain rfl := Except.ok.inj h1
    obtain rfl := Except.ok.inj h2
    refine ⟨F, D, hF, hD, ?_⟩
    ring
  simp only [if_true, Bool.false_eq_true, if_false] at h1 h2
  cases hq : p.quanto with
  | none =>
    rw [hq] at h1 h2
    exact tail 0 h1 h2
  | some q =>
    rw [hq] at h1 h2
    dsimp only at h1 h2
    obtain ⟨z, hz, h1⟩ := (bind_ok_iff _ _ _).1 h1
    rw [hz, Res.bind_ok] at h2
    exact tail _ h1 h2

/-- The same in the market, through the pricers of the engine. -/
theorem plan_pair (md : Mode) (f : Fixed) (m : Mkt) (u v d c b : String) (q : Option (String × FxCode)) (o : Vanilla) (x y : ℝ)
    (h1 : (Plan.option u v d c b q).npv md f (.option { o with call := true }) m = .ok x)
    (h2 : (Plan.option u v d c b q).npv md f (.option { o with call := false }) m = .ok y) : Carry m u d c b o (x - y) := by
  unfold Plan.npv at h1 h2
  dsimp only at h1 h2
  obtain ⟨p, hp, h1⟩ := (bind_ok_iff _ _ _).1 h1
  rw [hp, Res.bind_ok] at h2
  obtain ⟨F, D, a1, a2, a3⟩ := option_pair p o x y h1 h2
  unfold Mkt.optionPricer at hp
  obtain ⟨env, he, hp⟩ := (bind_ok_iff _ _ _).1 hp
  obtain ⟨vol, hv, hp⟩ := (bind_ok_iff _ _ _).1 hp
  obtain ⟨dc, hd, hp⟩ := (bind_ok_iff _ _ _).1 hp
  obtain rfl := Except.ok.inj hp
  have hev : env.eval = m.w.date := by
    have he' := he
    unfold Mkt.carry at he'
    obtain ⟨_, _, he1⟩ := (bind_ok_iff _ _ _).1 he'
    obtain ⟨_, _, he2⟩ := (bind_ok_iff _ _ _).1 he1
    obtain ⟨_, _, he3⟩ := (bind_ok_iff _ _ _).1 he2
    rw [← Except.ok.inj he3]
  refine ⟨F, D, ⟨env, dc, he, a1, (orErr_eq _ _).1 hd, ?_⟩, a3⟩
  rw [← hev]
  exact a2

/-- The pricer of an option is made of these names. -/
theorem option_plan (p : MatchParam) (L : Loaded) (an : Bool) (i : Instr) (call s : Bool) (u : String) (uc : Currency) (hk : i.kind = .option call u uc s) (pl : Plan)
    (h : createPricer p L an i = .ok pl) : ∃ d c b q, pl = .option u u d c b q ∧ p.discountName i = .ok d ∧ p.collateral u = some c ∧ p.borrowing u = some b := by
  unfold createPricer at h
  rw [hk] at h
  dsimp only at h
  have need_ok : ∀ {κ : Type} (f : κ → Bool) (k k' : κ), need f k = .ok k' → k' = k := by
    intro κ f k k' h
    unfold need at h
    split at h
    · exact (Except.ok.inj h).symm
    · cases h
  obtain ⟨e, he, h1⟩ := (bind_ok_iff _ _ _).1 h
  obtain ⟨v, hv, h2⟩ := (bind_ok_iff _ _ _).1 h1
  obtain ⟨d, hd, h3⟩ := (bind_ok_iff _ _ _).1 h2
  obtain ⟨d', hd', h4⟩ := (bind_ok_iff _ _ _).1 h3
  obtain ⟨cs, hcs, h5⟩ := (bind_ok_iff _ _ _).1 h4
  obtain ⟨c, hc, h6⟩ := (bind_ok_iff _ _ _).1 h5
  obtain ⟨c', hc', h7⟩ := (bind_ok_iff _ _ _).1 h6
  obtain ⟨bs, hbs, h8⟩ := (bind_ok_iff _ _ _).1 h7
  obtain ⟨b, hb, h9⟩ := (bind_ok_iff _ _ _).1 h8
  obtain ⟨b', hb', h10⟩ := (bind_ok_iff _ _ _).1 h9
  obtain ⟨q, hq, h11⟩ := (bind_ok_iff _ _ _).1 h10
  obtain rfl := need_ok _ _ _ he
  obtain rfl := need_ok _ _ _ hv
  obtain rfl := need_ok _ _ _ hd'
  obtain rfl := need_ok _ _ _ hc'
  obtain rfl := need_ok _ _ _ hb'
  cases an with
  | false => cases h11
  | true =>
    obtain rfl := Except.ok.inj h11
    refine ⟨_, _, _, _, rfl, hd, ?_, ?_⟩
    · unfold MatchParam.collateralNames at hcs
      rw [show i.unds = [v] by unfold Instr.unds; rw [hk]] at hcs
      simp only [mapRes] at hcs
      obtain ⟨z, hz, hcs⟩ := (bind_ok_iff _ _ _).1 hcs
      obtain rfl := Except.ok.inj hcs
      obtain rfl := Except.ok.inj hc
      exact (orErr_eq _ _).1 hz
    · unfold MatchParam.borrowingNames at hbs
      rw [show i.unds = [v] by unfold Instr.unds; rw [hk], show i.borrowTags = [] by unfold Instr.borrowTags; rw [hk]] at hbs
      simp only [List.append_nil, mapRes] at hbs
      obtain ⟨z, hz, hbs⟩ := (bind_ok_iff _ _ _).1 hbs
      obtain rfl := Except.ok.inj hbs
      obtain rfl := Except.ok.inj hb
      exact (orErr_eq _ _).1 hz

theorem twin_plan (p : MatchParam) (L : Loaded) (an : Bool) (i j : Instr) (u : String) (uc : Currency) (s : Bool) (hi : i.kind = .option true u uc s)
    (hj : j.kind = .option false u uc s) (hc : i.ccy = j.ccy) : createPricer p L an i = createPricer p L an j := by
  have e1 : p.discountName i = p.discountName j := by unfold MatchParam.discountName; rw [hi, hj, hc]
  have e2 : i.unds = j.unds := by unfold Instr.unds; rw [hi, hj]
  have e3 : i.borrowTags = j.borrowTags := by unfold Instr.borrowTags; rw [hi, hj]
  unfold createPricer MatchParam.collateralNames MatchParam.borrowingNames
  rw [hi, hj, e1, e2, e3, hc]

theorem doneBy_unique (g : EngCfg) (hz : OneZone g) (eval : DT) (P : Instr → Prop) (hP : ∀ j, P j → j ∈ g.insts) (T T' : ℝ) (h : DoneBy eval P T) (h' : DoneBy eval P T') :
    T = T' := by
  rcases h with ⟨i, m, a1, a2, a3, rfl⟩ | ⟨⟨i, a1, a2⟩, rfl⟩ <;> rcases h' with ⟨j, n, b1, b2, b3, rfl⟩ | ⟨⟨j, b1, b2⟩, rfl⟩
  · obtain ⟨m', c1, c2⟩ := b3 i a1
    rw [a2] at c1
    obtain rfl := Option.some.inj c1
    obtain ⟨n', d1, d2⟩ := a3 j b1
    rw [b2] at d1
    obtain rfl := Option.some.inj d1
    rw [hz i (hP i a1) j (hP j b1) m n a2 b2 (le_antisymm c2 d2)]
  · obtain ⟨n, c1, -⟩ := a3 j b1
    rw [b2] at c1
    cases c1
  · obtain ⟨n, c1, -⟩ := b3 i a1
    rw [a2] at c1
    cases c1
  · rfl

theorem thetaDate_unique (g : EngCfg) (hz : OneZone g) (b : DT) (i j : Instr) (hm : i.maturity = j.maturity) (d d' : DT) (h : ThetaDate g b i d) (h' : ThetaDate g b j d') : d = d' := by
  rcases h with ⟨a1, rfl⟩ | ⟨⟨m, a1, a2⟩, ⟨k, k1, k2, k3, k4⟩, a3, a4⟩ <;> rcases h' with ⟨b1, rfl⟩ | ⟨⟨n, b1, b2⟩, ⟨l, l1, l2, l3, l4⟩, b3, b4⟩
  · rfl
  · exact absurd (a1 n (hm.trans b1)) (not_lt.2 b2)
  · exact absurd (b1 m (hm.symm.trans a1)) (not_lt.2 a2)
  · exact hz k k1 l l1 d d' k4 l4 (le_antisymm (a4 l l1 ⟨l2, l3⟩ d' l4) (b4 k k1 ⟨k2, k3⟩ d k4))

theorem priceScaled_unique {u : String} {k : ℝ} {m m1 m2 : Mkt} (h1 : PriceScaled u k m m1) (h2 : PriceScaled u k m m2) : m1 = m2 := by
  obtain ⟨j, p, a1, a2, rfl⟩ := h1
  obtain ⟨j', p', b1, b2, rfl⟩ := h2
  rw [a1] at b1
  obtain rfl := Option.some.inj b1
  rw [a2] at b2
  obtain rfl := Option.some.inj b2
  rfl

/-- Scaling the price scales the forward and leaves the discount factor. -/
theorem forwardAt_scaled {m m' : Mkt} {u d c b : String} {o : Vanilla} {k F D : ℝ} (h : PriceScaled u k m m') (hf : ForwardAt m u d c b o F D) :
    ForwardAt m' u d c b o (F * k) D := by
  obtain ⟨j, p, a1, a2, rfl⟩ := h
  obtain ⟨env, cv, h1, h2, h3, h4⟩ := hf
  unfold Mkt.carry at h1
  obtain ⟨q, hq, g1⟩ := (bind_ok_iff _ _ _).1 h1
  obtain ⟨x, hx, g2⟩ := (bind_ok_iff _ _ _).1 g1
  obtain ⟨y, hy, g3⟩ := (bind_ok_iff _ _ _).1 g2
  obtain rfl := Except.ok.inj g3
  have hq' : m.price u = some (j, p) := by unfold Mkt.price; rw [a1]; simp [a2]
  rw [hq'] at hq
  obtain rfl := Except.ok.inj hq
  have hj : j < m.w.prices.length := (List.getElem?_eq_some_iff.1 a2).1
  obtain ⟨e, e1, e2, e3, e4, e5, e6⟩ := (C68_forward _ _ _).1 h2
  refine ⟨{ eval := m.w.date, spot := p.value * k, dividend := m.divOf p, coll := x, borrow := y }, cv, ?_, (C68_forward _ _ _).2 ⟨e, e1, e2, e3, e4, ?_, ?_⟩, h3, h4⟩
  · unfold Mkt.carry
    have : ({ m with w := { m.w with prices := m.w.prices.set j { p with value := p.value * k } } } : Mkt).price u = some (j, { p with value := p.value * k }) := by
      unfold Mkt.price
      dsimp only
      rw [a1]
      simp [List.getElem?_set_self hj]
    rw [this]
    simp only [orErr, Res.bind_ok]
    rw [(orErr_eq _ _).1 hx, (orErr_eq _ _).1 hy]
    rfl
  · exact e5
  · refine ⟨e6.1, ?_⟩
    have := e6.2
    dsimp only at this ⊢
    rw [mul_right_comm, this]
    ring

/-! ## Twins in an engine -/

/-- The prices of twins differ by the forward. -/
theorem twin_npv {g : EngCfg} {f : Fixed} {L : Loaded} {an : Bool} {i j : Instr} {u : String} {o : Vanilla} (h : Twins g f L an i j u o) :
    ∃ d c b, g.p.discountName i = .ok d ∧ g.p.collateral u = some c ∧ g.p.borrowing u = some b ∧
      (∀ m x y, g.npv i m = .ok x → g.npv j m = .ok y → Carry m u d c b o (x - y)) ∧
      (∀ m m' : Mkt, m' = { m with vols := m'.vols } → m'.vols u = m.vols u → g.npv i m' = g.npv i m ∧ g.npv j m' = g.npv j m) ∧
      (∀ p m r, g.pricers i.code = some p → p.result i m = .ok r → ∃ x, r = NpvResult.ofNpv x ∧ g.npv i m = .ok x) ∧
      ∀ p m r, g.pricers j.code = some p → p.result j m = .ok r → ∃ x, r = NpvResult.ofNpv x ∧ g.npv j m = .ok x := by
  obtain ⟨uc, s, hi, hj⟩ := h.kinds
  obtain ⟨pl, p1⟩ := h.call
  obtain ⟨pl', p2⟩ := h.put
  have e := p1.made
  rw [twin_plan g.p L an i j u uc s hi hj h.same.1, p2.made] at e
  obtain rfl := Except.ok.inj e
  obtain ⟨d, c, b, q, rfl, h1, h2, h3⟩ := option_plan g.p L an i true s u uc hi _ p1.made
  have res : ∀ (k : Instr) (w : Vanilla), g.pricers k.code = some ((Plan.option u u d c b q).pricer g.md f (.option w)) →
      ∀ p m r, g.pricers k.code = some p → p.result k m = .ok r → ∃ x, r = NpvResult.ofNpv x ∧ g.npv k m = .ok x := by
    intro k w hk p m r hp hr
    rw [hk] at hp
    obtain rfl := Option.some.inj hp
    have hr' : (do
      let x ← (Plan.option u u d c b q).npv g.md f (.option w) m
      Except.ok (NpvResult.ofNpv x) : Res NpvResult) = .ok r := hr
    obtain ⟨x, hx, e⟩ := (bind_ok_iff _ _ _).1 hr'
    refine ⟨x, (Except.ok.inj e).symm, ?_⟩
    unfold EngCfg.npv
    rw [hk]
    exact hx
  refine ⟨d, c, b, h1, h2, h3, ?_, ?_, res i _ p1.held, res j _ p2.held⟩
  rotate_left
  · intro m m' e hv
    have hp : m'.optionPricer f u u d c b q = m.optionPricer f u u d c b q := by
      unfold Mkt.optionPricer
      rw [hv, e]
      rfl
    have key : ∀ w, (Plan.option u u d c b q).npv g.md f (.option w) m' = (Plan.option u u d c b q).npv g.md f (.option w) m := by
      intro w
      unfold Plan.npv
      dsimp only
      rw [hp]
    unfold EngCfg.npv
    rw [p1.held, p2.held]
    exact ⟨key _, key _⟩
  intro m x y hx hy
  unfold EngCfg.npv at hx hy
  rw [p1.held] at hx
  rw [p2.held] at hy
  exact plan_pair g.md f m u u d c b q o x y hx hy

/-- In a market with other volatilities of other underlyings a volatility is shifted alike. -/
theorem volShifted_other {u : String} {win : ℝ → ℝ → Prop} {β : ℝ} {M Mu m : Mkt} (h1 : Mu = { M with vols := Mu.vols }) (h2 : Mu.vols u = M.vols u)
    (h : VolShifted u win β Mu m) : ∃ m0, VolShifted u win β M m0 ∧ m = { m0 with vols := m.vols } ∧ m.vols u = m0.vols u := by
  obtain ⟨s, s', env, a1, a2, a3, a4, a5, a6, rfl⟩ := h
  refine ⟨_, ⟨s, s', env, h2 ▸ a1, ?_, a3, a4, a5, a6, rfl⟩, ?_, ?_⟩
  · rw [h1] at a2
    exact a2
  · rw [h1]
  · simp only [put_self]

theorem setDate_unique {w w1 w2 : World ℝ} {d : DT} (h1 : w.setDate d = .ok w1) (h2 : w.setDate d = .ok w2) : w1 = w2 := by
  rw [h1] at h2
  exact Except.ok.inj h2

theorem forwardDiff_pair {g : EngCfg} {m M : Mkt} {b unit : ℝ} {i j : Instr} {vi vj : NpvResult} {yi yj : Option ℝ} (W : Mkt → ℝ → Prop)
    (hW : ∀ m x y, g.npv i m = .ok x → g.npv j m = .ok y → W m (x - y)) (hn : i.notional = j.notional) (hv : W M (vi.npv - vj.npv))
    (h1 : ForwardDiff g m b unit i (some vi) yi) (h2 : ForwardDiff g m b unit j (some vj) yj) :
    ∃ w w', W M w ∧ W m w' ∧ Differ yi yj ((w' - w) / b * unit * i.notional) := by
  obtain ⟨v, x, a1, a2, a3, rfl⟩ := h1
  obtain ⟨v', y, b1, b2, b3, rfl⟩ := h2
  obtain rfl := Option.some.inj a1
  obtain rfl := Option.some.inj b1
  refine ⟨_, _, hv, hW m x y a2 b2, _, _, rfl, rfl, ?_⟩
  rw [← hn]
  ring

/-- **C156**. A call and a put of an engine with the same terms, both priced by the pricers made for them. After a calculation with npvs their numbers
satisfy put-call parity, each of them: values, deltas, gammas, vegas, rhos, dividend deltas, thetas, also by tenor and moneyness. -/
theorem C156_parity (g : EngCfg) (hg : OwnCodes g) (hz : OneZone g) (names : List String) (hns : names.Nodup) (ds : List DT) (M : Mkt) (hM : SoundMkt g ds M)
    (hn : g.conf.npv = true) (f : Fixed) (L : Loaded) (an : Bool) (i j : Instr) (u : String) (o : Vanilla) (ht : Twins g f L an i j u o) (e' : Eng)
    (h : calculate g names { mkt := M, action := g.insts, results := freshResults g.insts fun _ => none } = .ok e') :
    ∃ d c b y z, g.p.discountName i = .ok d ∧ g.p.collateral u = some c ∧ g.p.borrowing u = some b ∧ e'.results i.code = some y ∧ e'.results j.code = some z ∧
      ParityOf g names M i u (fun m x => Carry m u d c b o x) (ForwardAt M u d c b o) y z := by
  obtain ⟨-, hres⟩ := C97_new_engine g hg names hns ds M e' hM h
  obtain ⟨y, hy, ci⟩ := hres i ht.mem.1
  obtain ⟨z, hz', cj⟩ := hres j ht.mem.2
  obtain ⟨d, c, b, n1, n2, n3, hW, hV, ri, rj⟩ := twin_npv ht
  refine ⟨d, c, b, y, z, n1, n2, n3, hy, hz', ?_⟩
  obtain ⟨uc, s, ki, kj⟩ := ht.kinds
  have ui : i.unds = [u] := by unfold Instr.unds; rw [ki]
  have uj : j.unds = [u] := by unfold Instr.unds; rw [kj]
  have ti : i.typeName = "VanillaCall" := by unfold Instr.typeName; rw [ki]; rfl
  have tj : j.typeName = "VanillaPut" := by unfold Instr.typeName; rw [kj]; rfl
  have mi : i.maturity = j.maturity := by unfold Instr.maturity; rw [ki, kj]; exact congrArg some ht.same.2.2
  have rc : ∀ n, UsesCurve g.p n i → UsesCurve g.p n j := by
    intro n q
    unfold UsesCurve curveRoles at q ⊢
    rw [ki] at q
    rw [kj, ← ht.same.1]
    exact q
  have hnot := ht.same.2.1
  obtain ⟨pi, vi, fli, a1, a2, a3, a4, a5, a6⟩ := ci.npv hn
  obtain ⟨pj, vj, flj, b1, b2, b3, b4, b5, b6⟩ := cj.npv hn
  obtain ⟨xi, rfl, hxi⟩ := ri pi M vi a1 a2
  obtain ⟨xj, rfl, hxj⟩ := rj pj M vj b1 b2
  have w0 := hW M xi xj hxi hxj
  have fli0 : fli = [] := (Except.ok.inj a3).symm
  have flj0 : flj = [] := (Except.ok.inj b3).symm
  subst fli0 flj0
  have hWv : ∀ (m : Mkt) (win : ℝ → ℝ → Prop) (β x : ℝ), VolShifted u win β M m → Carry m u d c b o x → x = xi - xj := by
    rintro m win β x ⟨s1, s2, env, -, -, -, -, -, -, rfl⟩ hc
    exact carry_unique (m := M) hc w0
  refine { value := ?_, delta := ?_, gamma := ?_, vega := ?_, vegaS := ?_, vegaM := ?_, rho := ?_, rhoS := ?_, divDelta := ?_, divS := ?_, theta := ?_ }
  · refine ⟨_, w0, _, _, a5, b5, ?_⟩
    show xi * i.notional - xj * j.notional = _
    rw [← hnot]
    ring
  · intro hd
    obtain ⟨F, D, hFD, e⟩ := w0
    obtain ⟨v, mu, md, up, dn, -, s1, s2, s3, s4, s5, s6, -⟩ := ((ci.delta hd).2 (by rw [ti]; decide)).1 u (by rw [ui]; simp)
    obtain ⟨v', mu', md', up', dn', -, t1, t2, t3, t4, -, t6, -⟩ := ((cj.delta hd).2 (by rw [tj]; decide)).1 u (by rw [uj]; simp)
    obtain rfl := priceScaled_unique s1 t1
    obtain rfl := priceScaled_unique s2 t2
    refine ⟨F, D, hFD, _, _, s6, t6, ?_⟩
    have e1 := carry_unique (hW _ _ _ s3 t3) ⟨_, _, forwardAt_scaled s1 hFD, rfl⟩
    have e2 := carry_unique (hW _ _ _ s4 t4) ⟨_, _, forwardAt_scaled s2 hFD, rfl⟩
    have hup : up = up' + D * (F * (1 + g.conf.deltaRatio) - o.strike) := by linarith
    have hdn : dn = dn' + D * (F * (1 - g.conf.deltaRatio) - o.strike) := by linarith
    rw [← hnot, hup, hdn]
    field_simp
    ring
  · intro hd
    obtain ⟨F, D, hFD, e⟩ := w0
    obtain ⟨v, mu, md, up, dn, q1, s1, s2, s3, s4, s5, -, s6⟩ := ((ci.delta hd).2 (by rw [ti]; decide)).1 u (by rw [ui]; simp)
    obtain ⟨v', mu', md', up', dn', q2, t1, t2, t3, t4, -, -, t6⟩ := ((cj.delta hd).2 (by rw [tj]; decide)).1 u (by rw [uj]; simp)
    rw [a4] at q1
    rw [b4] at q2
    obtain rfl := Option.some.inj q1
    obtain rfl := Option.some.inj q2
    obtain rfl := priceScaled_unique s1 t1
    obtain rfl := priceScaled_unique s2 t2
    have e1 := carry_unique (hW _ _ _ s3 t3) ⟨_, _, forwardAt_scaled s1 hFD, rfl⟩
    have e2 := carry_unique (hW _ _ _ s4 t4) ⟨_, _, forwardAt_scaled s2 hFD, rfl⟩
    have : up - 2 * xi + dn = up' - 2 * xj + dn' := by linarith
    refine ⟨_, s6, t6.trans ?_⟩
    show some ((up' - 2 * xj + dn') / _ * _ * _) = some ((up - 2 * xi + dn) / _ * _ * _)
    rw [this, hnot]
  · intro hv
    obtain ⟨m, s1, v, up, q1, s2, s3, s4⟩ := ((ci.vega hv) u).1 (by rw [ti, ui]; simp)
    obtain ⟨m', t1, v', up', q2, t2, t3, t4⟩ := ((cj.vega hv) u).1 (by rw [tj, uj]; simp)
    obtain rfl := volShifted_unique u _ _ _ _ _ hM.vols s1 t1
    rw [a4] at q1
    rw [b4] at q2
    obtain rfl := Option.some.inj q1
    obtain rfl := Option.some.inj q2
    have := hWv _ _ _ _ s1 (hW _ _ _ s2 t2)
    refine ⟨_, s4, t4.trans ?_⟩
    show some ((up' - xj) / _ * _ * _) = some ((up - xi) / _ * _ * _)
    rw [hnot, show up - xi = up' - xj by linarith]
  · intro hv
    obtain ⟨T, c1, v, zi, q1, c2, c3, c4, c5⟩ := ((ci.vegaS hv) u).1 (by unfold OnVol; rw [ti, ui]; simp)
    obtain ⟨T', d1, v', zj, q2, d2, d3, d4, d5⟩ := ((cj.vegaS hv) u).1 (by unfold OnVol; rw [tj, uj]; simp)
    obtain rfl := doneBy_unique g hz _ _ (fun _ q => q.1) _ _ c1 d1
    rw [a4] at q1
    rw [b4] at q2
    obtain rfl := Option.some.inj q1
    obtain rfl := Option.some.inj q2
    have hk : ∀ k, k ≤ (ds.map (timeFrom M.w.date)).length → zi k - zj k = xi - xj := by
      intro k hk
      by_cases hb : k = (ds.map (timeFrom M.w.date)).length ∨ TenorBeyond (ds.map (timeFrom M.w.date)) T k
      · rw [c4 k hk hb, d4 k hk hb]
        rfl
      · obtain ⟨m, s1, s2⟩ := c3 k (by omega) (fun q => hb (Or.inr q))
        obtain ⟨m', t1, t2⟩ := d3 k (by omega) (fun q => hb (Or.inr q))
        obtain rfl := volShifted_unique u _ _ _ _ _ hM.vols s1 t1
        exact hWv _ _ _ _ s1 (hW _ _ _ s2 t2)
    refine ⟨_, c5, d5.trans (congrArg some (List.map_congr_left fun k hk' => ?_))⟩
    rw [List.mem_range] at hk'
    have h1 := hk k hk'.le
    have h2 := hk (k + 1) hk'
    rw [hnot, show zj k - zj (k + 1) = zi k - zi (k + 1) by linarith]
  · intro hv
    obtain ⟨T, Mi, Li, s1, s2, s3, s4, -, ⟨v, zi, q1, c1, c2, c3, c4, c5, c6, c7⟩, -⟩ := (ci.vegaM hv).1 u (by unfold OnVol; rw [ti, ui]; simp)
    obtain ⟨T', Mj, Lj, t1, t2, t3, t4, -, ⟨v', zj, q2, d1, d2, d3, d4, d5, d6, d7⟩, -⟩ := (cj.vegaM hv).1 u (by unfold OnVol; rw [tj, uj]; simp)
    obtain rfl := doneBy_unique g hz _ _ (fun _ q => q.1) _ _ s2 t2
    rw [a4] at q1
    rw [b4] at q2
    obtain rfl := Option.some.inj q1
    obtain rfl := Option.some.inj q2
    generalize hord : matrixOrder (ds.map (timeFrom M.w.date)) T g.conf.moneyness.length = ord at c3 c6 c7 d3 d6 d7
    have hk : ∀ k, k ≤ ord.length → zi k - zj k = xi - xj := by
      intro k hk
      cases k with
      | zero => rw [c2, d2]; rfl
      | succ k =>
        obtain ⟨m, l1, l2⟩ := c3 k hk
        obtain ⟨m', r1, r2⟩ := d3 k hk
        obtain ⟨m0, l3, l4, l5⟩ := volShifted_other s3 s4 l1
        obtain ⟨m0', r3, r4, r5⟩ := volShifted_other t3 t4 r1
        obtain rfl := volShifted_unique u _ _ _ _ _ hM.vols l3 r3
        rw [(hV _ _ l4 l5).1] at l2
        rw [(hV _ _ r4 r5).2] at r2
        exact hWv _ _ _ _ l3 (hW _ _ _ l2 r2)
    have : Lj = Li := by
      refine cells_ext _ _ _ _ d4 c4 d5 c5 fun a k ha hk' => ?_
      by_cases hm : (a, k) ∈ ord
      · obtain ⟨n, hn', e⟩ := List.getElem_of_mem hm
        have e' : ord[n]? = some (a, k) := by rw [List.getElem?_eq_getElem hn', e]
        rw [c6 n _ e', d6 n _ e']
        have h1 := hk n hn'.le
        have h2 := hk (n + 1) hn'
        rw [hnot, show zj (n + 1) - zj n = zi (n + 1) - zi n by linarith]
      · rw [c7 a k ha hk' hm, d7 a k ha hk' hm]
    exact ⟨Li, s1, t1.trans (congrArg some this)⟩
  · intro hr n hu
    obtain ⟨m, s1, s2⟩ := ((ci.rho hr) n).1 ⟨hu, by rw [ti]; decide⟩
    obtain ⟨m', t1, t2⟩ := ((cj.rho hr) n).1 ⟨rc n hu, by rw [tj]; decide⟩
    obtain rfl := curveShifted_unique n _ _ _ _ _ hM.curves s1 t1
    rw [a4] at s2
    rw [b4] at t2
    obtain ⟨w, w', p1, p2, p3⟩ := forwardDiff_pair (M := M) (fun m x => Carry m u d c b o x) hW hnot w0 s2 t2
    exact ⟨m, w, w', s1, p1, p2, p3⟩
  · intro hr
    obtain ⟨dr, c1, c2⟩ := ci.rhoS hr
    obtain ⟨dr', d1, d2⟩ := cj.rhoS hr
    rw [c1] at d1
    obtain rfl := Except.ok.inj d1
    refine ⟨dr, c1, fun n hu => ?_⟩
    obtain ⟨Li, s1, s2, s3⟩ := (c2 n).1 ⟨hu, by rw [ti]; decide⟩
    obtain ⟨Lj, t1, t2, t3⟩ := (d2 n).1 ⟨rc n hu, by rw [tj]; decide⟩
    refine ⟨Li, Lj, s1, t1, s2, t2, fun k hk => ?_⟩
    by_cases hb : TenorReached (fun j => j ∈ g.insts ∧ UsesCurve g.p n j ∧ j.typeName ≠ "Stock" ∧ j.typeName ≠ "Cash") dr k
    · obtain ⟨m, p1, p2⟩ := (s3 k hk).1 hb
      obtain ⟨m', q1, q2⟩ := (t3 k hk).1 hb
      obtain rfl := curveShifted_unique n _ _ _ _ _ hM.curves p1 q1
      rw [a4] at p2
      rw [b4] at q2
      obtain ⟨w, w', p3, p4, p5⟩ := forwardDiff_pair (M := M) (fun m x => Carry m u d c b o x) hW hnot w0 p2 q2
      exact ⟨_, Or.inr ⟨m, w, w', p1, p3, p4, rfl⟩, p5⟩
    · exact ⟨0, Or.inl ⟨rfl, hb⟩, 0, 0, (s3 k hk).2 hb, (t3 k hk).2 hb, sub_self _⟩
  · intro hr
    obtain ⟨m, s1, s2⟩ := ((ci.divDelta hr) u).1 (by rw [ti, ui]; simp)
    obtain ⟨m', t1, t2⟩ := ((cj.divDelta hr) u).1 (by rw [tj, uj]; simp)
    obtain rfl := divShifted_unique u _ _ _ _ _ s1 t1
    rw [a4] at s2
    rw [b4] at t2
    obtain ⟨w, w', p1, p2, p3⟩ := forwardDiff_pair (M := M) (fun m x => Carry m u d c b o x) hW hnot w0 s2 t2
    exact ⟨m, w, w', s1, p1, p2, p3⟩
  · intro hr hun
    obtain ⟨dr, c1, c2⟩ := ci.divS hr
    obtain ⟨dr', d1, d2⟩ := cj.divS hr
    rw [c1] at d1
    obtain rfl := Except.ok.inj d1
    refine ⟨dr, c1, ?_⟩
    obtain ⟨Li, s1, s2, s3⟩ := (c2 u).1 ⟨hun, by rw [ti, ui]; simp⟩
    obtain ⟨Lj, t1, t2, t3⟩ := (d2 u).1 ⟨hun, by rw [tj, uj]; simp⟩
    refine ⟨Li, Lj, s1, t1, s2, t2, fun k hk => ?_⟩
    by_cases hb : TenorReached (fun j => j ∈ g.insts ∧ u ∈ j.unds ∧ j.typeName ≠ "Stock" ∧ j.typeName ≠ "Cash") dr k
    · obtain ⟨m, p1, p2⟩ := (s3 k hk).1 hb
      obtain ⟨m', q1, q2⟩ := (t3 k hk).1 hb
      obtain rfl := divShifted_unique u _ _ _ _ _ p1 q1
      rw [a4] at p2
      rw [b4] at q2
      obtain ⟨w, w', p3, p4, p5⟩ := forwardDiff_pair (M := M) (fun m x => Carry m u d c b o x) hW hnot w0 p2 q2
      exact ⟨_, Or.inr ⟨m, w, w', p1, p3, p4, rfl⟩, p5⟩
    · exact ⟨0, Or.inl ⟨rfl, hb⟩, 0, 0, (s3 k hk).2 hb, (t3 k hk).2 hb, sub_self _⟩
  · intro hr
    obtain ⟨t, p1, -, p2⟩ := ci.theta hr
    obtain ⟨t', q1, -, q2⟩ := cj.theta hr
    rw [p1] at q1
    obtain rfl := Except.ok.inj q1
    obtain ⟨e, p3, p4⟩ := p2 (by rw [ti]; decide)
    obtain ⟨e'', q3, q4⟩ := q2 (by rw [tj]; decide)
    obtain rfl := thetaDate_unique g hz t i j mi e e'' p3 q3
    obtain ⟨v, v1, w, fl, r1, r2, r3, r4, r5, r6⟩ := p4
    obtain ⟨v', v1', w', fl', l1, l2, l3, l4, l5, l6⟩ := q4
    obtain rfl := setDate_unique r1 l1
    rw [a6] at r4
    rw [b6] at l4
    obtain rfl := Option.some.inj r4
    obtain rfl := Option.some.inj l4
    refine ⟨t, e, v, _, _, p1, p3, r1, hW _ _ _ r2 l2, hW _ _ _ r3 l3, _, _, r6, l6, ?_⟩
    have e1 : y.notional = i.notional := ci.same.1
    have e2 : z.notional = i.notional := cj.same.1.trans hnot.symm
    rw [e1, e2]
    simp only [cashDue, List.filter_nil, List.map_nil, List.sum_nil, add_zero]
    ring

end Verif.Props

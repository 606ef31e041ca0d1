import Verif.Props.EngineTwins
/-!
# C157: the deltas that are not calculated by bumping
-/
set_option autoImplicit false
namespace Verif.Props
open Verif Verif.QL Verif.Civil

/-- The price of `u`, scaled, can be read. -/
theorem scaled_price {m m' : Mkt} {u : String} {k : ℝ} (h : PriceScaled u k m m') (q : Nat × Price ℝ) (hq : m.price u = some q) :
    m'.price u = some (q.1, { q.2 with value := q.2.value * k }) := by
  obtain ⟨j, p, a1, a2, rfl⟩ := h
  have hj : j < m.w.prices.length := (List.getElem?_eq_some_iff.1 a2).1
  have hq' : m.price u = some (j, p) := by unfold Mkt.price; rw [a1]; simp [a2]
  rw [hq'] at hq
  obtain rfl := Option.some.inj hq
  unfold Mkt.price
  dsimp only
  rw [a1]
  simp [List.getElem?_set_self hj]

/-- A price that can be read can be scaled. -/
theorem scaled_exists (m : Mkt) (u : String) (k : ℝ) (q : Nat × Price ℝ) (hq : m.price u = some q) : ∃ m', PriceScaled u k m m' := by
  unfold Mkt.price at hq
  cases he : m.equity u with
  | none => rw [he] at hq; cases hq
  | some j =>
    rw [he] at hq
    obtain ⟨p, hp, -⟩ := Option.map_eq_some_iff.1 hq
    exact ⟨_, j, p, he, hp, rfl⟩

/-- Scaling the price scales the forward. -/
theorem forward_scaled {m m' : Mkt} {u c b : String} {d : DT} {k F : ℝ} {env : FuturesPricer} (h : PriceScaled u k m m') (h1 : m.carry u c b = .ok env)
    (h2 : env.forward d = .ok F) : ∃ env', m'.carry u c b = .ok env' ∧ env'.forward d = .ok (F * k) := by
  unfold Mkt.carry at h1
  obtain ⟨q, hq, g1⟩ := (bind_ok_iff _ _ _).1 h1
  obtain ⟨x, hx, g2⟩ := (bind_ok_iff _ _ _).1 g1
  obtain ⟨y, hy, g3⟩ := (bind_ok_iff _ _ _).1 g2
  obtain rfl := Except.ok.inj g3
  have hp := scaled_price h q ((orErr_eq _ _).1 hq)
  obtain ⟨j, p, a1, a2, rfl⟩ := h
  obtain ⟨e, e1, e2, e3, e4, e5, e6⟩ := (C68_forward _ _ _).1 h2
  refine ⟨{ eval := m.w.date, spot := q.2.value * k, dividend := m.divOf q.2, coll := x, borrow := y }, ?_, (C68_forward _ _ _).2 ⟨e, e1, e2, e3, e4, e5, e6.1, ?_⟩⟩
  · unfold Mkt.carry
    rw [hp]
    simp only [orErr, Res.bind_ok]
    rw [(orErr_eq _ _).1 hx, (orErr_eq _ _).1 hy]
    rfl
  · have := e6.2
    dsimp only at this ⊢
    rw [mul_right_comm, this]
    ring

/-- The pricer of a future is made of these names. -/
theorem futures_plan (p : MatchParam) (L : Loaded) (an : Bool) (i : Instr) (u : String) (uc : Currency) (hk : i.kind = .futures u uc) (pl : Plan)
    (h : createPricer p L an i = .ok pl) : ∃ c b, pl = .futures u c b ∧ p.collateral u = some c ∧ p.borrowing u = some b := by
  unfold createPricer at h
  rw [hk] at h
  dsimp only at h
  have need_ok : ∀ {κ : Type} (f : κ → Bool) (k k' : κ), need f k = .ok k' → k' = k := by
    intro κ f k k' h
    unfold need at h
    split at h
    · exact (Except.ok.inj h).symm
    · cases h
  by_cases he : L.equities u = false
  · rw [if_pos he] at h; cases h
  rw [if_neg he] at h
  obtain ⟨cs, hcs, h1⟩ := (bind_ok_iff _ _ _).1 h
  obtain ⟨c, hc, h2⟩ := (bind_ok_iff _ _ _).1 h1
  obtain ⟨bs, hbs, h3⟩ := (bind_ok_iff _ _ _).1 h2
  obtain ⟨b, hb, h4⟩ := (bind_ok_iff _ _ _).1 h3
  obtain ⟨c', hc', h5⟩ := (bind_ok_iff _ _ _).1 h4
  obtain ⟨b', hb', h6⟩ := (bind_ok_iff _ _ _).1 h5
  obtain rfl := Except.ok.inj h6
  obtain rfl := need_ok _ _ _ hc'
  obtain rfl := need_ok _ _ _ hb'
  refine ⟨_, _, rfl, ?_, ?_⟩
  · unfold MatchParam.collateralNames at hcs
    rw [show i.unds = [u] by unfold Instr.unds; rw [hk]] at hcs
    simp only [mapRes] at hcs
    obtain ⟨z, hz, hcs⟩ := (bind_ok_iff _ _ _).1 hcs
    obtain rfl := Except.ok.inj hcs
    obtain rfl := Except.ok.inj hc
    exact (orErr_eq _ _).1 hz
  · unfold MatchParam.borrowingNames at hbs
    rw [show i.unds = [u] by unfold Instr.unds; rw [hk], show i.borrowTags = [] by unfold Instr.borrowTags; rw [hk]] at hbs
    simp only [List.append_nil, mapRes] at hbs
    obtain ⟨z, hz, hbs⟩ := (bind_ok_iff _ _ _).1 hbs
    obtain rfl := Except.ok.inj hbs
    obtain rfl := Except.ok.inj hb
    exact (orErr_eq _ _).1 hz

theorem stock_plan (p : MatchParam) (L : Loaded) (an : Bool) (i : Instr) (u : String) (hk : i.kind = .stock u) (pl : Plan)
    (h : createPricer p L an i = .ok pl) : pl = .stock i.code := by
  unfold createPricer at h
  rw [hk] at h
  dsimp only at h
  obtain ⟨e, he, h1⟩ := (bind_ok_iff _ _ _).1 h
  obtain rfl := Except.ok.inj h1
  unfold need at he
  split at he
  · rw [← Except.ok.inj he]
  · cases he

/-- What is proportional to the price has the central difference of 1 % of its value, and no second difference. -/
theorem linear_diff (g : EngCfg) (M : Mkt) (u : String) (i : Instr) (v : NpvResult) (hr : g.conf.deltaRatio ≠ 0) (q : Nat × Price ℝ) (hq : M.price u = some q)
    (hl : ∀ k m, PriceScaled u k M m → g.npv i m = .ok (v.npv * k)) :
    CentralDiff g M u i (some v) (some (v.npv * 0.01 * i.notional), some 0) := by
  obtain ⟨mu, hu⟩ := scaled_exists M u (1 + g.conf.deltaRatio) q hq
  obtain ⟨md, hd⟩ := scaled_exists M u (1 - g.conf.deltaRatio) q hq
  refine ⟨v, mu, md, _, _, rfl, hu, hd, hl _ _ hu, hl _ _ hd, hr, ?_, ?_⟩
  · dsimp only
    rw [show (v.npv * (1 + g.conf.deltaRatio) - v.npv * (1 - g.conf.deltaRatio)) / (2 * g.conf.deltaRatio) = v.npv by field_simp; ring]
  · dsimp only
    rw [show v.npv * (1 + g.conf.deltaRatio) - 2 * v.npv + v.npv * (1 - g.conf.deltaRatio) = 0 by ring, zero_div, zero_mul, zero_mul]

/-- **C157** (deltas without bumping). The deltas of a future and of a stock are written without repricing: 1 % of the value, and gamma 0, under the code of the
instrument itself. With the pricers `create_pricer` makes, that is exactly what repricing them with the price up and down would give: to the underlying, for a
future; for a stock, to the price quoted under its own code. -/
theorem C157_shortcut (g : EngCfg) (hg : OwnCodes g) (names : List String) (hns : names.Nodup) (ds : List DT) (M : Mkt) (hM : SoundMkt g ds M)
    (hn : g.conf.npv = true) (hd : g.conf.delta = true) (hr : g.conf.deltaRatio ≠ 0) (f : Fixed) (L : Loaded) (an : Bool) (i : Instr) (hi : i ∈ g.insts) (pl : Plan) (t : Terms)
    (hp : PricedAs g f L an i pl t) (e' : Eng)
    (h : calculate g names { mkt := M, action := g.insts, results := freshResults g.insts fun _ => none } = .ok e') :
    ∃ y, e'.results i.code = some y ∧ (∀ u uc, i.kind = .futures u uc → CentralDiff g M u i y.npv (y.delta i.code, y.gamma i.code)) ∧
      ∀ u, i.kind = .stock u → CentralDiff g M i.code i y.npv (y.delta i.code, y.gamma i.code) := by
  obtain ⟨-, hres⟩ := C97_new_engine g hg names hns ds M e' hM h
  obtain ⟨y, hy, ci⟩ := hres i hi
  obtain ⟨p, v, fl, c1, c2, -, c4, -⟩ := ci.npv hn
  rw [hp.held] at c1
  obtain rfl := Option.some.inj c1
  have c2' : pl.result g.md f t M = .ok v := c2
  refine ⟨y, hy, fun u uc hk => ?_, fun u hk => ?_⟩
  · obtain ⟨v', d1, d2, d3⟩ := (ci.delta hd).1 (Or.inr (by unfold Instr.typeName; rw [hk]))
    rw [c4] at d1
    obtain rfl := Option.some.inj d1
    rw [c4, d2, d3, put_self, put_self]
    obtain ⟨c, b, rfl, -⟩ := futures_plan g.p L an i u uc hk pl hp.made
    have ht : ∃ mat a, t = .futures mat a := by
      cases t with
      | futures mat a => exact ⟨mat, a, rfl⟩
      | _ => cases c2'
    obtain ⟨mat, a, rfl⟩ := ht
    have c3 : (do let x ← (Plan.futures u c b).npv g.md f (.futures mat a) M; Except.ok (NpvResult.ofNpv x) : Res NpvResult) = .ok v := c2'
    obtain ⟨x, hx, e⟩ := (bind_ok_iff _ _ _).1 c3
    obtain rfl := Except.ok.inj e
    have hx' : (do let z ← M.carry u c b; z.forward mat) = .ok x := hx
    obtain ⟨env, h1, h2⟩ := (bind_ok_iff _ _ _).1 hx'
    have h1' := h1
    unfold Mkt.carry at h1'
    obtain ⟨q, hq, -⟩ := (bind_ok_iff _ _ _).1 h1'
    refine linear_diff g M u i _ hr q ((orErr_eq _ _).1 hq) fun k m hm => ?_
    obtain ⟨env', e1, e2⟩ := forward_scaled hm h1 h2
    unfold EngCfg.npv
    rw [hp.held]
    show (do let z ← m.carry u c b; z.forward mat) = _
    rw [e1, Res.bind_ok, e2]
    rfl
  · obtain ⟨v', d1, d2, d3⟩ := (ci.delta hd).1 (Or.inl (by unfold Instr.typeName; rw [hk]))
    rw [c4] at d1
    obtain rfl := Option.some.inj d1
    rw [c4, d2, d3, put_self, put_self]
    obtain rfl := stock_plan g.p L an i u hk pl hp.made
    have c3 : (do let x ← (Plan.stock i.code).npv g.md f t M; Except.ok (NpvResult.ofNpv x) : Res NpvResult) = .ok v := by
      cases t <;> exact c2'
    obtain ⟨x, hx, e⟩ := (bind_ok_iff _ _ _).1 c3
    obtain rfl := Except.ok.inj e
    have hnp : ∀ m, (Plan.stock i.code).npv g.md f t m = (do let p ← orErr (m.price i.code); .ok p.2.value) := by
      intro m
      cases t <;> rfl
    rw [hnp] at hx
    obtain ⟨q, hq, e⟩ := (bind_ok_iff _ _ _).1 hx
    obtain rfl := Except.ok.inj e
    refine linear_diff g M i.code i _ hr q ((orErr_eq _ _).1 hq) fun k m hm => ?_
    unfold EngCfg.npv
    rw [hp.held]
    show (Plan.stock i.code).npv g.md f t m = _
    rw [hnp, scaled_price hm q ((orErr_eq _ _).1 hq)]
    rfl

/-- Both cases are met in the engine of `twin_witness`. -/
theorem linear_witness : (∃ pl t, PricedAs twinEngine twinFixed twinLoaded true ⟨"F", .futures "A" .krw, .krw, 5, day0 2021 12 1, 0⟩ pl t) ∧
    (∃ pl t, PricedAs twinEngine twinFixed twinLoaded true ⟨"A", .stock "A", .krw, 3, day0 2021 1 1, 0⟩ pl t) ∧
    twinEngine.conf.delta = true ∧ twinEngine.conf.npv = true ∧ twinEngine.conf.deltaRatio ≠ 0 := by
  refine ⟨⟨.futures "A" "C" "C", .futures (day0 2021 12 1) 0, rfl, rfl⟩, ⟨.stock "A", .stock, rfl, rfl⟩, rfl, rfl, ?_⟩
  show (0.01 : ℝ) ≠ 0
  norm_num

end Verif.Props

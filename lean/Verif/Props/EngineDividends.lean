import Verif.Props.EngineForwards
import Verif.Props.EngineSigns
/-!
# C178: dividend deltas of futures and options
-/
set_option autoImplicit false
namespace Verif.Props
open Verif Verif.QL Verif.Civil

/-! ## Specification -/

/-- What is left of a price after the dividends up to the day of `mat`, if the amount of the dividend on `d` is `up d` more: the product of 1 minus amount over spot. -/
noncomputable def DivKept (v : Dividend ℝ) (up : DT → ℝ) (mat : DT) : ℝ :=
  (((v.dates.zip v.amounts).filter fun p => decide (p.1.day ≤ mat.day)).map fun p => 1 - (p.2 + up p.1) / v.spot).prod

/-- No change, and `b` more at the dates in `win`. -/
def noUp : DT → ℝ := fun _ => 0
open Classical in
noncomputable def upIn (win : DT → Prop) (b : ℝ) : DT → ℝ := fun d => if win d then b else 0

/-- The price of `u` is in the market, and its dividend is the one the engine keeps for `u`: `v`. -/
def PaysDividend (M : Mkt) (u : String) (v : Dividend ℝ) : Prop :=
  ∃ q k f, M.price u = some q ∧ q.2.div = some k ∧ M.dividend u = some k ∧ M.w.divs[k]? = some (v, f)

/-- The dividend delta to `u`, if asked for, is a number with `P` for all dividends bumped; the dividend deltas by tenor are one number per tenor, with `P` for the dividends of the
tenor bumped, 0 for the tenors at which nothing on `u` is left. There are none to other underlyings. -/
def DivDeltasAre (g : EngCfg) (names : List String) (M : Mkt) (y : EResult) (u : String) (P : (DT → Prop) → ℝ → Prop) : Prop :=
  (g.conf.divDelta = true → ∃ z, y.divDelta u = some z ∧ P (fun _ => True) z) ∧
  (g.conf.divS = true → u ∈ names → ∃ dd l, calcDates g.md M.w.date g.conf.divTenors = .ok dd ∧ y.divS u = some l ∧ l.length = dd.length ∧ ∀ (j : Nat) z, l[j]? = some z →
    (TenorReached (fun j => j ∈ g.insts ∧ u ∈ j.unds ∧ j.typeName ≠ "Stock" ∧ j.typeName ≠ "Cash") dd j → P (DayInTenor dd j) z) ∧
    (¬ TenorReached (fun j => j ∈ g.insts ∧ u ∈ j.unds ∧ j.typeName ≠ "Stock" ∧ j.typeName ≠ "Cash") dd j → z = 0)) ∧
  (∀ w, w ≠ u → y.divDelta w = none ∧ y.divS w = none) ∧ (u ∉ names → y.divS u = none)

/-! ## Ratios -/

theorem ratio_good (e : DT) (v : Dividend ℝ) (hv : GoodDiv e v) (d : DT) : v.ratio d = .ok (DivKept v noUp d) := by
  have hb := (built_all e v hv.ahead).1 hv.built
  have hly : v.dates.length = v.yields.length := by rw [hv.yields, List.length_map]; exact hv.len
  obtain ⟨it, h1, h2⟩ := kept_spec (v.dates.zip v.yields) e (by rw [zip_fst _ _ hly]; exact hv.ordered.1)
  have hall : ∀ p ∈ v.dates.zip v.yields, e.instant ≤ p.1.instant := fun p hp => hv.ahead p.1 (List.of_mem_zip hp).1
  have hf : (v.dates.zip v.yields).filter (fun p => decide (e.instant ≤ p.1.instant)) = v.dates.zip v.yields :=
    List.filter_eq_self.2 fun p hp => decide_eq_true (hall p hp)
  rw [hf] at h1
  have e1 : (v.dates.zip v.yields).map (fun p => yyyymmdd p.1) = v.dates.map yyyymmdd := by
    rw [show (fun p : DT × ℝ => yyyymmdd p.1) = yyyymmdd ∘ Prod.fst from rfl, ← List.map_map, zip_fst _ _ hly]
  have e2 : (v.dates.zip v.yields).map (fun p => p.2) = v.yields := zip_snd _ _ hly
  rw [e1, e2, hb] at h1
  obtain rfl := Except.ok.inj h1
  unfold Dividend.ratio
  rw [h2 d]
  congr 1
  unfold keep DivKept
  have hf2 : (v.dates.zip v.yields).filter (fun p => due e d p.1) = (v.dates.zip v.yields).filter fun p => decide (p.1.day ≤ d.day) := by
    refine List.filter_congr fun p hp => ?_
    unfold due
    simp [hall p hp]
  rw [hf2, hv.yields, List.zip_map_right, List.filter_map, List.map_map]
  congr 1
  refine List.map_congr_left fun p hp => ?_
  simp [noUp]

theorem kept_congr (v : Dividend ℝ) (up up' : DT → ℝ) (mat : DT) (h : ∀ d ∈ v.dates, d.day ≤ mat.day → up d = up' d) : DivKept v up mat = DivKept v up' mat := by
  unfold DivKept
  congr 1
  refine List.map_congr_left fun p hp => ?_
  obtain ⟨h1, h2⟩ := List.mem_filter.1 hp
  rw [h p.1 (List.of_mem_zip h1).1 (of_decide_eq_true h2)]

/-- Higher dividends leave less, as long as no dividend is more than the price. -/
theorem kept_le (v : Dividend ℝ) (up up' : DT → ℝ) (mat : DT) (hs : 0 < v.spot) (h : ∀ d, up d ≤ up' d) (hle : ∀ p ∈ v.dates.zip v.amounts, p.2 + up' p.1 ≤ v.spot) :
    0 ≤ DivKept v up' mat ∧ DivKept v up' mat ≤ DivKept v up mat := by
  unfold DivKept
  have hle' : ∀ p ∈ (v.dates.zip v.amounts).filter (fun p => decide (p.1.day ≤ mat.day)), p.2 + up' p.1 ≤ v.spot := fun p hp => hle p (List.mem_filter.1 hp).1
  generalize (v.dates.zip v.amounts).filter (fun p => decide (p.1.day ≤ mat.day)) = l at hle'
  induction l with
  | nil => simp
  | cons p l ih =>
    obtain ⟨i1, i2⟩ := ih fun q hq => hle' q (List.mem_cons_of_mem _ hq)
    have h0 := hle' p (by simp)
    have h1 : 0 ≤ 1 - (p.2 + up' p.1) / v.spot := by rw [sub_nonneg, div_le_one hs]; exact h0
    have h2 : 1 - (p.2 + up' p.1) / v.spot ≤ 1 - (p.2 + up p.1) / v.spot := by
      have := div_le_div_of_nonneg_right (add_le_add_right (h p.1) p.2) hs.le
      first | linarith | (have := div_le_div_of_nonneg_right (add_le_add (le_refl p.2) (h p.1)) hs.le; linarith)
    simp only [List.map_cons, List.prod_cons]
    exact ⟨mul_nonneg h1 i1, mul_le_mul h2 i2 i1 (h1.trans h2)⟩

/-- A market with the dividend of `u` bumped: its dividend leaves what is said. -/
theorem shifted_dividend (M m : Mkt) (hM : GoodDivs M) (u : String) (v : Dividend ℝ) (hv : PaysDividend M u v) (win : DT → Prop) (b : ℝ) (hm : DivShifted u win b M m) :
    m.curves = M.curves ∧ m.vols = M.vols ∧ m.w.date = M.w.date ∧ m.price = M.price ∧
    ∃ q, M.price u = some q ∧ ∀ d, deductionRatio (M.divOf q.2) d = .ok (DivKept v noUp d) ∧ deductionRatio (m.divOf q.2) d = .ok (DivKept v (upIn win b) d) := by
  obtain ⟨q, k, f, h1, h2, h3, h4⟩ := hv
  obtain ⟨k0, v0, v', f0, m1, m2, m3, m4, m5, m6, m7, rfl⟩ := hm
  rw [h3] at m1
  obtain rfl := Option.some.inj m1
  rw [h4] at m2
  obtain ⟨rfl, rfl⟩ := Prod.mk.inj (Option.some.inj m2)
  obtain ⟨v1, f1, g1, g2⟩ := hM u k h3
  rw [h4] at g1
  obtain ⟨rfl, rfl⟩ := Prod.mk.inj (Option.some.inj g1)
  refine ⟨rfl, rfl, rfl, rfl, q, h1, fun d => ⟨?_, ?_⟩⟩
  · unfold Mkt.divOf
    rw [h2]
    dsimp only
    rw [h4]
    exact ratio_good _ v g2 d
  · have hk : k < M.w.divs.length := (List.getElem?_eq_some_iff.1 h4).1
    unfold Mkt.divOf
    rw [h2]
    dsimp only
    rw [List.getElem?_set_self hk]
    show v'.ratio d = _
    have gd : GoodDiv M.w.date v' := by
      refine ⟨?_, ?_, ?_, ?_, ?_, ?_, m7⟩
      · rw [m3, m5, List.length_zipWith, ← g2.len, Nat.min_self]
      · rw [m4]; exact g2.spot
      · rw [m4]; exact m6
      · rw [m3]; exact g2.ordered
      · rw [m3]; exact g2.ahead
      · rw [m3]; exact g2.years
    rw [ratio_good _ v' gd d]
    congr 1
    unfold DivKept
    rw [m3, m4, m5]
    generalize hD : v.dates = D
    generalize hA : v.amounts = A
    have hlen : D.length = A.length := by rw [← hD, ← hA]; exact g2.len
    clear m3 m4 m5 m6 m7 gd hD hA
    induction D generalizing A with
    | nil => simp
    | cons x D ih =>
      cases A with
      | nil => simp at hlen
      | cons a A =>
        have := ih A (by simpa using hlen)
        simp only [List.zipWith_cons_cons, List.zip_cons_cons, List.filter_cons]
        by_cases hx : x.day ≤ d.day
        · simp only [hx, decide_true, if_true, List.map_cons, List.prod_cons, this]
          congr 2
          unfold noUp upIn
          split <;> simp
        · simp only [hx, decide_false, Bool.false_eq_true, if_false, this]

/-- The dividend deltas have what every difference quotient has. -/
theorem div_parts (g : EngCfg) (names : List String) (ds : List DT) (M M' : Mkt) (i : Instr) (y : EResult) (ci : Calculated g names ds M M' i (EResult.fresh i) y)
    (ht : i.typeName ≠ "Stock" ∧ i.typeName ≠ "Cash") (u : String) (hu : i.unds = [u]) (P : (DT → Prop) → ℝ → Prop)
    (hP : ∀ win m z, DivShifted u win g.conf.divBump M m → ForwardDiff g m g.conf.divBump 0.0001 i y.npv (some z) → P win z) : DivDeltasAre g names M y u P := by
  refine ⟨fun hr => ?_, fun hr hn => ?_, fun w hw => ⟨?_, ?_⟩, fun hn => ?_⟩
  · obtain ⟨m, s1, s2⟩ := ((ci.divDelta hr) u).1 ⟨by rw [hu]; simp, ht⟩
    have s3 := s2
    obtain ⟨v', up, -, -, -, s4⟩ := s3
    rw [s4] at s2
    exact ⟨_, s4, hP _ m _ s1 s2⟩
  · obtain ⟨dr, d1, d2⟩ := ci.divS hr
    obtain ⟨l, s1, s2, s3⟩ := (d2 u).1 ⟨hn, by rw [hu]; simp, ht⟩
    refine ⟨dr, l, d1, s1, s2, fun j z hz => ?_⟩
    have hj : j < l.length := (List.getElem?_eq_some_iff.1 hz).1
    obtain ⟨a1, a2⟩ := s3 j (by omega)
    refine ⟨fun hR => ?_, fun hR => ?_⟩
    · obtain ⟨m, m1, m2⟩ := a1 hR
      rw [hz] at m2
      exact hP _ m _ m1 m2
    · have := a2 hR
      rw [hz] at this
      exact Option.some.inj this
  · cases hr : g.conf.divDelta with
    | true => exact ((ci.divDelta hr) w).2 fun hh => hw (by have := hh.1; rw [hu] at this; simpa using this)
    | false => rw [ci.divDeltaOff hr]; rfl
  · cases hr : g.conf.divS with
    | true => obtain ⟨dr, -, d2⟩ := ci.divS hr; exact (d2 w).2 fun hh => hw (by have := hh.2.1; rw [hu] at this; simpa using this)
    | false => rw [ci.divSOff hr]; rfl
  · cases hr : g.conf.divS with
    | true => obtain ⟨dr, -, d2⟩ := ci.divS hr; exact (d2 u).2 fun hh => hn hh.1
    | false => rw [ci.divSOff hr]; rfl

/-! ## The theorems -/

/-- **C178** (futures). The value of a future is the price, times the discount factor of the borrowing cost, over that of the collateral curve, times what the dividends up to the
day of the maturity leave; its dividend deltas are the difference quotients of this, with the dividends of the tenor raised. -/
theorem C178_futures (g : EngCfg) (hg : OwnCodes g) (names : List String) (hns : names.Nodup) (ds : List DT) (M : Mkt) (hM : SoundMkt g ds M) (hn : g.conf.npv = true)
    (f : Fixed) (L : Loaded) (an : Bool) (i : Instr) (hi : i ∈ g.insts) (u : String) (uc : Currency) (hk : i.kind = .futures u uc) (pl : Plan) (mat : DT) (avg : ℝ)
    (hp : PricedAs g f L an i pl (.futures mat avg)) (w : Dividend ℝ) (hw : PaysDividend M u w) (e' : Eng)
    (h : calculate g names { mkt := M, action := g.insts, results := freshResults g.insts fun _ => none } = .ok e') :
    ∃ y c b v q D B, e'.results i.code = some y ∧ g.p.collateral u = some c ∧ g.p.borrowing u = some b ∧ y.npv = some v ∧ M.price u = some q ∧ DiscountOf M c mat D ∧ 0 < D ∧
      DiscountOf M b mat B ∧ 0 < B ∧ v.npv = q.2.value * B / D * DivKept w noUp mat ∧
      DivDeltasAre g names M y u fun win z => g.conf.divBump ≠ 0 ∧
        z = (q.2.value * B / D * DivKept w (upIn win g.conf.divBump) mat - v.npv) / g.conf.divBump * 0.0001 * i.notional := by
  obtain ⟨-, hres⟩ := C97_new_engine g hg names hns ds M e' hM h
  obtain ⟨y, hy, ci⟩ := hres i hi
  obtain ⟨p, v, fl, c1, c2, -, c4, -⟩ := ci.npv hn
  rw [hp.held] at c1
  obtain rfl := Option.some.inj c1
  have c2' : pl.result g.md f (.futures mat avg) M = .ok v := c2
  obtain ⟨c, b, rfl, hc, hb⟩ := futures_plan g.p L an i u uc hk pl hp.made
  have c3 : (do let x ← (Plan.futures u c b).npv g.md f (.futures mat avg) M; Except.ok (NpvResult.ofNpv x) : Res NpvResult) = .ok v := c2'
  obtain ⟨x, hx, e⟩ := (bind_ok_iff _ _ _).1 c3
  obtain rfl := Except.ok.inj e
  obtain ⟨q, D, B, r, hq, hD, hB, hr, hF⟩ := carry_at M (fun n c h => (hM.curves n c h).1) u c b mat x hx
  have hpos : ∀ n D, DiscountOf M n mat D → 0 < D := fun n D hD => by obtain ⟨C, h1, h2⟩ := hD; exact df_positive C (hM.curves _ _ h1).1 _ _ h2
  have tn : i.typeName ≠ "Stock" ∧ i.typeName ≠ "Cash" := by unfold Instr.typeName; rw [hk]; simp
  have hr0 : r = DivKept w noUp mat := by
    obtain ⟨q', k, f', h1, h2, h3, h4⟩ := hw
    rw [hq] at h1
    obtain rfl := Option.some.inj h1
    obtain ⟨v1, f1, g1, g2⟩ := hM.divs u k h3
    rw [h4] at g1
    obtain ⟨rfl, rfl⟩ := Prod.mk.inj (Option.some.inj g1)
    unfold Mkt.divOf at hr
    rw [h2] at hr
    dsimp only at hr
    rw [h4] at hr
    have hr' : w.ratio mat = .ok r := hr
    rw [ratio_good _ w g2 mat] at hr'
    exact (Except.ok.inj hr').symm
  have hDp := hpos _ _ hD
  refine ⟨y, c, b, _, q, D, B, hy, hc, hb, c4, hq, hD, hDp, hB, hpos _ _ hB, ?_, ?_⟩
  · show x = _
    rw [← hr0]
    field_simp
    exact hF
  · refine div_parts g names ds M _ i y ci tn u (by unfold Instr.unds; rw [hk]) _ fun win m z hm hz => ?_
    obtain ⟨v', up, q1, q2, q3, q4⟩ := hz
    rw [c4] at q1
    obtain rfl := Option.some.inj q1
    have hup : (do let z ← m.carry u c b; z.forward mat) = .ok up := by
      unfold EngCfg.npv at q2
      rw [hp.held] at q2
      exact q2
    obtain ⟨f1, f2, f3, f4, q0, hq0, f5⟩ := shifted_dividend M m hM.divs u w hw win _ hm
    obtain ⟨q', D', B', r', hq', hD', hB', hr', hF'⟩ := carry_at m (by rw [f1]; exact fun n c h => (hM.curves n c h).1) u c b mat up hup
    rw [f4] at hq'
    rw [hq] at hq' hq0
    obtain rfl := Option.some.inj hq'
    obtain rfl := Option.some.inj hq0
    have hsame : ∀ n X, DiscountOf m n mat X → DiscountOf M n mat X := by
      rintro n X ⟨C, h1, h2⟩
      rw [f1] at h1
      rw [f3] at h2
      exact ⟨C, h1, h2⟩
    obtain rfl := discountOf_unique hD (hsame _ _ hD')
    obtain rfl := discountOf_unique hB (hsame _ _ hB')
    rw [(f5 mat).2] at hr'
    obtain rfl := Except.ok.inj hr'
    refine ⟨q3, ?_⟩
    rw [Option.some.inj q4]
    congr 4
    rw [div_mul_eq_mul_div, ← hF', mul_div_cancel_right₀ _ hDp.ne']

/-- **C178** (signs of futures). The difference quotients of `C178_futures` are not positive, if the price, the notional and the bump are not negative and no dividend, raised, is
more than the spot it is divided by; and 0 if no dividend in the window is due by the day of the maturity. -/
theorem C178_futures_sign (w : Dividend ℝ) (win : DT → Prop) (mat : DT) (β a N z : ℝ) (hz : β ≠ 0 ∧ z = (a * DivKept w (upIn win β) mat - a * DivKept w noUp mat) / β * 0.0001 * N) :
    (0 < w.spot → 0 < β → 0 ≤ a → 0 ≤ N → (∀ p ∈ w.dates.zip w.amounts, p.2 + β ≤ w.spot) → z ≤ 0) ∧ ((∀ d ∈ w.dates, win d → mat.day < d.day) → z = 0) := by
  obtain ⟨-, rfl⟩ := hz
  refine ⟨fun hs hb ha hN hle => ?_, fun hw => ?_⟩
  · have := (kept_le w noUp (upIn win β) mat hs (fun d => by unfold noUp upIn; split <;> linarith) (fun p hp => by
      have := hle p hp
      unfold upIn
      split <;> linarith)).2
    have h1 : a * DivKept w (upIn win β) mat - a * DivKept w noUp mat ≤ 0 := sub_nonpos.2 (mul_le_mul_of_nonneg_left this ha)
    exact mul_nonpos_of_nonpos_of_nonneg (mul_nonpos_of_nonpos_of_nonneg (div_nonpos_of_nonpos_of_nonneg h1 hb.le) (by norm_num)) hN
  · rw [kept_congr w (upIn win β) noUp mat fun d hd hle => by
      unfold upIn noUp
      rw [if_neg fun h => absurd (hw d hd h) (by omega)]]
    simp

/-- The value of an option depends on the dividends only by its forward. -/
theorem option_same_forward (p p' : OptionPricer) (o : Vanilla) (h1 : p'.env.forward o.maturity = p.env.forward o.maturity) (h2 : p'.env.eval = p.env.eval) (h3 : p'.disc = p.disc)
    (h4 : p'.vol = p.vol) (h5 : p'.quanto = p.quanto) : p'.npv o = p.npv o := by
  unfold OptionPricer.npv
  rw [h1, h2, h3, h4, h5]

/-- **C178** (options). Dividends after the expiry do not matter: whatever the volatilities, and also for options in another currency than that of the underlying, every dividend
delta is 0 for which no dividend of the window is due by the day of the maturity. -/
theorem C178_options_after (g : EngCfg) (hg : OwnCodes g) (names : List String) (hns : names.Nodup) (ds : List DT) (M : Mkt) (hM : SoundMkt g ds M) (hn : g.conf.npv = true)
    (f : Fixed) (L : Loaded) (an : Bool) (i : Instr) (hi : i ∈ g.insts) (call s : Bool) (u : String) (uc : Currency) (hk : i.kind = .option call u uc s) (pl : Plan) (o : Vanilla)
    (hp : PricedAs g f L an i pl (.option o)) (w : Dividend ℝ) (hw : PaysDividend M u w) (e' : Eng)
    (h : calculate g names { mkt := M, action := g.insts, results := freshResults g.insts fun _ => none } = .ok e') :
    ∃ y, e'.results i.code = some y ∧ DivDeltasAre g names M y u fun win z => (∀ d ∈ w.dates, win d → o.maturity.day < d.day) → z = 0 := by
  obtain ⟨-, hres⟩ := C97_new_engine g hg names hns ds M e' hM h
  obtain ⟨y, hy, ci⟩ := hres i hi
  obtain ⟨p, v, fl, c1, c2, -, c4, -⟩ := ci.npv hn
  rw [hp.held] at c1
  obtain rfl := Option.some.inj c1
  have c2' : pl.result g.md f (.option o) M = .ok v := c2
  obtain ⟨d, c, b, qn, rfl, -, -, -⟩ := option_plan g.p L an i call s u uc hk pl hp.made
  have c3 : (do let x ← (Plan.option u u d c b qn).npv g.md f (.option o) M; Except.ok (NpvResult.ofNpv x) : Res NpvResult) = .ok v := c2'
  obtain ⟨x, hx, e⟩ := (bind_ok_iff _ _ _).1 c3
  obtain rfl := Except.ok.inj e
  have tn : i.typeName ≠ "Stock" ∧ i.typeName ≠ "Cash" := by unfold Instr.typeName; rw [hk]; cases call <;> simp
  refine ⟨y, hy, div_parts g names ds M _ i y ci tn u (by unfold Instr.unds; rw [hk]) _ fun win m z hm hz hlate => ?_⟩
  obtain ⟨v', up, q1, q2, q3, q4⟩ := hz
  rw [c4] at q1
  obtain rfl := Option.some.inj q1
  have hup : (Plan.option u u d c b qn).npv g.md f (.option o) m = .ok up := by
    unfold EngCfg.npv at q2
    rw [hp.held] at q2
    exact q2
  obtain ⟨f1, f2, f3, f4, q0, hq0, f5⟩ := shifted_dividend M m hM.divs u w hw win _ hm
  have hsame : DivKept w (upIn win g.conf.divBump) o.maturity = DivKept w noUp o.maturity := kept_congr w _ _ _ fun t ht hle => by
    unfold upIn noUp
    rw [if_neg fun hh => absurd (hlate t ht hh) (by omega)]
  unfold Plan.npv at hx hup
  dsimp only at hx hup
  obtain ⟨P, hP, hx⟩ := (bind_ok_iff _ _ _).1 hx
  obtain ⟨P', hP', hup⟩ := (bind_ok_iff _ _ _).1 hup
  unfold Mkt.optionPricer Mkt.carry at hP hP'
  rw [f1, f2, f3, f4] at hP'
  rw [hq0] at hP hP'
  simp only [orErr, Res.bind_ok] at hP hP'
  cases hC : M.curves c with
  | none => rw [hC] at hP; cases hP
  | some C =>
    cases hB : M.curves b with
    | none => rw [hC, hB] at hP; cases hP
    | some B =>
      cases hV : M.vols u with
      | none => rw [hC, hB, hV] at hP; cases hP
      | some V =>
        cases hD : M.curves d with
        | none => rw [hC, hB, hV, hD] at hP; cases hP
        | some D =>
          rw [hC, hB, hV, hD] at hP hP'
          obtain rfl := Except.ok.inj hP
          obtain rfl := Except.ok.inj hP'
          have hfw : (FuturesPricer.forward { eval := M.w.date, spot := q0.2.value, dividend := m.divOf q0.2, coll := C, borrow := B } o.maturity)
              = FuturesPricer.forward { eval := M.w.date, spot := q0.2.value, dividend := M.divOf q0.2, coll := C, borrow := B } o.maturity := by
            unfold FuturesPricer.forward
            dsimp only
            rw [(f5 o.maturity).1, (f5 o.maturity).2, hsame]
          have := option_same_forward { env := { eval := M.w.date, spot := q0.2.value, dividend := M.divOf q0.2, coll := C, borrow := B }, disc := D, vol := V, quanto := qn.bind f.quanto }
            { env := { eval := M.w.date, spot := q0.2.value, dividend := m.divOf q0.2, coll := C, borrow := B }, disc := D, vol := V, quanto := qn.bind f.quanto } o hfw rfl rfl rfl rfl
          rw [this, hx] at hup
          obtain rfl := Except.ok.inj hup
          rw [Option.some.inj q4]
          show (x - x) / _ * _ * _ = 0
          simp

/-- **C178** (signs of options). With a flat volatility the dividend deltas of a call are not positive and those of a put not negative, if the notional is not negative and no
dividend, raised, is more than the spot it is divided by. -/
theorem C178_options_sign (g : EngCfg) (hg : OwnCodes g) (names : List String) (hns : names.Nodup) (ds : List DT) (M : Mkt) (hM : SoundMkt g ds M) (hn : g.conf.npv = true)
    (f : Fixed) (L : Loaded) (an : Bool) (i : Instr) (hi : i ∈ g.insts) (call s : Bool) (u : String) (hk : i.kind = .option call u i.ccy s) (pl : Plan) (o : Vanilla)
    (hp : PricedAs g f L an i pl (.option o)) (hK : 0 < o.strike) (hN : 0 ≤ i.notional) (σ : ℝ) (hσ : 0 ≤ σ) (hV : FlatVols M u σ) (w : Dividend ℝ) (hw : PaysDividend M u w)
    (hs : 0 < w.spot) (hβ : 0 < g.conf.divBump) (hle : ∀ p ∈ w.dates.zip w.amounts, p.2 + g.conf.divBump ≤ w.spot) (e' : Eng)
    (h : calculate g names { mkt := M, action := g.insts, results := freshResults g.insts fun _ => none } = .ok e') :
    ∃ y, e'.results i.code = some y ∧ DivDeltasAre g names M y u fun _ z => (o.call = true → z ≤ 0) ∧ (o.call = false → 0 ≤ z) := by
  obtain ⟨-, hres⟩ := C97_new_engine g hg names hns ds M e' hM h
  obtain ⟨y, hy, ci⟩ := hres i hi
  obtain ⟨d, c, b, rfl, hn1, hn2, hn3⟩ := option_noquanto g.p L an i call s u hk pl hp.made
  obtain ⟨p, v, fl, c1, c2, -, c4, c5, -⟩ := ci.npv hn
  rw [hp.held] at c1
  obtain rfl := Option.some.inj c1
  have c3 : (do let x ← (Plan.option u u d c b none).npv g.md f (.option o) M; Except.ok (NpvResult.ofNpv x) : Res NpvResult) = .ok v := c2
  obtain ⟨x0, hx0, e0⟩ := (bind_ok_iff _ _ _).1 c3
  obtain rfl := Except.ok.inj e0
  have flat : ∀ w, M.vols u = some w → ∀ t x y, w.value t x = .ok y → y = σ := fun w hw t x y hy => flat_value M u σ hM.vols hV w hw t x y hy
  have flat0 : ∀ w, M.vols u = some w → ∀ t x y, w.value t x = .ok y → 0 ≤ y := fun w hw t x y hy => by rw [flat w hw t x y hy]; exact hσ
  have hcv : ∀ cv, M.curves d = some cv → CurveOk cv := fun cv q => (hM.curves d cv q).1
  obtain ⟨F, s0, D, vo, a1, a2, a3, a4, a5, a6, rfl⟩ := option_at g.md f M u d c b o hcv hK flat0 x0 hx0
  obtain rfl := flat vo a2 _ _ _ a3
  generalize hτ : s0 * Real.sqrt (timeFrom M.w.date o.maturity) = τ at *
  have tn : i.typeName ≠ "Stock" ∧ i.typeName ≠ "Cash" := by unfold Instr.typeName; rw [hk]; cases call <;> simp
  refine ⟨y, hy, div_parts g names ds M _ i y ci tn u (by unfold Instr.unds; rw [hk]) _ fun win m z hm hz => ?_⟩
  obtain ⟨v', up, q1, q2, q3, q4⟩ := hz
  rw [c4] at q1
  obtain rfl := Option.some.inj q1
  obtain ⟨f1, f2, f3, f4, q0, hq0, f5⟩ := shifted_dividend M m hM.divs u w hw win _ hm
  unfold EngCfg.npv at q2
  rw [hp.held] at q2
  obtain ⟨F', s', D', w', b1, b2, b3, -, -, -, rfl⟩ := option_at g.md f m u d c b o (by rw [f1]; exact hcv) hK (by rw [f2]; exact flat0) up q2
  rw [f2] at b2
  obtain rfl := flat w' b2 _ _ _ b3
  rw [f3, hτ] at q4
  obtain ⟨env, dc, x1, x2, x3, x4⟩ := a1
  obtain ⟨env', dc', y1, y2, y3, y4⟩ := b1
  rw [f1, x3] at y3
  obtain rfl := Option.some.inj y3
  rw [f3, x4] at y4
  obtain rfl := Except.ok.inj y4
  obtain ⟨qa, X, Y, r, hq, hX, hY, hr, hF⟩ := carry_at M (fun n c h => (hM.curves n c h).1) u c b o.maturity F (by rw [x1, Res.bind_ok, x2])
  obtain ⟨qb, X', Y', r', hq', hX', hY', hr', hF'⟩ := carry_at m (by rw [f1]; exact fun n c h => (hM.curves n c h).1) u c b o.maturity F' (by rw [y1, Res.bind_ok, y2])
  rw [f4] at hq'
  rw [hq] at hq' hq0
  obtain rfl := Option.some.inj hq'
  obtain rfl := Option.some.inj hq0
  have hsame : ∀ n X, DiscountOf m n o.maturity X → DiscountOf M n o.maturity X := by
    rintro n X ⟨C, h1, h2⟩
    rw [f1] at h1
    rw [f3] at h2
    exact ⟨C, h1, h2⟩
  obtain rfl := discountOf_unique hX (hsame _ _ hX')
  obtain rfl := discountOf_unique hY (hsame _ _ hY')
  rw [(f5 o.maturity).2] at hr'
  rw [(f5 o.maturity).1] at hr
  obtain rfl := Except.ok.inj hr'
  obtain rfl := Except.ok.inj hr
  have hXp : 0 < X := by obtain ⟨C, h1, h2⟩ := hX; exact df_positive C (hM.curves _ _ h1).1 _ _ h2
  obtain ⟨k1, k2⟩ := kept_le w noUp (upIn win g.conf.divBump) o.maturity hs (fun d => by unfold noUp upIn; split <;> linarith) (fun p hp => by
      have := hle p hp
      unfold upIn
      split <;> linarith)
  have hA : 0 ≤ qa.2.value * Y := by
    have hpos : 0 < qa.2.value * Y * DivKept w noUp o.maturity := by rw [← hF]; exact mul_pos a4 hXp
    by_contra hneg
    have := mul_nonpos_of_nonpos_of_nonneg (not_le.1 hneg).le (k1.trans k2)
    linarith
  have hFF : F' ≤ F := by
    have : F' * X ≤ F * X := by rw [hF, hF']; exact mul_le_mul_of_nonneg_left k2 hA
    exact le_of_mul_le_mul_right this hXp
  have m1 := expectedCall_forward_mono F' F o.strike τ hFF
  have m2 := expectedPut_forward_anti F' F o.strike τ hFF
  rw [Option.some.inj q4]
  show (o.call = true → (D * _ - D * _) / _ * _ * _ ≤ 0) ∧ (o.call = false → 0 ≤ (D * _ - D * _) / _ * _ * _)
  refine ⟨fun hcall => ?_, fun hcall => ?_⟩ <;> unfold expectedPayoff <;> rw [hcall] <;> simp only [if_true, Bool.false_eq_true, if_false]
  · refine mul_nonpos_of_nonpos_of_nonneg (mul_nonpos_of_nonpos_of_nonneg (div_nonpos_of_nonpos_of_nonneg ?_ hβ.le) (by norm_num)) hN
    rw [sub_nonpos]
    exact mul_le_mul_of_nonneg_left m1 a5.le
  · refine mul_nonneg (mul_nonneg (div_nonneg ?_ hβ.le) (by norm_num)) hN
    rw [sub_nonneg]
    exact mul_le_mul_of_nonneg_left m2 a5.le

/-- All hypotheses are met by the engine of `twin_witness`, with a flat volatility; and a dividend of 2 on 100 raised by 1 leaves 0.97 of the price from its day on. -/
theorem dividends_witness : (∃ M w, OwnCodes twinEngine ∧ SoundMkt twinEngine [day0 2021 7 1, day0 2022 1 1, day0 2023 1 1] M ∧ PaysDividend M "A" w ∧ FlatVols M "A" 0.2 ∧
      0 < w.spot ∧ (∀ p ∈ w.dates.zip w.amounts, p.2 + twinEngine.conf.divBump ≤ w.spot) ∧
      (∃ e', calculate twinEngine ["A"] { mkt := M, action := twinInsts, results := freshResults twinInsts fun _ => none } = .ok e') ∧
      DivKept w noUp (day0 2023 6 1) = 0.98 ∧ DivKept w (upIn (fun _ => True) 1) (day0 2023 6 1) = 0.97 ∧ DivKept w (upIn (fun _ => True) 1) (day0 2023 5 31) = 1) ∧
    PricedAs twinEngine twinFixed twinLoaded true ⟨"F", .futures "A" .krw, .krw, 5, day0 2021 12 1, 0⟩ (.futures "A" "C" "C") (.futures (day0 2021 12 1) 0) ∧
    PricedAs twinEngine twinFixed twinLoaded true ⟨"O", .option true "A" .krw false, .krw, 10, day0 2022 1 1, 0⟩ twinPlan (.option { twinOption with call := true }) ∧
    twinEngine.conf.divDelta = true ∧ twinEngine.conf.divS = true ∧ 0 < twinEngine.conf.divBump := by
  refine ⟨?_, ⟨rfl, rfl⟩, ⟨rfl, rfl⟩, rfl, rfl, by show (0 : ℝ) < 0.0001; norm_num⟩
  obtain ⟨c, v, s, hvs, hvn, h⟩ := twin_markets [[0.2, 0.2, 0.2], [0.2, 0.2, 0.2], [0.2, 0.2, 0.2]] rfl (by simp)
  obtain ⟨hg, -, hM, he⟩ := h false twinInsts (fun _ h => h) (by simp [twinInsts])
  have hv : v.spot = 100 ∧ v.dates = [day0 2023 6 1] ∧ v.amounts = [2] := by
    unfold Dividend.new at hvn
    dsimp only at hvn
    obtain ⟨_, _, h1⟩ := (bind_ok_iff _ _ _).1 hvn
    obtain ⟨_, _, h2⟩ := (bind_ok_iff _ _ _).1 h1
    obtain ⟨_, _, h3⟩ := (bind_ok_iff _ _ _).1 h2
    rw [← Except.ok.inj h3]
    exact ⟨rfl, rfl, rfl⟩
  obtain ⟨h1, h2, h3⟩ := hv
  have d1 : decide ((day0 2023 6 1).day ≤ (day0 2023 6 1).day) = true := by decide +kernel
  have d2 : decide ((day0 2023 6 1).day ≤ (day0 2023 5 31).day) = false := by decide +kernel
  refine ⟨_, v, hg, hM, ⟨(0, _), 0, true, rfl, rfl, rfl, rfl⟩, ?_, by rw [h1]; norm_num, ?_, he, ?_, ?_, ?_⟩
  · intro z hz r hr x hx
    have hz' : some (Vol.surface s) = some (Vol.surface z) := hz
    obtain rfl := Vol.surface.inj (Option.some.inj hz')
    rw [hvs] at hr
    simp only [List.mem_cons, List.not_mem_nil, or_false, or_self] at hr
    subst hr
    simp only [List.mem_cons, List.not_mem_nil, or_false, or_self] at hx
    exact hx
  · intro p hp
    rw [h2, h3] at hp
    simp at hp
    rw [hp, h1]
    show (2 : ℝ) + 0.0001 ≤ 100
    norm_num
  all_goals
    unfold DivKept
    rw [h1, h2, h3]
    simp [d1, d2, noUp, upIn]
    try norm_num

end Verif.Props

import Verif.Props.EngineBonds
import Verif.Props.EngineLinear
/-!
# C177: the rhos of futures and of currency futures
-/
set_option autoImplicit false
namespace Verif.Props
open Verif Verif.QL Verif.Civil

/-! ## Specification -/

/-- The discount factor to `d` of the curve `n` in the market. -/
def DiscountOf (m : Mkt) (n : String) (d : DT) (x : ℝ) : Prop := ∃ c, m.curves n = some c ∧ c.df (timeFrom m.w.date d) = .ok x

/-- The rho of `i` to the curve `k`, if asked for, is a number with `P` for all nodes of the curve bumped; its rhos by tenor are one number per tenor, with `P` for the nodes of
the tenor bumped, 0 for the tenors at which nothing is left that uses the curve. -/
def RhosAre (g : EngCfg) (M : Mkt) (y : EResult) (k : String) (P : (ℝ → Prop) → ℝ → Prop) : Prop :=
  (g.conf.rho = true → ∃ z, y.rho k = some z ∧ P (fun _ => True) z) ∧
  (g.conf.rhoS = true → ∃ dr l, calcDates g.md M.w.date g.conf.rhoTenors = .ok dr ∧ y.rhoS k = some l ∧ l.length = dr.length ∧ ∀ (j : Nat) z, l[j]? = some z →
    (TenorReached (fun j => j ∈ g.insts ∧ UsesCurve g.p k j ∧ j.typeName ≠ "Stock" ∧ j.typeName ≠ "Cash") dr j → P (InTenor (dr.map (timeFrom M.w.date)) j) z) ∧
    (¬ TenorReached (fun j => j ∈ g.insts ∧ UsesCurve g.p k j ∧ j.typeName ≠ "Stock" ∧ j.typeName ≠ "Cash") dr j → z = 0))

/-- No rho of `i` to the curve `k`, for the whole curve or by tenor. -/
def NoRho (y : EResult) (k : String) : Prop := y.rho k = none ∧ y.rhoS k = none

/-- `z` is the change per unit bumped, for a basis point and the notional, of an npv that goes from `v` to `w D'` when the discount factor to `mat` of the curve `k` becomes `D'`
because its rates in `win` go up. -/
def MovedTo (g : EngCfg) (M : Mkt) (i : Instr) (k : String) (mat : DT) (v : ℝ) (w : ℝ → ℝ) (win : ℝ → Prop) (z : ℝ) : Prop :=
  ∃ m D', CurveShifted k win g.conf.rhoBump M m ∧ DiscountOf m k mat D' ∧ z = (w D' - v) / g.conf.rhoBump * 0.0001 * i.notional

/-! ## Discount factors -/

theorem df_positive (c : Curve) (hc : CurveOk c) (t x : ℝ) (h : c.df t = .ok x) : 0 < x := by
  rcases df_pair c c hc hc rfl t with ⟨h1, -⟩ | ⟨i, t0, t1, r0, r1, -, -, a, b, q0, q1, q2, q3, -, -, q6, q7, p0, p1, ha, hb, ea, eb, e, -⟩
  · rw [h1] at h; cases h
  · rw [e] at h
    obtain rfl := Except.ok.inj h
    have h1 : 0 < a := by rw [ea]; exact div_pos (by linarith) (by linarith)
    have := Real.exp_pos (-(r0 * t0))
    have := Real.exp_pos (-(r1 * t1))
    positivity

/-- Higher rates, lower discount factors. -/
theorem df_shift_le (c c' : Curve) (hc : CurveOk c) (win : ℝ → Prop) (b : ℝ) (hb : 0 ≤ b) (hs : RatesShifted c c' win b) (t x x' : ℝ) (h : c.df t = .ok x) (h' : c'.df t = .ok x') : x' ≤ x := by
  have := df_lower c c' hc hs.ok hs.times (fun j r r' h1 h2 => by
    obtain ⟨hj, -⟩ := List.getElem?_eq_some_iff.1 h1
    have := hs.rates j _ r (List.getElem?_eq_getElem (by rw [← hc.len]; exact hj)) h1
    rw [h2] at this
    rw [Option.some.inj this]
    split <;> linarith) t
  rw [h, h'] at this
  exact this

/-- What a bump of a curve does to the discount factor of a curve. -/
theorem discountOf_shift (M m : Mkt) (k n : String) (win : ℝ → Prop) (β : ℝ) (hβ : 0 ≤ β) (hM : GoodCurves M) (hm : CurveShifted k win β M m) (d : DT) (x x' : ℝ)
    (hx : DiscountOf M n d x) (hx' : DiscountOf m n d x') : 0 < x' ∧ x' ≤ x ∧ (n ≠ k → x' = x) := by
  obtain ⟨c, h1, h2⟩ := hx
  obtain ⟨c', h1', h2'⟩ := hx'
  obtain ⟨c0, cB, m1, m2, m3, m4, m5, rfl⟩ := hm
  by_cases hk : n = k
  · subst hk
    rw [h1] at m1
    obtain rfl := Option.some.inj m1
    change (M.curves.put n cB) n = some c' at h1'
    rw [put_self] at h1'
    obtain rfl := Option.some.inj h1'
    exact ⟨df_positive _ m2 _ _ h2', df_shift_le c cB (hM _ _ h1).1 win β hβ ⟨m2, m4, m5⟩ _ _ _ h2 h2', fun h => absurd rfl h⟩
  · change (M.curves.put k cB) n = some c' at h1'
    rw [put_other _ _ _ _ hk, h1] at h1'
    obtain rfl := Option.some.inj h1'
    rw [show timeFrom ({ M with curves := M.curves.put k cB } : Mkt).w.date d = timeFrom M.w.date d from rfl, h2] at h2'
    obtain rfl := Except.ok.inj h2'
    exact ⟨df_positive _ (hM _ _ h1).1 _ _ h2, le_refl _, fun _ => rfl⟩

/-! ## Forwards in a market -/

/-- A forward in a market with good curves. -/
theorem carry_at (m : Mkt) (hM : ∀ n c, m.curves n = some c → CurveOk c) (u c b : String) (mat : DT) (F : ℝ) (h : (do let z ← m.carry u c b; z.forward mat) = .ok F) :
    ∃ q x y r, m.price u = some q ∧ DiscountOf m c mat x ∧ DiscountOf m b mat y ∧ deductionRatio (m.divOf q.2) mat = .ok r ∧ F * x = q.2.value * y * r := by
  obtain ⟨env, he, hF⟩ := (bind_ok_iff _ _ _).1 h
  unfold Mkt.carry at he
  obtain ⟨q, hq, he1⟩ := (bind_ok_iff _ _ _).1 he
  obtain ⟨C, hC, he2⟩ := (bind_ok_iff _ _ _).1 he1
  obtain ⟨B, hB, he3⟩ := (bind_ok_iff _ _ _).1 he2
  obtain rfl := Except.ok.inj he3
  have hq' := (orErr_eq _ _).1 hq
  have hC' := (orErr_eq _ _).1 hC
  have hB' := (orErr_eq _ _).1 hB
  obtain ⟨x, y, r, h1, h2, h3, h4, h5⟩ := (C68_forward _ mat F).1 hF
  dsimp only at h1 h2 h3 h5
  unfold Live.df at h1 h2
  dsimp only at h1 h2
  rw [(C57_at_date C (hM _ _ hC') m.w.date mat).1] at h1
  rw [(C57_at_date B (hM _ _ hB') m.w.date mat).1] at h2
  refine ⟨q, x, y, r, hq', ⟨C, hC', h1⟩, ⟨B, hB', h2⟩, ?_, h5⟩
  unfold deductionRatio
  cases hv : m.divOf q.2 with
  | none => rw [hv] at h3; exact h3
  | some v => rw [hv] at h3; exact h3

/-- A currency forward in a market with good curves. -/
theorem fx_at (m : Mkt) (hM : ∀ n c, m.curves n = some c → CurveOk c) (f : Fixed) (fx : FxCode) (a b : String) (mat : DT) (F : ℝ)
    (h : (do let z ← m.fxPricer f fx a b; z.npv mat) = .ok F) : ∃ s x y, f.fx fx = some s ∧ DiscountOf m a mat x ∧ DiscountOf m b mat y ∧ F * y = s * x := by
  obtain ⟨env, he, hF⟩ := (bind_ok_iff _ _ _).1 h
  unfold Mkt.fxPricer at he
  obtain ⟨s, hs, he1⟩ := (bind_ok_iff _ _ _).1 he
  obtain ⟨C, hC, he2⟩ := (bind_ok_iff _ _ _).1 he1
  obtain ⟨B, hB, he3⟩ := (bind_ok_iff _ _ _).1 he2
  obtain rfl := Except.ok.inj he3
  have hC' := (orErr_eq _ _).1 hC
  have hB' := (orErr_eq _ _).1 hB
  unfold FxFuturesPricer.npv at hF
  simp only [bind_ok_iff, divK_ok_iff] at hF
  obtain ⟨x, hx, y, hy, h0, hv⟩ := hF
  rw [(C57_at_date C (hM _ _ hC') m.w.date mat).1] at hx
  rw [(C57_at_date B (hM _ _ hB') m.w.date mat).1] at hy
  exact ⟨s, x, y, (orErr_eq _ _).1 hs, ⟨C, hC', hx⟩, ⟨B, hB', hy⟩, by rw [hv]; field_simp⟩

theorem shifted_curves (M m : Mkt) (k : String) (win : ℝ → Prop) (β : ℝ) (hM : GoodCurves M) (hm : CurveShifted k win β M m) : ∀ n c, m.curves n = some c → CurveOk c := by
  obtain ⟨c0, cB, m1, m2, m3, m4, m5, rfl⟩ := hm
  intro n c hc
  change (M.curves.put k cB) n = some c at hc
  by_cases hk : n = k
  · subst hk
    rw [put_self] at hc
    obtain rfl := Option.some.inj hc
    exact m2
  · rw [put_other _ _ _ _ hk] at hc
    exact (hM _ _ hc).1

/-- The pricer of a currency future is made of these names. -/
theorem fx_plan (p : MatchParam) (L : Loaded) (an : Bool) (i : Instr) (cu : Currency) (fx : FxCode) (hk : i.kind = .fxFutures cu fx) (pl : Plan)
    (h : createPricer p L an i = .ok pl) : ∃ a b, pl = .fxFutures fx a b ∧ p.crs cu = some a ∧ p.crs i.ccy = some b := by
  unfold createPricer at h
  rw [hk] at h
  dsimp only at h
  have need_ok : ∀ {κ : Type} (f : κ → Bool) (k k' : κ), need f k = .ok k' → k' = k := by
    intro κ f k k' h
    unfold need at h
    split at h
    · exact (Except.ok.inj h).symm
    · cases h
  obtain ⟨f, hf, h1⟩ := (bind_ok_iff _ _ _).1 h
  obtain ⟨a, ha, h2⟩ := (bind_ok_iff _ _ _).1 h1
  obtain ⟨a', ha', h3⟩ := (bind_ok_iff _ _ _).1 h2
  obtain ⟨b, hb, h4⟩ := (bind_ok_iff _ _ _).1 h3
  obtain ⟨b', hb', h5⟩ := (bind_ok_iff _ _ _).1 h4
  obtain rfl := Except.ok.inj h5
  obtain rfl := need_ok _ _ _ hf
  obtain rfl := need_ok _ _ _ ha'
  obtain rfl := need_ok _ _ _ hb'
  refine ⟨_, _, rfl, ?_, ?_⟩
  · unfold MatchParam.floatCrsName at ha
    rw [hk] at ha
    exact (orErr_eq _ _).1 ha
  · unfold MatchParam.crsName at hb
    rw [hk] at hb
    exact (orErr_eq _ _).1 hb

/-! ## The theorems -/

/-- The rhos of the whole curve and of the tenors have what every difference quotient has. -/
theorem rho_parts (g : EngCfg) (names : List String) (ds : List DT) (M M' : Mkt) (i : Instr) (y : EResult) (ci : Calculated g names ds M M' i (EResult.fresh i) y)
    (ht : i.typeName ≠ "Stock" ∧ i.typeName ≠ "Cash") (k : String) (hu : UsesCurve g.p k i) (P : (ℝ → Prop) → ℝ → Prop)
    (hP : ∀ win m z, CurveShifted k win g.conf.rhoBump M m → ForwardDiff g m g.conf.rhoBump 0.0001 i y.npv (some z) → P win z) : RhosAre g M y k P := by
  refine ⟨fun hr => ?_, fun hr => ?_⟩
  · obtain ⟨m, s1, s2⟩ := ((ci.rho hr) k).1 ⟨hu, ht.1⟩
    have s3 := s2
    obtain ⟨v', up, -, -, -, s4⟩ := s3
    rw [s4] at s2
    exact ⟨_, s4, hP _ m _ s1 s2⟩
  · obtain ⟨dr, d1, d2⟩ := ci.rhoS hr
    obtain ⟨l, s1, s2, s3⟩ := (d2 k).1 ⟨hu, ht⟩
    refine ⟨dr, l, d1, s1, s2, fun j z hz => ?_⟩
    have hj : j < l.length := (List.getElem?_eq_some_iff.1 hz).1
    obtain ⟨a1, a2⟩ := s3 j (by omega)
    refine ⟨fun hR => ?_, fun hR => ?_⟩
    · obtain ⟨m, m1, m2⟩ := a1 hR
      rw [hz] at m2
      exact hP _ m _ m1 m2
    · have := a2 hR
      rw [hz] at this
      exact Option.some.inj this

theorem no_rho (g : EngCfg) (names : List String) (ds : List DT) (M M' : Mkt) (i : Instr) (y : EResult) (ci : Calculated g names ds M M' i (EResult.fresh i) y) (k : String)
    (hu : ¬ UsesCurve g.p k i) : NoRho y k := by
  refine ⟨?_, ?_⟩
  · cases hr : g.conf.rho with
    | true => exact ((ci.rho hr) k).2 fun hh => hu hh.1
    | false => rw [ci.rhoOff hr]; rfl
  · cases hr : g.conf.rhoS with
    | true => obtain ⟨dr, -, d2⟩ := ci.rhoS hr; exact (d2 k).2 fun hh => hu hh.1
    | false => rw [ci.rhoSOff hr]; rfl

theorem discountOf_unique {m : Mkt} {n : String} {d : DT} {x x' : ℝ} (h : DiscountOf m n d x) (h' : DiscountOf m n d x') : x = x' := by
  obtain ⟨C1, a1, a2⟩ := h
  obtain ⟨C2, b1, b2⟩ := h'
  rw [a1] at b1
  obtain rfl := Option.some.inj b1
  rw [a2] at b2
  exact Except.ok.inj b2

/-- **C177** (futures). A future has rhos to its collateral curve only, none to the curve of its borrowing cost. With two different curves its npv goes with the inverse of the
discount factor of the collateral curve; with the same curve for both all its rhos are 0. -/
theorem C177_futures (g : EngCfg) (hg : OwnCodes g) (names : List String) (hns : names.Nodup) (ds : List DT) (M : Mkt) (hM : SoundMkt g ds M) (hn : g.conf.npv = true)
    (f : Fixed) (L : Loaded) (an : Bool) (i : Instr) (hi : i ∈ g.insts) (u : String) (uc : Currency) (hk : i.kind = .futures u uc) (pl : Plan) (mat : DT) (avg : ℝ)
    (hp : PricedAs g f L an i pl (.futures mat avg)) (hβ : 0 < g.conf.rhoBump) (e' : Eng)
    (h : calculate g names { mkt := M, action := g.insts, results := freshResults g.insts fun _ => none } = .ok e') :
    ∃ y c b v D, e'.results i.code = some y ∧ g.p.collateral u = some c ∧ g.p.borrowing u = some b ∧ y.npv = some v ∧ DiscountOf M c mat D ∧ 0 < D ∧
      (∀ k, k ≠ c → NoRho y k) ∧
      (c ≠ dummy → b ≠ c → RhosAre g M y c (MovedTo g M i c mat v.npv fun D' => v.npv * D / D')) ∧
      (c ≠ dummy → b = c → RhosAre g M y c fun _ z => z = 0) := by
  obtain ⟨-, hres⟩ := C97_new_engine g hg names hns ds M e' hM h
  obtain ⟨y, hy, ci⟩ := hres i hi
  obtain ⟨p, v, fl, c1, c2, -, c4, -⟩ := ci.npv hn
  rw [hp.held] at c1
  obtain rfl := Option.some.inj c1
  have c2' : pl.result g.md f (.futures mat avg) M = .ok v := c2
  obtain ⟨c, b, rfl, hc, hb⟩ := futures_plan g.p L an i u uc hk pl hp.made
  have c3 : (do let x ← (Plan.futures u c b).npv g.md f (.futures mat avg) M; Except.ok (NpvResult.ofNpv x) : Res NpvResult) = .ok v := c2'
  obtain ⟨x, hx, e⟩ := (bind_ok_iff _ _ _).1 c3
  obtain rfl := Except.ok.inj e
  obtain ⟨q, D, B, r, hq, hD, hB, hr, hF⟩ := carry_at M (fun n c h => (hM.curves n c h).1) u c b mat x hx
  have hDpos : 0 < D := by obtain ⟨C, h1, h2⟩ := hD; exact df_positive C (hM.curves _ _ h1).1 _ _ h2
  have tn : i.typeName ≠ "Stock" ∧ i.typeName ≠ "Cash" := by unfold Instr.typeName; rw [hk]; simp
  have hu : ∀ k, UsesCurve g.p k i ↔ k ≠ dummy ∧ k = c := by
    intro k
    unfold UsesCurve curveRoles
    rw [hk]
    simp [hc]
  have run : ∀ win m up, CurveShifted c win g.conf.rhoBump M m → g.npv i m = .ok up →
      ∃ D' B', DiscountOf m c mat D' ∧ 0 < D' ∧ DiscountOf m b mat B' ∧ (b ≠ c → B' = B) ∧ up * D' = q.2.value * B' * r := by
    intro win m up hm q2
    have hup : (do let z ← m.carry u c b; z.forward mat) = .ok up := by
      unfold EngCfg.npv at q2
      rw [hp.held] at q2
      exact q2
    obtain ⟨q', D', B', r', hq', hD', hB', hr', hF'⟩ := carry_at m (shifted_curves M m c win _ hM.curves hm) u c b mat up hup
    obtain ⟨f1, f2, -⟩ := discountOf_shift M m c c win _ hβ.le hM.curves hm mat D D' hD hD'
    obtain ⟨-, -, f3⟩ := discountOf_shift M m c b win _ hβ.le hM.curves hm mat B B' hB hB'
    have hsame : m.price u = M.price u ∧ m.divOf = M.divOf := by
      obtain ⟨c0, cB, -, -, -, -, -, rfl⟩ := hm
      exact ⟨rfl, rfl⟩
    rw [hsame.1, hq] at hq'
    obtain rfl := Option.some.inj hq'
    rw [hsame.2, hr] at hr'
    obtain rfl := Except.ok.inj hr'
    exact ⟨D', B', hD', f1, hB', f3, hF'⟩
  refine ⟨y, c, b, _, D, hy, hc, hb, c4, hD, hDpos, fun k hkc => no_rho g names ds M _ i y ci k fun hh => hkc ((hu k).1 hh).2, fun hcd hbc => ?_, fun hcd hbc => ?_⟩
  · refine rho_parts g names ds M _ i y ci tn c ((hu c).2 ⟨hcd, rfl⟩) _ fun win m z hm hz => ?_
    obtain ⟨v', up, q1, q2, q3, q4⟩ := hz
    rw [c4] at q1
    obtain rfl := Option.some.inj q1
    obtain ⟨D', B', d1, d2, d3, d4, d5⟩ := run win m up hm q2
    refine ⟨m, D', hm, d1, ?_⟩
    rw [Option.some.inj q4]
    congr 3
    show up - x = x * D / D' - x
    rw [d4 hbc] at d5
    rw [hF, ← d5, mul_div_cancel_right₀ _ d2.ne']
  · refine rho_parts g names ds M _ i y ci tn c ((hu c).2 ⟨hcd, rfl⟩) _ fun win m z hm hz => ?_
    obtain ⟨v', up, q1, q2, q3, q4⟩ := hz
    rw [c4] at q1
    obtain rfl := Option.some.inj q1
    obtain ⟨D', B', d1, d2, d3, d4, d5⟩ := run win m up hm q2
    rw [hbc] at d3 hB
    rw [discountOf_unique d3 d1] at d5
    rw [discountOf_unique hB hD] at hF
    have g1 : x = q.2.value * r := mul_right_cancel₀ hDpos.ne' (by rw [hF]; ring)
    have g2 : up = q.2.value * r := mul_right_cancel₀ d2.ne' (by rw [d5]; ring)
    rw [Option.some.inj q4]
    show (up - x) / _ * _ * _ = 0
    rw [g1, g2, sub_self]
    ring

/-- **C177** (currency futures). A currency future has rhos to the curve of its own currency and to that of its underlying currency. If they differ, its npv goes with the inverse
of the discount factor of the first and with that of the second; if they are the same, all its rhos are 0. -/
theorem C177_fx_futures (g : EngCfg) (hg : OwnCodes g) (names : List String) (hns : names.Nodup) (ds : List DT) (M : Mkt) (hM : SoundMkt g ds M) (hn : g.conf.npv = true)
    (f : Fixed) (L : Loaded) (an : Bool) (i : Instr) (hi : i ∈ g.insts) (cu : Currency) (fx : FxCode) (hk : i.kind = .fxFutures cu fx) (pl : Plan) (mat : DT) (avg : ℝ) (uc : Nat)
    (hp : PricedAs g f L an i pl (.fxFutures mat avg uc)) (hβ : 0 < g.conf.rhoBump) (e' : Eng)
    (h : calculate g names { mkt := M, action := g.insts, results := freshResults g.insts fun _ => none } = .ok e') :
    ∃ y a b v X Y, e'.results i.code = some y ∧ g.p.crs cu = some a ∧ g.p.crs i.ccy = some b ∧ y.npv = some v ∧ DiscountOf M a mat X ∧ 0 < X ∧ DiscountOf M b mat Y ∧ 0 < Y ∧
      (∀ k, k ≠ a → k ≠ b → NoRho y k) ∧
      (b ≠ dummy → a ≠ b → RhosAre g M y b (MovedTo g M i b mat v.npv fun Y' => v.npv * Y / Y')) ∧
      (a ≠ dummy → a ≠ b → RhosAre g M y a (MovedTo g M i a mat v.npv fun X' => v.npv * X' / X)) ∧
      (a ≠ dummy → a = b → RhosAre g M y a fun _ z => z = 0) := by
  obtain ⟨-, hres⟩ := C97_new_engine g hg names hns ds M e' hM h
  obtain ⟨y, hy, ci⟩ := hres i hi
  obtain ⟨p, v, fl, c1, c2, -, c4, -⟩ := ci.npv hn
  rw [hp.held] at c1
  obtain rfl := Option.some.inj c1
  have c2' : pl.result g.md f (.fxFutures mat avg uc) M = .ok v := c2
  obtain ⟨a, b, rfl, ha, hb⟩ := fx_plan g.p L an i cu fx hk pl hp.made
  have c3 : (do let x ← (Plan.fxFutures fx a b).npv g.md f (.fxFutures mat avg uc) M; Except.ok (NpvResult.ofNpv x) : Res NpvResult) = .ok v := c2'
  obtain ⟨x, hx, e⟩ := (bind_ok_iff _ _ _).1 c3
  obtain rfl := Except.ok.inj e
  obtain ⟨s, X, Y, hs, hX, hY, hF⟩ := fx_at M (fun n c h => (hM.curves n c h).1) f fx a b mat x hx
  have hpos : ∀ n D, DiscountOf M n mat D → 0 < D := fun n D hD => by obtain ⟨C, h1, h2⟩ := hD; exact df_positive C (hM.curves _ _ h1).1 _ _ h2
  have tn : i.typeName ≠ "Stock" ∧ i.typeName ≠ "Cash" := by unfold Instr.typeName; rw [hk]; simp
  have hu : ∀ k, UsesCurve g.p k i ↔ k ≠ dummy ∧ (k = b ∨ k = a) := by
    intro k
    unfold UsesCurve curveRoles
    rw [hk]
    simp [ha, hb]
  have run : ∀ k win m up, CurveShifted k win g.conf.rhoBump M m → g.npv i m = .ok up →
      ∃ X' Y', DiscountOf m a mat X' ∧ (a ≠ k → X' = X) ∧ DiscountOf m b mat Y' ∧ 0 < Y' ∧ (b ≠ k → Y' = Y) ∧ up * Y' = s * X' := by
    intro k win m up hm q2
    have hup : (do let z ← m.fxPricer f fx a b; z.npv mat) = .ok up := by
      unfold EngCfg.npv at q2
      rw [hp.held] at q2
      exact q2
    obtain ⟨s', X', Y', hs', hX', hY', hF'⟩ := fx_at m (shifted_curves M m k win _ hM.curves hm) f fx a b mat up hup
    obtain ⟨-, -, f1⟩ := discountOf_shift M m k a win _ hβ.le hM.curves hm mat X X' hX hX'
    obtain ⟨f2, -, f3⟩ := discountOf_shift M m k b win _ hβ.le hM.curves hm mat Y Y' hY hY'
    rw [hs] at hs'
    obtain rfl := Option.some.inj hs'
    exact ⟨X', Y', hX', f1, hY', f2, f3, hF'⟩
  have hXp := hpos _ _ hX
  have hYp := hpos _ _ hY
  refine ⟨y, a, b, _, X, Y, hy, ha, hb, c4, hX, hXp, hY, hYp, fun k h1 h2 => no_rho g names ds M _ i y ci k fun hh => (((hu k).1 hh).2).elim h2 h1,
    fun hd hab => ?_, fun hd hab => ?_, fun hd hab => ?_⟩
  · refine rho_parts g names ds M _ i y ci tn b ((hu b).2 ⟨hd, Or.inl rfl⟩) _ fun win m z hm hz => ?_
    obtain ⟨v', up, q1, q2, q3, q4⟩ := hz
    rw [c4] at q1
    obtain rfl := Option.some.inj q1
    obtain ⟨X', Y', d1, d2, d3, d4, d5, d6⟩ := run b win m up hm q2
    refine ⟨m, Y', hm, d3, ?_⟩
    rw [Option.some.inj q4]
    congr 3
    show up - x = x * Y / Y' - x
    rw [d2 hab] at d6
    rw [hF, ← d6, mul_div_cancel_right₀ _ d4.ne']
  · refine rho_parts g names ds M _ i y ci tn a ((hu a).2 ⟨hd, Or.inr rfl⟩) _ fun win m z hm hz => ?_
    obtain ⟨v', up, q1, q2, q3, q4⟩ := hz
    rw [c4] at q1
    obtain rfl := Option.some.inj q1
    obtain ⟨X', Y', d1, d2, d3, d4, d5, d6⟩ := run a win m up hm q2
    refine ⟨m, X', hm, d1, ?_⟩
    rw [Option.some.inj q4]
    congr 3
    show up - x = x * X' / X - x
    rw [d5 (Ne.symm hab)] at d6
    have g1 : x = s * X / Y := by rw [← hF, mul_div_cancel_right₀ _ hYp.ne']
    have g2 : up = s * X' / Y := by rw [← d6, mul_div_cancel_right₀ _ hYp.ne']
    rw [g1, g2]
    field_simp
  · refine rho_parts g names ds M _ i y ci tn a ((hu a).2 ⟨hd, Or.inr rfl⟩) _ fun win m z hm hz => ?_
    obtain ⟨v', up, q1, q2, q3, q4⟩ := hz
    rw [c4] at q1
    obtain rfl := Option.some.inj q1
    obtain ⟨X', Y', d1, d2, d3, d4, d5, d6⟩ := run a win m up hm q2
    rw [← hab] at d3 hY
    rw [discountOf_unique d3 d1] at d6 d4
    rw [discountOf_unique hY hX] at hF
    have g1 : x = s := mul_right_cancel₀ hXp.ne' hF
    have g2 : up = s := mul_right_cancel₀ d4.ne' d6
    rw [Option.some.inj q4]
    show (up - x) / _ * _ * _ = 0
    rw [g1, g2, sub_self]
    ring

/-- **C177** (signs). What `MovedTo` says about signs, when the notional is not negative: an npv that is not negative and goes with the inverse of the discount factor has no
negative rho; one that goes with the discount factor no positive rho. -/
theorem C177_signs (g : EngCfg) (ds : List DT) (M : Mkt) (hM : SoundMkt g ds M) (hβ : 0 < g.conf.rhoBump) (i : Instr) (hN : 0 ≤ i.notional) (k : String) (mat : DT) (v D : ℝ) (hv : 0 ≤ v)
    (hD : DiscountOf M k mat D) (win : ℝ → Prop) (z : ℝ) :
    (MovedTo g M i k mat v (fun D' => v * D / D') win z → 0 ≤ z) ∧ (MovedTo g M i k mat v (fun D' => v * D' / D) win z → z ≤ 0) := by
  have hDp : 0 < D := by obtain ⟨C, h1, h2⟩ := hD; exact df_positive C (hM.curves _ _ h1).1 _ _ h2
  constructor
  · rintro ⟨m, D', h1, h2, rfl⟩
    obtain ⟨f1, f2, -⟩ := discountOf_shift M m k k win _ hβ.le hM.curves h1 mat D D' hD h2
    have : v ≤ v * D / D' := by rw [le_div_iff₀ f1]; exact mul_le_mul_of_nonneg_left f2 hv
    exact mul_nonneg (mul_nonneg (div_nonneg (by linarith) hβ.le) (by norm_num)) hN
  · rintro ⟨m, D', h1, h2, rfl⟩
    obtain ⟨f1, f2, -⟩ := discountOf_shift M m k k win _ hβ.le hM.curves h1 mat D D' hD h2
    have : v * D' / D ≤ v := by rw [div_le_iff₀ hDp]; exact mul_le_mul_of_nonneg_left f2 hv
    exact mul_nonpos_of_nonpos_of_nonneg (mul_nonpos_of_nonpos_of_nonneg (div_nonpos_of_nonpos_of_nonneg (by linarith) hβ.le) (by norm_num)) hN

/-! ## A concrete engine -/

/-- A future on dollars in won, with a curve for each currency -/
def fxfInstr : Instr := ⟨"X", .fxFutures .usd ⟨.usd, .krw⟩, .krw, 100, day0 2022 7 1, 0⟩

noncomputable def fxfFixed : Fixed := { twinFixed with fx := fun _ => some 1100, num := fun c => if c = .krw then 0 else 1 }

noncomputable def fxfEngine : EngCfg where
  md := .checked
  pricers := fun c => if c = "X" then some (Plan.pricer .checked fxfFixed (.fxFutures (day0 2022 7 1) 1000 1) (.fxFutures ⟨.usd, .krw⟩ "U" "K")) else none
  p := { collateral := fun _ => none, borrowing := fun _ => none, bondDiscount := fun _ => none, rateForward := fun _ => none, crs := fun c => if c = .krw then some "K" else some "U", funding := fun _ => none }
  conf := { demoConf with rhoTenors := [['1', 'Y'], ['3', 'Y']] }
  insts := [fxfInstr]

/-- Nothing but the curves -/
def fxfMarket (a b : Curve) : Mkt where
  w := { date := day0 2021 1 1, prices := [], divs := [] }
  equity := fun _ => none
  dividend := fun _ => none
  curves := fun n => if n = "U" then some a else if n = "K" then some b else none
  vols := fun _ => none
  volCurves := fun _ => none

/-- What the pricer needs of a market -/
structure FxfCurves (m : Mkt) : Prop where
  a : ∃ c, m.curves "U" = some c ∧ CurveOk c ∧ ∃ tl, c.times[c.times.length - 1]? = some tl ∧ 99 ≤ tl
  b : ∃ c, m.curves "K" = some c ∧ CurveOk c ∧ ∃ tl, c.times[c.times.length - 1]? = some tl ∧ 99 ≤ tl
  date : m.w.date = day0 2021 1 1 ∨ m.w.date = day0 2021 1 2

theorem two_curves_price (m : Mkt) (h : FxfCurves m) : ∃ x ex, Plan.npv .checked fxfFixed (.fxFutures ⟨.usd, .krw⟩ "U" "K") (.fxFutures (day0 2022 7 1) 1000 1) m = .ok x ∧
    Plan.exposure .checked fxfFixed (.fxFutures ⟨.usd, .krw⟩ "U" "K") (.fxFutures (day0 2022 7 1) 1000 1) fxfInstr m x = .ok ex := by
  obtain ⟨a, a1, a2, ta, a3, a4⟩ := h.a
  obtain ⟨b, b1, b2, tb, b3, b4⟩ := h.b
  have ht : (0 : ℚ) ≤ timeDifference m.w.date (day0 2022 7 1) ∧ timeDifference m.w.date (day0 2022 7 1) < 99 := by
    rcases h.date with e | e <;> rw [e] <;> decide +kernel
  have one : ∀ (c : Curve), CurveOk c → (∃ tl, c.times[c.times.length - 1]? = some tl ∧ 99 ≤ tl) → ∃ y, c.dfAt m.w.date (day0 2022 7 1) = .ok y ∧ 0 < y := by
    rintro c ok ⟨tl, htl, h99⟩
    obtain ⟨-, -, hdf, -⟩ := C57_range c ok tl htl
    rw [(C57_at_date c ok _ _).1]
    exact hdf _ (by exact_mod_cast ht.1) (lt_of_lt_of_le (by exact_mod_cast ht.2) h99)
  obtain ⟨x, x1, x2⟩ := one a a2 ⟨ta, a3, a4⟩
  obtain ⟨y, y1, y2⟩ := one b b2 ⟨tb, b3, b4⟩
  have hP : m.fxPricer fxfFixed ⟨.usd, .krw⟩ "U" "K" = .ok { eval := m.w.date, fx := 1100, und := a, fut := b } := by
    unfold Mkt.fxPricer
    rw [a1, b1]
    rfl
  have hn : Plan.npv .checked fxfFixed (.fxFutures ⟨.usd, .krw⟩ "U" "K") (.fxFutures (day0 2022 7 1) 1000 1) m = .ok (1100 * x / y) := by
    show (do let z ← m.fxPricer fxfFixed ⟨.usd, .krw⟩ "U" "K"; z.npv (day0 2022 7 1)) = _
    rw [hP, Res.bind_ok]
    unfold FxFuturesPricer.npv
    dsimp only
    rw [x1, Res.bind_ok, y1, Res.bind_ok]
    exact (divK_ok_iff _ _ _).2 ⟨y2.ne', rfl⟩
  refine ⟨1100 * x / y, Exposure.put 1 x (Exposure.put (fxfFixed.num .krw) (-y * 1000) []), hn, ?_⟩
  show (do let z ← m.fxPricer fxfFixed ⟨.usd, .krw⟩ "U" "K"; z.exposure (day0 2022 7 1) 1000 (fxfFixed.num .krw) 1) = _
  rw [hP, Res.bind_ok]
  unfold FxFuturesPricer.exposure
  dsimp only
  rw [x1, Res.bind_ok, y1, Res.bind_ok]

/-- All hypotheses of `C177_fx_futures` are met by this engine, with two different curves, and those of `C177_futures` by the engine of `twin_witness`. -/
theorem forwards_witness : (∃ M, OwnCodes fxfEngine ∧ SoundMkt fxfEngine [day0 2021 7 1, day0 2022 1 1, day0 2023 1 1] M ∧
    PricedAs fxfEngine fxfFixed { twinLoaded with fxs := fun _ => true, curves := fun _ => true } true fxfInstr (.fxFutures ⟨.usd, .krw⟩ "U" "K") (.fxFutures (day0 2022 7 1) 1000 1) ∧
    fxfInstr ∈ fxfEngine.insts ∧ fxfEngine.conf.npv = true ∧ fxfEngine.conf.rho = true ∧ fxfEngine.conf.rhoS = true ∧ 0 < fxfEngine.conf.rhoBump ∧
    ∃ e', calculate fxfEngine [] { mkt := M, action := fxfEngine.insts, results := freshResults fxfEngine.insts fun _ => none } = .ok e') ∧
    PricedAs twinEngine twinFixed twinLoaded true ⟨"F", .futures "A" .krw, .krw, 5, day0 2021 12 1, 0⟩ (.futures "A" "C" "C") (.futures (day0 2021 12 1) 0) := by
  refine ⟨?_, ⟨rfl, rfl⟩⟩
  obtain ⟨a, han, oka, ⟨ta, hta, hta'⟩, -⟩ := sample_curve 0.03
  obtain ⟨b, hbn, okb, ⟨tb, htb, htb'⟩, -⟩ := sample_curve 0.01
  have hcs : ∀ n c', (fxfMarket a.blank b.blank).curves n = some c' → (n = "U" ∧ c' = a.blank) ∨ (n = "K" ∧ c' = b.blank) := by
    intro n c' h
    change (if n = "U" then some a.blank else if n = "K" then some b.blank else none) = some c' at h
    by_cases h1 : n = "U"
    · rw [if_pos h1] at h; exact Or.inl ⟨h1, (Option.some.inj h).symm⟩
    · rw [if_neg h1] at h
      by_cases h2 : n = "K"
      · rw [if_pos h2] at h; exact Or.inr ⟨h2, (Option.some.inj h).symm⟩
      · rw [if_neg h2] at h; cases h
  have hM : SoundMkt fxfEngine [day0 2021 7 1, day0 2022 1 1, day0 2023 1 1] (fxfMarket a.blank b.blank) := by
    refine ⟨?_, ?_, ?_, ⟨?_, ?_, ?_, ?_⟩, ?_, ?_⟩
    · intro n c' h
      rcases hcs n c' h with ⟨-, rfl⟩ | ⟨-, rfl⟩
      · exact ⟨curveOk_blank a oka, rfl, sample_times _ a han⟩
      · exact ⟨curveOk_blank b okb, rfl, sample_times _ b hbn⟩
    · intro u v h; cases h
    · intro u k h; cases h
    · intro p hp; cases hp
    · intro p hp; cases hp
    · intro p hp; cases hp
    · intro p hp; cases hp
    · show calcDates .checked (day0 2021 1 1) [['6', 'M'], ['1', 'Y'], ['2', 'Y']] = _
      decide +kernel
    · intro u s h; cases h
  have hg : OwnCodes fxfEngine := by
    show ([_].map Instr.code).Nodup
    simp
  have hroles : ∀ i ∈ fxfEngine.insts, curveRoles fxfEngine.p i = [some "K", some "U"] ∧ i.unds = [] ∧ i.maturity = some (day0 2022 7 1) := by
    intro i hi
    have hi' : i ∈ [fxfInstr] := hi
    rw [List.mem_singleton] at hi'
    subst hi'
    exact ⟨rfl, rfl, rfl⟩
  have hr : calcDates .checked (day0 2021 1 1) [['1', 'Y'], ['3', 'Y']] = .ok [day0 2022 1 1, day0 2024 1 1] := by decide +kernel
  have t1 : timeFrom (day0 2021 1 1) (day0 2022 1 1) = 1 := by
    have : timeDifference (day0 2021 1 1) (day0 2022 1 1) = 1 := by decide +kernel
    unfold timeFrom; rw [this]; norm_num
  have t3 : timeFrom (day0 2021 1 1) (day0 2024 1 1) = 400769 / 133590 := by
    have : timeDifference (day0 2021 1 1) (day0 2024 1 1) = 400769 / 133590 := by decide +kernel
    unfold timeFrom; rw [this]; norm_num
  have hb : (day0 2021 1 1).addNs (1 * dayNs) = .ok (day0 2021 1 2) := by decide +kernel
  have hlate : (day0 2021 1 2).instant < (day0 2022 7 1).instant := by decide +kernel
  have hsd : (fxfMarket a.blank b.blank).w.setDate (day0 2021 1 2) = .ok { date := day0 2021 1 2, prices := [], divs := [] } := rfl
  have hC : Complete fxfEngine [] (fxfMarket a.blank b.blank) := by
    refine ⟨?_, ?_, ?_, ?_, ?_, ?_, ?_, ?_, ?_, ?_⟩
    · intro i hi u hu; rw [(hroles i hi).2.1] at hu; cases hu
    · intro i hi; unfold CurvesNamed; rw [(hroles i hi).1]; simp
    · rintro i hi n ⟨-, hn⟩
      rw [(hroles i hi).1] at hn
      simp at hn
      rcases hn with hn | hn
      · rw [hn]; exact ⟨b.blank, rfl⟩
      · rw [hn]; exact ⟨a.blank, rfl⟩
    · intro i hi _ u hu; rw [(hroles i hi).2.1] at hu; cases hu
    · intro i hi _ u hu; rw [(hroles i hi).2.1] at hu; cases hu
    · intro u hu; cases hu
    · refine ⟨?_, ?_, ?_, ?_, ?_⟩ <;> simp [fxfEngine, demoConf] <;> norm_num
    · refine ⟨_, hr, fun k hk => ?_⟩
      show (startOf [timeFrom (day0 2021 1 1) (day0 2022 1 1), timeFrom (day0 2021 1 1) (day0 2024 1 1)] k).getD (-99999999)
        ≤ ([timeFrom (day0 2021 1 1) (day0 2022 1 1), timeFrom (day0 2021 1 1) (day0 2024 1 1)][k]?).getD 99999999
      rw [t1, t3]
      have hk : k < 2 := hk
      interval_cases k
      · simp [startOf]; norm_num
      · simp [startOf]; norm_num
    · refine ⟨_, hr, fun k hk => ?_⟩
      have hk : k < 2 := hk
      unfold WindowOk
      interval_cases k <;> decide +kernel
    · refine ⟨day0 2021 1 2, hb, fun i hi ht d hd => ?_⟩
      have hde : d = day0 2021 1 2 := by
        rcases hd with ⟨-, rfl⟩ | ⟨⟨m, hm, hle⟩, -⟩
        · rfl
        · rw [(hroles i hi).2.2] at hm
          obtain rfl := Option.some.inj hm
          omega
      subst hde
      refine ⟨⟨_, hsd⟩, ?_⟩
      have : timeDifference (day0 2021 1 1) (day0 2021 1 2) = 1 / 365 := by decide +kernel
      show ((timeDifference (day0 2021 1 1) (day0 2021 1 2) : ℚ) : ℝ) ≠ 0
      rw [this]
      norm_num
  have ubase : FxfCurves (fxfMarket a.blank b.blank) := ⟨⟨a.blank, rfl, curveOk_blank a oka, ta, hta, hta'⟩, ⟨b.blank, rfl, curveOk_blank b okb, tb, htb, htb'⟩, Or.inl rfl⟩
  have hR : Visits fxfEngine [day0 2021 7 1, day0 2022 1 1, day0 2023 1 1] (fxfMarket a.blank b.blank) FxfCurves := by
    refine ⟨ubase, ?_, ?_, ?_, ?_, ?_, ?_⟩
    · rintro u k m hk ⟨j, p, hj, -⟩; cases hj
    · rintro n win m ⟨c0, c1, h0, h1, -, h3, -, rfl⟩
      rcases hcs _ _ h0 with ⟨rfl, rfl⟩ | ⟨rfl, rfl⟩
      · refine ⟨⟨c1, by show ((fxfMarket a.blank b.blank).curves.put "U" c1) "U" = _; exact put_self _ _ _, h1, ta, ?_, hta'⟩,
          ⟨b.blank, by show ((fxfMarket a.blank b.blank).curves.put "U" c1) "K" = _; rw [put_other _ _ _ _ (by decide)]; rfl, curveOk_blank b okb, tb, htb, htb'⟩, ubase.date⟩
        rw [h3]
        exact hta
      · refine ⟨⟨a.blank, by show ((fxfMarket a.blank b.blank).curves.put "K" c1) "U" = _; rw [put_other _ _ _ _ (by decide)]; rfl, curveOk_blank a oka, ta, hta, hta'⟩,
          ⟨c1, by show ((fxfMarket a.blank b.blank).curves.put "K" c1) "K" = _; exact put_self _ _ _, h1, tb, ?_, htb'⟩, ubase.date⟩
        rw [h3]
        exact htb
    · rintro u win b m - ⟨s0, s1, env, h0, -⟩; cases h0
    · rintro u win m ⟨k, w, w', f, h0, -⟩; cases h0
    · rintro b' i d w hb' hi - hd hw
      have hbe : b' = day0 2021 1 2 := Except.ok.inj (hb'.symm.trans hb)
      subst hbe
      have hde : d = day0 2021 1 2 := by
        rcases hd with ⟨-, rfl⟩ | ⟨⟨m, hm, hle⟩, -⟩
        · rfl
        · rw [(hroles i hi).2.2] at hm
          obtain rfl := Option.some.inj hm
          omega
      subst hde
      rw [hsd] at hw
      obtain rfl := Except.ok.inj hw
      exact ⟨ubase.a, ubase.b, Or.inr rfl⟩
    · rintro m ⟨h1, -, -, -⟩
      rw [h1]
      exact ⟨ubase.a, ubase.b, ubase.date⟩
  have hP : CanPriceIn fxfEngine (fxfMarket a.blank b.blank) FxfCurves := by
    intro i hi
    have hi' : i ∈ [fxfInstr] := hi
    rw [List.mem_singleton] at hi'
    subst hi'
    obtain ⟨x, ex, x1, x2⟩ := two_curves_price _ ubase
    refine ⟨_, NpvResult.ofNpv x, [], rfl, fun m hm => ?_, ?_, rfl, ex, x2⟩
    · obtain ⟨x', -, x3, -⟩ := two_curves_price m hm
      exact ⟨_, x3⟩
    · show (do let z ← Plan.npv .checked fxfFixed (.fxFutures ⟨.usd, .krw⟩ "U" "K") (.fxFutures (day0 2022 7 1) 1000 1) _; Except.ok (NpvResult.ofNpv z) : Res NpvResult) = _
      rw [x1, Res.bind_ok]
  exact ⟨fxfMarket a.blank b.blank, hg, hM, ⟨rfl, rfl⟩, List.mem_singleton.2 rfl, rfl, rfl, rfl, by show (0 : ℝ) < 0.0001; norm_num,
    C97_succeeds_in fxfEngine hg [] List.nodup_nil _ _ hM hC FxfCurves hR hP rfl⟩


end Verif.Props

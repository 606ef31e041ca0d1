import Verif.Props.EngineSigns
import Verif.Props.Cashflow
import Verif.Props.Expected
import Mathlib.Algebra.BigOperators.Intervals
import Mathlib.Tactic.FieldSimp
/-!
# C159: the rhos of a fixed-rate bond: never positive, and by tenor they add up
-/
set_option autoImplicit false
namespace Verif.Props
open Verif Verif.QL Verif.Civil

/-! ## Specification -/

/-- No coupon of the bond is negative: neither a given amount nor year fraction times rate. -/
def CouponsNonneg (b : Bond) : Prop :=
  ∀ c ∈ b.schedule, (∀ a, c.2 = some a → 0 ≤ a) ∧ (c.2 = none → ∀ q r, yearFraction c.1.start c.1.stop b.dcc = .ok q → b.fixedRate = some r → 0 ≤ (q : ℝ) * r)

/-- The curve times that matter for payments on the dates `l`: those after the evaluation date that are first after a payment, or before one. -/
def Matters (times : List ℝ) (eval : DT) (l : List DT) (t : ℝ) : Prop :=
  0 < t ∧ ∃ (j : Nat) (d : DT), times[j]? = some t ∧ d ∈ l ∧ ∀ s, 0 < j → times[j - 1]? = some s → s ≤ timeFrom eval d

/-! ## Discount factors of bumped curves -/

/-- Both curves have a discount factor at `t`, weighted from the same two nodes, or none has one. -/
theorem df_pair (c c' : Curve) (hc : CurveOk c) (hc' : CurveOk c') (ht : c'.times = c.times) (t : ℝ) :
    (c.df t = .error .err ∧ c'.df t = .error .err) ∨
    ∃ (i : Nat) (t0 t1 r0 r1 r0' r1' a b : ℝ), c.times[i]? = some t0 ∧ c.times[i + 1]? = some t1 ∧ c.rates[i]? = some r0 ∧ c.rates[i + 1]? = some r1 ∧
      c'.rates[i]? = some r0' ∧ c'.rates[i + 1]? = some r1' ∧ t0 ≤ t ∧ t < t1 ∧ 0 ≤ t0 ∧ 0 < t1 ∧ 0 ≤ a ∧ 0 ≤ b ∧ a = (t1 - t) / (t1 - t0) ∧ b = (t - t0) / (t1 - t0) ∧
      c.df t = .ok (a * Real.exp (-(r0 * t0)) + b * Real.exp (-(r1 * t1))) ∧ c'.df t = .ok (a * Real.exp (-(r0' * t0)) + b * Real.exp (-(r1' * t1))) := by
  have h2 := hc.two
  have hl : c.times[c.times.length - 1]? = some c.times[c.times.length - 1] := List.getElem?_eq_getElem (by omega)
  have hl' : c'.times[c'.times.length - 1]? = some c.times[c.times.length - 1] := by rw [ht]; exact hl
  by_cases hin : 0 ≤ t ∧ t < c.times[c.times.length - 1]
  · right
    obtain ⟨i, t0, t1, r0, r1, a0, a1, b0, b1, le, lt, e⟩ := df_cases c hc t _ hl hin.1 hin.2
    obtain ⟨k1, -⟩ := List.getElem?_eq_some_iff.1 a1
    have len' := hc'.len
    rw [ht] at len'
    have g0 : c'.rates[i]? = some c'.rates[i] := List.getElem?_eq_getElem (by omega)
    have g1 : c'.rates[i + 1]? = some c'.rates[i + 1] := List.getElem?_eq_getElem (by omega)
    have e' := (C57_between c' hc' i t0 t1 _ _ (by rw [ht]; exact a0) (by rw [ht]; exact a1) g0 g1 t le lt).1
    have p0 := curve_time_nonneg c hc i t0 a0
    have hd : t1 - t0 ≠ 0 := by linarith
    refine ⟨i, t0, t1, r0, r1, _, _, _, _, a0, a1, b0, b1, g0, g1, le, lt, p0, by linarith, div_nonneg (by linarith) (by linarith), div_nonneg (by linarith) (by linarith), rfl, rfl, ?_, ?_⟩
    · rw [e]
      unfold chord
      congr 1
      field_simp
    · rw [e']
      unfold chord
      congr 1
      field_simp
  · left
    have hbad : t < 0 ∨ c.times[c.times.length - 1] ≤ t := by by_contra hh; push Not at hh; exact hin hh
    exact ⟨(C57_range c hc _ hl).2.2.2 t hbad, (C57_range c' hc' _ hl').2.2.2 t hbad⟩

/-- Higher rates, lower discount factors. -/
theorem df_lower (c c' : Curve) (hc : CurveOk c) (hc' : CurveOk c') (ht : c'.times = c.times)
    (hr : ∀ (i : Nat) r r', c.rates[i]? = some r → c'.rates[i]? = some r' → r ≤ r') (t : ℝ) : valOf (c'.df t) ≤ valOf (c.df t) := by
  rcases df_pair c c' hc hc' ht t with ⟨h1, h2⟩ | ⟨i, t0, t1, r0, r1, r0', r1', a, b, -, -, q0, q1, q0', q1', -, -, p0, p1, ha, hb, -, -, e, e'⟩
  · rw [h1, h2]
  · rw [e, e']
    have h0 := hr i _ _ q0 q0'
    have h1 := hr (i + 1) _ _ q1 q1'
    have m0 : Real.exp (-(r0' * t0)) ≤ Real.exp (-(r0 * t0)) := Real.exp_le_exp.2 (by nlinarith)
    have m1 : Real.exp (-(r1' * t1)) ≤ Real.exp (-(r1 * t1)) := Real.exp_le_exp.2 (by nlinarith)
    show a * _ + b * _ ≤ a * _ + b * _
    nlinarith

theorem dfOf_eq (c : Curve) (hc : CurveOk c) (eval d : DT) : dfOf { curve := c, eval := eval } d = valOf (c.df (timeFrom eval d)) := by
  unfold dfOf Live.df
  rw [(C57_at_date c hc eval d).1]
  rfl

/-! ## Bonds in the market -/

/-- The pricer of a bond discounts with the curve named for it. -/
theorem bond_plan (p : MatchParam) (L : Loaded) (an : Bool) (i : Instr) (n : String) (t : Nat) (r : Nat) (x : Option IndexId) (hk : i.kind = .bond n t r x) (pl : Plan)
    (h : createPricer p L an i = .ok pl) : ∃ d w q, pl = .bond d w q ∧ p.discountName i = .ok d := by
  unfold createPricer at h
  rw [hk] at h
  dsimp only at h
  obtain ⟨d, hd, h1⟩ := (bind_ok_iff _ _ _).1 h
  obtain ⟨d', hd', h2⟩ := (bind_ok_iff _ _ _).1 h1
  obtain ⟨f, hf, h3⟩ := (bind_ok_iff _ _ _).1 h2
  obtain rfl := Except.ok.inj h3
  unfold need at hd'
  split at hd'
  · obtain rfl := Except.ok.inj hd'
    exact ⟨_, _, _, rfl, hd⟩
  · cases hd'

/-- The value of a bond with fixed coupons, for discount factors `D` of the payment dates. -/
noncomputable def couponValue (b : Bond) (eval : DT) (D : DT → ℝ) : ℝ :=
  (b.schedule.map fun c => if eval.day < c.1.payment.day then valOf (b.amount .checked ⟨none, none⟩ eval c) * D c.1.payment else 0).sum
    + (open Classical in if b.strip = false ∧ eval.day < b.maturity.day then D b.maturity else 0)

theorem fixed_amount_eq (md : Mode) (b : Bond) (hb : b.index = none) (mk : Market) (eval : DT) (c : Coupon × Option ℝ) :
    b.amount md mk eval c = b.amount .checked ⟨none, none⟩ eval c := by
  unfold Bond.amount
  rw [hb]

/-- A fixed-rate bond with no pricing date of its own, in a market. -/
theorem bond_at (md : Mode) (f : Fixed) (m : Mkt) (d : String) (w q : Option String) (b : Bond) (hi : b.index = none) (hp : b.pricing = none) (hc : Coherent (Bond.dates b))
    (hg : ∀ c, m.curves d = some c → CurveOk c) (x : ℝ) (h : (Plan.bond d w q).npv md f (.bond b) m = .ok x) :
    ∃ c, m.curves d = some c ∧ x = couponValue b m.w.date fun z => valOf (c.df (timeFrom m.w.date z)) := by
  unfold Plan.npv at h
  dsimp only at h
  obtain ⟨P, hP, h1⟩ := (bind_ok_iff _ _ _).1 h
  unfold Mkt.bondPricer at hP
  obtain ⟨c, hcv, hP1⟩ := (bind_ok_iff _ _ _).1 hP
  obtain rfl := Except.ok.inj hP1
  have hcv' := (orErr_eq _ _).1 hcv
  obtain ⟨y, hy, -, e⟩ := C62_npv md _ b x h1 hc
  have hpr : pricedAt b m.w.date = m.w.date := by unfold pricedAt; rw [hp]
  dsimp only at hy e
  rw [hpr] at hy e
  have hy1 : y = 1 := by
    have := (C57_at_date c (hg c hcv') m.w.date m.w.date).2
    unfold Live.df at hy
    rw [this] at hy
    exact (Except.ok.inj hy).symm
  refine ⟨c, hcv', ?_⟩
  rw [e, hy1, div_one]
  unfold bondValue couponValue
  simp only [fixed_amount_eq md b hi, dfOf_eq c (hg c hcv')]

theorem couponValue_mono (b : Bond) (eval : DT) (hn : CouponsNonneg b) (hi : b.index = none) (D D' : DT → ℝ) (h : ∀ d, D' d ≤ D d) : couponValue b eval D' ≤ couponValue b eval D := by
  unfold couponValue
  refine add_le_add (List.sum_le_sum fun c hc => ?_) ?_
  · split
    · refine mul_le_mul_of_nonneg_left (h _) ?_
      obtain ⟨h1, h2⟩ := hn c hc
      unfold Bond.amount
      rw [hi]
      cases hc2 : c.2 with
      | some a => exact h1 a hc2
      | none =>
        dsimp only
        unfold frac
        cases hq : yearFraction c.1.start c.1.stop b.dcc with
        | error e => exact le_refl _
        | ok q =>
          cases hr : b.fixedRate with
          | none => exact le_refl _
          | some r => exact h2 hc2 q r hq hr
    · exact le_refl _
  · split
    · exact h _
    · exact le_refl _

/-- The value is additive in the discount factors. -/
theorem couponValue_sum (b : Bond) (eval : DT) (n : Nat) (D D1 : DT → ℝ) (Dk : Nat → DT → ℝ) (h : ∀ d ∈ Bond.dates b, D1 d - D d = ∑ k ∈ Finset.range n, (Dk k d - D d)) :
    couponValue b eval D1 - couponValue b eval D = ∑ k ∈ Finset.range n, (couponValue b eval (Dk k) - couponValue b eval D) := by
  unfold couponValue
  have hm := h b.maturity (by unfold Bond.dates; simp)
  have hs : ∀ l : List (Coupon × Option ℝ), (∀ c ∈ l, c.1.payment ∈ Bond.dates b) →
      (l.map fun c => if eval.day < c.1.payment.day then valOf (b.amount .checked ⟨none, none⟩ eval c) * D1 c.1.payment else 0).sum
        - (l.map fun c => if eval.day < c.1.payment.day then valOf (b.amount .checked ⟨none, none⟩ eval c) * D c.1.payment else 0).sum
      = ∑ k ∈ Finset.range n, ((l.map fun c => if eval.day < c.1.payment.day then valOf (b.amount .checked ⟨none, none⟩ eval c) * Dk k c.1.payment else 0).sum
        - (l.map fun c => if eval.day < c.1.payment.day then valOf (b.amount .checked ⟨none, none⟩ eval c) * D c.1.payment else 0).sum) := by
    intro l
    induction l with
    | nil => simp
    | cons c l ih =>
      intro hl
      have h1 := ih fun x hx => hl x (List.mem_cons_of_mem _ hx)
      have h2 := h _ (hl c (List.mem_cons_self ..))
      simp only [List.map_cons, List.sum_cons]
      by_cases hd : eval.day < c.1.payment.day
      · simp only [if_pos hd]
        simp only [add_sub_add_comm, ← mul_sub]
        rw [Finset.sum_add_distrib, ← Finset.mul_sum, ← h2, ← h1]
      · simp only [if_neg hd, zero_add]
        exact h1
  have hs := hs b.schedule (fun c hc => by unfold Bond.dates; exact List.mem_append_left _ (List.mem_map_of_mem hc))
  by_cases hr : b.strip = false ∧ eval.day < b.maturity.day
  · simp only [if_pos hr]
    rw [Finset.sum_congr rfl fun k _ => add_sub_add_comm _ _ _ _, Finset.sum_add_distrib, ← hs, ← hm]
    ring
  · simp only [if_neg hr, add_zero]
    exact hs

/-! ## Windows -/

/-- The curve `c'` is `c` with the rates at times in `win` higher by `b`. -/
structure RatesShifted (c c' : Curve) (win : ℝ → Prop) (b : ℝ) : Prop where
  ok : CurveOk c'
  times : c'.times = c.times
  rates : ∀ (i : Nat) t r, c.times[i]? = some t → c.rates[i]? = some r → c'.rates[i]? = some (open Classical in if win t then r + b else r)

theorem ratesShifted_self (c : Curve) (hc : CurveOk c) (b : ℝ) : RatesShifted c c (fun _ => False) b :=
  ⟨hc, rfl, fun i t r _ h => by simp only [if_false]; exact h⟩

/-- What a bump does to the discount factor of a time: it moves the two nodes beside it, if they are in the window. -/
theorem df_moved (c : Curve) (hc : CurveOk c) (β τ : ℝ) :
    (∀ c' win, RatesShifted c c' win β → valOf (c'.df τ) - valOf (c.df τ) = 0) ∨
    ∃ (i : Nat) (t0 t1 A B : ℝ), c.times[i]? = some t0 ∧ c.times[i + 1]? = some t1 ∧ t0 ≤ τ ∧ 0 ≤ t0 ∧ 0 < t1 ∧ (t0 = 0 → A = 0) ∧
      ∀ c' win, RatesShifted c c' win β → valOf (c'.df τ) - valOf (c.df τ) = (open Classical in if win t0 then A else 0) + (open Classical in if win t1 then B else 0) := by
  rcases df_pair c c hc hc rfl τ with ⟨h1, -⟩ | ⟨i, t0, t1, r0, r1, -, -, a, b, q0, q1, q2, q3, -, -, q6, q7, p0, p1, -, -, ea, eb, e, -⟩
  · left
    intro c' win hs
    rcases df_pair c c' hc hs.ok hs.times τ with ⟨-, h2⟩ | ⟨_, _, _, _, _, _, _, _, _, _, _, _, _, _, _, _, _, _, _, _, _, _, _, h3, _⟩
    · rw [h1, h2]; simp [valOf]
    · rw [h1] at h3; cases h3
  · right
    refine ⟨i, t0, t1, a * (Real.exp (-((r0 + β) * t0)) - Real.exp (-(r0 * t0))), b * (Real.exp (-((r1 + β) * t1)) - Real.exp (-(r1 * t1))), q0, q1, q6, p0, p1, ?_, ?_⟩
    · rintro rfl; simp
    · intro c' win hs
      have g0 := hs.rates i t0 r0 q0 q2
      have g1 := hs.rates (i + 1) t1 r1 q1 q3
      have e' := (C57_between c' hs.ok i t0 t1 _ _ (by rw [hs.times]; exact q0) (by rw [hs.times]; exact q1) g0 g1 τ q6 q7).1
      rw [e, e']
      have hd : t1 - t0 ≠ 0 := by linarith
      show chord _ _ _ _ _ - (a * _ + b * _) = _
      have hch : ∀ u v, chord t0 u t1 v τ = a * u + b * v := by
        intro u v
        rw [ea, eb]
        unfold chord
        field_simp
      rw [hch]
      split <;> split <;> ring

theorem inTenor_unique (times : List ℝ) (hs : times.Pairwise (· < ·)) (t : ℝ) (k k' : Nat) (hk : k < times.length) (hk' : k' < times.length) (h : InTenor times k t) (h' : InTenor times k' t) : k = k' := by
  have key : ∀ a b : Nat, a < b → b < times.length → InTenor times a t → ¬ InTenor times b t := by
    intro a b hab hb ha hb'
    have h1 := ha.2 _ (List.getElem?_eq_getElem (by omega : a < times.length))
    have h2 := hb'.1 _ (by omega) (List.getElem?_eq_getElem (by omega : b - 1 < times.length))
    rcases Nat.lt_or_ge a (b - 1) with q | q
    · have := List.pairwise_iff_getElem.1 hs a (b - 1) (by omega) (by omega) q
      linarith
    · have : a = b - 1 := by omega
      subst this
      linarith
  rcases lt_trichotomy k k' with q | q | q
  · exact absurd h' (key k k' q hk' h)
  · exact q
  · exact absurd h (key k' k q hk h')

theorem range_sum (F : Nat → ℝ) (n : Nat) : ((List.range n).map F).sum = ∑ k ∈ Finset.range n, F k := by
  induction n with
  | zero => simp
  | succ n ih => rw [List.range_succ, List.map_append, List.sum_append, Finset.sum_range_succ, ih]; simp

/-! ## The theorems -/

/-- What the calculation of a fixed-rate bond gives, in discount factors. -/
theorem bond_run (g : EngCfg) (hg : OwnCodes g) (names : List String) (hns : names.Nodup) (ds : List DT) (M : Mkt) (hM : SoundMkt g ds M) (hn : g.conf.npv = true)
    (f : Fixed) (L : Loaded) (an : Bool) (i : Instr) (hi : i ∈ g.insts) (n : String) (t : Nat) (r : Nat) (x : Option IndexId) (hk : i.kind = .bond n t r x) (pl : Plan) (b : Bond)
    (hp : PricedAs g f L an i pl (.bond b)) (hb : b.index = none) (hbp : b.pricing = none) (hco : Coherent (Bond.dates b)) (e' : Eng)
    (h : calculate g names { mkt := M, action := g.insts, results := freshResults g.insts fun _ => none } = .ok e') :
    ∃ y d c, e'.results i.code = some y ∧ g.p.discountName i = .ok d ∧ M.curves d = some c ∧ Calculated g names ds M e'.mkt i (EResult.fresh i) y ∧
      (∃ v, y.npv = some v ∧ v.npv = couponValue b M.w.date fun z => valOf (c.df (timeFrom M.w.date z))) ∧
      ∀ k win m up, CurveShifted k win g.conf.rhoBump M m → g.npv i m = .ok up →
        ∃ c' win', RatesShifted c c' win' g.conf.rhoBump ∧ (k = d → win' = win) ∧ (k ≠ d → c' = c) ∧ up = couponValue b M.w.date fun z => valOf (c'.df (timeFrom M.w.date z)) := by
  obtain ⟨-, hres⟩ := C97_new_engine g hg names hns ds M e' hM h
  obtain ⟨y, hy, ci⟩ := hres i hi
  obtain ⟨d, w, q, rfl, hd⟩ := bond_plan g.p L an i n t r x hk pl hp.made
  obtain ⟨p, v, fl, c1, c2, -, c4, -⟩ := ci.npv hn
  rw [hp.held] at c1
  obtain rfl := Option.some.inj c1
  have npvOf : ∀ m v, (Plan.bond d w q).result g.md f (.bond b) m = .ok v → (Plan.bond d w q).npv g.md f (.bond b) m = .ok v.npv := by
    intro m v hv
    unfold Plan.result at hv
    dsimp only at hv
    obtain ⟨P, hP, h1⟩ := (bind_ok_iff _ _ _).1 hv
    unfold Plan.npv
    dsimp only
    rw [hP, Res.bind_ok]
    exact ((C62_result g.md P b).1 v.npv).2 ⟨v, h1, rfl⟩
  obtain ⟨c, hc, hv⟩ := bond_at g.md f M d w q b hb hbp hco (fun c hc => (hM.curves d c hc).1) v.npv (npvOf M v c2)
  refine ⟨y, d, c, hy, hd, hc, ci, ⟨v, c4, hv⟩, fun k win m up hm hup => ?_⟩
  have hup' : (Plan.bond d w q).npv g.md f (.bond b) m = .ok up := by
    unfold EngCfg.npv at hup
    rw [hp.held] at hup
    exact hup
  obtain ⟨c0, cB, m1, m2, m3, m4, m5, m6⟩ := hm
  have facts : m.w = M.w ∧ m.curves = M.curves.put k cB := by rw [m6]; exact ⟨rfl, rfl⟩
  obtain ⟨f1, f2⟩ := facts
  by_cases hkd : k = d
  · subst hkd
    rw [hc] at m1
    obtain rfl := Option.some.inj m1
    obtain ⟨c', hc', e⟩ := bond_at g.md f m k w q b hb hbp hco (by rw [f2, put_self]; intro z hz; obtain rfl := Option.some.inj hz; exact m2) up hup'
    rw [f2, put_self] at hc'
    obtain rfl := Option.some.inj hc'
    rw [f1] at e
    exact ⟨cB, win, ⟨m2, m4, m5⟩, fun _ => rfl, fun q => absurd rfl q, e⟩
  · have hother : m.curves d = some c := by rw [f2, put_other _ _ _ _ (Ne.symm hkd)]; exact hc
    obtain ⟨c', hc', e⟩ := bond_at g.md f m d w q b hb hbp hco (by rw [hother]; intro z hz; obtain rfl := Option.some.inj hz; exact (hM.curves d c hc).1) up hup'
    rw [hother] at hc'
    obtain rfl := Option.some.inj hc'
    rw [f1] at e
    exact ⟨c, fun _ => False, ratesShifted_self c (hM.curves d c hc).1 _, fun q => absurd q hkd, fun _ => rfl, e⟩

/-- **C159** (signs). A bond with a fixed rate or given coupons, none negative, without a pricing date of its own, with nonnegative notional: no rho is positive, nor is the rho
of any tenor; to curves other than the one it is discounted with they are 0. -/
theorem C159_rho (g : EngCfg) (hg : OwnCodes g) (names : List String) (hns : names.Nodup) (ds : List DT) (M : Mkt) (hM : SoundMkt g ds M) (hn : g.conf.npv = true)
    (f : Fixed) (L : Loaded) (an : Bool) (i : Instr) (hi : i ∈ g.insts) (n : String) (t : Nat) (r : Nat) (x : Option IndexId) (hk : i.kind = .bond n t r x) (pl : Plan) (b : Bond)
    (hp : PricedAs g f L an i pl (.bond b)) (hb : b.index = none) (hbp : b.pricing = none) (hco : Coherent (Bond.dates b)) (hcn : CouponsNonneg b) (hN : 0 ≤ i.notional)
    (hβ : 0 < g.conf.rhoBump) (e' : Eng)
    (h : calculate g names { mkt := M, action := g.insts, results := freshResults g.insts fun _ => none } = .ok e') :
    ∃ y d, e'.results i.code = some y ∧ g.p.discountName i = .ok d ∧ ∀ k, UsesCurve g.p k i →
      (g.conf.rho = true → ∃ z, y.rho k = some z ∧ z ≤ 0 ∧ (k ≠ d → z = 0)) ∧
      (g.conf.rhoS = true → ∃ l, y.rhoS k = some l ∧ ∀ z ∈ l, z ≤ 0 ∧ (k ≠ d → z = 0)) := by
  obtain ⟨y, d, c, hy, hd, hc, ci, ⟨v, hv, hv'⟩, run⟩ := bond_run g hg names hns ds M hM hn f L an i hi n t r x hk pl b hp hb hbp hco e' h
  have tn : i.typeName ≠ "Stock" ∧ i.typeName ≠ "Cash" := by unfold Instr.typeName; rw [hk]; simp
  have sgn : ∀ k win m z, CurveShifted k win g.conf.rhoBump M m → ForwardDiff g m g.conf.rhoBump 0.0001 i y.npv (some z) → z ≤ 0 ∧ (k ≠ d → z = 0) := by
    rintro k win m z hm ⟨v', up, q1, q2, q3, q4⟩
    rw [hv] at q1
    obtain rfl := Option.some.inj q1
    obtain ⟨c', win', s1, -, s3, s4⟩ := run k win m up hm q2
    obtain rfl := Option.some.inj q4
    constructor
    · have hle : up ≤ v.npv := by
        rw [hv', s4]
        refine couponValue_mono b _ hcn hb _ _ fun z => df_lower c c' (hM.curves d c hc).1 s1.ok s1.times (fun j r r' h1 h2 => ?_) _
        obtain ⟨hj, -⟩ := List.getElem?_eq_some_iff.1 h1
        have := s1.rates j _ r (List.getElem?_eq_getElem (by rw [← (hM.curves d c hc).1.len]; exact hj)) h1
        rw [h2] at this
        rw [Option.some.inj this]
        split <;> linarith
      have h1 : 0 ≤ (v.npv - up) / g.conf.rhoBump * 0.0001 * i.notional := mul_nonneg (mul_nonneg (div_nonneg (by linarith) hβ.le) (by norm_num)) hN
      have h2 : (up - v.npv) / g.conf.rhoBump * 0.0001 * i.notional = -((v.npv - up) / g.conf.rhoBump * 0.0001 * i.notional) := by ring
      linarith
    · intro hkd
      rw [s3 hkd, ← hv'] at s4
      rw [s4]
      ring
  refine ⟨y, d, hy, hd, fun k hu => ⟨fun hr => ?_, fun hr => ?_⟩⟩
  · obtain ⟨m, s1, s2⟩ := ((ci.rho hr) k).1 ⟨hu, tn.1⟩
    have s3 := s2
    obtain ⟨v', up, -, -, -, s4⟩ := s3
    rw [s4] at s2
    exact ⟨_, s4, sgn k _ m _ s1 s2⟩
  · obtain ⟨dr, -, d2⟩ := ci.rhoS hr
    obtain ⟨l, s1, s2, s3⟩ := (d2 k).1 ⟨hu, tn⟩
    refine ⟨l, s1, fun z hz => ?_⟩
    obtain ⟨j, hj, rfl⟩ := List.getElem_of_mem hz
    have hz' : l[j]? = some l[j] := List.getElem?_eq_getElem hj
    obtain ⟨a1, a2⟩ := s3 j (by omega)
    by_cases hR : TenorReached (fun j => j ∈ g.insts ∧ UsesCurve g.p k j ∧ j.typeName ≠ "Stock" ∧ j.typeName ≠ "Cash") dr j
    · obtain ⟨m, m1, m2⟩ := a1 hR
      rw [hz'] at m2
      exact sgn k _ m _ m1 m2
    · have := a2 hR
      rw [hz'] at this
      rw [Option.some.inj this]
      exact ⟨le_refl _, fun _ => rfl⟩

/-- **C159** (sum). For such a bond, coupons of any sign, the rhos by tenor to its discount curve add up to its rho exactly, if every node of the curve that matters for its
payments is in the window of a tenor that is looked at. -/
theorem C159_sum (g : EngCfg) (hg : OwnCodes g) (names : List String) (hns : names.Nodup) (ds : List DT) (M : Mkt) (hM : SoundMkt g ds M) (hn : g.conf.npv = true)
    (f : Fixed) (L : Loaded) (an : Bool) (i : Instr) (hi : i ∈ g.insts) (n : String) (t : Nat) (r : Nat) (x : Option IndexId) (hk : i.kind = .bond n t r x) (pl : Plan) (b : Bond)
    (hp : PricedAs g f L an i pl (.bond b)) (hb : b.index = none) (hbp : b.pricing = none) (hco : Coherent (Bond.dates b))
    (hr : g.conf.rho = true) (hrS : g.conf.rhoS = true) (d : String) (hd : g.p.discountName i = .ok d) (hu : UsesCurve g.p d i)
    (dr : List DT) (hdr : calcDates g.md M.w.date g.conf.rhoTenors = .ok dr) (hsort : (dr.map (timeFrom M.w.date)).Pairwise (· < ·))
    (hcov : ∀ c, M.curves d = some c → ∀ s, Matters c.times M.w.date (Bond.dates b) s → ∃ k, k < dr.length ∧ InTenor (dr.map (timeFrom M.w.date)) k s ∧
      TenorReached (fun j => j ∈ g.insts ∧ UsesCurve g.p d j ∧ j.typeName ≠ "Stock" ∧ j.typeName ≠ "Cash") dr k) (e' : Eng)
    (h : calculate g names { mkt := M, action := g.insts, results := freshResults g.insts fun _ => none } = .ok e') :
    ∃ y z l, e'.results i.code = some y ∧ y.rho d = some z ∧ y.rhoS d = some l ∧ l.length = dr.length ∧ l.sum = z := by
  obtain ⟨y, d', c, hy, hd', hc, ci, ⟨v, hv, hv'⟩, run⟩ := bond_run g hg names hns ds M hM hn f L an i hi n t r x hk pl b hp hb hbp hco e' h
  rw [hd] at hd'
  obtain rfl := Except.ok.inj hd'
  have tn : i.typeName ≠ "Stock" ∧ i.typeName ≠ "Cash" := by unfold Instr.typeName; rw [hk]; simp
  have ok := (hM.curves d c hc).1
  obtain ⟨m, s1, v', up, q1, q2, q3, q4⟩ := ((ci.rho hr) d).1 ⟨hu, tn.1⟩
  rw [hv] at q1
  obtain rfl := Option.some.inj q1
  obtain ⟨c1, win1, a1, a2, -, a4⟩ := run d _ m up s1 q2
  obtain rfl := a2 rfl
  obtain ⟨dr', d1, d2⟩ := ci.rhoS hrS
  rw [hdr] at d1
  obtain rfl := Except.ok.inj d1
  obtain ⟨l, l1, l2, l3⟩ := (d2 d).1 ⟨hu, tn⟩
  generalize hR : (fun k => TenorReached (fun j => j ∈ g.insts ∧ UsesCurve g.p d j ∧ j.typeName ≠ "Stock" ∧ j.typeName ≠ "Cash") dr k) = R at *
  have hR' : ∀ k, TenorReached (fun j => j ∈ g.insts ∧ UsesCurve g.p d j ∧ j.typeName ≠ "Stock" ∧ j.typeName ≠ "Cash") dr k ↔ R k := fun k => by rw [← hR]
  have each : ∀ k, ∃ ck win, RatesShifted c ck win g.conf.rhoBump ∧ (k < dr.length →
      l[k]? = some ((couponValue b M.w.date (fun z => valOf (ck.df (timeFrom M.w.date z))) - v.npv) / g.conf.rhoBump * 0.0001 * i.notional) ∧
      ∀ s, win s ↔ R k ∧ InTenor (dr.map (timeFrom M.w.date)) k s) := by
    intro k
    by_cases hkl : k < dr.length
    · by_cases hk' : R k
      · obtain ⟨m', m1, v', up', m2, m3, m4, m5⟩ := (l3 k hkl).1 ((hR' k).2 hk')
        rw [hv] at m2
        obtain rfl := Option.some.inj m2
        obtain ⟨ck, win, b1, b2, -, b4⟩ := run d _ m' up' m1 m3
        obtain rfl := b2 rfl
        exact ⟨ck, _, b1, fun _ => ⟨by rw [m5, b4], fun s => ⟨fun q => ⟨hk', q⟩, fun q => q.2⟩⟩⟩
      · refine ⟨c, fun _ => False, ratesShifted_self c ok _, fun _ => ⟨?_, fun s => ⟨fun q => q.elim, fun q => absurd q.1 hk'⟩⟩⟩
        rw [(l3 k hkl).2 (fun q => hk' ((hR' k).1 q)), hv']
        simp
    · exact ⟨c, fun _ => False, ratesShifted_self c ok _, fun q => absurd q hkl⟩
  choose ck win hsh hck using each
  refine ⟨y, _, l, hy, q4, l1, l2, ?_⟩
  have key := couponValue_sum b M.w.date dr.length (fun z => valOf (c.df (timeFrom M.w.date z))) (fun z => valOf (c1.df (timeFrom M.w.date z)))
    (fun k z => valOf ((ck k).df (timeFrom M.w.date z))) (by
    intro z hz
    show valOf (c1.df _) - valOf (c.df _) = ∑ k ∈ Finset.range dr.length, (valOf ((ck k).df _) - valOf (c.df _))
    rcases df_moved c ok g.conf.rhoBump (timeFrom M.w.date z) with hno | ⟨j, t0, t1, A, B, j0, j1, j2, j3, j4, j5, hmv⟩
    · rw [hno c1 _ a1, Finset.sum_congr rfl fun k _ => hno (ck k) _ (hsh k), Finset.sum_const_zero]
    · rw [hmv c1 _ a1, Finset.sum_congr rfl fun k _ => hmv (ck k) _ (hsh k), Finset.sum_add_distrib, if_pos trivial, if_pos trivial]
      have node : ∀ (s A : ℝ), Matters c.times M.w.date (Bond.dates b) s → ∑ k ∈ Finset.range dr.length, (open Classical in if win k s then A else 0) = A := by
        intro s A hs
        obtain ⟨k0, k1, k2, k3⟩ := hcov c hc s hs
        rw [Finset.sum_eq_single k0]
        · rw [if_pos (((hck k0 k1).2 s).2 ⟨(hR' k0).1 k3, k2⟩)]
        · intro k hk' hne
          rw [Finset.mem_range] at hk'
          rw [if_neg]
          intro hw
          exact hne (inTenor_unique _ hsort s k k0 (by simpa using hk') (by simpa using k1) (((hck k hk').2 s).1 hw).2 k2)
        · intro hk'
          exact absurd (Finset.mem_range.2 k1) hk'
      congr 1
      · rcases j3.lt_or_eq with q | q
        · refine (node t0 A ⟨q, j, z, j0, hz, fun s hj hs => ?_⟩).symm
          obtain ⟨i1, rfl⟩ := List.getElem?_eq_some_iff.1 hs
          obtain ⟨i2, rfl⟩ := List.getElem?_eq_some_iff.1 j0
          have := List.pairwise_iff_getElem.1 ok.inc (j - 1) j i1 i2 (by omega)
          linarith
        · rw [j5 q.symm]
          simp
      · refine (node t1 B ⟨j4, j + 1, z, j1, hz, fun s _ hs => ?_⟩).symm
        rw [Nat.add_sub_cancel, j0] at hs
        rw [← Option.some.inj hs]
        exact j2)
  have hl : l = (List.range dr.length).map fun k => (couponValue b M.w.date (fun z => valOf ((ck k).df (timeFrom M.w.date z))) - v.npv) / g.conf.rhoBump * 0.0001 * i.notional := by
    refine List.ext_getElem? fun k => ?_
    by_cases hkl : k < dr.length
    · rw [(hck k hkl).1]
      simp [hkl]
    · rw [List.getElem?_eq_none (by omega), List.getElem?_eq_none (by simp; omega)]
  rw [hl, range_sum, a4, hv']
  rw [hv'] at *
  rw [← Finset.sum_mul, ← Finset.sum_mul, ← Finset.sum_div, ← key]

/-! ## A concrete engine -/

/-- The engine holds a hundred of the bond of `bond_witness`; rhos are asked for one and three years. -/
noncomputable def bondEngine : EngCfg where
  md := .checked
  pricers := fun c => if c = "B" then some (Plan.pricer .checked twinFixed (.bond sampleBond) (.bond "C" none none)) else none
  p := { collateral := fun _ => none, borrowing := fun _ => none, bondDiscount := fun _ => some "C", rateForward := fun _ => none, crs := fun _ => none, funding := fun _ => none }
  conf := { demoConf with rhoTenors := [['1', 'Y'], ['3', 'Y']] }
  insts := [⟨"B", .bond "KTB" 0 0 none, .krw, 100, day0 2022 7 1, 0⟩]

/-- Nothing but the curve -/
def bondMarket (c : Curve) : Mkt where
  w := { date := day0 2021 1 1, prices := [], divs := [] }
  equity := fun _ => none
  dividend := fun _ => none
  curves := fun n => if n = "C" then some c else none
  vols := fun _ => none
  volCurves := fun _ => none

/-- What the pricer needs of a market -/
structure Discounting (m : Mkt) : Prop where
  curve : ∃ c, m.curves "C" = some c ∧ CurveOk c ∧ ∃ tl, c.times[c.times.length - 1]? = some tl ∧ 99 ≤ tl
  date : m.w.date = day0 2021 1 1 ∨ m.w.date = day0 2021 1 2

theorem discounting_bond (m : Mkt) (h : Discounting m) : ∃ v fl, Plan.result .checked twinFixed (.bond "C" none none) (.bond sampleBond) m = .ok v ∧ v.expected = .ok fl ∧
    Plan.npv .checked twinFixed (.bond "C" none none) (.bond sampleBond) m = .ok v.npv := by
  obtain ⟨c, c1, ok, tl, htl, h99⟩ := h.curve
  let P : BondPricer := { eval := m.w.date, disc := c, mkt := { fwd := none, close := none } }
  have hP : m.bondPricer twinFixed "C" none none = .ok P := by
    unfold Mkt.bondPricer
    rw [c1]
    rfl
  obtain ⟨-, -, hdf, -⟩ := C57_range c ok tl htl
  have hpr : P.pricing sampleBond = m.w.date := rfl
  have hdef : ∃ m', sampleBond.flows .checked { fwd := none, close := none } m.w.date = .ok m' := by
    rw [C61_defined]
    intro x hx _
    rcases List.mem_cons.1 hx with q | hx
    · rw [q]
      exact ((C61_fixed_amount .checked sampleBond { fwd := none, close := none } m.w.date 0.05 rfl rfl _).2.2).2 ⟨by decide +kernel, by decide⟩
    · rw [List.mem_singleton.1 hx]
      exact ((C61_fixed_amount .checked sampleBond { fwd := none, close := none } m.w.date 0.05 rfl rfl _).2.2).2 ⟨by decide +kernel, by decide⟩
  obtain ⟨fl, hfl⟩ := hdef
  have hall : ∀ e, e = day0 2021 1 1 ∨ e = day0 2021 1 2 → ∀ d ∈ Bond.dates sampleBond ++ [e], ∃ y, Live.df { curve := c, eval := e } d = .ok y ∧ 0 < y := by
    intro e he d hd
    have ht : ((0 : ℚ) ≤ timeDifference e d ∧ timeDifference e d < 99) := by
      rcases he with rfl | rfl <;> revert d <;> decide +kernel
    unfold Live.df
    rw [(C57_at_date c ok _ d).1]
    exact hdf _ (by exact_mod_cast ht.1) (lt_of_lt_of_le (by exact_mod_cast ht.2) h99)
  have hall := hall _ h.date
  obtain ⟨d, hd, hpos⟩ := hall m.w.date (by simp)
  have hs := (discounted_iff { curve := c, eval := m.w.date } m.w.date fl 0 _).2 ⟨fun x hx _ => by
    obtain ⟨y, hy, -⟩ := hall x.1 (List.mem_append_left _ (bond_flow_days _ _ _ _ fl hfl x hx).2)
    exact ⟨y, hy⟩, rfl⟩
  have hn : P.npv .checked sampleBond = .ok _ := (bond_npv_iff .checked P sampleBond _).2 ⟨fl, _, d, hfl, hs, hd, if_neg (ne_of_gt hpos)⟩
  obtain ⟨r, hr, hr'⟩ := ((C62_result .checked P sampleBond).1 _).1 hn
  have hex : ∃ e, r.expected = .ok e := by
    obtain ⟨-, e, -, he, -⟩ := C67_bond .checked P sampleBond r hr r.amounts (List.Perm.refl _)
    exact ⟨e, he⟩
  obtain ⟨e, he⟩ := hex
  refine ⟨r, e, ?_, he, ?_⟩
  · show (do let x ← m.bondPricer twinFixed "C" none none; x.result .checked sampleBond) = _
    rw [hP, Res.bind_ok, hr]
  · show (do let x ← m.bondPricer twinFixed "C" none none; x.npv .checked sampleBond) = _
    rw [hP, Res.bind_ok, hn, hr']

/-- All hypotheses of `C159_rho` and `C159_sum` are met by this engine. -/
theorem bonds_witness : ∃ M dr, OwnCodes bondEngine ∧ SoundMkt bondEngine [day0 2021 7 1, day0 2022 1 1, day0 2023 1 1] M ∧
    PricedAs bondEngine twinFixed { twinLoaded with curves := fun _ => true } true ⟨"B", .bond "KTB" 0 0 none, .krw, 100, day0 2022 7 1, 0⟩ (.bond "C" none none) (.bond sampleBond) ∧
    sampleBond.index = none ∧ sampleBond.pricing = none ∧ Coherent (Bond.dates sampleBond) ∧ CouponsNonneg sampleBond ∧
    UsesCurve bondEngine.p "C" ⟨"B", .bond "KTB" 0 0 none, .krw, 100, day0 2022 7 1, 0⟩ ∧ bondEngine.p.discountName ⟨"B", .bond "KTB" 0 0 none, .krw, 100, day0 2022 7 1, 0⟩ = .ok "C" ∧
    calcDates bondEngine.md M.w.date bondEngine.conf.rhoTenors = .ok dr ∧ (dr.map (timeFrom M.w.date)).Pairwise (· < ·) ∧
    (∀ c, M.curves "C" = some c → ∀ s, Matters c.times M.w.date (Bond.dates sampleBond) s → ∃ k, k < dr.length ∧ InTenor (dr.map (timeFrom M.w.date)) k s ∧
      TenorReached (fun j => j ∈ bondEngine.insts ∧ UsesCurve bondEngine.p "C" j ∧ j.typeName ≠ "Stock" ∧ j.typeName ≠ "Cash") dr k) ∧
    ∃ e', calculate bondEngine [] { mkt := M, action := bondEngine.insts, results := freshResults bondEngine.insts fun _ => none } = .ok e' := by
  obtain ⟨c, hcn, ok, ⟨tl, htl, htl'⟩, -⟩ := sample_curve 0.03
  have hM : SoundMkt bondEngine [day0 2021 7 1, day0 2022 1 1, day0 2023 1 1] (bondMarket c.blank) := by
    refine ⟨?_, ?_, ?_, ⟨?_, ?_, ?_, ?_⟩, ?_, ?_⟩
    · intro n c' h
      obtain ⟨-, e⟩ := (Option.ite_none_right_eq_some).1 h
      obtain rfl := Option.some.inj e
      exact ⟨curveOk_blank c ok, rfl, sample_times _ c hcn⟩
    · intro u v h; cases h
    · intro u k h; cases h
    · intro p hp; cases hp
    · intro p hp; cases hp
    · intro p hp; cases hp
    · intro p hp; cases hp
    · show calcDates .checked (day0 2021 1 1) [['6', 'M'], ['1', 'Y'], ['2', 'Y']] = _
      decide +kernel
    · intro u s h; cases h
  have hg : OwnCodes bondEngine := by
    show ([_].map Instr.code).Nodup
    simp
  have hroles : ∀ i ∈ bondEngine.insts, curveRoles bondEngine.p i = [some "C"] ∧ i.unds = [] ∧ i.maturity = some (day0 2022 7 1) := by
    intro i hi
    have hi' : i ∈ [(⟨"B", .bond "KTB" 0 0 none, .krw, 100, day0 2022 7 1, 0⟩ : Instr)] := hi
    rw [List.mem_singleton] at hi'
    subst hi'
    exact ⟨rfl, rfl, rfl⟩
  have hr : calcDates .checked (day0 2021 1 1) [['1', 'Y'], ['3', 'Y']] = .ok [day0 2022 1 1, day0 2024 1 1] := by decide +kernel
  have t1 : timeFrom (day0 2021 1 1) (day0 2022 1 1) = 1 := by
    have : timeDifference (day0 2021 1 1) (day0 2022 1 1) = 1 := by decide +kernel
    unfold timeFrom; rw [this]; norm_num
  have t3 : timeFrom (day0 2021 1 1) (day0 2024 1 1) = 400769 / 133590 := by
    have : timeDifference (day0 2021 1 1) (day0 2024 1 1) = 400769 / 133590 := by decide +kernel
    unfold timeFrom; rw [this]; norm_num
  have hb : (day0 2021 1 1).addNs (1 * dayNs) = .ok (day0 2021 1 2) := by decide +kernel
  have hlate : (day0 2021 1 2).instant < (day0 2022 7 1).instant := by decide +kernel
  have hsd : (bondMarket c.blank).w.setDate (day0 2021 1 2) = .ok { date := day0 2021 1 2, prices := [], divs := [] } := rfl
  have hC : Complete bondEngine [] (bondMarket c.blank) := by
    refine ⟨?_, ?_, ?_, ?_, ?_, ?_, ?_, ?_, ?_, ?_⟩
    · intro i hi u hu; rw [(hroles i hi).2.1] at hu; cases hu
    · intro i hi; unfold CurvesNamed; rw [(hroles i hi).1]; simp
    · rintro i hi n ⟨-, hn⟩
      rw [(hroles i hi).1] at hn
      simp at hn
      rw [hn]
      exact ⟨_, rfl⟩
    · intro i hi _ u hu; rw [(hroles i hi).2.1] at hu; cases hu
    · intro i hi _ u hu; rw [(hroles i hi).2.1] at hu; cases hu
    · intro u hu; cases hu
    · refine ⟨?_, ?_, ?_, ?_, ?_⟩ <;> simp [bondEngine, demoConf] <;> norm_num
    · refine ⟨_, hr, fun k hk => ?_⟩
      show (startOf [timeFrom (day0 2021 1 1) (day0 2022 1 1), timeFrom (day0 2021 1 1) (day0 2024 1 1)] k).getD (-99999999)
        ≤ ([timeFrom (day0 2021 1 1) (day0 2022 1 1), timeFrom (day0 2021 1 1) (day0 2024 1 1)][k]?).getD 99999999
      rw [t1, t3]
      have hk : k < 2 := hk
      interval_cases k
      · simp [startOf]; norm_num
      · simp [startOf]; norm_num
    · refine ⟨_, hr, fun k hk => ?_⟩
      have hk : k < 2 := hk
      unfold WindowOk
      interval_cases k <;> decide +kernel
    · refine ⟨day0 2021 1 2, hb, fun i hi ht d hd => ?_⟩
      have hde : d = day0 2021 1 2 := by
        rcases hd with ⟨-, rfl⟩ | ⟨⟨m, hm, hle⟩, -⟩
        · rfl
        · rw [(hroles i hi).2.2] at hm
          obtain rfl := Option.some.inj hm
          omega
      subst hde
      refine ⟨⟨_, hsd⟩, ?_⟩
      have : timeDifference (day0 2021 1 1) (day0 2021 1 2) = 1 / 365 := by decide +kernel
      show ((timeDifference (day0 2021 1 1) (day0 2021 1 2) : ℚ) : ℝ) ≠ 0
      rw [this]
      norm_num
  have ubase : Discounting (bondMarket c.blank) := ⟨⟨c.blank, rfl, curveOk_blank c ok, tl, htl, htl'⟩, Or.inl rfl⟩
  have hR : Visits bondEngine [day0 2021 7 1, day0 2022 1 1, day0 2023 1 1] (bondMarket c.blank) Discounting := by
    refine ⟨ubase, ?_, ?_, ?_, ?_, ?_, ?_⟩
    · rintro u k m hk ⟨j, p, hj, -⟩; cases hj
    · rintro n win m ⟨c0, c1, h0, h1, -, h3, -, rfl⟩
      obtain ⟨rfl, e⟩ := (Option.ite_none_right_eq_some).1 h0
      obtain rfl := Option.some.inj e
      refine ⟨⟨c1, by show ((bondMarket c.blank).curves.put "C" c1) "C" = _; exact put_self _ _ _, h1, tl, ?_, htl'⟩, ubase.date⟩
      rw [h3]
      exact htl
    · rintro u win b m - ⟨s0, s1, env, h0, -⟩; cases h0
    · rintro u win m ⟨k, w, w', f, h0, -⟩; cases h0
    · rintro b i d w hb' hi - hd hw
      have hbe : b = day0 2021 1 2 := Except.ok.inj (hb'.symm.trans hb)
      subst hbe
      have hde : d = day0 2021 1 2 := by
        rcases hd with ⟨-, rfl⟩ | ⟨⟨m, hm, hle⟩, -⟩
        · rfl
        · rw [(hroles i hi).2.2] at hm
          obtain rfl := Option.some.inj hm
          omega
      subst hde
      rw [hsd] at hw
      obtain rfl := Except.ok.inj hw
      exact ⟨ubase.curve, Or.inr rfl⟩
    · rintro m ⟨h1, -, -, -⟩
      rw [h1]
      exact ⟨ubase.curve, ubase.date⟩
  have hP : CanPriceIn bondEngine (bondMarket c.blank) Discounting := by
    intro i hi
    have hi' : i ∈ [(⟨"B", .bond "KTB" 0 0 none, .krw, 100, day0 2022 7 1, 0⟩ : Instr)] := hi
    rw [List.mem_singleton] at hi'
    subst hi'
    obtain ⟨v, fl, v1, v2, -⟩ := discounting_bond _ ubase
    refine ⟨_, v, fl, rfl, fun m hm => ?_, v1, v2, ⟨_, rfl⟩⟩
    obtain ⟨v', -, -, -, v3⟩ := discounting_bond m hm
    exact ⟨_, v3⟩
  have hcov : ∀ c', (bondMarket c.blank).curves "C" = some c' → ∀ s, Matters c'.times (day0 2021 1 1) (Bond.dates sampleBond) s → s ≤ 2 := by
    intro c' hc' s hs
    obtain rfl := Option.some.inj hc'
    obtain ⟨hpos, j, d, hj, hd, hbef⟩ := hs
    have hv : (day0 2021 1 1).Valid := by refine ⟨?_, ?_, ?_⟩ <;> decide +kernel
    obtain ⟨c2, ds, e2, -, l, hds, et, -⟩ := C57_new .checked (day0 2021 1 1) hv (by decide +kernel) [1] [0.03] rfl (by simp) (by simp)
    rw [hcn] at e2
    obtain rfl := Except.ok.inj e2
    have hlen : ds.length = 29 := by rw [← l, et, List.length_map]
    have h13 := (List.forall₂_iff_get.1 hds).2 13 (by decide) (by omega)
    have e13 : addPeriod .checked (day0 2021 1 1) (tenors.get ⟨13, by decide⟩) = .ok (day0 2023 1 1) := by decide +kernel
    rw [e13] at h13
    have hx : ds.get ⟨13, by omega⟩ = day0 2023 1 1 := (Except.ok.inj h13).symm
    have ht13 : c.times[13]? = some (timeFrom (day0 2021 1 1) (day0 2023 1 1)) := by
      rw [et, List.getElem?_map]
      have : ds[13]? = some (day0 2023 1 1) := by
        rw [List.getElem?_eq_getElem (by omega)]
        exact congrArg some hx
      rw [this]
      rfl
    have t2 : timeFrom (day0 2021 1 1) (day0 2023 1 1) = 2 := by
      have : timeDifference (day0 2021 1 1) (day0 2023 1 1) = 2 := by decide +kernel
      unfold timeFrom; rw [this]; norm_num
    have hd2 : timeFrom (day0 2021 1 1) d < 2 := by
      have : ∀ d ∈ Bond.dates sampleBond, timeDifference (day0 2021 1 1) d < 2 := by decide +kernel
      have := this d hd
      unfold timeFrom
      exact_mod_cast this
    rw [t2] at ht13
    change c.times[j]? = some s at hj
    obtain ⟨i1, i2⟩ := List.getElem?_eq_some_iff.1 hj
    obtain ⟨k1, k2⟩ := List.getElem?_eq_some_iff.1 ht13
    rcases Nat.lt_trichotomy j 13 with q | q | q
    · have := List.pairwise_iff_getElem.1 ok.inc j 13 i1 k1 q
      rw [i2, k2] at this
      linarith
    · subst q
      rw [ht13] at hj
      rw [← Option.some.inj hj]
    · have hb' := hbef (c.times[j - 1]'(by omega)) (by omega) (List.getElem?_eq_getElem (show j - 1 < c.times.length by omega))
      rcases Nat.lt_or_ge 13 (j - 1) with q' | q'
      · have := List.pairwise_iff_getElem.1 ok.inc 13 (j - 1) k1 (by omega) q'
        rw [k2] at this
        linarith
      · have : j - 1 = 13 := by omega
        simp only [this] at hb'
        rw [k2] at hb'
        linarith
  refine ⟨bondMarket c.blank, [day0 2022 1 1, day0 2024 1 1], hg, hM, ⟨rfl, rfl⟩, rfl, rfl, coherent_of_offset _ 0 (by decide +kernel), ?_, ⟨by decide, by simp [curveRoles, bondEngine]⟩, rfl, hr, ?_, ?_,
    C97_succeeds_in bondEngine hg [] List.nodup_nil _ _ hM hC Discounting hR hP rfl⟩
  · intro x hx
    refine ⟨fun a ha => ?_, fun _ q r hq hr => ?_⟩
    · rcases List.mem_cons.1 hx with e | hx
      · rw [e] at ha; cases ha
      · rw [List.mem_singleton.1 hx] at ha; cases ha
    · obtain rfl := Option.some.inj hr
      have hq0 : 0 ≤ q := by
        rcases List.mem_cons.1 hx with e | hx
        · rw [e] at hq
          have : yearFraction (day0 2021 7 1) (day0 2022 1 1) .actual365Fixed = .ok (184 / 365) := by decide +kernel
          have := Except.ok.inj (this.symm.trans hq)
          rw [← this]; norm_num
        · rw [List.mem_singleton.1 hx] at hq
          have : yearFraction (day0 2022 1 1) (day0 2022 7 1) .actual365Fixed = .ok (181 / 365) := by decide +kernel
          have := Except.ok.inj (this.symm.trans hq)
          rw [← this]; norm_num
      have : (0 : ℝ) ≤ q := by exact_mod_cast hq0
      exact mul_nonneg this (by norm_num)
  · show [timeFrom (day0 2021 1 1) (day0 2022 1 1), timeFrom (day0 2021 1 1) (day0 2024 1 1)].Pairwise (· < ·)
    rw [t1, t3]
    simp
    norm_num
  · intro c' hc' s hs
    have h3 := hcov c' hc' s hs
    have hi0 : (⟨"B", .bond "KTB" 0 0 none, .krw, 100, day0 2022 7 1, 0⟩ : Instr) ∈ bondEngine.insts ∧
        UsesCurve bondEngine.p "C" ⟨"B", .bond "KTB" 0 0 none, .krw, 100, day0 2022 7 1, 0⟩ ∧
        (⟨"B", .bond "KTB" 0 0 none, .krw, 100, day0 2022 7 1, 0⟩ : Instr).typeName ≠ "Stock" ∧ (⟨"B", .bond "KTB" 0 0 none, .krw, 100, day0 2022 7 1, 0⟩ : Instr).typeName ≠ "Cash" := by
      refine ⟨List.mem_singleton.2 rfl, ⟨by decide, by simp [curveRoles, bondEngine]⟩, by decide, by decide⟩
    show ∃ k, k < 2 ∧ InTenor [timeFrom (day0 2021 1 1) (day0 2022 1 1), timeFrom (day0 2021 1 1) (day0 2024 1 1)] k s ∧ _
    rw [t1, t3]
    rcases le_or_gt s 1 with q | q
    · refine ⟨0, by omega, ⟨fun _ h => absurd h (by omega), fun z hz => ?_⟩, fun j d h => absurd h (by omega)⟩
      rw [← Option.some.inj hz]; exact q
    · refine ⟨1, by omega, ⟨fun z _ hz => ?_, fun z hz => ?_⟩, fun j d h hd => ⟨_, hi0, fun m hm => ?_⟩⟩
      · rw [← Option.some.inj hz]; exact q
      · rw [← Option.some.inj hz]; exact h3.trans (by norm_num)
      · obtain rfl : j = 0 := by omega
        rw [← Option.some.inj hd, ← Option.some.inj hm]
        decide +kernel

end Verif.Props

import Verif.Props.Expected
import Mathlib.Analysis.SpecialFunctions.Pow.Real
/-!
# C68 - C71: futures, past prices, the virtual bond of a KTB future and the KRX yield price
-/
set_option autoImplicit false
set_option linter.unusedSectionVars false
namespace Verif.Props
open Verif Verif.QL Verif.Civil

/-! ### C68: futures -/

theorem divK_ok_iff (a b v : ℝ) : divK a b = .ok v ↔ b ≠ 0 ∧ v = a / b := by
  unfold divK
  by_cases h : b = 0
  · simp [h]
  · simp [h, eq_comm]

/-- **C68** (forward). The fair forward is spot times borrowing discount over collateral discount times the share of the
price left after dividends, and exists exactly when these do. -/
theorem C68_forward (p : FuturesPricer) (d : DT) (v : ℝ) :
    p.forward d = .ok v ↔ ∃ c b r, Live.df { curve := p.coll, eval := p.eval } d = .ok c ∧
      Live.df { curve := p.borrow, eval := p.eval } d = .ok b ∧
      (match p.dividend with | none => Except.ok 1 | some q => q.ratio d) = .ok r ∧ c ≠ 0 ∧ v * c = p.spot * b * r := by
  have hratio : deductionRatio p.dividend d = (match p.dividend with | none => Except.ok 1 | some q => q.ratio d) := by
    unfold deductionRatio
    cases p.dividend <;> rfl
  unfold FuturesPricer.forward Live.df
  rw [hratio]
  simp only [bind_ok_iff, divK_ok_iff]
  constructor
  · rintro ⟨c, hc, b, hb, r, hr, q, ⟨h0, hq⟩, e⟩
    cases e
    exact ⟨c, b, r, hc, hb, hr, h0, by rw [hq]; field_simp⟩
  · rintro ⟨c, b, r, hc, hb, hr, h0, e⟩
    refine ⟨c, hc, b, hb, r, hr, _, ⟨h0, rfl⟩, ?_⟩
    refine congrArg Except.ok ?_
    field_simp
    linarith

/-- **C68** (carry). Without dividends the forward is the spot price if both curves are the same, and on the evaluation date
itself whatever the curves. -/
theorem C68_carry (p : FuturesPricer) (hn : p.dividend = none) (h1 : CurveOk p.coll) (h2 : CurveOk p.borrow) :
    (p.coll = p.borrow → ∀ d v, p.forward d = .ok v → v = p.spot) ∧ p.forward p.eval = .ok p.spot := by
  constructor
  · intro e d v h
    obtain ⟨c, b, r, hc, hb, hr, h0, hv⟩ := (C68_forward p d v).1 h
    rw [hn] at hr
    cases hr
    rw [e] at hc
    rw [hc] at hb
    cases hb
    have : v * c = p.spot * c := by rw [hv]; ring
    exact mul_right_cancel₀ h0 this
  · rw [C68_forward]
    refine ⟨1, 1, 1, (C57_at_date _ h1 _ p.eval).2, (C57_at_date _ h2 _ p.eval).2, by rw [hn], one_ne_zero, by ring⟩

/-- **C68** (exposure). The exposure of a future is one amount in its currency: (forward - average trade price) times the
notional; asking for it panics when there is no forward. -/
theorem C68_exposure (p : FuturesPricer) (mat : DT) (avg notional : ℝ) (ccy : Nat) :
    (∀ v, p.forward mat = .ok v → ∃ e, p.exposure mat avg notional ccy = .ok e ∧ Exposure.of ccy e = (v - avg) * notional ∧
      ∀ k, k ≠ ccy → Exposure.of k e = 0) ∧
    ((∀ v, p.forward mat ≠ .ok v) → p.exposure mat avg notional ccy = .error .unwrapNone) := by
  unfold FuturesPricer.exposure
  constructor
  · intro v h
    rw [h]
    refine ⟨_, rfl, ?_, ?_⟩
    · simp [Exposure.put, Exposure.of]
    · intro k hk
      simp [Exposure.put, Exposure.of, Ne.symm hk]
  · intro h
    cases hf : p.forward mat with
    | ok v => exact absurd hf (h v)
    | error e => rfl

/-- **C68** (FX). The price of an FX future satisfies covered interest parity, price x DF(futures) = fx x DF(underlying),
and its exposures, converted at today's rate, are what the position is worth: DF(futures) (price - average price). -/
theorem C68_fx (p : FxFuturesPricer) (mat : DT) (avg : ℝ) (futCcy undCcy : Nat) (hne : futCcy ≠ undCcy) (v : ℝ)
    (h : p.npv mat = .ok v) :
    ∃ u f e, Live.df { curve := p.und, eval := p.eval } mat = .ok u ∧ Live.df { curve := p.fut, eval := p.eval } mat = .ok f ∧
      f ≠ 0 ∧ v * f = p.fx * u ∧ p.exposure mat avg futCcy undCcy = .ok e ∧ Exposure.of undCcy e = u ∧
      Exposure.of futCcy e = -(f * avg) ∧
      Exposure.of futCcy e + p.fx * Exposure.of undCcy e = f * (v - avg) := by
  unfold FxFuturesPricer.npv at h
  simp only [bind_ok_iff, divK_ok_iff] at h
  obtain ⟨u, hu, f, hf, h0, hv⟩ := h
  have hvf : v * f = p.fx * u := by rw [hv]; field_simp
  have he : p.exposure mat avg futCcy undCcy = .ok (Exposure.put undCcy u (Exposure.put futCcy (-f * avg) [])) := by
    unfold FxFuturesPricer.exposure
    simp only [bind_ok_iff]
    exact ⟨u, hu, f, hf, rfl⟩
  have h1 : Exposure.of undCcy (Exposure.put undCcy u (Exposure.put futCcy (-f * avg) [])) = u := by
    simp [Exposure.put, Exposure.of, hne]
  have h2 : Exposure.of futCcy (Exposure.put undCcy u (Exposure.put futCcy (-f * avg) [])) = -(f * avg) := by
    simp [Exposure.put, Exposure.of, hne]
  refine ⟨u, f, _, hu, hf, h0, hvf, he, h1, h2, ?_⟩
  rw [h1, h2]
  linarith

/-- With one currency on both sides the second exposure overwrites the first: the average price is lost. -/
theorem fault_fx_exposure_overwritten (p : FxFuturesPricer) (mat : DT) (avg : ℝ) (ccy : Nat) (u f : ℝ)
    (hu : Live.df { curve := p.und, eval := p.eval } mat = .ok u) (hf : Live.df { curve := p.fut, eval := p.eval } mat = .ok f) :
    p.exposure mat avg ccy ccy = .ok [(ccy, u)] := by
  unfold FxFuturesPricer.exposure
  unfold Live.df at hu hf
  simp only at hu hf
  simp only [hu, hf, Res.bind_ok, Exposure.put, if_true]

/-! ### C69: the price at a time -/

/-- The local clock of a closing price. -/
def localTime (c : DailyClose) (d : DT) : Int := d.instant + c.off * 1000000000

/-- **C69** (until the close). At or before the closing time of a day, in the offset of the prices, the price of that day is
returned, whatever offset the time is written in. -/
theorem C69_until_close (c : DailyClose) (d : DT) (h1 : minDay ≤ localTime c d / dayNs) (h2 : localTime c d / dayNs ≤ maxDay)
    (h : localTime c d % dayNs ≤ c.closeTod) : c.at d = .ok (c.value (localTime c d / dayNs)) := by
  obtain ⟨x, hx, hd, -, ht⟩ := toOffset_day d c.off h1 h2
  unfold DailyClose.at
  rw [hx, Res.bind_ok]
  have : ¬ x.tod > c.closeTod := by
    have e : (x.tod : Int) = localTime c d % dayNs := ht
    omega
  rw [if_neg this, hd]
  rfl

/-- **C69** (after the close). After it, the price of the first business day after that day is returned. -/
theorem C69_after_close (c : DailyClose) (d : DT) (h1 : minDay ≤ localTime c d / dayNs) (h2 : localTime c d / dayNs < maxDay)
    (h : c.closeTod < localTime c d % dayNs) (e : DT)
    (he : FirstOnOrAfter c.hol { day := localTime c d / dayNs + 1, tod := (localTime c d % dayNs).toNat, off := c.off } e) :
    c.at d = .ok (c.value e.day) := by
  obtain ⟨x, hx, hd, ho, ht⟩ := toOffset_day d c.off h1 (le_of_lt h2)
  have e1 : (x.tod : Int) = localTime c d % dayNs := ht
  have e2 : x.day = localTime c d / dayNs := hd
  unfold DailyClose.at
  rw [hx, Res.bind_ok, if_pos (by omega)]
  have hxe : x.addDays 1 = .ok { day := localTime c d / dayNs + 1, tod := (localTime c d % dayNs).toNat, off := c.off } := by
    unfold DT.addDays QL.addDays checkDay
    rw [if_pos (by omega)]
    simp only [Res.bind_ok]
    obtain ⟨xd, xt, xo⟩ := x
    simp only at e1 e2 ho
    rw [ho, e2, ← e1]
    rfl
  have had := (following_iff c.hol _ (by simp only; omega) e).2 he
  have had' : adjust c.hol { day := localTime c d / dayNs + 1, tod := (localTime c d % dayNs).toNat, off := c.off } .following = .ok e := had
  rw [hxe, Res.bind_ok, had']

/-- **C69** (one instant). Two ways of writing the same instant give the same price. -/
theorem C69_instant (c : DailyClose) (d d' : DT) (h : d.instant = d'.instant) : c.at d = c.at d' := by
  have e : d.toOffset c.off = d'.toOffset c.off := by
    have e1 : d.localNs + (c.off - d.off) * 1000000000 = d.instant + c.off * 1000000000 := by unfold DT.instant; ring
    have e2 : d'.localNs + (c.off - d'.off) * 1000000000 = d'.instant + c.off * 1000000000 := by unfold DT.instant; ring
    unfold DT.toOffset
    rw [e1, e2, h]
  unfold DailyClose.at
  rw [e]

/-- A concrete case: Korean closes at 15:30 (+09:00), Friday 2021-01-01 .. Monday 2021-01-04 with the weekend off. Asked at
16:00 on the Friday the price is that of the Monday, asked at 10:00 that of the Friday. -/
example : let c : DailyClose := { value := fun k => some (k : ℝ), closeTod := 55800000000000, off := 32400, hol := fun x => .ok (decide (weekday x.day = 5 ∨ weekday x.day = 6)) }
    c.at { day := (Ymd.mk 2021 1 1).ord, tod := 25200000000000, off := 0 } = .ok (some ((Ymd.mk 2021 1 4).ord : ℝ)) ∧
    c.at { day := (Ymd.mk 2021 1 1).ord, tod := 3600000000000, off := 0 } = .ok (some ((Ymd.mk 2021 1 1).ord : ℝ)) := by
  dsimp only
  constructor
  · rw [C69_after_close _ _ (by decide +kernel) (by decide +kernel) (by decide +kernel) { day := (Ymd.mk 2021 1 4).ord, tod := 57600000000000, off := 32400 }]
    refine ⟨(Ymd.mk 2021 1 4).ord, by decide +kernel, by decide +kernel, by decide +kernel, by unfold Business; decide +kernel, ?_⟩
    intro j h1 h2
    have a1 : (Ymd.mk 2021 1 4).ord = 737794 := by decide +kernel
    have a2 : localTime { value := fun k => some (k : ℝ), closeTod := 55800000000000, off := 32400, hol := fun x => .ok (decide (weekday x.day = 5 ∨ weekday x.day = 6)) } { day := (Ymd.mk 2021 1 1).ord, tod := 25200000000000, off := 0 } / dayNs + 1 = 737792 := by decide +kernel
    simp only at h1
    rw [a2] at h1
    rw [a1] at h2
    have : j = 737792 ∨ j = 737793 := by omega
    unfold Holiday
    rcases this with rfl | rfl <;> decide +kernel
  · exact C69_until_close _ _ (by decide +kernel) (by decide +kernel) (by decide +kernel)

end Verif.Props

import Verif.QL.Cashflow
import Verif.QL.Dividend
import Mathlib.Analysis.SpecialFunctions.Pow.Real
/-!
# Model of the pricers: `quantlib/src/pricing_engines/{bond_pricer, plain_swap_pricer, futures_pricer, fx_futures_pricer,
krx_yield_pricer, ktbf_pricer, npv_result, pricer}.rs`, `instruments/ktbf.rs` and `parameters/past_price.rs`

A pricer shares the evaluation date with its curves; here it is passed once (`eval`), and a curve is a `Live`. The maps
walked by the pricers are lists (any order of the same entries: see the theorems about permutations). Currencies are
numbers. The yield search of `KrxYieldPricer` is in `QL/Ktbf`.
-/
set_option autoImplicit false
namespace Verif.QL
open Verif

/-- The loop over a cash-flow map: `res += amount * discount_factor` for the payments after the pricing day
(bond_pricer.rs 51-59, 86-94; plain_swap_pricer.rs 67-73, 81-87, 119-133, 156-170). -/
noncomputable def discounted (l : Live) (pricing : DT) : Flows → ℝ → Res ℝ
  | [], acc => .ok acc
  | (d, a) :: m, acc =>
    if pricing.day < d.day then do
      let x ← l.df d
      discounted l pricing m (acc + a * x)
    else discounted l pricing m acc

/-- `HashMap<usize, (OffsetDateTime, Real)>` -/
abbrev Numbered := List (Nat × DT × ℝ)

/-- `NpvResult` (npv_result.rs 12-17) -/
structure NpvResult where
  npv : ℝ
  amounts : Numbered
  probs : Numbered

/-- `NpvResult::new_from_npv` (npv_result.rs 54-60) -/
def NpvResult.ofNpv (x : ℝ) : NpvResult := { npv := x, amounts := [], probs := [] }

/-- `HashMap::get` -/
def lookupN (k : Nat) : Numbered → Option (DT × ℝ)
  | [] => none
  | (k', v) :: m => if k' = k then some v else lookupN k m

/-- The loop of `get_expected_coupon_amount` (npv_result.rs 79-89): `insert` replaces an earlier amount at the same
instant. -/
noncomputable def expectedLoop (probs : Numbered) : Numbered → Flows → Res Flows
  | [], m => .ok m
  | (k, d, a) :: rest, m =>
    match lookupN k probs with
    | none => .error .err
    | some p => expectedLoop probs rest (putAt d (a * p.2) m)

/-- `get_expected_coupon_amount` (npv_result.rs 79-89) -/
noncomputable def NpvResult.expected (r : NpvResult) : Res Flows := expectedLoop r.probs r.amounts []

/-! ### bonds -/

/-- `BondPricer` (bond_pricer.rs 15-20) -/
structure BondPricer where
  eval : DT
  disc : Curve
  mkt : Market

/-- `instrument.get_pricing_date()?.unwrap_or(&eval_dt)` (bond_pricer.rs 42, 74) -/
def BondPricer.pricing (p : BondPricer) (b : Bond) : DT := b.pricing.getD p.eval

/-- `BondPricer::npv` (bond_pricer.rs 38-66) -/
noncomputable def BondPricer.npv (md : Mode) (p : BondPricer) (b : Bond) : Res ℝ := do
  let m ← b.flows md p.mkt (p.pricing b)
  let s ← discounted { curve := p.disc, eval := p.eval } (p.pricing b) m 0
  let d ← Live.df { curve := p.disc, eval := p.eval } (p.pricing b)
  divK s d

/-- The amounts reported (bond_pricer.rs 96-99): numbered by their position in the walk. -/
def reported (pricing : DT) : Nat → Flows → Numbered
  | _, [] => []
  | i, (d, a) :: m => if pricing.day ≤ d.day then (i, d, a) :: reported pricing (i + 1) m else reported pricing (i + 1) m

/-- The probabilities reported with them, all 1. -/
def certain (m : Numbered) : Numbered := m.map fun x => (x.1, x.2.1, 1)

/-- `BondPricer::npv_result` (bond_pricer.rs 68-109) -/
noncomputable def BondPricer.result (md : Mode) (p : BondPricer) (b : Bond) : Res NpvResult := do
  let m ← b.flows md p.mkt (p.pricing b)
  let s ← discounted { curve := p.disc, eval := p.eval } (p.pricing b) m 0
  let d ← Live.df { curve := p.disc, eval := p.eval } (p.pricing b)
  let x ← divK s d
  .ok { npv := x, amounts := reported (p.pricing b) 0 m, probs := certain (reported (p.pricing b) 0 m) }

/-! ### swaps -/

/-- `PlainSwapPricer` (plain_swap_pricer.rs 13-20); `fx` is the current value of the exchange rate, if there is one. -/
structure SwapPricer where
  eval : DT
  fixedCurve : Curve
  floatCurve : Curve
  mkt : Market
  fx : Option ℝ

/-- The discounted value of the fixed leg (plain_swap_pricer.rs 119-125) -/
noncomputable def SwapPricer.fixedLeg (p : SwapPricer) (s : Swap) : Res ℝ := do
  let m ← s.fixedFlows p.eval
  discounted { curve := p.fixedCurve, eval := p.eval } p.eval m 0

/-- `PlainSwapPricer::npv` (plain_swap_pricer.rs 98-138): both maps are made before they are walked -/
noncomputable def SwapPricer.npv (md : Mode) (p : SwapPricer) (s : Swap) : Res ℝ := do
  let m ← s.fixedFlows p.eval
  let n ← s.floatFlows md p.mkt p.eval
  let x ← discounted { curve := p.fixedCurve, eval := p.eval } p.eval m 0
  let y ← discounted { curve := p.floatCurve, eval := p.eval } p.eval n 0
  .ok (x + y * p.fx.getD 1)

/-- The amounts of a leg reported by `npv_result`, counted from `i` (plain_swap_pricer.rs 74-78, 88-92): unlike the bond
pricer's the count only grows with what is reported. -/
noncomputable def counted (pricing : DT) (fx : ℝ) : Nat → Flows → Numbered
  | _, [] => []
  | i, (d, a) :: m => if pricing.day ≤ d.day then (i, d, a * fx) :: counted pricing fx (i + 1) m else counted pricing fx i m

/-- `PlainSwapPricer::npv_result` (plain_swap_pricer.rs 43-96) -/
noncomputable def SwapPricer.result (md : Mode) (p : SwapPricer) (s : Swap) : Res NpvResult := do
  let m ← s.fixedFlows p.eval
  let n ← s.floatFlows md p.mkt p.eval
  let x ← discounted { curve := p.fixedCurve, eval := p.eval } p.eval m 0
  let y ← discounted { curve := p.floatCurve, eval := p.eval } p.eval n 0
  let a := counted p.eval 1 0 m
  let b := counted p.eval (p.fx.getD 1) a.length n
  .ok { npv := x + y * p.fx.getD 1, amounts := a ++ b, probs := certain (a ++ b) }

/-- `HashMap<Currency, Real>` -/
abbrev Exposure := List (Nat × ℝ)

/-- `entry(k).and_modify(|v| *v += a).or_insert(a)` -/
noncomputable def Exposure.add (k : Nat) (a : ℝ) : Exposure → Exposure
  | [] => [(k, a)]
  | (k', v) :: m => if k' = k then (k', v + a) :: m else (k', v) :: Exposure.add k a m

/-- `insert(k, a)` -/
noncomputable def Exposure.put (k : Nat) (a : ℝ) : Exposure → Exposure
  | [] => [(k, a)]
  | (k', v) :: m => if k' = k then (k', a) :: m else (k', v) :: Exposure.put k a m

/-- What the map says about a currency, 0 if nothing. -/
noncomputable def Exposure.of (k : Nat) : Exposure → ℝ
  | [] => 0
  | (k', v) :: m => if k' = k then v else Exposure.of k m

/-- `PlainSwapPricer::fx_exposure` (plain_swap_pricer.rs 140-191) -/
noncomputable def SwapPricer.exposure (md : Mode) (p : SwapPricer) (s : Swap) : Res Exposure := do
  let m ← s.fixedFlows p.eval
  let n ← s.floatFlows md p.mkt p.eval
  let x ← discounted { curve := p.fixedCurve, eval := p.eval } p.eval m 0
  let y ← discounted { curve := p.floatCurve, eval := p.eval } p.eval n 0
  .ok (Exposure.add s.floatCcy (y * s.notional) (Exposure.add s.fixedCcy (x * s.notional) []))

/-- `PricerTrait::fx_exposure` (pricer.rs 23-30), used by the bond, option, KTBF, KRX-yield, identity and unit pricers -/
noncomputable def defaultExposure (ccy : Nat) (notional npv : ℝ) : Exposure := Exposure.put ccy (npv * notional) []

/-! ### futures -/

/-- `FuturesPricer` (futures_pricer.rs 15-20): the price of the underlying, its dividend if any, the two curves. -/
structure FuturesPricer where
  eval : DT
  spot : ℝ
  dividend : Option (Dividend ℝ)
  coll : Curve
  borrow : Curve

/-- `get_dividend_deduction_ratio` (market_price.rs 78-84) -/
noncomputable def deductionRatio (v : Option (Dividend ℝ)) (d : DT) : Res ℝ :=
  match v with
  | some v => v.ratio d
  | none => .ok 1

/-- `fair_forward` (futures_pricer.rs 37-64) -/
noncomputable def FuturesPricer.forward (p : FuturesPricer) (d : DT) : Res ℝ := do
  let c ← p.coll.dfAt p.eval d
  let b ← p.borrow.dfAt p.eval d
  let r ← deductionRatio p.dividend d
  let q ← divK (p.spot * b) c
  .ok (q * r)

/-- `FuturesPricer::fx_exposure` for a futures (futures_pricer.rs 97-118); `expect` on a failing price panics. -/
noncomputable def FuturesPricer.exposure (p : FuturesPricer) (mat : DT) (average notional : ℝ) (ccy : Nat) : Res Exposure :=
  match p.forward mat with
  | .error _ => .error .unwrapNone
  | .ok f => .ok (Exposure.put ccy ((f - average) * notional) [])

/-- `FxFuturesPricer` (fx_futures_pricer.rs 14-19) -/
structure FxFuturesPricer where
  eval : DT
  fx : ℝ
  und : Curve
  fut : Curve

/-- `FxFuturesPricer::npv` (fx_futures_pricer.rs 39-66) -/
noncomputable def FxFuturesPricer.npv (p : FxFuturesPricer) (mat : DT) : Res ℝ := do
  let u ← p.und.dfAt p.eval mat
  let f ← p.fut.dfAt p.eval mat
  divK (p.fx * u) f

/-- `FxFuturesPricer::fx_exposure` (fx_futures_pricer.rs 73-105); the notional is not used -/
noncomputable def FxFuturesPricer.exposure (p : FxFuturesPricer) (mat : DT) (average : ℝ) (futCcy undCcy : Nat) : Res Exposure := do
  let u ← p.und.dfAt p.eval mat
  let f ← p.fut.dfAt p.eval mat
  .ok (Exposure.put undCcy u (Exposure.put futCcy (-f * average) []))

/-! ### yields -/

/-- `PaymentFrequency as Integer` (conventions.rs 29-41) -/
def Freq.perYear : Freq → Nat
  | .daily => 252
  | .weekly => 52
  | .biWeekly => 26
  | .semiMonthly => 24
  | .monthly => 12
  | .semiQuarterly => 6
  | .quarterly => 4
  | .triAnnually => 3
  | .semiAnnually => 2
  | .annually => 1
  | .none => 0

/-- The coupon loop of `KtbfVirtualBond::npv` (ktbf.rs 42-44), from payment `i` on with `n` payments to go -/
noncomputable def ktbfLoop (c y : ℝ) (i : Nat) : Nat → ℝ → Res ℝ
  | 0, acc => .ok acc
  | n + 1, acc => do
    let x ← divK c ((1 + y) ^ i)
    ktbfLoop c y (i + 1) n (acc + x)

/-- `KtbfVirtualBond::npv` (ktbf.rs 36-47). A negative number of years makes an empty loop and `powi` of a negative
number; the product of two `i32`s is reported if it overflows. -/
noncomputable def ktbfNpv (md : Mode) (years : Int) (coupon : ℝ) (freq : Freq) (notional yld : ℝ) : Res ℝ := do
  let n ← ckI32 md (years * freq.perYear)
  let y ← divK yld freq.perYear
  let c ← divK coupon freq.perYear
  let s ← ktbfLoop c y 1 n.toNat 0
  let last ← if 0 ≤ n then divK 1 ((1 + y) ^ n.toNat) else (if 1 + y = 0 then .error .nonfinite else .ok ((1 + y) ^ (-n).toNat))
  .ok ((s + last) * notional)

/-- `keys().filter(|d| d.date() > pricing.date()).min()` (krx_yield_pricer.rs 136-140), `min` of several equal ones is the
first -/
def nextFlow (pricing : DT) : Flows → Option DT
  | [] => none
  | (d, _) :: m =>
    match nextFlow pricing m with
    | none => if pricing.day < d.day then some d else none
    | some e => if pricing.day < d.day ∧ d.instant ≤ e.instant then some d else some e

/-- the latest payment date not after the pricing day (krx_yield_pricer.rs 160-165), `max` of several equal ones is the
last -/
def lastPaid (pricing : DT) : List DT → Option DT
  | [] => none
  | d :: m =>
    match lastPaid pricing m with
    | none => if d.day ≤ pricing.day then some d else none
    | some e => if d.day ≤ pricing.day ∧ e.instant < d.instant then some d else some e

/-- `(1 + effective_yield).powf(x)`: a real power, for a positive base (otherwise the model stops: `powf` of a negative
base is not a number unless the exponent is whole) -/
noncomputable def powK (b x : ℝ) : Res ℝ := if b ≤ 0 then .error .nonfinite else .ok (b ^ x)

/-- The loop of `KrxYieldPricer::npv` (krx_yield_pricer.rs 143-151) -/
noncomputable def krxLoop (pricing first : DT) (ey freq : ℝ) : Flows → ℝ → Res ℝ
  | [], acc => .ok acc
  | (d, a) :: m, acc =>
    if d.day ≤ pricing.day then krxLoop pricing first ey freq m acc
    else do
      let diff ← frac first d .streetConvention
      let w ← powK (1 + ey) (diff * freq)
      let x ← divK 1 w
      krxLoop pricing first ey freq m (acc + a * x)

/-- `KrxYieldPricer::npv` (krx_yield_pricer.rs 107-174) -/
noncomputable def krxNpv (md : Mode) (eval : DT) (mk : Market) (yld : ℝ) (freq : Freq) (issue : DT) (b : Bond) : Res ℝ := do
  let pricing := b.pricing.getD eval
  let ey ← divK yld freq.perYear
  let m ← b.flows md mk pricing
  let first := (nextFlow pricing m).getD b.maturity
  let s ← krxLoop pricing first ey freq.perYear m 0
  let prev := (lastPaid pricing (b.schedule.map fun c => c.1.payment)).getD issue
  let w ← divK ((first.day - pricing.day : Int) : ℝ) ((first.day - prev.day : Int) : ℝ)
  divK s (1 + ey * w)

/-! ### past prices -/

/-- `DailyClosePrice` (past_price.rs 12-21): closing prices by local day -/
structure DailyClose where
  value : Int → Option ℝ
  closeTod : Nat
  off : Int
  hol : DT → Res Bool

/-- `get_at_datetime` (past_price.rs 86-105) -/
noncomputable def DailyClose.at (c : DailyClose) (d : DT) : Res (Option ℝ) := do
  let l ← d.toOffset c.off
  if l.tod > c.closeTod then
    let n ← l.addDays 1
    match adjust c.hol n .following with
    | .ok e => .ok (c.value e.day)
    | .error .err => .error .unwrapNone
    | .error e => .error e
  else .ok (c.value l.day)

end Verif.QL

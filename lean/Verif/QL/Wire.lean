import Verif.QL.EngineAct
import Verif.QL.Ktbf
/-!
# The pricers of the engine

`Verif.QL.Engine` takes the pricers as arbitrary functions of instrument and market. Here they are the ones `create_pricer` (pricer_factory.rs 61-451) makes:
the models of `pricing_engines/*_pricer.rs` in `Verif.QL.{Pricers, Volatility, Ktbf}`, reading the shared market the engine bumps. What `create_pricer`
chooses, by name, is the `Plan` of `Verif.QL.Portfolio`.
-/
set_option autoImplicit false
namespace Verif.QL
open Verif

/-- What pricers hold that no calculation changes: exchange rates, quanto parameters, past fixings, the yield search, the currencies as numbers -/
structure Fixed where
  fx : FxCode → Option ℝ
  quanto : String × FxCode → Option Quanto
  past : String → Option (Int → Option ℝ)
  search : Search
  num : Currency → Nat

/-- What an instrument answers to its pricer -/
inductive Terms
  | bond (b : Bond)
  | futures (mat : DT) (average : ℝ)
  | option (o : Vanilla)
  | ktbf (k : Ktbf)
  | fxFutures (mat : DT) (average : ℝ) (undCcy : Nat)
  | swap (s : Swap)
  | stock
  | cash

/-- The `futures_helper` and the `FuturesPricer` on the shared market (futures_pricer.rs 15-35; option_analytic_pricer.rs 27-55): price with its dividend, and
the two curves -/
def Mkt.carry (m : Mkt) (u coll borrow : String) : Res FuturesPricer := do
  let p ← orErr (m.price u)
  let c ← orErr (m.curves coll)
  let b ← orErr (m.curves borrow)
  .ok { eval := m.w.date, spot := p.2.value, dividend := m.divOf p.2, coll := c, borrow := b }

/-- The optional forward curve and fixings on the shared market -/
def Mkt.fixings (m : Mkt) (f : Fixed) (fwd past : Option String) : Market where
  fwd := fwd.bind fun n => (m.curves n).map fun c => { curve := c, eval := m.w.date }
  close := past.bind f.past

/-- The `OptionAnalyticPricer` on the shared market (option_analytic_pricer.rs 17-55) -/
def Mkt.optionPricer (m : Mkt) (f : Fixed) (u v disc coll borrow : String) (q : Option (String × FxCode)) : Res OptionPricer := do
  let env ← m.carry u coll borrow
  let vol ← orErr (m.vols v)
  let d ← orErr (m.curves disc)
  .ok { env := env, disc := d, vol := vol, quanto := q.bind f.quanto }

/-- The `BondPricer` on the shared market (bond_pricer.rs 15-36) -/
def Mkt.bondPricer (m : Mkt) (f : Fixed) (disc : String) (fwd past : Option String) : Res BondPricer := do
  let d ← orErr (m.curves disc)
  .ok { eval := m.w.date, disc := d, mkt := m.fixings f fwd past }

/-- The `PlainSwapPricer` on the shared market (plain_swap_pricer.rs 13-41) -/
def Mkt.swapPricer (m : Mkt) (f : Fixed) (fixed float : String) (fwd past : Option String) (fx : Option FxCode) : Res SwapPricer := do
  let a ← orErr (m.curves fixed)
  let b ← orErr (m.curves float)
  .ok { eval := m.w.date, fixedCurve := a, floatCurve := b, mkt := m.fixings f fwd past, fx := fx.bind f.fx }

/-- The `FxFuturesPricer` on the shared market (fx_futures_pricer.rs 14-36) -/
def Mkt.fxPricer (m : Mkt) (f : Fixed) (fx : FxCode) (und fut : String) : Res FxFuturesPricer := do
  let x ← orErr (f.fx fx)
  let a ← orErr (m.curves und)
  let b ← orErr (m.curves fut)
  .ok { eval := m.w.date, fx := x, und := a, fut := b }

/-- `npv` of the pricer of a plan (pricer.rs 32-43, and the pricers). A pricer asked about an instrument of another kind answers an error. -/
noncomputable def Plan.npv (md : Mode) (f : Fixed) : Plan → Terms → Mkt → Res ℝ
  | .bond d w p, .bond b, m => do
    let x ← m.bondPricer f d w p
    x.npv md b
  | .futures u c b, .futures mat _, m => do
    let x ← m.carry u c b
    x.forward mat
  | .option u v d c b q, .option o, m => do
    let x ← m.optionPricer f u v d c b q
    x.npv o
  | .ktbf d c, .ktbf k, m => do
    let a ← orErr (m.curves d)
    let b ← orErr (m.curves c)
    k.npv f.search md m.w.date a b
  | .fxFutures fx a b, .fxFutures mat _ _, m => do
    let x ← m.fxPricer f fx a b
    x.npv mat
  | .swap a b w p fx, .swap s, m => do
    let x ← m.swapPricer f a b w p fx
    x.npv md s
  | .stock u, _, m => do        -- identity_pricer.rs 20-22: the instrument is not looked at
    let p ← orErr (m.price u)
    .ok p.2.value
  | .cash, _, _ => .ok 1        -- unit_pricer.rs 18-20
  | _, _, _ => .error .err

/-- `npv_result`: bonds and swaps report their cash flows (bond_pricer.rs 68-109, plain_swap_pricer.rs 43-96), the others only the npv -/
noncomputable def Plan.result (md : Mode) (f : Fixed) (pl : Plan) (t : Terms) (m : Mkt) : Res NpvResult :=
  match pl, t with
  | .bond d w p, .bond b => do
    let x ← m.bondPricer f d w p
    x.result md b
  | .swap a b w p fx, .swap s => do
    let x ← m.swapPricer f a b w p fx
    x.result md s
  | _, _ => do
    let x ← pl.npv md f t m
    .ok (NpvResult.ofNpv x)

/-- `fx_exposure` (futures_pricer.rs 97-118, fx_futures_pricer.rs 73-105, plain_swap_pricer.rs 140-191; the others pricer.rs 23-30) -/
noncomputable def Plan.exposure (md : Mode) (f : Fixed) (pl : Plan) (t : Terms) (i : Instr) (m : Mkt) (npv : ℝ) : Res Exposure :=
  match pl, t with
  | .futures u c b, .futures mat a => do
    let x ← m.carry u c b
    x.exposure mat a i.notional (f.num i.ccy)
  | .fxFutures fx a b, .fxFutures mat avg u => do
    let x ← m.fxPricer f fx a b
    x.exposure mat avg (f.num i.ccy) u
  | .swap a b w p fx, .swap s => do
    let x ← m.swapPricer f a b w p fx
    x.exposure md s
  | _, _ => .ok (defaultExposure (f.num i.ccy) i.notional npv)

/-- The pricer object of a plan -/
noncomputable def Plan.pricer (md : Mode) (f : Fixed) (t : Terms) (pl : Plan) : EPricer where
  npv := fun _ m => pl.npv md f t m
  result := fun _ m => pl.result md f t m
  exposure := fun i m x => pl.exposure md f t i m x

end Verif.QL

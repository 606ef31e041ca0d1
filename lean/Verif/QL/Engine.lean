import Verif.QL.Portfolio
import Verif.QL.Volatility
/-!
# Model of the calculations of `quantlib/src/pricing_engines/engine.rs` (690-2174) and of
`pricing_engines/calculation_result.rs`

Numbers are reals. Pricers are arbitrary functions of an instrument and of the market they share with the engine. A
calculation that answers an error, or panics, ends the model; what it has changed until then is dropped.
-/
set_option autoImplicit false
namespace Verif.QL
open Verif

/-- `rate_interpolator` (zero_curve.rs 31) is private, and read by nothing but `ZeroCurve::new` while it makes the curve:
the market of the engine keeps it blank. -/
def Curve.blank (c : Curve) : Curve := { c with rateInterp := .const 0 }

/-- The market data of an engine (engine.rs 54-61) that is ever changed by it: the evaluation date with the observing prices
and dividends (all are registered, engine.rs 506-525); by name, which of them is whose; the curves; the volatilities, each
with the collateral and the borrowing curve its surface was given (engine.rs 277-417). Exchange rates, quanto parameters and
past prices never change and belong to the pricers. -/
structure Mkt where
  w : World ℝ
  equity : Map String Nat
  dividend : Map String Nat
  curves : Map String Curve
  vols : Map String Vol
  volCurves : Map String (String × String)

/-- `self.equities.get(u)` -/
def Mkt.price (m : Mkt) (u : String) : Option (Nat × Price ℝ) :=
  match m.equity u with
  | none => none
  | some j => (m.w.prices[j]?).map fun p => (j, p)

/-- `set_price` and `*=` (market_price.rs 52-54, 136-140) on a stored price -/
def Mkt.putPrice (m : Mkt) (j : Nat) (p : Price ℝ) (x : ℝ) : Mkt :=
  { m with w := { m.w with prices := m.w.prices.set j { p with value := x } } }

/-- The dividend a price refers to -/
def Mkt.divOf (m : Mkt) (p : Price ℝ) : Option (Dividend ℝ) :=
  match p.div with
  | none => none
  | some k => (m.w.divs[k]?).map Prod.fst

/-- What the surface of an underlying shares with the engine -/
def Mkt.env (m : Mkt) (u : String) : Res FuturesPricer :=
  match m.price u, m.volCurves u with
  | some p, some n =>
    match m.curves n.1, m.curves n.2 with
    | some c, some b => .ok { eval := m.w.date, spot := p.2.value, dividend := m.divOf p.2, coll := c, borrow := b }
    | _, _ => .error .err
  | _, _ => .error .err

/-- `zero_curves.get(n)?.borrow_mut().bump_time_interval(..)` -/
noncomputable def Mkt.bumpCurve (m : Mkt) (n : String) (t1 t2 : Option ℝ) (b : ℝ) : Res Mkt := do
  let c ← orErr (m.curves n)
  let c' ← c.bumpTimes t1 t2 b
  .ok { m with curves := m.curves.put n c'.blank }

/-- `volatilities.get(u)?.borrow_mut().bump_volatility(..)` -/
noncomputable def Mkt.bumpVol (m : Mkt) (u : String) (t1 t2 x1 x2 : Option ℝ) (b : ℝ) : Res Mkt := do
  let v ← orErr (m.vols u)
  let env ← m.env u
  let v' ← v.bump env t1 t2 x1 x2 b
  .ok { m with vols := m.vols.put u v' }

/-- `dividends.get(u).unwrap().clone().unwrap().borrow_mut().bump_date_interval(..)`: panics without dividend -/
noncomputable def Mkt.bumpDiv (m : Mkt) (u : String) (d1 d2 : Option DT) (b : ℝ) : Res Mkt :=
  match m.dividend u with
  | none => .error .unwrapNone
  | some k =>
    match m.w.divs[k]? with
    | none => .error .index   -- no such object: cannot happen
    | some v => do
      let v' ← v.1.bump d1 d2 b
      .ok { m with w := { m.w with divs := m.w.divs.set k (v', v.2) } }

/-- `CalculationResult` (calculation_result.rs 25-46). The optional maps (`None` until the first entry) are maps that may be
empty; the evaluation date and `theta_day` (never set by the engine) are dropped. -/
structure EResult where
  notional : ℝ
  ccy : Currency
  npv : Option NpvResult
  value : Option ℝ
  exposure : Option Exposure
  delta : Map String ℝ
  gamma : Map String ℝ
  vega : Map String ℝ
  vegaS : Map String (List ℝ)
  vegaM : Map String (List (List ℝ))
  theta : Option ℝ
  divDelta : Map String ℝ
  divS : Map String (List ℝ)
  rho : Map String ℝ
  rhoS : Map String (List ℝ)
  flows : Option Flows

/-- `CalculationResult::new` (calculation_result.rs 208-236) -/
def EResult.fresh (i : Instr) : EResult :=
  { notional := i.notional, ccy := i.ccy, npv := none, value := none, exposure := none
    delta := fun _ => none, gamma := fun _ => none, vega := fun _ => none, vegaS := fun _ => none, vegaM := fun _ => none
    theta := none, divDelta := fun _ => none, divS := fun _ => none, rho := fun _ => none, rhoS := fun _ => none, flows := none }

/-- `calculation_results` (engine.rs 50) -/
abbrev Results := Map String EResult

/-- The results at the start (engine.rs 632-652): one per code -/
def freshResults : List Instr → Results → Results
  | [], r => r
  | i :: l, r => freshResults l (r.put i.code (EResult.fresh i))

/-- A `Pricer` (pricer.rs 15-43) as functions of the instrument and of the market it shares -/
structure EPricer where
  npv : Instr → Mkt → Res ℝ
  result : Instr → Mkt → Res NpvResult
  exposure : Instr → Mkt → ℝ → Res Exposure

/-- `CalculationConfiguration` (calculation_configuration.rs 13-46), without what the engine never reads: the separate switch
and bump for gamma and the bump for the vega matrix -/
structure CalcConf where
  npv : Bool
  exposure : Bool
  delta : Bool
  vega : Bool
  rho : Bool
  divDelta : Bool
  theta : Bool
  vegaS : Bool
  rhoS : Bool
  divS : Bool
  vegaM : Bool
  deltaRatio : ℝ
  vegaBump : ℝ
  vegaSBump : ℝ
  rhoBump : ℝ
  divBump : ℝ
  thetaDay : Int
  rhoTenors : List (List Char)
  vegaTenors : List (List Char)
  divTenors : List (List Char)
  moneyness : List ℝ

/-- What of an engine never changes after `initialize_pricers` -/
structure EngCfg where
  md : Mode
  pricers : Map String EPricer
  p : MatchParam
  conf : CalcConf
  insts : List Instr

/-- The rest of the `Engine` (engine.rs 46-69) -/
structure Eng where
  mkt : Mkt
  action : List Instr
  results : Results

/-- `self.pricers.get(code)?.npv(inst)?` -/
def EngCfg.npv (g : EngCfg) (i : Instr) (m : Mkt) : Res ℝ := do
  let p ← orErr (g.pricers i.code)
  p.npv i m

/-- `get_npvs` (engine.rs 696-722) -/
def getNpvs (g : EngCfg) (m : Mkt) : List Instr → Map String ℝ → Res (Map String ℝ)
  | [], acc => .ok acc
  | i :: l, acc => do
    let x ← g.npv i m
    getNpvs g m l (acc.put i.code x)

/-- `get_npv_results` (engine.rs 724-743) -/
def getResults (g : EngCfg) (m : Mkt) : List Instr → Map String NpvResult → Res (Map String NpvResult)
  | [], acc => .ok acc
  | i :: l, acc => do
    let p ← orErr (g.pricers i.code)
    let x ← p.result i m
    getResults g m l (acc.put i.code x)

/-- A loop over `calculation_results`: its keys are the codes of the instruments. (The program walks them in an order of its
own; each step only concerns its own result.) -/
def eachResult (f : String → EResult → Res EResult) : List Instr → Results → Res Results
  | [], r => .ok r
  | i :: l, r => do
    let x ← orErr (r i.code)
    let y ← f i.code x
    eachResult f l (r.put i.code y)

/-- `set_npv_results` (engine.rs 745-756) -/
def setNpvResults (g : EngCfg) (e : Eng) : Res Eng := do
  let npvs ← getResults g e.mkt e.action (fun _ => none)
  let r ← eachResult (fun c x => do
    let v ← orErr (npvs c)
    .ok { x with npv := some v }) g.insts e.results
  .ok { e with results := r }

/-- `set_values` (engine.rs 814-819) with `set_value` (calculation_result.rs 246-259) -/
noncomputable def setValues (g : EngCfg) (e : Eng) : Res Eng := do
  let r ← eachResult (fun _ x => do
    let v ← orErr x.npv
    .ok { x with value := some (v.npv * x.notional) }) g.insts e.results
  .ok { e with results := r }

/-- `set_cashflow_inbetween` (engine.rs 758-772) -/
noncomputable def setFlows (g : EngCfg) (e : Eng) : Res Eng := do
  let r ← eachResult (fun _ x => do
    let v ← orErr x.npv
    let m ← v.expected
    .ok { x with flows := some m }) g.insts e.results
  .ok { e with results := r }

/-- The exposures of the instruments in action (engine.rs 775-802) -/
def getExposures (g : EngCfg) (m : Mkt) (r : Results) : List Instr → Map String Exposure → Res (Map String Exposure)
  | [], acc => .ok acc
  | i :: l, acc => do
    let p ← orErr (g.pricers i.code)
    let x ← orErr (r i.code)
    let v ← orErr x.npv
    let f ← p.exposure i m v.npv
    getExposures g m r l (acc.put i.code f)

/-- `set_fx_exposures` (engine.rs 774-812) -/
def setExposures (g : EngCfg) (e : Eng) : Res Eng := do
  let fs ← getExposures g e.mkt e.results e.action (fun _ => none)
  let r ← eachResult (fun c x => do
    let v ← orErr (fs c)
    .ok { x with exposure := some v }) g.insts e.results
  .ok { e with results := r }

/-! ### delta and gamma -/

/-- The loop of `preprocess_delta_gamma` (engine.rs 824-878) -/
noncomputable def preDeltaLoop : List Instr → Results → Res Results
  | [], r => .ok r
  | i :: l, r => do
    let x ← orErr (r i.code)
    let v ← orErr x.npv
    preDeltaLoop l (r.put i.code { x with delta := x.delta.put i.code (v.npv * 0.01 * i.notional), gamma := x.gamma.put i.code 0 })

/-- `preprocess_delta_gamma` (engine.rs 821-880) -/
noncomputable def preprocessDelta (g : EngCfg) (e : Eng) : Res Eng := do
  let r ← preDeltaLoop (withTypes g.insts ["Stock", "Futures"]) e.results
  .ok { e with results := r }

/-- The loop over the instruments in action (engine.rs 940-989) -/
noncomputable def deltaLoop (u : String) (up down : Map String ℝ) (ratio : ℝ) : List Instr → Results → Res Results
  | [], r => .ok r
  | i :: l, r => do
    let a ← orErr (up i.code)
    let b ← orErr (down i.code)
    let q ← divK (a - b) (2 * ratio)
    let x ← orErr (r i.code)
    let v ← orErr x.npv
    let k ← divK 0.01 ratio
    deltaLoop u up down ratio l (r.put i.code
      { x with delta := x.delta.put u (q * 0.01 * i.notional)
               gamma := x.gamma.put u ((a - v.npv + b - v.npv) * k * (0.5 * k) * i.notional) })

/-- One underlying of `set_delta_gamma` (engine.rs 909-1001) -/
noncomputable def deltaRound (g : EngCfg) (u : String) (e : Eng) : Res Eng := do
  let jp ← orErr (e.mkt.price u)
  let up ← getNpvs g (e.mkt.putPrice jp.1 jp.2 (jp.2.value * (1 + g.conf.deltaRatio))) e.action (fun _ => none)
  let down ← getNpvs g (e.mkt.putPrice jp.1 jp.2 (jp.2.value * (1 - g.conf.deltaRatio))) e.action (fun _ => none)
  let r ← deltaLoop u up down g.conf.deltaRatio e.action e.results
  .ok { mkt := e.mkt.putPrice jp.1 jp.2 jp.2.value, action := e.action, results := r }

/-- The loop over names all greeks share: select the instruments, skip the name if there are none -/
def eachName (pick : String → Res (List Instr)) (round : String → Eng → Res Eng) : List String → Eng → Res Eng
  | [], e => .ok e
  | n :: ns, e => do
    let act ← pick n
    if act.isEmpty then eachName pick round ns { e with action := [] }
    else do
      let e' ← round n { e with action := act }
      eachName pick round ns e'

/-- `set_delta_gamma` (engine.rs 883-1006) -/
noncomputable def setDelta (g : EngCfg) (e : Eng) : Res Eng :=
  eachName (fun u => .ok (withUnderlying g.insts u ["Stock", "Futures"])) (deltaRound g) (allUnds g.insts) { e with action := g.insts }

/-! ### forward differences: rho, vega, dividend delta -/

/-- The loop over the instruments in action (engine.rs 1043-1074, 1128-1172, 1558-1579): `put` is the setter -/
noncomputable def diffLoop (put : EResult → ℝ → EResult) (ups : Map String ℝ) (b unit : ℝ) : List Instr → Results → Res Results
  | [], r => .ok r
  | i :: l, r => do
    let up ← orErr (ups i.code)
    let x ← orErr (r i.code)
    let v ← orErr x.npv
    let q ← divK (up - v.npv) b
    diffLoop put ups b unit l (r.put i.code (put x (q * unit * i.notional)))

/-- One name of these greeks: bump, reprice, put back -/
noncomputable def diffRound (g : EngCfg) (bump undo : Mkt → Res Mkt) (put : EResult → ℝ → EResult) (b unit : ℝ) (e : Eng) : Res Eng := do
  let m ← bump e.mkt
  let ups ← getNpvs g m e.action (fun _ => none)
  let r ← diffLoop put ups b unit e.action e.results
  let m' ← undo m
  .ok { mkt := m', action := e.action, results := r }

/-- One curve of `set_rho` (engine.rs 1017-1088) -/
noncomputable def rhoRound (g : EngCfg) (n : String) : Eng → Res Eng :=
  diffRound g (fun m => m.bumpCurve n none none g.conf.rhoBump) (fun m => m.bumpCurve n none none (-g.conf.rhoBump))
    (fun x v => { x with rho := x.rho.put n v }) g.conf.rhoBump 0.0001

/-- `set_rho` (engine.rs 1008-1091) -/
noncomputable def setRho (g : EngCfg) (e : Eng) : Res Eng := do
  let names ← allCurves g.p [] g.insts
  eachName (fun n => usingCurve g.p n ["Stock"] g.insts) (rhoRound g) names e

/-- One underlying of `set_vega` (engine.rs 1100-1187) -/
noncomputable def vegaRound (g : EngCfg) (u : String) : Eng → Res Eng :=
  diffRound g (fun m => m.bumpVol u none none none none g.conf.vegaBump) (fun m => m.bumpVol u none none none none (-g.conf.vegaBump))
    (fun x v => { x with vega := x.vega.put u v }) g.conf.vegaBump 0.01

/-- `set_vega` (engine.rs 1093-1189) -/
noncomputable def setVega (g : EngCfg) (e : Eng) : Res Eng :=
  eachName (fun u => .ok (withUnderlying g.insts u ["Futures", "Stock"])) (vegaRound g) (allUnds g.insts) e

/-- One underlying of `set_div_delta` (engine.rs 1536-1590) -/
noncomputable def divRound (g : EngCfg) (u : String) : Eng → Res Eng :=
  diffRound g (fun m => m.bumpDiv u none none g.conf.divBump) (fun m => m.bumpDiv u none none (-g.conf.divBump))
    (fun x v => { x with divDelta := x.divDelta.put u v }) g.conf.divBump 0.0001

/-- `set_div_delta` (engine.rs 1528-1593) -/
noncomputable def setDivDelta (g : EngCfg) (e : Eng) : Res Eng :=
  eachName (fun u => .ok (withUnderlying g.insts u ["Stock", "Cash"])) (divRound g) (allUnds g.insts) e

/-! ### theta -/

/-- `preprocess_theta` (engine.rs 1595-1612) -/
def preThetaLoop : List Instr → Results → Res Results
  | [], r => .ok r
  | i :: l, r => do
    let x ← orErr (r i.code)
    preThetaLoop l (r.put i.code { x with theta := some 0 })

/-- The cash flows after the day `a` and up to the day `b` (engine.rs 1662-1674) -/
noncomputable def cashBetween (a b : DT) : Flows → ℝ → ℝ
  | [], s => s
  | (d, x) :: m, s => if a.day < d.day ∧ d.day ≤ b.day then cashBetween a b m (s + x) else cashBetween a b m s

/-- The loop of `set_theta_for_given_instruments` (engine.rs 1644-1691) -/
noncomputable def thetaLoop (npvs npvs' : Map String ℝ) (a b : DT) (dt : ℝ) : List Instr → Results → Res Results
  | [], r => .ok r
  | i :: l, r =>
    if i.typeName = "Stock" ∨ i.typeName = "Cash" then thetaLoop npvs npvs' a b dt l r
    else do
      let x ← orErr (r i.code)
      let v ← orErr (npvs i.code)
      let v' ← orErr (npvs' i.code)
      let fl ← orErr x.flows
      let q ← divK ((v' - v + cashBetween a b fl 0) * x.notional) dt
      thetaLoop npvs npvs' a b dt l (r.put i.code { x with theta := some (q / 365 * 1) })

/-- `set_theta_for_given_instruments` (engine.rs 1617-1702) -/
noncomputable def setThetaFor (g : EngCfg) (l : List Instr) (b : DT) (e : Eng) : Res Eng := do
  let npvs ← getNpvs g e.mkt l (fun _ => none)
  let w ← e.mkt.w.setDate b
  let npvs' ← getNpvs g { e.mkt with w := w } l (fun _ => none)
  let r ← thetaLoop npvs npvs' e.mkt.w.date b (timeFrom e.mkt.w.date b) l e.results
  let w' ← w.setDate e.mkt.w.date
  .ok { mkt := { e.mkt with w := w' }, action := l, results := r }

/-- The instruments maturing by the moved date, moved to the shortest of their maturities (engine.rs 2032-2062) -/
noncomputable def thetaShort (g : EngCfg) (b : DT) (e : Eng) : Res Eng :=
  let l := maturityUpto g.insts b ["Cash", "Stock"]
  if l.isEmpty then .ok e
  else
    match shortestMaturity l with
    | none => .error .unwrapNone
    | some d => setThetaFor g l d e

/-- All others (engine.rs 2064-2066) -/
noncomputable def thetaLong (g : EngCfg) (b : DT) (e : Eng) : Res Eng :=
  let l := maturityOver g.insts b ["Cash", "Stock"]
  if l.isEmpty then .ok e else setThetaFor g l b e

/-- The theta part of `calculate` (engine.rs 2009-2073) -/
noncomputable def setTheta (g : EngCfg) (e : Eng) : Res Eng := do
  let r ← preThetaLoop (withTypes g.insts ["Cash", "Stock"]) e.results
  let b ← e.mkt.w.date.addNs (g.conf.thetaDay * dayNs)
  let e1 ← thetaShort g b { e with results := r }
  thetaLong g b e1

/-! ### structures -/

/-- The loop over the instruments in action (engine.rs 1296-1313, 1466-1483, 1777-1796, 1908-1927): the difference to `base`
goes to the table of the instrument, by `put` -/
noncomputable def tableLoop {τ : Type} (put : τ → ℝ → τ) (ups : Map String ℝ) (base : String → Res ℝ) (b unit : ℝ) :
    List Instr → Map String τ → Res (Map String τ)
  | [], t => .ok t
  | i :: l, t => do
    let up ← orErr (ups i.code)
    let v ← base i.code
    let q ← divK (up - v) b
    let x ← orErr (t i.code)
    tableLoop put ups base b unit l (t.put i.code (put x (q * unit * i.notional)))

/-- The tables into the results (engine.rs 1315-1325, 1485-1495, 1821-1832, 1948-1954) -/
def writeTables {τ : Type} (put : EResult → τ → EResult) (t : Map String τ) : List String → Results → Res Results
  | [], r => .ok r
  | c :: cs, r => do
    let v ← orErr (t c)
    let x ← orErr (r c)
    writeTables put t cs (r.put c (put x v))

/-- A table of zeros for each instrument in action (engine.rs 1236-1244, 1385-1388, 1745-1751, 1882-1888) -/
def zeroTables {τ : Type} (z : τ) : List Instr → Map String τ → Map String τ
  | [], t => t
  | i :: l, t => zeroTables z l (t.put i.code z)

/-- The npv in the results -/
def baseNpv (r : Results) (c : String) : Res ℝ := do
  let x ← orErr (r c)
  let v ← orErr x.npv
  .ok v.npv

/-- The npvs a structure starts from (engine.rs 1245-1264, 1390-1409) -/
def baseNpvs (r : Results) : List Instr → Map String ℝ → Res (Map String ℝ)
  | [], m => .ok m
  | i :: l, m => do
    let v ← baseNpv r i.code
    baseNpvs r l (m.put i.code v)

/-- `longest_mat_time` (engine.rs 1225-1231, 1369-1375) -/
noncomputable def longestTime (eval : DT) (l : List Instr) : ℝ :=
  match longestMaturity l with
  | some d => timeFrom eval d
  | none => 100000000

/-- `bump_start`: nothing for the first, else the one before -/
def startOf {α : Type} (l : List α) (i : Nat) : Option α := if i = 0 then none else l[i - 1]?

/-- `if longest_mat_time < start { continue }` -/
noncomputable def beyond (longest : ℝ) (start : Option ℝ) : Bool :=
  match start with
  | some s => decide (longest < s)
  | none => false

/-- The loop of `set_vega_structure` (engine.rs 1266-1326) over the tenors `n - 1, .., 0` -/
noncomputable def vegaSLoop (g : EngCfg) (u : String) (act : List Instr) (times : List ℝ) (longest : ℝ) :
    Nat → Mkt → Map String ℝ → Map String (List ℝ) → Results → Res (Mkt × Results)
  | 0, m, _, _, r => .ok (m, r)
  | n + 1, m, prev, t, r => do
    let m' ← m.bumpVol u (startOf times n) times[n]? none none g.conf.vegaSBump
    if beyond longest (startOf times n) then vegaSLoop g u act times longest n m' prev t r
    else do
      let ups ← getNpvs g m' act (fun _ => none)
      let t' ← tableLoop (fun l v => l.set n v) ups (fun c => orErr (prev c)) g.conf.vegaSBump 0.01 act t
      let r' ← writeTables (fun x v => { x with vegaS := x.vegaS.put u v }) t' (act.map Instr.code) r
      vegaSLoop g u act times longest n m' ups t' r'

/-- One underlying of `set_vega_structure` (engine.rs 1221-1346) -/
noncomputable def vegaSRound (g : EngCfg) (times : List ℝ) (u : String) (e : Eng) : Res Eng := do
  let prev ← baseNpvs e.results e.action (fun _ => none)
  let mr ← vegaSLoop g u e.action times (longestTime e.mkt.w.date e.action) times.length e.mkt prev
    (zeroTables (List.replicate times.length 0) e.action fun _ => none) e.results
  let m' ← mr.1.bumpVol u none none none none (-g.conf.vegaSBump)
  .ok { mkt := m', action := e.action, results := mr.2 }

/-- `calc_dates` (engine.rs 1207-1210, 1717-1720, 1845-1853) -/
def calcDates (md : Mode) (eval : DT) (tenors : List (List Char)) : Res (List DT) := mapRes (addPeriod md eval) tenors

/-- `set_vega_structure` (engine.rs 1197-1349) -/
noncomputable def setVegaS (g : EngCfg) (e : Eng) : Res Eng := do
  let ds ← calcDates g.md e.mkt.w.date g.conf.vegaTenors
  eachName (fun u => .ok (withUnderlying g.insts u ["Cash", "Stock", "Futures"]))
    (vegaSRound g (ds.map (timeFrom e.mkt.w.date))) (allUnds g.insts) e

/-- The loop of `set_rho_structure` and `set_div_structure` over the tenors (engine.rs 1753-1819, 1891-1946): bump one window,
reprice, put back; stop when nothing matures later. `left` counts the tenors left, `i` is the current one. -/
noncomputable def windowLoop (g : EngCfg) (bump : Nat → ℝ → Mkt → Res Mkt) (b unit : ℝ) (dates : List DT) (act : List Instr) (r : Results) :
    Nat → Nat → Mkt → Map String (List ℝ) → Res (Mkt × Map String (List ℝ))
  | 0, _, m, t => .ok (m, t)
  | left + 1, i, m, t => do
    let m1 ← bump i b m
    let ups ← getNpvs g m1 act (fun _ => none)
    let t' ← tableLoop (fun l v => l.set i v) ups (baseNpv r) b unit act t
    let m2 ← bump i (-b) m1
    let d ← at_ dates i
    if (maturityOver act d ["Stock", "Cash"]).isEmpty then .ok (m2, t')
    else windowLoop g bump b unit dates act r left (i + 1) m2 t'

/-- One name of these structures -/
noncomputable def windowRound (g : EngCfg) (bump : Nat → ℝ → Mkt → Res Mkt) (put : EResult → List ℝ → EResult) (b unit : ℝ) (dates : List DT)
    (e : Eng) : Res Eng := do
  let mt ← windowLoop g bump b unit dates e.action e.results dates.length 0 e.mkt
    (zeroTables (List.replicate dates.length 0) e.action fun _ => none)
  let r ← writeTables put mt.2 (e.action.map Instr.code) e.results
  .ok { mkt := mt.1, action := e.action, results := r }

/-- `set_rho_structure` (engine.rs 1704-1837) -/
noncomputable def setRhoS (g : EngCfg) (e : Eng) : Res Eng := do
  let names ← allCurves g.p [] g.insts
  let ds ← calcDates g.md e.mkt.w.date g.conf.rhoTenors
  let times := ds.map (timeFrom e.mkt.w.date)
  eachName (fun n => usingCurve g.p n ["Stock", "Cash"] g.insts)
    (fun n => windowRound g (fun i b m => m.bumpCurve n (startOf times i) times[i]? b) (fun x v => { x with rhoS := x.rhoS.put n v })
      g.conf.rhoBump 0.0001 ds) names e

/-- `set_div_structure` (engine.rs 1839-1956); `names` are the keys of `dividends` in the order the program walks them -/
noncomputable def setDivS (g : EngCfg) (names : List String) (e : Eng) : Res Eng := do
  let ds ← calcDates g.md e.mkt.w.date g.conf.divTenors
  eachName (fun u => .ok (withUnderlying g.insts u ["Stock", "Cash"]))
    (fun u => windowRound g (fun i b m => m.bumpDiv u (startOf ds i) ds[i]? b) (fun x v => { x with divS := x.divS.put u v })
      g.conf.divBump 0.0001 ds) names e

/-! ### the vega matrix -/

/-- The order of the cells (engine.rs 1411-1427): rows from the last, rows starting after the longest maturity left out;
within a row by moneyness -/
noncomputable def cellOrder (times : List ℝ) (longest : ℝ) (cols : Nat) : Nat → List (Nat × Nat)
  | 0 => []
  | n + 1 =>
    (if beyond longest (startOf times n) then [] else (List.range cols).map fun j => (n, j)) ++ cellOrder times longest cols n

/-- `matrix[[i, j]] = v` -/
def setCell (t : List (List ℝ)) (i j : Nat) (v : ℝ) : List (List ℝ) :=
  match t[i]? with
  | some row => t.set i (row.set j v)
  | none => t

/-- The loop over the cells (engine.rs 1427-1496). The tables are written for all instruments that have one, `codes`: those of
this underlying and of the ones before it. -/
noncomputable def matrixLoop (g : EngCfg) (u : String) (act : List Instr) (codes : List String) (times mon : List ℝ) :
    List (Nat × Nat) → Mkt → Map String ℝ → Map String (List (List ℝ)) → Results → Res (Mkt × Map String (List (List ℝ)) × Results)
  | [], m, _, t, r => .ok (m, t, r)
  | (i, j) :: cells, m, prev, t, r => do
    let m' ← m.bumpVol u (startOf times i) times[i]? (startOf mon j) mon[j]? g.conf.vegaSBump
    let ups ← getNpvs g m' act (fun _ => none)
    let t' ← tableLoop (fun x v => setCell x i j v) ups (fun c => orErr (prev c)) g.conf.vegaSBump 0.01 act t
    let r' ← writeTables (fun x v => { x with vegaM := x.vegaM.put u v }) t' codes r
    matrixLoop g u act codes times mon cells m' ups t' r'

/-- The loop over the underlyings (engine.rs 1379-1523): the tables are kept from one to the next -/
noncomputable def matrixNames (g : EngCfg) (times : List ℝ) : List String → List String → Map String (List (List ℝ)) → Eng → Res Eng
  | [], _, _, e => .ok e
  | u :: us, codes, t, e => do
    let act := withUnderlying g.insts u ["Cash", "Stock", "Futures"]
    if act.isEmpty then matrixNames g times us codes t { e with action := [] }
    else do
      let prev ← baseNpvs e.results act (fun _ => none)
      let codes' := codes ++ act.map Instr.code
      let z := List.replicate times.length (List.replicate g.conf.moneyness.length (0 : ℝ))
      let mtr ← matrixLoop g u act codes' times g.conf.moneyness
        (cellOrder times (longestTime e.mkt.w.date act) g.conf.moneyness.length times.length) e.mkt prev (zeroTables z act t) e.results
      let m' ← mtr.1.bumpVol u none none none none (-g.conf.vegaSBump)
      matrixNames g times us codes' mtr.2.1 { mkt := m', action := act, results := mtr.2.2 }

/-- `set_vega_matrix` (engine.rs 1351-1526) -/
noncomputable def setVegaM (g : EngCfg) (e : Eng) : Res Eng := do
  let ds ← calcDates g.md e.mkt.w.date g.conf.vegaTenors
  matrixNames g (ds.map (timeFrom e.mkt.w.date)) (allUnds g.insts) [] (fun _ => none) e

/-! ### everything -/

/-- `if flag { f()? }` -/
def onlyIf (flag : Bool) (f : Eng → Res Eng) (e : Eng) : Res Eng := if flag then f e else .ok e

/-- `set_npv_results`, `set_values`, `set_cashflow_inbetween` (engine.rs 1973-1976) -/
noncomputable def setNpvs (g : EngCfg) (e : Eng) : Res Eng := do
  let e ← setNpvResults g e
  let e ← setValues g e
  setFlows g e

/-- `preprocess_delta_gamma`, `set_delta_gamma` (engine.rs 1999-2000) -/
noncomputable def setDeltas (g : EngCfg) (e : Eng) : Res Eng := do
  let e ← preprocessDelta g e
  setDelta g e

/-- `calculate` (engine.rs 1958-2161); the warning about an empty engine (1966-1971, given when it is not empty) and the other
log lines are dropped -/
noncomputable def calculate (g : EngCfg) (divNames : List String) (e : Eng) : Res Eng := do
  let e ← onlyIf g.conf.npv (setNpvs g) e
  let e ← onlyIf g.conf.exposure (setExposures g) e
  let e ← onlyIf g.conf.delta (setDeltas g) e
  let e ← onlyIf g.conf.theta (setTheta g) e
  let e ← onlyIf g.conf.vega (setVega g) e
  let e ← onlyIf g.conf.rho (setRho g) e
  let e ← onlyIf g.conf.divDelta (setDivDelta g) e
  let e ← onlyIf g.conf.vegaS (setVegaS g) e
  let e ← onlyIf g.conf.rhoS (setRhoS g) e
  let e ← onlyIf g.conf.divS (setDivS g divNames) e
  onlyIf g.conf.vegaM (setVegaM g) e

/-- `representation_currency_conversion` (calculation_result.rs 463-608) -/
noncomputable def EResult.convert (x : EResult) (c : Currency) (fx : ℝ) : EResult :=
  if c = x.ccy then x
  else
    { x with
      ccy := c
      value := x.value.map (· * fx)
      exposure := x.exposure.map fun l => l.map fun e => (e.1, e.2 * fx)
      delta := fun k => (x.delta k).map (· * fx)
      gamma := fun k => (x.gamma k).map (· * fx)
      vega := fun k => (x.vega k).map (· * fx)
      vegaS := fun k => (x.vegaS k).map fun l => l.map (· * fx)
      vegaM := fun k => (x.vegaM k).map fun t => t.map fun l => l.map (· * fx)
      theta := x.theta.map (· * fx)
      divDelta := fun k => (x.divDelta k).map (· * fx)
      divS := fun k => (x.divS k).map fun l => l.map (· * fx)
      rho := fun k => (x.rho k).map (· * fx)
      rhoS := fun k => (x.rhoS k).map fun l => l.map (· * fx) }

end Verif.QL

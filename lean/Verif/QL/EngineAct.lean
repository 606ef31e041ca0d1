import Verif.QL.Engine
import Verif.Act
/-!
# The calculations of the engine, write by write

`Verif.QL.Engine` drops what a calculation has changed when it answers an error or panics. Here the same functions (engine.rs 745-2161) are modelled
statement by statement on the engine: market, instruments in action and results are there after an error, too. The market is shared with whoever gave it
to the engine (`Rc<RefCell<..>>`), and the engine itself may be used again after an error.
-/
set_option autoImplicit false
namespace Verif.QL
open Verif

/-- A statement on the market of the engine. -/
def onMkt {α : Type} (a : Act Mkt α) : Act Eng α := Act.on Eng.mkt (fun m e => { e with mkt := m }) a

/-- `self.calculation_results.get(c)?.borrow_mut().set_..(..)` -/
def setResult (c : String) (f : EResult → EResult) : Act Eng Unit := do
  let e ← look
  let x ← expr (orErr (e.results c))
  assign fun e => { e with results := e.results.put c (f x) }

/-- `self.calculation_results.get(c)?.borrow().get_npv_result()?.get_npv()` -/
def readNpv (c : String) : Act Eng ℝ := do
  let e ← look
  expr (baseNpv e.results c)

/-! ### bumps -/

/-- `bump_time_interval` (zero_curve.rs 188-244): the rates are written first. `rate_interpolator` is kept blank. -/
noncomputable def curveAct (t1 t2 : Option ℝ) (b : ℝ) : Act Curve Unit := do
  let c ← look
  let t1 := t1.getD (-99999999)
  let t2 := t2.getD 99999999
  if c.rates.length ≠ c.times.length then expr (.error .err)
  else if t1 > t2 then expr (.error .err)
  else do
    let rs := List.zipWith (fun r t => r + bumpMask t1 t2 t * b) c.rates c.times
    assign fun c => { c with rates := rs }
    let _ ← expr (mkRates c.times rs)
    assign fun c => { c with rateInterp := .const 0 }
    assign fun c => { c with dfs := discounts rs c.times }
    let disc ← expr (Lin.new c.times (discounts rs c.times) .none false)
    assign fun c => { c with disc := disc }

/-- `zero_curves.get(n)?.borrow_mut().bump_time_interval(..)` -/
noncomputable def bumpCurveAct (n : String) (t1 t2 : Option ℝ) (b : ℝ) : Act Mkt Unit := fun m =>
  match m.curves n with
  | none => (m, .error .err)
  | some c =>
    match curveAct t1 t2 b c with
    | (c', r) => ({ m with curves := m.curves.put n c' }, r)

/-- `bump_volatility` (constant_volatility.rs 50-60; local_volatility_surface.rs 433-465, 235-303): the cells are written first, then the interpolator
made from them. -/
noncomputable def volAct (env : FuturesPricer) (t1 t2 x1 x2 : Option ℝ) (b : ℝ) : Act Vol Unit := fun v =>
  match v with
  | .const v => (.const (v + b), .ok ())
  | .surface s =>
    let s1 := { s with vols := bumpCells s.times s.mon s.vols t1 t2 x1 x2 b }
    match Surf.build env s1 with
    | .ok s2 => (.surface s2, .ok ())
    | .error e => (.surface s1, .error e)

/-- `volatilities.get(u)?.borrow_mut().bump_volatility(..)` -/
noncomputable def bumpVolAct (u : String) (t1 t2 x1 x2 : Option ℝ) (b : ℝ) : Act Mkt Unit := fun m =>
  match m.vols u with
  | none => (m, .error .err)
  | some v =>
    match m.env u with
    | .error e => (m, .error e)
    | .ok env =>
      match volAct env t1 t2 x1 x2 b v with
      | (v', r) => ({ m with vols := m.vols.put u v' }, r)

/-- `bump_date_interval` (discrete_ratio_dividend.rs 187-244): the amounts are written first, then the yields, then the interpolator. -/
noncomputable def dividendAct (d1 d2 : Option DT) (b : ℝ) : Act (Dividend ℝ) Unit := do
  let v ← look
  let n1 := bumpLow d1
  let n2 := bumpHigh d2
  if n1 ≥ n2 then expr (.error .err)
  else do
    let ns := v.dates.map yyyymmdd
    let amounts := List.zipWith (fun a n => a + (if n1 < n ∧ n ≤ n2 then 1 else 0) * b) v.amounts ns
    assign fun v => { v with amounts := amounts }
    let ys ← expr (yieldsOf amounts v.spot)
    assign fun v => { v with yields := ys }
    let it ← expr (mkInterp ns (ratios 1 ys))
    assign fun v => { v with interp := it }

/-- `dividends.get(u).unwrap().clone().unwrap().borrow_mut().bump_date_interval(..)` -/
noncomputable def bumpDivAct (u : String) (d1 d2 : Option DT) (b : ℝ) : Act Mkt Unit := fun m =>
  match m.dividend u with
  | none => (m, .error .unwrapNone)
  | some k =>
    match m.w.divs[k]? with
    | none => (m, .error .index)   -- no such object: cannot happen
    | some v =>
      match dividendAct d1 d2 b v.1 with
      | (v', r) => ({ m with w := { m.w with divs := m.w.divs.set k (v', v.2) } }, r)

/-! ### the evaluation date -/

/-- The loop over the observing prices (evaluation_date.rs 98-105). `update_evaluation_date` of a price answers no error; that a division by zero ends the
model is noted on the price as it was. -/
noncomputable def pricesAct (d : DT) : List (Price ℝ) → List (Price ℝ) → Act (World ℝ) Unit
  | _, [] => expr (.ok ())
  | done, p :: rest => do
    let w ← look
    let p' ← expr (Price.update p (w.divs.map Prod.fst) d)
    assign fun w => { w with prices := done ++ p' :: rest }
    pricesAct d (done ++ [p']) rest

/-- One observing dividend: `update_evaluation_date` (discrete_ratio_dividend.rs 246-288) writes the interpolator at the end, or nothing -/
noncomputable def watch (d : DT) (v : Dividend ℝ × Bool) : Res (Dividend ℝ × Bool) :=
  if v.2 then (do let x ← Dividend.update v.1 d; .ok (x, true)) else .ok v

/-- The loop over the observing dividends (evaluation_date.rs 107-114) -/
noncomputable def divsAct (d : DT) : List (Dividend ℝ × Bool) → List (Dividend ℝ × Bool) → Act (World ℝ) Unit
  | _, [] => expr (.ok ())
  | done, v :: rest => do
    let v' ← expr (watch d v)
    assign fun w => { w with divs := done ++ v' :: rest }
    divsAct d (done ++ [v']) rest

/-- `set_date` (evaluation_date.rs 84-87): the date is written first. -/
noncomputable def dateAct (d : DT) : Act (World ℝ) Unit := do
  assign fun w => { w with date := d }
  let w ← look
  pricesAct d [] w.prices
  divsAct d [] w.divs

/-- `evaluation_date.borrow_mut().set_date(..)` -/
noncomputable def moveAct (d : DT) : Act Eng Unit := onMkt (Act.on Mkt.w (fun w m => { m with w := w }) (dateAct d))

/-! ### npv, value, cash flows, exposure -/

/-- A loop over `calculation_results` -/
def eachResultAct (f : String → EResult → Res EResult) : List Instr → Act Eng Unit
  | [] => expr (.ok ())
  | i :: l => do
    let e ← look
    let x ← expr (orErr (e.results i.code))
    let y ← expr (f i.code x)
    assign fun e => { e with results := e.results.put i.code y }
    eachResultAct f l

/-- `set_npv_results` (engine.rs 745-756) -/
def setNpvResultsAct (g : EngCfg) : Act Eng Unit := do
  let e ← look
  let npvs ← expr (getResults g e.mkt e.action (fun _ => none))
  eachResultAct (fun c x => do
    let v ← orErr (npvs c)
    .ok { x with npv := some v }) g.insts

/-- `set_values` (engine.rs 814-819) -/
noncomputable def setValuesAct (g : EngCfg) : Act Eng Unit :=
  eachResultAct (fun _ x => do
    let v ← orErr x.npv
    .ok { x with value := some (v.npv * x.notional) }) g.insts

/-- `set_cashflow_inbetween` (engine.rs 758-772) -/
noncomputable def setFlowsAct (g : EngCfg) : Act Eng Unit :=
  eachResultAct (fun _ x => do
    let v ← orErr x.npv
    let m ← v.expected
    .ok { x with flows := some m }) g.insts

/-- `set_fx_exposures` (engine.rs 774-812) -/
def setExposuresAct (g : EngCfg) : Act Eng Unit := do
  let e ← look
  let fs ← expr (getExposures g e.mkt e.results e.action (fun _ => none))
  eachResultAct (fun c x => do
    let v ← orErr (fs c)
    .ok { x with exposure := some v }) g.insts

/-! ### delta and gamma -/

/-- The loop of `preprocess_delta_gamma` (engine.rs 824-878) -/
noncomputable def preDeltaAct : List Instr → Act Eng Unit
  | [] => expr (.ok ())
  | i :: l => do
    let v ← readNpv i.code
    setResult i.code fun x => { x with delta := x.delta.put i.code (v * 0.01 * i.notional) }
    setResult i.code fun x => { x with gamma := x.gamma.put i.code 0 }
    preDeltaAct l

/-- The loop over the instruments in action (engine.rs 940-989): the delta is written before the npv is read for the gamma. -/
noncomputable def deltaLoopAct (u : String) (up down : Map String ℝ) (ratio : ℝ) : List Instr → Act Eng Unit
  | [] => expr (.ok ())
  | i :: l => do
    let a ← expr (orErr (up i.code))
    let b ← expr (orErr (down i.code))
    let q ← expr (divK (a - b) (2 * ratio))
    setResult i.code fun x => { x with delta := x.delta.put u (q * 0.01 * i.notional) }
    let v ← readNpv i.code
    let k ← expr (divK 0.01 ratio)
    setResult i.code fun x => { x with gamma := x.gamma.put u ((a - v + b - v) * k * (0.5 * k) * i.notional) }
    deltaLoopAct u up down ratio l

/-- `self.equities.get(u)?.borrow_mut()`, changed by `f` -/
noncomputable def changePrice (u : String) (f : ℝ → ℝ) : Act Mkt Unit := fun m =>
  match m.price u with
  | none => (m, .error .err)
  | some jp => (m.putPrice jp.1 jp.2 (f jp.2.value), .ok ())

/-- `get_npvs` (engine.rs 696-722) of the engine as it is -/
def npvsAct (g : EngCfg) : Act Eng (Map String ℝ) := do
  let e ← look
  expr (getNpvs g e.mkt e.action (fun _ => none))

/-- One underlying of `set_delta_gamma` (engine.rs 909-1001) -/
noncomputable def deltaRoundAct (g : EngCfg) (u : String) : Act Eng Unit := do
  let e ← look
  let jp ← expr (orErr (e.mkt.price u))
  onMkt (changePrice u fun x => x * (1 + g.conf.deltaRatio))
  let up ← npvsAct g
  onMkt (changePrice u fun _ => jp.2.value)
  onMkt (changePrice u fun x => x * (1 - g.conf.deltaRatio))
  let down ← npvsAct g
  deltaLoopAct u up down g.conf.deltaRatio e.action
  onMkt (changePrice u fun _ => jp.2.value)

/-- The loop over names all greeks share: select the instruments (this is written to the engine), skip the name if there are none -/
def eachNameAct (pick : String → Res (List Instr)) (round : String → Act Eng Unit) : List String → Act Eng Unit
  | [] => expr (.ok ())
  | n :: ns => do
    let act ← expr (pick n)
    assign fun e => { e with action := act }
    if act.isEmpty then eachNameAct pick round ns
    else do
      round n
      eachNameAct pick round ns

/-- `set_delta_gamma` (engine.rs 883-1006), after `reset_instruments_in_action` -/
noncomputable def setDeltaAct (g : EngCfg) : Act Eng Unit := do
  assign fun e => { e with action := g.insts }
  eachNameAct (fun u => .ok (withUnderlying g.insts u ["Stock", "Futures"])) (deltaRoundAct g) (allUnds g.insts)

/-! ### forward differences: rho, vega, dividend delta -/

/-- The loop over the instruments in action (engine.rs 1043-1074, 1128-1172, 1558-1579) -/
noncomputable def diffLoopAct (put : EResult → ℝ → EResult) (ups : Map String ℝ) (b unit : ℝ) : List Instr → Act Eng Unit
  | [] => expr (.ok ())
  | i :: l => do
    let up ← expr (orErr (ups i.code))
    let v ← readNpv i.code
    let q ← expr (divK (up - v) b)
    setResult i.code fun x => put x (q * unit * i.notional)
    diffLoopAct put ups b unit l

/-- One name of these greeks: bump, reprice, put back (engine.rs 1017-1088, 1100-1187, 1536-1590) -/
noncomputable def diffRoundAct (g : EngCfg) (bump undo : Act Mkt Unit) (put : EResult → ℝ → EResult) (b unit : ℝ) : Act Eng Unit := do
  let e ← look
  onMkt bump
  let ups ← npvsAct g
  diffLoopAct put ups b unit e.action
  onMkt undo

/-- `set_rho` (engine.rs 1008-1091) -/
noncomputable def setRhoAct (g : EngCfg) : Act Eng Unit := do
  let names ← expr (allCurves g.p [] g.insts)
  eachNameAct (fun n => usingCurve g.p n ["Stock"] g.insts)
    (fun n => diffRoundAct g (bumpCurveAct n none none g.conf.rhoBump) (bumpCurveAct n none none (-g.conf.rhoBump))
      (fun x v => { x with rho := x.rho.put n v }) g.conf.rhoBump 0.0001) names

/-- `set_vega` (engine.rs 1093-1189) -/
noncomputable def setVegaAct (g : EngCfg) : Act Eng Unit :=
  eachNameAct (fun u => .ok (withUnderlying g.insts u ["Futures", "Stock"]))
    (fun u => diffRoundAct g (bumpVolAct u none none none none g.conf.vegaBump) (bumpVolAct u none none none none (-g.conf.vegaBump))
      (fun x v => { x with vega := x.vega.put u v }) g.conf.vegaBump 0.01) (allUnds g.insts)

/-- `set_div_delta` (engine.rs 1528-1593) -/
noncomputable def setDivDeltaAct (g : EngCfg) : Act Eng Unit :=
  eachNameAct (fun u => .ok (withUnderlying g.insts u ["Stock", "Cash"]))
    (fun u => diffRoundAct g (bumpDivAct u none none g.conf.divBump) (bumpDivAct u none none (-g.conf.divBump))
      (fun x v => { x with divDelta := x.divDelta.put u v }) g.conf.divBump 0.0001) (allUnds g.insts)

/-! ### theta -/

/-- `preprocess_theta` (engine.rs 1595-1612) -/
def preThetaAct : List Instr → Act Eng Unit
  | [] => expr (.ok ())
  | i :: l => do
    setResult i.code fun x => { x with theta := some 0 }
    preThetaAct l

/-- The loop of `set_theta_for_given_instruments` (engine.rs 1644-1693) -/
noncomputable def thetaLoopAct (npvs npvs' : Map String ℝ) (a b : DT) (dt : ℝ) : List Instr → Act Eng Unit
  | [] => expr (.ok ())
  | i :: l =>
    if i.typeName = "Stock" ∨ i.typeName = "Cash" then thetaLoopAct npvs npvs' a b dt l
    else do
      let e ← look
      let x ← expr (orErr (e.results i.code))
      let v ← expr (orErr (npvs i.code))
      let v' ← expr (orErr (npvs' i.code))
      let fl ← expr (orErr x.flows)
      let q ← expr (divK ((v' - v + cashBetween a b fl 0) * x.notional) dt)
      setResult i.code fun x => { x with theta := some (q / 365 * 1) }
      thetaLoopAct npvs npvs' a b dt l

/-- `set_theta_for_given_instruments` (engine.rs 1617-1702) -/
noncomputable def setThetaForAct (g : EngCfg) (l : List Instr) (b : DT) : Act Eng Unit := do
  assign fun e => { e with action := l }
  let e ← look
  let npvs ← npvsAct g
  moveAct b
  let npvs' ← npvsAct g
  thetaLoopAct npvs npvs' e.mkt.w.date b (timeFrom e.mkt.w.date b) l
  moveAct e.mkt.w.date

/-- The instruments maturing by the moved date (engine.rs 2032-2062) -/
noncomputable def thetaShortAct (g : EngCfg) (b : DT) : Act Eng Unit :=
  let l := maturityUpto g.insts b ["Cash", "Stock"]
  if l.isEmpty then expr (.ok ())
  else
    match shortestMaturity l with
    | none => expr (.error .unwrapNone)
    | some d => setThetaForAct g l d

/-- All others (engine.rs 2064-2066) -/
noncomputable def thetaLongAct (g : EngCfg) (b : DT) : Act Eng Unit :=
  let l := maturityOver g.insts b ["Cash", "Stock"]
  if l.isEmpty then expr (.ok ()) else setThetaForAct g l b

/-- The theta part of `calculate` (engine.rs 2009-2073) -/
noncomputable def setThetaAct (g : EngCfg) : Act Eng Unit := do
  preThetaAct (withTypes g.insts ["Cash", "Stock"])
  let e ← look
  let b ← expr (e.mkt.w.date.addNs (g.conf.thetaDay * dayNs))
  thetaShortAct g b
  thetaLongAct g b

/-! ### structures -/

/-- The tables into the results (engine.rs 1315-1325, 1485-1495, 1821-1832, 1948-1954) -/
def writeTablesAct {τ : Type} (put : EResult → τ → EResult) (t : Map String τ) : List String → Act Eng Unit
  | [] => expr (.ok ())
  | c :: cs => do
    let v ← expr (orErr (t c))
    setResult c fun x => put x v
    writeTablesAct put t cs

/-- The loop of `set_vega_structure` (engine.rs 1266-1326); the tables are local -/
noncomputable def vegaSLoopAct (g : EngCfg) (u : String) (act : List Instr) (times : List ℝ) (longest : ℝ) :
    Nat → Map String ℝ → Map String (List ℝ) → Act Eng Unit
  | 0, _, _ => expr (.ok ())
  | n + 1, prev, t => do
    onMkt (bumpVolAct u (startOf times n) times[n]? none none g.conf.vegaSBump)
    if beyond longest (startOf times n) then vegaSLoopAct g u act times longest n prev t
    else do
      let ups ← npvsAct g
      let t' ← expr (tableLoop (fun l v => l.set n v) ups (fun c => orErr (prev c)) g.conf.vegaSBump 0.01 act t)
      writeTablesAct (fun x v => { x with vegaS := x.vegaS.put u v }) t' (act.map Instr.code)
      vegaSLoopAct g u act times longest n ups t'

/-- One underlying of `set_vega_structure` (engine.rs 1221-1346) -/
noncomputable def vegaSRoundAct (g : EngCfg) (times : List ℝ) (u : String) : Act Eng Unit := do
  let e ← look
  let prev ← expr (baseNpvs e.results e.action (fun _ => none))
  vegaSLoopAct g u e.action times (longestTime e.mkt.w.date e.action) times.length prev
    (zeroTables (List.replicate times.length 0) e.action fun _ => none)
  onMkt (bumpVolAct u none none none none (-g.conf.vegaSBump))

/-- `set_vega_structure` (engine.rs 1197-1349) -/
noncomputable def setVegaSAct (g : EngCfg) : Act Eng Unit := do
  let e ← look
  let ds ← expr (calcDates g.md e.mkt.w.date g.conf.vegaTenors)
  eachNameAct (fun u => .ok (withUnderlying g.insts u ["Cash", "Stock", "Futures"]))
    (vegaSRoundAct g (ds.map (timeFrom e.mkt.w.date))) (allUnds g.insts)

/-- The loop of `set_rho_structure` and `set_div_structure` over the tenors (engine.rs 1753-1819, 1891-1946); the tables are local -/
noncomputable def windowLoopAct (g : EngCfg) (bump : Nat → ℝ → Act Mkt Unit) (b unit : ℝ) (dates : List DT) (act : List Instr) :
    Nat → Nat → Map String (List ℝ) → Act Eng (Map String (List ℝ))
  | 0, _, t => expr (.ok t)
  | left + 1, i, t => do
    onMkt (bump i b)
    let ups ← npvsAct g
    let e ← look
    let t' ← expr (tableLoop (fun l v => l.set i v) ups (baseNpv e.results) b unit act t)
    onMkt (bump i (-b))
    let d ← expr (at_ dates i)
    if (maturityOver act d ["Stock", "Cash"]).isEmpty then expr (.ok t')
    else windowLoopAct g bump b unit dates act left (i + 1) t'

/-- One name of these structures -/
noncomputable def windowRoundAct (g : EngCfg) (bump : Nat → ℝ → Act Mkt Unit) (put : EResult → List ℝ → EResult) (b unit : ℝ) (dates : List DT) :
    Act Eng Unit := do
  let e ← look
  let t ← windowLoopAct g bump b unit dates e.action dates.length 0 (zeroTables (List.replicate dates.length 0) e.action fun _ => none)
  writeTablesAct put t (e.action.map Instr.code)

/-- `set_rho_structure` (engine.rs 1704-1837) -/
noncomputable def setRhoSAct (g : EngCfg) : Act Eng Unit := do
  let names ← expr (allCurves g.p [] g.insts)
  let e ← look
  let ds ← expr (calcDates g.md e.mkt.w.date g.conf.rhoTenors)
  eachNameAct (fun n => usingCurve g.p n ["Stock", "Cash"] g.insts)
    (fun n => windowRoundAct g (fun i b => bumpCurveAct n (startOf (ds.map (timeFrom e.mkt.w.date)) i) (ds.map (timeFrom e.mkt.w.date))[i]? b)
      (fun x v => { x with rhoS := x.rhoS.put n v }) g.conf.rhoBump 0.0001 ds) names

/-- `set_div_structure` (engine.rs 1839-1956) -/
noncomputable def setDivSAct (g : EngCfg) (names : List String) : Act Eng Unit := do
  let e ← look
  let ds ← expr (calcDates g.md e.mkt.w.date g.conf.divTenors)
  eachNameAct (fun u => .ok (withUnderlying g.insts u ["Stock", "Cash"]))
    (fun u => windowRoundAct g (fun i b => bumpDivAct u (startOf ds i) ds[i]? b) (fun x v => { x with divS := x.divS.put u v })
      g.conf.divBump 0.0001 ds) names

/-! ### the vega matrix -/

/-- The loop over the cells (engine.rs 1427-1496) -/
noncomputable def matrixLoopAct (g : EngCfg) (u : String) (act : List Instr) (codes : List String) (times mon : List ℝ) :
    List (Nat × Nat) → Map String ℝ → Map String (List (List ℝ)) → Act Eng (Map String (List (List ℝ)))
  | [], _, t => expr (.ok t)
  | (i, j) :: cells, prev, t => do
    onMkt (bumpVolAct u (startOf times i) times[i]? (startOf mon j) mon[j]? g.conf.vegaSBump)
    let ups ← npvsAct g
    let t' ← expr (tableLoop (fun x v => setCell x i j v) ups (fun c => orErr (prev c)) g.conf.vegaSBump 0.01 act t)
    writeTablesAct (fun x v => { x with vegaM := x.vegaM.put u v }) t' codes
    matrixLoopAct g u act codes times mon cells ups t'

/-- One underlying of `set_vega_matrix` (engine.rs 1394-1523) with instruments -/
noncomputable def matrixRoundAct (g : EngCfg) (times : List ℝ) (u : String) (codes : List String) (t : Map String (List (List ℝ))) :
    Act Eng (Map String (List (List ℝ))) := do
  let e ← look
  let prev ← expr (baseNpvs e.results e.action (fun _ => none))
  let t' ← matrixLoopAct g u e.action codes times g.conf.moneyness
    (cellOrder times (longestTime e.mkt.w.date e.action) g.conf.moneyness.length times.length) prev
    (zeroTables (List.replicate times.length (List.replicate g.conf.moneyness.length (0 : ℝ))) e.action t)
  onMkt (bumpVolAct u none none none none (-g.conf.vegaSBump))
  expr (.ok t')

/-- The loop over the underlyings (engine.rs 1379-1523) -/
noncomputable def matrixNamesAct (g : EngCfg) (times : List ℝ) : List String → List String → Map String (List (List ℝ)) → Act Eng Unit
  | [], _, _ => expr (.ok ())
  | u :: us, codes, t => do
    let act := withUnderlying g.insts u ["Cash", "Stock", "Futures"]
    assign fun e => { e with action := act }
    if act.isEmpty then matrixNamesAct g times us codes t
    else do
      let t' ← matrixRoundAct g times u (codes ++ act.map Instr.code) t
      matrixNamesAct g times us (codes ++ act.map Instr.code) t'

/-- `set_vega_matrix` (engine.rs 1351-1526) -/
noncomputable def setVegaMAct (g : EngCfg) : Act Eng Unit := do
  let e ← look
  let ds ← expr (calcDates g.md e.mkt.w.date g.conf.vegaTenors)
  matrixNamesAct g (ds.map (timeFrom e.mkt.w.date)) (allUnds g.insts) [] (fun _ => none)

/-! ### everything -/

/-- `if flag { f()? }` -/
def onlyIfAct (flag : Bool) (a : Act Eng Unit) : Act Eng Unit := if flag then a else expr (.ok ())

/-- engine.rs 1973-1976 -/
noncomputable def setNpvsAct (g : EngCfg) : Act Eng Unit := do
  setNpvResultsAct g
  setValuesAct g
  setFlowsAct g

/-- engine.rs 1999-2000 -/
noncomputable def setDeltasAct (g : EngCfg) : Act Eng Unit := do
  preDeltaAct (withTypes g.insts ["Stock", "Futures"])
  setDeltaAct g

/-- `calculate` (engine.rs 1958-2161) -/
noncomputable def calculateAct (g : EngCfg) (divNames : List String) : Act Eng Unit := do
  onlyIfAct g.conf.npv (setNpvsAct g)
  onlyIfAct g.conf.exposure (setExposuresAct g)
  onlyIfAct g.conf.delta (setDeltasAct g)
  onlyIfAct g.conf.theta (setThetaAct g)
  onlyIfAct g.conf.vega (setVegaAct g)
  onlyIfAct g.conf.rho (setRhoAct g)
  onlyIfAct g.conf.divDelta (setDivDeltaAct g)
  onlyIfAct g.conf.vegaS (setVegaSAct g)
  onlyIfAct g.conf.rhoS (setRhoSAct g)
  onlyIfAct g.conf.divS (setDivSAct g divNames)
  onlyIfAct g.conf.vegaM (setVegaMAct g)

end Verif.QL

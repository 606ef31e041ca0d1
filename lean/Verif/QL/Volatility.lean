import Verif.QL.Pricers
import Mathlib.Probability.Distributions.Gaussian.Real
import Mathlib.Probability.CDF
/-!
# Model of volatilities and of the option pricer: `quantlib/src/parameters/{volatility, quanto}.rs`,
`parameters/volatilities/{constant_volatility, local_volatility_surface}.rs`, `data/surface_data.rs` and
`pricing_engines/option_analytic_pricer.rs`

The surface shares the evaluation date, the price of the underlying with its dividend, and two curves with the pricer: they
are the fields of a `FuturesPricer` (`env`). Numbers are reals; `statrs`' normal distribution is the standard Gaussian
distribution function. The unused fields `lv_interpolator`, `local_volatility` and `imvol_forward_vector` are dropped.
-/
set_option autoImplicit false
namespace Verif.QL
open Verif

/-- `LocalVolatilitySurface` (local_volatility_surface.rs 22-44): the matrix of volatilities by its rows, its dates and times,
its spot moneyness, the spot it was quoted at, whether it sticks to the strike, and the interpolator made by `build`. -/
structure Surf where
  vols : List (List ℝ)
  dates : List DT
  times : List ℝ
  mon : List ℝ
  spot : ℝ
  toStrike : Bool
  interp : Bilin ℝ

/-- `SurfaceData` (surface_data.rs 7-17): quotes by date and strike; the matrix by its rows, all of length `cols`. -/
structure SurfaceQuotes where
  spot : Option ℝ
  value : List (List ℝ)
  cols : Nat
  dates : List DT
  strikes : List ℝ

/-- `get_forward` (local_volatility_surface.rs 305-357): the forward of the given spot price; the same computation as
`fair_forward` -/
noncomputable def Surf.forward (env : FuturesPricer) (spot : ℝ) (d : DT) : Res ℝ := ({ env with spot := spot } : FuturesPricer).forward d

/-- `windows(2).any(|w| w[0] > w[1])` on dates (local_volatility_surface.rs 90, 156) -/
def datesSorted : List DT → Bool
  | a :: b :: r => if b.instant < a.instant then false else datesSorted (b :: r)
  | _ => true

/-- `windows(2).all(|w| w[0] <= w[1])` on times (local_volatility_surface.rs 173) -/
noncomputable def timesSorted : List ℝ → Bool
  | a :: b :: r => if a ≤ b then timesSorted (b :: r) else false
  | _ => true

/-- the time from the evaluation date -/
noncomputable def timeFrom (eval d : DT) : ℝ := ((timeDifference eval d : ℚ) : ℝ)

/-- `initialize` (local_volatility_surface.rs 48-79): nothing can be looked up before `build` -/
noncomputable def noSurface : Bilin ℝ := { dom := [], rows := [], allow := false, extra := .none }

/-- `with_market_surface` (local_volatility_surface.rs 81-198): the quotes are interpolated at the tenors and the spot
moneyness of the grid. -/
noncomputable def Surf.ofMarket (md : Mode) (env : FuturesPricer) (toStrike : Bool) (q : SurfaceQuotes) (tenors : List (List Char))
    (mon : List ℝ) : Res Surf := do
  if datesSorted q.dates = false then .error .err
  else if q.dates.any (fun d => decide (d.instant < env.eval.instant)) then .error .err
  else
    match q.spot with
    | none => .error .err
    | some spot => do
      let _ ← mapRes (Surf.forward env spot) q.dates
      let xs ← mapRes (fun k => divK k spot) q.strikes
      let f ← Bilin.ofRect (q.dates.map (timeFrom env.eval)) xs q.value q.cols true .flat true .flat
      let ds ← mapRes (addPeriod md env.eval) tenors
      if datesSorted ds = false then .error .err
      else if timesSorted (ds.map (timeFrom env.eval)) = false then .error .err
      else do
        let vols ← mapRes (fun t => mapRes (fun x => f.interp t x) mon) (ds.map (timeFrom env.eval))
        .ok { vols := vols, dates := ds, times := ds.map (timeFrom env.eval), mon := mon, spot := spot, toStrike := toStrike, interp := noSurface }

/-- `with_constant_volatility` (local_volatility_surface.rs 200-233) -/
noncomputable def Surf.ofConstant (md : Mode) (env : FuturesPricer) (toStrike : Bool) (vol : ℝ) (tenors : List (List Char))
    (mon : List ℝ) : Res Surf := do
  let ds ← mapRes (addPeriod md env.eval) tenors
  .ok { vols := ds.map fun _ => mon.map fun _ => vol, dates := ds, times := ds.map (timeFrom env.eval), mon := mon, spot := env.spot, toStrike := toStrike, interp := noSurface }

/-- The interpolators of `build` (local_volatility_surface.rs 262-293): one per maturity, over the spot moneyness grid
divided by the forward. -/
noncomputable def surfRows (mon : List ℝ) (spot : ℝ) : List ℝ → List (List ℝ) → Res (List (Lin ℝ))
  | [], _ => .ok []
  | _ :: _, [] => .error .index
  | f :: fs, v :: vs => do
    let xs ← mapRes (fun m => divK (m * spot) f) mon
    let l ← Lin.new xs v .flat true
    let ls ← surfRows mon spot fs vs
    .ok (l :: ls)

/-- `build` (local_volatility_surface.rs 235-303) -/
noncomputable def Surf.build (env : FuturesPricer) (s : Surf) : Res Surf := do
  let fs ← mapRes (Surf.forward env (if s.toStrike then env.spot else s.spot)) s.dates
  let rows ← surfRows s.mon s.spot fs s.vols
  let b ← Bilin.new s.times rows true .flat
  .ok { s with interp := b }

/-- The window of a bump (local_volatility_surface.rs 441-457): missing limits are beyond every number. -/
noncomputable def inWindow (lo hi : Option ℝ) (t : ℝ) : Bool :=
  (match lo with | some a => decide (a + 1e-4 < t) | none => true) && (match hi with | some b => decide (t ≤ b + 1e-4) | none => true)

/-- The cells in the window get `b` (local_volatility_surface.rs 449-461) -/
noncomputable def bumpCells (times mon : List ℝ) (vols : List (List ℝ)) (t1 t2 x1 x2 : Option ℝ) (b : ℝ) : List (List ℝ) :=
  (times.zip vols).map fun p =>
    if inWindow t1 t2 p.1 then (mon.zip p.2).map fun q => if inWindow x1 x2 q.1 then q.2 + b else q.2 else p.2

/-- `bump_volatility` of a surface (local_volatility_surface.rs 433-465) -/
noncomputable def Surf.bump (env : FuturesPricer) (s : Surf) (t1 t2 x1 x2 : Option ℝ) (b : ℝ) : Res Surf :=
  Surf.build env { s with vols := bumpCells s.times s.mon s.vols t1 t2 x1 x2 b }

/-- `Volatility` (volatility.rs 34-38) -/
inductive Vol
  | const (v : ℝ)
  | surface (s : Surf)

/-- `get_value` (constant_volatility.rs 30-32; local_volatility_surface.rs 373-377: `expect`) -/
noncomputable def Vol.value : Vol → ℝ → ℝ → Res ℝ
  | .const v, _, _ => .ok v
  | .surface s, t, x =>
    match s.interp.interp t x with
    | .error .err => .error .unwrapNone
    | r => r

/-- `total_variance` (constant_volatility.rs 42-44; local_volatility_surface.rs 391-409) -/
noncomputable def Vol.variance : Vol → ℝ → ℝ → Res ℝ
  | .const v, t, _ => .ok (v * v * t)
  | .surface s, t, x => do
    let iv ← s.interp.interp t x
    .ok (iv * iv * t)

/-- `sqrt`: of a negative number it is not a number -/
noncomputable def sqrtK (x : ℝ) : Res ℝ := if x < 0 then .error .nonfinite else .ok (Real.sqrt x)

/-- `total_deviation` (constant_volatility.rs 46-48; local_volatility_surface.rs 411-429) -/
noncomputable def Vol.deviation : Vol → ℝ → ℝ → Res ℝ
  | .const v, t, _ => do
    let r ← sqrtK t
    .ok (v * r)
  | .surface s, t, x => do
    let iv ← s.interp.interp t x
    let r ← sqrtK t
    .ok (iv * r)

/-- `bump_volatility` (constant_volatility.rs 50-60: the window is ignored; volatility.rs 97-121) -/
noncomputable def Vol.bump (env : FuturesPricer) (v : Vol) (t1 t2 x1 x2 : Option ℝ) (b : ℝ) : Res Vol :=
  match v with
  | .const v => .ok (.const (v + b))
  | .surface s => do
    let s' ← s.bump env t1 t2 x1 x2 b
    .ok (.surface s')

/-- `build` (volatility.rs 88-96) -/
noncomputable def Vol.build (env : FuturesPricer) (v : Vol) : Res Vol :=
  match v with
  | .const v => .ok (.const v)
  | .surface s => do
    let s' ← s.build env
    .ok (.surface s')

/-- `Quanto` (quanto.rs 10-16) -/
structure Quanto where
  fxVol : Vol
  corr : ℝ

/-- `quanto_adjust` (quanto.rs 33-35) -/
noncomputable def Quanto.adjust (q : Quanto) (t x : ℝ) : Res ℝ := do
  let v ← q.fxVol.value t x
  .ok (v * q.corr)

/-- `Normal::new(0.0, 1.0).cdf` of `statrs`, exactly -/
noncomputable def normalCdf (x : ℝ) : ℝ := ProbabilityTheory.cdf (ProbabilityTheory.gaussianReal 0 1) x

/-- `VanillaOption` (vanilla_option.rs 11-27) as far as the pricer looks at it: the exercise type is not looked at. -/
structure Vanilla where
  strike : ℝ
  maturity : DT
  call : Bool
  ccy : Nat
  undCcy : Nat

/-- `OptionAnalyticPricer` (option_analytic_pricer.rs 17-25) -/
structure OptionPricer where
  env : FuturesPricer
  disc : Curve
  vol : Vol
  quanto : Option Quanto

/-- `cdf(d1)` and `cdf(d1 - deviation)` for `d1 = num / dev` (option_analytic_pricer.rs 98-103). Divided by zero `d1` is
infinite, and so is `d2`, unless the numerator is zero as well. -/
noncomputable def normals (num dev : ℝ) : Res (ℝ × ℝ) :=
  if dev = 0 then
    if num = 0 then .error .nonfinite else if 0 < num then .ok (1, 1) else .ok (0, 0)
  else .ok (normalCdf (num / dev), normalCdf (num / dev - dev))

/-- `OptionAnalyticPricer::npv` (option_analytic_pricer.rs 57-109) -/
noncomputable def OptionPricer.npv (p : OptionPricer) (o : Vanilla) : Res ℝ := do
  let fwd ← p.env.forward o.maturity
  let x ← divK o.strike fwd
  let t := timeFrom p.env.eval o.maturity
  let var ← p.vol.variance t x
  let dev ← p.vol.deviation t x
  if o.ccy ≠ o.undCcy ∧ p.quanto.isNone then .error .err
  else do
    let vol ← p.vol.value t x
    let adj ← match p.quanto with
      | some q => do
        let a ← q.adjust t x
        .ok (vol * t * a)
      | none => .ok 0
    let y ← lnK x
    let dsc ← p.disc.df t
    let n ← normals (-y + var / 2 - adj) dev
    .ok (if o.call then dsc * (fwd * n.1 - o.strike * n.2) else dsc * (o.strike * (1 - n.2) - fwd * (1 - n.1)))

end Verif.QL

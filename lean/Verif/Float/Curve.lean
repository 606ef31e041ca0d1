import Verif.Float.Interp
import Verif.Float.DayCount
import Verif.QL.ZeroCurve
/-!
# Floating-point model of the zero curve and of the bumps: `quantlib/src/parameters/zero_curve.rs`,
# `constant_volatility.rs`, `local_volatility_surface.rs` 431-466, `discrete_ratio_dividend.rs` 185-216

The same functions as in `QL/ZeroCurve`, `QL/Volatility` and `QL/Dividend` in the arithmetic they run in: `Real` and `Time` are
`f32`. `f32::exp` is a parameter `E`: the Rust standard library does not specify its precision, the theorems say what they need.
-/
set_option autoImplicit false
namespace Verif.Float
open Verif Verif.QL

/-- One iteration of the loop of `vectorized_interpolate_for_sorted_ndarray` (linear_interpolator.rs 130-184), see `Lin.vecAt`. -/
def linVecAtF (f : Lin Fl) (x : Fl) (idx : Nat) : Res Fl := do
  let d0 ← at_ f.dom 0
  if x < d0 then
    if f.allow then
      match f.extra with
      | .flat => at_ f.val 0
      | .linear => do
        let v ← at_ f.val 0
        let g ← at_ f.der 0
        .ok (lineF v g d0 x)
      | .none => .error .err
    else .error .err
  else do
    let dl ← at_ f.dom (f.dom.length - 1)
    if x ≥ dl then
      if f.allow then
        match f.extra with
        | .flat => at_ f.val (f.dom.length - 1)
        | .linear => do
          let v ← at_ f.val (f.dom.length - 1)
          let g ← at_ f.der (f.dom.length - 2)
          .ok (lineF v g dl x)
        | .none => .error .err
      else .error .err
    else do
      let v ← at_ f.val idx
      let g ← at_ f.der idx
      let d ← at_ f.dom idx
      .ok (lineF v g d x)

/-- The loop (linear_interpolator.rs 130-185) over the queries and their indices. -/
def linVecLoopF (f : Lin Fl) : List Fl → List Nat → Res (List Fl)
  | [], _ => .ok []
  | _ :: _, [] => .error .index
  | x :: xs, i :: is => do
    let y ← linVecAtF f x i
    let ys ← linVecLoopF f xs is
    .ok (y :: ys)

/-- `vectorized_interpolate_for_sorted_ndarray` (linear_interpolator.rs 123-187) -/
def linVecF (f : Lin Fl) (xs : List Fl) : Res (List Fl) := do
  let is ← searchVec f.dom xs
  linVecLoopF f xs is

/-- `ZeroCurveInterpolator` (zero_curve.rs 21-25) -/
inductive RateInterpF
  | const (v : Fl)
  | lin (f : Lin Fl)
  deriving DecidableEq

/-- `ZeroCurve` (zero_curve.rs 30-41) -/
structure CurveF where
  rateInterp : RateInterpF
  rates : List Fl
  times : List Fl
  dfs : List Fl
  disc : Lin Fl
  deriving DecidableEq

/-- zero_curve.rs 98-107, 208-219, see `mkRates`. -/
def mkRatesF (times rates : List Fl) : Res RateInterpF :=
  if rates.length = 1 then do
    let r ← at_ rates 0
    .ok (.const r)
  else do
    let f ← linNewF times rates .flat true
    .ok (.lin f)

/-- zero_curve.rs 129-130: `exp(- (rate * time))` for each cached tenor. -/
def discountsF (E : Fl → Fl) (rates times : List Fl) : List Fl := List.zipWith (fun r t => E (f32.mul r t).neg) rates times

/-- zero_curve.rs 120-127, see `RateInterp.vec`. -/
def RateInterpF.vec (f : RateInterpF) (ts : List Fl) : Res (List Fl) :=
  match f with
  | .const v => .ok (ts.map fun _ => v)
  | .lin l => linVecF l ts

/-- The curve with given cached rates and times (zero_curve.rs 129-152, 208-233). -/
def CurveF.of (E : Fl → Fl) (ri : RateInterpF) (rates times : List Fl) : Res CurveF := do
  let disc ← linNewF times (discountsF E rates times) .none false
  .ok { rateInterp := ri, rates := rates, times := times, dfs := discountsF E rates times, disc := disc }

/-- `ZeroCurve::new` (zero_curve.rs 60-152) -/
def CurveF.new (E : Fl → Fl) (md : Mode) (eval : DT) (times rates : List Fl) : Res CurveF :=
  if times.length ≠ rates.length then .error .err
  else if rates.isEmpty then .error .err
  else do
    let ri ← mkRatesF times rates
    let ds ← mapRes (fun p => addPeriod md eval p) tenors
    let ts := ds.map (timeDifferenceF eval)
    let rs ← ri.vec ts
    CurveF.of E ri rs ts

/-- The mask of zero_curve.rs 202-206: 1.0 for `t1 < x <= t2`, else 0.0. -/
def bumpMaskF (t1 t2 x : Fl) : Fl := if x > t1 ∧ x ≤ t2 then f32.lit 1 else f32.lit 0

/-- `bump_time_interval` (zero_curve.rs 182-234) -/
def CurveF.bumpTimes (E : Fl → Fl) (c : CurveF) (time1 time2 : Option Fl) (b : Fl) : Res CurveF :=
  let t1 := time1.getD (f32.lit (-99999999))
  let t2 := time2.getD (f32.lit 99999999)
  if c.rates.length ≠ c.times.length then .error .err
  else if t1 > t2 then .error .err
  else do
    let rs := List.zipWith (fun r t => f32.add r (f32.mul (bumpMaskF t1 t2 t) b)) c.rates c.times
    let ri ← mkRatesF c.times rs
    CurveF.of E ri rs c.times

/-- `get_discount_factor` (zero_curve.rs 262-264) -/
def CurveF.df (c : CurveF) (t : Fl) : Res Fl := linInterpF c.disc t

/-- `get_discount_factor_at_date` (zero_curve.rs 274-292) -/
def CurveF.dfAt (c : CurveF) (eval d : DT) : Res Fl :=
  let t := timeDifferenceF eval d
  if t < f32.lit 0 then .error .err else c.df t

/-- `get_discount_factor_between_times` (zero_curve.rs 304-317) -/
def CurveF.dfBetween (c : CurveF) (t1 t2 : Fl) : Res Fl :=
  if t1 ≤ t2 then do
    let a ← c.df t2
    let b ← c.df t1
    .ok (f32.div a b)
  else .error .err

/-- What a rho run does to a curve (pricing_engines/engine.rs 1039, 1087): bumped by `b`, then by `-b`, over the interval; the
prices taken in between change nothing. -/
def CurveF.riskRun (E : Fl → Fl) (time1 time2 : Option Fl) (b : Fl) (c : CurveF) : Res CurveF := do
  let c ← c.bumpTimes E time1 time2 b
  c.bumpTimes E time1 time2 b.neg

/-- `bump_volatility` of a constant volatility (constant_volatility.rs 50-60): `self.value += bump`. -/
def constVolBumpF (v b : Fl) : Fl := f32.add v b

/-- `bump_volatility` of a surface (local_volatility_surface.rs 443-462): the quotes of the maturities with `time1 + eps < t` and
`t <= time2 + eps` and of the strikes alike get `+= bump`; `Time::MIN + 10.0` and `Time::MAX - 10.0` for missing bounds. Rebuilding
the surface from the quotes (`build`) is not modelled here. -/
def surfaceBumpF (times xs : List Fl) (time1 time2 left right : Option Fl) (b : Fl) (grid : List (List Fl)) : List (List Fl) :=
  let lo := f32.add (f32.lit (-f32.maxFin)) (f32.lit 10)
  let hi := f32.sub (f32.lit f32.maxFin) (f32.lit 10)
  let eps := f32.lit (1 / 10000)
  let within := fun (a c : Option Fl) (t : Fl) => f32.add (a.getD lo) eps < t ∧ t ≤ f32.add (c.getD hi) eps
  List.zipWith (fun row t => if within time1 time2 t then
    List.zipWith (fun v x => if within left right x then f32.add v b else v) row xs else row) grid times

/-- `bump_date_interval` of discrete dividends (discrete_ratio_dividend.rs 187-216): `amounts + mask * bump` with a mask of 1.0
for the dividends with `d1 < date <= d2`, else 0.0; the dates are `yyyymmdd` integers. -/
def dividendBumpF (d1 d2 : Int) (b : Fl) (dates : List Int) (amounts : List Fl) : Res (List Fl) :=
  if d1 ≥ d2 then .error .err
  else .ok (List.zipWith (fun a d => f32.add a (f32.mul (if d1 < d ∧ d ≤ d2 then f32.lit 1 else f32.lit 0) b)) amounts dates)

end Verif.Float

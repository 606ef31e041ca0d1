import Verif.QL.Interp
import Verif.QL.Period
import Verif.QL.DayCount
import Verif.QL.Schedule
import Mathlib.Analysis.SpecialFunctions.Log.Basic
/-!
# Model of `quantlib/src/parameters/zero_curve.rs` and `quantlib/src/data/vector_data.rs`

`Real` and `Time` (both `f32`) are the real numbers, `exp` and `ln` the real functions (`ln` of a number that is not
positive stops the model with `Fault.nonfinite`). The evaluation date is shared and mutable in the program; here the
functions that read it take its current value. Names, codes and currencies are dropped.
-/
set_option autoImplicit false
namespace Verif.QL
open Verif

/-- `VectorData` (vector_data.rs 12-20). -/
structure VectorData where
  value : List ℝ
  dates : Option (List DT)
  times : List ℝ
  market : Option DT

/-- `VectorData::new` (vector_data.rs 40-110). The given times are ignored when dates are given. -/
noncomputable def VectorData.new (value : List ℝ) (dates : Option (List DT)) (times : Option (List ℝ))
    (market : Option DT) : Res VectorData :=
  match dates with
  | some ds =>
    if value.length ≠ ds.length then .error .err
    else match market with
      | none => .error .err
      | some m =>
        .ok { value := value, dates := some ds, times := ds.map fun d => ((timeDifference m d : ℚ) : ℝ), market := some m }
  | none =>
    match times with
    | none => .error .err
    | some ts =>
      if value.length ≠ ts.length then .error .err
      else .ok { value := value, dates := none, times := ts, market := market }

/-- `ZeroCurveInterpolator` (zero_curve.rs 21-25). -/
inductive RateInterp
  | const (v : ℝ)
  | lin (f : Lin ℝ)

/-- `ZeroCurve` (zero_curve.rs 30-41). -/
structure Curve where
  rateInterp : RateInterp
  rates : List ℝ
  times : List ℝ
  dfs : List ℝ
  disc : Lin ℝ

/-- zero_curve.rs 98-107, 208-219: a constant for one rate, flat-extrapolated lines for several. -/
noncomputable def mkRates (times rates : List ℝ) : Res RateInterp :=
  if rates.length = 1 then do
    let r ← at_ rates 0
    .ok (.const r)
  else do
    let f ← Lin.new times rates .flat true
    .ok (.lin f)

/-- The cached tenors, zero_curve.rs 109-113. -/
def tenors : List (List Char) :=
  [['0','D'], ['1','D'], ['1','W'], ['2','W'], ['1','M'], ['2','M'], ['3','M'], ['4','M'], ['5','M'], ['6','M'], ['9','M'],
   ['1','Y'], ['1','Y','6','M'], ['2','Y'], ['2','Y','6','M'], ['3','Y'], ['4','Y'], ['5','Y'], ['6','Y'], ['7','Y'],
   ['8','Y'], ['9','Y'], ['1','0','Y'], ['1','2','Y'], ['1','5','Y'], ['2','0','Y'], ['3','0','Y'], ['5','0','Y'],
   ['1','0','0','Y']]

/-- zero_curve.rs 129-130: `exp(- rate * time)` for each cached tenor. -/
noncomputable def discounts (rates times : List ℝ) : List ℝ := List.zipWith (fun r t => Real.exp (-(r * t))) rates times

/-- zero_curve.rs 120-127: the rates at the cached tenors. `ConstantInterpolator1D` returns its value for every query. -/
noncomputable def RateInterp.vec (f : RateInterp) (ts : List ℝ) : Res (List ℝ) :=
  match f with
  | .const v => .ok (ts.map fun _ => v)
  | .lin l => l.interpVec ts

/-- `ZeroCurve::new` (zero_curve.rs 60-152); `times` and `rates` are those of the `VectorData`. -/
noncomputable def Curve.new (md : Mode) (eval : DT) (times rates : List ℝ) : Res Curve :=
  if times.length ≠ rates.length then .error .err
  else if rates.isEmpty then .error .err
  else do
    let ri ← mkRates times rates
    let ds ← mapRes (fun p => addPeriod md eval p) tenors
    let ts := ds.map fun d => ((timeDifference eval d : ℚ) : ℝ)
    let rs ← ri.vec ts
    let disc ← Lin.new ts (discounts rs ts) .none false
    .ok { rateInterp := ri, rates := rs, times := ts, dfs := discounts rs ts, disc := disc }

/-- The mask of zero_curve.rs 202-206: 1 for `t1 < x <= t2`. -/
noncomputable def bumpMask (t1 t2 : ℝ) (x : ℝ) : ℝ := if x > t1 ∧ x ≤ t2 then 1 else 0

/-- `bump_time_interval` (zero_curve.rs 182-234). -/
noncomputable def Curve.bumpTimes (c : Curve) (time1 time2 : Option ℝ) (b : ℝ) : Res Curve :=
  let t1 := time1.getD (-99999999)
  let t2 := time2.getD 99999999
  if c.rates.length ≠ c.times.length then .error .err
  else if t1 > t2 then .error .err
  else do
    let rs := List.zipWith (fun r t => r + bumpMask t1 t2 t * b) c.rates c.times
    let ri ← mkRates c.times rs
    let disc ← Lin.new c.times (discounts rs c.times) .none false
    .ok { rateInterp := ri, rates := rs, times := c.times, dfs := discounts rs c.times, disc := disc }

/-- `bump_date_interval` (zero_curve.rs 158-176). -/
noncomputable def Curve.bumpDates (c : Curve) (eval : DT) (d1 d2 : Option DT) (b : ℝ) : Res Curve :=
  let t1 : ℝ := match d1 with
    | some d => ((timeDifference eval d : ℚ) : ℝ)
    | none => -99999999
  let t2 : ℝ := match d2 with
    | some d => ((timeDifference eval d : ℚ) : ℝ)
    | none => 99999999
  c.bumpTimes (some t1) (some t2) b

/-- `get_discount_factor` (zero_curve.rs 262-264). -/
noncomputable def Curve.df (c : Curve) (t : ℝ) : Res ℝ := c.disc.interp t

/-- `get_vectorized_discount_factor_for_sorted_time` (zero_curve.rs 266-272). -/
noncomputable def Curve.dfVec (c : Curve) (ts : List ℝ) : Res (List ℝ) := c.disc.interpVec ts

/-- `get_discount_factor_at_date` (zero_curve.rs 274-292). -/
noncomputable def Curve.dfAt (c : Curve) (eval d : DT) : Res ℝ :=
  let t := ((timeDifference eval d : ℚ) : ℝ)
  if t < 0 then .error .err else c.df t

/-- `get_vectorized_discount_factor_for_sorted_dates` (zero_curve.rs 294-302). -/
noncomputable def Curve.dfAtVec (c : Curve) (eval : DT) (ds : List DT) : Res (List ℝ) := mapRes (c.dfAt eval) ds

/-- `get_discount_factor_between_times` (zero_curve.rs 304-317). -/
noncomputable def Curve.dfBetween (c : Curve) (t1 t2 : ℝ) : Res ℝ :=
  if t1 ≤ t2 then do
    let a ← c.df t2
    let b ← c.df t1
    divK a b
  else .error .err

/-- `Compounding` (enums.rs 6-10). -/
inductive Compounding
  | simple | continuous
  deriving DecidableEq, Repr

/-- `x.ln()`. -/
noncomputable def lnK (x : ℝ) : Res ℝ := if x ≤ 0 then .error .nonfinite else .ok (Real.log x)

/-- The rate implied by a discount factor over `tau`, zero_curve.rs 353-356. -/
noncomputable def rateOf (disc tau : ℝ) : Compounding → Res ℝ
  | .simple => divK (1 - disc) tau
  | .continuous => do
    let l ← lnK disc
    divK (-l) tau

/-- `get_forward_rate_between_times` (zero_curve.rs 329-368). -/
noncomputable def Curve.fwd (c : Curve) (t1 t2 : ℝ) (k : Compounding) : Res ℝ :=
  if t1 ≤ t2 then do
    let disc ← if |t2 - t1| > 1e-6 then c.dfBetween t1 t2 else c.dfBetween t1 (t2 + 1e-5)
    rateOf disc (t2 - t1) k
  else .error .err

/-- `get_forward_rate_between_dates` (zero_curve.rs 370-394). -/
noncomputable def Curve.fwdDates (c : Curve) (eval d1 d2 : DT) (k : Compounding) : Res ℝ :=
  if d1.instant > d2.instant then .error .err
  else c.fwd ((timeDifference eval d1 : ℚ) : ℝ) ((timeDifference eval d2 : ℚ) : ℝ) k

/-- `get_forward_rate_from_evaluation_date` (zero_curve.rs 396-410). -/
noncomputable def Curve.fwdFromEval (c : Curve) (eval d : DT) (k : Compounding) : Res ℝ :=
  if d.instant < eval.instant then .error .err else c.fwdDates eval eval d k

/-- `get_short_rate_at_time` (zero_curve.rs 411-416) -/
noncomputable def Curve.shortRate (c : Curve) (t : ℝ) : Res ℝ := c.fwd t (t + 0.002737) .simple

/-- `get_vectorized_short_rate_for_sorted_times` (zero_curve.rs 418-427) -/
noncomputable def Curve.shortRates (c : Curve) (ts : List ℝ) : Res (List ℝ) := mapRes c.shortRate ts

/-- `get_instantaneous_forward_rate_from_date` (zero_curve.rs 428-433) -/
noncomputable def Curve.instantRate (c : Curve) (eval d : DT) : Res ℝ := c.shortRate ((timeDifference eval d : ℚ) : ℝ)

end Verif.QL

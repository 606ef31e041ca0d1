import Verif.QL.ZeroCurve
/-!
# Model of coupon amounts and cash flows: `quantlib/src/parameters/rate_index.rs`, `instruments/bond.rs`,
`instruments/plain_swap.rs`

A curve is taken together with the current value of the evaluation date it shares. `HashMap<OffsetDateTime, Real>` is a
list of entries: `OffsetDateTime`s are equal as keys iff they are the same instant (crate `time`), and an entry keeps the
key it was first inserted with. The order in which a `HashMap` is walked is arbitrary; here it is the order of insertion,
and the theorems about sums say that the order does not matter. `calendar` is given by its `is_holiday`; `year_fraction`
does not depend on the calendar. Messages printed for missing fixings are dropped.
-/
set_option autoImplicit false
namespace Verif.QL
open Verif

/-- A `ZeroCurve` with its `evaluation_date`. -/
structure Live where
  curve : Curve
  eval : DT

/-- `get_discount_factor_at_date` -/
noncomputable def Live.df (l : Live) (d : DT) : Res ℝ := l.curve.dfAt l.eval d

/-- `get_forward_rate_between_dates(_, _, Simple)` -/
noncomputable def Live.fwd (l : Live) (d1 d2 : DT) : Res ℝ := l.curve.fwdDates l.eval d1 d2 .simple

/-- `get_forward_rate_from_evaluation_date(_, Simple)` -/
noncomputable def Live.spot (l : Live) (d : DT) : Res ℝ := l.curve.fwdFromEval l.eval d .simple

/-- `year_fraction` as a real number -/
noncomputable def frac (s e : DT) (c : DCC) : Res ℝ := do
  let q ← yearFraction s e c
  .ok (q : ℝ)

/-- What `get_coupon_amount` (rate_index.rs 77-88) is given besides the coupon: the forward curve, the past fixings (by
local day, `DailyClosePrice::get`), the pricing date, the tenor of the index, the calendar, the day counter and the
fixing gap. -/
structure FloatEnv where
  fwd : Live
  close : Int → Option ℝ
  pricing : DT
  tenor : List Char
  hol : DT → Res Bool
  dcc : DCC
  fixDays : Int

/-- The rate of a coupon without compounding (rate_index.rs 96-119). -/
noncomputable def FloatEnv.rate (md : Mode) (v : FloatEnv) (fixing : DT) : Res ℝ := do
  let stop ← addPeriod md fixing v.tenor
  if fixing.instant < v.pricing.instant then
    match v.close fixing.day with
    | some r => .ok r
    | none => v.fwd.spot stop
  else v.fwd.fwd fixing stop

/-- `min_offsetdatetime` (util.rs 5-11) -/
def minDT (a b : DT) : DT := if a.instant < b.instant then a else b

/-- The rate of one compounding period (rate_index.rs 174-200). -/
noncomputable def FloatEnv.subRate (md : Mode) (v : FloatEnv) (spot : ℝ) (fixing : DT) : Res ℝ :=
  if fixing.instant < v.pricing.instant then
    match v.close fixing.day with
    | some r => .ok r
    | none => .ok spot
  else do
    let e ← addPeriod md fixing v.tenor
    v.fwd.fwd fixing e

/-- The compounding loop (rate_index.rs 172-213). If a period does not end after it starts the state never changes and
the loop never ends. -/
noncomputable def FloatEnv.compound (md : Mode) (v : FloatEnv) (comp : List Char) (spread spot : ℝ) (stop : DT)
    (start : DT) (acc : ℝ) : Res ℝ :=
  if start.instant < stop.instant then
    match start.addDays (-v.fixDays) >>= fun x => adjust v.hol x .preceding with
    | .error e => .error e
    | .ok fixing =>
      match addPeriod md start comp with
      | .error e => .error e
      | .ok nx =>
        match frac start (minDT nx stop) v.dcc with
        | .error e => .error e
        | .ok f =>
          match v.subRate md spot fixing with
          | .error e => .error e
          | .ok r =>
            if h : start.instant < (minDT nx stop).instant then
              FloatEnv.compound md v comp spread spot stop (minDT nx stop) (acc * (1 + (r + spread) * f))
            else .error .diverges
  else .ok acc
termination_by (stop.instant - start.instant).toNat
decreasing_by omega

/-- `get_coupon_amount` (rate_index.rs 77-217). -/
noncomputable def FloatEnv.amount (md : Mode) (v : FloatEnv) (comp : Option (List Char)) (spread : Option ℝ) (c : Coupon) :
    Res ℝ :=
  match comp with
  | none => do
    let r ← v.rate md c.fixing
    let f ← frac c.start c.stop v.dcc
    .ok ((r + spread.getD 0) * f)
  | some comp =>
    if c.fixing.instant ≥ v.pricing.instant then do
      let e1 ← addPeriod md c.fixing v.tenor
      let first ← v.fwd.fwd c.fixing e1
      let lf ← c.stop.addDays (-v.fixDays)
      let e2 ← addPeriod md lf v.tenor
      let last ← v.fwd.fwd lf e2
      let f ← frac c.start c.stop v.dcc
      .ok (((first + last) / 2 + spread.getD 0) * f)
    else do
      let e ← addPeriod md v.pricing comp
      let spot ← v.fwd.fwd v.pricing e
      let x ← v.compound md comp (spread.getD 0) spot c.stop c.start 1
      .ok (x - 1)

/-! ### `HashMap<OffsetDateTime, Real>` -/

abbrev Flows := List (DT × ℝ)

/-- `entry(k).and_modify(|e| *e += a).or_insert(a)` -/
noncomputable def addTo (k : DT) (a : ℝ) : Flows → Flows
  | [] => [(k, a)]
  | (k', v) :: m => if k'.instant = k.instant then (k', v + a) :: m else (k', v) :: addTo k a m

/-- `insert(k, a)` -/
noncomputable def putAt (k : DT) (a : ℝ) : Flows → Flows
  | [] => [(k, a)]
  | (k', v) :: m => if k'.instant = k.instant then (k', a) :: m else (k', v) :: putAt k a m

/-- The loop over a schedule (bond.rs 309-363, plain_swap.rs 468-492 and 517-546): coupons paid before the day of the
pricing date are skipped, the others added at their payment date. -/
noncomputable def flowLoop {α : Type} (pay : α → DT) (amount : α → Res ℝ) (pricing : DT) : List α → Flows → Res Flows
  | [], m => .ok m
  | x :: xs, m =>
    if (pay x).day < pricing.day then flowLoop pay amount pricing xs m
    else do
      let a ← amount x
      flowLoop pay amount pricing xs (addTo (pay x) a m)

/-- `Bond` (bond.rs 20-49); a coupon may carry a given amount (`BaseSchedule::amount`). Currency, issuer, rank, names and
the conventions only used to build the schedule are dropped. -/
structure Bond where
  strip : Bool
  schedule : List (Coupon × Option ℝ)
  fixedRate : Option ℝ
  spread : Option ℝ
  index : Option (List Char)
  comp : Option (List Char)
  pricing : Option DT
  maturity : DT
  hol : DT → Res Bool
  dcc : DCC
  fixGap : Int

/-- `Bond::new` (bond.rs 54-139): exactly one of a fixed rate and a rate index. -/
noncomputable def Bond.new (b : Bond) : Res Bond :=
  if b.fixedRate.isNone ∧ b.index.isNone then .error .err
  else if b.fixedRate.isSome ∧ b.index.isSome then .error .err
  else .ok b

/-- `Bond::new_from_conventions` (bond.rs 141-229): the schedule is built; the rates are not checked. `b` carries the
other fields. -/
noncomputable def Bond.fromConventions (md : Mode) (b : Bond) (eff : DT) (forward : Bool) (conv : BDC) (freq : Freq)
    (payGap : Int) : Res Bond := do
  let s ← buildSchedule md b.hol forward eff b.maturity conv freq b.fixGap payGap
  .ok { b with schedule := s.map fun c => (c, none) }

/-- The market a bond is priced in: the forward curve and the past fixings, both optional (`DailyClosePrice::default` has
no fixings). -/
structure Market where
  fwd : Option Live
  close : Option (Int → Option ℝ)

/-- The amount of a coupon (bond.rs 318-362). -/
noncomputable def Bond.amount (md : Mode) (b : Bond) (mk : Market) (pricing : DT) (c : Coupon × Option ℝ) : Res ℝ :=
  match c.2 with
  | some a => .ok a
  | none =>
    match b.index with
    | some tenor =>
      match mk.fwd with
      | none => .error .unwrapNone
      | some f =>
        FloatEnv.amount md { fwd := f, close := mk.close.getD fun _ => none, pricing := pricing, tenor := tenor, hol := b.hol, dcc := b.dcc, fixDays := b.fixGap }
          b.comp b.spread c.1
    | none => do
      let f ← frac c.1.start c.1.stop b.dcc
      match b.fixedRate with
      | none => .error .unwrapNone
      | some r => .ok (f * r)

/-- `Bond::get_cashflows` (bond.rs 302-372). -/
noncomputable def Bond.flows (md : Mode) (b : Bond) (mk : Market) (pricing : DT) : Res Flows := do
  let m ← flowLoop (fun c => c.1.payment) (b.amount md mk pricing) pricing b.schedule []
  .ok (if b.strip = false ∧ b.maturity.day ≥ pricing.day then addTo b.maturity 1 m else m)

/-- `PlainSwapType` (plain_swap.rs 16-22) -/
inductive SwapType
  | irs | crs | fxSwap | fxForward | fxSpot
  deriving DecidableEq, Repr

/-- `PlainSwap` (plain_swap.rs 43-79). Currencies are numbers. -/
structure Swap where
  fixedLegs : List Coupon
  floatLegs : List Coupon
  fixedRate : Option ℝ
  index : Option (List Char)
  comp : Option (List Char)
  hol : DT → Res Bool
  notional : ℝ
  issue : DT
  eff : DT
  maturity : DT
  fixedCcy : Nat
  floatCcy : Nat
  initFixed : Option ℝ
  initFloat : Option ℝ
  lastFixed : Option ℝ
  lastFloat : Option ℝ
  fixedDcc : DCC
  floatDcc : DCC
  fixGap : Int

/-- The classification by `PlainSwap::new` (plain_swap.rs 127-200); `needSame` is the condition that the currencies of
an interest rate swap agree, absent in `new_from_conventions` (330-337). `maturity.date() <= issue_date.date() + 2 days`
compares local days. -/
def Swap.classify (needSame : Bool) (s : Swap) : Res SwapType :=
  if s.initFixed.isNone ∧ s.initFloat.isNone ∧ s.lastFixed.isNone ∧ s.lastFloat.isNone ∧ s.index.isSome ∧ s.fixedRate.isSome
      ∧ (needSame = true → s.fixedCcy = s.floatCcy) then .ok .irs
  else if s.initFixed.isSome ∧ s.initFloat.isSome ∧ s.lastFixed.isSome ∧ s.lastFloat.isSome ∧ s.index.isSome
      ∧ s.fixedRate.isSome ∧ s.fixedCcy ≠ s.floatCcy then .ok .crs
  else if s.initFixed.isSome ∧ s.initFloat.isSome ∧ s.lastFixed.isSome ∧ s.lastFloat.isSome ∧ s.fixedLegs = []
      ∧ s.floatLegs = [] ∧ s.index.isNone ∧ s.fixedRate.isNone ∧ s.fixedCcy ≠ s.floatCcy then .ok .fxSwap
  else if s.initFixed.isNone ∧ s.initFloat.isNone ∧ s.lastFixed.isSome ∧ s.lastFloat.isSome ∧ s.fixedLegs = []
      ∧ s.floatLegs = [] ∧ s.index.isNone ∧ s.fixedRate.isNone ∧ s.fixedCcy ≠ s.floatCcy then do
    let d ← addDays s.issue.day 2
    if s.maturity.day ≤ d then .ok .fxSpot else .ok .fxForward
  else .error .err

/-- `PlainSwap::new_from_conventions` (plain_swap.rs 257-447): both legs are built, then classified. -/
def Swap.fromConventions (md : Mode) (s : Swap) (forward : Bool) (fixedConv floatConv : BDC) (fixedFreq floatFreq : Freq)
    (payGap : Int) : Res (Swap × SwapType) := do
  let f ← buildSchedule md s.hol forward s.eff s.maturity fixedConv fixedFreq s.fixGap payGap
  let g ← buildSchedule md s.hol forward s.eff s.maturity floatConv floatFreq s.fixGap payGap
  let s' := { s with fixedLegs := f, floatLegs := g }
  let t ← s'.classify false
  .ok (s', t)

/-- The exchanges of principal of the fixed leg (plain_swap.rs 458-466). -/
noncomputable def Swap.fixedPrincipal (s : Swap) (pricing : DT) : Flows :=
  let m : Flows := match s.initFixed with
    | some x => if s.eff.day ≥ pricing.day then putAt s.eff x [] else []
    | none => []
  match s.lastFixed with
  | some y => if s.maturity.day ≥ pricing.day then putAt s.maturity (-y) m else m
  | none => m

/-- The amount of a fixed coupon (plain_swap.rs 480-487). -/
noncomputable def Swap.fixedAmount (s : Swap) (r : ℝ) (c : Coupon) : Res ℝ := do
  let f ← frac c.start c.stop s.fixedDcc
  .ok (-r * f * s.initFixed.getD 1)

/-- `get_fixed_cashflows` (plain_swap.rs 451-495). -/
noncomputable def Swap.fixedFlows (s : Swap) (pricing : DT) : Res Flows :=
  match s.fixedRate with
  | none => .ok (s.fixedPrincipal pricing)
  | some r => flowLoop Coupon.payment (s.fixedAmount r) pricing s.fixedLegs (s.fixedPrincipal pricing)

/-- The principal the floating coupons are paid on (plain_swap.rs 504-510): the initial payment, but only as long as the
effective date is not past; afterwards 1. -/
noncomputable def Swap.floatBase (s : Swap) (pricing : DT) : ℝ :=
  match s.initFloat with
  | some x => if s.eff.day ≥ pricing.day then x else 1
  | none => 1

/-- The exchanges of principal of the floating leg (plain_swap.rs 504-515). -/
noncomputable def Swap.floatPrincipal (s : Swap) (pricing : DT) : Flows :=
  let m : Flows := match s.initFloat with
    | some x => if s.eff.day ≥ pricing.day then putAt s.eff (-x) [] else []
    | none => []
  match s.lastFloat with
  | some y => if s.maturity.day ≥ pricing.day then putAt s.maturity y m else m
  | none => m

/-- The amount of a floating coupon (plain_swap.rs 528-540). -/
noncomputable def Swap.floatAmount (md : Mode) (s : Swap) (mk : Market) (pricing : DT) (tenor : List Char) (c : Coupon) : Res ℝ :=
  match mk.fwd with
  | none => .error .unwrapNone
  | some f => do
    let a ← FloatEnv.amount md { fwd := f, close := mk.close.getD fun _ => none, pricing := pricing, tenor := tenor, hol := s.hol, dcc := s.floatDcc, fixDays := s.fixGap }
      s.comp none c
    .ok (a * s.floatBase pricing)

/-- `get_floating_cashflows` (plain_swap.rs 497-549). -/
noncomputable def Swap.floatFlows (md : Mode) (s : Swap) (mk : Market) (pricing : DT) : Res Flows :=
  match s.index with
  | none => .ok (s.floatPrincipal pricing)
  | some tenor => flowLoop Coupon.payment (s.floatAmount md mk pricing tenor) pricing s.floatLegs (s.floatPrincipal pricing)

end Verif.QL

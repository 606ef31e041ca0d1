import Verif.TE.Krx
import Verif.TE.HalfBook
import Mathlib.Analysis.SpecialFunctions.Pow.Real
/-!
# Model of `trading-engine/src/feature/{tick,weight,weighted_valuation}.rs`, of the float views of
`IntegerConverter` (utils/numeric_converter.rs 442-487) and of `TradeHistory` (types/base.rs 44-121)

`f64` is the real numbers, without rounding; a logarithm or a quotient that leaves them ends the model. Logging is
not modelled.
-/
set_option autoImplicit false
namespace Verif.TE.Feature
open Verif Verif.TE.Num Verif.TE.Clock Verif.TE.Krx

/-! ## Numbers -/

/-- `10_i64.pow(k)`: the low 64 bits, read as `i64`, when it does not fit. -/
def powI (m : Mode) (k : Nat) : Res Int :=
  if 10 ^ k < 2 ^ 63 then .ok (10 ^ k)
  else match m with
    | .checked => .error .overflow
    | .wrapping => .ok (asI64 (10 ^ k % 2 ^ 64))

/-- `10_u64.pow(k)`. -/
def powU (m : Mode) (k : Nat) : Res Nat :=
  if 10 ^ k < 2 ^ 64 then .ok (10 ^ k)
  else match m with
    | .checked => .error .overflow
    | .wrapping => .ok (10 ^ k % 2 ^ 64)

/-- `x as u32` for an `i32`. -/
def asU32 (x : Int) : Nat := if 0 ≤ x then x.toNat else (2 ^ 32 + x).toNat

/-- `div_rem` (numeric_converter.rs 69-73); no power of ten is -1, so nothing overflows. -/
def divRemI (a d : Int) : Res (Int × Int) :=
  if d = 0 then .error .divZero else .ok (Int.tdiv a d, a - Int.tdiv a d * d)

/-- `div_rem_u64` (numeric_converter.rs 76-80). -/
def divRemU (a d : Nat) : Res (Nat × Nat) :=
  if d = 0 then .error .divZero else .ok (a / d, a - a / d * d)

/-- `decimal_number_point_length_i32` (numeric_converter.rs 387): the digits behind the point. -/
def places (dec : Nat) : Nat := dec - 1

/-- `to_f64_from_i64` (numeric_converter.rs 442-444) and, on smaller types, `to_f64_from_i32` (452-454). -/
noncomputable def floatI (pl : Nat) (v : Int) : ℝ := (v : ℝ) / 10 ^ pl

/-- `to_f64_from_u64` (numeric_converter.rs 447-449) and `to_f64_from_u32` (457-459). -/
noncomputable def floatU (pl : Nat) (v : Nat) : ℝ := (v : ℝ) / 10 ^ pl

/-- `normalized_real_from_i64` (numeric_converter.rs 462-473); the sum of the two `i32` exponents does not overflow.
`norm` is `float_normalizer`. -/
noncomputable def normI (m : Mode) (norm : Option Int) (pl : Nat) (v : Int) : Res ℝ :=
  match norm with
  | some n => do
    let e : Int := n + pl
    let p ← powI m (asU32 e)
    let (q, r) ← divRemI v p
    .ok ((q : ℝ) + (r : ℝ) / (10 : ℝ) ^ e)
  | none => .ok (floatI pl v)

/-- `normalized_real_from_u64` (numeric_converter.rs 476-487). -/
noncomputable def normU (m : Mode) (norm : Option Int) (pl : Nat) (v : Nat) : Res ℝ :=
  match norm with
  | some n => do
    let e : Int := n + pl
    let p ← powU m (asU32 e)
    let (q, r) ← divRemU v p
    .ok ((q : ℝ) + (r : ℝ) / (10 : ℝ) ^ e)
  | none => .ok (floatU pl v)

/-- `float_normalizer` of the price formats (krx_converter.rs 46, 77, 109, 141, 174, 206, 237). -/
def priceNorm : ConvId → Option Int
  | .riskFree => none
  | .baseDeriv => none
  | .stock => none
  | .stockDeriv => some 1
  | .commodity => some 1
  | .repo => none
  | .bond => none

/-- `float_normalizer` of the quantity formats (krx_converter.rs 56, 87, 119, 151, 184, 216, 247). -/
def qtyNorm : ConvId → Option Int
  | .riskFree => none
  | .baseDeriv => none
  | .stock => none
  | .stockDeriv => none
  | .commodity => none
  | .repo => none
  | .bond => none

/-- `order_converter.price.normalized_real_from_i64(v)` -/
noncomputable def realPrice (m : Mode) (i : ConvId) (v : Int) : Res ℝ := do
  let c ← i.load
  normI m (priceNorm i) (places c.price.dec) v

/-- `order_converter.quantity.normalized_real_from_u64(v)` -/
noncomputable def realQty (m : Mode) (i : ConvId) (v : Nat) : Res ℝ := do
  let c ← i.load
  normU m (qtyNorm i) (places c.qty.dec) v

/-! ## Trade prices -/

/-- `TradePrice` (tick.rs 24-28). -/
structure TradePrice where
  value : ℝ
  stamp : Nat
  conv : ConvId

/-- `new_from_trade_data` (tick.rs 42-50) with `to_normalized_real` (data/trade.rs 76-78). -/
noncomputable def TradePrice.new (m : Mode) (t : Trade) : Res TradePrice := do
  let v ← realPrice m t.conv t.price
  .ok ⟨v, t.stamp, t.conv⟩

/-- `update_trade_data` (tick.rs 52-55): keeps the converter. -/
noncomputable def TradePrice.update (m : Mode) (f : TradePrice) (t : Trade) : Res TradePrice := do
  let v ← realPrice m t.conv t.price
  .ok { f with value := v, stamp := t.stamp }

/-! ## Quotes -/

/-- `SimpleSnapshot` (tick.rs 58-62). -/
structure Simple where
  price : ℝ
  qty : ℝ

/-- `SimpleQuotes` (tick.rs 65-74). -/
structure Quotes where
  bids : List Simple
  asks : List Simple
  cut : Nat
  stamp : Nat
  sys : Nat
  conv : ConvId

/-- `with_capacity` (tick.rs 91-101): the vectors are empty; the converter is the default one (data/mod.rs 13-15). -/
def Quotes.withCapacity (n : Nat) : Quotes := ⟨[], [], n, 0, 0, .bond⟩

/-- A level as a feature (tick.rs 171-176). -/
noncomputable def simple (m : Mode) (i : ConvId) (l : Krx.Level) : Res Simple := do
  let p ← realPrice m i l.price
  let q ← realQty m i l.qty
  .ok ⟨p, q⟩

/-- `.iter().map(..).collect()` -/
noncomputable def simples (m : Mode) (i : ConvId) : List Krx.Level → Res (List Simple)
  | [] => .ok []
  | l :: ls => do
    let x ← simple m i l
    let xs ← simples m i ls
    .ok (x :: xs)

/-- `new_from_quote_sanpshot` (tick.rs 164-191). -/
noncomputable def Quotes.ofQuote (m : Mode) (d : Quote) : Res Quotes := do
  let eb ← d.effectiveBid
  let n := min eb.length d.cut
  let bids ← simples m d.conv (eb.take n)
  let ea ← d.effectiveAsk
  let asks ← simples m d.conv (ea.take n)
  .ok ⟨bids, asks, d.cut, d.stamp, d.sys, d.conv⟩

/-- `new_from_trade_quote_snapshot` (tick.rs 193-220): the length of the bid vector decides for both sides. -/
noncomputable def Quotes.ofTradeQuote (m : Mode) (d : TradeQuote) : Res Quotes := do
  let n := min d.bid.length d.cut
  let bids ← simples m d.conv (d.bid.take n)
  let asks ← simples m d.conv (d.ask.take n)
  .ok ⟨bids, asks, d.cut, d.stamp, d.sys, d.conv⟩

/-- `v[i]` -/
def getL {α : Type} (v : List α) (i : Nat) : Res α :=
  match v[i]? with
  | some x => .ok x
  | none => .error .index

/-- `v[i] = x` -/
def putL {α : Type} (v : List α) (i : Nat) (x : α) : Res (List α) :=
  if i < v.length then .ok (v.set i x) else .error .index

/-- The loop `for i in 0..self.level_cut` (tick.rs 241-251, 275-285) with `n` rounds left; `db` and `da` are the levels
of the data. -/
noncomputable def writeLevels (m : Mode) (i : ConvId) (db da : List Krx.Level) :
    Nat → Nat → List Simple × List Simple → Res (List Simple × List Simple)
  | 0, _, v => .ok v
  | n + 1, k, v => do
    let lb ← getL db k
    let xb ← simple m i lb
    let bids ← putL v.1 k xb
    let la ← getL da k
    let xa ← simple m i la
    let asks ← putL v.2 k xa
    writeLevels m i db da n (k + 1) (bids, asks)

/-- `update_trade_quote_snapshot` (tick.rs 222-254): the system time stays. -/
noncomputable def Quotes.updateTradeQuote (m : Mode) (f : Quotes) (d : TradeQuote) : Res Quotes :=
  if d.cut < f.cut then .error .err
  else do
    let v ← writeLevels m d.conv d.bid d.ask f.cut 0 (f.bids, f.asks)
    .ok { f with bids := v.1, asks := v.2, conv := d.conv, stamp := d.stamp }

/-- `update_quote_snapshot` (tick.rs 256-288): the effective levels are taken anew in each round, and so not at all when
the cut is zero. -/
noncomputable def Quotes.updateQuote (m : Mode) (f : Quotes) (d : Quote) : Res Quotes :=
  if d.cut < f.cut then .error .err
  else if f.cut = 0 then .ok { f with conv := d.conv, stamp := d.stamp }
  else do
    let eb ← d.effectiveBid
    let ea ← d.effectiveAsk
    let v ← writeLevels m d.conv eb ea f.cut 0 (f.bids, f.asks)
    .ok { f with bids := v.1, asks := v.2, conv := d.conv, stamp := d.stamp }

/-- `Real::EPSILON` = 2^-52 -/
noncomputable def epsilon : ℝ := 1 / 2 ^ 52

/-- `VWAP_NORM_FACTOR` (tick.rs 21). -/
noncomputable def vwapFactor : ℝ := 100

/-- The two sums of a loop of `vwap` (tick.rs 109-112, 118-121): quantity and value. -/
noncomputable def vwapSum (l : List Simple) (a : ℝ × ℝ) : ℝ × ℝ :=
  l.foldl (fun a x => (a.1 + x.qty, a.2 + x.price * x.qty / vwapFactor)) a

/-- `vwap` (tick.rs 104-129). -/
noncomputable def Quotes.vwap (f : Quotes) : Option ℝ :=
  let a := vwapSum f.asks (0, 0)
  if a.1 < epsilon then none
  else
    let b := vwapSum f.bids a
    if b.1 < epsilon then none else some (b.2 / b.1 * vwapFactor)

/-- `mid_price` (tick.rs 132-142). -/
noncomputable def Quotes.midPrice (f : Quotes) : Option ℝ :=
  f.asks.findSome? fun a => f.bids.findSome? fun b =>
    if a.qty > 0 ∧ b.qty > 0 then some ((a.price + b.price) / 2) else none

/-- `best_ask_price` (tick.rs 145-152). -/
noncomputable def Quotes.bestAsk (f : Quotes) : Option ℝ :=
  f.asks.findSome? fun a => if a.qty > 0 then some a.price else none

/-- `best_bid_price` (tick.rs 155-162). -/
noncomputable def Quotes.bestBid (f : Quotes) : Option ℝ :=
  f.bids.findSome? fun b => if b.qty > 0 then some b.price else none

/-! ## Order flow imbalance -/

/-- The checks at the head of the imbalances (tick.rs 297-319, 340-362, 383-405, 453-475). -/
def levelCheck (level : Nat) (f g : Quotes) : Res Unit :=
  if level = 0 then .error .err else if level > f.cut ∨ level > g.cut then .error .err else .ok ()

/-- `get_bid_orderflow_imbalance` (tick.rs 292-333). -/
noncomputable def Quotes.bidOfi (f : Quotes) (level : Nat) (g : Quotes) : Res ℝ := do
  levelCheck level f g
  let prev ← getL f.bids (level - 1)
  let cur ← getL g.bids (level - 1)
  if cur.price > prev.price then .ok cur.qty
  else if cur.price = prev.price then .ok (cur.qty - prev.qty)
  else .ok (-prev.qty)

/-- `get_ask_orderflow_imbalance` (tick.rs 335-376). -/
noncomputable def Quotes.askOfi (f : Quotes) (level : Nat) (g : Quotes) : Res ℝ := do
  levelCheck level f g
  let prev ← getL f.asks (level - 1)
  let cur ← getL g.asks (level - 1)
  if cur.price > prev.price then .ok (-prev.qty)
  else if cur.price = prev.price then .ok (cur.qty - prev.qty)
  else .ok cur.qty

/-- `x.ln()`: infinite at zero, NaN below. -/
noncomputable def ln (x : ℝ) : Res ℝ := if 0 < x then .ok (Real.log x) else .error .nonfinite

/-- `get_ask_ln_orderflow_imbalance` (tick.rs 378-446). -/
noncomputable def Quotes.askLnOfi (f : Quotes) (level : Nat) (g : Quotes) : Res ℝ := do
  levelCheck level f g
  let prev ← getL f.asks (level - 1)
  let cur ← getL g.asks (level - 1)
  if cur.price > prev.price then
    if cur.qty > 0 then do
      let x ← ln prev.qty
      .ok (-x)
    else .ok 0
  else if cur.price = prev.price then
    if prev.qty > 0 then ln (cur.qty / prev.qty) else .ok 0
  else if cur.qty > 0 then ln cur.qty else .ok 0

/-- `get_bid_ln_orderflow_imbalance` (tick.rs 448-514). -/
noncomputable def Quotes.bidLnOfi (f : Quotes) (level : Nat) (g : Quotes) : Res ℝ := do
  levelCheck level f g
  let prev ← getL f.bids (level - 1)
  let cur ← getL g.bids (level - 1)
  if cur.price > prev.price then
    if cur.qty > 0 then ln cur.qty else .ok 0
  else if cur.price = prev.price then
    if prev.qty > 0 then ln (cur.qty / prev.qty) else .ok 0
  else if cur.qty > 0 then do
    let x ← ln prev.qty
    .ok (-x)
  else .ok 0

/-- `get_orederflow_imbalance` (tick.rs 516-525). -/
noncomputable def Quotes.ofi (f : Quotes) (level : Nat) (g : Quotes) : Res ℝ := do
  let b ← f.bidOfi level g
  let a ← f.askOfi level g
  .ok (b - a)

/-- `get_ln_orderflow_imbalance` (tick.rs 527-536). -/
noncomputable def Quotes.lnOfi (f : Quotes) (level : Nat) (g : Quotes) : Res ℝ := do
  let b ← f.bidLnOfi level g
  let a ← f.askLnOfi level g
  .ok (b - a)

/-! ## Exponential weights -/

/-- `TimeScale` (types/timestamp.rs 24-33). -/
inductive TimeScale
  | micro | milli | second | minute | hour | day
  deriving DecidableEq, Repr

/-- The scale `apply` measures in (weight.rs 18-25, timestamp.rs 14-19). -/
def TimeScale.nanos : TimeScale → Nat
  | .minute => 60 * 1000000000
  | .milli => 1000000
  | .hour => 60 * (60 * 1000000000)
  | .day => 24 * (60 * (60 * 1000000000))
  | .micro => 1000
  | .second => 1000000000

/-- `diff_in_micros` … `diff_in_days` (timestamp.rs 180-213) as a number. -/
noncomputable def diffIn (m : Mode) (s : TimeScale) (cur prev : Nat) : Res ℝ := do
  let (q, r) ← diffScale m s.nanos cur prev
  .ok ((q : ℝ) + (r : ℝ) / s.nanos)

/-- `powf` for an exponent that is not negative: a negative base has real powers at whole exponents only. -/
noncomputable def powf (x d : ℝ) : Res ℝ :=
  open Classical in if x < 0 ∧ ¬ ∃ n : ℤ, d = n then .error .nonfinite else .ok (x ^ d)

/-- `TimeSeriesWeight` (weight.rs 10-13). -/
structure Weight where
  weight : ℝ
  scale : TimeScale

/-- `apply` (weight.rs 16-27). -/
noncomputable def Weight.apply (m : Mode) (w : Weight) (prev cur : Nat) : Res ℝ := do
  let d ← diffIn m w.scale cur prev
  powf w.weight d

/-- `current_weight` (weight.rs 30-32). -/
noncomputable def currentWeight (x : ℝ) : ℝ := 1 - x

/-- `previous_weight` (weight.rs 36-38). -/
noncomputable def previousWeight (x : ℝ) : ℝ := x

/-- `EWMA` (weighted_valuation.rs 7-11); `EWMS` (47-51) has the same fields, `value` is its `summation`. -/
structure Ewm where
  weight : Weight
  stamp : Nat
  value : ℝ

/-- `EWMA::new` (weighted_valuation.rs 23-29). -/
def Ewm.newAverage (w : Weight) (v : ℝ) (t : Nat) : Ewm := ⟨w, t, v⟩

/-- `EWMS::new` (weighted_valuation.rs 64-70). -/
noncomputable def Ewm.newSum (w : Weight) (t : Nat) : Ewm := ⟨w, t, 0⟩

/-- `EWMA::update` (weighted_valuation.rs 32-36). -/
noncomputable def Ewm.average (m : Mode) (e : Ewm) (x : ℝ) (t : Nat) : Res Ewm := do
  let iw ← e.weight.apply m e.stamp t
  .ok { e with value := previousWeight iw * e.value + currentWeight iw * x }

/-- `EWMS::update` (weighted_valuation.rs 73-76). -/
noncomputable def Ewm.sum (m : Mode) (e : Ewm) (x : ℝ) (t : Nat) : Res Ewm := do
  let iw ← e.weight.apply m e.stamp t
  .ok { e with value := previousWeight iw * e.value + x }

/-- A series of calls of `EWMA::update`. -/
noncomputable def Ewm.averages (m : Mode) : List (ℝ × Nat) → Ewm → Res Ewm
  | [], e => .ok e
  | (x, t) :: l, e => do
    let e ← e.average m x t
    Ewm.averages m l e

/-- A series of calls of `EWMS::update`. -/
noncomputable def Ewm.sums (m : Mode) : List (ℝ × Nat) → Ewm → Res Ewm
  | [], e => .ok e
  | (x, t) :: l, e => do
    let e ← e.sum m x t
    Ewm.sums m l e

/-! ## Trade histories -/

/-- The low 64 bits of an integer, as `i64`. -/
def wrapI (x : Int) : Int := asI64 (x % 2 ^ 64).toNat

/-- An `i64` operation with exact result `x`. -/
def fitI (m : Mode) (x : Int) : Res Int :=
  if -2 ^ 63 ≤ x ∧ x < 2 ^ 63 then .ok x
  else match m with
    | .checked => .error .overflow
    | .wrapping => .ok (wrapI x)

/-- `TradeHistory::push` (base.rs 88-90). -/
def histPush (h : History) (p : Int) (q : Nat) : History := h ++ [(p, q)]

/-- `TradeHistory::get_last_trade` (base.rs 94-96). -/
def histLast (h : History) : Option (Int × Nat) := h.getLast?

/-- The loop of `average_trade_price` (base.rs 101-106). -/
def averageLoop (m : Mode) : History → Int → Nat → Res (Int × Nat)
  | [], s, t => .ok (s, t)
  | (p, q) :: h, s, t => do
    let x ← fitI m (p * asI64 q)
    let s ← fitI m (s + x)
    let t ← addU m t q
    averageLoop m h s t

/-- `average_trade_price` (base.rs 100-108): `0.0 / 0.0` is not a number; a wrapped sum over a wrapped total of zero is
infinite. -/
noncomputable def averagePrice (m : Mode) (h : History) : Res ℝ := do
  let (s, t) ← averageLoop m h 0 0
  if t = 0 then .error .nonfinite else .ok ((s : ℝ) / (t : ℝ))

end Verif.TE.Feature

import Verif.Float.Ieee
import Verif.TE.Feature
/-!
# Floating-point model of the features of `trading-engine`

The same functions as in `TE/Feature`, in the `f64` arithmetic they run in. `powf` is a parameter.
-/
set_option autoImplicit false
namespace Verif.Float
open Verif

/-- `powi` (numeric_converter.rs 443, 467): the standard library leaves its accuracy open; this is the multiplication loop of
compiler-rt's `__powidf2`, which it is compiled to. `n` bounds the number of rounds. -/
def Fmt.powiLoop (F : Fmt) : Nat → Fl → Fl → Nat → Fl
  | 0, r, _, _ => r
  | n + 1, r, a, b =>
    let r := if b % 2 = 1 then F.mul r a else r
    if b / 2 = 0 then r else F.powiLoop n r (F.mul a a) (b / 2)

/-- `10_f64.powi(k)` for `k` not negative -/
def powi10 (k : Nat) : Fl := f64.powiLoop (k + 1) (f64.lit 1) (f64.lit 10) k

/-- `to_f64_from_i64`, `to_f64_from_u64` (numeric_converter.rs 442-449): `pl` digits behind the point. -/
def toF64 (pl : Nat) (v : Int) : Fl := f64.div (f64.ofInt v) (powi10 pl)

/-- `normalized_real_from_i64` and `normalized_real_from_u64` with a normaliser (numeric_converter.rs 464-470, 478-484), `e` the
normaliser plus the digits behind the point: quotient and remainder by `10 ^ e`. -/
def normF64 (e : Nat) (v : Int) : Fl :=
  let q := Int.tdiv v (10 ^ e)
  f64.add (f64.ofInt q) (f64.div (f64.ofInt (v - q * 10 ^ e)) (powi10 e))

/-- The middle of two prices, `mid_price` (feature/tick.rs 136) -/
def midF (ask bid : Fl) : Fl := f64.div (f64.add ask bid) (f64.lit 2)

/-- `mid_price` (feature/tick.rs 132-142); a level is a price and a quantity. -/
def midPriceF (asks bids : List (Fl × Fl)) : Option Fl :=
  asks.findSome? fun a => bids.findSome? fun b =>
    if (f64.lit 0).lt a.2 && (f64.lit 0).lt b.2 then some (midF a.1 b.1) else none

/-- `best_ask_price`, `best_bid_price` (feature/tick.rs 145-162) -/
def bestF (levels : List (Fl × Fl)) : Option Fl :=
  levels.findSome? fun a => if (f64.lit 0).lt a.2 then some a.1 else none

/-- The last line of `average_trade_price` (types/base.rs 107) -/
def averageF (sum : Int) (total : Nat) : Fl := f64.div (f64.ofInt sum) (f64.ofInt total)

/-- `average_trade_price` (types/base.rs 100-108): the integer loop is that of `TE/Feature`. -/
def averagePriceF (m : Mode) (h : TE.History) : Res Fl := do
  let (s, t) ← TE.Feature.averageLoop m h 0 0
  .ok (averageF s t)

/-- `diff_in_micros` … `diff_in_days` (types/timestamp.rs 179-213): `d` the difference in nanoseconds, `scale` the nanoseconds
of the unit. -/
def diffF (scale d : Nat) : Fl :=
  f64.add (f64.ofInt ((d / scale : Nat) : Int)) (f64.div (f64.ofInt ((d - d / scale * scale : Nat) : Int)) (f64.ofInt scale))

/-- `EWMA::update` (feature/weighted_valuation.rs 32-36) with the weight `w` of the interval (`previous_weight`,
`current_weight`: feature/weight.rs 29-38) -/
def ewmaF (w value x : Fl) : Fl := f64.add (f64.mul w value) (f64.mul (f64.sub (f64.lit 1) w) x)

/-- `EWMS::update` (feature/weighted_valuation.rs 73-76) -/
def ewmsF (w value x : Fl) : Fl := f64.add (f64.mul w value) x

/-- A series of updates, each with its weight and value. -/
def ewmaRun (value : Fl) : List (Fl × Fl) → Fl
  | [] => value
  | (w, x) :: l => ewmaRun (ewmaF w value x) l

/-- The two sums of `vwap` (feature/tick.rs 109-112, 118-121): prices and quantities. -/
def vwapSumF : List (Fl × Fl) → Fl × Fl → Fl × Fl
  | [], a => a
  | (p, q) :: l, a => vwapSumF l (f64.add a.1 q, f64.add a.2 (f64.div (f64.mul p q) (f64.lit 100)))

/-- `vwap` (feature/tick.rs 104-129); `Real::EPSILON` is `2 ^ -52`. -/
def vwapF (asks bids : List (Fl × Fl)) : Option Fl :=
  let a := vwapSumF asks (f64.lit 0, f64.lit 0)
  if a.1.lt (f64.lit (1 / 2 ^ 52)) then none
  else
    let b := vwapSumF bids a
    if b.1.lt (f64.lit (1 / 2 ^ 52)) then none else some (f64.mul (f64.div b.2 b.1) (f64.lit 100))

end Verif.Float

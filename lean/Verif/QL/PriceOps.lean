import Verif.QL.Dividend
/-!
# Model of the arithmetic on a market price (`quantlib/src/parameters/market_price.rs`)

A `MarketPrice` is changed by `set_price`, `+=`, `-=`, `*=`, `/=` and by moves of the evaluation date. The dividend
objects stay as they are: a move of the date changes only the interpolator of a dividend, which a price does not use
(`get_dividend_ratio` reads dates and yields).
-/
set_option autoImplicit false
namespace Verif.QL
open Verif Verif.Civil
section
variable {K : Type} [Field K] [LinearOrder K] [IsStrictOrderedRing K]

/-- The mutating methods of `MarketPrice`: market_price.rs 52-54 (`set_price`), 88-119 (`update_evaluation_date`),
123-127 (`+=`), 129-133 (`-=`), 135-139 (`*=`), 141-145 (`/=`). -/
inductive PriceOp (K : Type) where
  | set (x : K)
  | add (x : K)
  | sub (x : K)
  | mul (x : K)
  | div (x : K)
  | date (d : DT)

/-- One of them (market_price.rs 52-54, 88-119, 123-145); `/=` by zero leaves an infinite or undefined number. -/
def Price.op (p : Price K) (divs : List (Dividend K)) : PriceOp K → Res (Price K)
  | .set x => .ok { p with value := x }
  | .add x => .ok { p with value := p.value + x }
  | .sub x => .ok { p with value := p.value - x }
  | .mul x => .ok { p with value := p.value * x }
  | .div x => do
    let y ← divK p.value x
    .ok { p with value := y }
  | .date d => p.update divs d

/-- A history of such calls on one price (market_price.rs 52-54, 88-119, 123-145). -/
def Price.ops (p : Price K) (divs : List (Dividend K)) : List (PriceOp K) → Res (Price K)
  | [] => .ok p
  | o :: os => do
    let p ← p.op divs o
    p.ops divs os

end
end Verif.QL

import Verif.TE.OrderBook
/-!
# Books made by `Default` (derived: orderbook/mod.rs 39, orderbook/half_book.rs 22, types/enums.rs 10-17)
-/
set_option autoImplicit false
namespace Verif.TE

/-- `HalfBook::default()` (half_book.rs 22-31): the default side is `Ask`, the default price 0. -/
def HalfBook.default : HalfBook := { side := .ask, levels := [], cache := fun _ => none, best := 0, total := 0 }

/-- `OrderBook::default()` (mod.rs 39-47); `inst` is the default `InstId`. -/
def OrderBook.default (inst : Nat) : OrderBook := { asks := HalfBook.default, bids := HalfBook.default, inst := inst, ctr := 0 }

end Verif.TE

import Verif.Basic
/-!
# Model of `trading-engine/src/orderbook/level.rs`
-/
namespace Verif.TE
open Verif

/-- `OrderSide` (types/enums.rs): the two sides of a book. -/
inductive Side
  | ask
  | bid
  deriving DecidableEq, Repr

/-- `LimitOrder` (data/order.rs 12-17). `price : i64`, `quantity, order_id : u64`. -/
structure LimitOrder where
  price : Int
  qty : Nat
  side : Side
  id : Nat
  deriving DecidableEq, Repr

/-- `MarketOrder` (data/order.rs 37-41). -/
structure MarketOrder where
  qty : Nat
  side : Side
  id : Nat
  deriving DecidableEq, Repr

/-- `RemoveAnyOrder` (data/order.rs 88-92). -/
structure RemoveAnyOrder where
  price : Int
  qty : Nat
  side : Side
  deriving DecidableEq, Repr

/-- `Level` (orderbook/level.rs 12-16). `orders` is the `VecDeque`, front first; entries are
`(order_id, quantity)`. -/
structure Level where
  price : Int
  orders : List (Nat × Nat)
  total : Nat
  deriving DecidableEq, Repr

namespace Level

/-- `Level::initialize` (level.rs 31-37). -/
def empty (p : Int) : Level := { price := p, orders := [], total := 0 }

/-- `Level::initialize_with_order` (level.rs 47-55). -/
def initWithOrder (o : LimitOrder) : Level :=
  { price := o.price, orders := [(o.id, o.qty)], total := o.qty }

/-- `Level::add_limit_order` (level.rs 57-74). `Except.error ()` inside is the returned `Err`
(price mismatch, level unchanged). -/
def addLimitOrder (m : Mode) (l : Level) (o : LimitOrder) : Res (Level × Except Unit Unit) :=
  if l.price ≠ o.price then .ok (l, .error ())
  else do
    let t ← addU m l.total o.qty
    .ok ({ l with orders := l.orders ++ [(o.id, o.qty)], total := t }, .ok ())

/-- `position(|(k,_)| k == id)` followed by `remove(idx)` (level.rs 80-82): drops the first entry with
that id; returns its quantity and the rest. -/
def removeFirst (id : Nat) : List (Nat × Nat) → Option (Nat × List (Nat × Nat))
  | [] => none
  | (k, q) :: rest =>
    if k = id then some (q, rest)
    else match removeFirst id rest with
      | none => none
      | some (q', rest') => some (q', (k, q) :: rest')

/-- `Level::cancel_order` (level.rs 79-88). Returns `(removed, remaining total)`. -/
def cancelOrder (m : Mode) (l : Level) (id : Nat) : Res (Level × Option (Nat × Nat)) :=
  match removeFirst id l.orders with
  | some (q, rest) => do
    let t ← subU m l.total q
    .ok ({ l with orders := rest, total := t }, some (q, t))
  | none => .ok (l, none)

/-- `Level::get_order` (level.rs 92-102). -/
def getOrder (l : Level) (id : Nat) (s : Side) : Option LimitOrder :=
  match l.orders.find? (fun o => o.1 == id) with
  | some (k, v) => some { id := k, price := l.price, qty := v, side := s }
  | none => none

/-- `Level::clear` (level.rs 117-119): only the queue is cleared, not `total_quantity`. -/
def clear (l : Level) : Level := { l with orders := [] }

/-- The `while remaining > 0` loop of `Level::trade` (level.rs 130-145), as recursion over the queue.
State: queue, `total_quantity`, `remaining`, `traded_ids`. -/
def tradeLoop (m : Mode) : List (Nat × Nat) → Nat → Nat → List Nat →
    Res (List (Nat × Nat) × Nat × Nat × List Nat)
  | [], total, rem, ids => .ok ([], total, rem, ids)
  | (id, q) :: rest, total, rem, ids =>
    if rem = 0 then .ok ((id, q) :: rest, total, rem, ids)
    else if q > rem then do
      let t ← subU m total rem
      .ok ((id, q - rem) :: rest, t, 0, ids)
    else do
      let t ← subU m total q
      tradeLoop m rest t (rem - q) (ids ++ [id])

/-- `Level::trade` (level.rs 123-148). Returns the level, `traded_ids` and `remaining`; the third Rust
component is the new `total_quantity`. -/
def trade (m : Mode) (l : Level) (qty : Nat) : Res (Level × List Nat × Nat) := do
  let (orders, total, rem, ids) ← tradeLoop m l.orders l.total qty []
  .ok ({ l with orders := orders, total := total }, ids, rem)

/-- In-place quantity update of the first entry with that id (level.rs 154-156). Returns old quantity. -/
def setFirst (id new : Nat) : List (Nat × Nat) → Option (Nat × List (Nat × Nat))
  | [] => none
  | (k, q) :: rest =>
    if k = id then some (q, (k, new) :: rest)
    else match setFirst id new rest with
      | none => none
      | some (q', rest') => some (q', (k, q) :: rest')

/-- `Level::change_quantity` (level.rs 153-163): note `+= new` happens before `-= old`. -/
def changeQuantity (m : Mode) (l : Level) (id new : Nat) : Res (Level × Option Nat) :=
  match setFirst id new l.orders with
  | some (old, orders) => do
    let t1 ← addU m l.total new
    let t2 ← subU m t1 old
    .ok ({ l with orders := orders, total := t2 }, some old)
  | none => .ok (l, none)

end Level
end Verif.TE

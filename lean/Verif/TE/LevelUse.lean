import Verif.TE.HalfBook
/-!
# A price level used on its own (`trading-engine/src/orderbook/level.rs`): `Level` is public, with all its functions
-/
set_option autoImplicit false
namespace Verif.TE
open Verif

/-- A call on a level. -/
inductive LevelCall
  | add (o : LimitOrder)
  | cancel (id : Nat)
  | trade (qty : Nat)
  | change (id new : Nat)
  | clear
  deriving DecidableEq, Repr

/-- What a call answers. -/
inductive LevelAnswer
  | added | mismatch
  | cancelled (qty total : Nat)
  | notFound
  | traded (ids : List Nat) (rem total : Nat)
  | changed (old : Nat)
  | cleared
  deriving DecidableEq, Repr

/-- One call: `add_limit_order`, `cancel_order`, `trade`, `change_quantity`, `clear` (level.rs 57-163). -/
def Level.call (m : Mode) (l : Level) : LevelCall → Res (Level × LevelAnswer)
  | .add o => do
    let (l, r) ← l.addLimitOrder m o
    .ok (l, match r with | .ok _ => .added | .error _ => .mismatch)
  | .cancel id => do
    let (l, r) ← l.cancelOrder m id
    .ok (l, match r with | some (q, t) => .cancelled q t | none => .notFound)
  | .trade q => do
    let (l, ids, rem) ← l.trade m q
    .ok (l, .traded ids rem l.total)
  | .change id new => do
    let (l, r) ← l.changeQuantity m id new
    .ok (l, match r with | some old => .changed old | none => .notFound)
  | .clear => .ok (l.clear, .cleared)

/-- A series of calls. -/
def Level.calls (m : Mode) : List LevelCall → Level → Res (Level × List LevelAnswer)
  | [], l => .ok (l, [])
  | c :: cs, l => do
    let (l, a) ← l.call m c
    let (l, as) ← Level.calls m cs l
    .ok (l, a :: as)

/-- `to_level_snapshot` (level.rs 20-27): price, quantity and the number of orders `as u32`. -/
def Level.snapshot (l : Level) : Int × Nat × Nat := (l.price, l.total, l.orders.length % 2 ^ 32)

end Verif.TE

import Verif.TE.HalfBook
/-!
# Model of `trading-engine/src/orderbook/mod.rs`

`timestamp`/`system_time` are never written by the modelled functions and are left out; log calls are
left out.
-/
namespace Verif.TE
open Verif

/-- `OrderBook` (orderbook/mod.rs 40-47). `inst` is the `InstId`, `ctr` the `VirtualOrderId` counter. -/
structure OrderBook where
  asks : HalfBook
  bids : HalfBook
  inst : Nat
  ctr : Nat

/-- `ModifyOrder` (data/order.rs 67-71). -/
structure ModifyOrder where
  id : Nat
  price : Int
  qty : Nat
  deriving DecidableEq, Repr

namespace OrderBook

/-- `OrderBook::initialize_with_id` (mod.rs 179-188). -/
def init (inst : Nat) : OrderBook :=
  { asks := HalfBook.init .ask, bids := HalfBook.init .bid, inst := inst, ctr := 0 }

/-- `OrderBook::eq_level` (mod.rs 62-64). -/
def eqLevel (a b : OrderBook) : Bool := a.asks.eqLevel b.asks && a.bids.eqLevel b.bids

/-- `OrderBook::check_validity_quantity` (mod.rs 97-99). -/
def checkValidity (m : Mode) (b : OrderBook) : Res Bool := do
  let x ← b.asks.checkValidity m
  if x then b.bids.checkValidity m else .ok false

/-- `OrderBook::add_limit_order` (mod.rs 191-196). -/
def addLimitOrder (m : Mode) (b : OrderBook) (o : LimitOrder) : Res (OrderBook × Except Unit Unit) :=
  match o.side with
  | .ask => do
    let (h, r) ← b.asks.addLimitOrder m o
    .ok ({ b with asks := h }, r)
  | .bid => do
    let (h, r) ← b.bids.addLimitOrder m o
    .ok ({ b with bids := h }, r)

/-- `OrderBook::cancel_order` (mod.rs 200-215): asks first, bids only if that gave `None`. -/
def cancelOrder (m : Mode) (b : OrderBook) (id : Nat) : Res (OrderBook × Option Unit) := do
  let (h, r) ← b.asks.cancelOrder m id
  let b := { b with asks := h }
  if r.isSome then .ok (b, some ())
  else do
    let (h, r) ← b.bids.cancelOrder m id
    .ok ({ b with bids := h }, r)

/-- `OrderBook::remove_order` (mod.rs 217-222). -/
def removeOrder (m : Mode) (b : OrderBook) (o : RemoveAnyOrder) : Res (OrderBook × Option Nat) :=
  match o.side with
  | .ask => do
    let (h, r) ← b.asks.removeOrder m o
    .ok ({ b with asks := h }, r)
  | .bid => do
    let (h, r) ← b.bids.removeOrder m o
    .ok ({ b with bids := h }, r)

/-- `OrderBook::change_quantity` (mod.rs 295-310). -/
def changeQuantity (m : Mode) (b : OrderBook) (id q : Nat) : Res (OrderBook × Option Unit) := do
  let (h, r) ← b.asks.changeQuantity m id q
  let b := { b with asks := h }
  if r.isSome then .ok (b, some ())
  else do
    let (h, r) ← b.bids.changeQuantity m id q
    .ok ({ b with bids := h }, r)

/-- `OrderBook::change_price` (mod.rs 273-291). -/
def changePrice (m : Mode) (b : OrderBook) (id : Nat) (p : Int) : Res (OrderBook × Option Unit) := do
  let (h, r) ← b.asks.changePrice m id p
  let b := { b with asks := h }
  if r.isSome then .ok (b, some ())
  else do
    let (h, r) ← b.bids.changePrice m id p
    .ok ({ b with bids := h }, r)

/-- `expect("Failed to add limit order …")` on the result of an add. -/
def expectAdd (m : Mode) (h : HalfBook) (o : LimitOrder) : Res HalfBook := do
  let (h', r) ← h.addLimitOrder m o
  match r with
  | .ok _ => .ok h'
  | .error _ => .error .unwrapNone

/-- `OrderBook::process_limit_order` (mod.rs 316-351). -/
def processLimit (m : Mode) (b : OrderBook) (o : LimitOrder) :
    Res (OrderBook × Option (History × Nat)) :=
  match o.side with
  | .ask =>
    if o.price > b.bids.best then do
      let h ← expectAdd m b.asks o
      .ok ({ b with asks := h }, none)
    else do
      let (bids, r) ← b.bids.tradeLimit m o
      let b := { b with bids := bids }
      match r with
      | some (hist, rem) =>
        if rem > 0 then do
          let h ← expectAdd m b.asks { o with qty := rem }
          .ok ({ b with asks := h }, some (hist, rem))
        else .ok (b, some (hist, rem))
      | none => .ok (b, none)
  | .bid =>
    if o.price < b.asks.best then do
      let h ← expectAdd m b.bids o
      .ok ({ b with bids := h }, none)
    else do
      let (asks, r) ← b.asks.tradeLimit m o
      let b := { b with asks := asks }
      match r with
      | some (hist, rem) =>
        if rem > 0 then do
          let h ← expectAdd m b.bids { o with qty := rem }
          .ok ({ b with bids := h }, some (hist, rem))
        else .ok (b, some (hist, rem))
      | none => .ok (b, none)

/-- `OrderBook::process_market_order` (mod.rs 359-367). -/
def processMarket (m : Mode) (b : OrderBook) (o : MarketOrder) :
    Res (OrderBook × Option (History × Nat)) :=
  match o.side with
  | .ask => do
    let (h, r) ← b.bids.tradeMarket m o
    .ok ({ b with bids := h }, r)
  | .bid => do
    let (h, r) ← b.asks.tradeMarket m o
    .ok ({ b with asks := h }, r)

/-- `OrderBook::modify_order` (mod.rs 225-268). -/
def modifyOrder (m : Mode) (b : OrderBook) (o : ModifyOrder) :
    Res (OrderBook × Option (History × Nat)) :=
  match b.asks.cache o.id with
  | some p =>
    if p = o.price then do
      let (h, _) ← b.asks.changeQuantity m o.id o.qty
      .ok ({ b with asks := h }, none)
    else do
      let (h, _) ← b.asks.cancelOrder m o.id
      processLimit m { b with asks := h } { id := o.id, price := o.price, qty := o.qty, side := .ask }
  | none =>
    match b.bids.cache o.id with
    | some p =>
      if p = o.price then do
        let (h, _) ← b.bids.changeQuantity m o.id o.qty
        .ok ({ b with bids := h }, none)
      else do
        let (h, _) ← b.bids.cancelOrder m o.id
        processLimit m { b with bids := h } { id := o.id, price := o.price, qty := o.qty, side := .bid }
    | none => .ok (b, none)

/-- `OrderBook::update_from_quote_snapshot` / `update_from_trade_quote_snapshot` (mod.rs 120-128,
131-140): same body. Inner `Except.error ()` = returned `Err`. -/
def updateFromSnapshot (m : Mode) (b : OrderBook) (inst : Nat)
    (askS bidS : List LevelSnapshot) : Res (OrderBook × Except Unit Unit) :=
  if b.inst ≠ inst then .ok (b, .error ())
  else do
    let (a, c, r) ← b.asks.updateSnapshot m askS b.ctr
    let b := { b with asks := a, ctr := c }
    match r with
    | .error _ => .ok (b, .error ())
    | .ok _ => do
      let (d, c, r) ← b.bids.updateSnapshot m bidS b.ctr
      .ok ({ b with bids := d, ctr := c }, r)

/-- `OrderBook::decomposed_orders_with_update` (mod.rs 67-95): the emitted orders, asks first; the
timestamp and id stamped on each are constant per call and left out. -/
def decompose (m : Mode) (b : OrderBook) (askS bidS : List LevelSnapshot) :
    Res (OrderBook × Except Unit (List DecOrder)) := do
  let (a, c, r) ← b.asks.decompose m askS b.ctr
  let b := { b with asks := a, ctr := c }
  match r with
  | .error _ => .ok (b, .error ())
  | .ok xs => do
    let (d, c, r) ← b.bids.decompose m bidS b.ctr
    let b := { b with bids := d, ctr := c }
    match r with
    | .error _ => .ok (b, .error ())
    | .ok ys => .ok (b, .ok (xs ++ ys))

end OrderBook
end Verif.TE

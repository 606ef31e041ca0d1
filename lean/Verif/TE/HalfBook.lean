import Verif.TE.Level
/-!
# Model of `trading-engine/src/orderbook/half_book.rs`

`levels : BTreeMap<i64, Level>` is a list of `(price, level)` with ascending keys (iteration order of
the BTreeMap); `cache : FxHashMap<u64, i64>` is a function.
-/
namespace Verif.TE
open Verif

/-- `BookPrice::MAX` = `i64::MAX`. -/
def I64MAX : Int := 2 ^ 63 - 1
/-- `BookPrice::MIN` = `i64::MIN`. -/
def I64MIN : Int := -(2 ^ 63)

/-! ## BTreeMap operations -/
namespace BMap

/-- `BTreeMap::get`. -/
def get {α : Type} (p : Int) : List (Int × α) → Option α
  | [] => none
  | (k, v) :: rest => if k = p then some v else get p rest

/-- `BTreeMap::insert` (also models writing back through `get_mut`): replace, or insert in key order. -/
def insert {α : Type} (p : Int) (x : α) : List (Int × α) → List (Int × α)
  | [] => [(p, x)]
  | (k, v) :: rest =>
    if p < k then (p, x) :: (k, v) :: rest
    else if k = p then (p, x) :: rest
    else (k, v) :: insert p x rest

/-- `BTreeMap::remove`. -/
def erase {α : Type} (p : Int) (m : List (Int × α)) : List (Int × α) :=
  m.filter (fun e => e.1 ≠ p)

end BMap

/-- `HashMap::insert`. -/
def cacheSet (c : Nat → Option Int) (id : Nat) (p : Int) : Nat → Option Int :=
  fun k => if k = id then some p else c k

/-- `HashMap::remove`. -/
def cacheErase (c : Nat → Option Int) (id : Nat) : Nat → Option Int :=
  fun k => if k = id then none else c k

/-- `HalfBook` (half_book.rs 23-31). -/
structure HalfBook where
  side : Side
  levels : List (Int × Level)
  cache : Nat → Option Int
  best : Int
  total : Nat

/-- The `(price, quantity)` entries of a `TradeHistory` (types/base.rs): pushed in order. -/
abbrev History := List (Int × Nat)

/-- `LevelSnapshot` restricted to the fields the book reads (types/base.rs): book_price, book_quantity. -/
structure LevelSnapshot where
  price : Int
  qty : Nat
  deriving DecidableEq, Repr

/-- The two kinds of `OrderEnum` (data/order.rs 108-115) emitted by the decomposition. -/
inductive DecOrder
  | limit (o : LimitOrder)
  | removeAny (o : RemoveAnyOrder)
  deriving DecidableEq, Repr

namespace HalfBook

/-- The sentinel best price of an empty side (half_book.rs 261-265, 303-307, 330-334). -/
def sentinel : Side → Int
  | .ask => I64MAX
  | .bid => I64MIN

/-- `HalfBook::initialize` (half_book.rs 260-273). -/
def init (s : Side) : HalfBook :=
  { side := s, levels := [], cache := fun _ => none, best := sentinel s, total := 0 }

/-- `HalfBook::initialize_with_limit_order` (half_book.rs 276-290). -/
def initWithLimitOrder (o : LimitOrder) : HalfBook :=
  { side := o.side, levels := [(o.price, Level.initWithOrder o)],
    cache := cacheSet (fun _ => none) o.id o.price, best := o.price, total := o.qty }

/-- `HalfBook::eq_level` (half_book.rs 35-47): total equal, and every level of `self` found in `other`
with the same quantity. -/
def eqLevel (a b : HalfBook) : Bool :=
  (a.total == b.total) &&
    a.levels.all (fun (p, l) => match BMap.get p b.levels with
      | some l' => l.total == l'.total
      | none => false)

/-- `HalfBook::to_level_snapshot` (half_book.rs 50-54), price and quantity fields. -/
def toSnapshot (h : HalfBook) : List LevelSnapshot :=
  h.levels.map (fun (_, l) => { price := l.price, qty := l.total })

/-- `HalfBook::clear` (half_book.rs 299-308). -/
def clear (h : HalfBook) : HalfBook :=
  { h with levels := [], cache := fun _ => none, total := 0, best := sentinel h.side }

/-- `HalfBook::update_best_price` (half_book.rs 316-325). -/
def updateBest (h : HalfBook) (p : Int) : HalfBook :=
  match h.side with
  | .ask => { h with best := min h.best p }
  | .bid => { h with best := max h.best p }

/-- First (ask) or last (bid) key, sentinel when empty (half_book.rs 328-342). -/
def bestOf (s : Side) (levels : List (Int × Level)) : Int :=
  match s with
  | .ask => match levels.head? with
    | none => sentinel .ask
    | some e => e.1
  | .bid => match levels.getLast? with
    | none => sentinel .bid
    | some e => e.1

/-- `HalfBook::reinitialize_best_price` (half_book.rs 328-342). -/
def reinitBest (h : HalfBook) : HalfBook := { h with best := bestOf h.side h.levels }

/-- `HalfBook::get_order` (half_book.rs 233-238): both `unwrap`s can panic. -/
def getOrder (h : HalfBook) (id : Nat) : Res (Option LimitOrder) :=
  match h.cache id with
  | none => .ok none
  | some p =>
    match BMap.get p h.levels with
    | none => .error .unwrapNone
    | some l =>
      match l.getOrder id h.side with
      | none => .error .unwrapNone
      | some o => .ok (some o)

/-- `HalfBook::get_price` (half_book.rs 470-472). -/
def getPrice (h : HalfBook) (id : Nat) : Option Int := h.cache id

/-- `HalfBook::aggregate_quantity_at_price` (half_book.rs 557-559). -/
def aggregateAt (h : HalfBook) (p : Int) : Nat :=
  match BMap.get p h.levels with
  | some l => l.total
  | none => 0

/-- `HalfBook::aggregate_quantity` / `get_total_quantity` (half_book.rs 563-565, 58-60). -/
def aggregate (h : HalfBook) : Nat := h.total

/-- `HalfBook::check_validity_quantity` (half_book.rs 753-759); the accumulation is in u64. -/
def checkValidity (m : Mode) (h : HalfBook) : Res Bool := do
  let s ← h.levels.foldlM (fun acc e => addU m acc e.2.total) 0
  .ok (s == h.total)

/-- `HalfBook::add_limit_order` (half_book.rs 345-369). Inner `Except.error ()` = returned `Err`. -/
def addLimitOrder (m : Mode) (h : HalfBook) (o : LimitOrder) : Res (HalfBook × Except Unit Unit) :=
  if o.side ≠ h.side then .ok (h, .error ())
  else
    let h := h.updateBest o.price
    let h := { h with cache := cacheSet h.cache o.id o.price }
    match BMap.get o.price h.levels with
    | some l => do
      let t ← addU m h.total o.qty
      let (l', r) ← l.addLimitOrder m o
      .ok ({ h with total := t, levels := BMap.insert o.price l' h.levels }, r)
    | none => do
      let t ← addU m h.total o.qty
      .ok ({ h with total := t, levels := BMap.insert o.price (Level.initWithOrder o) h.levels }, .ok ())

/-- The `while remaining > 0` loop of `remove_order` (half_book.rs 381-405) on the reversed queue (so the
head is `back_mut()`).  State: reversed queue, remaining, level total, book total, cache.
A zero-quantity order at the back is not popped (line 402) while `remaining` stays positive: the state
repeats forever, modelled as `Fault.diverges`. -/
def removeLoop (m : Mode) : List (Nat × Nat) → Nat → Nat → Nat → (Nat → Option Int) →
    Res (List (Nat × Nat) × Nat × Nat × Nat × (Nat → Option Int))
  | [], rem, lt, bt, c => .ok ([], rem, lt, bt, c)
  | (id, q) :: rest, rem, lt, bt, c =>
    if rem = 0 then .ok ((id, q) :: rest, rem, lt, bt, c)
    else if q ≤ rem then do
      let bt' ← subU m bt q
      let lt' ← subU m lt q
      if q = 0 then .error .diverges
      else removeLoop m rest (rem - q) lt' bt' (cacheErase c id)
    else do
      let lt' ← subU m lt rem
      let bt' ← subU m bt rem
      .ok ((id, q - rem) :: rest, 0, lt', bt', c)

/-- `HalfBook::remove_order` (half_book.rs 373-419). -/
def removeOrder (m : Mode) (h : HalfBook) (o : RemoveAnyOrder) : Res (HalfBook × Option Nat) :=
  if h.side ≠ o.side then .ok (h, none)
  else match BMap.get o.price h.levels with
    | none => .ok (h, some o.qty)
    | some l => do
      let (rev, rem, lt, bt, c) ← removeLoop m l.orders.reverse o.qty l.total h.total h.cache
      let l' := { l with orders := rev.reverse, total := lt }
      let h' := { h with cache := c, total := bt, levels := BMap.insert o.price l' h.levels }
      if l'.orders.isEmpty then
        .ok (reinitBest { h' with levels := BMap.erase o.price h'.levels }, some rem)
      else .ok (h', some rem)

/-- `HalfBook::cancel_order` (half_book.rs 425-467). -/
def cancelOrder (m : Mode) (h : HalfBook) (id : Nat) : Res (HalfBook × Option Unit) :=
  match h.cache id with
  | none => .ok (h, none)
  | some p =>
    let h := { h with cache := cacheErase h.cache id }
    match BMap.get p h.levels with
    | none => .ok (h, none)
    | some l => do
      let (l', r) ← l.cancelOrder m id
      match r with
      | none => .ok (h, none)
      | some (removed, remained) => do
        let t ← subU m h.total removed
        if remained = 0 then
          let h' := { h with total := t, levels := BMap.erase p h.levels }
          if p = h.best then .ok (reinitBest h', some ())
          else .ok (h', some ())
        else .ok ({ h with total := t, levels := BMap.insert p l' h.levels }, some ())

/-- `HalfBook::change_price` (half_book.rs 476-515). The cache entry is overwritten first (line 484). -/
def changePrice (m : Mode) (h : HalfBook) (id : Nat) (newP : Int) : Res (HalfBook × Option Unit) :=
  match h.cache id with
  | none => .ok (h, none)
  | some p =>
    let h := { h with cache := cacheSet h.cache id newP }
    match BMap.get p h.levels with
    | none => .ok (h, none)
    | some l => do
      let (l', r) ← l.cancelOrder m id
      match r with
      | none => .ok (h, none)
      | some (removed, remained) => do
        let t ← subU m h.total removed
        let h1 := if remained = 0 then { h with total := t, levels := BMap.erase p h.levels }
                  else { h with total := t, levels := BMap.insert p l' h.levels }
        let (h2, res) ← addLimitOrder m h1 { id := id, price := newP, qty := removed, side := h1.side }
        match res with
        | .error _ => .error .unwrapNone
        | .ok _ => .ok (reinitBest h2, some ())

/-- `HalfBook::change_quantity` (half_book.rs 518-553). When the level total becomes 0 the level is
removed but the cache entry stays. -/
def changeQuantity (m : Mode) (h : HalfBook) (id newQ : Nat) : Res (HalfBook × Option Unit) :=
  match h.cache id with
  | none => .ok (h, none)
  | some p =>
    match BMap.get p h.levels with
    | none => .ok (h, none)
    | some l => do
      let (l', r) ← l.changeQuantity m id newQ
      match r with
      | none => .ok (h, none)
      | some old => do
        let t1 ← subU m h.total old
        let t2 ← addU m t1 newQ
        if l'.total = 0 then
          let h' := { h with total := t2, levels := BMap.erase p h.levels }
          if p = h.best then .ok (reinitBest h', some ())
          else .ok (h', some ())
        else .ok ({ h with total := t2, levels := BMap.insert p l' h.levels }, some ())

/-- Accumulator of the trade loops: `remaining`, `remove_prices`, `remove_ids`, `traded_res` and the
book's `total_quantity`. -/
structure TradeAcc where
  rem : Nat
  rmPrices : List Int
  rmIds : List Nat
  hist : History
  total : Nat

/-- `ask_trade_market_order` loop (half_book.rs 600-624) over the levels in iteration order; returns the
updated levels in the same order. -/
def askMarketLoop (m : Mode) : List (Int × Level) → TradeAcc → Res (List (Int × Level) × TradeAcc)
  | [], a => .ok ([], a)
  | (p, l) :: rest, a => do
    let (l', ids, rem) ← l.trade m a.rem
    let traded := a.rem - rem   -- saturating_sub
    let hist := if traded > 0 then a.hist ++ [(p, traded)] else a.hist
    let total ← if traded > 0 then subU m a.total traded else .ok a.total
    let rmPrices := if l'.total = 0 then a.rmPrices ++ [p] else a.rmPrices
    let a' : TradeAcc := ⟨rem, rmPrices, a.rmIds ++ ids, hist, total⟩
    if rem = 0 then .ok ((p, l') :: rest, a')
    else do
      let (rest', a'') ← askMarketLoop m rest a'
      .ok ((p, l') :: rest', a'')

/-- `bid_trade_market_order` loop (half_book.rs 627-652), levels given in reverse order. Line 641
decrements the level total a second time; `level_rem` (line 644) was read before that. -/
def bidMarketLoop (m : Mode) : List (Int × Level) → TradeAcc → Res (List (Int × Level) × TradeAcc)
  | [], a => .ok ([], a)
  | (p, l) :: rest, a => do
    let (l', ids, rem) ← l.trade m a.rem
    let levelRem := l'.total
    let traded := a.rem - rem
    let hist := if traded > 0 then a.hist ++ [(p, traded)] else a.hist
    let total ← if traded > 0 then subU m a.total traded else .ok a.total
    let lt ← if traded > 0 then subU m l'.total traded else .ok l'.total
    let l'' := { l' with total := lt }
    let rmPrices := if levelRem = 0 then a.rmPrices ++ [p] else a.rmPrices
    let a' : TradeAcc := ⟨rem, rmPrices, a.rmIds ++ ids, hist, total⟩
    if rem = 0 then .ok ((p, l'') :: rest, a')
    else do
      let (rest', a'') ← bidMarketLoop m rest a'
      .ok ((p, l'') :: rest', a'')

/-- `ask_trade_limit_order` loop (half_book.rs 655-681). -/
def askLimitLoop (m : Mode) (limit : Int) : List (Int × Level) → TradeAcc →
    Res (List (Int × Level) × TradeAcc)
  | [], a => .ok ([], a)
  | (p, l) :: rest, a =>
    if p > limit ∨ a.rem = 0 then .ok ((p, l) :: rest, a)
    else do
      let (l', ids, rem) ← l.trade m a.rem
      let traded := a.rem - rem
      let hist := if traded > 0 then a.hist ++ [(p, traded)] else a.hist
      let total ← if traded > 0 then subU m a.total traded else .ok a.total
      let rmPrices := if l'.total = 0 then a.rmPrices ++ [p] else a.rmPrices
      let (rest', a'') ← askLimitLoop m limit rest ⟨rem, rmPrices, a.rmIds ++ ids, hist, total⟩
      .ok ((p, l') :: rest', a'')

/-- `bid_trade_limit_order` loop (half_book.rs 684-710), levels given in reverse order. -/
def bidLimitLoop (m : Mode) (limit : Int) : List (Int × Level) → TradeAcc →
    Res (List (Int × Level) × TradeAcc)
  | [], a => .ok ([], a)
  | (p, l) :: rest, a =>
    if p < limit ∨ a.rem = 0 then .ok ((p, l) :: rest, a)
    else do
      let (l', ids, rem) ← l.trade m a.rem
      let traded := a.rem - rem
      let hist := if traded > 0 then a.hist ++ [(p, traded)] else a.hist
      let total ← if traded > 0 then subU m a.total traded else .ok a.total
      let rmPrices := if l'.total = 0 then a.rmPrices ++ [p] else a.rmPrices
      let (rest', a'') ← bidLimitLoop m limit rest ⟨rem, rmPrices, a.rmIds ++ ids, hist, total⟩
      .ok ((p, l') :: rest', a'')

/-- `cleanup_after_trade` (half_book.rs 712-720). -/
def cleanup (h : HalfBook) (prices : List Int) (ids : List Nat) : HalfBook :=
  reinitBest { h with
    cache := ids.foldl cacheErase h.cache
    levels := prices.foldl (fun ls p => BMap.erase p ls) h.levels }

/-- `HalfBook::trade_market_order` (half_book.rs 573-592). -/
def tradeMarket (m : Mode) (h : HalfBook) (o : MarketOrder) :
    Res (HalfBook × Option (History × Nat)) :=
  if h.levels.isEmpty ∨ o.side = h.side then .ok (h, none)
  else
    let a0 : TradeAcc := ⟨o.qty, [], [], [], h.total⟩
    match h.side with
    | .ask => do
      let (ls, a) ← askMarketLoop m h.levels a0
      .ok (cleanup { h with levels := ls, total := a.total } a.rmPrices a.rmIds, some (a.hist, a.rem))
    | .bid => do
      let (ls, a) ← bidMarketLoop m h.levels.reverse a0
      .ok (cleanup { h with levels := ls.reverse, total := a.total } a.rmPrices a.rmIds,
        some (a.hist, a.rem))

/-- `HalfBook::trade_limit_order` (half_book.rs 729-750). -/
def tradeLimit (m : Mode) (h : HalfBook) (o : LimitOrder) :
    Res (HalfBook × Option (History × Nat)) :=
  if h.side = o.side ∨ h.levels.isEmpty ∨ (h.side = .ask ∧ o.price < h.best) ∨
      (h.side = .bid ∧ o.price > h.best) then .ok (h, none)
  else
    let a0 : TradeAcc := ⟨o.qty, [], [], [], h.total⟩
    match h.side with
    | .ask => do
      let (ls, a) ← askLimitLoop m o.price h.levels a0
      .ok (cleanup { h with levels := ls, total := a.total } a.rmPrices a.rmIds, some (a.hist, a.rem))
    | .bid => do
      let (ls, a) ← bidLimitLoop m o.price h.levels.reverse a0
      .ok (cleanup { h with levels := ls.reverse, total := a.total } a.rmPrices a.rmIds,
        some (a.hist, a.rem))

/-- `HalfBook::remove_level` (half_book.rs 62-77). -/
def removeLevel (m : Mode) (h : HalfBook) (p : Int) : Res HalfBook := do
  let (c, lt) := match BMap.get p h.levels with
    | some l => ((l.orders.map (·.1)).foldl cacheErase h.cache, l.total)
    | none => (h.cache, 0)
  let t ← subU m h.total lt
  let h' := { h with cache := c, total := t, levels := BMap.erase p h.levels }
  if p = h'.best then .ok (reinitBest h') else .ok h'

/-- Replace the quantity of the back order (half_book.rs 107-112); returns the old quantity. -/
def setBack (q : Nat) (orders : List (Nat × Nat)) : Option (Nat × List (Nat × Nat)) :=
  match orders.getLast? with
  | none => none
  | some (id, old) => some (old, orders.dropLast ++ [(id, q)])

/-- Body of the snapshot loop (half_book.rs 101-124). `Except.error ()` = returned `Err` (line 113).
`ctr` is the `VirtualOrderId` counter (types/base.rs: post-increment). -/
def snapStep (m : Mode) (h : HalfBook) (ctr : Nat) (s : LevelSnapshot) :
    Res (HalfBook × Nat × Except Unit Unit) :=
  match BMap.get s.price h.levels with
  | some l =>
    match setBack s.qty l.orders with
    | some (old, orders) => do
      let t1 ← addU m h.total s.qty
      let t2 ← subU m t1 old
      let l' := { l with total := s.qty, orders := orders }
      .ok ({ h with total := t2, levels := BMap.insert s.price l' h.levels }, ctr, .ok ())
    | none => .ok (h, ctr, .error ())
  | none => do
    let l : Level := { price := s.price, orders := [(ctr, s.qty)], total := s.qty }
    let ctr' ← addU m ctr 1
    let t ← addU m h.total s.qty
    .ok ({ h with levels := BMap.insert s.price l h.levels,
                  cache := cacheSet h.cache ctr s.price, total := t }, ctr', .ok ())

/-- The loop over the snapshot levels (half_book.rs 101-124), stopping at the first `Err`. -/
def snapLoop (m : Mode) : List LevelSnapshot → HalfBook → Nat →
    Res (HalfBook × Nat × Except Unit Unit)
  | [], h, ctr => .ok (h, ctr, .ok ())
  | s :: rest, h, ctr => do
    let (h', ctr', r) ← snapStep m h ctr s
    match r with
    | .error _ => .ok (h', ctr', .error ())
    | .ok _ => snapLoop m rest h' ctr'

/-- `HalfBook::update_l2_snapshot` (half_book.rs 83-129). -/
def updateSnapshot (m : Mode) (h : HalfBook) (snap : List LevelSnapshot) (ctr : Nat) :
    Res (HalfBook × Nat × Except Unit Unit) := do
  let prices := snap.map (·.price)
  let toRemove := (h.levels.map (·.1)).filter (fun p => !prices.contains p)
  let h1 ← toRemove.foldlM (fun h p => removeLevel m h p) h
  let (h2, ctr', r) ← snapLoop m snap h1 ctr
  match r with
  | .error _ => .ok (h2, ctr', .error ())
  | .ok _ => .ok (reinitBest h2, ctr', .ok ())

/-- First loop of `decomposed_orders_with_update` (half_book.rs 137-175). -/
def decompLoop (m : Mode) (h : HalfBook) : List LevelSnapshot → Nat → Res (List DecOrder × Nat)
  | [], ctr => .ok ([], ctr)
  | s :: rest, ctr =>
    match BMap.get s.price h.levels with
    | some l =>
      if l.total > s.qty then do
        let (os, c) ← decompLoop m h rest ctr
        .ok (.removeAny ⟨s.price, l.total - s.qty, h.side⟩ :: os, c)
      else if l.total < s.qty then do
        let ctr' ← addU m ctr 1
        let (os, c) ← decompLoop m h rest ctr'
        .ok (.limit ⟨s.price, s.qty - l.total, h.side, ctr⟩ :: os, c)
      else decompLoop m h rest ctr
    | none => do
      let ctr' ← addU m ctr 1
      let (os, c) ← decompLoop m h rest ctr'
      .ok (.limit ⟨s.price, s.qty, h.side, ctr⟩ :: os, c)

/-- Second loop (half_book.rs 177-189): removals for prices that disappeared. -/
def decompGone (h : HalfBook) (snap : List LevelSnapshot) : List DecOrder :=
  h.levels.filterMap (fun (p, l) =>
    if (snap.map (·.price)).contains p then none
    else some (.removeAny ⟨p, l.total, h.side⟩))

/-- Applying one emitted order (half_book.rs 191-199). -/
def applyDec (m : Mode) (h : HalfBook) (o : DecOrder) : Res (HalfBook × Except Unit Unit) :=
  match o with
  | .limit o => h.addLimitOrder m o
  | .removeAny o => do
    let (h', _) ← h.removeOrder m o
    .ok (h', .ok ())

/-- Applying all emitted orders, stopping at the first `Err` (half_book.rs 190-200). -/
def applyDecs (m : Mode) : List DecOrder → HalfBook → Res (HalfBook × Except Unit Unit)
  | [], h => .ok (h, .ok ())
  | o :: rest, h => do
    let (h', r) ← h.applyDec m o
    match r with
    | .error _ => .ok (h', .error ())
    | .ok _ => applyDecs m rest h'

/-- `HalfBook::decomposed_orders_with_update` (half_book.rs 131-204). -/
def decompose (m : Mode) (h : HalfBook) (snap : List LevelSnapshot) (ctr : Nat) :
    Res (HalfBook × Nat × Except Unit (List DecOrder)) := do
  let (os, ctr') ← decompLoop m h snap ctr
  let all := os ++ decompGone h snap
  let (h', r) ← applyDecs m all h
  match r with
  | .error _ => .ok (h', ctr', .error ())
  | .ok _ => .ok (h', ctr', .ok all)

end HalfBook
end Verif.TE

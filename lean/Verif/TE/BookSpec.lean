/-!
# Specification of a limit order book, independent of the code

A side of the book is one queue of resting orders in priority order (best price first, then arrival
time).  Everything a user observes is a function of the two queues.  This file does not import the model.
-/
namespace Verif.Spec

/-- A resting order. -/
structure Resting where
  id : Nat
  price : Int
  qty : Nat
  deriving DecidableEq, Repr

/-- Which side a queue belongs to: sellers (asks) or buyers (bids). -/
inductive BookSide
  | sell
  | buy
  deriving DecidableEq, Repr

/-- `better s p p'`: price `p` has strictly higher priority than `p'` on side `s`:
lower for sellers, higher for buyers. -/
def better : BookSide → Int → Int → Prop
  | .sell, p, p' => p < p'
  | .buy, p, p' => p' < p

instance (s : BookSide) (p p' : Int) : Decidable (better s p p') := by
  cases s <;> unfold better <;> infer_instance

/-- A new order rests behind every order whose price is as good or better. -/
def rest (s : BookSide) (o : Resting) : List Resting → List Resting
  | [] => [o]
  | x :: xs => if better s o.price x.price then o :: x :: xs else x :: rest s o xs

/-- Is a price `p` resting on side `s` acceptable to an incoming order with limit price `limit`? -/
def acceptable (s : BookSide) (limit p : Int) : Bool :=
  match s with
  | .sell => decide (p ≤ limit)
  | .buy => decide (limit ≤ p)

/-- One execution against a resting order. -/
structure Fill where
  id : Nat
  price : Int
  qty : Nat
  deriving DecidableEq, Repr

/-- Outcome of sweeping a queue: the executions in order, the unfilled quantity, the remaining queue. -/
structure Sweep where
  fills : List Fill
  rem : Nat
  queue : List Resting
  deriving DecidableEq, Repr

/-- Execute quantity `q` against the queue front to back while the front price is acceptable:
a front order larger than what is left is reduced in place, otherwise it is consumed completely. -/
def sweep (ok : Int → Bool) (q : Nat) : List Resting → Sweep
  | [] => ⟨[], q, []⟩
  | x :: xs =>
    if q = 0 || !ok x.price then ⟨[], q, x :: xs⟩
    else if q < x.qty then ⟨[⟨x.id, x.price, q⟩], 0, { x with qty := x.qty - q } :: xs⟩
    else
      let r := sweep ok (q - x.qty) xs
      ⟨⟨x.id, x.price, x.qty⟩ :: r.fills, r.rem, r.queue⟩

/-- The public trade history: consecutive fills at one price are reported as one entry. -/
def report : List Fill → List (Int × Nat)
  | [] => []
  | f :: fs =>
    match report fs with
    | [] => [(f.price, f.qty)]
    | (p, q) :: rest => if f.price = p then (p, f.qty + q) :: rest else (f.price, f.qty) :: (p, q) :: rest

/-- Total quantity of a queue. -/
def volume (l : List Resting) : Nat := (l.map (·.qty)).sum

/-- Total quantity at a price. -/
def volumeAt (p : Int) (l : List Resting) : Nat := volume (l.filter (·.price = p))

/-- The order with a given id. -/
def find (id : Nat) (l : List Resting) : Option Resting := l.find? (·.id = id)

/-- Cancel: the order disappears, all others stay where they are. -/
def cancel (id : Nat) (l : List Resting) : List Resting := l.filter (·.id ≠ id)

/-- Change of quantity in place. -/
def setQty (id q : Nat) (l : List Resting) : List Resting :=
  l.map (fun o => if o.id = id then { o with qty := q } else o)

/-- Remove `q` units from the newest orders of a list that holds the orders newest-first. -/
def takeNewest (q : Nat) : List Resting → List Resting
  | [] => []
  | x :: xs => if q < x.qty then { x with qty := x.qty - q } :: xs else takeNewest (q - x.qty) xs

/-- Remove up to `q` units at price `p`, newest orders first. -/
def removeAt (p : Int) (q : Nat) (l : List Resting) : List Resting :=
  let before := l.takeWhile (·.price ≠ p)
  let at_ := l.filter (·.price = p)
  let after := (l.dropWhile (·.price ≠ p)).filter (·.price ≠ p)
  before ++ (takeNewest q at_.reverse).reverse ++ after

/-- Best price of a priority queue. -/
def bestPrice (l : List Resting) : Option Int := l.head?.map (·.price)

/-! ## The whole book -/

/-- Both queues of a book. -/
structure Book where
  sells : List Resting
  buys : List Resting
  deriving DecidableEq, Repr

/-- What a client can ask for. Sides: `sell` = the client sells. -/
inductive Cmd
  /-- put an order on its side without matching -/
  | add (s : BookSide) (o : Resting)
  /-- match, then rest the remainder -/
  | limit (s : BookSide) (o : Resting)
  /-- match at any price, drop the remainder -/
  | market (s : BookSide) (q : Nat)
  | cancel (id : Nat)
  | modify (id : Nat) (price : Int) (q : Nat)
  | changeQty (id q : Nat)
  | changePrice (id : Nat) (price : Int)
  /-- shrink a price level from the back -/
  | remove (s : BookSide) (price : Int) (q : Nat)
  deriving DecidableEq, Repr

/-- What the client is told. -/
inductive Out
  | done
  /-- was there an order with that id? -/
  | found (b : Bool)
  /-- nothing traded, or the trades per price and the untraded quantity -/
  | trade (r : Option (List (Int × Nat) × Nat))
  /-- quantity that was not there to remove -/
  | left (q : Nat)
  deriving DecidableEq, Repr

/-- Quantity a command can add to the book. -/
def Cmd.budget : Cmd → Nat
  | .add _ o | .limit _ o => o.qty
  | .changeQty _ q | .modify _ _ q => q
  | _ => 0

/-- Ids a command introduces. -/
def Cmd.newIds : Cmd → List Nat
  | .add _ o | .limit _ o => [o.id]
  | _ => []

/-- Commands that match or only take away (`add` and `changePrice` place an order without matching). -/
def Cmd.isMatching : Cmd → Prop
  | .add _ _ | .changePrice _ _ => False
  | _ => True

namespace Book

/-- Client on side `s` trades against the other side. -/
def opposite (b : Book) : BookSide → List Resting
  | .sell => b.buys
  | .buy => b.sells

/-- Own side queue. -/
def own (b : Book) : BookSide → List Resting
  | .sell => b.sells
  | .buy => b.buys

/-- Book from own and opposite queue of side `s`. -/
def ofSides (s : BookSide) (own opp : List Resting) : Book :=
  match s with
  | .sell => ⟨own, opp⟩
  | .buy => ⟨opp, own⟩

/-- The other side. -/
def _root_.Verif.Spec.BookSide.flip : BookSide → BookSide
  | .sell => .buy
  | .buy => .sell

/-- A limit order: sweep the opposite queue while prices are acceptable, rest what is left. -/
def submit (b : Book) (s : BookSide) (o : Resting) : Book × Option (List (Int × Nat) × Nat) :=
  let r := sweep (acceptable s.flip o.price) o.qty (b.opposite s)
  let own := if r.rem = 0 then b.own s else rest s { o with qty := r.rem } (b.own s)
  (ofSides s own r.queue, if r.fills = [] then none else some (report r.fills, r.rem))

/-- A market order: sweep the opposite queue at any price. -/
def market (b : Book) (s : BookSide) (q : Nat) : Book × Option (List (Int × Nat) × Nat) :=
  let r := sweep (fun _ => true) q (b.opposite s)
  (ofSides s (b.own s) r.queue, if b.opposite s = [] then none else some (report r.fills, r.rem))

/-- Cancel by id. -/
def cancel (b : Book) (id : Nat) : Book := ⟨Spec.cancel id b.sells, Spec.cancel id b.buys⟩

/-- Side and data of the order with the given id. -/
def locate (b : Book) (id : Nat) : Option (BookSide × Resting) :=
  match find id b.sells with
  | some x => some (.sell, x)
  | none => (find id b.buys).map (fun x => (.buy, x))

/-- One command. -/
def step (b : Book) : Cmd → Book × Out
  | .add s o => (ofSides s (rest s o (b.own s)) (b.opposite s), .done)
  | .limit s o => ((b.submit s o).1, .trade (b.submit s o).2)
  | .market s q => ((b.market s q).1, .trade (b.market s q).2)
  | .cancel id => (b.cancel id, .found (b.locate id).isSome)
  | .changeQty id q => (⟨setQty id q b.sells, setQty id q b.buys⟩, .found (b.locate id).isSome)
  | .changePrice id p =>
    match b.locate id with
    | none => (b, .found false)
    | some (s, x) =>
      (ofSides s (rest s { x with price := p } (Spec.cancel id (b.own s))) (b.opposite s), .found true)
  | .modify id p q =>
    match b.locate id with
    | none => (b, .trade none)
    | some (s, x) =>
      if x.price = p then (⟨setQty id q b.sells, setQty id q b.buys⟩, .trade none)
      else (((b.cancel id).submit s ⟨id, p, q⟩).1, .trade ((b.cancel id).submit s ⟨id, p, q⟩).2)
  | .remove s p q => (ofSides s (removeAt p q (b.own s)) (b.opposite s), .left (q - volumeAt p (b.own s)))

/-- Run a list of commands. -/
def run (b : Book) : List Cmd → Book × List Out
  | [] => (b, [])
  | c :: cs => ((run (b.step c).1 cs).1, (b.step c).2 :: (run (b.step c).1 cs).2)

/-- Every buyer's price is below every seller's price. -/
def Uncrossed (b : Book) : Prop := ∀ x ∈ b.sells, ∀ y ∈ b.buys, y.price < x.price

/-- Some order of the book carries this id. -/
def HasId (b : Book) (id : Nat) : Prop := ∃ x ∈ b.sells ++ b.buys, x.id = id

end Book
end Verif.Spec

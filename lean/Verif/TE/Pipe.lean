import Verif.TE.Krx
import Verif.TE.OrderBook
/-!
# From messages to the order book

A client of `trading-engine`: messages are parsed (`data/krx/*.rs`) and the book of one instrument is updated from the
snapshots (`orderbook/mod.rs` 101-140), as the test in orderbook/mod.rs 501-535 does with one snapshot. The calls are
those of the library; the loop around them is the client's.
-/
set_option autoImplicit false
namespace Verif.TE.Pipe
open Verif Verif.TE Verif.TE.Num Verif.TE.Clock Verif.TE.Id Verif.TE.Krx

/-- What the book reads of a level (half_book.rs 83-129): price and quantity. -/
def bookLevels (l : List Krx.Level) : List LevelSnapshot := l.map fun x => ⟨x.price, x.qty⟩

/-- The table of identifiers, the generator of dates and the book. -/
structure Desk where
  cache : Cache
  gen : Gen
  book : OrderBook

/-- `OrderBook::initialize_with_id(InstId::new(..))` (orderbook/mod.rs 179-188, types/id/mod.rs 87-92). -/
def openDesk (c : Cache) (g : Gen) (d : IdData) : Desk :=
  let (a, c) := c.intern d
  ⟨c, g, OrderBook.init a⟩

/-- What became of a message: the book took it, the book returned `Err`, or the parser did. -/
inductive Outcome
  | taken | rejected | refused
  deriving DecidableEq, Repr

/-- The identifier of the snapshot (`InstId::new`, called by the parsers, e.g. derivative_quote.rs 158-161), then
`update_from_quote_snapshot` (orderbook/mod.rs 120-128) or `update_from_trade_quote_snapshot` (131-140). Both pass the
whole vectors `ask_quote_data` and `bid_quote_data` to the sides, whatever `quote_level_cut` is. -/
def present (m : Mode) (d : Desk) (id : IdData) (ask bid : List Krx.Level) : Res (Desk × Outcome) := do
  let (a, c) := d.cache.intern id
  let (b, r) ← d.book.updateFromSnapshot m a (bookLevels ask) (bookLevels bid)
  .ok ({ d with cache := c, book := b }, match r with | .ok _ => .taken | .error _ => .rejected)

/-- The interface a message is parsed with. -/
inductive Kind
  | quote (q : QuoteMsg)
  | tradeQuote (q : TradeQuoteMsg) (want : Bool)

structure Packet where
  kind : Kind
  cut : Nat
  p : Slice
  sys : Nat

/-- The part of a snapshot that goes to the book, and the generator of dates, after `to_quote_snapshot` or
`to_trade_quote_snapshot`. -/
def Packet.parse (m : Mode) (k : Packet) (g : Gen) : Res ((IdData × List Krx.Level × List Krx.Level) × Gen) :=
  match k.kind with
  | .quote q => do
    let (s, g) ← q.parse m k.cut k.p k.sys g
    .ok ((s.id, s.ask, s.bid), g)
  | .tradeQuote q want => do
    let (s, g) ← q.parse m k.cut want k.p k.sys g
    .ok ((s.id, s.ask, s.bid), g)

/-- One message. An `Err` of the parser is skipped: it comes from the checks before the identifier is interned and the
clock is touched (checker.rs 18-44, isin_code.rs 18-35). -/
def step (m : Mode) (d : Desk) (k : Packet) : Res (Desk × Outcome) :=
  match k.parse m d.gen with
  | .error .err => .ok (d, .refused)
  | .error f => .error f
  | .ok ((id, ask, bid), g) => present m { d with gen := g } id ask bid

/-- The client's loop. -/
def feed (m : Mode) : List Packet → Desk → Res (Desk × List Outcome)
  | [], d => .ok (d, [])
  | k :: rest, d => do
    let (d, o) ← step m d k
    let (d, os) ← feed m rest d
    .ok (d, o :: os)

/-- The same with one buffer for all messages of one interface (`to_quote_snapshot_buffer`). -/
def stepInto (m : Mode) (q : QuoteMsg) (cut : Nat) (d : Desk) (buf : Quote) (p : Slice) (sys : Nat) :
    Res (Desk × Quote × Outcome) :=
  match q.parseInto m cut p sys d.gen buf with
  | .error .err => .ok (d, buf, .refused)
  | .error f => .error f
  | .ok (s, g) => do
    let (d, o) ← present m { d with gen := g } s.id s.ask s.bid
    .ok (d, s, o)

/-- The client's loop with a buffer. -/
def feedInto (m : Mode) (q : QuoteMsg) (cut : Nat) : List (Slice × Nat) → Desk → Quote → Res (Desk × Quote × List Outcome)
  | [], d, buf => .ok (d, buf, [])
  | (p, sys) :: rest, d, buf => do
    let (d, buf, o) ← stepInto m q cut d buf p sys
    let (d, buf, os) ← feedInto m q cut rest d buf
    .ok (d, buf, o :: os)

end Verif.TE.Pipe

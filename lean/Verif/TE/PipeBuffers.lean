import Verif.TE.Pipe
/-!
# A client with buffers

As `Verif.TE.Pipe`, for a client that parses every message into one of two buffers it keeps: one for quotes
(`to_quote_snapshot_buffer`), one for trades with quotes (`to_trade_quote_snapshot_buffer`). The number of levels to
read may differ from message to message.
-/
set_option autoImplicit false
namespace Verif.TE.Pipe
open Verif Verif.TE Verif.TE.Num Verif.TE.Clock Verif.TE.Id Verif.TE.Krx

/-- The table of identifiers, the generator of dates, the book, and the two buffers. -/
structure Client where
  desk : Desk
  quote : Quote
  tq : TradeQuote

/-- `to_quote_snapshot_buffer` (derivative_quote.rs 194-245, 444-492; stock_quote.rs 208-251, 445-486) or
`to_trade_quote_snapshot_buffer` (derivative_trade.rs 267-342, 604-676), with the buffer of the kind. -/
def Client.parseInto (m : Mode) (c : Client) (k : Packet) : Res ((IdData × List Krx.Level × List Krx.Level) × Client) :=
  match k.kind with
  | .quote q => do
    let (s, g) ← q.parseInto m k.cut k.p k.sys c.desk.gen c.quote
    .ok ((s.id, s.ask, s.bid), { c with desk := { c.desk with gen := g }, quote := s })
  | .tradeQuote q want => do
    let (s, g) ← q.parseInto m k.cut want k.p k.sys c.desk.gen c.tq
    .ok ((s.id, s.ask, s.bid), { c with desk := { c.desk with gen := g }, tq := s })

/-- One message (see `Pipe.step`): the book is updated from the buffer (orderbook/mod.rs 120-140). An `Err` of the parser
leaves buffer and clock alone (C154). -/
def Client.step (m : Mode) (c : Client) (k : Packet) : Res (Client × Outcome) :=
  match c.parseInto m k with
  | .error .err => .ok (c, .refused)
  | .error f => .error f
  | .ok ((id, ask, bid), c) => do
    let (d, o) ← present m c.desk id ask bid
    .ok ({ c with desk := d }, o)

/-- The client's loop. -/
def Client.run (m : Mode) : List Packet → Client → Res (Client × List Outcome)
  | [], c => .ok (c, [])
  | k :: rest, c => do
    let (c, o) ← c.step m k
    let (c, os) ← Client.run m rest c
    .ok (c, o :: os)

end Verif.TE.Pipe

import Verif.TE.Krx
import Verif.Act
/-!
# The KRX parsers into a buffer, write by write

The functions of `Verif.TE.Krx` that parse into a buffer drop the buffer and the clock with an error. Here the same functions are
modelled statement by statement on the buffer and the date generator, so that what is left in them after an error or after a
panic (caught by the caller) is part of the result. Assignments follow the order of the statements in the code.
-/
set_option autoImplicit false
namespace Verif.TE.Krx
open Verif Verif.TE.Num Verif.TE.Clock Verif.TE.Id

/-! ## The clock -/

/-- `increment` (timestamp.rs 117-121). -/
def incrementAct (m : Mode) (stamp : Nat) : Act Gen Unit := do
  let g ← look
  let d ← expr (addU m g.date DAY)
  assign fun g => { g with date := d }
  assign fun g => { g with update := stamp }

/-- The `while` loop of `parse_hhmmssuuuuuu` (numeric_converter.rs 569-585). -/
def dayLoopAct (m : Mode) (prev stamp : Nat) : Nat → Nat → Act Gen Nat
  | 0, _ => expr (.error .diverges)
  | fuel + 1, cur => do
    let lim ← expr (addU m FIFTEEN cur)
    if lim ≤ prev then do
      incrementAct m stamp
      let cur ← expr (addU m cur DAY)
      dayLoopAct m prev stamp fuel cur
    else expr (.ok cur)

/-- `parse_hhmmssuuuuuu` (numeric_converter.rs 556-590). -/
def stampAct (m : Mode) (offset : Nat) (v : Slice) (stamp : Nat) : Act Gen Nat := do
  let us ← expr (v.sub 6 12)
  let us ← expr (under8 m us 6)
  let us ← expr (mulW 64 m us 1000)
  let hms ← expr (v.sub 0 6)
  let hms ← expr (parseHhmmss m hms)
  let cur ← expr (addU m us hms)
  let cur ← expr (addU m cur offset)
  let g ← look
  let cur ← expr (addU m cur g.date)
  let cur ← dayLoopAct m g.prev stamp U64 cur
  assign fun g => { g with prev := cur }
  expr (.ok cur)

/-! ## The levels -/

/-- `ask_quote_data[i].field = ..` -/
def setAsk (i : Nat) (f : Level → Level) : Act (List Level × List Level) Unit := fun v =>
  if h : i < v.1.length then ((v.1.set i (f v.1[i]), v.2), .ok ()) else (v, .error .index)

/-- `bid_quote_data[i].field = ..` -/
def setBid (i : Nat) (f : Level → Level) : Act (List Level × List Level) Unit := fun v =>
  if h : i < v.2.length then ((v.1, v.2.set i (f v.2[i])), .ok ()) else (v, .error .index)

/-- One block of a macro `.._with_buffer` of unroll_macro.rs (2-297, 783-1026, 1326-1618): every field is written as soon as it is
read. -/
def blockAct (m : Mode) (b : Block) (c : OrderConv) (clip : Slice) (i : Nat) : Act (List Level × List Level) Unit := do
  let s ← expr (clip.sub 0 c.prLen)
  let x ← expr (b.price m c s)
  setAsk i fun l => { l with price := x }
  let m1 := c.prLen + c.prLen
  let s ← expr (clip.sub c.prLen m1)
  let x ← expr (b.price m c s)
  setBid i fun l => { l with price := x }
  let s ← expr (clip.sub m1 (m1 + c.qnLen))
  let x ← expr (c.qty.toU64Unchecked m s)
  setAsk i fun l => { l with qty := x }
  let m2 := m1 + c.qnLen
  let s ← expr (clip.sub m2 (m2 + c.qnLen))
  let x ← expr (c.qty.toU64Unchecked m s)
  setBid i fun l => { l with qty := x }
  let m3 := m2 + c.qnLen
  match b with
  | .plain => do
    setAsk i fun l => { l with count := none }
    setBid i fun l => { l with count := none }
    setAsk i fun l => { l with lp := none }
    setBid i fun l => { l with lp := none }
  | .counts => do
    let counter ← expr (load countCfg)
    let s ← expr (clip.sub m3 (m3 + countCfg.total))
    let x ← expr (counter.toU32Unchecked m s)
    setAsk i fun l => { l with count := some x }
    let m4 := m3 + countCfg.total
    let s ← expr (clip.sub m4 (m4 + countCfg.total))
    let x ← expr (counter.toU32Unchecked m s)
    setBid i fun l => { l with count := some x }
    setAsk i fun l => { l with lp := none }
    setBid i fun l => { l with lp := none }
  | .lp => do
    let s ← expr (clip.sub m3 (m3 + c.qnLen))
    let x ← expr (c.qty.toU64Unchecked m s)
    setAsk i fun l => { l with lp := some x }
    let m4 := m3 + c.qnLen
    let s ← expr (clip.sub m4 (m4 + c.qnLen))
    let x ← expr (c.qty.toU64Unchecked m s)
    setBid i fun l => { l with lp := some x }
    setAsk i fun l => { l with count := none }
    setBid i fun l => { l with count := none }

/-- The blocks of a macro one after the other (see `fill`). -/
def fillAct (m : Mode) (b : Block) (c : OrderConv) (p : Slice) (start : Nat) : Nat → Nat → Act (List Level × List Level) Unit
  | 0, _ => expr (.ok ())
  | n + 1, i => do
    let st := start + i * b.offset c
    let clip ← expr (p.sub st (st + b.offset c))
    blockAct m b c clip i
    fillAct m b c p start n (i + 1)

/-! ## The messages -/

/-- The levels of a buffer. -/
def onLevels {α : Type} (a : Act (List Level × List Level) α) : Act (Quote × Gen) α :=
  a.on (fun s => (s.1.ask, s.1.bid)) fun v s => ({ s.1 with ask := v.1, bid := v.2 }, s.2)

/-- The date generator. -/
def onGen {σ α : Type} (a : Act Gen α) : Act (σ × Gen) α := a.on (·.2) fun g s => (s.1, g)

/-- `to_quote_snapshot_buffer` (derivative_quote.rs 194-245, 444-492; stock_quote.rs 208-251, 445-486). The order counter, which the
derivatives store, is always the same and dropped. -/
def QuoteMsg.feed (m : Mode) (q : QuoteMsg) (cut : Nat) (p : Slice) (sys : Nat) : Act (Quote × Gen) Unit := do
  expr (validPayload q.len p)
  let s ← look
  expr (validBuffer q.len cut s.1.ask.length s.1.bid.length p)
  let isin ← expr (isinOf p)
  let cid ← expr (q.conv p isin)
  let c ← expr cid.load
  assign fun s => ({ s.1 with id := ⟨.isin isin, .krx⟩ }, s.2)
  assign fun s => ({ s.1 with conv := cid }, s.2)
  assign fun s => ({ s.1 with sys := sys }, s.2)
  let ts ← expr (p.sub 35 47)
  let t ← onGen (stampAct m krxOffset ts sys)
  assign fun s => ({ s.1 with stamp := t }, s.2)
  onLevels (fillAct m q.block c p q.start (blocks cut) 0)

/-- The levels of a buffer for trades and quotes. -/
def onLevelsTq {α : Type} (a : Act (List Level × List Level) α) : Act (TradeQuote × Gen) α :=
  a.on (fun s => (s.1.ask, s.1.bid)) fun v s => ({ s.1 with ask := v.1, bid := v.2 }, s.2)

/-- `to_trade_quote_snapshot_buffer` (derivative_trade.rs 267-342, 604-676); 0038 does not store the converter. -/
def TradeQuoteMsg.feed (m : Mode) (q : TradeQuoteMsg) (cut : Nat) (want : Bool) (p : Slice) (sys : Nat) :
    Act (TradeQuote × Gen) Unit := do
  expr (validPayload q.len p)
  let s ← look
  expr (validBuffer q.len cut s.1.ask.length s.1.bid.length p)
  let isin ← expr (isinOf p)
  let head ← expr (p.sub 0 5)
  let cid ← expr (derivConv head isin)
  let c ← expr cid.load
  assign fun s => ({ s.1 with id := ⟨.isin isin, .krx⟩ }, s.2)
  assign fun s => ({ s.1 with conv := if q.storesConv then cid else s.1.conv }, s.2)
  let cum ← expr (cumulative m want p)
  assign fun s => ({ s.1 with cum := cum }, s.2)
  assign fun s => ({ s.1 with sys := sys }, s.2)
  let ts ← expr (p.sub 35 47)
  let t ← onGen (stampAct m krxOffset ts sys)
  assign fun s => ({ s.1 with stamp := t }, s.2)
  let s ← expr (p.sub 47 56)
  let x ← expr (c.price.toI64 m s)
  assign fun s => ({ s.1 with price := x }, s.2)
  let s ← expr (p.sub 56 65)
  let x ← expr (c.qty.toU64Unchecked m s)
  assign fun s => ({ s.1 with qty := x }, s.2)
  let k ← expr (p.sub 153 154)
  assign fun s => ({ s.1 with kind := some (tradeType k) }, s.2)
  onLevelsTq (fillAct m .counts c p q.start (blocks cut) 0)

/-- `to_trade_data_buffer` (derivative_trade.rs 820-869). -/
def tradeFeed (m : Mode) (want : Bool) (p : Slice) (sys : Nat) : Act (Trade × Gen) Unit := do
  expr (validPayload 173 p)
  let isin ← expr (isinOf p)
  let head ← expr (p.sub 0 5)
  let cid ← expr (derivConv head isin)
  let c ← expr cid.load
  assign fun s => ({ s.1 with id := ⟨.isin isin, .krx⟩ }, s.2)
  assign fun s => ({ s.1 with conv := cid }, s.2)
  let cum ← expr (cumulative m want p)
  assign fun s => ({ s.1 with cum := cum }, s.2)
  assign fun s => ({ s.1 with sys := sys }, s.2)
  let ts ← expr (p.sub 35 47)
  let t ← onGen (stampAct m krxOffset ts sys)
  assign fun s => ({ s.1 with stamp := t }, s.2)
  let s ← expr (p.sub 47 56)
  let x ← expr (c.price.toI64 m s)
  assign fun s => ({ s.1 with price := x }, s.2)
  let s ← expr (p.sub 56 65)
  let x ← expr (c.qty.toU64Unchecked m s)
  assign fun s => ({ s.1 with qty := x }, s.2)
  let k ← expr (p.sub 153 154)
  assign fun s => ({ s.1 with kind := some (tradeType k) }, s.2)

/-- A stream of packets into one buffer with one generator: what every packet answers (`Ok`, `Err`, or a panic that the caller
catches), and the buffer and the generator at the end. Each packet comes with the system clock when it is parsed. -/
def stream {σ : Type} (f : Slice → Nat → Act σ Unit) : List (Slice × Nat) → σ → σ × List (Res Unit)
  | [], s => (s, [])
  | (p, sys) :: l, s =>
    let r := f p sys s
    let t := stream f l r.1
    (t.1, r.2 :: t.2)

end Verif.TE.Krx

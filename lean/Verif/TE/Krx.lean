import Verif.TE.Numeric
import Verif.TE.Clock
import Verif.TE.InstId
/-!
# Model of the KRX message parsers

`trading-engine/src/data/krx/{derivative_quote,derivative_trade,stock_quote,krx_converter,unroll_macro}.rs`,
`data/checker.rs`, `data/{quote,trade,trade_quote}.rs`.

The order counter and the converter of cumulative quantities stored in the snapshots are always the same static
value and are dropped. The identifier of a snapshot is the data behind it (see `Verif.TE.Id`). A parse that fails
leaves the buffer half written; the model drops it with the error. The text of error messages is not modelled, but
the faults of composing it are.
-/
set_option autoImplicit false
namespace Verif.TE.Krx
open Verif Verif.TE.Num Verif.TE.Clock Verif.TE.Id

/-- The bytes of a slice. -/
def bytesOf (s : Slice) : List UInt8 := (List.range s.len).map s.mem

/-! ## Converters -/

/-- The static order converters (krx_converter.rs 374-396, 416-428). -/
inductive ConvId
  | riskFree | baseDeriv | stock | stockDeriv | commodity | repo | bond
  deriving DecidableEq, Repr

/-- The price formats: risk free (krx_converter.rs 39-47), base derivative (70-78), stock (102-110), stock derivative
(134-142), commodity (167-175), repo (199-207), bond (230-238). -/
def ConvId.priceCfg : ConvId → Cfg
  | .riskFree => ⟨4, 4, true, 0, 9, false⟩
  | .baseDeriv => ⟨5, 3, true, 0, 9, false⟩
  | .stock => ⟨9, 0, false, 2, 11, false⟩
  | .stockDeriv => ⟨8, 0, true, 0, 9, false⟩
  | .commodity => ⟨8, 0, true, 0, 9, false⟩
  | .repo => ⟨6, 4, true, 0, 11, false⟩
  | .bond => ⟨7, 3, false, 1, 11, false⟩

/-- The quantity formats (krx_converter.rs 49-57, 80-88, 112-120, 144-152, 177-185, 209-217, 240-248). -/
def ConvId.qtyCfg : ConvId → Cfg
  | .riskFree => ⟨9, 0, false, 0, 9, false⟩
  | .baseDeriv => ⟨9, 0, false, 0, 9, false⟩
  | .stock => ⟨12, 0, false, 0, 12, false⟩
  | .stockDeriv => ⟨9, 0, false, 0, 9, false⟩
  | .commodity => ⟨9, 0, false, 0, 9, false⟩
  | .repo => ⟨15, 0, false, 0, 15, false⟩
  | .bond => ⟨12, 0, false, 0, 12, false⟩

/-- `krx_base_order_counter` (krx_converter.rs 20-34). -/
def countCfg : Cfg := ⟨5, 0, false, 0, 5, false⟩

/-- `krx_base_cum_qnt_converter` (krx_converter.rs 283-297). -/
def cumCfg : Cfg := ⟨12, 0, false, 0, 12, false⟩

/-- `IntegerConverter::new(cfg).expect(..)`. -/
def load (c : Cfg) : Res Conv :=
  match Conv.new c with
  | some v => .ok v
  | none => .error .unwrapNone

/-- `get_krx_derivative_converter` (krx_converter.rs 416-443): by the last three bytes of the transaction code, then
by the first six of the ISIN code. -/
def derivConv (head : Slice) (isin : List UInt8) : Res ConvId := do
  let code ← head.sub 2 5
  let code := bytesOf code
  if code = [48, 52, 70] ∨ code = [48, 53, 70] then .ok .stockDeriv
  else if code = [49, 48, 70] then .ok .commodity
  else if isin.take 6 = [75, 82, 52, 49, 54, 57] then .ok .riskFree
  else .ok .baseDeriv

/-! ## Checks -/

/-- `std::str::from_utf8(..).is_ok()` (the standard library, RFC 3629). -/
def utf8 : List UInt8 → Bool
  | [] => true
  | a :: l =>
    if a < 0x80 then utf8 l
    else match l with
    | [] => false
    | b :: l =>
      if 0xC2 ≤ a ∧ a ≤ 0xDF then decide (0x80 ≤ b ∧ b ≤ 0xBF) && utf8 l
      else match l with
      | [] => false
      | c :: l =>
        if 0xE0 ≤ a ∧ a ≤ 0xEF then
          decide ((if a = 0xE0 then 0xA0 else 0x80) ≤ b ∧ b ≤ (if a = 0xED then 0x9F else 0xBF)) &&
            decide (0x80 ≤ c ∧ c ≤ 0xBF) && utf8 l
        else match l with
        | [] => false
        | d :: l =>
          decide (0xF0 ≤ a ∧ a ≤ 0xF4) &&
            decide ((if a = 0xF0 then 0x90 else 0x80) ≤ b ∧ b ≤ (if a = 0xF4 then 0x8F else 0xBF)) &&
            decide (0x80 ≤ c ∧ c ≤ 0xBF) && decide (0x80 ≤ d ∧ d ≤ 0xBF) && utf8 l

/-- Composing an error message quotes all but the last byte of the message as text (checker.rs 27 and 38):
`from_utf8(&payload[..len - 1]).unwrap()`. -/
def refuse (len : Nat) (p : Slice) : Res Unit := do
  let s ← p.sub 0 (len - 1)
  if utf8 (bytesOf s) then .error .err else .error .unwrapNone

/-- `Checker::is_valid_krx_payload` (checker.rs 18-44). -/
def validPayload (len : Nat) (p : Slice) : Res Unit :=
  if p.len ≠ len then refuse len p
  else if p.mem (len - 1) ≠ 255 then refuse len p
  else .ok ()

/-- `is_valid_quote_snapshot_buffer` (checker.rs 47-61) and `is_valid_trade_quote_snapshot_buffer` (checker.rs
64-78). -/
def validBuffer (len cut nAsk nBid : Nat) (p : Slice) : Res Unit :=
  if nAsk < cut ∨ nBid < cut then refuse len p else .ok ()

/-! ## Levels -/

/-- `LevelSnapshot` (types/base.rs 134-140). -/
structure Level where
  count : Option Nat
  price : Int
  qty : Nat
  lp : Option Nat
  deriving DecidableEq, Repr

/-- `LevelSnapshot::default()`. -/
def Level.default : Level := ⟨none, 0, 0, none⟩

/-- What a block of a level holds after prices and quantities. -/
inductive Block
  | counts | plain | lp
  deriving DecidableEq, Repr

/-- An order converter: price and quantity converter and the lengths of their fields
(`get_config().total_length`). -/
structure OrderConv where
  price : Conv
  qty : Conv
  prLen : Nat
  qnLen : Nat

/-- The converter behind a reference. -/
def ConvId.load (i : ConvId) : Res OrderConv := do
  let p ← Krx.load i.priceCfg
  let q ← Krx.load i.qtyCfg
  .ok ⟨p, q, i.priceCfg.total, i.qtyCfg.total⟩

/-- The length of a block (derivative_quote.rs 165, 227, 415, 473, derivative_trade.rs 231, 327, 568, 658; stock_quote.rs 179, 236, 415,
471). -/
def Block.offset (b : Block) (c : OrderConv) : Nat :=
  match b with
  | .counts => c.prLen * 2 + c.qnLen * 2 + countCfg.total * 2
  | .plain => c.prLen * 2 + c.qnLen * 2
  | .lp => c.prLen * 2 + c.qnLen * 4

/-- The price conversion of a block: checked in the macros with order counts, unchecked in the others. -/
def Block.price (b : Block) (m : Mode) (c : OrderConv) (s : Slice) : Res Int :=
  match b with
  | .counts => c.price.toI64 m s
  | .plain => c.price.toI64Unchecked m s
  | .lp => c.price.toI64Unchecked m s

/-- One block of a macro of unroll_macro.rs: ask price, bid price, ask quantity, bid quantity, then order counts
(`parse_unroll` 300-538, `parse_unroll_with_buffer` 2-297), nothing (`.._no_lp_quantity` 541-780 and 783-1026), or
quantities of liquidity providers (`.._with_lp_quantity` 1029-1323 and 1326-1618). Fields that a block does not hold
become `None`. The fresh variants leave some of those out (all of them `parse_unroll`, the seventh level of
`.._no_lp_quantity`), where they are `None` already. -/
def readBlock (m : Mode) (b : Block) (c : OrderConv) (clip : Slice) : Res (Level × Level) := do
  let s ← clip.sub 0 c.prLen
  let askPrice ← b.price m c s
  let m1 := c.prLen + c.prLen
  let s ← clip.sub c.prLen m1
  let bidPrice ← b.price m c s
  let s ← clip.sub m1 (m1 + c.qnLen)
  let askQty ← c.qty.toU64Unchecked m s
  let m2 := m1 + c.qnLen
  let s ← clip.sub m2 (m2 + c.qnLen)
  let bidQty ← c.qty.toU64Unchecked m s
  let m3 := m2 + c.qnLen
  match b with
  | .plain => .ok (⟨none, askPrice, askQty, none⟩, ⟨none, bidPrice, bidQty, none⟩)
  | .counts => do
    let counter ← load countCfg
    let s ← clip.sub m3 (m3 + countCfg.total)
    let askCount ← counter.toU32Unchecked m s
    let m4 := m3 + countCfg.total
    let s ← clip.sub m4 (m4 + countCfg.total)
    let bidCount ← counter.toU32Unchecked m s
    .ok (⟨some askCount, askPrice, askQty, none⟩, ⟨some bidCount, bidPrice, bidQty, none⟩)
  | .lp => do
    let s ← clip.sub m3 (m3 + c.qnLen)
    let askLp ← c.qty.toU64Unchecked m s
    let m4 := m3 + c.qnLen
    let s ← clip.sub m4 (m4 + c.qnLen)
    let bidLp ← c.qty.toU64Unchecked m s
    .ok (⟨none, askPrice, askQty, some askLp⟩, ⟨none, bidPrice, bidQty, some bidLp⟩)

/-- `v[i] = x`. -/
def put (v : List Level) (i : Nat) (x : Level) : Res (List Level) :=
  if i < v.length then .ok (v.set i x) else .error .index

/-- A macro of unroll_macro.rs: ten copies of the block, copy `i` at `start + i * offset`, guarded by
`max_level ≥ i + 1`. The first argument counts the blocks that are left. -/
def fill (m : Mode) (b : Block) (c : OrderConv) (p : Slice) (start : Nat) :
    Nat → Nat → List Level × List Level → Res (List Level × List Level)
  | 0, _, v => .ok v
  | n + 1, i, v => do
    let st := start + i * b.offset c
    let clip ← p.sub st (st + b.offset c)
    let (ask, bid) ← readBlock m b c clip
    let asks ← put v.1 i ask
    let bids ← put v.2 i bid
    fill m b c p start n (i + 1) (asks, bids)

/-- How many blocks a macro reads: at most ten. -/
def blocks (cut : Nat) : Nat := if cut ≤ 10 then cut else 10

/-! ## Quote messages -/

/-- A quote interface: which message, and `quote_level_cut`. -/
inductive QuoteMsg
  | d0034 | d0035 | s0002 | s0003
  deriving DecidableEq, Repr

/-- `payload_length` (derivative_quote.rs 96, 362; stock_quote.rs 127, 348). -/
def QuoteMsg.len : QuoteMsg → Nat
  | .d0034 => 324 | .d0035 => 554 | .s0002 => 555 | .s0003 => 795

/-- `quote_start_index` (derivative_quote.rs 102, 368; stock_quote.rs 133, 354). -/
def QuoteMsg.start : QuoteMsg → Nat
  | .d0034 => 47 | .d0035 => 47 | .s0002 => 47 | .s0003 => 47

/-- The number of levels in the message, which `with_quote_level_cut` enforces (derivative_quote.rs 126-133, 375-382;
stock_quote.rs 140-147, 378-385) and which is the default cut. -/
def QuoteMsg.levels : QuoteMsg → Nat
  | .d0034 => 5 | .d0035 => 10 | .s0002 => 10 | .s0003 => 10

/-- The macro used (derivative_quote.rs 166, 231, 416, 478; stock_quote.rs 181, 239, 418, 474). -/
def QuoteMsg.block : QuoteMsg → Block
  | .d0034 => .counts | .d0035 => .counts | .s0002 => .plain | .s0003 => .lp

/-- The converter of the message: by code for derivatives (derivative_quote.rs 141, 204, 390, 451), the stock converter
for stocks (stock_quote.rs 161, 221, 398, 458). -/
def QuoteMsg.conv (q : QuoteMsg) (p : Slice) (isin : List UInt8) : Res ConvId :=
  match q with
  | .d0034 | .d0035 => do
    let head ← p.sub 0 5
    derivConv head isin
  | .s0002 | .s0003 => .ok .stock

/-- `with_quote_level_cut`. -/
def QuoteMsg.withCut (q : QuoteMsg) (cut : Nat) : Res Nat := if cut > q.levels then .error .err else .ok cut

/-- `QuoteSnapshot` (data/quote.rs 23-39). -/
structure Quote where
  id : IdData
  stamp : Nat
  sys : Nat
  ask : List Level
  bid : List Level
  cut : Nat
  lpHoldings : Option Nat
  conv : ConvId

/-- `QuoteSnapshot::with_quote_level` (data/quote.rs 61-76). -/
def Quote.withLevel (n : Nat) : Quote :=
  ⟨IdData.default, 0, 0, List.replicate n Level.default, List.replicate n Level.default, n, none, .bond⟩

/-- `effective_ask_data` (data/quote.rs 86-88). -/
def Quote.effectiveAsk (q : Quote) : Res (List Level) :=
  if q.cut ≤ q.ask.length then .ok (q.ask.take q.cut) else .error .index

/-- `effective_bid_data` (data/quote.rs 80-82). -/
def Quote.effectiveBid (q : Quote) : Res (List Level) :=
  if q.cut ≤ q.bid.length then .ok (q.bid.take q.cut) else .error .index

/-- The ISIN code of a message: bytes 17 to 29 in all messages. -/
def isinOf (p : Slice) : Res (List UInt8) := do
  let s ← p.sub 17 29
  isinNew (bytesOf s)

/-- `to_quote_snapshot` (derivative_quote.rs 135-192, 384-442; stock_quote.rs 149-205, 387-443). `sys` is the system
clock; the generator of dates is returned. -/
def QuoteMsg.parse (m : Mode) (q : QuoteMsg) (cut : Nat) (p : Slice) (sys : Nat) (g : Gen) : Res (Quote × Gen) := do
  validPayload q.len p
  let isin ← isinOf p
  let cid ← q.conv p isin
  let c ← cid.load
  let ts ← p.sub 35 47
  let (t, g) ← parseStamp m krxOffset ts sys g
  let (ask, bid) ← fill m q.block c p q.start (blocks cut) 0
    (List.replicate cut Level.default, List.replicate cut Level.default)
  .ok (⟨⟨.isin isin, .krx⟩, t, sys, ask, bid, cut, none, cid⟩, g)

/-- `to_quote_snapshot_buffer` (derivative_quote.rs 194-245, 444-492; stock_quote.rs 208-251, 445-486): the cut, the
LP holdings and the levels behind the cut keep what they were. -/
def QuoteMsg.parseInto (m : Mode) (q : QuoteMsg) (cut : Nat) (p : Slice) (sys : Nat) (g : Gen) (buf : Quote) :
    Res (Quote × Gen) := do
  validPayload q.len p
  validBuffer q.len cut buf.ask.length buf.bid.length p
  let isin ← isinOf p
  let cid ← q.conv p isin
  let c ← cid.load
  let ts ← p.sub 35 47
  let (t, g) ← parseStamp m krxOffset ts sys g
  let (ask, bid) ← fill m q.block c p q.start (blocks cut) 0 (buf.ask, buf.bid)
  .ok ({ buf with id := ⟨.isin isin, .krx⟩, conv := cid, sys := sys, stamp := t, ask := ask, bid := bid }, g)

/-! ## Trade messages -/

/-- `TradeType` (types/enums.rs). -/
inductive TradeType
  | undefined | sell | buy
  deriving DecidableEq, Repr

/-- The `match` on the trade type field (derivative_trade.rs 208-212; copies at 319, 557, 652, 800, 862). -/
def tradeType (s : Slice) : TradeType :=
  if bytesOf s = [48] then .undefined else if bytesOf s = [49] then .sell else .buy

/-- The cumulative quantity, when asked for: bytes 119 to 131 (derivative_trade.rs 215-224; copies at 292, 532, 627, 776, 837). -/
def cumulative (m : Mode) (want : Bool) (p : Slice) : Res (Option Nat) :=
  if want then do
    let c ← load cumCfg
    let s ← p.sub 119 131
    let x ← c.toU64Unchecked m s
    .ok (some x)
  else .ok none

/-- `TradeQuoteSnapshot` (data/trade_quote.rs 28-51). -/
structure TradeQuote where
  id : IdData
  stamp : Nat
  sys : Nat
  price : Int
  qty : Nat
  kind : Option TradeType
  ask : List Level
  bid : List Level
  cut : Nat
  cum : Option Nat
  lpHoldings : Option Nat
  conv : ConvId

/-- `TradeQuoteSnapshot::with_quote_level` (data/trade_quote.rs 81-104). -/
def TradeQuote.withLevel (n : Nat) : TradeQuote :=
  ⟨IdData.default, 0, 0, 0, 0, none, List.replicate n Level.default, List.replicate n Level.default, n, none, none, .bond⟩

/-- `effective_ask_data` (data/trade_quote.rs 114-116). -/
def TradeQuote.effectiveAsk (q : TradeQuote) : Res (List Level) :=
  if q.cut ≤ q.ask.length then .ok (q.ask.take q.cut) else .error .index

/-- `effective_bid_data` (data/trade_quote.rs 108-110). -/
def TradeQuote.effectiveBid (q : TradeQuote) : Res (List Level) :=
  if q.cut ≤ q.bid.length then .ok (q.bid.take q.cut) else .error .index

/-- The interfaces with a trade and quotes. -/
inductive TradeQuoteMsg
  | d0037 | d0038
  deriving DecidableEq, Repr

/-- `payload_length` (derivative_trade.rs 134, 458). -/
def TradeQuoteMsg.len : TradeQuoteMsg → Nat
  | .d0037 => 431 | .d0038 => 661

/-- The number of levels in the message and greatest cut (derivative_trade.rs 157-164, 503-510). -/
def TradeQuoteMsg.levels : TradeQuoteMsg → Nat
  | .d0037 => 5 | .d0038 => 10

/-- `quote_start_index` (derivative_trade.rs 148, 478). -/
def TradeQuoteMsg.start : TradeQuoteMsg → Nat
  | .d0037 => 172 | .d0038 => 172

/-- `with_quote_level_cut` (derivative_trade.rs 157-164, 503-510). -/
def TradeQuoteMsg.withCut (q : TradeQuoteMsg) (cut : Nat) : Res Nat := if cut > q.levels then .error .err else .ok cut

/-- `to_trade_quote_snapshot` (derivative_trade.rs 172-265, 517-602). The two read the cumulative quantity at different
points; both orders fail alike. -/
def TradeQuoteMsg.parse (m : Mode) (q : TradeQuoteMsg) (cut : Nat) (want : Bool) (p : Slice) (sys : Nat) (g : Gen) :
    Res (TradeQuote × Gen) := do
  validPayload q.len p
  let isin ← isinOf p
  let head ← p.sub 0 5
  let cid ← derivConv head isin
  let c ← cid.load
  let ts ← p.sub 35 47
  let (t, g) ← parseStamp m krxOffset ts sys g
  let s ← p.sub 47 56
  let price ← c.price.toI64 m s
  let s ← p.sub 56 65
  let qty ← c.qty.toU64Unchecked m s
  let s ← p.sub 153 154
  let kind := tradeType s
  let cum ← cumulative m want p
  let (ask, bid) ← fill m .counts c p q.start (blocks cut) 0
    (List.replicate cut Level.default, List.replicate cut Level.default)
  .ok (⟨⟨.isin isin, .krx⟩, t, sys, price, qty, some kind, ask, bid, cut, cum, none, cid⟩, g)

/-- Does `to_trade_quote_snapshot_buffer` store the converter? Yes in 0037 (derivative_trade.rs 285), no in 0038
(604-676). -/
def TradeQuoteMsg.storesConv : TradeQuoteMsg → Bool
  | .d0037 => true | .d0038 => false

/-- `to_trade_quote_snapshot_buffer` (derivative_trade.rs 267-342, 604-676). -/
def TradeQuoteMsg.parseInto (m : Mode) (q : TradeQuoteMsg) (cut : Nat) (want : Bool) (p : Slice) (sys : Nat) (g : Gen)
    (buf : TradeQuote) : Res (TradeQuote × Gen) := do
  validPayload q.len p
  validBuffer q.len cut buf.ask.length buf.bid.length p
  let isin ← isinOf p
  let head ← p.sub 0 5
  let cid ← derivConv head isin
  let c ← cid.load
  let cum ← cumulative m want p
  let ts ← p.sub 35 47
  let (t, g) ← parseStamp m krxOffset ts sys g
  let s ← p.sub 47 56
  let price ← c.price.toI64 m s
  let s ← p.sub 56 65
  let qty ← c.qty.toU64Unchecked m s
  let s ← p.sub 153 154
  let kind := tradeType s
  let (ask, bid) ← fill m .counts c p q.start (blocks cut) 0 (buf.ask, buf.bid)
  .ok ({ buf with
    id := ⟨.isin isin, .krx⟩, stamp := t, sys := sys, price := price, qty := qty, kind := some kind,
    ask := ask, bid := bid, cum := cum, conv := if q.storesConv then cid else buf.conv }, g)

/-- `TradeData` (data/trade.rs 22-35). -/
structure Trade where
  id : IdData
  stamp : Nat
  sys : Nat
  price : Int
  qty : Nat
  kind : Option TradeType
  cum : Option Nat
  conv : ConvId

/-- `TradeData::default` (data/trade.rs 37-53). -/
def Trade.default : Trade := ⟨IdData.default, 0, 0, 0, 0, none, none, .bond⟩

/-- `IFMSRPD0036::to_trade_data` (derivative_trade.rs 764-818; payload length 173, line 727): the price through the
unchecked conversion. -/
def tradeParse (m : Mode) (want : Bool) (p : Slice) (sys : Nat) (g : Gen) : Res (Trade × Gen) := do
  validPayload 173 p
  let isin ← isinOf p
  let head ← p.sub 0 5
  let cid ← derivConv head isin
  let c ← cid.load
  let cum ← cumulative m want p
  let ts ← p.sub 35 47
  let (t, g) ← parseStamp m krxOffset ts sys g
  let s ← p.sub 47 56
  let price ← c.price.toI64Unchecked m s
  let s ← p.sub 56 65
  let qty ← c.qty.toU64Unchecked m s
  let s ← p.sub 153 154
  .ok (⟨⟨.isin isin, .krx⟩, t, sys, price, qty, some (tradeType s), cum, cid⟩, g)

/-- `IFMSRPD0036::to_trade_data_buffer` (derivative_trade.rs 820-869): the price through the checked conversion. Every
field of the buffer is overwritten. -/
def tradeParseInto (m : Mode) (want : Bool) (p : Slice) (sys : Nat) (g : Gen) (buf : Trade) : Res (Trade × Gen) := do
  validPayload 173 p
  let isin ← isinOf p
  let head ← p.sub 0 5
  let cid ← derivConv head isin
  let c ← cid.load
  let cum ← cumulative m want p
  let ts ← p.sub 35 47
  let (t, g) ← parseStamp m krxOffset ts sys g
  let s ← p.sub 47 56
  let price ← c.price.toI64 m s
  let s ← p.sub 56 65
  let qty ← c.qty.toU64Unchecked m s
  let s ← p.sub 153 154
  .ok ({ buf with id := ⟨.isin isin, .krx⟩, stamp := t, sys := sys, price := price, qty := qty,
                  kind := some (tradeType s), cum := cum, conv := cid }, g)

/-! ## Which interface a transaction code has -/

/-- `KRX_TR_CODE_MAP` (interface_map.rs 5-96): the codes of every interface, in the order of insertion. -/
def trCodes : List (String × List String) :=
  [ ("IFMSRPD0023", ["B601B", "B601K"]),
    ("IFMSRPD0027", ["A301B", "A301M", "A301K"]),
    ("IFMSRPD0029", ["G701B", "G701K"]),
    ("IFMSRPD0002", ["B601S", "B601Q", "B601X"]),
    ("IFMSRPD0003", ["B702S", "B703S", "B704S"]),
    ("IFMSRPD0004", ["A301S", "A302S", "A303S", "A304S", "A301Q", "A301X"]),
    ("IFMSRPD0036", ["A301F", "A302F", "A303F", "A304F", "A305F", "A306F", "A307F", "A308F", "A309F", "A310F", "A311F",
      "A312F", "A313F", "A315F", "A316F", "A314F"]),
    ("IFMSRPD0034", ["B601F", "B602F", "B603F", "B606F", "B607F", "B608F", "B609F", "B610F", "B611F", "B612F", "B613F",
      "B615F", "B616F", "B614F"]),
    ("IFMSRPD0035", ["B604F", "B605F"]),
    ("IFMSRPD0037", ["G701F", "G702F", "G703F", "G706F", "G707F", "G708F", "G709F", "G710F", "G711F", "G712F", "G713F",
      "G715F", "G716F"]),
    ("IFMSRPD0038", ["G704F", "G705F"]) ]

/-- `KRX_TR_CODE_MAP.get(code)`: the last insertion wins. -/
def trLookup (code : String) : Option String :=
  (trCodes.reverse.find? fun e => e.2.contains code).map (·.1)

end Verif.TE.Krx

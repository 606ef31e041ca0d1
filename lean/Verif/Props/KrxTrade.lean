import Verif.Props.Krx
/-!
# KRX messages: trades

C101 (trade and quotes), C102 (trades). The specification is the layout of the messages (derivative_trade.rs 32-101,
344-433, 680-711), composed field by field.
-/
set_option autoImplicit false
namespace Verif.Props
open Verif Verif.TE.Num Verif.TE.Clock Verif.TE.Id Verif.TE.Krx

/-! ## Specification -/

/-- The trade a message reports. -/
structure Deal where
  price : Int
  qty : Nat
  /-- traded so far today -/
  cum : Nat
  kind : TradeType
  /-- prices of the near and distant month, opening, high, low, previous: 54 bytes -/
  prices : List UInt8
  /-- accumulated trading value: 22 bytes -/
  value : List UInt8
  /-- upper and lower limit: 18 bytes -/
  limits : List UInt8

/-- The code of the side that took the order. -/
def kindCode : TradeType → UInt8
  | .undefined => 48
  | .sell => 49
  | .buy => 50

def Deal.bytes (i : ConvId) (d : Deal) : List UInt8 :=
  derivPrice i d.price ++ (text 9 d.qty ++ (d.prices ++ (text 12 d.cum ++ (d.value ++ (kindCode d.kind :: d.limits)))))

def Deal.Ok (i : ConvId) (d : Deal) : Prop :=
  PriceFits i d.price ∧ d.qty < 10 ^ 9 ∧ d.cum < 10 ^ 12 ∧ d.prices.length = 54 ∧ d.value.length = 22 ∧ d.limits.length = 18

/-- A message with a trade and levels; `tail` are the 28 bytes of totals. -/
def tradeQuote (h : Heading) (d : Deal) (rows : List Row) (tail : List UInt8) : List UInt8 :=
  h.bytes ++ (d.bytes h.format ++ (rows.flatMap (Row.deriv h.format) ++ (tail ++ [255])))

/-- A message with a trade alone. -/
def tradeOnly (h : Heading) (d : Deal) : List UInt8 := h.bytes ++ (d.bytes h.format ++ [255])

/-! ## Reading a message, whatever its bytes are -/

/-- The format of a derivative message. -/
def fmt (p : Slice) : ConvId := formatOf (fieldBytes p 2 3) (fieldBytes p 17 12)

theorem fmt_deriv (p : Slice) : IsDeriv (fmt p) := formatOf_cases _ _

theorem deriv_cfg (i : ConvId) (hi : IsDeriv i) : i.priceCfg.total = 9 ∧ i.qtyCfg.total = 9 := by
  rcases hi with rfl | rfl | rfl | rfl <;> exact ⟨rfl, rfl⟩

/-- The quantity field. -/
def rawQty (p : Slice) : Nat := decimal ((p.drop 56).nibbles 9)
/-- The cumulative quantity, if wanted. -/
def rawCum (want : Bool) (p : Slice) : Option Nat := if want then some (decimal ((p.drop 119).nibbles 12)) else none
/-- The type of the trade. -/
def rawKind (p : Slice) : TradeType :=
  if p.mem 153 = 48 then .undefined else if p.mem 153 = 49 then .sell else .buy

theorem kind_reads (p : Slice) : tradeType ⟨fun i => p.mem (153 + i), 154 - 153⟩ = rawKind p := by
  unfold tradeType rawKind
  have e : bytesOf ⟨fun i => p.mem (153 + i), 154 - 153⟩ = [p.mem 153] := rfl
  rw [e]
  simp

theorem cumulative_reads (m : Mode) (want : Bool) (p : Slice) (hl : 131 ≤ p.len) :
    cumulative m want p = .ok (rawCum want p) := by
  unfold cumulative rawCum
  cases want
  · rfl
  · rw [if_pos rfl, if_pos rfl]
    obtain ⟨conv, e, h⟩ := cum_reads m ⟨fun i => p.mem (119 + i), 131 - 119⟩
    exact bind_of_ok e (bind_of_ok (sub_ok p 119 131 (by omega) hl) (bind_of_ok h rfl))

theorem conv_reads (p : Slice) (hl : 5 ≤ p.len) :
    ∃ head, p.sub 0 5 = .ok head ∧ derivConv head (fieldBytes p 17 12) = .ok (fmt p) := by
  have h := derivConv_ok p (fieldBytes p 17 12) hl
  rw [sub_ok p 0 5 (by omega) hl] at h
  exact ⟨_, sub_ok p 0 5 (by omega) hl, h⟩

theorem load_deriv (p : Slice) (m : Mode) :
    ∃ c, (fmt p).load = .ok c ∧
      c.price.toI64 m ⟨fun i => p.mem (47 + i), 56 - 47⟩ = .ok (checkedPrice (fmt p).priceCfg (p.drop 47)) ∧
      c.price.toI64Unchecked m ⟨fun i => p.mem (47 + i), 56 - 47⟩ = .ok (uncheckedPrice (fmt p).priceCfg (p.drop 47) : Int) ∧
      c.qty.toU64Unchecked m ⟨fun i => p.mem (56 + i), 65 - 56⟩ = .ok (rawQty p) := by
  obtain ⟨hP, hQ⟩ := deriv_cfg _ (fmt_deriv p)
  obtain ⟨c, hc, h1, h2, -⟩ := load_conv (fmt p)
  obtain ⟨k, e, r1, r2⟩ := price_reads (fmt p) m ⟨fun i => p.mem (47 + i), 56 - 47⟩ (by rw [hP])
  rw [h1] at e
  obtain rfl := Except.ok.inj e
  refine ⟨c, hc, r1, r2, ?_⟩
  have := block_qty (fmt p) m c h2 ⟨fun i => p.mem (56 + i), 65 - 56⟩
  rw [hQ] at this
  exact this

/-- Level `k` of a message with a trade. -/
def tradeBlock (p : Slice) (k : Nat) : Level × Level := blockOf .counts (fmt p) (p.drop (172 + k * 46))

theorem tq_len (q : TradeQuoteMsg) : q.len = 172 + q.levels * 46 + 29 ∧ q.start = 172 ∧ q.levels ≤ 10 := by
  cases q <;> decide

theorem tq_fill (m : Mode) (q : TradeQuoteMsg) (cut : Nat) (hcut : cut ≤ q.levels) (p : Slice) (hlen : p.len = q.len)
    (c : OrderConv) (hc : (fmt p).load = .ok c) (v : List Level × List Level) (h1 : cut ≤ v.1.length) (h2 : cut ≤ v.2.length) :
    fill m .counts c p q.start (blocks cut) 0 v
      = .ok (((List.range cut).map fun k => (tradeBlock p k).1) ++ v.1.drop cut,
             ((List.range cut).map fun k => (tradeBlock p k).2) ++ v.2.drop cut) := by
  obtain ⟨l1, l2, l3⟩ := tq_len q
  have hb : blockLen .counts (fmt p) = 46 := blockLen_deriv _ _
  have := fill_reads m .counts (fmt p) c hc p q.start cut v h1 h2 (by rw [hb, l2, hlen, l1]; omega)
  rw [blocks_eq cut (by omega), this]
  simp only [hb, l2]
  rfl

/-- A message of the right length, with the end mark and an ISIN code: everything but the clock is readable. -/
theorem tq_reads (m : Mode) (q : TradeQuoteMsg) (cut : Nat) (want : Bool) (p : Slice) (sys : Nat) (g : Gen)
    (hcut : cut ≤ q.levels) (hlen : p.len = q.len) (hend : p.mem (q.len - 1) = 255) (hisin : IsinOk (fieldBytes p 17 12)) :
    q.parse m cut want p sys g = (parseStamp m krxOffset (timeField p) sys g >>= fun r =>
      .ok (⟨⟨.isin (fieldBytes p 17 12), .krx⟩, r.1, sys, checkedPrice (fmt p).priceCfg (p.drop 47), rawQty p,
        some (rawKind p), (List.range cut).map fun k => (tradeBlock p k).1,
        (List.range cut).map fun k => (tradeBlock p k).2, cut, rawCum want p, none, fmt p⟩, r.2)) := by
  obtain ⟨l1, l2, l3⟩ := tq_len q
  obtain ⟨head, e1, e2⟩ := conv_reads p (by omega)
  obtain ⟨c, hc, r1, -, r3⟩ := load_deriv p m
  unfold TradeQuoteMsg.parse
  refine bind_of_ok (valid_ok _ p hlen hend) (bind_of_ok (isinOf_ok p (by omega) hisin)
    (bind_of_ok e1 (bind_of_ok e2 (bind_of_ok hc (bind_of_ok (sub_ok p 35 47 (by omega) (by omega)) ?_)))))
  show (parseStamp m krxOffset (timeField p) sys g >>= _) = _
  rcases parseStamp m krxOffset (timeField p) sys g with e | ⟨t, g'⟩
  · rfl
  · simp only [Res.bind_ok]
    refine bind_of_ok (sub_ok p 47 56 (by omega) (by omega)) (bind_of_ok r1
      (bind_of_ok (sub_ok p 56 65 (by omega) (by omega)) (bind_of_ok r3
      (bind_of_ok (sub_ok p 153 154 (by omega) (by omega)) (bind_of_ok (cumulative_reads m want p (by omega))
      (bind_of_ok (tq_fill m q cut hcut p hlen c hc _ (by simp) (by simp)) ?_))))))
    simp only [List.drop_replicate, Nat.sub_self, List.replicate_zero, List.append_nil, kind_reads]

theorem tq_reads_into (m : Mode) (q : TradeQuoteMsg) (cut : Nat) (want : Bool) (p : Slice) (sys : Nat) (g : Gen)
    (buf : TradeQuote) (hcut : cut ≤ q.levels) (ha : cut ≤ buf.ask.length) (hb : cut ≤ buf.bid.length)
    (hlen : p.len = q.len) (hend : p.mem (q.len - 1) = 255) (hisin : IsinOk (fieldBytes p 17 12)) :
    q.parseInto m cut want p sys g buf = (parseStamp m krxOffset (timeField p) sys g >>= fun r =>
      .ok (⟨⟨.isin (fieldBytes p 17 12), .krx⟩, r.1, sys, checkedPrice (fmt p).priceCfg (p.drop 47), rawQty p,
        some (rawKind p), (List.range cut).map (fun k => (tradeBlock p k).1) ++ buf.ask.drop cut,
        (List.range cut).map (fun k => (tradeBlock p k).2) ++ buf.bid.drop cut, buf.cut, rawCum want p, buf.lpHoldings,
        if q.storesConv then fmt p else buf.conv⟩, r.2)) := by
  obtain ⟨l1, l2, l3⟩ := tq_len q
  obtain ⟨head, e1, e2⟩ := conv_reads p (by omega)
  obtain ⟨c, hc, r1, -, r3⟩ := load_deriv p m
  have hvb : validBuffer q.len cut buf.ask.length buf.bid.length p = .ok () := by
    unfold validBuffer; rw [if_neg (by omega)]
  unfold TradeQuoteMsg.parseInto
  refine bind_of_ok (valid_ok _ p hlen hend) (bind_of_ok hvb (bind_of_ok (isinOf_ok p (by omega) hisin)
    (bind_of_ok e1 (bind_of_ok e2 (bind_of_ok hc (bind_of_ok (cumulative_reads m want p (by omega))
    (bind_of_ok (sub_ok p 35 47 (by omega) (by omega)) ?_)))))))
  show (parseStamp m krxOffset (timeField p) sys g >>= _) = _
  rcases parseStamp m krxOffset (timeField p) sys g with e | ⟨t, g'⟩
  · rfl
  · simp only [Res.bind_ok]
    refine bind_of_ok (sub_ok p 47 56 (by omega) (by omega)) (bind_of_ok r1
      (bind_of_ok (sub_ok p 56 65 (by omega) (by omega)) (bind_of_ok r3
      (bind_of_ok (sub_ok p 153 154 (by omega) (by omega))
      (bind_of_ok (tq_fill m q cut hcut p hlen c hc _ ha hb) ?_)))))
    simp only [kind_reads]

theorem trade_reads (m : Mode) (want : Bool) (p : Slice) (sys : Nat) (g : Gen)
    (hlen : p.len = 173) (hend : p.mem 172 = 255) (hisin : IsinOk (fieldBytes p 17 12)) :
    tradeParse m want p sys g = (parseStamp m krxOffset (timeField p) sys g >>= fun r =>
      .ok (⟨⟨.isin (fieldBytes p 17 12), .krx⟩, r.1, sys, uncheckedPrice (fmt p).priceCfg (p.drop 47), rawQty p,
        some (rawKind p), rawCum want p, fmt p⟩, r.2)) := by
  obtain ⟨head, e1, e2⟩ := conv_reads p (by omega)
  obtain ⟨c, hc, -, r2, r3⟩ := load_deriv p m
  unfold tradeParse
  refine bind_of_ok (valid_ok _ p hlen hend) (bind_of_ok (isinOf_ok p (by omega) hisin)
    (bind_of_ok e1 (bind_of_ok e2 (bind_of_ok hc (bind_of_ok (cumulative_reads m want p (by omega))
    (bind_of_ok (sub_ok p 35 47 (by omega) (by omega)) ?_))))))
  show (parseStamp m krxOffset (timeField p) sys g >>= _) = _
  rcases parseStamp m krxOffset (timeField p) sys g with e | ⟨t, g'⟩
  · rfl
  · simp only [Res.bind_ok]
    refine bind_of_ok (sub_ok p 47 56 (by omega) (by omega)) (bind_of_ok r2
      (bind_of_ok (sub_ok p 56 65 (by omega) (by omega)) (bind_of_ok r3
      (bind_of_ok (sub_ok p 153 154 (by omega) (by omega)) ?_))))
    simp only [kind_reads]

theorem trade_reads_into (m : Mode) (want : Bool) (p : Slice) (sys : Nat) (g : Gen) (buf : Trade)
    (hlen : p.len = 173) (hend : p.mem 172 = 255) (hisin : IsinOk (fieldBytes p 17 12)) :
    tradeParseInto m want p sys g buf = (parseStamp m krxOffset (timeField p) sys g >>= fun r =>
      .ok (⟨⟨.isin (fieldBytes p 17 12), .krx⟩, r.1, sys, checkedPrice (fmt p).priceCfg (p.drop 47), rawQty p,
        some (rawKind p), rawCum want p, fmt p⟩, r.2)) := by
  obtain ⟨head, e1, e2⟩ := conv_reads p (by omega)
  obtain ⟨c, hc, r1, -, r3⟩ := load_deriv p m
  unfold tradeParseInto
  refine bind_of_ok (valid_ok _ p hlen hend) (bind_of_ok (isinOf_ok p (by omega) hisin)
    (bind_of_ok e1 (bind_of_ok e2 (bind_of_ok hc (bind_of_ok (cumulative_reads m want p (by omega))
    (bind_of_ok (sub_ok p 35 47 (by omega) (by omega)) ?_))))))
  show (parseStamp m krxOffset (timeField p) sys g >>= _) = _
  rcases parseStamp m krxOffset (timeField p) sys g with e | ⟨t, g'⟩
  · rfl
  · simp only [Res.bind_ok]
    refine bind_of_ok (sub_ok p 47 56 (by omega) (by omega)) (bind_of_ok r1
      (bind_of_ok (sub_ok p 56 65 (by omega) (by omega)) (bind_of_ok r3
      (bind_of_ok (sub_ok p 153 154 (by omega) (by omega)) ?_))))
    simp only [kind_reads]

/-! ## Composed messages -/

theorem deal_length (i : ConvId) (hi : IsDeriv i) (d : Deal) (ok : d.Ok i) : (d.bytes i).length = 125 := by
  obtain ⟨-, -, -, h1, h2, h3⟩ := ok
  simp [Deal.bytes, derivPrice_length i hi, text_length, h1, h2, h3]

theorem holds_cons (u : Slice) (a : UInt8) (b : List UInt8) : Holds u (a :: b) ↔ u.mem 0 = a ∧ Holds (u.drop 1) b := by
  have := holds_append u [a] b
  rw [List.singleton_append] at this
  rw [this]
  refine and_congr ⟨fun h => h 0 (by simp), fun h i hi => ?_⟩ Iff.rfl
  obtain rfl : i = 0 := by simpa using hi
  simpa using h

/-- What a message with a trade behind its heading shows to the parser. -/
theorem deal_reads (h : Heading) (d : Deal) (ok : d.Ok h.format) (rest : List UInt8) (want : Bool) (p : Slice)
    (hf : fmt p = h.format) (hp : Holds (p.drop 47) (d.bytes h.format ++ rest)) :
    checkedPrice (fmt p).priceCfg (p.drop 47) = d.price ∧ Holds (p.drop 47) (derivPrice h.format d.price) ∧
      rawQty p = d.qty ∧ rawKind p = d.kind ∧ rawCum want p = (if want then some d.cum else none) ∧ Holds (p.drop 172) rest := by
  have hi := format_deriv h
  rw [holds_append, deal_length _ hi d ok, drop_drop] at hp
  obtain ⟨hb, hr⟩ := hp
  obtain ⟨k1, k2, k3, k4, k5, k6⟩ := ok
  unfold Deal.bytes at hb
  simp only [holds_append, holds_cons, derivPrice_length _ hi, text_length, k4, k5, drop_drop] at hb
  obtain ⟨b1, b2, -, b4, -, b6, -⟩ := hb
  refine ⟨by rw [hf]; exact checked_deriv _ hi _ k1 _ b1, b1, text_nibbles _ 9 _ b2 k2, ?_, ?_, hr⟩
  · have b6' : p.mem 153 = kindCode d.kind := b6
    unfold rawKind
    rw [b6']
    cases d.kind <;> rfl
  · unfold rawCum
    have : decimal ((p.drop 119).nibbles 12) = d.cum := text_nibbles _ 12 _ b4 k3
    rw [this]

theorem fmt_format (h : Heading) (p : Slice) (e1 : fieldBytes p 17 12 = h.isin) (e2 : fieldBytes p 2 3 = h.code.drop 2) :
    fmt p = h.format := by
  unfold fmt Heading.format; rw [e1, e2]

theorem tq_facts (q : TradeQuoteMsg) (h : Heading) (ok : h.Ok) (d : Deal) (hd : d.Ok h.format) (rows : List Row)
    (hrows : rows.length = q.levels) (hfit : ∀ r ∈ rows, r.DerivFits h.format) (tail : List UInt8)
    (htail : tail.length = 28) (p : Slice) (hp : IsMessage p (tradeQuote h d rows tail)) :
    p.len = q.len ∧ p.mem (q.len - 1) = 255 ∧ fieldBytes p 17 12 = h.isin ∧ Holds (timeField p) h.time.text ∧
      fmt p = h.format ∧ Holds (p.drop 47) (d.bytes h.format ++ (rows.flatMap (Row.deriv h.format) ++ (tail ++ [255]))) ∧
      ∀ (i : Nat) (hi : i < rows.length), tradeBlock p i = (rows[i].ask.deriv, rows[i].bid.deriv) := by
  obtain ⟨l1, l2, l3⟩ := tq_len q
  have hk : ∀ r ∈ rows, (r.deriv h.format).length = 46 := fun r _ => deriv_row_length _ (format_deriv h) r
  have hml : (tradeQuote h d rows tail).length = q.len := by
    unfold tradeQuote
    rw [List.length_append, heading_length h ok, List.length_append, deal_length _ (format_deriv h) d hd,
      List.length_append, flatMap_length _ _ _ hk, hrows]
    simp only [List.length_append, htail, List.length_singleton]
    omega
  obtain ⟨hlen, hh⟩ := hp
  obtain ⟨e1, e2, e3, e4⟩ := heading_reads h ok _ p hh
  have hf := fmt_format h p e1 e2
  have hend : p.mem (q.len - 1) = 255 := by
    have e : tradeQuote h d rows tail
        = (h.bytes ++ (d.bytes h.format ++ (rows.flatMap (Row.deriv h.format) ++ tail))) ++ [255] := by
      simp [tradeQuote]
    exact last_byte p _ q.len (by rw [← e, hml]) (by rw [← e]; exact hh)
  refine ⟨by rw [hlen, hml], hend, e1, e3, hf, e4, fun i hi => ?_⟩
  obtain ⟨-, -, -, -, -, hr⟩ := deal_reads h d hd _ true p hf e4
  unfold tradeBlock
  rw [hf]
  apply block_deriv _ (format_deriv h) _ (hfit _ (by simp))
  rw [← drop_drop]
  exact holds_flatMap _ 46 rows hk _ _ hr i hi

/-- C101. Every message with a trade and quotes is delivered as it was composed: instrument, time, price, quantity and
side of the trade, the quantity traded so far if it is asked for, and the first `cut` levels. -/
theorem C101_trade_quote (m : Mode) (q : TradeQuoteMsg) (cut : Nat) (hcut : cut ≤ q.levels) (want : Bool)
    (h : Heading) (ok : h.Ok) (d : Deal) (hd : d.Ok h.format) (rows : List Row) (hrows : rows.length = q.levels)
    (hfit : ∀ r ∈ rows, r.DerivFits h.format)
    (tail : List UInt8) (htail : tail.length = 28) (p : Slice) (hp : IsMessage p (tradeQuote h d rows tail))
    (sys : Nat) (g : Gen) (t : Nat) (g' : Gen) (ht : parseStamp m krxOffset (ofList h.time.text) sys g = .ok (t, g')) :
    q.parse m cut want p sys g = .ok
      ({ id := ⟨.isin h.isin, .krx⟩, stamp := t, sys := sys, price := d.price, qty := d.qty, kind := some d.kind,
         ask := (rows.take cut).map fun r => ⟨some r.ask.count, r.ask.price, r.ask.qty, none⟩,
         bid := (rows.take cut).map fun r => ⟨some r.bid.count, r.bid.price, r.bid.qty, none⟩,
         cut := cut, cum := if want then some d.cum else none, lpHoldings := none, conv := h.format }, g') := by
  obtain ⟨hlen, hend, e1, e3, hf, e4, hb⟩ := tq_facts q h ok d hd rows hrows hfit tail htail p hp
  obtain ⟨d1, -, d2, d3, d4, -⟩ := deal_reads h d hd _ want p hf e4
  rw [tq_reads m q cut want p sys g hcut hlen hend (by rw [e1]; exact ok.2.2.1), heading_stamp m h p e3, ht, e1, d1, d2, d3,
    d4, hf]
  simp only [Res.bind_ok]
  rw [range_map_take _ (fun r : Row => r.ask.deriv) rows cut (by omega) (fun i hi => by rw [hb i hi]),
    range_map_take _ (fun r : Row => r.bid.deriv) rows cut (by omega) (fun i hi => by rw [hb i hi])]
  rfl

/-- The same into a buffer: the levels behind the cut, the cut of the buffer and its LP holdings stay; with 0038 the
converter of the buffer stays too, whatever the format of the message is. -/
theorem C101_buffer (m : Mode) (q : TradeQuoteMsg) (cut : Nat) (hcut : cut ≤ q.levels) (want : Bool)
    (h : Heading) (ok : h.Ok) (d : Deal) (hd : d.Ok h.format) (rows : List Row) (hrows : rows.length = q.levels)
    (hfit : ∀ r ∈ rows, r.DerivFits h.format)
    (tail : List UInt8) (htail : tail.length = 28) (p : Slice) (hp : IsMessage p (tradeQuote h d rows tail))
    (sys : Nat) (g : Gen) (t : Nat) (g' : Gen) (ht : parseStamp m krxOffset (ofList h.time.text) sys g = .ok (t, g'))
    (buf : TradeQuote) (ha : cut ≤ buf.ask.length) (hb : cut ≤ buf.bid.length) :
    q.parseInto m cut want p sys g buf = .ok
      ({ id := ⟨.isin h.isin, .krx⟩, stamp := t, sys := sys, price := d.price, qty := d.qty, kind := some d.kind,
         ask := ((rows.take cut).map fun r => ⟨some r.ask.count, r.ask.price, r.ask.qty, none⟩) ++ buf.ask.drop cut,
         bid := ((rows.take cut).map fun r => ⟨some r.bid.count, r.bid.price, r.bid.qty, none⟩) ++ buf.bid.drop cut,
         cut := buf.cut, cum := if want then some d.cum else none, lpHoldings := buf.lpHoldings,
         conv := if q = .d0037 then h.format else buf.conv }, g') := by
  obtain ⟨hlen, hend, e1, e3, hf, e4, hb'⟩ := tq_facts q h ok d hd rows hrows hfit tail htail p hp
  obtain ⟨d1, -, d2, d3, d4, -⟩ := deal_reads h d hd _ want p hf e4
  have hs : (if q.storesConv = true then h.format else buf.conv) = if q = .d0037 then h.format else buf.conv := by
    cases q <;> rfl
  rw [tq_reads_into m q cut want p sys g buf hcut ha hb hlen hend (by rw [e1]; exact ok.2.2.1), heading_stamp m h p e3, ht, e1,
    d1, d2, d3, d4, hf, hs]
  simp only [Res.bind_ok]
  rw [range_map_take _ (fun r : Row => r.ask.deriv) rows cut (by omega) (fun i hi => by rw [hb' i hi]),
    range_map_take _ (fun r : Row => r.bid.deriv) rows cut (by omega) (fun i hi => by rw [hb' i hi])]
  rfl

/-! ## C102 -/

theorem trade_facts (h : Heading) (ok : h.Ok) (d : Deal) (hd : d.Ok h.format) (p : Slice)
    (hp : IsMessage p (tradeOnly h d)) :
    p.len = 173 ∧ p.mem 172 = 255 ∧ fieldBytes p 17 12 = h.isin ∧ Holds (timeField p) h.time.text ∧
      fmt p = h.format ∧ Holds (p.drop 47) (d.bytes h.format ++ [255]) := by
  have hml : (tradeOnly h d).length = 173 := by
    unfold tradeOnly
    rw [List.length_append, heading_length h ok, List.length_append, deal_length _ (format_deriv h) d hd]; rfl
  obtain ⟨hlen, hh⟩ := hp
  obtain ⟨e1, e2, e3, e4⟩ := heading_reads h ok _ p hh
  refine ⟨by rw [hlen, hml], ?_, e1, e3, fmt_format h p e1 e2, e4⟩
  have e : tradeOnly h d = (h.bytes ++ d.bytes h.format) ++ [255] := by simp [tradeOnly]
  exact last_byte p _ 173 (by rw [← e, hml]) (by rw [← e]; exact hh)

/-- C102. A message with a trade alone into a buffer: every field is replaced by what was composed. -/
theorem C102_trade_buffer (m : Mode) (want : Bool) (h : Heading) (ok : h.Ok) (d : Deal) (hd : d.Ok h.format) (p : Slice)
    (hp : IsMessage p (tradeOnly h d)) (sys : Nat) (g : Gen) (t : Nat) (g' : Gen)
    (ht : parseStamp m krxOffset (ofList h.time.text) sys g = .ok (t, g')) (buf : Trade) :
    tradeParseInto m want p sys g buf = .ok
      ({ id := ⟨.isin h.isin, .krx⟩, stamp := t, sys := sys, price := d.price, qty := d.qty, kind := some d.kind,
         cum := if want then some d.cum else none, conv := h.format }, g') := by
  obtain ⟨hlen, hend, e1, e3, hf, e4⟩ := trade_facts h ok d hd p hp
  obtain ⟨d1, -, d2, d3, d4, -⟩ := deal_reads h d hd _ want p hf e4
  rw [trade_reads_into m want p sys g buf hlen hend (by rw [e1]; exact ok.2.2.1), heading_stamp m h p e3, ht, e1, d1, d2, d3,
    d4, hf]
  rfl

/-- The number a new trade gets as its price: the first eight characters of the field, the sign and the point
counted as digits (13 and 14). -/
def misread (i : ConvId) (x : Int) : Nat :=
  (if x < 0 then 130000000 else 0) +
    match i with
    | .baseDeriv => x.natAbs / 100 * 100 + 140 + x.natAbs % 100 / 10
    | .riskFree => x.natAbs / 1000 * 1000 + 1400 + x.natAbs % 1000 / 10
    | _ => x.natAbs / 10

theorem unchecked_whole (v : Slice) (s : UInt8) (x : Nat) (hx : x < 10 ^ 8) (h : Holds v (s :: text 8 x)) :
    decimal (v.nibbles 8) = s.toNat % 16 * 10 ^ 7 + x / 10 := by
  rw [holds_cons, show (8 : Nat) = 7 + 1 by rfl, text_split 7 1, holds_append] at h
  obtain ⟨h1, h2, -⟩ := h
  rw [show (8 : Nat) = 1 + 7 by rfl, nibbles_split, decimal_append, nibbles_length,
    text_nibbles _ 7 _ h2 (by norm_num at hx ⊢; omega)]
  have : v.nibbles 1 = [s.toNat % 16] := by simp [Slice.nibbles, Slice.bytes, h1]
  rw [this]
  simp [decimal]

theorem unchecked_point (v : Slice) (s : UInt8) (a f x : Nat) (hx : x < 10 ^ (a + (f + 1)))
    (h : Holds v (s :: fixedText a (f + 1) x)) :
    decimal (v.nibbles (1 + (a + (1 + f))))
      = s.toNat % 16 * 10 ^ (a + (1 + f)) + (x / 10 ^ (f + 1) * 10 ^ (1 + f) + (14 * 10 ^ f + x % 10 ^ (f + 1) / 10)) := by
  unfold fixedText at h
  rw [holds_cons, holds_append, holds_cons, text_split f 1, holds_append, text_length] at h
  obtain ⟨h1, h2, h3, h4, -⟩ := h
  rw [nibbles_split, decimal_append, nibbles_length, nibbles_split, decimal_append, nibbles_length, nibbles_split,
    decimal_append, nibbles_length, text_nibbles _ a _ h2 ?_, text_nibbles _ f _ h4 ?_]
  · have e1 : v.nibbles 1 = [s.toNat % 16] := by simp [Slice.nibbles, Slice.bytes, h1]
    have e2 : ((v.drop 1).drop a).nibbles 1 = [14] := by simp [Slice.nibbles, Slice.bytes, h3]
    rw [e1, e2, pow_one]
    simp [decimal]
  · rw [pow_one]
    apply Nat.div_lt_of_lt_mul
    have : x % 10 ^ (f + 1) < 10 ^ (f + 1) := Nat.mod_lt _ (by positivity)
    rw [show 10 * 10 ^ f = 10 ^ (f + 1) by rw [pow_succ, mul_comm]]
    exact this
  · apply Nat.div_lt_of_lt_mul
    rwa [← pow_add, Nat.add_comm (f + 1) a]

theorem unchecked_deriv (i : ConvId) (hi : IsDeriv i) (x : Int) (hx : PriceFits i x) (v : Slice)
    (h : Holds v (derivPrice i x)) : uncheckedPrice i.priceCfg v = misread i x := by
  have hs : ((if x < 0 then 45 else 48 : UInt8).toNat % 16) = if x < 0 then 13 else 0 := by split <;> rfl
  unfold uncheckedPrice misread
  unfold derivPrice at h
  unfold PriceFits at hx
  rcases hi with rfl | rfl | rfl | rfl
  · have := unchecked_whole v _ _ hx h
    rw [hs] at this
    show decimal (v.nibbles 8) = _
    rw [this]; split <;> norm_num
  · have := unchecked_whole v _ _ hx h
    rw [hs] at this
    show decimal (v.nibbles 8) = _
    rw [this]; split <;> norm_num
  · have := unchecked_point v _ 4 2 _ hx h
    rw [hs] at this
    show decimal (v.nibbles 8) = _
    rw [this]; split <;> norm_num <;> omega
  · have := unchecked_point v _ 5 1 _ hx h
    rw [hs] at this
    show decimal (v.nibbles 8) = _
    rw [this]; split <;> norm_num <;> omega

/-- The same message into a new trade: every field but the price as composed; the price is misread. -/
theorem C102_trade_new (m : Mode) (want : Bool) (h : Heading) (ok : h.Ok) (d : Deal) (hd : d.Ok h.format) (p : Slice)
    (hp : IsMessage p (tradeOnly h d)) (sys : Nat) (g : Gen) (t : Nat) (g' : Gen)
    (ht : parseStamp m krxOffset (ofList h.time.text) sys g = .ok (t, g')) :
    tradeParse m want p sys g = .ok
      ({ id := ⟨.isin h.isin, .krx⟩, stamp := t, sys := sys, price := misread h.format d.price, qty := d.qty,
         kind := some d.kind, cum := if want then some d.cum else none, conv := h.format }, g') := by
  obtain ⟨hlen, hend, e1, e3, hf, e4⟩ := trade_facts h ok d hd p hp
  obtain ⟨-, d0, d2, d3, d4, -⟩ := deal_reads h d hd _ want p hf e4
  rw [trade_reads m want p sys g hlen hend (by rw [e1]; exact ok.2.2.1), heading_stamp m h p e3, ht, e1, d2, d3,
    d4, hf, unchecked_deriv _ (format_deriv h) _ hd.1 _ d0]
  rfl

/-- The misread price is never the price, except zero in a format without decimals. -/
theorem C102_always_wrong (i : ConvId) (hi : IsDeriv i) (x : Int) (h : (misread i x : Int) = x) :
    x = 0 ∧ decimals i = 0 := by
  unfold misread at h
  rcases hi with rfl | rfl | rfl | rfl <;> dsimp only at h <;> split at h <;>
    first
    | (refine ⟨?_, rfl⟩; omega)
    | (exfalso; omega)

/-- Non-vacuity of C102 and the fault: a KOSPI 200 future traded at 1379.70; a buffer gets 137970, a new trade
138047. -/
theorem fault_trade_price (m : Mode) :
    let h : Heading := ⟨ascii "A301F", ascii "        G140", ascii "KR4101V90006", ascii "000001", ⟨10, 49, 39, 81108⟩⟩
    let d : Deal := ⟨137970, 5, 4177, .sell, List.replicate 54 48, List.replicate 22 48, List.replicate 18 48⟩
    let p := ofList (tradeOnly h d)
    let g : Gen := ⟨19875 * dayNanos, 0, 0⟩
    (∃ r g', tradeParseInto m true p 0 g Trade.default = .ok (r, g') ∧ r.price = 137970 ∧ r.cum = some 4177 ∧ r.kind = some .sell) ∧
    (∃ r g', tradeParse m true p 0 g = .ok (r, g') ∧ r.price = 138047 ∧ r.cum = some 4177 ∧ r.kind = some .sell) := by
  intro h d p g
  have ok : h.Ok := by
    refine ⟨by decide, by decide, ⟨by decide, by decide⟩, by decide, ?_⟩
    unfold Reading.Valid; decide
  have hf : h.format = .baseDeriv := by decide
  have hd : d.Ok h.format := by rw [hf]; unfold Deal.Ok PriceFits; decide
  have ht := C99_first_time m h ok 0 g rfl (by decide)
  exact ⟨⟨_, _, C102_trade_buffer m true h ok d hd p ⟨by simp [p, ofList], holds_ofList _⟩ 0 g _ _ ht _, rfl, rfl, rfl⟩,
    ⟨_, _, C102_trade_new m true h ok d hd p ⟨by simp [p, ofList], holds_ofList _⟩ 0 g _ _ ht, by rw [hf]; decide, rfl, rfl⟩⟩

/-- Non-vacuity of C101, and a fault it describes: a stock future in a new buffer keeps the buffer's converter (that of
bonds, which divides by a thousand when the price is shown) with 0038. -/
theorem fault_stale_converter (m : Mode) :
    let h : Heading := ⟨ascii "G704F", ascii "        G140", ascii "KR41CNV10006", ascii "003661", ⟨10, 49, 39, 829612⟩⟩
    let d : Deal := ⟨66500, 7, 4177, .buy, List.replicate 54 48, List.replicate 22 48, List.replicate 18 48⟩
    let p := ofList (tradeQuote h d (List.replicate 10 ⟨⟨66600, 69, 10, 0⟩, ⟨66400, 68, 6, 0⟩⟩) (List.replicate 28 48))
    let g : Gen := ⟨19875 * dayNanos, 0, 0⟩
    (∃ r g', TradeQuoteMsg.d0038.parse m 10 true p 0 g = .ok (r, g') ∧ r.price = 66500 ∧ r.conv = .stockDeriv) ∧
    (∃ r g', TradeQuoteMsg.d0038.parseInto m 10 true p 0 g (TradeQuote.withLevel 10) = .ok (r, g') ∧ r.price = 66500 ∧
      r.conv = .bond) := by
  intro h d p g
  have ok : h.Ok := by
    refine ⟨by decide, by decide, ⟨by decide, by decide⟩, by decide, ?_⟩
    unfold Reading.Valid; decide
  have hf : h.format = .stockDeriv := by decide
  have hd : d.Ok h.format := by rw [hf]; unfold Deal.Ok PriceFits; decide
  have ht := C99_first_time m h ok 0 g rfl (by decide)
  have hr : ∀ r ∈ List.replicate 10 (⟨⟨66600, 69, 10, 0⟩, ⟨66400, 68, 6, 0⟩⟩ : Row), r.DerivFits h.format := by
    intro r hr
    obtain rfl := List.eq_of_mem_replicate hr
    rw [hf]; unfold Row.DerivFits PriceFits; decide
  exact ⟨⟨_, _, C101_trade_quote m .d0038 10 (by decide) true h ok d hd _ (by simp [TradeQuoteMsg.levels]) hr _ (by simp) p
      ⟨by simp [p, ofList], holds_ofList _⟩ 0 g _ _ ht, rfl, hf⟩,
    ⟨_, _, C101_buffer m .d0038 10 (by decide) true h ok d hd _ (by simp [TradeQuoteMsg.levels]) hr _ (by simp) p
      ⟨by simp [p, ofList], holds_ofList _⟩ 0 g _ _ ht _ (by simp [TradeQuote.withLevel]) (by simp [TradeQuote.withLevel]),
      rfl, rfl⟩⟩

end Verif.Props

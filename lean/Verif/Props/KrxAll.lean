import Verif.Props.KrxTrade
/-!
# KRX messages: buffers, what is accepted, what is read

C103 (parsing into a buffer), C104 (which messages are accepted), C105 (only the bytes of the message count).
All for arbitrary bytes.
-/
set_option autoImplicit false
namespace Verif.Props
open Verif Verif.TE.Num Verif.TE.Clock Verif.TE.Id Verif.TE.Krx

/-! ## What a message must be -/

/-- Length, end mark and a well-formed ISIN code. -/
def Wellformed (len : Nat) (p : Slice) : Prop := p.len = len ∧ p.mem (len - 1) = 255 ∧ IsinOk (fieldBytes p 17 12)

theorem valid_cases (len : Nat) (p : Slice) : (validPayload len p = .ok () ∧ p.len = len ∧ p.mem (len - 1) = 255) ∨
    (validPayload len p = refuse len p ∧ ¬ (p.len = len ∧ p.mem (len - 1) = 255)) := by
  unfold validPayload
  by_cases h1 : p.len = len
  · by_cases h2 : p.mem (len - 1) = 255
    · left; rw [if_neg (by simpa using h1), if_neg (by simpa using h2)]; exact ⟨rfl, h1, h2⟩
    · right; rw [if_neg (by simpa using h1), if_pos h2]; exact ⟨rfl, fun h => h2 h.2⟩
  · right; rw [if_pos h1]; exact ⟨rfl, fun h => h1 h.1⟩

theorem isin_cases (p : Slice) (hl : 29 ≤ p.len) : (isinOf p = .ok (fieldBytes p 17 12) ∧ IsinOk (fieldBytes p 17 12)) ∨
    (isinOf p = .error .err ∧ ¬ IsinOk (fieldBytes p 17 12)) := by
  by_cases h : IsinOk (fieldBytes p 17 12)
  · exact Or.inl ⟨isinOf_ok p hl h, h⟩
  · right
    refine ⟨?_, h⟩
    unfold isinOf
    refine bind_of_ok (sub_ok p 17 29 (by omega) hl) ?_
    show isinNew (fieldBytes p 17 12) = _
    have hn : ∀ x, isinNew (fieldBytes p 17 12) ≠ .ok x := fun x hx => h ((isinNew_iff _ _).1 hx).2
    unfold isinNew at hn ⊢
    split at hn
    · rename_i h1; rw [if_pos h1]
    · rename_i h1
      rw [if_neg h1]
      split at hn
      · rename_i h2; rw [if_pos h2]
      · rename_i h2
        rw [if_neg h2]
        split at hn
        · rename_i h3; rw [if_pos h3]
        · exact absurd rfl (hn _)

theorem refuse_error (len : Nat) (p : Slice) : ∃ e, refuse len p = .error e := by
  unfold refuse Slice.sub
  split
  · simp only [Res.bind_ok]; split <;> exact ⟨_, rfl⟩
  · exact ⟨_, rfl⟩

/-- How a message without the right length and end mark, or without an ISIN code, is refused. -/
def refusal (len : Nat) (p : Slice) : Fault :=
  if p.len = len ∧ p.mem (len - 1) = 255 then .err
  else if p.len < len - 1 then .index
  else if utf8 (fieldBytes p 0 (len - 1)) then .err else .unwrapNone

theorem refuse_eq (len : Nat) (p : Slice) (h : ¬ (p.len = len ∧ p.mem (len - 1) = 255)) :
    refuse len p = .error (refusal len p) := by
  unfold refuse refusal
  rw [if_neg h]
  by_cases hl : p.len < len - 1
  · rw [if_pos hl, sub_err p 0 (len - 1) (by omega)]; rfl
  · rw [if_neg hl, sub_ok p 0 (len - 1) (by omega) (by omega)]
    simp only [Res.bind_ok]
    have : bytesOf ⟨fun i => p.mem (0 + i), len - 1 - 0⟩ = fieldBytes p 0 (len - 1) := rfl
    rw [this]
    split <;> rfl

/-- A message that is not well-formed stops a parser that starts with the two checks. -/
theorem not_wellformed {α : Type} (len : Nat) (hl : 29 ≤ len) (p : Slice) (h : ¬ Wellformed len p)
    (k : List UInt8 → Res α) :
    (validPayload len p >>= fun _ => isinOf p >>= k) = .error (refusal len p) := by
  rcases valid_cases len p with ⟨e, h1, h2⟩ | ⟨e, h1⟩
  · rw [e]
    simp only [Res.bind_ok]
    rcases isin_cases p (by omega) with ⟨-, h3⟩ | ⟨e', -⟩
    · exact absurd ⟨h1, h2, h3⟩ h
    · rw [e']
      unfold refusal
      rw [if_pos ⟨h1, h2⟩]; rfl
  · rw [e, refuse_eq len p h1]; rfl

/-! ## C103: buffers -/

/-- What a parsed snapshot becomes in a buffer. -/
def intoBuffer (cut : Nat) (buf r : Quote) : Quote :=
  { r with ask := r.ask ++ buf.ask.drop cut, bid := r.bid ++ buf.bid.drop cut, cut := buf.cut, lpHoldings := buf.lpHoldings }

/-- C103. Parsing a quote message into a buffer with room for the levels does what parsing it into a new snapshot does,
for every message, good or bad: the same fault, or the same clock and the same snapshot but for the
levels behind the cut, the cut and the LP holdings, which stay. -/
theorem C103_quote_buffer (m : Mode) (q : QuoteMsg) (cut : Nat) (hcut : cut ≤ q.levels) (p : Slice) (sys : Nat) (g : Gen)
    (buf : Quote) (ha : cut ≤ buf.ask.length) (hb : cut ≤ buf.bid.length) :
    q.parseInto m cut p sys g buf = (q.parse m cut p sys g >>= fun r => .ok (intoBuffer cut buf r.1, r.2)) := by
  have hvb : validBuffer q.len cut buf.ask.length buf.bid.length p = .ok () := by
    unfold validBuffer; rw [if_neg (by omega)]
  by_cases hw : Wellformed q.len p
  · obtain ⟨h1, h2, h3⟩ := hw
    rw [quote_reads_into m q cut p sys g buf hcut ha hb h1 h2 h3, quote_reads m q cut p sys g hcut h1 h2 h3]
    rcases parseStamp m krxOffset (timeField p) sys g with e | r <;> rfl
  · have hl : 29 ≤ q.len := by have := len_ge q; omega
    have e1 : q.parseInto m cut p sys g buf = .error (refusal q.len p) := by
      unfold QuoteMsg.parseInto
      rw [hvb]
      exact not_wellformed q.len hl p hw _
    have e2 : q.parse m cut p sys g = .error (refusal q.len p) := not_wellformed q.len hl p hw _
    rw [e1, e2]; rfl

/-- In particular a buffer made for exactly these levels gets exactly the new snapshot. -/
theorem C103_quote_exact (m : Mode) (q : QuoteMsg) (cut : Nat) (hcut : cut ≤ q.levels) (p : Slice) (sys : Nat) (g : Gen)
    (buf : Quote) (ha : buf.ask.length = cut) (hb : buf.bid.length = cut) (hc : buf.cut = cut) (hl : buf.lpHoldings = none) :
    q.parseInto m cut p sys g buf = q.parse m cut p sys g := by
  rw [C103_quote_buffer m q cut hcut p sys g buf (by omega) (by omega)]
  by_cases hw : Wellformed q.len p
  · obtain ⟨h1, h2, h3⟩ := hw
    rw [quote_reads m q cut p sys g hcut h1 h2 h3]
    rcases parseStamp m krxOffset (timeField p) sys g with e | r
    · rfl
    · simp only [Res.bind_ok, intoBuffer, hc, hl]
      rw [List.drop_eq_nil_of_le (by omega), List.drop_eq_nil_of_le (by omega), List.append_nil, List.append_nil]
  · have hl : 29 ≤ q.len := by have := len_ge q; omega
    have e2 : q.parse m cut p sys g = .error (refusal q.len p) := not_wellformed q.len hl p hw _
    rw [e2]; rfl

/-- The same for messages with a trade; the converter stays too with 0038. -/
theorem C103_trade_quote_buffer (m : Mode) (q : TradeQuoteMsg) (cut : Nat) (hcut : cut ≤ q.levels) (want : Bool) (p : Slice)
    (sys : Nat) (g : Gen) (buf : TradeQuote) (ha : cut ≤ buf.ask.length) (hb : cut ≤ buf.bid.length) :
    q.parseInto m cut want p sys g buf = (q.parse m cut want p sys g >>= fun r =>
      .ok ({ r.1 with ask := r.1.ask ++ buf.ask.drop cut, bid := r.1.bid ++ buf.bid.drop cut, cut := buf.cut,
                      lpHoldings := buf.lpHoldings, conv := if q = .d0038 then buf.conv else r.1.conv }, r.2)) := by
  have hvb : validBuffer q.len cut buf.ask.length buf.bid.length p = .ok () := by
    unfold validBuffer; rw [if_neg (by omega)]
  by_cases hw : Wellformed q.len p
  · obtain ⟨h1, h2, h3⟩ := hw
    rw [tq_reads_into m q cut want p sys g buf hcut ha hb h1 h2 h3, tq_reads m q cut want p sys g hcut h1 h2 h3]
    rcases parseStamp m krxOffset (timeField p) sys g with e | r
    · rfl
    · cases q <;> rfl
  · have hl : 29 ≤ q.len := by have := (tq_len q).1; omega
    have e1 : q.parseInto m cut want p sys g buf = .error (refusal q.len p) := by
      unfold TradeQuoteMsg.parseInto
      rw [hvb]
      exact not_wellformed q.len hl p hw _
    have e2 : q.parse m cut want p sys g = .error (refusal q.len p) := not_wellformed q.len hl p hw _
    rw [e1, e2]; rfl

/-- A trade alone: the same but for the price. -/
theorem C103_trade_buffer (m : Mode) (want : Bool) (p : Slice) (sys : Nat) (g : Gen) (buf : Trade) :
    ∃ x, tradeParseInto m want p sys g buf
      = (tradeParse m want p sys g >>= fun r => .ok ({ r.1 with price := x }, r.2)) := by
  by_cases hw : Wellformed 173 p
  · obtain ⟨h1, h2, h3⟩ := hw
    refine ⟨checkedPrice (fmt p).priceCfg (p.drop 47), ?_⟩
    rw [trade_reads_into m want p sys g buf h1 h2 h3, trade_reads m want p sys g h1 h2 h3]
    rcases parseStamp m krxOffset (timeField p) sys g with e | r <;> rfl
  · refine ⟨0, ?_⟩
    have e1 : tradeParseInto m want p sys g buf = .error (refusal 173 p) := not_wellformed 173 (by omega) p hw _
    have e2 : tradeParse m want p sys g = .error (refusal 173 p) := not_wellformed 173 (by omega) p hw _
    rw [e1, e2]; rfl

/-- A buffer without room is refused before anything is written; a well-formed message of plain text is refused with
an error value. -/
theorem C103_small_buffer (m : Mode) (q : QuoteMsg) (cut : Nat) (p : Slice) (sys : Nat) (g : Gen) (buf : Quote)
    (h : buf.ask.length < cut ∨ buf.bid.length < cut) :
    ∃ e, q.parseInto m cut p sys g buf = .error e ∧
      (p.len = q.len → utf8 (fieldBytes p 0 (q.len - 1)) = true → e = .err) := by
  have key : ∀ k : Unit → Res (Quote × Gen), ∃ e, (validPayload q.len p >>= fun _ =>
      validBuffer q.len cut buf.ask.length buf.bid.length p >>= k) = .error e ∧
      (p.len = q.len → utf8 (fieldBytes p 0 (q.len - 1)) = true → e = .err) := by
    intro k
    have hr : p.len = q.len → utf8 (fieldBytes p 0 (q.len - 1)) = true → refuse q.len p = .error .err := by
      intro h1 h2
      unfold refuse
      refine bind_of_ok (sub_ok p 0 (q.len - 1) (by omega) (by omega)) ?_
      have : bytesOf ⟨fun i => p.mem (0 + i), q.len - 1 - 0⟩ = fieldBytes p 0 (q.len - 1) := rfl
      rw [this, if_pos h2]
    obtain ⟨e, he⟩ := refuse_error q.len p
    have hv : validBuffer q.len cut buf.ask.length buf.bid.length p = refuse q.len p := by
      unfold validBuffer; rw [if_pos h]
    refine ⟨e, ?_, fun h1 h2 => by rw [hr h1 h2] at he; exact (Except.error.inj he).symm⟩
    rcases valid_cases q.len p with ⟨e1, -⟩ | ⟨e1, -⟩
    · rw [e1]; simp only [Res.bind_ok]; rw [hv, he]; rfl
    · rw [e1, he]; rfl
  exact key _

/-! ## C104: acceptance -/

/-- The clock can take any twelve bytes: the day is before the middle of the range of stamps. -/
def ClockOk (g : Gen) : Prop := g.date + 9 * dayNanos < 2 ^ 63 ∧ g.prev < 2 ^ 63

theorem clock_ok (m : Mode) (p : Slice) (sys : Nat) (g : Gen) (hg : ClockOk g) :
    ∃ r, parseStamp m krxOffset (timeField p) sys g = .ok r := by
  obtain ⟨r, hr⟩ := stamp_total (timeField p) sys g (Nat.le_refl 12) hg.1 hg.2
  exact ⟨r, hr m⟩

/-- C104. A quote message is accepted exactly when it has the right length, the end mark and an ISIN code of twelve
ASCII characters without blanks or tabs: no other byte matters. What is not accepted is refused as `refusal` says. -/
theorem C104_quote_accept (m : Mode) (q : QuoteMsg) (cut : Nat) (hcut : cut ≤ q.levels) (p : Slice) (sys : Nat) (g : Gen)
    (hg : ClockOk g) :
    ((∃ r, q.parse m cut p sys g = .ok r) ↔ Wellformed q.len p) ∧
    (¬ Wellformed q.len p → q.parse m cut p sys g = .error (refusal q.len p)) := by
  have hl : 29 ≤ q.len := by have := len_ge q; omega
  have hn : ¬ Wellformed q.len p → q.parse m cut p sys g = .error (refusal q.len p) := fun h => not_wellformed q.len hl p h _
  refine ⟨⟨fun ⟨r, hr⟩ => by_contra fun h => ?_, fun ⟨h1, h2, h3⟩ => ?_⟩, hn⟩
  · rw [hn h] at hr; exact absurd hr (by simp)
  · obtain ⟨r, hr⟩ := clock_ok m p sys g hg
    rw [quote_reads m q cut p sys g hcut h1 h2 h3, hr]
    exact ⟨_, rfl⟩

theorem C104_trade_quote_accept (m : Mode) (q : TradeQuoteMsg) (cut : Nat) (hcut : cut ≤ q.levels) (want : Bool) (p : Slice)
    (sys : Nat) (g : Gen) (hg : ClockOk g) :
    ((∃ r, q.parse m cut want p sys g = .ok r) ↔ Wellformed q.len p) ∧
    (¬ Wellformed q.len p → q.parse m cut want p sys g = .error (refusal q.len p)) := by
  have hl : 29 ≤ q.len := by have := (tq_len q).1; omega
  have hn : ¬ Wellformed q.len p → q.parse m cut want p sys g = .error (refusal q.len p) :=
    fun h => not_wellformed q.len hl p h _
  refine ⟨⟨fun ⟨r, hr⟩ => by_contra fun h => ?_, fun ⟨h1, h2, h3⟩ => ?_⟩, hn⟩
  · rw [hn h] at hr; exact absurd hr (by simp)
  · obtain ⟨r, hr⟩ := clock_ok m p sys g hg
    rw [tq_reads m q cut want p sys g hcut h1 h2 h3, hr]
    exact ⟨_, rfl⟩

theorem C104_trade_accept (m : Mode) (want : Bool) (p : Slice) (sys : Nat) (g : Gen) (hg : ClockOk g) :
    ((∃ r, tradeParse m want p sys g = .ok r) ↔ Wellformed 173 p) ∧
    (¬ Wellformed 173 p → tradeParse m want p sys g = .error (refusal 173 p)) := by
  have hn : ¬ Wellformed 173 p → tradeParse m want p sys g = .error (refusal 173 p) :=
    fun h => not_wellformed 173 (by omega) p h _
  refine ⟨⟨fun ⟨r, hr⟩ => by_contra fun h => ?_, fun ⟨h1, h2, h3⟩ => ?_⟩, hn⟩
  · rw [hn h] at hr; exact absurd hr (by simp)
  · obtain ⟨r, hr⟩ := clock_ok m p sys g hg
    rw [trade_reads m want p sys g h1 h2 h3, hr]
    exact ⟨_, rfl⟩

/-- The levels asked for: more than the message has are refused when the parser is set up. -/
theorem C104_cut (q : QuoteMsg) (q' : TradeQuoteMsg) (cut : Nat) :
    (q.withCut cut = if cut ≤ q.levels then .ok cut else .error .err) ∧
    (q'.withCut cut = if cut ≤ q'.levels then .ok cut else .error .err) := by
  unfold QuoteMsg.withCut TradeQuoteMsg.withCut
  constructor
  · by_cases h : cut ≤ q.levels
    · rw [if_neg (by omega), if_pos h]
    · rw [if_pos (by omega), if_neg h]
  · by_cases h : cut ≤ q'.levels
    · rw [if_neg (by omega), if_pos h]
    · rw [if_pos (by omega), if_neg h]

/-- Non-vacuity: a message of blanks with an ISIN code is accepted; and the fault: a truncated packet is not refused
with an error but stops the program, as does a packet without end mark that is not UTF-8. -/
theorem fault_short_packet (m : Mode) (sys : Nat) (g : Gen) (q : QuoteMsg) (cut : Nat) (hcut : cut ≤ q.levels) (p : Slice)
    (hg : ClockOk g) (h : p.len + 1 < q.len) : q.parse m cut p sys g = .error .index := by
  rw [(C104_quote_accept m q cut hcut p sys g hg).2 (fun hw => by have := hw.1; omega)]
  unfold refusal
  rw [if_neg (by omega), if_pos (by omega)]

theorem fault_not_text (m : Mode) (sys : Nat) (g : Gen) (hg : ClockOk g) :
    QuoteMsg.d0034.parse m 5 (ofList (List.replicate 324 200)) sys g = .error .unwrapNone := by
  rw [(C104_quote_accept m .d0034 5 (by decide) _ sys g hg).2 (fun h => absurd h.2.1 (by decide +kernel))]
  refine congrArg Except.error ?_
  decide +kernel

example (m : Mode) : ∃ r, QuoteMsg.s0002.parse m 10
    (ofList (List.replicate 17 32 ++ ascii "KR7005930003" ++ List.replicate 525 32 ++ [255])) 0 ⟨0, 0, 0⟩ = .ok r := by
  rw [(C104_quote_accept m .s0002 10 (by decide) _ 0 ⟨0, 0, 0⟩ (by unfold ClockOk dayNanos; decide)).1]
  unfold Wellformed IsinOk
  decide +kernel

/-! ## C105: only the bytes of the message count -/

/-- The two slices have the same length and the same bytes; what lies behind them may differ. -/
def SameBytes (p p' : Slice) : Prop := p.len = p'.len ∧ ∀ i, i < p.len → p.mem i = p'.mem i

theorem field_same {p p' : Slice} (h : SameBytes p p') (a n : Nat) (hn : a + n ≤ p.len) :
    fieldBytes p a n = fieldBytes p' a n := by
  unfold fieldBytes
  exact List.map_congr_left fun i hi => h.2 _ (by have := List.mem_range.1 hi; omega)

theorem drop_same {p p' : Slice} (h : SameBytes p p') (a n : Nat) (hn : a + n ≤ p.len) (i : Nat) (hi : i < n) :
    (p.drop a).mem i = (p'.drop a).mem i := h.2 (a + i) (by omega)

theorem checkedPrice_same (i : ConvId) (v v' : Slice) (h : ∀ j, j < i.priceCfg.total → v.mem j = v'.mem j) :
    checkedPrice i.priceCfg v = checkedPrice i.priceCfg v' := by
  have h0 : v.mem 0 = v'.mem 0 := h 0 (by cases i <;> decide)
  have hr : rawPrice i.priceCfg v = rawPrice i.priceCfg v' := by
    unfold rawPrice
    rw [fixed_same (v.drop (prefixLen i.priceCfg)) (v'.drop (prefixLen i.priceCfg)) _ _ (by cases i <;> decide)]
    intro j hj
    exact h _ (by revert hj; cases i <;> simp [prefixLen, parsed, ConvId.priceCfg] <;> omega)
  unfold checkedPrice
  rw [h0, hr]

theorem uncheckedPrice_same (i : ConvId) (v v' : Slice) (h : ∀ j, j < i.priceCfg.total → v.mem j = v'.mem j) :
    uncheckedPrice i.priceCfg v = uncheckedPrice i.priceCfg v' := by
  unfold uncheckedPrice
  rw [nibbles_same v v' _ fun j hj => h j ?_]
  revert hj; cases i <;> simp [parsed, ConvId.priceCfg] <;> omega

theorem blockPrice_same (b : Block) (i : ConvId) (v v' : Slice) (h : ∀ j, j < i.priceCfg.total → v.mem j = v'.mem j) :
    blockPrice b i v = blockPrice b i v' := by
  unfold blockPrice
  cases b <;> dsimp only
  · exact checkedPrice_same i v v' h
  · rw [uncheckedPrice_same i v v' h]
  · rw [uncheckedPrice_same i v v' h]

theorem blockOf_same (b : Block) (i : ConvId) (v v' : Slice) (h : ∀ j, j < blockLen b i → v.mem j = v'.mem j) :
    blockOf b i v = blockOf b i v' := by
  have hn : ∀ a n, a + n ≤ blockLen b i → decimal ((v.drop a).nibbles n) = decimal ((v'.drop a).nibbles n) := by
    intro a n han
    rw [nibbles_same (v.drop a) (v'.drop a) n fun j hj => h (a + j) (by omega)]
  have hp : ∀ a, a + i.priceCfg.total ≤ blockLen b i → blockPrice b i (v.drop a) = blockPrice b i (v'.drop a) := by
    intro a ha
    exact blockPrice_same b i _ _ fun j hj => h (a + j) (by omega)
  have hp0 : blockPrice b i v = blockPrice b i v' :=
    blockPrice_same b i v v' fun j hj => h j (by cases b <;> simp only [blockLen] <;> omega)
  unfold blockOf
  cases b <;> simp only [blockLen] at hn hp <;> dsimp only
  · rw [hp0, hp _ (by omega), hn _ _ (by omega), hn _ _ (by omega), hn _ _ (by omega), hn _ _ (by omega)]
  · rw [hp0, hp _ (by omega), hn _ _ (by omega), hn _ _ (by omega)]
  · rw [hp0, hp _ (by omega), hn _ _ (by omega), hn _ _ (by omega), hn _ _ (by omega), hn _ _ (by omega)]

theorem refusal_same {len : Nat} (hl : 1 ≤ len) {p p' : Slice} (h : SameBytes p p') : refusal len p = refusal len p' := by
  have h1 : (p.len = len ∧ p.mem (len - 1) = 255) ↔ (p'.len = len ∧ p'.mem (len - 1) = 255) := by
    rw [← h.1]
    constructor
    · rintro ⟨a, b⟩; exact ⟨a, by rw [← h.2 _ (by omega)]; exact b⟩
    · rintro ⟨a, b⟩; exact ⟨a, by rw [h.2 _ (by omega)]; exact b⟩
  unfold refusal
  simp only [h1, ← h.1]
  by_cases h2 : p.len < len - 1
  · simp only [if_pos h2]
  · rw [field_same h 0 (len - 1) (by omega)]

theorem wellformed_same {len : Nat} (hl : 29 ≤ len) {p p' : Slice} (h : SameBytes p p') :
    Wellformed len p ↔ Wellformed len p' := by
  unfold Wellformed
  constructor
  · rintro ⟨a, b, c⟩
    exact ⟨by rw [← h.1]; exact a, by rw [← h.2 _ (by omega)]; exact b, by rw [← field_same h 17 12 (by omega)]; exact c⟩
  · rintro ⟨a, b, c⟩
    have hp : p.len = len := by rw [h.1]; exact a
    exact ⟨hp, by rw [h.2 _ (by omega)]; exact b, by rw [field_same h 17 12 (by omega)]; exact c⟩

theorem time_same (m : Mode) {p p' : Slice} (h : SameBytes p p') (hl : 47 ≤ p.len) (sys : Nat) (g : Gen) :
    parseStamp m krxOffset (timeField p) sys g = parseStamp m krxOffset (timeField p') sys g :=
  stamp_same m _ _ _ sys g ⟨rfl, fun i hi => h.2 (35 + i) (by omega)⟩

/-- C105. Whether and how a message is parsed depends only on its own bytes, never on what lies behind it in memory
(the parser reads in words of several bytes through raw pointers). -/
theorem C105_quote (m : Mode) (q : QuoteMsg) (cut : Nat) (hcut : cut ≤ q.levels) (p p' : Slice) (h : SameBytes p p')
    (sys : Nat) (g : Gen) : q.parse m cut p sys g = q.parse m cut p' sys g := by
  have hl := len_ge q
  by_cases hw : Wellformed q.len p
  · obtain ⟨h1, h2, h3⟩ := hw
    obtain ⟨k1, k2, k3⟩ := (wellformed_same (by omega) h).1 ⟨h1, h2, h3⟩
    have hq : quoteConv q p = quoteConv q p' := by
      unfold quoteConv
      rw [field_same h 2 3 (by omega), field_same h 17 12 (by omega)]
    have hb : ∀ k, k < cut → quoteBlock q p k = quoteBlock q p' k := by
      intro k hk
      unfold quoteBlock
      rw [hq]
      apply blockOf_same
      intro j hj
      have := quote_layout q p' (k + 1) (by omega)
      rw [Nat.add_mul, Nat.one_mul] at this
      exact h.2 _ (by omega)
    rw [quote_reads m q cut p sys g hcut h1 h2 h3, quote_reads m q cut p' sys g hcut k1 k2 k3, time_same m h (by omega),
      hq, field_same h 17 12 (by omega)]
    have e1 : (List.range cut).map (fun k => (quoteBlock q p k).1) = (List.range cut).map fun k => (quoteBlock q p' k).1 :=
      List.map_congr_left fun k hk => by rw [hb k (List.mem_range.1 hk)]
    have e2 : (List.range cut).map (fun k => (quoteBlock q p k).2) = (List.range cut).map fun k => (quoteBlock q p' k).2 :=
      List.map_congr_left fun k hk => by rw [hb k (List.mem_range.1 hk)]
    rw [e1, e2]
  · have e1 : q.parse m cut p sys g = .error (refusal q.len p) := not_wellformed q.len (by omega) p hw _
    have e2 : q.parse m cut p' sys g = .error (refusal q.len p') :=
      not_wellformed q.len (by omega) p' (fun h' => hw ((wellformed_same (by omega) h).2 h')) _
    rw [e1, e2, refusal_same (by omega) h]

theorem C105_quote_buffer (m : Mode) (q : QuoteMsg) (cut : Nat) (hcut : cut ≤ q.levels) (p p' : Slice) (h : SameBytes p p')
    (sys : Nat) (g : Gen) (buf : Quote) (ha : cut ≤ buf.ask.length) (hb : cut ≤ buf.bid.length) :
    q.parseInto m cut p sys g buf = q.parseInto m cut p' sys g buf := by
  rw [C103_quote_buffer m q cut hcut p sys g buf ha hb, C103_quote_buffer m q cut hcut p' sys g buf ha hb,
    C105_quote m q cut hcut p p' h]

theorem deal_same {p p' : Slice} (h : SameBytes p p') (hl : 173 ≤ p.len) (want : Bool) :
    fmt p = fmt p' ∧ checkedPrice (fmt p).priceCfg (p.drop 47) = checkedPrice (fmt p').priceCfg (p'.drop 47) ∧
      uncheckedPrice (fmt p).priceCfg (p.drop 47) = uncheckedPrice (fmt p').priceCfg (p'.drop 47) ∧ rawQty p = rawQty p' ∧
      rawKind p = rawKind p' ∧ rawCum want p = rawCum want p' := by
  have hf : fmt p = fmt p' := by
    unfold fmt; rw [field_same h 2 3 (by omega), field_same h 17 12 (by omega)]
  have hP := (deriv_cfg _ (fmt_deriv p)).1
  refine ⟨hf, ?_, ?_, ?_, ?_, ?_⟩
  · rw [← hf]; exact checkedPrice_same _ _ _ fun j hj => h.2 (47 + j) (by omega)
  · rw [← hf]; exact uncheckedPrice_same _ _ _ fun j hj => h.2 (47 + j) (by omega)
  · unfold rawQty; rw [nibbles_same (p.drop 56) (p'.drop 56) 9 fun j hj => h.2 (56 + j) (by omega)]
  · unfold rawKind; rw [h.2 153 (by omega)]
  · unfold rawCum; rw [nibbles_same (p.drop 119) (p'.drop 119) 12 fun j hj => h.2 (119 + j) (by omega)]

theorem C105_trade_quote (m : Mode) (q : TradeQuoteMsg) (cut : Nat) (hcut : cut ≤ q.levels) (want : Bool) (p p' : Slice)
    (h : SameBytes p p') (sys : Nat) (g : Gen) : q.parse m cut want p sys g = q.parse m cut want p' sys g := by
  obtain ⟨l1, l2, l3⟩ := tq_len q
  by_cases hw : Wellformed q.len p
  · obtain ⟨h1, h2, h3⟩ := hw
    obtain ⟨k1, k2, k3⟩ := (wellformed_same (by omega) h).1 ⟨h1, h2, h3⟩
    obtain ⟨d1, d2, -, d3, d4, d5⟩ := deal_same h (by omega) want
    have hb : ∀ k, k < cut → tradeBlock p k = tradeBlock p' k := by
      intro k hk
      unfold tradeBlock
      rw [d1]
      apply blockOf_same
      intro j hj
      have hbl : blockLen .counts (fmt p') = 46 := blockLen_deriv _ _
      rw [hbl] at hj
      exact h.2 _ (by omega)
    rw [tq_reads m q cut want p sys g hcut h1 h2 h3, tq_reads m q cut want p' sys g hcut k1 k2 k3, time_same m h (by omega),
      d2, d3, d4, d5, d1, field_same h 17 12 (by omega)]
    have e1 : (List.range cut).map (fun k => (tradeBlock p k).1) = (List.range cut).map fun k => (tradeBlock p' k).1 :=
      List.map_congr_left fun k hk => by rw [hb k (List.mem_range.1 hk)]
    have e2 : (List.range cut).map (fun k => (tradeBlock p k).2) = (List.range cut).map fun k => (tradeBlock p' k).2 :=
      List.map_congr_left fun k hk => by rw [hb k (List.mem_range.1 hk)]
    rw [e1, e2]
  · have e1 : q.parse m cut want p sys g = .error (refusal q.len p) := not_wellformed q.len (by omega) p hw _
    have e2 : q.parse m cut want p' sys g = .error (refusal q.len p') :=
      not_wellformed q.len (by omega) p' (fun h' => hw ((wellformed_same (by omega) h).2 h')) _
    rw [e1, e2, refusal_same (by omega) h]

theorem C105_trade (m : Mode) (want : Bool) (p p' : Slice) (h : SameBytes p p') (sys : Nat) (g : Gen) (buf : Trade) :
    tradeParse m want p sys g = tradeParse m want p' sys g ∧
    tradeParseInto m want p sys g buf = tradeParseInto m want p' sys g buf := by
  by_cases hw : Wellformed 173 p
  · obtain ⟨h1, h2, h3⟩ := hw
    obtain ⟨k1, k2, k3⟩ := (wellformed_same (by omega) h).1 ⟨h1, h2, h3⟩
    obtain ⟨d1, d2, d2', d3, d4, d5⟩ := deal_same h (by omega) want
    rw [trade_reads m want p sys g h1 h2 h3, trade_reads m want p' sys g k1 k2 k3,
      trade_reads_into m want p sys g buf h1 h2 h3, trade_reads_into m want p' sys g buf k1 k2 k3,
      time_same m h (by omega), d2, d2', d3, d4, d5, d1, field_same h 17 12 (by omega)]
    exact ⟨rfl, rfl⟩
  · have hw' : ¬ Wellformed 173 p' := fun h' => hw ((wellformed_same (by omega) h).2 h')
    have e1 : tradeParse m want p sys g = .error (refusal 173 p) := not_wellformed 173 (by omega) p hw _
    have e2 : tradeParse m want p' sys g = .error (refusal 173 p') := not_wellformed 173 (by omega) p' hw' _
    have e3 : tradeParseInto m want p sys g buf = .error (refusal 173 p) := not_wellformed 173 (by omega) p hw _
    have e4 : tradeParseInto m want p' sys g buf = .error (refusal 173 p') := not_wellformed 173 (by omega) p' hw' _
    rw [e1, e2, e3, e4, refusal_same (by omega) h]
    exact ⟨rfl, rfl⟩

/-- Non-vacuity: two memories that differ behind a message. -/
example : SameBytes (ofList [1, 2]) ⟨fun i => if i = 0 then 1 else if i = 1 then 2 else 77, 2⟩ ∧
    (ofList [1, 2]).mem 5 ≠ 77 := by
  refine ⟨⟨rfl, fun i hi => ?_⟩, by decide⟩
  have : i = 0 ∨ i = 1 := by have : i < 2 := hi; omega
  rcases this with rfl | rfl <;> rfl

end Verif.Props

import Verif.Props.KrxCore
/-!
# KRX messages: quotes

C99 (derivative quotes), C100 (stock quotes). The specification is the layout of the messages as the exchange
publishes it (the tables in the comments of derivative_quote.rs 29-80, 250-331 and stock_quote.rs 35-96, 254-333):
a message is composed field by field from what it reports, and the parser must deliver what went in.
-/
set_option autoImplicit false
namespace Verif.Props
open Verif Verif.TE.Num Verif.TE.Clock Verif.TE.Id Verif.TE.Krx

/-! ## Specification -/

/-- The bytes of an ASCII text. -/
def ascii (s : String) : List UInt8 := s.toList.map fun c => UInt8.ofNat c.toNat

/-- An ISIN code: twelve ASCII characters, none of them a blank or a tab. -/
def IsinOk (l : List UInt8) : Prop := l.length = 12 ∧ ∀ b ∈ l, b < 128 ∧ b ≠ 32 ∧ b ≠ 9

/-- The fields every message starts with. -/
structure Heading where
  /-- transaction code, 5 bytes: data category (2) and information category (3) -/
  code : List UInt8
  /-- sequence number (8), board (2), session (2) -/
  seq : List UInt8
  /-- 12 bytes -/
  isin : List UInt8
  /-- designated number, 6 bytes -/
  number : List UInt8
  time : Reading

def Heading.bytes (h : Heading) : List UInt8 := h.code ++ (h.seq ++ (h.isin ++ (h.number ++ h.time.text)))

def Heading.Ok (h : Heading) : Prop :=
  h.code.length = 5 ∧ h.seq.length = 12 ∧ IsinOk h.isin ∧ h.number.length = 6 ∧ h.time.Valid

/-- Which format the prices of a derivative have: whole numbers for stock derivatives (information category 04F or
05F) and commodity derivatives (10F), three decimals for risk free rate derivatives (by ISIN code), else two. -/
def formatOf (category isin : List UInt8) : ConvId :=
  if category = ascii "04F" ∨ category = ascii "05F" then .stockDeriv
  else if category = ascii "10F" then .commodity
  else if isin.take 6 = ascii "KR4169" then .riskFree
  else .baseDeriv

def Heading.format (h : Heading) : ConvId := formatOf (h.code.drop 2) h.isin

/-- The number of decimals of a format. -/
def decimals : ConvId → Nat
  | .riskFree => 3
  | .baseDeriv => 2
  | _ => 0

/-- A derivative price of nine characters: sign, digits and, if there are decimals, the point. -/
def derivPrice (i : ConvId) (x : Int) : List UInt8 :=
  (if x < 0 then 45 else 48) ::
    (if decimals i = 0 then text 8 x.natAbs else fixedText (7 - decimals i) (decimals i) x.natAbs)

/-- The price fits. -/
def PriceFits (i : ConvId) (x : Int) : Prop := x.natAbs < 10 ^ (if decimals i = 0 then 8 else 7)

/-- One side of a level: the price in units of the last digit, the quantity, the number of orders, the quantity of
liquidity providers. -/
structure Offer where
  price : Int
  qty : Nat
  count : Nat
  lp : Nat

structure Row where
  ask : Offer
  bid : Offer

/-- A level of a derivative message. -/
def Row.deriv (i : ConvId) (r : Row) : List UInt8 :=
  derivPrice i r.ask.price ++ (derivPrice i r.bid.price ++ (text 9 r.ask.qty ++ (text 9 r.bid.qty ++
    (text 5 r.ask.count ++ text 5 r.bid.count))))

def Row.DerivFits (i : ConvId) (r : Row) : Prop :=
  PriceFits i r.ask.price ∧ PriceFits i r.bid.price ∧ r.ask.qty < 10 ^ 9 ∧ r.bid.qty < 10 ^ 9 ∧
    r.ask.count < 10 ^ 5 ∧ r.bid.count < 10 ^ 5

/-- A level of a stock message without and with quantities of liquidity providers. -/
def Row.stock (r : Row) : List UInt8 :=
  text 11 r.ask.price.natAbs ++ (text 11 r.bid.price.natAbs ++ (text 12 r.ask.qty ++ text 12 r.bid.qty))

def Row.stockLp (r : Row) : List UInt8 :=
  text 11 r.ask.price.natAbs ++ (text 11 r.bid.price.natAbs ++ (text 12 r.ask.qty ++ (text 12 r.bid.qty ++
    (text 12 r.ask.lp ++ text 12 r.bid.lp))))

def Row.StockFits (r : Row) : Prop :=
  0 ≤ r.ask.price ∧ r.ask.price < 10 ^ 9 ∧ 0 ≤ r.bid.price ∧ r.bid.price < 10 ^ 9 ∧ r.ask.qty < 10 ^ 12 ∧
    r.bid.qty < 10 ^ 12 ∧ r.ask.lp < 10 ^ 12 ∧ r.bid.lp < 10 ^ 12

/-- The slice is exactly this message; anything may lie behind it in memory. -/
def IsMessage (p : Slice) (l : List UInt8) : Prop := p.len = l.length ∧ Holds p l

/-! ## Reading a message, whatever its bytes are -/

/-- `n` bytes of a message from position `a`. -/
def fieldBytes (p : Slice) (a n : Nat) : List UInt8 := (List.range n).map fun i => p.mem (a + i)

theorem bytesOf_mk (p : Slice) (a n : Nat) : bytesOf ⟨fun i => p.mem (a + i), n⟩ = fieldBytes p a n := rfl

theorem valid_ok (len : Nat) (p : Slice) (h1 : p.len = len) (h2 : p.mem (len - 1) = 255) : validPayload len p = .ok () := by
  unfold validPayload
  rw [if_neg (by simpa using h1), if_neg (by simpa using h2)]

theorem isinNew_ok (l : List UInt8) (h : IsinOk l) : isinNew l = .ok l := by
  unfold isinNew whiteSpace isAscii
  have h1 : (l.contains 32 || l.contains 9) = false := by
    rw [Bool.or_eq_false_iff]
    constructor
    · rw [← Bool.not_eq_true, List.contains_iff_mem]; exact fun hm => (h.2 _ hm).2.1 rfl
    · rw [← Bool.not_eq_true, List.contains_iff_mem]; exact fun hm => (h.2 _ hm).2.2 rfl
  have h2 : (l.all (· < 128)) = true := by
    rw [List.all_eq_true]; intro b hb; simpa using (h.2 b hb).1
  rw [h1, h2, if_neg (by simp), if_neg (by simp), if_neg (by simp [h.1])]

theorem isinNew_iff (l : List UInt8) (x : List UInt8) : isinNew l = .ok x ↔ x = l ∧ IsinOk l := by
  refine ⟨fun h => ?_, fun ⟨hx, h⟩ => by rw [hx]; exact isinNew_ok l h⟩
  unfold isinNew whiteSpace isAscii at h
  split at h
  · exact absurd h (by simp)
  · rename_i h1
    split at h
    · exact absurd h (by simp)
    · rename_i h2
      split at h
      · exact absurd h (by simp)
      · rename_i h3
        refine ⟨(Except.ok.inj h).symm, by simpa using h3, fun b hb => ⟨?_, ?_, ?_⟩⟩
        · simp only [Bool.not_eq_true, Bool.not_eq_false', List.all_eq_true] at h2
          simpa using h2 b hb
        · rintro rfl; exact h1 (by simp [hb])
        · rintro rfl; exact h1 (by simp [hb])

theorem isinOf_ok (p : Slice) (hl : 29 ≤ p.len) (h : IsinOk (fieldBytes p 17 12)) :
    isinOf p = .ok (fieldBytes p 17 12) := by
  unfold isinOf
  exact bind_of_ok (sub_ok p 17 29 (by omega) hl) (isinNew_ok _ h)

theorem derivConv_ok (p : Slice) (isin : List UInt8) (hl : 5 ≤ p.len) :
    (p.sub 0 5 >>= fun head => derivConv head isin) = .ok (formatOf (fieldBytes p 2 3) isin) := by
  refine bind_of_ok (sub_ok p 0 5 (by omega) hl) ?_
  unfold derivConv
  refine bind_of_ok (sub_ok _ 2 5 (by omega) (by simp)) ?_
  dsimp only
  have e : bytesOf ⟨fun i => p.mem (0 + (2 + i)), 5 - 2⟩ = fieldBytes p 2 3 := by
    unfold bytesOf fieldBytes
    exact List.map_congr_left fun i _ => by show p.mem (0 + (2 + i)) = _; rw [Nat.zero_add]
  have a1 : ascii "04F" = [48, 52, 70] := by decide
  have a2 : ascii "05F" = [48, 53, 70] := by decide
  have a3 : ascii "10F" = [49, 48, 70] := by decide
  have a4 : ascii "KR4169" = [75, 82, 52, 49, 54, 57] := by decide
  unfold formatOf
  rw [e, a1, a2, a3, a4]
  split
  · rfl
  · split
    · rfl
    · split <;> rfl

/-- The converter of a quote message. -/
def quoteConv (q : QuoteMsg) (p : Slice) : ConvId :=
  match q with
  | .d0034 | .d0035 => formatOf (fieldBytes p 2 3) (fieldBytes p 17 12)
  | .s0002 | .s0003 => .stock

theorem quoteConv_ok (q : QuoteMsg) (p : Slice) (hl : 5 ≤ p.len) : q.conv p (fieldBytes p 17 12) = .ok (quoteConv q p) := by
  cases q
  · exact derivConv_ok p _ hl
  · exact derivConv_ok p _ hl
  · rfl
  · rfl

theorem formatOf_cases (a b : List UInt8) : formatOf a b = .stockDeriv ∨ formatOf a b = .commodity ∨ formatOf a b = .riskFree ∨
    formatOf a b = .baseDeriv := by
  unfold formatOf; split <;> (try split) <;> (try split) <;> simp

theorem blockLen_deriv (a b : List UInt8) : blockLen .counts (formatOf a b) = 46 := by
  rcases formatOf_cases a b with h | h | h | h <;> rw [h] <;> rfl

theorem quote_layout (q : QuoteMsg) (p : Slice) (cut : Nat) (hcut : cut ≤ q.levels) :
    q.start + cut * blockLen q.block (quoteConv q p) ≤ q.len := by
  cases q
  · have : cut ≤ 5 := hcut
    simp only [QuoteMsg.start, QuoteMsg.block, quoteConv, blockLen_deriv, QuoteMsg.len]; omega
  · have : cut ≤ 10 := hcut
    simp only [QuoteMsg.start, QuoteMsg.block, quoteConv, blockLen_deriv, QuoteMsg.len]; omega
  · have : cut ≤ 10 := hcut
    show 47 + cut * 46 ≤ 555; omega
  · have : cut ≤ 10 := hcut
    show 47 + cut * 70 ≤ 795; omega

/-- Block `k` of a quote message. -/
def quoteBlock (q : QuoteMsg) (p : Slice) (k : Nat) : Level × Level :=
  blockOf q.block (quoteConv q p) (p.drop (q.start + k * blockLen q.block (quoteConv q p)))

/-- The time field of a message. -/
def timeField (p : Slice) : Slice := ⟨fun i => p.mem (35 + i), 12⟩

theorem blocks_eq (cut : Nat) (h : cut ≤ 10) : blocks cut = cut := by unfold blocks; rw [if_pos h]

theorem levels_le (q : QuoteMsg) : q.levels ≤ 10 := by cases q <;> decide
theorem len_ge (q : QuoteMsg) : 47 ≤ q.len := by cases q <;> decide

/-- A message of the right length, with the end mark and an ISIN code, into a new snapshot: everything but the clock
is always readable. -/
theorem quote_reads (m : Mode) (q : QuoteMsg) (cut : Nat) (p : Slice) (sys : Nat) (g : Gen) (hcut : cut ≤ q.levels)
    (hlen : p.len = q.len) (hend : p.mem (q.len - 1) = 255) (hisin : IsinOk (fieldBytes p 17 12)) :
    q.parse m cut p sys g = (parseStamp m krxOffset (timeField p) sys g >>= fun r =>
      .ok (⟨⟨.isin (fieldBytes p 17 12), .krx⟩, r.1, sys, (List.range cut).map fun k => (quoteBlock q p k).1,
        (List.range cut).map fun k => (quoteBlock q p k).2, cut, none, quoteConv q p⟩, r.2)) := by
  have hl := len_ge q
  have h10 := levels_le q
  unfold QuoteMsg.parse
  refine bind_of_ok (valid_ok _ p hlen hend) (bind_of_ok (isinOf_ok p (by omega) hisin)
    (bind_of_ok (quoteConv_ok q p (by omega)) ?_))
  obtain ⟨c, hc, -⟩ := load_conv (quoteConv q p)
  refine bind_of_ok hc (bind_of_ok (sub_ok p 35 47 (by omega) (by omega)) ?_)
  rw [blocks_eq cut (by omega), fill_reads m q.block (quoteConv q p) c hc p q.start cut _ (by simp) (by simp)
    (by rw [hlen]; exact quote_layout q p cut hcut)]
  simp only [Res.bind_ok, List.drop_replicate, Nat.sub_self, List.replicate_zero, List.append_nil]
  rfl

/-- The same into a buffer that is large enough. -/
theorem quote_reads_into (m : Mode) (q : QuoteMsg) (cut : Nat) (p : Slice) (sys : Nat) (g : Gen) (buf : Quote)
    (hcut : cut ≤ q.levels) (ha : cut ≤ buf.ask.length) (hb : cut ≤ buf.bid.length)
    (hlen : p.len = q.len) (hend : p.mem (q.len - 1) = 255) (hisin : IsinOk (fieldBytes p 17 12)) :
    q.parseInto m cut p sys g buf = (parseStamp m krxOffset (timeField p) sys g >>= fun r =>
      .ok (⟨⟨.isin (fieldBytes p 17 12), .krx⟩, r.1, sys,
        (List.range cut).map (fun k => (quoteBlock q p k).1) ++ buf.ask.drop cut,
        (List.range cut).map (fun k => (quoteBlock q p k).2) ++ buf.bid.drop cut, buf.cut, buf.lpHoldings,
        quoteConv q p⟩, r.2)) := by
  have hl := len_ge q
  have h10 := levels_le q
  have hvb : validBuffer q.len cut buf.ask.length buf.bid.length p = .ok () := by
    unfold validBuffer; rw [if_neg (by omega)]
  unfold QuoteMsg.parseInto
  refine bind_of_ok (valid_ok _ p hlen hend) (bind_of_ok hvb (bind_of_ok (isinOf_ok p (by omega) hisin)
    (bind_of_ok (quoteConv_ok q p (by omega)) ?_)))
  obtain ⟨c, hc, -⟩ := load_conv (quoteConv q p)
  refine bind_of_ok hc (bind_of_ok (sub_ok p 35 47 (by omega) (by omega)) ?_)
  rw [blocks_eq cut (by omega), fill_reads m q.block (quoteConv q p) c hc p q.start cut _ ha hb
    (by rw [hlen]; exact quote_layout q p cut hcut)]
  rfl

/-! ## Fields that hold numbers -/

theorem fieldBytes_holds (p : Slice) (a n : Nat) (l : List UInt8) (hl : l.length = n) (h : Holds (p.drop a) l) :
    fieldBytes p a n = l := by
  unfold fieldBytes
  apply List.ext_getElem
  · simp [hl]
  · intro i h1 h2
    simp only [List.getElem_map, List.getElem_range]
    exact h i h2

theorem holds_flatMap {α : Type} (f : α → List UInt8) (k : Nat) (rows : List α) (hk : ∀ r ∈ rows, (f r).length = k)
    (rest : List UInt8) (u : Slice) (h : Holds u (rows.flatMap f ++ rest)) (i : Nat) (hi : i < rows.length) :
    Holds (u.drop (i * k)) (f rows[i]) := by
  induction rows generalizing u i with
  | nil => simp at hi
  | cons r rows ih =>
    rw [List.flatMap_cons, List.append_assoc, holds_append, hk r (by simp)] at h
    cases i with
    | zero => rw [Nat.zero_mul]; simpa [Slice.drop] using h.1
    | succ i =>
      have := ih (fun r hr => hk r (by simp [hr])) (u.drop k) h.2 i (by simpa using hi)
      rw [drop_drop] at this
      rw [show (i + 1) * k = k + i * k by rw [Nat.add_mul, Nat.one_mul, Nat.add_comm]]
      exact this

theorem flatMap_length {α : Type} (f : α → List UInt8) (k : Nat) (rows : List α) (hk : ∀ r ∈ rows, (f r).length = k) :
    (rows.flatMap f).length = rows.length * k := by
  induction rows with
  | nil => simp
  | cons r rows ih =>
    rw [List.flatMap_cons, List.length_append, hk r (by simp), ih (fun r hr => hk r (by simp [hr])), List.length_cons,
      Nat.add_mul, Nat.one_mul, Nat.add_comm]

/-- The four formats of derivatives. -/
def IsDeriv (i : ConvId) : Prop := i = .stockDeriv ∨ i = .commodity ∨ i = .riskFree ∨ i = .baseDeriv

theorem derivPrice_length (i : ConvId) (hi : IsDeriv i) (x : Int) : (derivPrice i x).length = 9 := by
  rcases hi with rfl | rfl | rfl | rfl <;> simp [derivPrice, decimals, text_length, fixedText]

theorem fixedText_length (a f v : Nat) : (fixedText a f v).length = a + 1 + f := by
  simp [fixedText, text_length]; omega

theorem checked_deriv (i : ConvId) (hi : IsDeriv i) (x : Int) (hx : PriceFits i x) (v : Slice)
    (h : Holds v (derivPrice i x)) : checkedPrice i.priceCfg v = x := by
  -- give the slice a length, which the value does not depend on
  have hw : checkedPrice i.priceCfg v = checkedPrice i.priceCfg ⟨v.mem, 9⟩ := rfl
  have h' : Holds ⟨v.mem, 9⟩ (derivPrice i x) := h
  rw [hw]
  obtain ⟨conv, e, hr, -⟩ := price_reads i .checked ⟨v.mem, 9⟩ (by rcases hi with rfl | rfl | rfl | rfl <;> exact Nat.le_refl 9)
  have hf : derivPrice i x = fieldText i.priceCfg (if x < 0 then 45 else 48) [] x.natAbs := by
    rcases hi with rfl | rfl | rfl | rfl <;> simp [derivPrice, fieldText, decimals, ConvId.priceCfg]
  rw [hf] at h'
  have hnew : Conv.new i.priceCfg = some conv := by
    unfold load at e
    split at e
    · rename_i v' hv; rw [hv]; exact congrArg some (Except.ok.inj e)
    · exact absurd e (by simp)
  have hfit : x.natAbs < 10 ^ nDigits i.priceCfg := by
    rcases hi with rfl | rfl | rfl | rfl <;> exact hx
  have hc := (C30_converter .checked i.priceCfg conv hnew (by rcases hi with rfl | rfl | rfl | rfl <;> decide) _ [] x.natAbs
    ⟨v.mem, 9⟩ (by rcases hi with rfl | rfl | rfl | rfl <;> rfl) hfit
    (by rcases hi with rfl | rfl | rfl | rfl <;> exact Nat.le_refl 9) h').2
  rw [hr] at hc
  rw [Except.ok.inj hc]
  have hs : i.priceCfg.signed = true := by rcases hi with rfl | rfl | rfl | rfl <;> rfl
  have hd : expected i.priceCfg x.natAbs = x.natAbs := by rcases hi with rfl | rfl | rfl | rfl <;> rfl
  rw [hs, hd]
  by_cases hneg : x < 0
  · rw [if_pos hneg, if_pos ⟨rfl, by decide⟩]; omega
  · rw [if_neg hneg, if_neg (by simp)]; omega

theorem unchecked_stock (x : Int) (h0 : 0 ≤ x) (hx : x < 10 ^ 9) (v : Slice) (h : Holds v (text 11 x.natAbs)) :
    (uncheckedPrice ConvId.stock.priceCfg v : Int) = x / 100 := by
  have ht : Holds v (text 9 (x.natAbs / 10 ^ 2)) := by
    have e : text (9 + 2) x.natAbs = text 9 (x.natAbs / 10 ^ 2) ++ text 2 (x.natAbs % 10 ^ 2) := text_split 9 2 _
    rw [show (11 : Nat) = 9 + 2 by rfl, e, holds_append] at h
    exact h.1
  have := text_nibbles v 9 _ ht (by norm_num at hx ⊢; omega)
  have hp : parsed ConvId.stock.priceCfg = 9 := rfl
  unfold uncheckedPrice
  rw [hp, this]
  have e : (10 : Nat) ^ 2 = 100 := by norm_num
  rw [e]
  omega

/-- What the snapshot of a derivative level must be. -/
def Offer.deriv (o : Offer) : Level := ⟨some o.count, o.price, o.qty, none⟩

theorem block_deriv (i : ConvId) (hi : IsDeriv i) (r : Row) (hr : r.DerivFits i) (clip : Slice) (h : Holds clip (r.deriv i)) :
    blockOf .counts i clip = (r.ask.deriv, r.bid.deriv) := by
  obtain ⟨f1, f2, f3, f4, f5, f6⟩ := hr
  have hP : i.priceCfg.total = 9 := by rcases hi with rfl | rfl | rfl | rfl <;> rfl
  have hQ : i.qtyCfg.total = 9 := by rcases hi with rfl | rfl | rfl | rfl <;> rfl
  unfold Row.deriv at h
  simp only [holds_append, derivPrice_length i hi, text_length, drop_drop] at h
  obtain ⟨h1, h2, h3, h4, h5, h6⟩ := h
  unfold blockOf
  simp only [hP, hQ, blockPrice]
  rw [checked_deriv i hi _ f1 _ h1, checked_deriv i hi _ f2 _ h2, text_nibbles _ 9 _ h3 f3, text_nibbles _ 9 _ h4 f4,
    text_nibbles _ 5 _ h5 f5, text_nibbles _ 5 _ h6 f6]
  rfl

/-- What the snapshot of a stock level is: the price has lost its last two digits. -/
def Offer.stock (o : Offer) : Level := ⟨none, o.price / 100, o.qty, none⟩
def Offer.stockLp (o : Offer) : Level := ⟨none, o.price / 100, o.qty, some o.lp⟩

theorem block_stock (r : Row) (hr : r.StockFits) (clip : Slice) (h : Holds clip r.stock) :
    blockOf .plain .stock clip = (r.ask.stock, r.bid.stock) := by
  obtain ⟨f1, f2, f3, f4, f5, f6, f7, f8⟩ := hr
  have hP : ConvId.stock.priceCfg.total = 11 := rfl
  have hQ : ConvId.stock.qtyCfg.total = 12 := rfl
  unfold Row.stock at h
  simp only [holds_append, text_length, drop_drop] at h
  obtain ⟨h1, h2, h3, h4⟩ := h
  unfold blockOf
  simp only [hP, hQ, blockPrice]
  rw [unchecked_stock _ f1 f2 _ h1, unchecked_stock _ f3 f4 _ h2, text_nibbles _ 12 _ h3 f5, text_nibbles _ 12 _ h4 f6]
  rfl

theorem block_stockLp (r : Row) (hr : r.StockFits) (clip : Slice) (h : Holds clip r.stockLp) :
    blockOf .lp .stock clip = (r.ask.stockLp, r.bid.stockLp) := by
  obtain ⟨f1, f2, f3, f4, f5, f6, f7, f8⟩ := hr
  have hP : ConvId.stock.priceCfg.total = 11 := rfl
  have hQ : ConvId.stock.qtyCfg.total = 12 := rfl
  unfold Row.stockLp at h
  simp only [holds_append, text_length, drop_drop] at h
  obtain ⟨h1, h2, h3, h4, h5, h6⟩ := h
  unfold blockOf
  simp only [hP, hQ, blockPrice]
  rw [unchecked_stock _ f1 f2 _ h1, unchecked_stock _ f3 f4 _ h2, text_nibbles _ 12 _ h3 f5, text_nibbles _ 12 _ h4 f6,
    text_nibbles _ 12 _ h5 f7, text_nibbles _ 12 _ h6 f8]
  rfl

/-! ## The heading of a message -/

theorem reading_length (r : Reading) : r.text.length = 12 := by simp [Reading.text, text_length]

theorem heading_length (h : Heading) (ok : h.Ok) : h.bytes.length = 47 := by
  obtain ⟨h1, h2, h3, h4, -⟩ := ok
  simp [Heading.bytes, h1, h2, h3.1, h4, reading_length]

/-- What a message that starts with a heading shows to the parser. -/
theorem heading_reads (h : Heading) (ok : h.Ok) (rest : List UInt8) (p : Slice) (hp : Holds p (h.bytes ++ rest)) :
    fieldBytes p 17 12 = h.isin ∧ fieldBytes p 2 3 = h.code.drop 2 ∧ Holds (timeField p) h.time.text ∧
      Holds (p.drop 47) rest := by
  have hlen := heading_length h ok
  obtain ⟨h1, h2, h3, h4, -⟩ := ok
  rw [holds_append, hlen] at hp
  obtain ⟨hb, hr⟩ := hp
  unfold Heading.bytes at hb
  simp only [holds_append, h1, h2, h3.1, h4, drop_drop] at hb
  obtain ⟨b1, -, b3, -, b5⟩ := hb
  refine ⟨fieldBytes_holds p 17 12 _ h3.1 b3, fieldBytes_holds p 2 3 _ (by simp [h1]) ?_, b5, hr⟩
  have e : h.code = h.code.take 2 ++ h.code.drop 2 := (List.take_append_drop 2 _).symm
  rw [e, holds_append] at b1
  simpa [h1] using b1.2

/-- The clock part: the parser reads the time of the heading. -/
theorem heading_stamp (m : Mode) (h : Heading) (p : Slice) (ht : Holds (timeField p) h.time.text) (sys : Nat) (g : Gen) :
    parseStamp m krxOffset (timeField p) sys g = parseStamp m krxOffset (ofList h.time.text) sys g := by
  apply stamp_same
  refine ⟨by simp [timeField, ofList, reading_length], fun i hi => ?_⟩
  have hi' : i < h.time.text.length := by rw [reading_length]; exact hi
  rw [ht i hi', holds_ofList _ i hi']

theorem last_byte (p : Slice) (l : List UInt8) (n : Nat) (hn : (l ++ [255]).length = n) (h : Holds p (l ++ [255])) :
    p.mem (n - 1) = 255 := by
  have := h (n - 1) (by simp at hn ⊢; omega)
  rw [this, List.getElem_append_right (by simp at hn ⊢; omega)]
  simp

/-! ## C99 -/

/-- A derivative quote message with the given levels; `tail` are the 46 bytes of totals and estimates, which the
parser does not use. -/
def derivQuote (h : Heading) (rows : List Row) (tail : List UInt8) : List UInt8 :=
  h.bytes ++ (rows.flatMap (Row.deriv h.format) ++ (tail ++ [255]))

theorem format_deriv (h : Heading) : IsDeriv h.format := formatOf_cases _ _

theorem deriv_row_length (i : ConvId) (hi : IsDeriv i) (r : Row) : (r.deriv i).length = 46 := by
  simp [Row.deriv, derivPrice_length i hi, text_length]

theorem range_map_take {α β : Type} (f : Nat → β) (g : α → β) (l : List α) (n : Nat) (hn : n ≤ l.length)
    (h : ∀ (i : Nat) (hi : i < l.length), f i = g l[i]) : (List.range n).map f = (l.take n).map g := by
  apply List.ext_getElem
  · simp [hn]
  · intro i h1 h2
    simp only [List.length_map, List.length_range] at h1
    simp [h i (by omega)]

theorem deriv_facts (q : QuoteMsg) (hq : q = .d0034 ∨ q = .d0035) (h : Heading) (ok : h.Ok) (rows : List Row)
    (hrows : rows.length = q.levels) (hfit : ∀ r ∈ rows, r.DerivFits h.format) (tail : List UInt8)
    (htail : tail.length = 46) (p : Slice) (hp : IsMessage p (derivQuote h rows tail)) :
    p.len = q.len ∧ p.mem (q.len - 1) = 255 ∧ fieldBytes p 17 12 = h.isin ∧ Holds (timeField p) h.time.text ∧
      quoteConv q p = h.format ∧
      ∀ (i : Nat) (hi : i < rows.length), quoteBlock q p i = (rows[i].ask.deriv, rows[i].bid.deriv) := by
  have hk : ∀ r ∈ rows, (r.deriv h.format).length = 46 := fun r _ => deriv_row_length _ (format_deriv h) r
  have hml : (derivQuote h rows tail).length = q.len := by
    unfold derivQuote
    rw [List.length_append, heading_length h ok, List.length_append, flatMap_length _ _ _ hk, hrows]
    simp only [List.length_append, htail, List.length_singleton]
    rcases hq with rfl | rfl <;> rfl
  obtain ⟨hlen, hh⟩ := hp
  obtain ⟨e1, e2, e3, e4⟩ := heading_reads h ok _ p hh
  have hend : p.mem (q.len - 1) = 255 := by
    have e : derivQuote h rows tail = (h.bytes ++ (rows.flatMap (Row.deriv h.format) ++ tail)) ++ [255] := by
      simp [derivQuote]
    exact last_byte p _ q.len (by rw [← e, hml]) (by rw [← e]; exact hh)
  have hconv : quoteConv q p = h.format := by
    unfold quoteConv Heading.format
    rw [e1, e2]
    rcases hq with rfl | rfl <;> rfl
  have hblock : q.block = .counts := by rcases hq with rfl | rfl <;> rfl
  have hstart : q.start = 47 := by rcases hq with rfl | rfl <;> rfl
  refine ⟨by rw [hlen, hml], hend, e1, e3, hconv, ?_⟩
  · intro i hi
    unfold quoteBlock
    rw [hconv, hblock, hstart]
    have h46 : blockLen .counts h.format = 46 := blockLen_deriv _ _
    rw [h46]
    apply block_deriv _ (format_deriv h) _ (hfit _ (by simp))
    rw [← drop_drop]
    exact holds_flatMap _ 46 rows hk _ _ e4 i hi

/-- C99. Every derivative quote message is delivered as it was composed: instrument, time, and for the first `cut`
levels prices (in units of the last digit, with sign), quantities and numbers of orders of both sides; with the
converter of the price format. -/
theorem C99_derivative_quote (m : Mode) (q : QuoteMsg) (hq : q = .d0034 ∨ q = .d0035) (cut : Nat) (hcut : cut ≤ q.levels)
    (h : Heading) (ok : h.Ok) (rows : List Row) (hrows : rows.length = q.levels) (hfit : ∀ r ∈ rows, r.DerivFits h.format)
    (tail : List UInt8) (htail : tail.length = 46) (p : Slice) (hp : IsMessage p (derivQuote h rows tail))
    (sys : Nat) (g : Gen) (t : Nat) (g' : Gen) (ht : parseStamp m krxOffset (ofList h.time.text) sys g = .ok (t, g')) :
    q.parse m cut p sys g = .ok
      ({ id := ⟨.isin h.isin, .krx⟩, stamp := t, sys := sys,
         ask := (rows.take cut).map fun r => ⟨some r.ask.count, r.ask.price, r.ask.qty, none⟩,
         bid := (rows.take cut).map fun r => ⟨some r.bid.count, r.bid.price, r.bid.qty, none⟩,
         cut := cut, lpHoldings := none, conv := h.format }, g') := by
  obtain ⟨hlen, hend, e1, e3, hconv, hb⟩ := deriv_facts q hq h ok rows hrows hfit tail htail p hp
  rw [quote_reads m q cut p sys g hcut hlen hend (by rw [e1]; exact ok.2.2.1), heading_stamp m h p e3, ht,
    hconv, e1]
  simp only [Res.bind_ok]
  rw [range_map_take _ (fun r : Row => r.ask.deriv) rows cut (by omega) (fun i hi => by rw [hb i hi]),
    range_map_take _ (fun r : Row => r.bid.deriv) rows cut (by omega) (fun i hi => by rw [hb i hi])]
  rfl

/-- The time of the first message after the generator of dates was set to a day: that day, the time of the message and
the nine hours of the exchange's offset, on top. -/
theorem C99_first_time (m : Mode) (h : Heading) (ok : h.Ok) (sys : Nat) (g : Gen) (hg : g.prev = 0)
    (ho : h.time.nanos + krxOffset + g.date + fifteenHours < U64) :
    parseStamp m krxOffset (ofList h.time.text) sys g
      = .ok (g.date + h.time.nanos + krxOffset, { g with prev := g.date + h.time.nanos + krxOffset }) :=
  C32_first m krxOffset _ sys g h.time ok.2.2.2.2 (by simp [ofList, reading_length]) (holds_ofList _) hg ho

/-- The same message into a buffer of at least `cut` levels: the same fields; the levels behind the cut, the cut
of the buffer and its LP holdings stay. -/
theorem C99_buffer (m : Mode) (q : QuoteMsg) (hq : q = .d0034 ∨ q = .d0035) (cut : Nat) (hcut : cut ≤ q.levels)
    (h : Heading) (ok : h.Ok) (rows : List Row) (hrows : rows.length = q.levels) (hfit : ∀ r ∈ rows, r.DerivFits h.format)
    (tail : List UInt8) (htail : tail.length = 46) (p : Slice) (hp : IsMessage p (derivQuote h rows tail))
    (sys : Nat) (g : Gen) (t : Nat) (g' : Gen) (ht : parseStamp m krxOffset (ofList h.time.text) sys g = .ok (t, g'))
    (buf : Quote) (ha : cut ≤ buf.ask.length) (hb : cut ≤ buf.bid.length) :
    q.parseInto m cut p sys g buf = .ok
      ({ id := ⟨.isin h.isin, .krx⟩, stamp := t, sys := sys,
         ask := ((rows.take cut).map fun r => ⟨some r.ask.count, r.ask.price, r.ask.qty, none⟩) ++ buf.ask.drop cut,
         bid := ((rows.take cut).map fun r => ⟨some r.bid.count, r.bid.price, r.bid.qty, none⟩) ++ buf.bid.drop cut,
         cut := buf.cut, lpHoldings := buf.lpHoldings, conv := h.format }, g') := by
  obtain ⟨hlen, hend, e1, e3, hconv, hb'⟩ := deriv_facts q hq h ok rows hrows hfit tail htail p hp
  rw [quote_reads_into m q cut p sys g buf hcut ha hb hlen hend (by rw [e1]; exact ok.2.2.1), heading_stamp m h p e3, ht,
    hconv, e1]
  simp only [Res.bind_ok]
  rw [range_map_take _ (fun r : Row => r.ask.deriv) rows cut (by omega) (fun i hi => by rw [hb' i hi]),
    range_map_take _ (fun r : Row => r.bid.deriv) rows cut (by omega) (fun i hi => by rw [hb' i hi])]
  rfl

/-! ## C100 -/

/-- A stock quote message; `row` composes a level, `tail` are the 47 bytes of totals and estimates. -/
def stockQuote (h : Heading) (row : Row → List UInt8) (rows : List Row) (tail : List UInt8) : List UInt8 :=
  h.bytes ++ (rows.flatMap row ++ (tail ++ [255]))

/-- How a level of the message is composed. -/
def stockRow : QuoteMsg → Row → List UInt8
  | .s0003 => Row.stockLp
  | _ => Row.stock

theorem stock_facts (q : QuoteMsg) (hq : q = .s0002 ∨ q = .s0003) (h : Heading) (ok : h.Ok) (rows : List Row)
    (hrows : rows.length = 10) (hfit : ∀ r ∈ rows, r.StockFits) (tail : List UInt8) (htail : tail.length = 47) (p : Slice)
    (hp : IsMessage p (stockQuote h (stockRow q) rows tail)) :
    p.len = q.len ∧ p.mem (q.len - 1) = 255 ∧ fieldBytes p 17 12 = h.isin ∧ Holds (timeField p) h.time.text ∧
      quoteConv q p = .stock ∧ ∀ (i : Nat) (hi : i < rows.length), quoteBlock q p i =
        (⟨none, rows[i].ask.price / 100, rows[i].ask.qty, if q = .s0003 then some rows[i].ask.lp else none⟩,
         ⟨none, rows[i].bid.price / 100, rows[i].bid.qty, if q = .s0003 then some rows[i].bid.lp else none⟩) := by
  have hk : ∀ r ∈ rows, (stockRow q r).length = blockLen q.block .stock := by
    intro r _
    rcases hq with rfl | rfl
    · simp [stockRow, Row.stock, text_length]; rfl
    · simp [stockRow, Row.stockLp, text_length]; rfl
  have hml : (stockQuote h (stockRow q) rows tail).length = q.len := by
    unfold stockQuote
    rw [List.length_append, heading_length h ok, List.length_append, flatMap_length _ _ _ hk, hrows]
    simp only [List.length_append, htail, List.length_singleton]
    rcases hq with rfl | rfl <;> rfl
  obtain ⟨hlen, hh⟩ := hp
  obtain ⟨e1, e2, e3, e4⟩ := heading_reads h ok _ p hh
  have hend : p.mem (q.len - 1) = 255 := by
    have e : stockQuote h (stockRow q) rows tail = (h.bytes ++ (rows.flatMap (stockRow q) ++ tail)) ++ [255] := by
      simp [stockQuote]
    exact last_byte p _ q.len (by rw [← e, hml]) (by rw [← e]; exact hh)
  have hconv : quoteConv q p = .stock := by rcases hq with rfl | rfl <;> rfl
  have hstart : q.start = 47 := by rcases hq with rfl | rfl <;> rfl
  refine ⟨by rw [hlen, hml], hend, e1, e3, hconv, fun i hi => ?_⟩
  have hrow := holds_flatMap _ _ rows hk _ _ e4 i hi
  rw [drop_drop] at hrow
  unfold quoteBlock
  rw [hconv, hstart]
  rcases hq with rfl | rfl
  · exact block_stock _ (hfit _ (by simp)) _ hrow
  · exact block_stockLp _ (hfit _ (by simp)) _ hrow

/-- C100. Every stock quote message: instrument, time, quantities and (0003) quantities of liquidity providers of
the first `cut` levels are delivered as they were composed, but every price without its last two digits. -/
theorem C100_stock_quote (m : Mode) (q : QuoteMsg) (hq : q = .s0002 ∨ q = .s0003) (cut : Nat) (hcut : cut ≤ 10)
    (h : Heading) (ok : h.Ok) (rows : List Row) (hrows : rows.length = 10) (hfit : ∀ r ∈ rows, r.StockFits)
    (tail : List UInt8) (htail : tail.length = 47) (p : Slice) (hp : IsMessage p (stockQuote h (stockRow q) rows tail))
    (sys : Nat) (g : Gen) (t : Nat) (g' : Gen) (ht : parseStamp m krxOffset (ofList h.time.text) sys g = .ok (t, g')) :
    q.parse m cut p sys g = .ok
      ({ id := ⟨.isin h.isin, .krx⟩, stamp := t, sys := sys,
         ask := (rows.take cut).map fun r =>
           ⟨none, r.ask.price / 100, r.ask.qty, if q = .s0003 then some r.ask.lp else none⟩,
         bid := (rows.take cut).map fun r =>
           ⟨none, r.bid.price / 100, r.bid.qty, if q = .s0003 then some r.bid.lp else none⟩,
         cut := cut, lpHoldings := none, conv := .stock }, g') := by
  obtain ⟨hlen, hend, e1, e3, hconv, hb⟩ := stock_facts q hq h ok rows hrows hfit tail htail p hp
  rw [quote_reads m q cut p sys g (by rcases hq with rfl | rfl <;> exact hcut) hlen hend (by rw [e1]; exact ok.2.2.1),
    heading_stamp m h p e3, ht, hconv, e1]
  simp only [Res.bind_ok]
  rw [range_map_take _ (fun r : Row => (⟨none, r.ask.price / 100, r.ask.qty, if q = .s0003 then some r.ask.lp else none⟩ : Level))
      rows cut (by omega) (fun i hi => by rw [hb i hi]),
    range_map_take _ (fun r : Row => (⟨none, r.bid.price / 100, r.bid.qty, if q = .s0003 then some r.bid.lp else none⟩ : Level))
      rows cut (by omega) (fun i hi => by rw [hb i hi])]

/-- The same into a buffer. -/
theorem C100_buffer (m : Mode) (q : QuoteMsg) (hq : q = .s0002 ∨ q = .s0003) (cut : Nat) (hcut : cut ≤ 10)
    (h : Heading) (ok : h.Ok) (rows : List Row) (hrows : rows.length = 10) (hfit : ∀ r ∈ rows, r.StockFits)
    (tail : List UInt8) (htail : tail.length = 47) (p : Slice) (hp : IsMessage p (stockQuote h (stockRow q) rows tail))
    (sys : Nat) (g : Gen) (t : Nat) (g' : Gen) (ht : parseStamp m krxOffset (ofList h.time.text) sys g = .ok (t, g'))
    (buf : Quote) (ha : cut ≤ buf.ask.length) (hb : cut ≤ buf.bid.length) :
    q.parseInto m cut p sys g buf = .ok
      ({ id := ⟨.isin h.isin, .krx⟩, stamp := t, sys := sys,
         ask := ((rows.take cut).map fun r =>
           ⟨none, r.ask.price / 100, r.ask.qty, if q = .s0003 then some r.ask.lp else none⟩) ++ buf.ask.drop cut,
         bid := ((rows.take cut).map fun r =>
           ⟨none, r.bid.price / 100, r.bid.qty, if q = .s0003 then some r.bid.lp else none⟩) ++ buf.bid.drop cut,
         cut := buf.cut, lpHoldings := buf.lpHoldings, conv := .stock }, g') := by
  obtain ⟨hlen, hend, e1, e3, hconv, hb'⟩ := stock_facts q hq h ok rows hrows hfit tail htail p hp
  rw [quote_reads_into m q cut p sys g buf (by rcases hq with rfl | rfl <;> exact hcut) ha hb hlen hend
    (by rw [e1]; exact ok.2.2.1), heading_stamp m h p e3, ht, hconv, e1]
  simp only [Res.bind_ok]
  rw [range_map_take _ (fun r : Row => (⟨none, r.ask.price / 100, r.ask.qty, if q = .s0003 then some r.ask.lp else none⟩ : Level))
      rows cut (by omega) (fun i hi => by rw [hb' i hi]),
    range_map_take _ (fun r : Row => (⟨none, r.bid.price / 100, r.bid.qty, if q = .s0003 then some r.bid.lp else none⟩ : Level))
      rows cut (by omega) (fun i hi => by rw [hb' i hi])]

/-! ## Concrete messages -/

/-- The heading of the sample in derivative_quote.rs 81 (an option on the KOSPI 200), at 10:49:39.081108. -/
def sampleHeading : Heading :=
  ⟨ascii "B603F", ascii "        G140", ascii "KR4301V13502", ascii "001656", ⟨10, 49, 39, 81108⟩⟩

theorem sampleHeading_ok : sampleHeading.Ok := by
  refine ⟨by decide, by decide, ⟨by decide, by decide⟩, by decide, ?_⟩
  unfold Reading.Valid; decide

/-- Levels of that message, one of them with a negative price (a calendar spread may have one). -/
def sampleRows : List Row :=
  [⟨⟨212, 10, 3, 0⟩, ⟨211, 10, 6, 0⟩⟩, ⟨⟨213, 33, 11, 0⟩, ⟨-210, 41, 11, 0⟩⟩, ⟨⟨214, 29, 8, 0⟩, ⟨209, 43, 10, 0⟩⟩,
    ⟨⟨215, 38, 9, 0⟩, ⟨208, 37, 13, 0⟩⟩, ⟨⟨216, 18, 7, 0⟩, ⟨207, 62, 11, 0⟩⟩]

/-- Non-vacuity of C99: three of five levels are read, at 10:49:39.081108 plus nine hours of day 19875. -/
example (m : Mode) : QuoteMsg.d0034.parse m 3 (ofList (derivQuote sampleHeading sampleRows (List.replicate 46 48))) 0
    ⟨19875 * dayNanos, 0, 0⟩ = .ok
      (⟨⟨.isin (ascii "KR4301V13502"), .krx⟩, 19875 * dayNanos + 38979081108000 + 9 * 3600000000000, 0,
        [⟨some 3, 212, 10, none⟩, ⟨some 11, 213, 33, none⟩, ⟨some 8, 214, 29, none⟩],
        [⟨some 6, 211, 10, none⟩, ⟨some 11, -210, 41, none⟩, ⟨some 10, 209, 43, none⟩], 3, none, .baseDeriv⟩,
       ⟨19875 * dayNanos, 19875 * dayNanos + 38979081108000 + 9 * 3600000000000, 0⟩) := by
  have hf : sampleHeading.format = .baseDeriv := by decide
  have ht := C99_first_time m sampleHeading sampleHeading_ok 0 ⟨19875 * dayNanos, 0, 0⟩ rfl (by decide)
  have := C99_derivative_quote m .d0034 (Or.inl rfl) 3 (by decide) sampleHeading sampleHeading_ok sampleRows rfl
    (by rw [hf]; unfold sampleRows Row.DerivFits PriceFits; decide)
    (List.replicate 46 48) (by simp) _ ⟨by simp [ofList], holds_ofList _⟩ 0 _ _ _ ht
  rw [hf] at this
  exact this

/-- Non-vacuity of C100, and the fault it describes: a stock offered at 69500 won arrives at 695. -/
theorem fault_stock_price (m : Mode) : ∃ r g', QuoteMsg.s0002.parse m 10
    (ofList (stockQuote ⟨ascii "B601S", ascii "00000001G140", ascii "KR7005930003", ascii "000001", ⟨9, 0, 0, 0⟩⟩ Row.stock
      (List.replicate 10 ⟨⟨69500, 120, 0, 0⟩, ⟨69400, 7, 0, 0⟩⟩) (List.replicate 47 48))) 0 ⟨19875 * dayNanos, 0, 0⟩
      = .ok (r, g') ∧ r.ask.map (·.price) = List.replicate 10 695 ∧ r.ask.map (·.qty) = List.replicate 10 120 ∧
        r.bid.map (·.price) = List.replicate 10 694 := by
  have ok : Heading.Ok ⟨ascii "B601S", ascii "00000001G140", ascii "KR7005930003", ascii "000001", ⟨9, 0, 0, 0⟩⟩ := by
    refine ⟨by decide, by decide, ⟨by decide, by decide⟩, by decide, ?_⟩
    unfold Reading.Valid; decide
  have ht := C99_first_time m _ ok 0 ⟨19875 * dayNanos, 0, 0⟩ rfl (by decide)
  refine ⟨_, _, C100_stock_quote m .s0002 (Or.inl rfl) 10 (by decide) _ ok _ rfl ?_ (List.replicate 47 48) (by simp) _
    ⟨by simp [ofList], holds_ofList _⟩ 0 _ _ _ ht, by decide, by decide, by decide⟩
  intro r hr
  obtain rfl := List.eq_of_mem_replicate hr
  simp [Row.StockFits]

end Verif.Props

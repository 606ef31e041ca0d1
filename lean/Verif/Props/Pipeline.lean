import Verif.Props.KrxAll
import Verif.Props.InstIds
import Verif.Props.Snapshot
import Verif.TE.Pipe
import Mathlib.Data.List.Induction
/-!
# C171–C173: a book fed by exchange messages

The specification composes messages field by field (`derivQuote`, `stockQuote`, `tradeQuote`), says which instrument and
which levels they report, and says what the book of one instrument must show after any stream of them.
-/
set_option autoImplicit false
namespace Verif.Props
open Verif Verif.TE Verif.TE.Num Verif.TE.Clock Verif.TE.Id Verif.TE.Krx Verif.TE.Pipe

/-! ## Specification -/

/-- A list of levels in which a later level of the same price replaces an earlier one. -/
def lastWins : List LevelSnapshot → List LevelSnapshot
  | [] => []
  | s :: rest => if ∃ x ∈ rest, x.price = s.price then lastWins rest else s :: lastWins rest

/-- What arrives: a message, composed as the exchange composes it, or bytes that are no message of the interface. -/
inductive Mail
  | deriv (q : QuoteMsg) (h : Heading) (rows : List Row) (tail : List UInt8)
  | stock (q : QuoteMsg) (h : Heading) (rows : List Row) (tail : List UInt8)
  | trade (q : TradeQuoteMsg) (want : Bool) (h : Heading) (d : Deal) (rows : List Row) (tail : List UInt8)
  | junk (k : Kind)

structure Delivery where
  mail : Mail
  cut : Nat
  p : Slice
  sys : Nat

/-- The payload length of an interface. -/
def kindLen : Kind → Nat
  | .quote q => q.len
  | .tradeQuote q _ => q.len

/-- The number of levels of an interface. -/
def kindLevels : Kind → Nat
  | .quote q => q.levels
  | .tradeQuote q _ => q.levels

/-- The message is a correct one, and the bytes are exactly the message; or they are no message, and of a length and
content at which the error message can be composed (see C104). -/
def Delivery.Ok (x : Delivery) : Prop :=
  match x.mail with
  | .deriv q h rows tail => (q = .d0034 ∨ q = .d0035) ∧ x.cut ≤ q.levels ∧ h.Ok ∧ rows.length = q.levels ∧
      (∀ r ∈ rows, r.DerivFits h.format) ∧ tail.length = 46 ∧ IsMessage x.p (derivQuote h rows tail)
  | .stock q h rows tail => (q = .s0002 ∨ q = .s0003) ∧ x.cut ≤ 10 ∧ h.Ok ∧ rows.length = 10 ∧
      (∀ r ∈ rows, r.StockFits) ∧ tail.length = 47 ∧ IsMessage x.p (stockQuote h (stockRow q) rows tail)
  | .trade q _ h d rows tail => x.cut ≤ q.levels ∧ h.Ok ∧ d.Ok h.format ∧ rows.length = q.levels ∧
      (∀ r ∈ rows, r.DerivFits h.format) ∧ tail.length = 28 ∧ IsMessage x.p (tradeQuote h d rows tail)
  | .junk k => x.cut ≤ kindLevels k ∧ ¬ Wellformed (kindLen k) x.p ∧ refusal (kindLen k) x.p = .err

/-- The instrument of a message. -/
def Delivery.isin (x : Delivery) : Option (List UInt8) :=
  match x.mail with
  | .deriv _ h _ _ => some h.isin
  | .stock _ h _ _ => some h.isin
  | .trade _ _ h _ _ _ => some h.isin
  | .junk _ => none

/-- The first `cut` levels a message reports, asks and bids. Stock prices arrive without their last two digits (C100). -/
def Delivery.levels (x : Delivery) : List LevelSnapshot × List LevelSnapshot :=
  match x.mail with
  | .deriv _ _ rows _ => ((rows.take x.cut).map fun r => ⟨r.ask.price, r.ask.qty⟩, (rows.take x.cut).map fun r => ⟨r.bid.price, r.bid.qty⟩)
  | .stock _ _ rows _ =>
    ((rows.take x.cut).map fun r => ⟨r.ask.price / 100, r.ask.qty⟩, (rows.take x.cut).map fun r => ⟨r.bid.price / 100, r.bid.qty⟩)
  | .trade _ _ _ _ rows _ =>
    ((rows.take x.cut).map fun r => ⟨r.ask.price, r.ask.qty⟩, (rows.take x.cut).map fun r => ⟨r.bid.price, r.bid.qty⟩)
  | .junk _ => ([], [])

/-- The interface it is parsed with. -/
def Delivery.packet (x : Delivery) : Packet :=
  ⟨match x.mail with
   | .deriv q _ _ _ => .quote q
   | .stock q _ _ _ => .quote q
   | .trade q want _ _ _ _ => .tradeQuote q want
   | .junk k => k, x.cut, x.p, x.sys⟩

/-- The times of the messages, as the clock of the client sees them. -/
def Delivery.time (x : Delivery) : Option (Slice × Nat) :=
  match x.mail with
  | .deriv _ h _ _ => some (ofList h.time.text, x.sys)
  | .stock _ h _ _ => some (ofList h.time.text, x.sys)
  | .trade _ _ h _ _ _ => some (ofList h.time.text, x.sys)
  | .junk _ => none

/-- What the client must be told. -/
def Delivery.outcome (own : List UInt8) (x : Delivery) : Outcome :=
  match x.isin with
  | none => .refused
  | some i => if i = own then .taken else .rejected

/-- The last message of an instrument. -/
def lastOf (own : List UInt8) (l : List Delivery) : Option Delivery := l.reverse.find? fun x => x.isin = some own

/-- Both sides show what the last message of the instrument reports; nothing if there was none. -/
def ShowsLast (b : OrderBook) (own : List UInt8) (l : List Delivery) : Prop :=
  match lastOf own l with
  | none => Shows b.asks .ask [] ∧ Shows b.bids .bid []
  | some x => Shows b.asks .ask (lastWins x.levels.1) ∧ Shows b.bids .bid (lastWins x.levels.2)

/-! ## A snapshot with repeated prices -/

theorem bind_ok_pipe {α β : Type} (r : Res α) (f : α → Res β) (b : β) :
    (r >>= f) = .ok b ↔ ∃ a, r = .ok a ∧ f a = .ok b := by
  cases r with
  | error e => exact ⟨fun h => absurd h (by intro h; cases h), fun ⟨a, h, _⟩ => absurd h (by intro h; cases h)⟩
  | ok a => exact ⟨fun h => ⟨a, rfl, h⟩, fun ⟨a', h, h'⟩ => by cases h; exact h'⟩

theorem lastWins_sub (l : List LevelSnapshot) : ∀ x ∈ lastWins l, x ∈ l := by
  induction l with
  | nil => intro x hx; exact hx
  | cons s r ih =>
    intro x hx
    unfold lastWins at hx
    split at hx
    · exact List.mem_cons_of_mem _ (ih x hx)
    · rcases List.mem_cons.1 hx with rfl | hx
      · simp
      · exact List.mem_cons_of_mem _ (ih x hx)

theorem lastWins_prices (l : List LevelSnapshot) (p : Int) :
    (∃ x ∈ lastWins l, x.price = p) ↔ ∃ x ∈ l, x.price = p := by
  induction l with
  | nil => exact Iff.rfl
  | cons s r ih =>
    unfold lastWins
    split
    · rename_i h
      rw [ih]
      constructor
      · rintro ⟨x, hx, e⟩; exact ⟨x, List.mem_cons_of_mem _ hx, e⟩
      · rintro ⟨x, hx, e⟩
        rcases List.mem_cons.1 hx with rfl | hx
        · obtain ⟨y, hy, hye⟩ := h; exact ⟨y, hy, hye.trans e⟩
        · exact ⟨x, hx, e⟩
    · constructor
      · rintro ⟨x, hx, e⟩
        rcases List.mem_cons.1 hx with rfl | hx
        · exact ⟨x, by simp, e⟩
        · obtain ⟨y, hy, hye⟩ := ih.1 ⟨x, hx, e⟩; exact ⟨y, List.mem_cons_of_mem _ hy, hye⟩
      · rintro ⟨x, hx, e⟩
        rcases List.mem_cons.1 hx with rfl | hx
        · exact ⟨x, by simp, e⟩
        · obtain ⟨y, hy, hye⟩ := ih.2 ⟨x, hx, e⟩; exact ⟨y, List.mem_cons_of_mem _ hy, hye⟩

theorem lastWins_distinct (l : List LevelSnapshot) : DistinctPrices (lastWins l) := by
  induction l with
  | nil => simp [lastWins, DistinctPrices]
  | cons s r ih =>
    unfold lastWins
    split
    · exact ih
    · rename_i h
      show (List.map _ _).Nodup
      rw [List.map_cons, List.nodup_cons]
      refine ⟨fun hm => h ?_, ih⟩
      obtain ⟨x, hx, e⟩ := List.mem_map.1 hm
      exact (lastWins_prices r s.price).1 ⟨x, hx, e⟩

theorem lastWins_id (l : List LevelSnapshot) (h : DistinctPrices l) : lastWins l = l := by
  induction l with
  | nil => rfl
  | cons s r ih =>
    have h' : (s.price ∉ r.map (·.price)) ∧ (r.map (·.price)).Nodup := List.nodup_cons.1 h
    unfold lastWins
    rw [if_neg, ih h'.2]
    rintro ⟨x, hx, e⟩
    exact h'.1 (List.mem_map.2 ⟨x, hx, e⟩)

theorem qtySum_lastWins (l : List LevelSnapshot) : qtySum (lastWins l) ≤ qtySum l := by
  induction l with
  | nil => exact Nat.le_refl _
  | cons s r ih =>
    unfold lastWins
    split
    · simp only [qtySum, List.map_cons, List.sum_cons] at ih ⊢; omega
    · simp only [qtySum, List.map_cons, List.sum_cons] at ih ⊢; omega

theorem snapAt_lastWins_cons (s : LevelSnapshot) (r : List LevelSnapshot) (p : Int) :
    HalfBook.snapAt (lastWins (s :: r)) p = (HalfBook.snapAt (lastWins r) p).or (if p = s.price then some s.qty else none) := by
  have hn : HalfBook.snapAt (lastWins r) p = none ↔ ¬ ∃ x ∈ r, x.price = p := by
    rw [HalfBook.snapAt_none, ← lastWins_prices]
    refine not_congr ?_
    simp [List.mem_map]
  rw [lastWins]
  by_cases h : ∃ x ∈ r, x.price = s.price
  · rw [if_pos h]
    by_cases hp : p = s.price
    · cases e : HalfBook.snapAt (lastWins r) p with
      | some q => rfl
      | none => exact absurd (hp ▸ h) (hn.1 e)
    · rw [if_neg hp, Option.or_none]
  · rw [if_neg h]
    by_cases hp : p = s.price
    · have e : HalfBook.snapAt (lastWins r) p = none := hn.2 (hp ▸ h)
      rw [e, if_pos hp]
      simp [HalfBook.snapAt, hp]
    · rw [if_neg hp, Option.or_none]
      unfold HalfBook.snapAt
      rw [List.find?_cons_of_neg (by simpa using fun e => hp e.symm)]

theorem snapLoop_all (m : Mode) (snap : List LevelSnapshot) : ∀ {h : HalfBook} {ctr : Nat}, HalfBook.SnapInv h ctr →
    h.total + (snap.map (·.qty)).sum < U64 → ctr + snap.length < U64 →
    ∃ h' ctr', HalfBook.snapLoop m snap h ctr = .ok (h', ctr', .ok ()) ∧ HalfBook.SnapInv h' ctr' ∧ h'.side = h.side ∧
      ctr ≤ ctr' ∧ ctr' ≤ ctr + snap.length ∧
      (∀ p, (BMap.get p h'.levels).map (·.total) = (HalfBook.snapAt (lastWins snap) p).or ((BMap.get p h.levels).map (·.total))) := by
  induction snap with
  | nil => intro h ctr inv _ _; exact ⟨h, ctr, rfl, inv, rfl, Nat.le_refl _, by simp, by simp [lastWins, HalfBook.snapAt]⟩
  | cons s snap ih =>
    intro h ctr inv hfit hctr
    simp only [List.map_cons, List.sum_cons, List.length_cons] at hfit hctr
    obtain ⟨h1, c1, id, e1, i1, s1, l1, t1, hcase⟩ := HalfBook.snapStep_snap m inv s (by omega) (by omega)
    have hc1 : ctr ≤ c1 ∧ c1 ≤ ctr + 1 := by
      rcases hcase with ⟨_, _, _, h⟩ | ⟨_, _, h⟩ <;> omega
    obtain ⟨h2, c2, e2, i2, s2, hle, hle2, hg2⟩ := ih i1 (by omega) (by omega)
    refine ⟨h2, c2, ?_, i2, s2.trans s1, by omega, by simp only [List.length_cons]; omega, ?_⟩
    · simp only [HalfBook.snapLoop, e1, Res.bind_ok, e2]
    · intro p
      rw [hg2, l1, BMap.get_insert inv.sorted, snapAt_lastWins_cons, Option.or_assoc]
      congr 1
      by_cases hp : p = s.price
      · simp [hp]
      · simp [hp]

theorem updateSnapshot_all (m : Mode) {h : HalfBook} {ctr : Nat} (inv : HalfBook.SnapInv h ctr)
    (hb : h.best = HalfBook.bestOf h.side h.levels) (snap : List LevelSnapshot)
    (hfit : h.total + (snap.map (·.qty)).sum < U64) (hctr : ctr + snap.length < U64) :
    ∃ h' ctr', h.updateSnapshot m snap ctr = .ok (h', ctr', .ok ()) ∧ HalfBook.SnapInv h' ctr' ∧
      h'.best = HalfBook.bestOf h'.side h'.levels ∧ h'.side = h.side ∧ ctr ≤ ctr' ∧ ctr' ≤ ctr + snap.length ∧
      ∀ p, (BMap.get p h'.levels).map (·.total) = HalfBook.snapAt (lastWins snap) p := by
  obtain ⟨h1, e1, i1, b1, s1, l1⟩ := HalfBook.removeFold_snap m
    ((h.levels.map (·.1)).filter (fun p => !(snap.map (·.price)).contains p)) inv hb
  have ht1 : h1.total ≤ h.total := by rw [i1.total, inv.total, l1]; exact HalfBook.sumT_filter_le _ _
  obtain ⟨h2, c2, e2, i2, s2, hc1, hc2, hg⟩ := snapLoop_all m snap i1 (by omega) hctr
  refine ⟨HalfBook.reinitBest h2, c2, ?_, ⟨i2.sorted, i2.single, i2.total, i2.nodup, i2.cache⟩, rfl, s2.trans s1, hc1, hc2, ?_⟩
  · simp only [HalfBook.updateSnapshot, e1, Res.bind_ok, e2]
  · intro p
    show (BMap.get p h2.levels).map _ = _
    rw [hg]
    cases hs : HalfBook.snapAt (lastWins snap) p with
    | some q => rfl
    | none =>
      have hs' : p ∉ snap.map (·.price) := by
        rw [HalfBook.snapAt_none] at hs
        intro hm
        obtain ⟨x, hx, e⟩ := List.mem_map.1 hm
        obtain ⟨y, hy, e'⟩ := (lastWins_prices snap p).2 ⟨x, hx, e⟩
        exact hs (List.mem_map.2 ⟨y, hy, e'⟩)
      simp only [Option.none_or]
      rw [l1]
      have : BMap.get p (h.levels.filter (fun e => !((h.levels.map (·.1)).filter
          (fun p => !(snap.map (·.price)).contains p)).contains e.1)) = none := by
        rw [BMap.get_eq_none]
        rintro e he rfl
        rw [List.mem_filter] at he
        have h2 := he.2
        simp only [Bool.not_eq_true', List.contains_eq_mem, decide_eq_false_iff_not, List.mem_filter,
          not_and, decide_eq_true_eq, Bool.not_eq_eq_eq_not, Bool.not_true] at h2
        exact hs' (by simpa using h2 (List.mem_map.2 ⟨e, he.1, rfl⟩))
      rw [this]; rfl

/-- An update with any snapshot, repeated prices included: both sides show it, a later level of the same price replacing
an earlier one. -/
theorem update_all (m : Mode) {b : OrderBook} (hb : SnapBook b) (a d : List LevelSnapshot)
    (hfa : b.asks.total + qtySum a < U64) (hfb : b.bids.total + qtySum d < U64) (hc : b.ctr + a.length + d.length < U64) :
    ∃ b', b.updateFromSnapshot m b.inst a d = .ok (b', .ok ()) ∧ SnapBook b' ∧ b'.inst = b.inst ∧
      b'.ctr ≤ b.ctr + a.length + d.length ∧ Shows b'.asks .ask (lastWins a) ∧ Shows b'.bids .bid (lastWins d) := by
  simp only [qtySum] at hfa hfb
  obtain ⟨ha, c1, e1, i1, b1, s1, h1, h2, g1⟩ := updateSnapshot_all m hb.asks hb.abest a hfa (by omega)
  obtain ⟨hd, c2, e2, i2, b2, s2, h3, h4, g2⟩ :=
    updateSnapshot_all m (snapInv_mono hb.bids h1) hb.bbest d hfb (by omega)
  refine ⟨⟨ha, hd, b.inst, c2⟩, ?_, ⟨snapInv_mono i1 h3, i2, b1, b2, s1.trans hb.aside, s2.trans hb.bside⟩, rfl,
    ?_, shows_of i1 b1 (s1.trans hb.aside) (lastWins_distinct a) g1,
    shows_of i2 b2 (s2.trans hb.bside) (lastWins_distinct d) g2⟩
  · simp only [OrderBook.updateFromSnapshot, ne_eq, not_true_eq_false, if_false, e1, Res.bind_ok, e2]
  · show c2 ≤ _; omega

/-! ## The desk -/

/-- Between messages: the table is sound, the book is the one of `own`, it was fed by snapshots, its totals are bounded
by what levels behind a cut and a message can hold, and its counter by `n`. -/
structure DeskInv (own : IdData) (bound n : Nat) (d : Desk) : Prop where
  cache : CacheOk d.cache
  inst : d.cache.read d.book.inst = some own
  book : SnapBook d.book
  atot : d.book.asks.total ≤ bound
  btot : d.book.bids.total ≤ bound
  ctr : d.book.ctr ≤ n

theorem deskInv_open (c : Cache) (hc : CacheOk c) (g : Gen) (own : IdData) (bound : Nat) :
    DeskInv own bound 0 (openDesk c g own) := by
  obtain ⟨h1, h2, -⟩ := cache_intern c hc own
  unfold openDesk
  exact ⟨h1, h2, snapBook_init _, Nat.zero_le _, Nat.zero_le _, Nat.le_refl _⟩

theorem present_own (m : Mode) {own : IdData} {bound n : Nat} {d : Desk} (inv : DeskInv own bound n d)
    (ask bid : List Krx.Level) (ha : qtySum (bookLevels ask) ≤ bound) (hb : qtySum (bookLevels bid) ≤ bound)
    (hbound : bound + bound < U64) (hn : n + ask.length + bid.length < U64) :
    ∃ b', present m d own ask bid = .ok ({ d with book := b' }, .taken) ∧
      DeskInv own bound (n + ask.length + bid.length) { d with book := b' } ∧
      Shows b'.asks .ask (lastWins (bookLevels ask)) ∧ Shows b'.bids .bid (lastWins (bookLevels bid)) := by
  obtain ⟨hc, hi, hbk, h1, h2, h3⟩ := inv
  have hl : (bookLevels ask).length = ask.length ∧ (bookLevels bid).length = bid.length := by simp [bookLevels]
  obtain ⟨b', e, sb, hinst, hctr, s1, s2⟩ := update_all m hbk (bookLevels ask) (bookLevels bid) (by omega) (by omega) (by omega)
  have ht : d.cache.table own = some d.book.inst := hc.complete _ _ hi
  have hin : d.cache.intern own = (d.book.inst, d.cache) := by unfold Cache.intern; rw [ht]
  have t1 : b'.asks.total = qtySum (lastWins (bookLevels ask)) := s1.2.2.2.2.1
  have t2 : b'.bids.total = qtySum (lastWins (bookLevels bid)) := s2.2.2.2.2.1
  refine ⟨b', ?_, ⟨hc, by rw [hinst]; exact hi, sb, ?_, ?_, by show b'.ctr ≤ _; omega⟩, s1, s2⟩
  · unfold present
    rw [hin]
    dsimp only
    rw [e]
    rfl
  · show b'.asks.total ≤ _
    have := qtySum_lastWins (bookLevels ask); omega
  · show b'.bids.total ≤ _
    have := qtySum_lastWins (bookLevels bid); omega

theorem present_other (m : Mode) {own id : IdData} {bound n : Nat} {d : Desk} (inv : DeskInv own bound n d) (hid : id ≠ own)
    (ask bid : List Krx.Level) :
    ∃ c', present m d id ask bid = .ok ({ d with cache := c' }, .rejected) ∧ DeskInv own bound n { d with cache := c' } := by
  obtain ⟨hc, hi, hbk, h1, h2, h3⟩ := inv
  obtain ⟨k1, k2, more, k3⟩ := cache_intern d.cache hc id
  have hi' : (d.cache.intern id).2.read d.book.inst = some own := by
    unfold Cache.read at hi ⊢
    rw [k3, List.getElem?_append_left]
    · exact hi
    · by_contra hn; rw [List.getElem?_eq_none (by omega)] at hi; exact absurd hi (by simp)
  refine ⟨(d.cache.intern id).2, ?_, ⟨k1, hi', hbk, h1, h2, h3⟩⟩
  have hne : d.book.inst ≠ (d.cache.intern id).1 := by
    intro e
    rw [← e, hi'] at k2
    exact hid (Option.some.inj k2).symm
  unfold present
  dsimp only
  rw [C23_wrong_instrument m d.book _ _ _ hne]
  rfl

/-! ## Messages -/

theorem bookLevels_map {α : Type} (l : List α) (f : α → Krx.Level) : bookLevels (l.map f) = l.map fun x => ⟨(f x).price, (f x).qty⟩ := by
  simp [bookLevels]

theorem sum_take_le {α : Type} (f : α → Nat) (k : Nat) (l : List α) (hf : ∀ x ∈ l, f x ≤ k) (n : Nat) :
    ((l.take n).map f).sum ≤ n * k := by
  induction l generalizing n with
  | nil => simp
  | cons x l ih =>
    cases n with
    | zero => simp
    | succ n =>
      have h1 := ih (fun y hy => hf y (List.mem_cons_of_mem _ hy)) n
      have h2 := hf x (by simp)
      simp only [List.take_succ_cons, List.map_cons, List.sum_cons]
      rw [Nat.succ_mul]
      omega

/-- The most a side of a message can hold: ten levels of twelve digits. -/
def sideMax : Nat := 10 * 10 ^ 12

theorem side_le {α : Type} (l : List α) (f : α → LevelSnapshot) (n : Nat) (hn : n ≤ 10) (hf : ∀ x ∈ l, (f x).qty ≤ 10 ^ 12) :
    qtySum ((l.take n).map f) ≤ sideMax := by
  unfold qtySum
  rw [List.map_map]
  have := sum_take_le (fun x => (f x).qty) (10 ^ 12) l hf n
  have h2 : n * 10 ^ 12 ≤ 10 * 10 ^ 12 := Nat.mul_le_mul_right _ hn
  exact Nat.le_trans this h2

theorem packet_reads {m : Mode} {k k' : Packet} {g g' : Gen} {id : IdData} {ask bid : List Krx.Level} {a b : List LevelSnapshot}
    (hk : k = k') (h : k'.parse m g = .ok ((id, ask, bid), g')) (ha : bookLevels ask = a) (hb : bookLevels bid = b) :
    ∃ ask bid, k.parse m g = .ok ((id, ask, bid), g') ∧ bookLevels ask = a ∧ bookLevels bid = b :=
  ⟨ask, bid, by rw [hk]; exact h, ha, hb⟩

/-- What the parser makes of a delivery. -/
theorem delivery_reads (m : Mode) (x : Delivery) (ok : x.Ok) :
    (∃ i v, x.isin = some i ∧ x.time = some v ∧ IsinOk i ∧
      (∀ g t g', parseStamp m krxOffset v.1 v.2 g = .ok (t, g') →
        ∃ ask bid, x.packet.parse m g = .ok ((⟨.isin i, .krx⟩, ask, bid), g') ∧ bookLevels ask = x.levels.1 ∧
          bookLevels bid = x.levels.2) ∧
      qtySum x.levels.1 ≤ sideMax ∧ qtySum x.levels.2 ≤ sideMax ∧ x.levels.1.length = x.cut ∧ x.levels.2.length = x.cut ∧
      x.cut ≤ 10) ∨
    (x.isin = none ∧ x.time = none ∧ ∀ g, x.packet.parse m g = .error .err) := by
  obtain ⟨mail, cut, p, sys⟩ := x
  cases mail with
  | deriv q h rows tail =>
    obtain ⟨hq, hcut, hok, hrows, hfit, htail, hp⟩ := ok
    have hcut' : cut ≤ 10 := Nat.le_trans hcut (levels_le q)
    refine Or.inl ⟨h.isin, _, rfl, rfl, hok.2.2.1, fun g t g' ht => ?_, ?_, ?_, ?_, ?_, hcut'⟩
    · have e := C99_derivative_quote m q hq cut hcut h hok rows hrows hfit tail htail p hp sys g t g' ht
      exact packet_reads rfl (by unfold Packet.parse Delivery.packet; dsimp only; rw [e]; rfl) (bookLevels_map _ _)
        (bookLevels_map _ _)
    · exact side_le rows _ cut hcut' fun r hr => by have := (hfit r hr).2.2.1; simp only; omega
    · exact side_le rows _ cut hcut' fun r hr => by have := (hfit r hr).2.2.2.1; simp only; omega
    · show (List.map _ _).length = cut
      rw [List.length_map, List.length_take, hrows]; exact Nat.min_eq_left hcut
    · show (List.map _ _).length = cut
      rw [List.length_map, List.length_take, hrows]; exact Nat.min_eq_left hcut
  | stock q h rows tail =>
    obtain ⟨hq, hcut, hok, hrows, hfit, htail, hp⟩ := ok
    refine Or.inl ⟨h.isin, _, rfl, rfl, hok.2.2.1, fun g t g' ht => ?_, ?_, ?_, ?_, ?_, hcut⟩
    · have e := C100_stock_quote m q hq cut hcut h hok rows hrows hfit tail htail p hp sys g t g' ht
      exact packet_reads rfl (by unfold Packet.parse Delivery.packet; dsimp only; rw [e]; rfl) (bookLevels_map _ _)
        (bookLevels_map _ _)
    · exact side_le rows _ cut hcut fun r hr => by have := (hfit r hr).2.2.2.2.1; simp only; omega
    · exact side_le rows _ cut hcut fun r hr => by have := (hfit r hr).2.2.2.2.2.1; simp only; omega
    · show (List.map _ _).length = cut
      rw [List.length_map, List.length_take, hrows]; exact Nat.min_eq_left hcut
    · show (List.map _ _).length = cut
      rw [List.length_map, List.length_take, hrows]; exact Nat.min_eq_left hcut
  | trade q want h d rows tail =>
    obtain ⟨hcut, hok, hd, hrows, hfit, htail, hp⟩ := ok
    have hcut' : cut ≤ 10 := Nat.le_trans hcut (by cases q <;> decide)
    refine Or.inl ⟨h.isin, _, rfl, rfl, hok.2.2.1, fun g t g' ht => ?_, ?_, ?_, ?_, ?_, hcut'⟩
    · have e := C101_trade_quote m q cut hcut want h hok d hd rows hrows hfit tail htail p hp sys g t g' ht
      exact packet_reads rfl (by unfold Packet.parse Delivery.packet; dsimp only; rw [e]; rfl) (bookLevels_map _ _)
        (bookLevels_map _ _)
    · exact side_le rows _ cut hcut' fun r hr => by have := (hfit r hr).2.2.1; simp only; omega
    · exact side_le rows _ cut hcut' fun r hr => by have := (hfit r hr).2.2.2.1; simp only; omega
    · show (List.map _ _).length = cut
      rw [List.length_map, List.length_take, hrows]; exact Nat.min_eq_left hcut
    · show (List.map _ _).length = cut
      rw [List.length_map, List.length_take, hrows]; exact Nat.min_eq_left hcut
  | junk k =>
    obtain ⟨hcut, hw, hr⟩ := ok
    refine Or.inr ⟨rfl, rfl, fun g => ?_⟩
    cases k with
    | quote q =>
      have hl : 29 ≤ q.len := by cases q <;> decide
      have e2 : q.parse m cut p sys g = .error (refusal q.len p) := not_wellformed q.len hl p hw _
      unfold Packet.parse Delivery.packet
      dsimp only
      have hr' : refusal q.len p = .err := hr
      rw [e2, hr']; rfl
    | tradeQuote q want =>
      have hl : 29 ≤ q.len := by cases q <;> decide
      have e2 : q.parse m cut want p sys g = .error (refusal q.len p) := not_wellformed q.len hl p hw _
      unfold Packet.parse Delivery.packet
      dsimp only
      have hr' : refusal q.len p = .err := hr
      rw [e2, hr']; rfl

/-! ## C171 -/

theorem lastOf_append (own : List UInt8) (l : List Delivery) (x : Delivery) :
    lastOf own (l ++ [x]) = if x.isin = some own then some x else lastOf own l := by
  unfold lastOf
  rw [List.reverse_append, List.reverse_singleton, List.singleton_append, List.find?_cons]
  by_cases h : x.isin = some own <;> simp [h]

/-- One message: what happens to a desk in order. -/
theorem step_spec (m : Mode) (own : List UInt8) (n : Nat) (d : Desk) (inv : DeskInv ⟨.isin own, .krx⟩ sideMax n d)
    (x : Delivery) (ok : x.Ok) (hn : n + 20 < U64) (g' : Gen)
    (ht : match x.time with | none => g' = d.gen | some v => ∃ t, parseStamp m krxOffset v.1 v.2 d.gen = .ok (t, g')) :
    ∃ d', step m d x.packet = .ok (d', x.outcome own) ∧ DeskInv ⟨.isin own, .krx⟩ sideMax (n + 20) d' ∧ d'.gen = g' ∧
      (x.isin = some own → Shows d'.book.asks .ask (lastWins x.levels.1) ∧ Shows d'.book.bids .bid (lastWins x.levels.2)) ∧
      (x.isin ≠ some own → d'.book = d.book) := by
  rcases delivery_reads m x ok with ⟨i, v, hi, hv, hio, hread, q1, q2, l1, l2, l3⟩ | ⟨hi, hv, herr⟩
  · rw [hv] at ht
    obtain ⟨t, ht⟩ := ht
    obtain ⟨ask, bid, hp, ha, hb⟩ := hread _ t g' ht
    have inv' : DeskInv ⟨.isin own, .krx⟩ sideMax n { d with gen := g' } :=
      ⟨inv.cache, inv.inst, inv.book, inv.atot, inv.btot, inv.ctr⟩
    have la : ask.length ≤ 10 := by rw [← ha] at l1; simp [bookLevels] at l1; omega
    have lb : bid.length ≤ 10 := by rw [← hb] at l2; simp [bookLevels] at l2; omega
    by_cases hown : i = own
    · subst hown
      obtain ⟨b', e, k, s1, s2⟩ := present_own m inv' ask bid (by rw [ha]; exact q1) (by rw [hb]; exact q2)
        (by decide) (by omega)
      refine ⟨_, ?_, ⟨k.cache, k.inst, k.book, k.atot, k.btot, Nat.le_trans k.ctr (by omega)⟩, rfl, fun _ => ?_,
        fun h => absurd hi h⟩
      · unfold step
        rw [hp]
        dsimp only
        rw [e]
        unfold Delivery.outcome
        rw [hi]; simp
      · rw [← ha, ← hb]; exact ⟨s1, s2⟩
    · obtain ⟨c', e, k⟩ := present_other m inv' (id := ⟨.isin i, .krx⟩) (by simpa using hown) ask bid
      refine ⟨_, ?_, ⟨k.cache, k.inst, k.book, k.atot, k.btot, Nat.le_trans k.ctr (by omega)⟩, rfl, fun h => ?_, fun _ => rfl⟩
      · unfold step
        rw [hp]
        dsimp only
        rw [e]
        unfold Delivery.outcome
        rw [hi]; simp [hown]
      · rw [hi] at h; exact absurd (Option.some.inj h) hown
  · rw [hv] at ht
    have hg : g' = d.gen := ht
    refine ⟨d, ?_, ⟨inv.cache, inv.inst, inv.book, inv.atot, inv.btot, Nat.le_trans inv.ctr (by omega)⟩, hg.symm,
      fun h => by rw [hi] at h; exact absurd h (by simp), fun _ => rfl⟩
    unfold step
    rw [herr]
    unfold Delivery.outcome
    rw [hi]

theorem feed_spec (m : Mode) (own : List UInt8) (l : List Delivery) : ∀ (before : List Delivery) (n : Nat) (d : Desk),
    DeskInv ⟨.isin own, .krx⟩ sideMax n d → ShowsLast d.book own before → (∀ x ∈ l, x.Ok) → n + 20 * l.length < U64 →
    ∀ (ts : List Nat) (g' : Gen), parseStream m krxOffset (l.filterMap (·.time)) d.gen = .ok (ts, g') →
    ∃ d', feed m (l.map (·.packet)) d = .ok (d', l.map (·.outcome own)) ∧ d'.gen = g' ∧ ShowsLast d'.book own (before ++ l) := by
  induction l with
  | nil =>
    intro before n d _ hs _ _ ts g' ht
    have ht' : (Except.ok ([], d.gen) : Res (List Nat × Gen)) = .ok (ts, g') := ht
    simp only [Except.ok.injEq, Prod.mk.injEq] at ht'
    exact ⟨d, rfl, ht'.2, by rw [List.append_nil]; exact hs⟩
  | cons x l ih =>
    intro before n d inv hs hok hn ts g' ht
    rw [List.length_cons] at hn
    have key : ∃ g1 ts1, (match x.time with | none => g1 = d.gen | some v => ∃ t, parseStamp m krxOffset v.1 v.2 d.gen = .ok (t, g1)) ∧
        parseStream m krxOffset (l.filterMap (·.time)) g1 = .ok (ts1, g') := by
      cases hv : x.time with
      | none => rw [List.filterMap_cons_none hv] at ht; exact ⟨d.gen, ts, rfl, ht⟩
      | some v =>
        rw [List.filterMap_cons_some hv] at ht
        obtain ⟨v1, v2⟩ := v
        rw [parseStream] at ht
        obtain ⟨⟨t, g1⟩, h1, h2⟩ := (bind_ok_pipe _ _ _).1 ht
        obtain ⟨⟨ts1, g2⟩, h3, h4⟩ := (bind_ok_pipe _ _ _).1 h2
        simp only [Except.ok.injEq, Prod.mk.injEq] at h4
        exact ⟨g1, ts1, ⟨t, h1⟩, by rw [h3, h4.2]⟩
    obtain ⟨g1, ts1, k1, k2⟩ := key
    obtain ⟨d1, e1, inv1, hg1, hs1, hs2⟩ := step_spec m own n d inv x (hok x (by simp)) (by omega) g1 k1
    have hshow : ShowsLast d1.book own (before ++ [x]) := by
      unfold ShowsLast
      rw [lastOf_append]
      by_cases hx : x.isin = some own
      · rw [if_pos hx]; exact hs1 hx
      · rw [if_neg hx, hs2 hx]; exact hs
    rw [← hg1] at k2
    obtain ⟨d2, e2, hg2, hs3⟩ := ih (before ++ [x]) (n + 20) d1 inv1 hshow (fun y hy => hok y (List.mem_cons_of_mem _ hy))
      (by omega) ts1 g' k2
    refine ⟨d2, ?_, hg2, by rw [List.append_assoc] at hs3; exact hs3⟩
    rw [List.map_cons, List.map_cons, feed]
    exact bind_of_ok e1 (bind_of_ok e2 rfl)

theorem shows_init (inst : Nat) : Shows (OrderBook.init inst).asks .ask [] ∧ Shows (OrderBook.init inst).bids .bid [] :=
  ⟨shows_of (snapBook_init inst).asks rfl rfl (by simp [DistinctPrices]) (fun _ => rfl),
    shows_of (snapBook_init inst).bids rfl rfl (by simp [DistinctPrices]) (fun _ => rfl)⟩

/-- C171. A book fed with any stream of messages of any instruments, bad ones among them: nothing fails, the client is
told of every message what became of it, and in the end the book shows exactly what the last message of its instrument
reports (nothing, if there was none). -/
theorem C171_book_of_messages (m : Mode) (own : List UInt8) (c : Cache) (hc : CacheOk c) (g : Gen) (l : List Delivery)
    (hok : ∀ x ∈ l, x.Ok) (hlen : 20 * l.length < U64)
    (ts : List Nat) (g' : Gen) (ht : parseStream m krxOffset (l.filterMap (·.time)) g = .ok (ts, g')) :
    ∃ d', feed m (l.map (·.packet)) (openDesk c g ⟨.isin own, .krx⟩) = .ok (d', l.map (·.outcome own)) ∧ d'.gen = g' ∧
      ShowsLast d'.book own l := by
  have h := feed_spec m own l [] 0 (openDesk c g ⟨.isin own, .krx⟩) (deskInv_open c hc g _ _)
    (by unfold ShowsLast lastOf; exact shows_init _) hok (by omega) ts g' ht
  exact h

/-- … and if that message reports every price once, exactly its levels. -/
theorem C171_distinct (own : List UInt8) (l : List Delivery) (b : OrderBook) (h : ShowsLast b own l) (x : Delivery)
    (hx : lastOf own l = some x) (ha : DistinctPrices x.levels.1) (hb : DistinctPrices x.levels.2) :
    Shows b.asks .ask x.levels.1 ∧ Shows b.bids .bid x.levels.2 := by
  unfold ShowsLast at h
  rw [hx] at h
  dsimp only at h
  rw [lastWins_id _ ha, lastWins_id _ hb] at h
  exact h

/-- The last message is one of the stream, of the instrument, and no later one is. -/
theorem C171_last (own : List UInt8) (l : List Delivery) :
    (lastOf own l = none ↔ ∀ x ∈ l, x.isin ≠ some own) ∧
    ∀ x, lastOf own l = some x ↔ ∃ a b, l = a ++ x :: b ∧ x.isin = some own ∧ ∀ y ∈ b, y.isin ≠ some own := by
  induction l using List.reverseRecOn with
  | nil => simp [lastOf]
  | append_singleton l z ih =>
    rw [lastOf_append]
    by_cases hz : z.isin = some own
    · rw [if_pos hz]
      refine ⟨by simp [hz], fun x => ⟨fun h => ?_, ?_⟩⟩
      · obtain rfl := Option.some.inj h
        exact ⟨l, [], rfl, hz, by simp⟩
      · rintro ⟨a, b, e, hx, hb⟩
        rcases List.eq_nil_or_concat b with rfl | ⟨b', y, rfl⟩
        · have := List.append_inj' (t₁ := [z]) (t₂ := [x]) e rfl
          simp at this; rw [this.2]
        · have e' : l ++ [z] = (a ++ x :: b') ++ [y] := by rw [e]; simp
          have := List.append_inj' e' rfl
          simp at this
          exact absurd (this.2 ▸ hz) (hb y (by simp))
    · rw [if_neg hz]
      refine ⟨?_, fun x => ?_⟩
      · rw [ih.1]
        constructor
        · intro h x hx
          rcases List.mem_append.1 hx with hx | hx
          · exact h x hx
          · rw [List.mem_singleton.1 hx]; exact hz
        · exact fun h x hx => h x (List.mem_append_left _ hx)
      · rw [ih.2]
        constructor
        · rintro ⟨a, b, rfl, hx, hb⟩
          refine ⟨a, b ++ [z], by simp, hx, fun y hy => ?_⟩
          rcases List.mem_append.1 hy with hy | hy
          · exact hb y hy
          · rw [List.mem_singleton.1 hy]; exact hz
        · rintro ⟨a, b, e, hx, hb⟩
          rcases List.eq_nil_or_concat b with rfl | ⟨b', y, rfl⟩
          · have := List.append_inj' (t₁ := [z]) (t₂ := [x]) e rfl
            simp at this
            exact absurd (this.2 ▸ hx) hz
          · have e' : l ++ [z] = (a ++ x :: b') ++ [y] := by rw [e]; simp
            have := List.append_inj' e' rfl
            exact ⟨a, b', this.1, hx, fun w hw => hb w (by simp [hw])⟩

/-! ## C172 -/

theorem lastWins_repeat (real : List LevelSnapshot) (hd : DistinctPrices real) (z : LevelSnapshot)
    (hz : ∀ x ∈ real, x.price ≠ z.price) (k : Nat) : lastWins (real ++ List.replicate (k + 1) z) = real ++ [z] := by
  induction real with
  | nil =>
    induction k with
    | zero => simp [lastWins]
    | succ k ih =>
      rw [List.nil_append, List.replicate_succ, lastWins, if_pos ⟨z, by simp, rfl⟩]
      simpa using ih
  | cons s r ih =>
    have hd' : (s.price ∉ r.map (·.price)) ∧ (r.map (·.price)).Nodup := List.nodup_cons.1 hd
    rw [List.cons_append, lastWins, if_neg, ih hd'.2 (fun x hx => hz x (List.mem_cons_of_mem _ hx)), List.cons_append]
    rintro ⟨x, hx, e⟩
    rcases List.mem_append.1 hx with hx | hx
    · exact hd'.1 (List.mem_map.2 ⟨x, hx, e⟩)
    · rw [List.eq_of_mem_replicate hx] at e
      exact hz s (by simp) e.symm

/-- The ask side with a level at price 0 has its best price there. -/
theorem best_ask_zero (h : HalfBook) (real : List LevelSnapshot) (hpos : ∀ x ∈ real, 0 < x.price)
    (hs : Shows h .ask (real ++ [⟨0, 0⟩])) : h.best = 0 := by
  obtain ⟨⟨x, hx, hxe⟩, h2⟩ := hs.2.2.2.2.2.2 (by simp)
  have h3 : h.best ≤ 0 := h2 ⟨0, 0⟩ (by simp)
  rcases List.mem_append.1 hx with hx | hx
  · have := hpos x hx; omega
  · rw [List.mem_singleton.1 hx] at hxe; exact hxe.symm

theorem best_bid_zero (h : HalfBook) (real : List LevelSnapshot) (hpos : ∀ x ∈ real, 0 < x.price)
    (hs : Shows h .bid (real ++ [⟨0, 0⟩])) :
    (real = [] → h.best = 0) ∧ (real ≠ [] → (∃ x ∈ real, x.price = h.best) ∧ ∀ x ∈ real, x.price ≤ h.best) := by
  obtain ⟨⟨x, hx, hxe⟩, h2⟩ := hs.2.2.2.2.2.2 (by simp)
  refine ⟨?_, fun hr => ⟨?_, fun y hy => h2 y (List.mem_append_left _ hy)⟩⟩
  · rintro rfl
    rw [List.nil_append, List.mem_singleton] at hx
    rw [hx] at hxe; exact hxe.symm
  · rcases List.mem_append.1 hx with hx | hx
    · exact ⟨x, hx, hxe⟩
    · obtain ⟨y, hy⟩ := List.exists_mem_of_ne_nil _ hr
      have h3 : y.price ≤ h.best := h2 y (List.mem_append_left _ hy)
      have h4 := hpos y hy
      rw [List.mem_singleton.1 hx] at hxe
      have : (0 : Int) = h.best := hxe
      omega

/-- C172. Levels without orders, which the exchange fills with zeros, are not skipped: after a message whose last ask
levels are empty the book has an ask level of quantity 0 at price 0, its best ask is 0, and with a bid above 0 it is
crossed; an empty bid side has best price 0. The real levels and the totals are right. -/
theorem C172_empty_levels (m : Mode) (own : List UInt8) (c : Cache) (hc : CacheOk c) (g : Gen) (l : List Delivery)
    (hok : ∀ x ∈ l, x.Ok) (hlen : 20 * l.length < U64)
    (ts : List Nat) (g' : Gen) (ht : parseStream m krxOffset (l.filterMap (·.time)) g = .ok (ts, g'))
    (x : Delivery) (hx : lastOf own l = some x) (asks bids : List LevelSnapshot) (j k : Nat)
    (ha : x.levels.1 = asks ++ List.replicate (j + 1) ⟨0, 0⟩) (hb : x.levels.2 = bids ++ List.replicate (k + 1) ⟨0, 0⟩)
    (da : DistinctPrices asks) (db : DistinctPrices bids) (pa : ∀ y ∈ asks, 0 < y.price) (pb : ∀ y ∈ bids, 0 < y.price) :
    ∃ d' os, feed m (l.map (·.packet)) (openDesk c g ⟨.isin own, .krx⟩) = .ok (d', os) ∧
      Shows d'.book.asks .ask (asks ++ [⟨0, 0⟩]) ∧ Shows d'.book.bids .bid (bids ++ [⟨0, 0⟩]) ∧ d'.book.asks.best = 0 ∧
      d'.book.asks.aggregate = qtySum asks ∧ d'.book.bids.aggregate = qtySum bids ∧
      (bids = [] → d'.book.bids.best = 0) ∧ (bids ≠ [] → d'.book.asks.best < d'.book.bids.best) := by
  obtain ⟨d', e, -, hs⟩ := C171_book_of_messages m own c hc g l hok hlen ts g' ht
  unfold ShowsLast at hs
  rw [hx] at hs
  dsimp only at hs
  rw [ha, hb, lastWins_repeat asks da _ (fun y hy => by have := pa y hy; exact fun h => by simp only at h; omega),
    lastWins_repeat bids db _ (fun y hy => by have := pb y hy; exact fun h => by simp only at h; omega)] at hs
  have hq : ∀ r : List LevelSnapshot, qtySum (r ++ [⟨0, 0⟩]) = qtySum r := by intro r; simp [qtySum]
  have b0 := best_ask_zero _ asks pa hs.1
  have b1 := best_bid_zero _ bids pb hs.2
  refine ⟨d', _, e, hs.1, hs.2, b0, by rw [hs.1.2.2.2.2.1, hq], by rw [hs.2.2.2.2.2.1, hq], b1.1, fun hn => ?_⟩
  obtain ⟨⟨y, hy, hye⟩, -⟩ := b1.2 hn
  have := pb y hy
  omega

/-! ## C173 -/

/-- As `ShowsLast`, with levels of a buffer behind those of the message. -/
def ShowsLastWith (b : OrderBook) (own : List UInt8) (staleA staleB : List LevelSnapshot) (l : List Delivery) : Prop :=
  match lastOf own l with
  | none => Shows b.asks .ask [] ∧ Shows b.bids .bid []
  | some x => Shows b.asks .ask (lastWins (x.levels.1 ++ staleA)) ∧ Shows b.bids .bid (lastWins (x.levels.2 ++ staleB))

theorem bookLevels_append (a b : List Krx.Level) : bookLevels (a ++ b) = bookLevels a ++ bookLevels b := by simp [bookLevels]

theorem qtySum_append (a b : List LevelSnapshot) : qtySum (a ++ b) = qtySum a + qtySum b := by simp [qtySum]

theorem kind_cut (x : Delivery) (ok : x.Ok) (q : QuoteMsg) (hk : x.packet.kind = .quote q) : x.cut ≤ q.levels := by
  obtain ⟨mail, cut, p, sys⟩ := x
  cases mail with
  | deriv q' h rows tail => cases hk; exact ok.2.1
  | stock q' h rows tail => cases hk; obtain ⟨h1, h2, -⟩ := ok; rcases h1 with rfl | rfl <;> exact h2
  | trade q' want h d rows tail => cases hk
  | junk k => cases (hk : k = .quote q); exact ok.1

theorem stepInto_spec (m : Mode) (own : List UInt8) (q : QuoteMsg) (n bound : Nat) (d : Desk)
    (inv : DeskInv ⟨.isin own, .krx⟩ bound n d) (x : Delivery) (ok : x.Ok) (hk : x.packet.kind = .quote q)
    (buf : Quote) (ha : x.cut ≤ buf.ask.length) (hb : x.cut ≤ buf.bid.length) (hn : n + buf.ask.length + buf.bid.length < U64)
    (hba : sideMax + qtySum (bookLevels (buf.ask.drop x.cut)) ≤ bound)
    (hbb : sideMax + qtySum (bookLevels (buf.bid.drop x.cut)) ≤ bound) (hbound : bound + bound < U64) (g' : Gen)
    (ht : match x.time with | none => g' = d.gen | some v => ∃ t, parseStamp m krxOffset v.1 v.2 d.gen = .ok (t, g')) :
    ∃ d' buf', stepInto m q x.cut d buf x.p x.sys = .ok (d', buf', x.outcome own) ∧
      DeskInv ⟨.isin own, .krx⟩ bound (n + buf.ask.length + buf.bid.length) d' ∧ d'.gen = g' ∧
      buf'.ask.drop x.cut = buf.ask.drop x.cut ∧ buf'.bid.drop x.cut = buf.bid.drop x.cut ∧
      buf'.ask.length = buf.ask.length ∧ buf'.bid.length = buf.bid.length ∧
      (x.isin = some own → Shows d'.book.asks .ask (lastWins (x.levels.1 ++ bookLevels (buf.ask.drop x.cut))) ∧
        Shows d'.book.bids .bid (lastWins (x.levels.2 ++ bookLevels (buf.bid.drop x.cut)))) ∧
      (x.isin ≠ some own → d'.book = d.book) := by
  have hcut := kind_cut x ok q hk
  have hinto := fun g => C103_quote_buffer m q x.cut hcut x.p x.sys g buf ha hb
  have hpk : ∀ g, x.packet.parse m g = (q.parse m x.cut x.p x.sys g >>= fun r => .ok ((r.1.id, r.1.ask, r.1.bid), r.2)) := by
    intro g
    unfold Packet.parse
    rw [hk]
    rfl
  rcases delivery_reads m x ok with ⟨i, v, hi, hv, hio, hread, q1, q2, l1, l2, l3⟩ | ⟨hi, hv, herr⟩
  · rw [hv] at ht
    obtain ⟨t, ht⟩ := ht
    obtain ⟨ask, bid, hp, hA, hB⟩ := hread _ t g' ht
    rw [hpk] at hp
    obtain ⟨⟨s, g2⟩, hs1, hs2⟩ := (bind_ok_pipe _ _ _).1 hp
    simp only [Except.ok.injEq, Prod.mk.injEq] at hs2
    obtain ⟨⟨sid, rfl, rfl⟩, rfl⟩ := hs2
    have e1 : q.parseInto m x.cut x.p x.sys d.gen buf = .ok (intoBuffer x.cut buf s, g2) := by rw [hinto, hs1]; rfl
    have la : s.ask.length = x.cut := by rw [← hA] at l1; simpa [bookLevels] using l1
    have lb : s.bid.length = x.cut := by rw [← hB] at l2; simpa [bookLevels] using l2
    have inv' : DeskInv ⟨.isin own, .krx⟩ bound n { d with gen := g2 } :=
      ⟨inv.cache, inv.inst, inv.book, inv.atot, inv.btot, inv.ctr⟩
    have d1 : (intoBuffer x.cut buf s).ask.drop x.cut = buf.ask.drop x.cut := by
      show (s.ask ++ buf.ask.drop x.cut).drop x.cut = _
      rw [List.drop_append_of_le_length (by omega), List.drop_eq_nil_of_le (by omega), List.nil_append]
    have d2 : (intoBuffer x.cut buf s).bid.drop x.cut = buf.bid.drop x.cut := by
      show (s.bid ++ buf.bid.drop x.cut).drop x.cut = _
      rw [List.drop_append_of_le_length (by omega), List.drop_eq_nil_of_le (by omega), List.nil_append]
    have d3 : (intoBuffer x.cut buf s).ask.length = buf.ask.length := by
      show (s.ask ++ buf.ask.drop x.cut).length = _
      rw [List.length_append, List.length_drop]; omega
    have d4 : (intoBuffer x.cut buf s).bid.length = buf.bid.length := by
      show (s.bid ++ buf.bid.drop x.cut).length = _
      rw [List.length_append, List.length_drop]; omega
    have hid : (intoBuffer x.cut buf s).id = ⟨.isin i, .krx⟩ := sid
    have b1 : bookLevels (intoBuffer x.cut buf s).ask = x.levels.1 ++ bookLevels (buf.ask.drop x.cut) := by
      show bookLevels (s.ask ++ _) = _; rw [bookLevels_append, hA]
    have b2 : bookLevels (intoBuffer x.cut buf s).bid = x.levels.2 ++ bookLevels (buf.bid.drop x.cut) := by
      show bookLevels (s.bid ++ _) = _; rw [bookLevels_append, hB]
    by_cases hown : i = own
    · subst hown
      obtain ⟨b', e, k, s1, s2⟩ := present_own m inv' (intoBuffer x.cut buf s).ask (intoBuffer x.cut buf s).bid
        (by rw [b1, qtySum_append]; omega) (by rw [b2, qtySum_append]; omega) hbound (by rw [d3, d4]; exact hn)
      rw [d3, d4] at k
      refine ⟨_, _, ?_, k, rfl, d1, d2, d3, d4, fun _ => ?_, fun h => absurd hi h⟩
      · unfold stepInto
        rw [e1]
        dsimp only
        rw [hid, e]
        unfold Delivery.outcome
        rw [hi]; simp
      · rw [b1] at s1; rw [b2] at s2; exact ⟨s1, s2⟩
    · obtain ⟨c', e, k⟩ := present_other m inv' (id := ⟨.isin i, .krx⟩) (by simpa using hown)
        (intoBuffer x.cut buf s).ask (intoBuffer x.cut buf s).bid
      refine ⟨_, _, ?_, ⟨k.cache, k.inst, k.book, k.atot, k.btot, Nat.le_trans k.ctr (by omega)⟩, rfl, d1, d2, d3, d4,
        fun h => ?_, fun _ => rfl⟩
      · unfold stepInto
        rw [e1]
        dsimp only
        rw [hid, e]
        unfold Delivery.outcome
        rw [hi]; simp [hown]
      · rw [hi] at h; exact absurd (Option.some.inj h) hown
  · rw [hv] at ht
    have hg : g' = d.gen := ht
    have e0 : q.parseInto m x.cut x.p x.sys d.gen buf = .error .err := by
      have h0 := herr d.gen
      rw [hpk] at h0
      rw [hinto]
      cases hq : q.parse m x.cut x.p x.sys d.gen with
      | ok r => rw [hq] at h0; cases h0
      | error f => rw [hq] at h0; cases h0; rfl
    refine ⟨d, buf, ?_, ⟨inv.cache, inv.inst, inv.book, inv.atot, inv.btot, Nat.le_trans inv.ctr (by omega)⟩, hg.symm,
      rfl, rfl, rfl, rfl, fun h => by rw [hi] at h; exact absurd h (by simp), fun _ => rfl⟩
    unfold stepInto
    rw [e0]
    unfold Delivery.outcome
    rw [hi]

theorem feedInto_spec (m : Mode) (own : List UInt8) (q : QuoteMsg) (cut bound per : Nat) (staleA staleB : List Krx.Level)
    (hba : sideMax + qtySum (bookLevels staleA) ≤ bound) (hbb : sideMax + qtySum (bookLevels staleB) ≤ bound)
    (hbound : bound + bound < U64) (l : List Delivery) :
    ∀ (before : List Delivery) (n : Nat) (d : Desk) (buf : Quote), DeskInv ⟨.isin own, .krx⟩ bound n d →
    ShowsLastWith d.book own (bookLevels staleA) (bookLevels staleB) before → (∀ x ∈ l, x.Ok) →
    (∀ x ∈ l, x.packet.kind = .quote q ∧ x.cut = cut) → cut ≤ buf.ask.length → cut ≤ buf.bid.length →
    buf.ask.length + buf.bid.length = per → buf.ask.drop cut = staleA → buf.bid.drop cut = staleB → n + per * l.length < U64 →
    ∀ (ts : List Nat) (g' : Gen), parseStream m krxOffset (l.filterMap (·.time)) d.gen = .ok (ts, g') →
    ∃ d' buf', feedInto m q cut (l.map fun x => (x.p, x.sys)) d buf = .ok (d', buf', l.map (·.outcome own)) ∧ d'.gen = g' ∧
      buf'.ask.drop cut = staleA ∧ buf'.bid.drop cut = staleB ∧
      ShowsLastWith d'.book own (bookLevels staleA) (bookLevels staleB) (before ++ l) := by
  induction l with
  | nil =>
    intro before n d buf _ hs _ _ _ _ _ sa sb _ ts g' ht
    have ht' : (Except.ok ([], d.gen) : Res (List Nat × Gen)) = .ok (ts, g') := ht
    simp only [Except.ok.injEq, Prod.mk.injEq] at ht'
    exact ⟨d, buf, rfl, ht'.2, sa, sb, by rw [List.append_nil]; exact hs⟩
  | cons x l ih =>
    intro before n d buf inv hs hok hkind ca cb hper sa sb hn ts g' ht
    rw [List.length_cons, Nat.mul_succ] at hn
    obtain ⟨hk, hxc⟩ := hkind x (by simp)
    subst hxc
    have key : ∃ g1 ts1, (match x.time with | none => g1 = d.gen | some v => ∃ t, parseStamp m krxOffset v.1 v.2 d.gen = .ok (t, g1)) ∧
        parseStream m krxOffset (l.filterMap (·.time)) g1 = .ok (ts1, g') := by
      cases hv : x.time with
      | none => rw [List.filterMap_cons_none hv] at ht; exact ⟨d.gen, ts, rfl, ht⟩
      | some v =>
        rw [List.filterMap_cons_some hv] at ht
        obtain ⟨v1, v2⟩ := v
        rw [parseStream] at ht
        obtain ⟨⟨t, g1⟩, h1, h2⟩ := (bind_ok_pipe _ _ _).1 ht
        obtain ⟨⟨ts1, g2⟩, h3, h4⟩ := (bind_ok_pipe _ _ _).1 h2
        simp only [Except.ok.injEq, Prod.mk.injEq] at h4
        exact ⟨g1, ts1, ⟨t, h1⟩, by rw [h3, h4.2]⟩
    obtain ⟨g1, ts1, k1, k2⟩ := key
    obtain ⟨d1, buf1, e1, inv1, hg1, a1, a2, a3, a4, hs1, hs2⟩ := stepInto_spec m own q n bound d inv x (hok x (by simp)) hk buf ca cb
      (by omega) (by rw [sa]; exact hba) (by rw [sb]; exact hbb) hbound g1 k1
    rw [sa, sb] at hs1
    have hshow : ShowsLastWith d1.book own (bookLevels staleA) (bookLevels staleB) (before ++ [x]) := by
      unfold ShowsLastWith
      rw [lastOf_append]
      by_cases hx : x.isin = some own
      · rw [if_pos hx]; exact hs1 hx
      · rw [if_neg hx, hs2 hx]; exact hs
    rw [← hg1] at k2
    obtain ⟨d2, buf2, e2, hg2, z1, z2, hs3⟩ := ih (before ++ [x]) _ d1 buf1 inv1 hshow
      (fun y hy => hok y (List.mem_cons_of_mem _ hy)) (fun y hy => hkind y (List.mem_cons_of_mem _ hy)) (by omega) (by omega)
      (by omega) (by rw [a1, sa]) (by rw [a2, sb]) (by omega) ts1 g' k2
    refine ⟨d2, buf2, ?_, hg2, z1, z2, by rw [List.append_assoc] at hs3; exact hs3⟩
    rw [List.map_cons, List.map_cons, feedInto]
    exact bind_of_ok e1 (bind_of_ok e2 rfl)

/-- C173. A book fed through one buffer that has room for more levels than are read: whatever lay in the buffer behind
the cut at the start stays there for the whole stream, and the book shows it as levels of its instrument, behind those of
the last message (and instead of them, where a price agrees). -/
theorem C173_stale_levels (m : Mode) (own : List UInt8) (c : Cache) (hc : CacheOk c) (g : Gen) (q : QuoteMsg) (cut : Nat)
    (buf : Quote) (ha : cut ≤ buf.ask.length) (hb : cut ≤ buf.bid.length)
    (hqa : qtySum (bookLevels (buf.ask.drop cut)) < 2 ^ 62) (hqb : qtySum (bookLevels (buf.bid.drop cut)) < 2 ^ 62)
    (l : List Delivery) (hok : ∀ x ∈ l, x.Ok) (hkind : ∀ x ∈ l, x.packet.kind = .quote q ∧ x.cut = cut)
    (hlen : (buf.ask.length + buf.bid.length) * l.length < U64)
    (ts : List Nat) (g' : Gen) (ht : parseStream m krxOffset (l.filterMap (·.time)) g = .ok (ts, g')) :
    ∃ d' buf', feedInto m q cut (l.map fun x => (x.p, x.sys)) (openDesk c g ⟨.isin own, .krx⟩) buf
        = .ok (d', buf', l.map (·.outcome own)) ∧ d'.gen = g' ∧
      buf'.ask.drop cut = buf.ask.drop cut ∧ buf'.bid.drop cut = buf.bid.drop cut ∧
      ShowsLastWith d'.book own (bookLevels (buf.ask.drop cut)) (bookLevels (buf.bid.drop cut)) l := by
  have hs : sideMax + 2 ^ 62 + (sideMax + 2 ^ 62) < U64 := by decide
  obtain ⟨bound, hbd⟩ : ∃ n, n = sideMax + 2 ^ 62 := ⟨_, rfl⟩
  rw [← hbd] at hs
  have h1 : sideMax + qtySum (bookLevels (buf.ask.drop cut)) ≤ bound := by rw [hbd]; exact Nat.add_le_add_left (Nat.le_of_lt hqa) _
  have h2 : sideMax + qtySum (bookLevels (buf.bid.drop cut)) ≤ bound := by rw [hbd]; exact Nat.add_le_add_left (Nat.le_of_lt hqb) _
  clear hbd hqa hqb
  exact feedInto_spec m own q cut bound _ _ _ h1 h2 hs l [] 0 (openDesk c g ⟨.isin own, .krx⟩) buf (deskInv_open c hc g _ _)
    (by unfold ShowsLastWith lastOf; exact shows_init _) hok hkind ha hb rfl rfl rfl (by rw [Nat.zero_add]; exact hlen) ts g' ht

/-- With a buffer of exactly the levels that are read the book is right. -/
theorem C173_exact_buffer (m : Mode) (own : List UInt8) (c : Cache) (hc : CacheOk c) (g : Gen) (q : QuoteMsg) (cut : Nat)
    (buf : Quote) (ha : buf.ask.length = cut) (hb : buf.bid.length = cut)
    (l : List Delivery) (hok : ∀ x ∈ l, x.Ok) (hkind : ∀ x ∈ l, x.packet.kind = .quote q ∧ x.cut = cut)
    (hlen : 2 * cut * l.length < U64)
    (ts : List Nat) (g' : Gen) (ht : parseStream m krxOffset (l.filterMap (·.time)) g = .ok (ts, g')) :
    ∃ d' buf', feedInto m q cut (l.map fun x => (x.p, x.sys)) (openDesk c g ⟨.isin own, .krx⟩) buf
        = .ok (d', buf', l.map (·.outcome own)) ∧ d'.gen = g' ∧ ShowsLast d'.book own l := by
  have e1 : buf.ask.drop cut = [] := List.drop_eq_nil_of_le (by omega)
  have e2 : buf.bid.drop cut = [] := List.drop_eq_nil_of_le (by omega)
  obtain ⟨d', buf', h1, h2, -, -, h3⟩ := C173_stale_levels m own c hc g q cut buf (by omega) (by omega)
    (by rw [e1]; decide) (by rw [e2]; decide) l hok hkind (by rw [ha, hb, ← Nat.two_mul]; exact hlen) ts g' ht
  refine ⟨d', buf', h1, h2, ?_⟩
  rw [e1, e2] at h3
  unfold ShowsLastWith at h3
  unfold ShowsLast
  cases hl : lastOf own l with
  | none => rw [hl] at h3; exact h3
  | some x =>
    rw [hl] at h3
    dsimp only at h3 ⊢
    have e : bookLevels [] = [] := rfl
    rw [e, List.append_nil, List.append_nil] at h3
    exact h3

/-- With a new buffer (`with_quote_level`) of more levels than are read, the levels behind the cut are zeros: after every
message with positive prices the best ask is 0. -/
theorem C173_roomy_buffer (m : Mode) (own : List UInt8) (c : Cache) (hc : CacheOk c) (g : Gen) (q : QuoteMsg) (cut k : Nat)
    (l : List Delivery) (hok : ∀ x ∈ l, x.Ok) (hkind : ∀ x ∈ l, x.packet.kind = .quote q ∧ x.cut = cut)
    (hlen : 2 * (cut + (k + 1)) * l.length < U64)
    (ts : List Nat) (g' : Gen) (ht : parseStream m krxOffset (l.filterMap (·.time)) g = .ok (ts, g'))
    (x : Delivery) (hx : lastOf own l = some x) (hd : DistinctPrices x.levels.1) (hp : ∀ y ∈ x.levels.1, 0 < y.price) :
    ∃ d' buf' os, feedInto m q cut (l.map fun x => (x.p, x.sys)) (openDesk c g ⟨.isin own, .krx⟩) (Quote.withLevel (cut + (k + 1)))
        = .ok (d', buf', os) ∧ Shows d'.book.asks .ask (x.levels.1 ++ [⟨0, 0⟩]) ∧ d'.book.asks.best = 0 := by
  have e1 : bookLevels ((Quote.withLevel (cut + (k + 1))).ask.drop cut) = List.replicate (k + 1) ⟨0, 0⟩ := by
    unfold Quote.withLevel
    dsimp only
    rw [List.drop_replicate, Nat.add_sub_cancel_left]
    unfold bookLevels
    rw [List.map_replicate]; rfl
  have e2 : bookLevels ((Quote.withLevel (cut + (k + 1))).bid.drop cut) = List.replicate (k + 1) ⟨0, 0⟩ := e1
  have hz : qtySum (List.replicate (k + 1) ⟨0, 0⟩) = 0 := by unfold qtySum; rw [List.map_replicate]; simp
  have hl : (Quote.withLevel (cut + (k + 1))).ask.length = cut + (k + 1) := by unfold Quote.withLevel; simp only [List.length_replicate]
  have hl' : (Quote.withLevel (cut + (k + 1))).bid.length = cut + (k + 1) := hl
  obtain ⟨d', buf', h1, h2, -, -, h3⟩ := C173_stale_levels m own c hc g q cut (Quote.withLevel (cut + (k + 1))) (by omega) (by omega)
    (by rw [e1, hz]; decide) (by rw [e2, hz]; decide) l hok hkind (by rw [hl, hl', ← Nat.two_mul]; exact hlen) ts g' ht
  unfold ShowsLastWith at h3
  rw [hx, e1] at h3
  dsimp only at h3
  rw [lastWins_repeat _ hd _ (fun y hy => by have := hp y hy; exact fun h => by simp only at h; omega)] at h3
  exact ⟨d', buf', _, h1, h3.1, best_ask_zero _ _ hp h3.1⟩

/-! ## Concrete streams -/

/-- Another instrument. -/
def otherHeading : Heading :=
  ⟨ascii "B603F", ascii "        G140", ascii "KR4301V13510", ascii "001657", ⟨10, 49, 39, 81108⟩⟩

theorem otherHeading_ok : otherHeading.Ok := by
  refine ⟨by decide, by decide, ⟨by decide, by decide⟩, by decide, ?_⟩
  unfold Reading.Valid; decide

/-- Two levels on either side, the others empty. -/
def thinRows : List Row :=
  [⟨⟨212, 10, 3, 0⟩, ⟨211, 10, 6, 0⟩⟩, ⟨⟨213, 33, 11, 0⟩, ⟨210, 41, 11, 0⟩⟩, ⟨⟨0, 0, 0, 0⟩, ⟨0, 0, 0, 0⟩⟩,
    ⟨⟨0, 0, 0, 0⟩, ⟨0, 0, 0, 0⟩⟩, ⟨⟨0, 0, 0, 0⟩, ⟨0, 0, 0, 0⟩⟩]

/-- A derivative quote as delivery. -/
def derivDelivery (cut : Nat) (h : Heading) (rows : List Row) : Delivery :=
  ⟨.deriv .d0034 h rows (List.replicate 46 48), cut, ofList (derivQuote h rows (List.replicate 46 48)), 0⟩

theorem derivDelivery_ok (cut : Nat) (hc : cut ≤ 5) (h : Heading) (ok : h.Ok) (rows : List Row) (hr : rows.length = 5)
    (hf : ∀ r ∈ rows, r.DerivFits h.format) : (derivDelivery cut h rows).Ok :=
  ⟨Or.inl rfl, hc, ok, hr, hf, by simp, by simp [derivDelivery, ofList], holds_ofList _⟩

/-- Bytes that are no message. -/
def junkDelivery : Delivery := ⟨.junk (.quote .d0034), 3, ofList (List.replicate 324 48), 0⟩

theorem junkDelivery_ok : junkDelivery.Ok := by
  refine ⟨by decide, fun h => ?_, ?_⟩
  · exact absurd h.2.1 (by decide +kernel)
  · show refusal 324 (ofList (List.replicate 324 48)) = .err
    decide +kernel

/-- The own message, one of another instrument at the same time, and junk. -/
def sampleStream (cut : Nat) (rows : List Row) : List Delivery :=
  [derivDelivery cut sampleHeading rows, derivDelivery cut otherHeading sampleRows, { junkDelivery with cut := cut }]

theorem rows_fit (rows : List Row) (hf : ∀ r ∈ rows, r.DerivFits .baseDeriv) (h : Heading) (e : h.format = .baseDeriv) :
    ∀ r ∈ rows, r.DerivFits h.format := by rw [e]; exact hf

theorem sampleStream_ok (cut : Nat) (hc : cut ≤ 5) (rows : List Row) (hr : rows.length = 5) (hf : ∀ r ∈ rows, r.DerivFits .baseDeriv) :
    ∀ x ∈ sampleStream cut rows, x.Ok := by
  intro x hx
  simp only [sampleStream, List.mem_cons, List.not_mem_nil, or_false] at hx
  rcases hx with rfl | rfl | rfl
  · exact derivDelivery_ok cut hc _ sampleHeading_ok rows hr (rows_fit rows hf _ (by decide))
  · refine derivDelivery_ok cut hc _ otherHeading_ok sampleRows rfl (rows_fit _ ?_ _ (by decide))
    unfold sampleRows Row.DerivFits PriceFits; decide
  · exact ⟨hc, junkDelivery_ok.2.1, junkDelivery_ok.2.2⟩

theorem sampleStream_time (m : Mode) (cut : Nat) (rows : List Row) : ∃ ts g',
    parseStream m krxOffset ((sampleStream cut rows).filterMap (·.time)) ⟨19875 * dayNanos, 0, 0⟩ = .ok (ts, g') := by
  let a : Event := ⟨19875, ⟨10, 49, 39, 81108⟩, ofList (Reading.text ⟨10, 49, 39, 81108⟩), 0⟩
  have ok : a.Ok krxOffset := by
    refine ⟨?_, by simp [a, ofList, reading_length], holds_ofList _, ?_⟩
    · unfold Reading.Valid; decide
    · decide
  obtain ⟨g', h⟩ := C32_stream m krxOffset a [a] ⟨19875 * dayNanos, 0, 0⟩ rfl rfl
    (by intro e he; simp at he; rw [he]; exact ok)
    ⟨Or.inl ⟨rfl, by unfold fifteenHours; omega⟩, trivial⟩
  exact ⟨_, g', h⟩

theorem sampleRows_fit : ∀ r ∈ sampleRows, r.DerivFits .baseDeriv := by
  unfold sampleRows Row.DerivFits PriceFits; decide

theorem thinRows_fit : ∀ r ∈ thinRows, r.DerivFits .baseDeriv := by
  unfold thinRows Row.DerivFits PriceFits; decide

/-- Non-vacuity of C171: three messages, of which the book takes one. -/
example (m : Mode) : ∃ d', feed m ((sampleStream 3 sampleRows).map (·.packet))
      (openDesk Cache.init ⟨19875 * dayNanos, 0, 0⟩ ⟨.isin (ascii "KR4301V13502"), .krx⟩)
        = .ok (d', [.taken, .rejected, .refused]) ∧
      Shows d'.book.asks .ask [⟨212, 10⟩, ⟨213, 33⟩, ⟨214, 29⟩] ∧ Shows d'.book.bids .bid [⟨211, 10⟩, ⟨-210, 41⟩, ⟨209, 43⟩] := by
  obtain ⟨ts, g', ht⟩ := sampleStream_time m 3 sampleRows
  obtain ⟨d', e, -, hs⟩ := C171_book_of_messages m (ascii "KR4301V13502") Cache.init cache_init _ (sampleStream 3 sampleRows)
    (sampleStream_ok 3 (by decide) _ rfl sampleRows_fit) (by decide) ts g' ht
  obtain ⟨h1, h2⟩ := C171_distinct _ _ _ hs (derivDelivery 3 sampleHeading sampleRows) (by rfl) (by decide) (by decide)
  exact ⟨d', e, h1, h2⟩

/-- Non-vacuity of C172, and the fault: two offers at 212 and 213, bids at 211 and 210, and the book says that the best
ask is 0. -/
theorem fault_empty_levels (m : Mode) : ∃ d' os, feed m ((sampleStream 5 thinRows).map (·.packet))
      (openDesk Cache.init ⟨19875 * dayNanos, 0, 0⟩ ⟨.isin (ascii "KR4301V13502"), .krx⟩) = .ok (d', os) ∧
      Shows d'.book.asks .ask [⟨212, 10⟩, ⟨213, 33⟩, ⟨0, 0⟩] ∧ d'.book.asks.best = 0 ∧ d'.book.asks.best < d'.book.bids.best := by
  obtain ⟨ts, g', ht⟩ := sampleStream_time m 5 thinRows
  obtain ⟨d', os, e, h1, -, h2, -, -, -, h3⟩ := C172_empty_levels m (ascii "KR4301V13502") Cache.init cache_init _ (sampleStream 5 thinRows)
    (sampleStream_ok 5 (by decide) _ rfl thinRows_fit) (by decide) ts g' ht (derivDelivery 5 sampleHeading thinRows) (by rfl)
    [⟨212, 10⟩, ⟨213, 33⟩] [⟨211, 10⟩, ⟨210, 41⟩] 2 2 (by rfl) (by rfl) (by decide) (by decide) (by decide) (by decide)
  exact ⟨d', os, e, h1, h2, h3 (by simp)⟩

/-- Non-vacuity of C173, and the fault: a buffer for five levels, of which three are read. -/
theorem fault_roomy_buffer (m : Mode) : ∃ d' buf' os,
    feedInto m .d0034 3 ((sampleStream 3 sampleRows).map fun x => (x.p, x.sys))
      (openDesk Cache.init ⟨19875 * dayNanos, 0, 0⟩ ⟨.isin (ascii "KR4301V13502"), .krx⟩) (Quote.withLevel 5) = .ok (d', buf', os) ∧
      Shows d'.book.asks .ask [⟨212, 10⟩, ⟨213, 33⟩, ⟨214, 29⟩, ⟨0, 0⟩] ∧ d'.book.asks.best = 0 := by
  obtain ⟨ts, g', ht⟩ := sampleStream_time m 3 sampleRows
  exact C173_roomy_buffer m (ascii "KR4301V13502") Cache.init cache_init _ .d0034 3 1 (sampleStream 3 sampleRows)
    (sampleStream_ok 3 (by decide) _ rfl sampleRows_fit)
    (by intro x hx; simp only [sampleStream, List.mem_cons, List.not_mem_nil, or_false] at hx
        rcases hx with rfl | rfl | rfl <;> exact ⟨rfl, rfl⟩) (by decide) ts g' ht
    (derivDelivery 3 sampleHeading sampleRows) (by rfl) (by decide) (by decide)

/-- Stock prices lose their last two digits, so that neighbouring levels fall on one price and the last of them wins: of
the offers at 1010, 1020 and 1030 the book shows one, at 10. -/
theorem fault_stock_levels : lastWins (Delivery.levels ⟨.stock .s0002 sampleHeading
    [⟨⟨1010, 5, 0, 0⟩, ⟨1000, 1, 0, 0⟩⟩, ⟨⟨1020, 6, 0, 0⟩, ⟨990, 2, 0, 0⟩⟩, ⟨⟨1030, 7, 0, 0⟩, ⟨980, 3, 0, 0⟩⟩] [], 3, ofList [], 0⟩).1
      = [⟨10, 7⟩] := by decide

end Verif.Props

import Verif.Props.Pipeline
import Verif.TE.PipeBuffers
/-!
# C179: a book fed through buffers, with a level cut of its own for every message

The specification: what lies in a buffer after a stream of messages, level by level, and what the book of one instrument
shows of it.
-/
set_option autoImplicit false
namespace Verif.Props
open Verif Verif.TE Verif.TE.Num Verif.TE.Clock Verif.TE.Id Verif.TE.Krx Verif.TE.Pipe

/-! ## Specification -/

/-- The buffer a message goes to. -/
inductive Into
  | quotes | trades
  deriving DecidableEq, Repr

def Delivery.into (x : Delivery) : Into :=
  match x.packet.kind with
  | .quote _ => .quotes
  | .tradeQuote _ _ => .trades

/-- What lies in the buffer `k` after the messages `l`: every message of that buffer, whatever its instrument, replaces as
many levels as are read of it. -/
def inBuffer (k : Into) (start : List LevelSnapshot × List LevelSnapshot) (l : List Delivery) :
    List LevelSnapshot × List LevelSnapshot :=
  l.foldl (fun b x => if x.into = k ∧ x.isin ≠ none then (x.levels.1 ++ b.1.drop x.cut, x.levels.2 ++ b.2.drop x.cut) else b) start

/-- The levels of the two buffers of a client. -/
def Client.levels (c : Client) : Into → List LevelSnapshot × List LevelSnapshot
  | .quotes => (bookLevels c.quote.ask, bookLevels c.quote.bid)
  | .trades => (bookLevels c.tq.ask, bookLevels c.tq.bid)

/-- Both sides show all that lay in the buffer when the last message of the instrument had been written into it. -/
def ShowsBuffer (b : OrderBook) (own : List UInt8) (start : Into → List LevelSnapshot × List LevelSnapshot) (l : List Delivery) : Prop :=
  (lastOf own l = none → Shows b.asks .ask [] ∧ Shows b.bids .bid []) ∧
  ∀ a x z, l = a ++ x :: z → x.isin = some own → (∀ y ∈ z, y.isin ≠ some own) →
    Shows b.asks .ask (lastWins (inBuffer x.into (start x.into) (a ++ [x])).1) ∧
    Shows b.bids .bid (lastWins (inBuffer x.into (start x.into) (a ++ [x])).2)

/-- Buffers of a sensible size, with sensible quantities. -/
def Modest (v : List LevelSnapshot × List LevelSnapshot) : Prop :=
  v.1.length ≤ 100000 ∧ v.2.length ≤ 100000 ∧ (∀ y ∈ v.1, y.qty ≤ 10 ^ 13) ∧ ∀ y ∈ v.2, y.qty ≤ 10 ^ 13

/-! ## Lemmas -/

theorem inBuffer_append (k : Into) (start : List LevelSnapshot × List LevelSnapshot) (l : List Delivery) (x : Delivery) :
    inBuffer k start (l ++ [x]) = if x.into = k ∧ x.isin ≠ none
      then (x.levels.1 ++ (inBuffer k start l).1.drop x.cut, x.levels.2 ++ (inBuffer k start l).2.drop x.cut)
      else inBuffer k start l := by
  unfold inBuffer
  rw [List.foldl_append]
  rfl

theorem qty_le_sum (l : List LevelSnapshot) : ∀ y ∈ l, y.qty ≤ qtySum l := by
  intro y hy
  induction l with
  | nil => cases hy
  | cons z l ih =>
    have e : qtySum (z :: l) = z.qty + qtySum l := by simp [qtySum]
    rcases List.mem_cons.1 hy with rfl | h
    · omega
    · have := ih h; omega

theorem qtySum_bound (l : List LevelSnapshot) (k : Nat) (h : ∀ y ∈ l, y.qty ≤ k) : qtySum l ≤ l.length * k := by
  induction l with
  | nil => simp [qtySum]
  | cons z l ih =>
    have e : qtySum (z :: l) = z.qty + qtySum l := by simp [qtySum]
    have h1 := h z (by simp)
    have h2 := ih (fun y hy => h y (List.mem_cons_of_mem _ hy))
    rw [e, List.length_cons, Nat.succ_mul]
    omega

/-- One snapshot of any instrument, presented to a desk in order. -/
theorem present_any (m : Mode) (own i : List UInt8) (bound n k : Nat) (d : Desk) (inv : DeskInv ⟨.isin own, .krx⟩ bound n d)
    (ask bid : List Krx.Level) (ha : qtySum (bookLevels ask) ≤ bound) (hb : qtySum (bookLevels bid) ≤ bound)
    (hbound : bound + bound < U64) (hk : ask.length + bid.length ≤ k) (hn : n + k < U64) :
    ∃ d', present m d ⟨.isin i, .krx⟩ ask bid = .ok (d', if i = own then .taken else .rejected) ∧
      DeskInv ⟨.isin own, .krx⟩ bound (n + k) d' ∧ d'.gen = d.gen ∧
      (i = own → Shows d'.book.asks .ask (lastWins (bookLevels ask)) ∧ Shows d'.book.bids .bid (lastWins (bookLevels bid))) ∧
      (i ≠ own → d'.book = d.book) := by
  by_cases hown : i = own
  · subst hown
    obtain ⟨b', e, kk, s1, s2⟩ := present_own m inv ask bid ha hb hbound (by omega)
    rw [if_pos rfl]
    exact ⟨_, e, ⟨kk.cache, kk.inst, kk.book, kk.atot, kk.btot, Nat.le_trans kk.ctr (by omega)⟩, rfl, fun _ => ⟨s1, s2⟩,
      fun h => absurd rfl h⟩
  · obtain ⟨c', e, kk⟩ := present_other m inv (id := ⟨.isin i, .krx⟩) (by simpa using hown) ask bid
    rw [if_neg hown]
    exact ⟨_, e, ⟨kk.cache, kk.inst, kk.book, kk.atot, kk.btot, Nat.le_trans kk.ctr (by omega)⟩, rfl, fun h => absurd h hown,
      fun _ => rfl⟩

theorem kind_cut_tq (x : Delivery) (ok : x.Ok) (q : TradeQuoteMsg) (want : Bool) (hk : x.packet.kind = .tradeQuote q want) :
    x.cut ≤ q.levels := by
  obtain ⟨mail, cut, p, sys⟩ := x
  cases mail with
  | deriv q' h rows tail => cases hk
  | stock q' h rows tail => cases hk
  | trade q' want h d rows tail => cases hk; exact ok.1
  | junk k => cases (hk : k = .tradeQuote q want); exact ok.1

/-- What parsing into the buffer of its kind makes of a delivery. -/
theorem client_reads (m : Mode) (x : Delivery) (ok : x.Ok) (c : Client)
    (hroom : x.cut ≤ (Client.levels c x.into).1.length ∧ x.cut ≤ (Client.levels c x.into).2.length) :
    (∃ i v, x.isin = some i ∧ x.time = some v ∧
      (∀ t g', parseStamp m krxOffset v.1 v.2 c.desk.gen = .ok (t, g') →
        ∃ ask bid c', c.parseInto m x.packet = .ok ((⟨.isin i, .krx⟩, ask, bid), c') ∧
          c'.desk = { c.desk with gen := g' } ∧
          bookLevels ask = x.levels.1 ++ (Client.levels c x.into).1.drop x.cut ∧
          bookLevels bid = x.levels.2 ++ (Client.levels c x.into).2.drop x.cut ∧
          ∀ k, Client.levels c' k = if x.into = k then (bookLevels ask, bookLevels bid) else Client.levels c k) ∧
      qtySum x.levels.1 ≤ sideMax ∧ qtySum x.levels.2 ≤ sideMax ∧ x.levels.1.length = x.cut ∧ x.levels.2.length = x.cut) ∨
    (x.isin = none ∧ x.time = none ∧ c.parseInto m x.packet = .error .err) := by
  have hd := delivery_reads m x ok
  have bl : ∀ l : List Krx.Level, (bookLevels l).length = l.length := by intro l; simp [bookLevels]
  have bd : ∀ (l : List Krx.Level) n, bookLevels (l.drop n) = (bookLevels l).drop n := by intro l n; simp [bookLevels, List.map_drop]
  cases hk : x.packet.kind with
  | quote q =>
    have hin : x.into = .quotes := by unfold Delivery.into; rw [hk]
    rw [hin] at hroom
    unfold Client.levels at hroom
    rw [bl, bl] at hroom
    have hcut := kind_cut x ok q hk
    have hinto := fun g => C103_quote_buffer m q x.cut hcut x.p x.sys g c.quote hroom.1 hroom.2
    have hpk : ∀ g, x.packet.parse m g = (q.parse m x.cut x.p x.sys g >>= fun r => .ok ((r.1.id, r.1.ask, r.1.bid), r.2)) := by
      intro g; unfold Packet.parse; rw [hk]; rfl
    have hci : c.parseInto m x.packet = (q.parseInto m x.cut x.p x.sys c.desk.gen c.quote >>= fun r =>
        .ok ((r.1.id, r.1.ask, r.1.bid), { c with desk := { c.desk with gen := r.2 }, quote := r.1 })) := by
      unfold Client.parseInto; rw [hk]; rfl
    rcases hd with ⟨i, v, hi, hv, hio, hread, q1, q2, l1, l2, l3⟩ | ⟨hi, hv, herr⟩
    · refine Or.inl ⟨i, v, hi, hv, fun t g' ht => ?_, q1, q2, l1, l2⟩
      obtain ⟨ask, bid, hp, hA, hB⟩ := hread _ t g' ht
      rw [hpk] at hp
      obtain ⟨⟨s, g2⟩, hs1, hs2⟩ := (bind_ok_pipe _ _ _).1 hp
      simp only [Except.ok.injEq, Prod.mk.injEq] at hs2
      obtain ⟨⟨sid, rfl, rfl⟩, rfl⟩ := hs2
      refine ⟨s.ask ++ c.quote.ask.drop x.cut, s.bid ++ c.quote.bid.drop x.cut,
        { c with desk := { c.desk with gen := g2 }, quote := intoBuffer x.cut c.quote s }, ?_, rfl, ?_, ?_, ?_⟩
      · rw [hci, hinto, hs1]
        show Except.ok ((s.id, _, _), _) = _
        rw [sid]; rfl
      · rw [bookLevels_append, hA, bd, hin]; rfl
      · rw [bookLevels_append, hB, bd, hin]; rfl
      · intro k; rw [hin]; cases k <;> simp [Client.levels, intoBuffer]
    · refine Or.inr ⟨hi, hv, ?_⟩
      have h0 := herr c.desk.gen
      rw [hpk] at h0
      rw [hci, hinto]
      cases hq : q.parse m x.cut x.p x.sys c.desk.gen with
      | ok r => rw [hq] at h0; cases h0
      | error f => rw [hq] at h0; cases h0; rfl
  | tradeQuote q want =>
    have hin : x.into = .trades := by unfold Delivery.into; rw [hk]
    rw [hin] at hroom
    unfold Client.levels at hroom
    rw [bl, bl] at hroom
    have hcut := kind_cut_tq x ok q want hk
    have hinto := fun g => C103_trade_quote_buffer m q x.cut hcut want x.p x.sys g c.tq hroom.1 hroom.2
    have hpk : ∀ g, x.packet.parse m g = (q.parse m x.cut want x.p x.sys g >>= fun r => .ok ((r.1.id, r.1.ask, r.1.bid), r.2)) := by
      intro g; unfold Packet.parse; rw [hk]; rfl
    have hci : c.parseInto m x.packet = (q.parseInto m x.cut want x.p x.sys c.desk.gen c.tq >>= fun r =>
        .ok ((r.1.id, r.1.ask, r.1.bid), { c with desk := { c.desk with gen := r.2 }, tq := r.1 })) := by
      unfold Client.parseInto; rw [hk]; rfl
    rcases hd with ⟨i, v, hi, hv, hio, hread, q1, q2, l1, l2, l3⟩ | ⟨hi, hv, herr⟩
    · refine Or.inl ⟨i, v, hi, hv, fun t g' ht => ?_, q1, q2, l1, l2⟩
      obtain ⟨ask, bid, hp, hA, hB⟩ := hread _ t g' ht
      rw [hpk] at hp
      obtain ⟨⟨s, g2⟩, hs1, hs2⟩ := (bind_ok_pipe _ _ _).1 hp
      simp only [Except.ok.injEq, Prod.mk.injEq] at hs2
      obtain ⟨⟨sid, rfl, rfl⟩, rfl⟩ := hs2
      refine ⟨s.ask ++ c.tq.ask.drop x.cut, s.bid ++ c.tq.bid.drop x.cut,
        { c with desk := { c.desk with gen := g2 }, tq := { s with ask := s.ask ++ c.tq.ask.drop x.cut, bid := s.bid ++ c.tq.bid.drop x.cut, cut := c.tq.cut, lpHoldings := c.tq.lpHoldings, conv := if q = .d0038 then c.tq.conv else s.conv } }, ?_, rfl, ?_, ?_, ?_⟩
      · rw [hci, hinto, hs1]
        exact congrArg (fun i => Except.ok ((i, _, _), _)) sid
      · rw [bookLevels_append, hA, bd, hin]; rfl
      · rw [bookLevels_append, hB, bd, hin]; rfl
      · intro k; rw [hin]; cases k <;> simp [Client.levels]
    · refine Or.inr ⟨hi, hv, ?_⟩
      have h0 := herr c.desk.gen
      rw [hpk] at h0
      rw [hci, hinto]
      cases hq : q.parse m x.cut want x.p x.sys c.desk.gen with
      | ok r => rw [hq] at h0; cases h0
      | error f => rw [hq] at h0; cases h0; rfl

theorem modest_next (v : List LevelSnapshot × List LevelSnapshot) (hv : Modest v) (a b : List LevelSnapshot) (cut : Nat)
    (la : a.length = cut) (lb : b.length = cut) (ca : cut ≤ v.1.length) (cb : cut ≤ v.2.length)
    (qa : qtySum a ≤ sideMax) (qb : qtySum b ≤ sideMax) :
    Modest (a ++ v.1.drop cut, b ++ v.2.drop cut) ∧ (a ++ v.1.drop cut).length = v.1.length ∧
      (b ++ v.2.drop cut).length = v.2.length := by
  obtain ⟨h1, h2, h3, h4⟩ := hv
  have hs : sideMax = 10 ^ 13 := by decide
  have e1 : (a ++ v.1.drop cut).length = v.1.length := by rw [List.length_append, List.length_drop]; omega
  have e2 : (b ++ v.2.drop cut).length = v.2.length := by rw [List.length_append, List.length_drop]; omega
  refine ⟨⟨by rw [e1]; exact h1, by rw [e2]; exact h2, fun y hy => ?_, fun y hy => ?_⟩, e1, e2⟩
  · rcases List.mem_append.1 hy with hy | hy
    · have := qty_le_sum a y hy; omega
    · exact h3 y (List.mem_of_mem_drop hy)
  · rcases List.mem_append.1 hy with hy | hy
    · have := qty_le_sum b y hy; omega
    · exact h4 y (List.mem_of_mem_drop hy)

theorem modest_sum (v : List LevelSnapshot × List LevelSnapshot) (hv : Modest v) : qtySum v.1 ≤ 10 ^ 18 ∧ qtySum v.2 ≤ 10 ^ 18 := by
  obtain ⟨h1, h2, h3, h4⟩ := hv
  have a := qtySum_bound v.1 _ h3
  have b := qtySum_bound v.2 _ h4
  omega

/-- One message. -/
theorem client_step (m : Mode) (own : List UInt8) (n per : Nat) (hper : 200000 ≤ per) (c : Client) (inv : DeskInv ⟨.isin own, .krx⟩ (10 ^ 18) n c.desk)
    (hm : ∀ k, Modest (Client.levels c k)) (x : Delivery) (ok : x.Ok)
    (hroom : x.cut ≤ (Client.levels c x.into).1.length ∧ x.cut ≤ (Client.levels c x.into).2.length)
    (hn : n + per < U64) (g' : Gen)
    (ht : match x.time with | none => g' = c.desk.gen | some v => ∃ t, parseStamp m krxOffset v.1 v.2 c.desk.gen = .ok (t, g')) :
    ∃ c', c.step m x.packet = .ok (c', x.outcome own) ∧ DeskInv ⟨.isin own, .krx⟩ (10 ^ 18) (n + per) c'.desk ∧
      c'.desk.gen = g' ∧
      (∀ k, Client.levels c' k = inBuffer k (Client.levels c k) [x] ∧ Modest (Client.levels c' k) ∧
        (Client.levels c' k).1.length = (Client.levels c k).1.length ∧ (Client.levels c' k).2.length = (Client.levels c k).2.length) ∧
      (x.isin = some own → Shows c'.desk.book.asks .ask (lastWins (Client.levels c' x.into).1) ∧
        Shows c'.desk.book.bids .bid (lastWins (Client.levels c' x.into).2)) ∧
      (x.isin ≠ some own → c'.desk.book = c.desk.book) := by
  rcases client_reads m x ok c hroom with ⟨i, v, hi, hv, hread, q1, q2, l1, l2⟩ | ⟨hi, hv, herr⟩
  · rw [hv] at ht
    obtain ⟨t, ht⟩ := ht
    obtain ⟨ask, bid, c1, hp, hdesk, hA, hB, hlev⟩ := hread t g' ht
    obtain ⟨hmod, len1, len2⟩ := modest_next _ (hm x.into) x.levels.1 x.levels.2 x.cut l1 l2 hroom.1 hroom.2 q1 q2
    rw [← hA, ← hB] at hmod
    rw [← hA] at len1
    rw [← hB] at len2
    have bl : ∀ l : List Krx.Level, (bookLevels l).length = l.length := by intro l; simp [bookLevels]
    obtain ⟨s1, s2⟩ := modest_sum _ hmod
    have inv1 : DeskInv ⟨.isin own, .krx⟩ (10 ^ 18) n c1.desk := by
      rw [hdesk]; exact ⟨inv.cache, inv.inst, inv.book, inv.atot, inv.btot, inv.ctr⟩
    obtain ⟨d', e, inv', hg, hs, hb⟩ := present_any m own i (10 ^ 18) n per c1.desk inv1 ask bid s1 s2 (by decide)
      (by have h1 := hmod.1; have h2 := hmod.2.1; simp only at h1 h2; rw [bl] at h1 h2; omega) hn
    have hl : ∀ k, Client.levels { c1 with desk := d' } k = Client.levels c1 k := by intro k; cases k <;> rfl
    refine ⟨{ c1 with desk := d' }, ?_, inv', ?_, fun k => ?_, fun h => ?_, fun h => ?_⟩
    · unfold Client.step
      rw [hp]
      dsimp only
      rw [e]
      unfold Delivery.outcome
      rw [hi]; rfl
    · show d'.gen = g'; rw [hg, hdesk]
    · rw [hl, hlev]
      by_cases hk : x.into = k
      · rw [if_pos hk]
        have hb : inBuffer k (Client.levels c k) [x] = (bookLevels ask, bookLevels bid) := by
          unfold inBuffer
          rw [List.foldl_cons, List.foldl_nil, if_pos ⟨hk, by rw [hi]; simp⟩, hA, hB, hk]
        rw [hb]
        refine ⟨rfl, hmod, ?_, ?_⟩
        · rw [← hk]; exact len1
        · rw [← hk]; exact len2
      · rw [if_neg hk]
        refine ⟨?_, hm k, rfl, rfl⟩
        unfold inBuffer
        rw [List.foldl_cons, List.foldl_nil, if_neg (fun h => hk h.1)]
    · rw [hl, hlev, if_pos rfl]
      exact hs (Option.some.inj (hi ▸ h))
    · have h1 : d'.book = c1.desk.book := hb (fun e => h (by rw [hi, e]))
      show d'.book = _
      rw [h1, hdesk]
  · rw [hv] at ht
    have hg : g' = c.desk.gen := ht
    refine ⟨c, ?_, ⟨inv.cache, inv.inst, inv.book, inv.atot, inv.btot, Nat.le_trans inv.ctr (by omega)⟩, hg.symm,
      fun k => ⟨?_, hm k, rfl, rfl⟩, fun h => by rw [hi] at h; exact absurd h (by simp), fun _ => rfl⟩
    · unfold Client.step
      rw [herr]
      unfold Delivery.outcome
      rw [hi]
    · unfold inBuffer
      rw [List.foldl_cons, List.foldl_nil, if_neg (fun h => h.2 hi)]

theorem append_last {l a z : List Delivery} {x y : Delivery} (h : l ++ [y] = a ++ x :: z) :
    (z = [] ∧ a = l ∧ x = y) ∨ ∃ z', z = z' ++ [y] ∧ l = a ++ x :: z' := by
  induction z using List.reverseRecOn with
  | nil =>
    have := List.append_inj' h rfl
    exact Or.inl ⟨rfl, this.1.symm, (List.cons.inj this.2).1.symm⟩
  | append_singleton z w _ =>
    rw [← List.cons_append, ← List.append_assoc] at h
    have := List.append_inj' h rfl
    exact Or.inr ⟨z, by rw [(List.cons.inj this.2).1], this.1⟩

theorem client_run (m : Mode) (own : List UInt8) (per : Nat) (hper : 200000 ≤ per) (start : Into → List LevelSnapshot × List LevelSnapshot) (l : List Delivery) :
    ∀ (before : List Delivery) (n : Nat) (c : Client), DeskInv ⟨.isin own, .krx⟩ (10 ^ 18) n c.desk →
    ShowsBuffer c.desk.book own start before → (∀ k, Client.levels c k = inBuffer k (start k) before ∧ Modest (Client.levels c k) ∧
      (Client.levels c k).1.length = (start k).1.length ∧ (Client.levels c k).2.length = (start k).2.length) →
    (∀ x ∈ l, x.Ok ∧ x.cut ≤ (start x.into).1.length ∧ x.cut ≤ (start x.into).2.length) → n + per * l.length < U64 →
    ∀ (ts : List Nat) (g' : Gen), parseStream m krxOffset (l.filterMap (·.time)) c.desk.gen = .ok (ts, g') →
    ∃ c', Client.run m (l.map (·.packet)) c = .ok (c', l.map (·.outcome own)) ∧ c'.desk.gen = g' ∧
      (∀ k, Client.levels c' k = inBuffer k (start k) (before ++ l)) ∧ ShowsBuffer c'.desk.book own start (before ++ l) := by
  induction l with
  | nil =>
    intro before n c _ hs hl _ _ ts g' ht
    have ht' : (Except.ok ([], c.desk.gen) : Res (List Nat × Gen)) = .ok (ts, g') := ht
    simp only [Except.ok.injEq, Prod.mk.injEq] at ht'
    exact ⟨c, rfl, ht'.2, fun k => by rw [List.append_nil]; exact (hl k).1, by rw [List.append_nil]; exact hs⟩
  | cons x l ih =>
    intro before n c inv hs hl hok hn ts g' ht
    rw [List.length_cons, Nat.mul_succ] at hn
    obtain ⟨okx, r1, r2⟩ := hok x (by simp)
    have key : ∃ g1 ts1, (match x.time with | none => g1 = c.desk.gen | some v => ∃ t, parseStamp m krxOffset v.1 v.2 c.desk.gen = .ok (t, g1)) ∧
        parseStream m krxOffset (l.filterMap (·.time)) g1 = .ok (ts1, g') := by
      cases hv : x.time with
      | none => rw [List.filterMap_cons_none hv] at ht; exact ⟨c.desk.gen, ts, rfl, ht⟩
      | some v =>
        rw [List.filterMap_cons_some hv] at ht
        obtain ⟨v1, v2⟩ := v
        rw [parseStream] at ht
        obtain ⟨⟨t, g1⟩, h1, h2⟩ := (bind_ok_pipe _ _ _).1 ht
        obtain ⟨⟨ts1, g2⟩, h3, h4⟩ := (bind_ok_pipe _ _ _).1 h2
        simp only [Except.ok.injEq, Prod.mk.injEq] at h4
        exact ⟨g1, ts1, ⟨t, h1⟩, by rw [h3, h4.2]⟩
    obtain ⟨g1, ts1, k1, k2⟩ := key
    obtain ⟨c1, e1, inv1, hg1, hl1, hs1, hs2⟩ := client_step m own n per hper c inv (fun k => (hl k).2.1) x okx
      ⟨by rw [(hl x.into).2.2.1]; exact r1, by rw [(hl x.into).2.2.2]; exact r2⟩
      (by omega) g1 k1
    have hbuf : ∀ k, Client.levels c1 k = inBuffer k (start k) (before ++ [x]) := by
      intro k
      rw [(hl1 k).1, (hl k).1]
      unfold inBuffer
      rw [List.foldl_append]
    have hshow : ShowsBuffer c1.desk.book own start (before ++ [x]) := by
      refine ⟨fun h => ?_, fun a y z e hy hz => ?_⟩
      · rw [lastOf_append] at h
        split at h
        · cases h
        · rename_i hx; rw [hs2 hx]; exact hs.1 h
      · rcases append_last e with ⟨-, rfl, rfl⟩ | ⟨z', rfl, rfl⟩
        · have := hs1 hy; rw [hbuf] at this; exact this
        · rw [hs2 (hz x (by simp))]
          exact hs.2 a y z' rfl hy (fun w hw => hz w (List.mem_append_left _ hw))
    rw [← hg1] at k2
    obtain ⟨c2, e2, hg2, hb2, hs3⟩ := ih (before ++ [x]) _ c1 inv1 hshow
      (fun k => ⟨hbuf k, (hl1 k).2.1, by rw [(hl1 k).2.2.1]; exact (hl k).2.2.1, by rw [(hl1 k).2.2.2]; exact (hl k).2.2.2⟩)
      (fun y hy => hok y (List.mem_cons_of_mem _ hy)) (by omega) ts1 g' k2
    rw [List.append_assoc] at hs3
    refine ⟨c2, ?_, hg2, fun k => by rw [hb2 k, List.append_assoc]; rfl, hs3⟩
    rw [List.map_cons, List.map_cons, Client.run]
    exact bind_of_ok e1 (bind_of_ok e2 rfl)

/-! ## C179 -/

/-- C179. A client keeps a buffer for quotes and one for trades with quotes, reads of every message as many levels as it
likes (as many as the buffer has room for), and updates the book of one instrument from the buffer. For every stream of
messages of any instruments, bad ones among them: nothing fails, the client is told of every message what became of it,
the buffers hold what the messages wrote level by level, and the book shows all levels of the buffer at the last message
of its instrument: also those behind the levels read, whoever's they are. -/
theorem C179_buffers (m : Mode) (own : List UInt8) (cc : Cache) (hc : CacheOk cc) (g : Gen) (bq : Quote) (bt : TradeQuote)
    (l : List Delivery) (start : Into → List LevelSnapshot × List LevelSnapshot)
    (hstart : start = Client.levels ⟨openDesk cc g ⟨.isin own, .krx⟩, bq, bt⟩) (hm : ∀ k, Modest (start k))
    (hok : ∀ x ∈ l, x.Ok ∧ x.cut ≤ (start x.into).1.length ∧ x.cut ≤ (start x.into).2.length) (hlen : 200000 * l.length < U64)
    (ts : List Nat) (g' : Gen) (ht : parseStream m krxOffset (l.filterMap (·.time)) g = .ok (ts, g')) :
    ∃ c', Client.run m (l.map (·.packet)) ⟨openDesk cc g ⟨.isin own, .krx⟩, bq, bt⟩ = .ok (c', l.map (·.outcome own)) ∧
      c'.desk.gen = g' ∧ (∀ k, Client.levels c' k = inBuffer k (start k) l) ∧ ShowsBuffer c'.desk.book own start l := by
  subst hstart
  exact client_run m own 200000 (Nat.le_refl _) _ l [] 0 ⟨openDesk cc g ⟨.isin own, .krx⟩, bq, bt⟩ (deskInv_open cc hc g _ _)
    ⟨fun _ => shows_init _, fun a x z e => by cases a <;> cases e⟩
    (fun k => ⟨rfl, hm k, rfl, rfl⟩) hok (by omega) ts g' ht

/-- The levels of a buffer, one by one: level `j` is that of the last message of this buffer of which more than `j` levels
were read, and the initial one if there is none. -/
theorem C179_level (k : Into) (start : List LevelSnapshot × List LevelSnapshot) (l : List Delivery) (hok : ∀ x ∈ l, x.Ok) (j : Nat) :
    ((∀ x ∈ l, x.into = k → x.isin ≠ none → x.cut ≤ j) →
      (inBuffer k start l).1[j]? = start.1[j]? ∧ (inBuffer k start l).2[j]? = start.2[j]?) ∧
    ∀ a x z, l = a ++ x :: z → x.into = k → x.isin ≠ none → j < x.cut →
      (∀ y ∈ z, y.into = k → y.isin ≠ none → y.cut ≤ j) →
      (inBuffer k start l).1[j]? = x.levels.1[j]? ∧ (inBuffer k start l).2[j]? = x.levels.2[j]? := by
  have hlen : ∀ x ∈ l, x.isin ≠ none → x.levels.1.length = x.cut ∧ x.levels.2.length = x.cut := by
    intro x hx hn
    rcases delivery_reads .checked x (hok x hx) with ⟨i, v, hi, hv, hio, hread, q1, q2, l1, l2, l3⟩ | ⟨hi, -⟩
    · exact ⟨l1, l2⟩
    · exact absurd hi hn
  clear hok
  induction l using List.reverseRecOn with
  | nil => exact ⟨fun _ => ⟨rfl, rfl⟩, fun a x z e => by cases a <;> cases e⟩
  | append_singleton l y ih =>
    have ih := ih (fun x hx => hlen x (List.mem_append_left _ hx))
    have past : (y.into = k → y.isin ≠ none → y.cut ≤ j) →
        (inBuffer k start (l ++ [y])).1[j]? = (inBuffer k start l).1[j]? ∧
        (inBuffer k start (l ++ [y])).2[j]? = (inBuffer k start l).2[j]? := by
      intro hy
      rw [inBuffer_append]
      split
      · rename_i h
        have hj := hy h.1 h.2
        obtain ⟨l1, l2⟩ := hlen y (by simp) h.2
        constructor
        · show (y.levels.1 ++ _)[j]? = _
          rw [List.getElem?_append_right (by omega), List.getElem?_drop, l1]
          congr 1; omega
        · show (y.levels.2 ++ _)[j]? = _
          rw [List.getElem?_append_right (by omega), List.getElem?_drop, l2]
          congr 1; omega
      · exact ⟨rfl, rfl⟩
    refine ⟨fun h => ?_, fun a x z e hk hn hj hz => ?_⟩
    · obtain ⟨p1, p2⟩ := past (h y (by simp))
      obtain ⟨i1, i2⟩ := ih.1 (fun x hx => h x (List.mem_append_left _ hx))
      exact ⟨p1.trans i1, p2.trans i2⟩
    · rcases append_last e with ⟨-, rfl, rfl⟩ | ⟨z', rfl, rfl⟩
      · rw [inBuffer_append, if_pos ⟨hk, hn⟩]
        obtain ⟨l1, l2⟩ := hlen x (by simp) hn
        exact ⟨List.getElem?_append_left (by omega), List.getElem?_append_left (by omega)⟩
      · obtain ⟨p1, p2⟩ := past (hz y (by simp))
        obtain ⟨i1, i2⟩ := ih.2 a x z' rfl hk hn hj (fun w hw => hz w (List.mem_append_left _ hw))
        exact ⟨p1.trans i1, p2.trans i2⟩

/-- If every message fills its buffer, the book shows exactly what the last message of its instrument reports. -/
theorem C179_full (own : List UInt8) (start : Into → List LevelSnapshot × List LevelSnapshot) (l : List Delivery)
    (hfull : ∀ x ∈ l, x.isin = some own → x.cut = (start x.into).1.length ∧ x.cut = (start x.into).2.length)
    (hok : ∀ x ∈ l, x.Ok ∧ x.cut ≤ (start x.into).1.length ∧ x.cut ≤ (start x.into).2.length)
    (b : OrderBook) (h : ShowsBuffer b own start l) : ShowsLast b own l := by
  have hlen : ∀ (k : Into) (l : List Delivery), (∀ x ∈ l, x.Ok ∧ x.cut ≤ (start x.into).1.length ∧ x.cut ≤ (start x.into).2.length) →
      (inBuffer k (start k) l).1.length = (start k).1.length ∧ (inBuffer k (start k) l).2.length = (start k).2.length := by
    intro k l hok
    induction l using List.reverseRecOn with
    | nil => exact ⟨rfl, rfl⟩
    | append_singleton l y ih =>
      obtain ⟨i1, i2⟩ := ih (fun x hx => hok x (List.mem_append_left _ hx))
      obtain ⟨oky, c1, c2⟩ := hok y (by simp)
      rw [inBuffer_append]
      split
      · rename_i hc
        rcases delivery_reads .checked y oky with ⟨i, v, hi, hv, hio, hread, q1, q2, l1, l2, l3⟩ | ⟨hi, -⟩
        · rw [hc.1] at c1 c2
          constructor
          · show (y.levels.1 ++ _).length = _
            rw [List.length_append, List.length_drop]; omega
          · show (y.levels.2 ++ _).length = _
            rw [List.length_append, List.length_drop]; omega
        · exact absurd hi hc.2
      · exact ⟨i1, i2⟩
  unfold ShowsLast
  cases hl : lastOf own l with
  | none => exact h.1 hl
  | some x =>
    obtain ⟨a, z, e, hx, hz⟩ := ((C171_last own l).2 x).1 hl
    have hs := h.2 a x z e hx hz
    have hmem : x ∈ l := by rw [e]; simp
    obtain ⟨f1, f2⟩ := hfull x hmem hx
    obtain ⟨g1, g2⟩ := hlen x.into a (fun y hy => hok y (by rw [e]; exact List.mem_append_left _ hy))
    rw [inBuffer_append, if_pos ⟨rfl, by rw [hx]; simp⟩, List.drop_eq_nil_of_le (by omega), List.drop_eq_nil_of_le (by omega),
      List.append_nil, List.append_nil] at hs
    exact hs

/-! ## A concrete stream -/

/-- A trade with five levels. -/
def tradeDelivery (cut : Nat) (h : Heading) (rows : List Row) : Delivery :=
  let d : Deal := ⟨212, 3, 100, .buy, List.replicate 54 48, List.replicate 22 48, List.replicate 18 48⟩
  ⟨.trade .d0037 true h d rows (List.replicate 28 48), cut, ofList (tradeQuote h d rows (List.replicate 28 48)), 0⟩

theorem tradeDelivery_ok (cut : Nat) (hc : cut ≤ 5) (h : Heading) (ok : h.Ok) (hf : h.format = .baseDeriv) (rows : List Row)
    (hr : rows.length = 5) (hfit : ∀ r ∈ rows, r.DerivFits .baseDeriv) : (tradeDelivery cut h rows).Ok := by
  refine ⟨hc, ok, ?_, hr, rows_fit rows hfit h hf, by simp, by simp [tradeDelivery, ofList], holds_ofList _⟩
  rw [hf]
  refine ⟨?_, by decide, by decide, by simp, by simp, by simp⟩
  unfold PriceFits; decide

/-- A trade of the own instrument, five levels of which are read; a quote of another, five levels too; and a quote of the
own, of which two are. -/
def leakStream : List Delivery :=
  [tradeDelivery 5 sampleHeading sampleRows, derivDelivery 5 otherHeading sampleRows, derivDelivery 2 sampleHeading thinRows]

theorem leakStream_ok : ∀ x ∈ leakStream, x.Ok := by
  intro x hx
  simp only [leakStream, List.mem_cons, List.not_mem_nil, or_false] at hx
  rcases hx with rfl | rfl | rfl
  · exact tradeDelivery_ok 5 (by decide) _ sampleHeading_ok (by decide) _ rfl sampleRows_fit
  · exact derivDelivery_ok 5 (by decide) _ otherHeading_ok _ rfl (rows_fit _ sampleRows_fit _ (by decide))
  · exact derivDelivery_ok 2 (by decide) _ sampleHeading_ok _ rfl (rows_fit _ thinRows_fit _ (by decide))

theorem leakStream_time (m : Mode) : ∃ ts g',
    parseStream m krxOffset (leakStream.filterMap (·.time)) ⟨19875 * dayNanos, 0, 0⟩ = .ok (ts, g') := by
  let a : Event := ⟨19875, ⟨10, 49, 39, 81108⟩, ofList (Reading.text ⟨10, 49, 39, 81108⟩), 0⟩
  have ok : a.Ok krxOffset := by
    refine ⟨?_, by simp [a, ofList, reading_length], holds_ofList _, ?_⟩
    · unfold Reading.Valid; decide
    · decide
  obtain ⟨g', h⟩ := C32_stream m krxOffset a [a, a] ⟨19875 * dayNanos, 0, 0⟩ rfl rfl
    (by intro e he; simp at he; rw [he]; exact ok)
    ⟨Or.inl ⟨rfl, by unfold fifteenHours; omega⟩, Or.inl ⟨rfl, by unfold fifteenHours; omega⟩, trivial⟩
  exact ⟨_, g', h⟩

/-- Non-vacuity of C179, and the fault: the own instrument has offers at 212 and 213; the book shows also those of the
other instrument at 214, 215 and 216. -/
theorem fault_foreign_levels (m : Mode) : ∃ c',
    Client.run m (leakStream.map (·.packet)) ⟨openDesk Cache.init ⟨19875 * dayNanos, 0, 0⟩ ⟨.isin (ascii "KR4301V13502"), .krx⟩,
      Quote.withLevel 5, TradeQuote.withLevel 5⟩ = .ok (c', [.taken, .rejected, .taken]) ∧
      Shows c'.desk.book.asks .ask [⟨212, 10⟩, ⟨213, 33⟩, ⟨214, 29⟩, ⟨215, 38⟩, ⟨216, 18⟩] ∧
      Shows c'.desk.book.bids .bid [⟨211, 10⟩, ⟨210, 41⟩, ⟨209, 43⟩, ⟨208, 37⟩, ⟨207, 62⟩] := by
  obtain ⟨ts, g', ht⟩ := leakStream_time m
  have hst : ∀ k, Client.levels ⟨openDesk Cache.init ⟨19875 * dayNanos, 0, 0⟩ ⟨.isin (ascii "KR4301V13502"), .krx⟩,
      Quote.withLevel 5, TradeQuote.withLevel 5⟩ k = (List.replicate 5 ⟨0, 0⟩, List.replicate 5 ⟨0, 0⟩) := by
    intro k; cases k <;> rfl
  obtain ⟨c', e, -, -, hs⟩ := C179_buffers m (ascii "KR4301V13502") Cache.init cache_init ⟨19875 * dayNanos, 0, 0⟩ (Quote.withLevel 5)
    (TradeQuote.withLevel 5) leakStream _ rfl (fun k => by rw [hst]; unfold Modest; decide)
    (fun x hx => ⟨leakStream_ok x hx, by
      rw [hst]
      simp only [leakStream, List.mem_cons, List.not_mem_nil, or_false] at hx
      rcases hx with rfl | rfl | rfl <;> decide⟩) (by decide) ts g' ht
  have h := hs.2 [tradeDelivery 5 sampleHeading sampleRows, derivDelivery 5 otherHeading sampleRows]
    (derivDelivery 2 sampleHeading thinRows) [] rfl (by rfl) (by simp)
  rw [hst] at h
  exact ⟨c', e, h.1, h.2⟩

end Verif.Props

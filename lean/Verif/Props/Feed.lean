import Verif.TE.Feed
import Verif.Props.Act
import Verif.Props.KrxAll
/-!
# C154: what a packet leaves in the buffer

Refused packets leave no trace; a packet is written wholly or not at all as long as the clock is in range; what lies behind the cut is never
touched. On the model that keeps buffer and clock after errors and panics (`Verif.TE.Feed`).
-/
set_option autoImplicit false
namespace Verif.Props
open Verif Verif.TE.Num Verif.TE.Clock Verif.TE.Id Verif.TE.Krx

attribute [local irreducible] addU

theorem increment_agree (m : Mode) (stamp : Nat) (g : Gen) :
    Agree (incrementAct m stamp) g (g.increment m stamp >>= fun g => .ok ((), g)) := by
  unfold incrementAct Gen.increment
  refine agree_look ?_
  generalize addU m g.date DAY = r
  rcases r with e | d
  · rfl
  · rfl

theorem loop_agree (m : Mode) (prev stamp : Nat) : ∀ (fuel cur : Nat) (g : Gen),
    Agree (dayLoopAct m prev stamp fuel cur) g (dayLoop m prev stamp fuel g cur >>= fun r => .ok (r.2, r.1)) := by
  intro fuel
  induction fuel with
  | zero => intro cur g; rfl
  | succ n ih =>
    intro cur g
    rw [dayLoopAct.eq_2, dayLoop.eq_2, bind_assoc]
    generalize addU m FIFTEEN cur = r1
    generalize addU m cur DAY = r2
    refine agree_expr fun lim _ => ?_
    by_cases hl : lim ≤ prev
    · rw [if_pos hl, if_pos hl, bind_assoc]
      exact agree_then (increment_agree m stamp g) fun g' => by
        rw [bind_assoc]
        exact agree_expr fun cur' _ => ih cur' g'
    · rw [if_neg hl, if_neg hl]
      rfl

theorem stamp_agree (m : Mode) (offset : Nat) (v : Slice) (stamp : Nat) (g : Gen) :
    Agree (stampAct m offset v stamp) g (parseStamp m offset v stamp g) := by
  unfold stampAct parseStamp
  generalize U64 = fuel
  refine agree_expr fun _ _ => agree_expr fun _ _ => agree_expr fun _ _ => agree_expr fun _ _ => agree_expr fun _ _ =>
    agree_expr fun _ _ => agree_expr fun _ _ => agree_look (agree_expr fun cur _ => ?_)
  have h := loop_agree m g.prev stamp fuel cur g
  rcases hl : dayLoop m g.prev stamp fuel g cur with e | ⟨g', cur'⟩
  · rw [hl] at h
    simp only [Res.bind_error] at h ⊢
    exact agree_error h
  · rw [hl] at h
    simp only [Res.bind_ok] at h
    have e1 : dayLoopAct m g.prev stamp fuel cur g = (g', .ok cur') := h
    simp only [Res.bind_ok]
    exact agree_ok e1 rfl


/-! ## Levels -/

theorem setAsk_ok (i : Nat) (f : Level → Level) (v : List Level × List Level) (h : i < v.1.length) :
    setAsk i f v = ((v.1.set i (f v.1[i]), v.2), .ok ()) := by unfold setAsk; rw [dif_pos h]

theorem setBid_ok (i : Nat) (f : Level → Level) (v : List Level × List Level) (h : i < v.2.length) :
    setBid i f v = ((v.1, v.2.set i (f v.2[i])), .ok ()) := by unfold setBid; rw [dif_pos h]

/-- The two levels at `i` replaced. -/
def atRow (v : List Level × List Level) (i : Nat) (a b : Level) : List Level × List Level := (v.1.set i a, v.2.set i b)

theorem seq_setAsk {β : Type} (i : Nat) (f : Level → Level) (k : Unit → Act (List Level × List Level) β)
    (v : List Level × List Level) (a b : Level) (h : i < v.1.length) :
    (setAsk i f >>= k) (atRow v i a b) = k () (atRow v i (f a) b) := by
  have h' : i < (atRow v i a b).1.length := by simpa [atRow] using h
  rw [seq_ok (setAsk_ok i f _ h')]
  simp [atRow]

theorem seq_setBid {β : Type} (i : Nat) (f : Level → Level) (k : Unit → Act (List Level × List Level) β)
    (v : List Level × List Level) (a b : Level) (h : i < v.2.length) :
    (setBid i f >>= k) (atRow v i a b) = k () (atRow v i a (f b)) := by
  have h' : i < (atRow v i a b).2.length := by simpa [atRow] using h
  rw [seq_ok (setBid_ok i f _ h')]
  simp [atRow]

theorem last_setBid (i : Nat) (f : Level → Level) 
    (v : List Level × List Level) (a b : Level) (h : i < v.2.length) :
    setBid i f (atRow v i a b) = (atRow v i a (f b), .ok ()) := by
  have h' : i < (atRow v i a b).2.length := by simpa [atRow] using h
  rw [setBid_ok i f _ h']
  simp [atRow]

theorem agree_setAsk {β : Type} {i : Nat} {f : Level → Level} {k : Unit → Act (List Level × List Level) β}
    {v : List Level × List Level} {a b : Level} {r : Res (β × (List Level × List Level))} (h : i < v.1.length)
    (hk : Agree (k ()) (atRow v i (f a) b) r) : Agree (setAsk i f >>= k) (atRow v i a b) r := by
  unfold Agree at hk ⊢
  rw [seq_setAsk i f k v a b h]
  exact hk

theorem agree_setBid {β : Type} {i : Nat} {f : Level → Level} {k : Unit → Act (List Level × List Level) β}
    {v : List Level × List Level} {a b : Level} {r : Res (β × (List Level × List Level))} (h : i < v.2.length)
    (hk : Agree (k ()) (atRow v i a (f b)) r) : Agree (setBid i f >>= k) (atRow v i a b) r := by
  unfold Agree at hk ⊢
  rw [seq_setBid i f k v a b h]
  exact hk

theorem row_self (v : List Level × List Level) (i : Nat) (h1 : i < v.1.length) (h2 : i < v.2.length) :
    v = atRow v i v.1[i] v.2[i] := by simp [atRow]

theorem block_agree' (m : Mode) (b : Block) (c : OrderConv) (clip : Slice) (i : Nat) (v : List Level × List Level) (a0 b0 : Level)
    (h1 : i < v.1.length) (h2 : i < v.2.length) :
    Agree (blockAct m b c clip i) (atRow v i a0 b0) (readBlock m b c clip >>= fun r => .ok ((), atRow v i r.1 r.2)) := by
  unfold blockAct readBlock
  simp only [bind_assoc]
  refine agree_expr fun _ _ => agree_expr fun _ _ => agree_setAsk h1 (agree_expr fun _ _ => agree_expr fun _ _ => agree_setBid h2
    (agree_expr fun _ _ => agree_expr fun _ _ => agree_setAsk h1 (agree_expr fun _ _ => agree_expr fun _ _ => agree_setBid h2 ?_)))
  cases b with
  | plain =>
    exact agree_setAsk h1 (agree_setBid h2 (agree_setAsk h1 (last_setBid i _ v _ _ h2)))
  | counts =>
    simp only [bind_assoc]
    exact agree_expr fun _ _ => agree_expr fun _ _ => agree_expr fun _ _ => agree_setAsk h1 (agree_expr fun _ _ =>
      agree_expr fun _ _ => agree_setBid h2 (agree_setAsk h1 (last_setBid i _ v _ _ h2)))
  | lp =>
    simp only [bind_assoc]
    exact agree_expr fun _ _ => agree_expr fun _ _ => agree_setAsk h1 (agree_expr fun _ _ =>
      agree_expr fun _ _ => agree_setBid h2 (agree_setAsk h1 (last_setBid i _ v _ _ h2)))

theorem block_agree (m : Mode) (b : Block) (c : OrderConv) (clip : Slice) (i : Nat) (v : List Level × List Level)
    (h1 : i < v.1.length) (h2 : i < v.2.length) :
    Agree (blockAct m b c clip i) v (readBlock m b c clip >>= fun r => .ok ((), atRow v i r.1 r.2)) := by
  have := block_agree' m b c clip i v v.1[i] v.2[i] h1 h2
  rw [← row_self v i h1 h2] at this
  exact this

theorem fill_agree (m : Mode) (b : Block) (c : OrderConv) (p : Slice) (start : Nat) : ∀ (n i : Nat) (v : List Level × List Level),
    i + n ≤ v.1.length → i + n ≤ v.2.length →
    Agree (fillAct m b c p start n i) v (fill m b c p start n i v >>= fun v => .ok ((), v)) := by
  intro n
  induction n with
  | zero => intro i v _ _; rfl
  | succ n ih =>
    intro i v h1 h2
    unfold fillAct fill
    simp only [bind_assoc]
    refine agree_expr fun clip _ => ?_
    have hb := block_agree m b c clip i v (by omega) (by omega)
    have e : (readBlock m b c clip >>= fun x => put v.1 i x.1 >>= fun asks => put v.2 i x.2 >>= fun bids =>
          fill m b c p start n (i + 1) (asks, bids) >>= fun v => (.ok ((), v) : Res (Unit × (List Level × List Level))))
        = (readBlock m b c clip >>= fun r => .ok ((), atRow v i r.1 r.2)) >>= fun y =>
          fill m b c p start n (i + 1) y.2 >>= fun v => .ok ((), v) := by
      rcases readBlock m b c clip with e | r
      · rfl
      · simp only [Res.bind_ok]
        unfold put
        rw [if_pos (by omega), if_pos (by omega)]
        rfl
    refine Eq.mpr (congrArg (Agree _ v) ?_) (agree_seq hb (k' := fun y => fill m b c p start n (i + 1) y.2 >>= fun v => .ok ((), v))
      fun _ w hw => ?_)
    · rw [← e]
    · rcases hr : readBlock m b c clip with e | r
      · rw [hr] at hw; cases hw
      · rw [hr] at hw
        simp only [Res.bind_ok, Except.ok.injEq, Prod.mk.injEq, true_and] at hw
        subst hw
        exact ih (i + 1) _ (by simp [atRow]; omega) (by simp [atRow]; omega)


/-! ## Messages -/

theorem quote_feed_agree (m : Mode) (q : QuoteMsg) (cut : Nat) (p : Slice) (sys : Nat) (buf : Quote) (g : Gen) :
    Agree (q.feed m cut p sys) (buf, g) (q.parseInto m cut p sys g buf >>= fun r => .ok ((), r)) := by
  unfold QuoteMsg.feed QuoteMsg.parseInto
  simp only [bind_assoc]
  refine agree_expr fun _ _ => agree_look (agree_expr fun _ hv => agree_expr fun isin _ => agree_expr fun cid _ => agree_expr fun c _ =>
    agree_assign (agree_assign (agree_assign (agree_expr fun ts _ => ?_))))
  have hroom : cut ≤ buf.ask.length ∧ cut ≤ buf.bid.length := by
    by_contra hn
    obtain ⟨e, he⟩ := refuse_error q.len p
    dsimp only at hv
    unfold validBuffer at hv
    rw [if_pos (by omega), he] at hv
    cases hv
  have hbl : blocks cut ≤ cut := by unfold blocks; split <;> omega
  have h := stamp_agree m krxOffset ts sys g
  rcases hs : parseStamp m krxOffset ts sys g with e | ⟨t, g'⟩
  · rw [hs] at h
    have h2 := agree_on (get := fun s : Quote × Gen => s.2) (put := fun g s => (s.1, g))
      (s := ({ buf with id := ⟨.isin isin, .krx⟩, conv := cid, sys := sys }, g)) h
    simp only [Res.bind_error] at h2 ⊢
    exact agree_error h2
  · rw [hs] at h
    have h2 := agree_on (get := fun s : Quote × Gen => s.2) (put := fun g s => (s.1, g))
      (s := ({ buf with id := ⟨.isin isin, .krx⟩, conv := cid, sys := sys }, g)) h
    simp only [Res.bind_ok] at h2 ⊢
    refine agree_ok h2 ?_
    refine agree_assign ?_
    have h3 := fill_agree m q.block c p q.start (blocks cut) 0 (buf.ask, buf.bid) (by simp only; omega) (by simp only; omega)
    have h4 := agree_on (get := fun s : Quote × Gen => (s.1.ask, s.1.bid))
      (put := fun v s => ({ s.1 with ask := v.1, bid := v.2 }, s.2))
      (s := ({ buf with id := ⟨.isin isin, .krx⟩, conv := cid, sys := sys, stamp := t }, g')) h3
    simp only [bind_assoc, Res.bind_ok] at h4
    exact h4

theorem tq_feed_agree (m : Mode) (q : TradeQuoteMsg) (cut : Nat) (want : Bool) (p : Slice) (sys : Nat) (buf : TradeQuote) (g : Gen) :
    Agree (q.feed m cut want p sys) (buf, g) (q.parseInto m cut want p sys g buf >>= fun r => .ok ((), r)) := by
  unfold TradeQuoteMsg.feed TradeQuoteMsg.parseInto
  simp only [bind_assoc]
  refine agree_expr fun _ _ => agree_look (agree_expr fun _ hv => agree_expr fun isin _ => agree_expr fun head _ => agree_expr fun cid _ =>
    agree_expr fun c _ => agree_assign (agree_assign (agree_expr fun cum _ => agree_assign (agree_assign (agree_expr fun ts _ => ?_)))))
  have hroom : cut ≤ buf.ask.length ∧ cut ≤ buf.bid.length := by
    by_contra hn
    obtain ⟨e, he⟩ := refuse_error q.len p
    dsimp only at hv
    unfold validBuffer at hv
    rw [if_pos (by omega), he] at hv
    cases hv
  have hbl : blocks cut ≤ cut := by unfold blocks; split <;> omega
  have h := stamp_agree m krxOffset ts sys g
  rcases hs : parseStamp m krxOffset ts sys g with e | ⟨t, g'⟩
  · rw [hs] at h
    have h2 := agree_on (get := fun s : TradeQuote × Gen => s.2) (put := fun g s => (s.1, g))
      (s := ({ buf with id := ⟨.isin isin, .krx⟩, conv := if q.storesConv then cid else buf.conv, cum := cum, sys := sys }, g)) h
    simp only [Res.bind_error] at h2 ⊢
    exact agree_error h2
  · rw [hs] at h
    have h2 := agree_on (get := fun s : TradeQuote × Gen => s.2) (put := fun g s => (s.1, g))
      (s := ({ buf with id := ⟨.isin isin, .krx⟩, conv := if q.storesConv then cid else buf.conv, cum := cum, sys := sys }, g)) h
    simp only [Res.bind_ok] at h2 ⊢
    refine agree_ok h2 ?_
    refine agree_assign (agree_expr fun s1 _ => agree_expr fun price _ => agree_assign (agree_expr fun s2 _ => agree_expr fun qty _ =>
      agree_assign (agree_expr fun s3 _ => agree_assign ?_)))
    have h3 := fill_agree m .counts c p q.start (blocks cut) 0 (buf.ask, buf.bid) (by simp only; omega) (by simp only; omega)
    have h4 := agree_on (get := fun s : TradeQuote × Gen => (s.1.ask, s.1.bid))
      (put := fun v s => ({ s.1 with ask := v.1, bid := v.2 }, s.2))
      (s := ({ buf with id := ⟨.isin isin, .krx⟩, conv := if q.storesConv then cid else buf.conv, cum := cum, sys := sys, stamp := t,
                        price := price, qty := qty, kind := some (tradeType s3) }, g')) h3
    simp only [bind_assoc, Res.bind_ok] at h4
    exact h4

theorem trade_feed_agree (m : Mode) (want : Bool) (p : Slice) (sys : Nat) (buf : Trade) (g : Gen) :
    Agree (tradeFeed m want p sys) (buf, g) (tradeParseInto m want p sys g buf >>= fun r => .ok ((), r)) := by
  unfold tradeFeed tradeParseInto
  simp only [bind_assoc]
  refine agree_expr fun _ _ => agree_expr fun isin _ => agree_expr fun head _ => agree_expr fun cid _ =>
    agree_expr fun c _ => agree_assign (agree_assign (agree_expr fun cum _ => agree_assign (agree_assign (agree_expr fun ts _ => ?_))))
  have h := stamp_agree m krxOffset ts sys g
  rcases hs : parseStamp m krxOffset ts sys g with e | ⟨t, g'⟩
  · rw [hs] at h
    have h2 := agree_on (get := fun s : Trade × Gen => s.2) (put := fun g s => (s.1, g))
      (s := ({ buf with id := ⟨.isin isin, .krx⟩, conv := cid, cum := cum, sys := sys }, g)) h
    simp only [Res.bind_error] at h2 ⊢
    exact agree_error h2
  · rw [hs] at h
    have h2 := agree_on (get := fun s : Trade × Gen => s.2) (put := fun g s => (s.1, g))
      (s := ({ buf with id := ⟨.isin isin, .krx⟩, conv := cid, cum := cum, sys := sys }, g)) h
    simp only [Res.bind_ok] at h2 ⊢
    refine agree_ok h2 ?_
    exact agree_assign (agree_expr fun s1 _ => agree_expr fun price _ => agree_assign (agree_expr fun s2 _ => agree_expr fun qty _ =>
      agree_assign (agree_expr fun s3 _ => rfl)))


/-! ## Refusals -/

theorem not_wf_state {σ : Type} (len : Nat) (hl : 29 ≤ len) (p : Slice) (h : ¬ Wellformed len p) (k : List UInt8 → Act σ Unit) (s : σ) :
    (expr (validPayload len p) >>= fun _ => expr (isinOf p) >>= k) s = (s, .error (refusal len p)) := by
  rcases valid_cases len p with ⟨e, h1, h2⟩ | ⟨e, h1⟩
  · rw [seq_expr e]
    rcases isin_cases p (by omega) with ⟨-, h3⟩ | ⟨e', -⟩
    · exact absurd ⟨h1, h2, h3⟩ h
    · rw [seq_expr_error e']
      unfold refusal
      rw [if_pos ⟨h1, h2⟩]
  · exact seq_expr_error (by rw [e, refuse_eq len p h1]) _ _

theorem not_wf_state' {σ : Type} (len : Nat) (hl : 29 ≤ len) (p : Slice) (h : ¬ Wellformed len p) (room : σ → Res Unit)
    (hr : ∀ s, ∃ e, room s = .ok () ∨ room s = .error e) (k : List UInt8 → Act σ Unit) (s : σ) :
    ∃ e, (expr (validPayload len p) >>= fun _ => look >>= fun s => expr (room s) >>= fun _ => expr (isinOf p) >>= k) s = (s, .error e) := by
  rcases valid_cases len p with ⟨e, h1, h2⟩ | ⟨e, h1⟩
  · rw [seq_expr e, seq_look]
    obtain ⟨f, hf | hf⟩ := hr s
    · rw [seq_expr hf]
      rcases isin_cases p (by omega) with ⟨-, h3⟩ | ⟨e', -⟩
      · exact absurd ⟨h1, h2, h3⟩ h
      · exact ⟨_, seq_expr_error e' _ _⟩
    · exact ⟨_, seq_expr_error hf _ _⟩
  · exact ⟨_, seq_expr_error (by rw [e, refuse_eq len p h1]) _ _⟩

theorem no_room_state {σ : Type} (len : Nat) (p : Slice) (room : σ → Res Unit) (k : Unit → Act σ Unit) (s : σ) (e : Fault)
    (hr : room s = .error e) :
    ∃ e, (expr (validPayload len p) >>= fun _ => look >>= fun s => expr (room s) >>= k) s = (s, .error e) := by
  rcases valid_cases len p with ⟨e, h1, h2⟩ | ⟨e, h1⟩
  · rw [seq_expr e, seq_look]
    exact ⟨_, seq_expr_error hr _ _⟩
  · exact ⟨_, seq_expr_error (by rw [e, refuse_eq len p h1]) _ _⟩

theorem room_cases (len cut a b : Nat) (p : Slice) : ∃ e, validBuffer len cut a b p = .ok () ∨ validBuffer len cut a b p = .error e := by
  unfold validBuffer
  split
  · obtain ⟨e, he⟩ := refuse_error len p
    exact ⟨e, Or.inr he⟩
  · exact ⟨.err, Or.inl rfl⟩

theorem no_room (len cut a b : Nat) (p : Slice) (h : a < cut ∨ b < cut) : ∃ e, validBuffer len cut a b p = .error e := by
  unfold validBuffer
  rw [if_pos h]
  exact refuse_error len p

/-- Never an error value: only a value or a panic. -/
def NoErr {α : Type} (r : Res α) : Prop := r ≠ .error .err

theorem noErr_bind {α β : Type} {r : Res α} {k : α → Res β} (h : NoErr r) (hk : ∀ x, NoErr (k x)) : NoErr (r >>= k) := by
  rcases r with e | x
  · intro he
    exact h (by simpa using he)
  · exact hk x

theorem noErr_ok {α : Type} (x : α) : NoErr (.ok x) := fun h => by cases h

theorem noErr_addU (m : Mode) (a b : Nat) : NoErr (addU m a b) := by
  unfold addU NoErr; split
  · exact fun h => by cases h
  · cases m <;> exact fun h => by cases h

theorem noErr_subU (m : Mode) (a b : Nat) : NoErr (subU m a b) := by
  unfold subU NoErr; split
  · exact fun h => by cases h
  · cases m <;> exact fun h => by cases h

theorem noErr_addW (w : Nat) (m : Mode) (a b : Nat) : NoErr (addW w m a b) := by
  unfold addW NoErr; split
  · exact fun h => by cases h
  · cases m <;> exact fun h => by cases h

theorem noErr_mulW (w : Nat) (m : Mode) (a b : Nat) : NoErr (mulW w m a b) := by
  unfold mulW NoErr; split
  · exact fun h => by cases h
  · cases m <;> exact fun h => by cases h

theorem noErr_shlW (w : Nat) (m : Mode) (a b : Nat) : NoErr (shlW w m a b) := by
  unfold shlW NoErr; split
  · exact fun h => by cases h
  · cases m <;> exact fun h => by cases h

theorem noErr_sub (v : Slice) (a b : Nat) : NoErr (v.sub a b) := by
  unfold Slice.sub NoErr; split <;> exact fun h => by cases h

theorem noErr_assert (m : Mode) (b : Bool) : NoErr (debugAssert m b) := by
  unfold debugAssert NoErr; cases m <;> cases b <;> exact fun h => by cases h

theorem noErr_step (w : Nat) (m : Mode) (a b c d e : Nat) : NoErr (swarStep w m a b c d e) :=
  noErr_bind (noErr_mulW _ _ _ _) fun _ => noErr_addW _ _ _ _

theorem noErr_loop (m : Mode) (prev stamp : Nat) : ∀ (fuel : Nat) (g : Gen) (cur : Nat), NoErr (dayLoop m prev stamp fuel g cur) := by
  intro fuel
  induction fuel with
  | zero => intro g cur; unfold dayLoop; exact fun h => by cases h
  | succ n ih =>
    intro g cur
    unfold dayLoop
    refine noErr_bind (noErr_addU _ _ _) fun lim => ?_
    split
    · exact noErr_bind (noErr_bind (noErr_addU _ _ _) fun _ => noErr_ok _) fun g' => noErr_bind (noErr_addU _ _ _) fun c => ih g' c
    · exact noErr_ok _

theorem noErr_stamp (m : Mode) (offset : Nat) (v : Slice) (stamp : Nat) (g : Gen) : NoErr (parseStamp m offset v stamp g) := by
  unfold parseStamp under8 chunk64 parseHhmmss
  refine noErr_bind (noErr_sub _ _ _) fun _ => noErr_bind (noErr_bind (noErr_assert _ _) fun _ => noErr_bind (noErr_subU _ _ _) fun _ =>
    noErr_bind (noErr_shlW _ _ _ _) fun _ => noErr_bind (noErr_step _ _ _ _ _ _ _) fun _ => noErr_bind (noErr_step _ _ _ _ _ _ _) fun _ =>
      noErr_step _ _ _ _ _ _ _) fun _ => noErr_bind (noErr_mulW _ _ _ _) fun _ => noErr_bind (noErr_sub _ _ _) fun _ =>
    noErr_bind (noErr_bind (noErr_shlW _ _ _ _) fun _ => noErr_bind (noErr_step _ _ _ _ _ _ _) fun _ =>
      noErr_bind (noErr_step _ _ _ _ _ _ _) fun _ => noErr_bind (noErr_step _ _ _ _ _ _ _) fun _ => noErr_mulW _ _ _ _) fun _ =>
    noErr_bind (noErr_addU _ _ _) fun _ => noErr_bind (noErr_addU _ _ _) fun _ => noErr_bind (noErr_addU _ _ _) fun _ =>
    noErr_bind (noErr_loop _ _ _ _ _ _) fun _ => noErr_ok _

/-! ## C154 -/

/-- The buffer has room for the levels. -/
def Room (cut : Nat) (asks bids : List Level) : Prop := cut ≤ asks.length ∧ cut ≤ bids.length

/-- A packet that is not well-formed, or for which the buffer has no room, leaves buffer and clock as they are, whether the answer is an error or
a panic. -/
theorem quote_untouched (m : Mode) (q : QuoteMsg) (cut : Nat) (p : Slice) (sys : Nat) (s : Quote × Gen)
    (h : ¬ (Wellformed q.len p ∧ Room cut s.1.ask s.1.bid)) : ∃ e, q.feed m cut p sys s = (s, .error e) := by
  have hl : 29 ≤ q.len := by have := len_ge q; omega
  by_cases hw : Wellformed q.len p
  · have hn : s.1.ask.length < cut ∨ s.1.bid.length < cut := by
      by_contra hc; exact h ⟨hw, by unfold Room; omega⟩
    obtain ⟨e, he⟩ := no_room q.len cut _ _ p hn
    exact no_room_state q.len p (fun s : Quote × Gen => validBuffer q.len cut s.1.ask.length s.1.bid.length p) _ s e he
  · exact not_wf_state' q.len hl p hw (fun s : Quote × Gen => validBuffer q.len cut s.1.ask.length s.1.bid.length p)
      (fun s => room_cases _ _ _ _ _) _ s

theorem tq_untouched (m : Mode) (q : TradeQuoteMsg) (cut : Nat) (want : Bool) (p : Slice) (sys : Nat) (s : TradeQuote × Gen)
    (h : ¬ (Wellformed q.len p ∧ Room cut s.1.ask s.1.bid)) : ∃ e, q.feed m cut want p sys s = (s, .error e) := by
  have hl : 29 ≤ q.len := by have := (tq_len q).1; omega
  by_cases hw : Wellformed q.len p
  · have hn : s.1.ask.length < cut ∨ s.1.bid.length < cut := by
      by_contra hc; exact h ⟨hw, by unfold Room; omega⟩
    obtain ⟨e, he⟩ := no_room q.len cut _ _ p hn
    exact no_room_state q.len p (fun s : TradeQuote × Gen => validBuffer q.len cut s.1.ask.length s.1.bid.length p) _ s e he
  · exact not_wf_state' q.len hl p hw (fun s : TradeQuote × Gen => validBuffer q.len cut s.1.ask.length s.1.bid.length p)
      (fun s => room_cases _ _ _ _ _) _ s

theorem trade_untouched (m : Mode) (want : Bool) (p : Slice) (sys : Nat) (s : Trade × Gen) (h : ¬ Wellformed 173 p) :
    tradeFeed m want p sys s = (s, .error (refusal 173 p)) := not_wf_state 173 (by omega) p h _ s

/-- C154. An answer `Err` leaves the buffer and the date generator exactly as they were: for every packet, buffer, clock, build. -/
theorem C154_quote_refused (m : Mode) (q : QuoteMsg) (cut : Nat) (hcut : cut ≤ q.levels) (p : Slice) (sys : Nat) (s : Quote × Gen)
    (h : (q.feed m cut p sys s).2 = .error .err) : (q.feed m cut p sys s).1 = s := by
  by_cases hw : Wellformed q.len p ∧ Room cut s.1.ask s.1.bid
  · exfalso
    obtain ⟨⟨h1, h2, h3⟩, ha, hb⟩ := hw
    have hag := quote_feed_agree m q cut p sys s.1 s.2
    rw [quote_reads_into m q cut p sys s.2 s.1 hcut ha hb h1 h2 h3] at hag
    have hne := noErr_stamp m krxOffset (timeField p) sys s.2
    rcases hs : parseStamp m krxOffset (timeField p) sys s.2 with e | r
    · rw [hs] at hag hne
      have : (q.feed m cut p sys s).2 = .error e := hag
      rw [h] at this
      exact hne (congrArg Except.error (Except.error.inj this).symm)
    · rw [hs] at hag
      have : q.feed m cut p sys s = (_, .ok ()) := hag
      rw [this] at h
      cases h
  · obtain ⟨e, he⟩ := quote_untouched m q cut p sys s hw
    rw [he]

theorem C154_trade_quote_refused (m : Mode) (q : TradeQuoteMsg) (cut : Nat) (hcut : cut ≤ q.levels) (want : Bool) (p : Slice) (sys : Nat)
    (s : TradeQuote × Gen) (h : (q.feed m cut want p sys s).2 = .error .err) : (q.feed m cut want p sys s).1 = s := by
  by_cases hw : Wellformed q.len p ∧ Room cut s.1.ask s.1.bid
  · exfalso
    obtain ⟨⟨h1, h2, h3⟩, ha, hb⟩ := hw
    have hag := tq_feed_agree m q cut want p sys s.1 s.2
    rw [tq_reads_into m q cut want p sys s.2 s.1 hcut ha hb h1 h2 h3] at hag
    have hne := noErr_stamp m krxOffset (timeField p) sys s.2
    rcases hs : parseStamp m krxOffset (timeField p) sys s.2 with e | r
    · rw [hs] at hag hne
      have : (q.feed m cut want p sys s).2 = .error e := hag
      rw [h] at this
      exact hne (congrArg Except.error (Except.error.inj this).symm)
    · rw [hs] at hag
      have : q.feed m cut want p sys s = (_, .ok ()) := hag
      rw [this] at h
      cases h
  · obtain ⟨e, he⟩ := tq_untouched m q cut want p sys s hw
    rw [he]

theorem C154_trade_refused (m : Mode) (want : Bool) (p : Slice) (sys : Nat) (s : Trade × Gen)
    (h : (tradeFeed m want p sys s).2 = .error .err) : (tradeFeed m want p sys s).1 = s := by
  by_cases hw : Wellformed 173 p
  · exfalso
    obtain ⟨h1, h2, h3⟩ := hw
    have hag := trade_feed_agree m want p sys s.1 s.2
    rw [trade_reads_into m want p sys s.2 s.1 h1 h2 h3] at hag
    have hne := noErr_stamp m krxOffset (timeField p) sys s.2
    rcases hs : parseStamp m krxOffset (timeField p) sys s.2 with e | r
    · rw [hs] at hag hne
      have : (tradeFeed m want p sys s).2 = .error e := hag
      rw [h] at this
      exact hne (congrArg Except.error (Except.error.inj this).symm)
    · rw [hs] at hag
      have : tradeFeed m want p sys s = (_, .ok ()) := hag
      rw [this] at h
      cases h
  · rw [trade_untouched m want p sys s hw]

/-- C154. All or nothing: while the clock is in range, a packet is either accepted, and the buffer and the clock are those of the whole packet, or not, and
both are as before; also if the program panics on it. -/
theorem C154_quote_atomic (m : Mode) (q : QuoteMsg) (cut : Nat) (hcut : cut ≤ q.levels) (p : Slice) (sys : Nat) (s : Quote × Gen)
    (hg : ClockOk s.2) :
    (Wellformed q.len p ∧ Room cut s.1.ask s.1.bid ∧ ∃ r g', q.parse m cut p sys s.2 = .ok (r, g') ∧
      q.feed m cut p sys s = ((intoBuffer cut s.1 r, g'), .ok ())) ∨
    (¬ (Wellformed q.len p ∧ Room cut s.1.ask s.1.bid) ∧ ∃ e, q.feed m cut p sys s = (s, .error e)) := by
  by_cases hw : Wellformed q.len p ∧ Room cut s.1.ask s.1.bid
  · left
    obtain ⟨hw, ha, hb⟩ := hw
    obtain ⟨⟨r, g'⟩, hr⟩ := (C104_quote_accept m q cut hcut p sys s.2 hg).1.2 hw
    refine ⟨hw, ⟨ha, hb⟩, r, g', hr, ?_⟩
    have hag := quote_feed_agree m q cut p sys s.1 s.2
    rw [C103_quote_buffer m q cut hcut p sys s.2 s.1 ha hb, hr] at hag
    exact hag
  · exact Or.inr ⟨hw, quote_untouched m q cut p sys s hw⟩

/-- What a parsed snapshot becomes in a buffer for trades and quotes. -/
def intoTqBuffer (q : TradeQuoteMsg) (cut : Nat) (buf r : TradeQuote) : TradeQuote :=
  { r with ask := r.ask ++ buf.ask.drop cut, bid := r.bid ++ buf.bid.drop cut, cut := buf.cut,
           lpHoldings := buf.lpHoldings, conv := if q = .d0038 then buf.conv else r.conv }

theorem C154_trade_quote_atomic (m : Mode) (q : TradeQuoteMsg) (cut : Nat) (hcut : cut ≤ q.levels) (want : Bool) (p : Slice) (sys : Nat)
    (s : TradeQuote × Gen) (hg : ClockOk s.2) :
    (Wellformed q.len p ∧ Room cut s.1.ask s.1.bid ∧ ∃ r g', q.parse m cut want p sys s.2 = .ok (r, g') ∧
      q.feed m cut want p sys s = ((intoTqBuffer q cut s.1 r, g'), .ok ())) ∨
    (¬ (Wellformed q.len p ∧ Room cut s.1.ask s.1.bid) ∧ ∃ e, q.feed m cut want p sys s = (s, .error e)) := by
  by_cases hw : Wellformed q.len p ∧ Room cut s.1.ask s.1.bid
  · left
    obtain ⟨hw, ha, hb⟩ := hw
    obtain ⟨⟨r, g'⟩, hr⟩ := (C104_trade_quote_accept m q cut hcut want p sys s.2 hg).1.2 hw
    refine ⟨hw, ⟨ha, hb⟩, r, g', hr, ?_⟩
    have hag := tq_feed_agree m q cut want p sys s.1 s.2
    rw [C103_trade_quote_buffer m q cut hcut want p sys s.2 s.1 ha hb, hr] at hag
    exact hag
  · exact Or.inr ⟨hw, tq_untouched m q cut want p sys s hw⟩

theorem C154_trade_atomic (m : Mode) (want : Bool) (p : Slice) (sys : Nat) (s : Trade × Gen) (hg : ClockOk s.2) :
    (Wellformed 173 p ∧ ∃ r g' x, tradeParse m want p sys s.2 = .ok (r, g') ∧
      tradeFeed m want p sys s = (({ r with price := x }, g'), .ok ())) ∨
    (¬ Wellformed 173 p ∧ tradeFeed m want p sys s = (s, .error (refusal 173 p))) := by
  by_cases hw : Wellformed 173 p
  · left
    obtain ⟨⟨r, g'⟩, hr⟩ := (C104_trade_accept m want p sys s.2 hg).1.2 hw
    obtain ⟨x, hx⟩ := C103_trade_buffer m want p sys s.2 s.1
    refine ⟨hw, r, g', x, hr, ?_⟩
    have hag := trade_feed_agree m want p sys s.1 s.2
    rw [hx, hr] at hag
    exact hag
  · exact Or.inr ⟨hw, trade_untouched m want p sys s hw⟩


/-! ### What no packet touches -/

/-- The lengths and what lies behind the cut. -/
def behind (cut : Nat) (v : List Level × List Level) : Nat × Nat × List Level × List Level :=
  (v.1.length, v.2.length, v.1.drop cut, v.2.drop cut)

theorem untouched_setAsk (cut i : Nat) (f : Level → Level) (h : i < cut) : Untouched (behind cut) (setAsk i f) := by
  intro v
  unfold setAsk behind
  split
  · simp [List.drop_set_of_lt h]
  · rfl

theorem untouched_setBid (cut i : Nat) (f : Level → Level) (h : i < cut) : Untouched (behind cut) (setBid i f) := by
  intro v
  unfold setBid behind
  split
  · simp [List.drop_set_of_lt h]
  · rfl

theorem untouched_block (m : Mode) (b : Block) (c : OrderConv) (clip : Slice) (cut i : Nat) (h : i < cut) :
    Untouched (behind cut) (blockAct m b c clip i) := by
  have a := fun f => untouched_setAsk cut i f h
  have d := fun f => untouched_setBid cut i f h
  unfold blockAct
  refine untouched_seq (untouched_expr _) fun _ => untouched_seq (untouched_expr _) fun _ => untouched_seq (a _) fun _ => untouched_seq (untouched_expr _) fun _ =>
    untouched_seq (untouched_expr _) fun _ => untouched_seq (d _) fun _ => untouched_seq (untouched_expr _) fun _ => untouched_seq (untouched_expr _) fun _ =>
    untouched_seq (a _) fun _ => untouched_seq (untouched_expr _) fun _ => untouched_seq (untouched_expr _) fun _ => untouched_seq (d _) fun _ => ?_
  cases b with
  | plain => exact untouched_seq (a _) fun _ => untouched_seq (d _) fun _ => untouched_seq (a _) fun _ => d _
  | counts =>
    exact untouched_seq (untouched_expr _) fun _ => untouched_seq (untouched_expr _) fun _ => untouched_seq (untouched_expr _) fun _ => untouched_seq (a _) fun _ =>
      untouched_seq (untouched_expr _) fun _ => untouched_seq (untouched_expr _) fun _ => untouched_seq (d _) fun _ => untouched_seq (a _) fun _ => d _
  | lp =>
    exact untouched_seq (untouched_expr _) fun _ => untouched_seq (untouched_expr _) fun _ => untouched_seq (a _) fun _ =>
      untouched_seq (untouched_expr _) fun _ => untouched_seq (untouched_expr _) fun _ => untouched_seq (d _) fun _ => untouched_seq (a _) fun _ => d _

theorem untouched_fill (m : Mode) (b : Block) (c : OrderConv) (p : Slice) (start cut : Nat) : ∀ (n i : Nat), i + n ≤ cut →
    Untouched (behind cut) (fillAct m b c p start n i) := by
  intro n
  induction n with
  | zero => intro i _; exact untouched_expr _
  | succ n ih =>
    intro i h
    unfold fillAct
    exact untouched_seq (untouched_expr _) fun _ => untouched_seq (untouched_block m b c _ cut i (by omega)) fun _ => ih (i + 1) (by omega)

/-- C154. Whatever a packet is and whatever becomes of it (accepted, refused, a panic halfway): the number of levels of the buffer,
the levels behind the cut, the buffer's own cut and its LP holdings are untouched. -/
theorem C154_quote_behind (m : Mode) (q : QuoteMsg) (cut : Nat) (p : Slice) (sys : Nat) (s : Quote × Gen) :
    let t := (q.feed m cut p sys s).1.1
    t.ask.length = s.1.ask.length ∧ t.bid.length = s.1.bid.length ∧ t.ask.drop cut = s.1.ask.drop cut ∧
      t.bid.drop cut = s.1.bid.drop cut ∧ t.cut = s.1.cut ∧ t.lpHoldings = s.1.lpHoldings := by
  have hbl : blocks cut ≤ cut := by unfold blocks; split <;> omega
  have hk : Untouched (fun s : Quote × Gen => (behind cut (s.1.ask, s.1.bid), s.1.cut, s.1.lpHoldings)) (q.feed m cut p sys) := by
    unfold QuoteMsg.feed
    refine untouched_seq (untouched_expr _) fun _ => untouched_seq untouched_look fun _ => untouched_seq (untouched_expr _) fun _ => untouched_seq (untouched_expr _) fun _ =>
      untouched_seq (untouched_expr _) fun _ => untouched_seq (untouched_expr _) fun c => untouched_seq (untouched_assign fun _ => rfl) fun _ =>
      untouched_seq (untouched_assign fun _ => rfl) fun _ => untouched_seq (untouched_assign fun _ => rfl) fun _ => untouched_seq (untouched_expr _) fun _ =>
      untouched_seq (untouched_on fun _ => rfl) fun _ => untouched_seq (untouched_assign fun _ => rfl) fun _ => untouched_on fun s => ?_
    have := untouched_fill m q.block c p q.start cut (blocks cut) 0 (by omega) (s.1.ask, s.1.bid)
    simp only [this]
  have := hk s
  simp only [behind, Prod.mk.injEq] at this
  obtain ⟨⟨a, b, c, d⟩, e, f⟩ := this
  exact ⟨a, b, c, d, e, f⟩

theorem C154_trade_quote_behind (m : Mode) (q : TradeQuoteMsg) (cut : Nat) (want : Bool) (p : Slice) (sys : Nat) (s : TradeQuote × Gen) :
    let t := (q.feed m cut want p sys s).1.1
    t.ask.length = s.1.ask.length ∧ t.bid.length = s.1.bid.length ∧ t.ask.drop cut = s.1.ask.drop cut ∧
      t.bid.drop cut = s.1.bid.drop cut ∧ t.cut = s.1.cut ∧ t.lpHoldings = s.1.lpHoldings ∧ (q = .d0038 → t.conv = s.1.conv) := by
  have hbl : blocks cut ≤ cut := by unfold blocks; split <;> omega
  have hk : Untouched (fun s : TradeQuote × Gen => (behind cut (s.1.ask, s.1.bid), s.1.cut, s.1.lpHoldings,
      if q = .d0038 then s.1.conv else .bond)) (q.feed m cut want p sys) := by
    unfold TradeQuoteMsg.feed
    refine untouched_seq (untouched_expr _) fun _ => untouched_seq untouched_look fun _ => untouched_seq (untouched_expr _) fun _ => untouched_seq (untouched_expr _) fun _ =>
      untouched_seq (untouched_expr _) fun _ => untouched_seq (untouched_expr _) fun _ => untouched_seq (untouched_expr _) fun c =>
      untouched_seq (untouched_assign fun _ => rfl) fun _ =>
      untouched_seq (untouched_assign fun _ => by cases q <;> rfl) fun _ => untouched_seq (untouched_expr _) fun _ =>
      untouched_seq (untouched_assign fun _ => rfl) fun _ => untouched_seq (untouched_assign fun _ => rfl) fun _ => untouched_seq (untouched_expr _) fun _ =>
      untouched_seq (untouched_on fun _ => rfl) fun _ => untouched_seq (untouched_assign fun _ => rfl) fun _ => untouched_seq (untouched_expr _) fun _ =>
      untouched_seq (untouched_expr _) fun _ => untouched_seq (untouched_assign fun _ => rfl) fun _ => untouched_seq (untouched_expr _) fun _ =>
      untouched_seq (untouched_expr _) fun _ => untouched_seq (untouched_assign fun _ => rfl) fun _ => untouched_seq (untouched_expr _) fun _ =>
      untouched_seq (untouched_assign fun _ => rfl) fun _ => untouched_on fun s => ?_
    have := untouched_fill m .counts c p q.start cut (blocks cut) 0 (by omega) (s.1.ask, s.1.bid)
    simp only [this]
  have := hk s
  simp only [behind, Prod.mk.injEq] at this
  obtain ⟨⟨a, b, c, d⟩, e, f, g⟩ := this
  refine ⟨a, b, c, d, e, f, fun h => ?_⟩
  rw [if_pos h, if_pos h] at g
  exact g

/-! ### Streams -/

open Classical in
/-- Leaving out of a stream what changes nothing changes nothing else. -/
theorem stream_filter {σ : Type} (f : Slice → Nat → Act σ Unit) (good : Slice → Prop) (h : ∀ p sys s, ¬ good p → (f p sys s).1 = s)
    (l : List (Slice × Nat)) (s : σ) :
    (stream f l s).1 = (stream f (l.filter fun x => good x.1) s).1 ∧
    ((l.zip (stream f l s).2).filter fun x => good x.1.1).map (·.2) = (stream f (l.filter fun x => good x.1) s).2 := by
  induction l generalizing s with
  | nil => exact ⟨rfl, rfl⟩
  | cons x l ih =>
    obtain ⟨p, sys⟩ := x
    by_cases hp : good p
    · have e : ((p, sys) :: l).filter (fun x => good x.1) = (p, sys) :: l.filter fun x => good x.1 := by simp [hp]
      rw [e]
      simp only [stream, List.zip_cons_cons]
      obtain ⟨h1, h2⟩ := ih (f p sys s).1
      refine ⟨h1, ?_⟩
      rw [← h2]
      simp [hp]
    · have e : ((p, sys) :: l).filter (fun x => good x.1) = l.filter fun x => good x.1 := by simp [hp]
      rw [e]
      simp only [stream, List.zip_cons_cons]
      rw [h p sys s hp]
      obtain ⟨h1, h2⟩ := ih s
      refine ⟨h1, ?_⟩
      rw [← h2]
      simp [hp]

open Classical in
/-- C154. Packets that are not well-formed can be dropped from any stream without changing the final buffer, the final clock or the answers to
the other packets. -/
theorem C154_quote_stream (m : Mode) (q : QuoteMsg) (cut : Nat) (l : List (Slice × Nat)) (s : Quote × Gen) :
    (stream (q.feed m cut) l s).1 = (stream (q.feed m cut) (l.filter fun x => Wellformed q.len x.1) s).1 ∧
    ((l.zip (stream (q.feed m cut) l s).2).filter fun x => Wellformed q.len x.1.1).map (·.2)
      = (stream (q.feed m cut) (l.filter fun x => Wellformed q.len x.1) s).2 :=
  stream_filter _ (Wellformed q.len) (fun p sys s h => by
    obtain ⟨e, he⟩ := quote_untouched m q cut p sys s fun hc => h hc.1
    rw [he]) l s

open Classical in
theorem C154_trade_quote_stream (m : Mode) (q : TradeQuoteMsg) (cut : Nat) (want : Bool) (l : List (Slice × Nat)) (s : TradeQuote × Gen) :
    (stream (q.feed m cut want) l s).1 = (stream (q.feed m cut want) (l.filter fun x => Wellformed q.len x.1) s).1 ∧
    ((l.zip (stream (q.feed m cut want) l s).2).filter fun x => Wellformed q.len x.1.1).map (·.2)
      = (stream (q.feed m cut want) (l.filter fun x => Wellformed q.len x.1) s).2 :=
  stream_filter _ (Wellformed q.len) (fun p sys s h => by
    obtain ⟨e, he⟩ := tq_untouched m q cut want p sys s fun hc => h hc.1
    rw [he]) l s

open Classical in
theorem C154_trade_stream (m : Mode) (want : Bool) (l : List (Slice × Nat)) (s : Trade × Gen) :
    (stream (tradeFeed m want) l s).1 = (stream (tradeFeed m want) (l.filter fun x => Wellformed 173 x.1) s).1 ∧
    ((l.zip (stream (tradeFeed m want) l s).2).filter fun x => Wellformed 173 x.1.1).map (·.2)
      = (stream (tradeFeed m want) (l.filter fun x => Wellformed 173 x.1) s).2 :=
  stream_filter _ (Wellformed 173) (fun p sys s h => by rw [trade_untouched m want p sys s h]) l s

theorem stream_behind (m : Mode) (q : QuoteMsg) (cut : Nat) (l : List (Slice × Nat)) (s : Quote × Gen) :
    let t := (stream (q.feed m cut) l s).1.1
    t.ask.length = s.1.ask.length ∧ t.bid.length = s.1.bid.length ∧ t.ask.drop cut = s.1.ask.drop cut ∧
      t.bid.drop cut = s.1.bid.drop cut ∧ t.cut = s.1.cut ∧ t.lpHoldings = s.1.lpHoldings := by
  induction l generalizing s with
  | nil => exact ⟨rfl, rfl, rfl, rfl, rfl, rfl⟩
  | cons x l ih =>
    obtain ⟨a, b, c, d, e, f⟩ := C154_quote_behind m q cut x.1 x.2 s
    obtain ⟨a', b', c', d', e', f'⟩ := ih (q.feed m cut x.1 x.2 s).1
    exact ⟨a'.trans a, b'.trans b, c'.trans c, d'.trans d, e'.trans e, f'.trans f⟩

/-- C154. No memory but the clock: after any stream of packets into the buffer, good, bad or fatal, an accepted packet leaves what it would leave in
the original buffer, and within the cut exactly what a new snapshot would hold. -/
theorem C154_quote_after_anything (m : Mode) (q : QuoteMsg) (cut : Nat) (hcut : cut ≤ q.levels) (l : List (Slice × Nat)) (s : Quote × Gen)
    (p : Slice) (sys : Nat) (h : (q.feed m cut p sys (stream (q.feed m cut) l s).1).2 = .ok ()) :
    ∃ r g', q.parse m cut p sys (stream (q.feed m cut) l s).1.2 = .ok (r, g') ∧
      (q.feed m cut p sys (stream (q.feed m cut) l s).1).1 = (intoBuffer cut s.1 r, g') ∧
      (intoBuffer cut s.1 r).ask.take cut = r.ask ∧ (intoBuffer cut s.1 r).bid.take cut = r.bid := by
  obtain ⟨b1, b2, b3, b4, b5, b6⟩ := stream_behind m q cut l s
  generalize (stream (q.feed m cut) l s).1 = t at *
  by_cases hw : Wellformed q.len p ∧ Room cut t.1.ask t.1.bid
  · obtain ⟨hw, ha, hb⟩ := hw
    have hag := quote_feed_agree m q cut p sys t.1 t.2
    rw [C103_quote_buffer m q cut hcut p sys t.2 t.1 ha hb] at hag
    have hq := quote_reads m q cut p sys t.2 hcut hw.1 hw.2.1 hw.2.2
    rcases hs : q.parse m cut p sys t.2 with e | ⟨r, g'⟩
    · rw [hs] at hag
      have : (q.feed m cut p sys t).2 = .error e := hag
      rw [h] at this
      cases this
    · rw [hs] at hag
      have e1 : q.feed m cut p sys t = ((intoBuffer cut t.1 r, g'), .ok ()) := hag
      have e2 : intoBuffer cut t.1 r = intoBuffer cut s.1 r := by
        unfold intoBuffer
        rw [b3, b4, b5, b6]
      have hlen : r.ask.length = cut ∧ r.bid.length = cut := by
        rw [hs] at hq
        rcases hp : parseStamp m krxOffset (timeField p) sys t.2 with e | x
        · rw [hp] at hq; cases hq
        · rw [hp] at hq
          have := (Prod.mk.inj (Except.ok.inj hq)).1
          rw [this]
          simp
      refine ⟨r, g', rfl, by rw [e1, e2], ?_, ?_⟩
      · simp only [intoBuffer]
        rw [List.take_append_of_le_length (by omega), List.take_of_length_le (by omega)]
      · simp only [intoBuffer]
        rw [List.take_append_of_le_length (by omega), List.take_of_length_le (by omega)]
  · obtain ⟨e, he⟩ := quote_untouched m q cut p sys t hw
    rw [he] at h
    cases h

/-! ### A torn buffer, and examples -/

theorem stamp_overflow (v : Slice) (stamp : Nat) (g : Gen) (hv : 12 ≤ v.len) (ho : U64 ≤ rawTime v + krxOffset + g.date) :
    stampAct .checked krxOffset v stamp g = (g, .error .overflow) := by
  have hr := rawTime_lt v
  have hk : krxOffset = 9 * 3600 * 1000000000 := by decide
  have hU : 9 * dayNanos < U64 := by decide
  have hdn : dayNanos = 24 * 3600 * 1000000000 := rfl
  have hus : decimal ((v.drop 6).nibbles 6) * 1000 < 2 ^ 64 := by
    have := decimal_nibbles_lt (v.drop 6) 6
    norm_num at this ⊢
    omega
  have e0 : (Slice.mk (fun i => v.mem (0 + i)) (6 - 0)).nibbles 2 = v.nibbles 2 := nibbles_same _ _ _ (fun i _ => by simp)
  have e2 : ((Slice.mk (fun i => v.mem (0 + i)) (6 - 0)).drop 2).nibbles 2 = (v.drop 2).nibbles 2 :=
    nibbles_same _ _ _ (fun i _ => by simp [Slice.drop])
  have e4 : ((Slice.mk (fun i => v.mem (0 + i)) (6 - 0)).drop 4).nibbles 2 = (v.drop 4).nibbles 2 :=
    nibbles_same _ _ _ (fun i _ => by simp [Slice.drop])
  have key : ∃ D A B, under8 .checked ⟨fun i => v.mem (6 + i), 12 - 6⟩ 6 = .ok D ∧ mulW 64 .checked D 1000 = .ok A ∧
      parseHhmmss .checked ⟨fun i => v.mem (0 + i), 6 - 0⟩ = .ok B ∧ A + B = rawTime v := by
    refine ⟨_, _, _, under8_nib .checked _ 6 (by omega) (by omega), mulW_ok hus, parseHhmmss_nib .checked _, ?_⟩
    rw [e0, e2, e4]
    rfl
  obtain ⟨D, A, B, k1, k2, k3, hs⟩ := key
  unfold stampAct
  generalize dayLoopAct .checked = loop
  rw [seq_expr (sub_ok v 6 12 (by omega) hv), seq_expr k1, seq_expr k2, seq_expr (sub_ok v 0 6 (by omega) (by omega)), seq_expr k3,
    seq_expr (addU_ok (show A + B < U64 by omega)), hs, seq_expr (addU_ok (by omega)), seq_look]
  have : addU .checked (rawTime v + krxOffset) g.date = .error .overflow := by
    unfold addU
    rw [if_neg (by omega)]
  exact seq_expr_error this _ _

theorem on_error {σ τ α : Type} {get : σ → τ} {put : τ → σ → σ} {a : Act τ α} {s : σ} {t : τ} {e : Fault} (h : a (get s) = (t, .error e)) :
    a.on get put s = (put t s, .error e) := by unfold Act.on; rw [h]

/-- A torn buffer: when the date generator is so near to the end of time that the date does not fit, a debug build panics on a well-formed packet
after the identifier, the converter and the system time of the packet are written, and leaves the exchange's time and all
levels of the packet before. (`C154_quote_atomic` says that nothing like this happens while the clock is in range.) -/
theorem C154_torn (q : QuoteMsg) (cut : Nat) (p : Slice) (sys : Nat) (s : Quote × Gen) (hw : Wellformed q.len p)
    (hr : Room cut s.1.ask s.1.bid) (ho : U64 ≤ rawTime (timeField p) + krxOffset + s.2.date) :
    q.feed .checked cut p sys s = (({ s.1 with id := ⟨.isin (fieldBytes p 17 12), .krx⟩, conv := quoteConv q p, sys := sys }, s.2),
      .error .overflow) := by
  obtain ⟨h1, h2, h3⟩ := hw
  have hl := len_ge q
  obtain ⟨c, hc, -⟩ := load_conv (quoteConv q p)
  have hvb : validBuffer q.len cut s.1.ask.length s.1.bid.length p = .ok () := by
    unfold validBuffer; rw [if_neg (by have := hr.1; have := hr.2; omega)]
  unfold QuoteMsg.feed
  rw [seq_expr (valid_ok _ p h1 h2), seq_look, seq_expr hvb, seq_expr (isinOf_ok p (by omega) h3), seq_expr (quoteConv_ok q p (by omega)),
    seq_expr hc, seq_assign, seq_assign, seq_assign, seq_expr (sub_ok p 35 47 (by omega) (by omega))]
  have := stamp_overflow (timeField p) sys s.2 (Nat.le_refl 12) ho
  refine seq_error (s' := ({ s.1 with id := ⟨.isin (fieldBytes p 17 12), .krx⟩, conv := quoteConv q p, sys := sys }, s.2)) ?_
  exact on_error this

/-- A well-formed packet of zeros. -/
def zeroPacket : Slice := ofList (List.replicate 17 48 ++ ascii "KR7005930003" ++ List.replicate 525 48 ++ [255])

theorem zero_wf : Wellformed 555 zeroPacket := by
  unfold Wellformed IsinOk
  decide +kernel

example (sys : Nat) : ∃ s, QuoteMsg.s0002.feed .checked 10 zeroPacket sys (Quote.withLevel 10, ⟨2 ^ 64 - 1, 0, 0⟩) = (s, .error .overflow) ∧
    s.1.id = ⟨.isin (ascii "KR7005930003"), .krx⟩ ∧ s.1.stamp = 0 :=
  ⟨_, C154_torn .s0002 10 zeroPacket sys _ zero_wf (by unfold Room Quote.withLevel; simp)
    (by have : krxOffset = 9 * 3600 * 1000000000 := by decide
        show U64 ≤ _ + krxOffset + (2 ^ 64 - 1)
        unfold U64; omega), by
      have : fieldBytes zeroPacket 17 12 = ascii "KR7005930003" := by decide +kernel
      show (IdData.mk _ _) = _
      rw [this], rfl⟩

/-- Non-vacuity: the packet is accepted into a buffer of twelve levels of which it fills ten; a packet with a blank for an end mark is refused. -/
example (m : Mode) (sys : Nat) : ∃ r g, QuoteMsg.s0002.feed m 10 zeroPacket sys (Quote.withLevel 12, ⟨0, 0, 0⟩)
    = ((intoBuffer 10 (Quote.withLevel 12) r, g), .ok ()) := by
  rcases C154_quote_atomic m .s0002 10 (by decide) zeroPacket sys (Quote.withLevel 12, ⟨0, 0, 0⟩)
    (by unfold ClockOk dayNanos; decide) with ⟨-, -, r, g, -, h⟩ | ⟨h, -⟩
  · exact ⟨r, g, h⟩
  · exact absurd ⟨zero_wf, by unfold Room Quote.withLevel; simp⟩ h

example (m : Mode) (sys : Nat) (s : Trade × Gen) : tradeFeed m true (ofList (List.replicate 173 48)) sys s = (s, .error .err) := by
  have h : ¬ Wellformed 173 (ofList (List.replicate 173 48)) := fun h => absurd h.2.1 (by decide +kernel)
  rw [trade_untouched m true _ sys s h]
  have : refusal 173 (ofList (List.replicate 173 48)) = .err := by decide +kernel
  rw [this]

end Verif.Props

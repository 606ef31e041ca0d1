import Verif.TE.DefaultBook
import Verif.TE.BookRefine
/-! # Books made by `Default` (C176) -/
set_option autoImplicit false
namespace Verif.Props
open Verif Verif.TE Verif.Spec

theorem bindR {α β : Type} {x : Res α} {f : α → Res β} {b : β} (h : (x >>= f) = .ok b) : ∃ a, x = .ok a ∧ f a = .ok b := by
  cases x with
  | error e => cases h
  | ok a => exact ⟨a, rfl, h⟩

/-- What `process_limit_order` does on such a book. -/
theorem default_process (m : Mode) (b : OrderBook) (hb : b.bids = HalfBook.default) (o : LimitOrder) (b' : OrderBook) (r : Option (History × Nat))
    (h : b.processLimit m o = .ok (b', r)) : b'.bids = HalfBook.default := by
  obtain ⟨p, q, s, id⟩ := o
  cases s with
  | ask =>
    simp only [OrderBook.processLimit] at h
    split at h
    · obtain ⟨a, -, h⟩ := bindR h
      cases h; exact hb
    · have ht : b.bids.tradeLimit m ⟨p, q, .ask, id⟩ = .ok (b.bids, none) := by
        unfold HalfBook.tradeLimit; rw [if_pos]; left; rw [hb]; rfl
      rw [ht] at h
      cases h; exact hb
  | bid =>
    have hadd : ∀ (c : OrderBook) (x : Nat), c.bids = HalfBook.default → OrderBook.expectAdd m c.bids ⟨p, x, .bid, id⟩ = .error .unwrapNone := by
      intro c x hc
      unfold OrderBook.expectAdd HalfBook.addLimitOrder
      rw [if_pos (by rw [hc]; simp [HalfBook.default])]
      rfl
    simp only [OrderBook.processLimit] at h
    split at h
    · rw [hadd b q hb] at h; cases h
    · obtain ⟨⟨a, x⟩, -, h⟩ := bindR h
      simp only at h
      cases x with
      | none => cases h; exact hb
      | some x =>
        obtain ⟨hist, rem⟩ := x
        simp only at h
        split at h
        · rw [hadd _ rem (by exact hb)] at h; cases h
        · cases h; exact hb

theorem default_step (m : Mode) (b : OrderBook) (hb : b.bids = HalfBook.default) (c : Cmd) (b' : OrderBook) (r : Out)
    (h : b.step m c = .ok (b', r)) : b'.bids = HalfBook.default := by
  have hcancel : ∀ id, b.bids.cancelOrder m id = .ok (b.bids, none) := by
    intro id; unfold HalfBook.cancelOrder; rw [hb]; rfl
  have hqty : ∀ id q, b.bids.changeQuantity m id q = .ok (b.bids, none) := by
    intro id q; unfold HalfBook.changeQuantity; rw [hb]; rfl
  have hprice : ∀ id p, b.bids.changePrice m id p = .ok (b.bids, none) := by
    intro id q; unfold HalfBook.changePrice; rw [hb]; rfl
  cases c with
  | add s o =>
    simp only [OrderBook.step] at h
    obtain ⟨⟨b1, x⟩, h1, h⟩ := bindR h
    have : b1.bids = HalfBook.default := by
      cases s with
      | sell =>
        simp only [OrderBook.addLimitOrder, mside] at h1
        obtain ⟨a, -, h1⟩ := bindR h1
        cases h1; exact hb
      | buy =>
        simp only [OrderBook.addLimitOrder, mside] at h1
        obtain ⟨a, h2, h1⟩ := bindR h1
        unfold HalfBook.addLimitOrder at h2
        rw [if_pos (by rw [hb]; simp [HalfBook.default])] at h2
        cases h2
        cases h1; exact hb
    cases x <;> (cases h; exact this)
  | limit s o =>
    simp only [OrderBook.step] at h
    obtain ⟨⟨b1, x⟩, h1, h⟩ := bindR h
    cases h
    exact default_process m b hb _ _ _ h1
  | market s q =>
    simp only [OrderBook.step] at h
    obtain ⟨⟨b1, x⟩, h1, h⟩ := bindR h
    cases h
    cases s with
    | sell =>
      simp only [OrderBook.processMarket, mside] at h1
      obtain ⟨⟨a, y⟩, h2, h1⟩ := bindR h1
      unfold HalfBook.tradeMarket at h2
      rw [if_pos (by left; rw [hb]; rfl)] at h2
      cases h2
      cases h1; exact hb
    | buy =>
      simp only [OrderBook.processMarket, mside] at h1
      obtain ⟨⟨a, y⟩, h2, h1⟩ := bindR h1
      cases h1; exact hb
  | cancel id =>
    simp only [OrderBook.step] at h
    obtain ⟨⟨b1, x⟩, h1, h⟩ := bindR h
    cases h
    simp only [OrderBook.cancelOrder] at h1
    obtain ⟨⟨a, y⟩, h2, h1⟩ := bindR h1
    simp only at h1
    split at h1
    · cases h1; exact hb
    · rw [hcancel] at h1; cases h1; exact hb
  | changeQty id q =>
    simp only [OrderBook.step] at h
    obtain ⟨⟨b1, x⟩, h1, h⟩ := bindR h
    cases h
    simp only [OrderBook.changeQuantity] at h1
    obtain ⟨⟨a, y⟩, h2, h1⟩ := bindR h1
    simp only at h1
    split at h1
    · cases h1; exact hb
    · rw [hqty] at h1; cases h1; exact hb
  | changePrice id p =>
    simp only [OrderBook.step] at h
    obtain ⟨⟨b1, x⟩, h1, h⟩ := bindR h
    cases h
    simp only [OrderBook.changePrice] at h1
    obtain ⟨⟨a, y⟩, h2, h1⟩ := bindR h1
    simp only at h1
    split at h1
    · cases h1; exact hb
    · rw [hprice] at h1; cases h1; exact hb
  | modify id p q =>
    simp only [OrderBook.step] at h
    obtain ⟨⟨b1, x⟩, h1, h⟩ := bindR h
    cases h
    simp only [OrderBook.modifyOrder] at h1
    cases ha : b.asks.cache id with
    | some p' =>
      rw [ha] at h1
      simp only at h1
      split at h1
      · obtain ⟨⟨a, y⟩, h2, h1⟩ := bindR h1
        cases h1; exact hb
      · obtain ⟨⟨a, y⟩, h2, h1⟩ := bindR h1
        exact default_process m _ (by exact hb) _ _ _ h1
    | none =>
      rw [ha] at h1
      have hc : b.bids.cache id = none := by rw [hb]; rfl
      simp only [hc] at h1
      cases h1; exact hb
  | remove s p q =>
    simp only [OrderBook.step] at h
    obtain ⟨⟨b1, x⟩, h1, h⟩ := bindR h
    have : b1.bids = HalfBook.default := by
      cases s with
      | sell =>
        simp only [OrderBook.removeOrder, mside] at h1
        obtain ⟨⟨a, y⟩, h2, h1⟩ := bindR h1
        cases h1; exact hb
      | buy =>
        simp only [OrderBook.removeOrder, mside] at h1
        obtain ⟨⟨a, y⟩, h2, h1⟩ := bindR h1
        unfold HalfBook.removeOrder at h2
        rw [if_pos (by rw [hb]; simp [HalfBook.default])] at h2
        cases h2
        cases h1; exact hb
    cases x <;> (cases h; exact this)

/-- C176. No bid ever rests in a book made by `Default`: after every series of commands, whatever they are, its bid side is empty and its best bid 0. -/
theorem C176_no_bids (m : Mode) (inst : Nat) (cs : List Cmd) (b : OrderBook) (os : List Out) (h : (OrderBook.default inst).run m cs = .ok (b, os)) :
    b.bids.levels = [] ∧ b.bids.best = 0 ∧ b.bids.total = 0 ∧ b.bids.side = .ask := by
  have key : ∀ (cs : List Cmd) (a : OrderBook) (os : List Out), a.bids = HalfBook.default → a.run m cs = .ok (b, os) → b.bids = HalfBook.default := by
    intro cs
    induction cs with
    | nil => intro a os ha h; simp only [OrderBook.run] at h; cases h; exact ha
    | cons c cs ih =>
      intro a os ha h
      simp only [OrderBook.run] at h
      obtain ⟨⟨a1, o⟩, h1, h⟩ := bindR h
      obtain ⟨⟨a2, o2⟩, h2, h⟩ := bindR h
      cases h
      exact ih a1 o2 (default_step m a ha c a1 o h1) h2
  rw [key cs _ os rfl h]
  exact ⟨rfl, rfl, rfl, rfl⟩

/-- C176 (bids). In such a book, at any moment: adding a bid answers an error; a processed bid that is not filled at once either panics or is lost without a trace (with the
answer "nothing traded"); a market sell never trades. -/
theorem C176_bids (m : Mode) (inst : Nat) (cs : List Cmd) (b : OrderBook) (os : List Out) (h : (OrderBook.default inst).run m cs = .ok (b, os)) (o : Resting) :
    b.step m (.add .buy o) = .ok (b, .found false) ∧
    (o.price < b.asks.best → b.step m (.limit .buy o) = .error .unwrapNone) ∧
    (b.asks.best ≤ o.price → b.asks.levels = [] → b.step m (.limit .buy o) = .ok (b, .trade none)) ∧
    (∀ b' hist rem, b.step m (.limit .buy o) = .ok (b', .trade (some (hist, rem))) → rem = 0) ∧
    b.step m (.market .sell o.qty) = .ok (b, .trade none) := by
  obtain ⟨h1, h2, h3, h4⟩ := C176_no_bids m inst cs b os h
  have hadd : ∀ (c : OrderBook) (x : Nat), c.bids.side = .ask → OrderBook.expectAdd m c.bids ⟨o.price, x, .bid, o.id⟩ = .error .unwrapNone := by
    intro c x hc
    unfold OrderBook.expectAdd HalfBook.addLimitOrder
    rw [if_pos (by simp only [hc]; decide)]
    rfl
  refine ⟨?_, ?_, ?_, ?_, ?_⟩
  · have ha : b.bids.addLimitOrder m ⟨o.price, o.qty, .bid, o.id⟩ = .ok (b.bids, .error ()) := by
      unfold HalfBook.addLimitOrder
      rw [if_pos (by simp only [h4]; decide)]
    simp only [OrderBook.step, mside, OrderBook.addLimitOrder, ha]
    rfl
  · intro hp
    simp only [OrderBook.step, mside, OrderBook.processLimit]
    rw [if_pos hp, hadd b _ h4]
    rfl
  · intro hp he
    simp only [OrderBook.step, mside, OrderBook.processLimit]
    rw [if_neg (by omega)]
    have ht : b.asks.tradeLimit m ⟨o.price, o.qty, .bid, o.id⟩ = .ok (b.asks, none) := by
      unfold HalfBook.tradeLimit; rw [if_pos]; right; left; rw [he]; rfl
    rw [ht]
    rfl
  · intro b' hist rem hs
    simp only [OrderBook.step, mside] at hs
    obtain ⟨⟨b1, x⟩, g1, hs⟩ := bindR hs
    simp only [Except.ok.injEq, Prod.mk.injEq, Out.trade.injEq] at hs
    obtain ⟨rfl, rfl⟩ := hs
    simp only [OrderBook.processLimit] at g1
    split at g1
    · rw [hadd b _ h4] at g1; cases g1
    · obtain ⟨⟨a, x⟩, -, g1⟩ := bindR g1
      simp only at g1
      cases x with
      | none => cases g1
      | some x =>
        obtain ⟨hi, re⟩ := x
        simp only at g1
        split at g1
        · rw [hadd _ re (by exact h4)] at g1; cases g1
        · cases g1; omega
  · have ha : b.bids.tradeMarket m ⟨o.qty, .ask, 0⟩ = .ok (b.bids, none) := by
      unfold HalfBook.tradeMarket
      rw [if_pos (by left; rw [h1]; rfl)]
    simp only [OrderBook.step, mside, OrderBook.processMarket, ha]
    rfl

/-- C176 (asks). Asks at prices above 0 rest in such a book and never trade with anything; asks at 0 or below are lost. Asks that are only added leave the best ask at 0,
below all of them. -/
theorem C176_asks (m : Mode) (inst : Nat) (cs : List Cmd) (b : OrderBook) (os : List Out) (h : (OrderBook.default inst).run m cs = .ok (b, os)) (o : Resting) :
    (o.price ≤ 0 → b.step m (.limit .sell o) = .ok (b, .trade none)) ∧
    (0 < o.price → ∀ b' r, b.step m (.limit .sell o) = .ok (b', r) → r = .trade none) := by
  obtain ⟨h1, h2, h3, h4⟩ := C176_no_bids m inst cs b os h
  constructor
  · intro hp
    simp only [OrderBook.step, mside, OrderBook.processLimit]
    rw [if_neg (by omega)]
    have ht : b.bids.tradeLimit m ⟨o.price, o.qty, .ask, o.id⟩ = .ok (b.bids, none) := by
      unfold HalfBook.tradeLimit; rw [if_pos]; left; exact h4
    rw [ht]
    rfl
  · intro hp b' r hs
    simp only [OrderBook.step, mside, OrderBook.processLimit] at hs
    rw [if_pos (by omega)] at hs
    obtain ⟨⟨b1, x⟩, g1, hs⟩ := bindR hs
    obtain ⟨a, -, g1⟩ := bindR g1
    cases g1
    cases hs
    rfl

/-- C176 (best ask). -/
theorem C176_best (m : Mode) (inst : Nat) (os : List Resting) (hp : ∀ o ∈ os, 0 < o.price) (b : OrderBook) (r : List Out)
    (h : (OrderBook.default inst).run m (os.map (Cmd.limit .sell)) = .ok (b, r)) : b.asks.best = 0 ∧ b.asks.side = .ask := by
  have key : ∀ (os : List Resting), (∀ o ∈ os, 0 < o.price) → ∀ (a : OrderBook) (r : List Out), a.bids = HalfBook.default → a.asks.best = 0 → a.asks.side = .ask →
      a.run m (os.map (Cmd.limit .sell)) = .ok (b, r) → b.asks.best = 0 ∧ b.asks.side = .ask := by
    intro os
    induction os with
    | nil => intro _ a r _ h1 h2 h; simp only [List.map_nil, OrderBook.run] at h; cases h; exact ⟨h1, h2⟩
    | cons o os ih =>
      intro hp a r hb h1 h2 h
      simp only [List.map_cons, OrderBook.run] at h
      obtain ⟨⟨a1, x⟩, g1, h⟩ := bindR h
      obtain ⟨⟨a2, y⟩, g2, h⟩ := bindR h
      cases h
      have hb1 := default_step m a hb _ a1 x g1
      have ho := hp o (by simp)
      have : a1.asks.best = 0 ∧ a1.asks.side = .ask := by
        simp only [OrderBook.step, mside, OrderBook.processLimit] at g1
        rw [if_pos (by rw [hb]; exact ho)] at g1
        obtain ⟨⟨b1, z⟩, g1, hs⟩ := bindR g1
        obtain ⟨k, e1, e2⟩ := bindR g1
        cases e2
        cases hs
        simp only [OrderBook.expectAdd] at e1
        obtain ⟨⟨k1, k2⟩, e1, e3⟩ := bindR e1
        have hk : k1.best = 0 ∧ k1.side = .ask := by
          unfold HalfBook.addLimitOrder at e1
          rw [if_neg (by simp [h2])] at e1
          have hu : (a.asks.updateBest o.price).best = 0 ∧ (a.asks.updateBest o.price).side = .ask := by
            unfold HalfBook.updateBest
            rw [h2]
            simp only [h1]
            exact ⟨by omega, trivial⟩
          simp only at e1
          split at e1
          · obtain ⟨t, -, e1⟩ := bindR e1
            obtain ⟨⟨l, w⟩, -, e1⟩ := bindR e1
            cases e1
            exact hu
          · obtain ⟨t, -, e1⟩ := bindR e1
            cases e1
            exact hu
        cases k2 with
        | error e => cases e3
        | ok u => cases e3; exact hk
      exact ih (fun z hz => hp z (List.mem_cons_of_mem _ hz)) a1 y hb1 this.1 this.2 g2
  exact key os hp _ r rfl rfl rfl h

/-- A case: two asks, a bid that takes one of them, a bid that is lost after the rest was cancelled. -/
theorem C176_example : ∃ b, (OrderBook.default 0).run .checked
      [.limit .sell ⟨1, 100, 5⟩, .limit .sell ⟨2, 101, 7⟩, .limit .buy ⟨3, 100, 5⟩, .add .buy ⟨4, 99, 1⟩, .market .sell 3] =
    .ok (b, [.trade none, .trade none, .trade (some ([(100, 5)], 0)), .found false, .trade none]) ∧ b.asks.best = 101 :=
  ⟨_, rfl, rfl⟩

end Verif.Props

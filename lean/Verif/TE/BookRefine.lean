import Verif.TE.TradeLemmas
import Verif.TE.OrderBook
/-!
# The order book refines the specification, command by command and over histories
-/
namespace Verif.TE
open Verif Verif.Spec

/-- Model side of a specification side. -/
def mside : BookSide → Side
  | .sell => .ask
  | .buy => .bid

@[simp] theorem bside_mside (s) : bside (mside s) = s := by cases s <;> rfl

namespace OrderBook

/-- Abstraction function. -/
def abs (b : OrderBook) : Book := ⟨b.asks.queue, b.bids.queue⟩

/-- Invariant of a book. -/
structure WF (b : OrderBook) : Prop where
  asks : b.asks.WF
  bids : b.bids.WF
  aside : b.asks.side = .ask
  bside : b.bids.side = .bid
  disj : ∀ x ∈ b.asks.queue, ∀ y ∈ b.bids.queue, x.id ≠ y.id

/-- Running one command of the specification on the model (which function a client calls). -/
def step (m : Mode) (b : OrderBook) : Cmd → Res (OrderBook × Out)
  | .add s o => do
    let (b', r) ← b.addLimitOrder m ⟨o.price, o.qty, mside s, o.id⟩
    match r with
    | .ok _ => .ok (b', .done)
    | .error _ => .ok (b', .found false)
  | .limit s o => do
    let (b', r) ← b.processLimit m ⟨o.price, o.qty, mside s, o.id⟩
    .ok (b', .trade r)
  | .market s q => do
    let (b', r) ← b.processMarket m ⟨q, mside s, 0⟩
    .ok (b', .trade r)
  | .cancel id => do
    let (b', r) ← b.cancelOrder m id
    .ok (b', .found r.isSome)
  | .changeQty id q => do
    let (b', r) ← b.changeQuantity m id q
    .ok (b', .found r.isSome)
  | .changePrice id p => do
    let (b', r) ← b.changePrice m id p
    .ok (b', .found r.isSome)
  | .modify id p q => do
    let (b', r) ← b.modifyOrder m ⟨id, p, q⟩
    .ok (b', .trade r)
  | .remove s p q => do
    let (b', r) ← b.removeOrder m ⟨p, q, mside s⟩
    match r with
    | some l => .ok (b', .left l)
    | none => .ok (b', .found false)

/-- Run a list of commands. -/
def run (m : Mode) (b : OrderBook) : List Cmd → Res (OrderBook × List Out)
  | [] => .ok (b, [])
  | c :: cs => do
    let (b', o) ← b.step m c
    let (b'', os) ← run m b' cs
    .ok (b'', o :: os)

end OrderBook

/-- Price that is not one of the two sentinels. -/
def RealPrice (p : Int) : Prop := I64MIN < p ∧ p < I64MAX

/-- When a command is within the contract of the library, on a book with contents `b`: positive
quantities that fit, ids of new orders unused, prices strictly between the sentinels. Market sells are
excluded (see `C08`). -/
def Valid (b : Book) : Cmd → Prop
  | .add s o | .limit s o => 0 < o.qty ∧ volume (b.own s) + o.qty < U64 ∧ RealPrice o.price ∧ ¬ b.HasId o.id
  | .market s _ => s = .buy
  | .cancel _ => True
  | .changeQty _ q => 0 < q ∧ volume b.sells + q < U64 ∧ volume b.buys + q < U64
  | .changePrice _ p => RealPrice p
  | .modify _ p q => 0 < q ∧ volume b.sells + q < U64 ∧ volume b.buys + q < U64 ∧ RealPrice p
  | .remove _ _ _ => True

theorem RealPrice.inI64 {p} (h : RealPrice p) : HalfBook.InI64 p := ⟨Int.le_of_lt h.1, Int.le_of_lt h.2⟩

theorem sweep_ids_subset (ok : Int → Bool) (l) : ∀ q, ∀ o ∈ (sweep ok q l).queue,
    ∃ x ∈ l, x.id = o.id ∧ x.price = o.price := by
  induction l with
  | nil => intro q; simp [sweep]
  | cons x l ih =>
    intro q o ho
    simp only [sweep] at ho
    split at ho
    · exact ⟨o, ho, rfl, rfl⟩
    · split at ho
      · rcases List.mem_cons.1 ho with rfl | ho
        · exact ⟨x, by simp, rfl, rfl⟩
        · exact ⟨o, by simp [ho], rfl, rfl⟩
      · obtain ⟨y, hy, h⟩ := ih _ o ho
        exact ⟨y, by simp [hy], h⟩

theorem mem_rest {s o q} : ∀ x, x ∈ rest s o q ↔ x = o ∨ x ∈ q := by
  intro x
  induction q with
  | nil => simp [rest]
  | cons y q ih =>
    simp only [rest]; split
    · simp
    · simp only [List.mem_cons, ih]; tauto

theorem find_isSome {id q} : (find id q).isSome = true ↔ ∃ x ∈ q, x.id = id := by
  simp [find, List.find?_isSome]

theorem find_eq_none {id q} : find id q = none ↔ ∀ x ∈ q, x.id ≠ id := by
  simp [find, List.find?_eq_none]

theorem find_mem {id q x} (h : find id q = some x) : x ∈ q ∧ x.id = id :=
  ⟨List.mem_of_find?_eq_some h, by simpa using List.find?_some h⟩

namespace OrderBook
open HalfBook

/-- Submitting a limit order on a book whose own side is `own` and opposite side `opp`. -/
theorem expectAdd_spec (m : Mode) {h : HalfBook} (wf : h.WF) {o : LimitOrder}
    (hside : o.side = h.side) (hpos : 0 < o.qty) (hfit : h.total + o.qty < U64)
    (hfresh : ∀ x ∈ h.queue, x.id ≠ o.id) (hp : InI64 o.price) :
    ∃ h', expectAdd m h o = .ok h' ∧ h'.WF ∧ h'.side = h.side ∧
      h'.queue = rest (TE.bside h.side) ⟨o.id, o.price, o.qty⟩ h.queue := by
  obtain ⟨h', h1, h2, h3, h4, _⟩ := addLimitOrder_spec m wf hside hpos hfit hfresh hp
  exact ⟨h', by simp [expectAdd, h1], h2, h3, h4⟩

/-- If the best opposite price is not acceptable, nothing trades. -/
theorem sweep_no_trade {ok : Int → Bool} {q l} (h : ∀ x, l.head? = some x → ok x.price = false) :
    sweep ok q l = ⟨[], q, l⟩ := by
  cases l with
  | nil => rfl
  | cons x l => simp [sweep, h x rfl]

theorem sweep_trades {ok : Int → Bool} {q l x} (h : l.head? = some x) (hok : ok x.price = true)
    (hq : 0 < q) : (sweep ok q l).fills ≠ [] := by
  cases l with
  | nil => simp at h
  | cons y l =>
    simp at h; subst h
    simp only [sweep, hok, Bool.not_true, Bool.or_false, decide_eq_true_eq]
    rw [if_neg (by omega)]
    split <;> simp

theorem best_head {h : HalfBook} (wf : h.WF) : h.best = headPrice h.side h.queue := by
  rw [wf.best, bestOf_eq wf.levels]; rfl

theorem submit_sell (X Y : List Resting) (o : Resting) : (Book.mk X Y).submit .sell o =
    (⟨if (sweep (acceptable .buy o.price) o.qty Y).rem = 0 then X
        else rest .sell { o with qty := (sweep (acceptable .buy o.price) o.qty Y).rem } X,
      (sweep (acceptable .buy o.price) o.qty Y).queue⟩,
      if (sweep (acceptable .buy o.price) o.qty Y).fills = [] then none
      else some (report (sweep (acceptable .buy o.price) o.qty Y).fills,
        (sweep (acceptable .buy o.price) o.qty Y).rem)) := rfl

theorem submit_buy (X Y : List Resting) (o : Resting) : (Book.mk X Y).submit .buy o =
    (⟨(sweep (acceptable .sell o.price) o.qty X).queue,
      if (sweep (acceptable .sell o.price) o.qty X).rem = 0 then Y
        else rest .buy { o with qty := (sweep (acceptable .sell o.price) o.qty X).rem } Y⟩,
      if (sweep (acceptable .sell o.price) o.qty X).fills = [] then none
      else some (report (sweep (acceptable .sell o.price) o.qty X).fills,
        (sweep (acceptable .sell o.price) o.qty X).rem)) := rfl

theorem processLimit_sell (m : Mode) {b : OrderBook} (wf : b.WF) {o : Resting} (hpos : 0 < o.qty)
    (hfit : volume b.asks.queue + o.qty < U64) (hp : InI64 o.price) (hmin : I64MIN < o.price ∨ b.bids.queue ≠ [])
    (hf1 : ∀ x ∈ b.asks.queue, x.id ≠ o.id) (hf2 : ∀ x ∈ b.bids.queue, x.id ≠ o.id) :
    ∃ b', b.processLimit m ⟨o.price, o.qty, .ask, o.id⟩ = .ok (b', (b.abs.submit .sell o).2) ∧ b'.WF ∧
      b'.abs = (b.abs.submit .sell o).1 := by
  obtain ⟨wa, wb, ha, hb, hd⟩ := wf
  have hbest := best_head wb
  rw [hb] at hbest
  simp only [abs, submit_sell]
  rw [wa.total.symm] at hfit
  by_cases hc : o.price > b.bids.best
  · -- nothing to trade with
    have hsw : sweep (acceptable .buy o.price) o.qty b.bids.queue = ⟨[], o.qty, b.bids.queue⟩ := by
      apply sweep_no_trade
      intro x hx
      rw [hbest, headPrice, hx] at hc
      simp only [gt_iff_lt] at hc
      simp [acceptable]; omega
    obtain ⟨h', h1, h2, h3, h4⟩ := expectAdd_spec m wa (o := ⟨o.price, o.qty, .ask, o.id⟩)
      ha.symm hpos hfit hf1 hp
    refine ⟨{ b with asks := h' }, ?_, ⟨h2, wb, h3.trans ha, hb, ?_⟩, ?_⟩
    · simp only [processLimit, hc, if_true, h1, Res.bind_ok, hsw]
    · intro x hx y hy
      simp only at hx
      rw [h4, mem_rest] at hx
      rcases hx with rfl | hx
      · exact fun h => hf2 y hy h.symm
      · exact hd x hx y hy
    · rw [hsw]
      simp only [Nat.pos_iff_ne_zero.1 hpos, if_false]
      rw [h4, ha]; rfl
  · -- trades
    have hne : b.bids.queue ≠ [] := by
      intro he
      rw [hbest, headPrice, he] at hc
      simp [sentinel] at hc
      rcases hmin with h | h
      · omega
      · exact h he
    obtain ⟨x, xs, hq⟩ := List.exists_cons_of_ne_nil hne
    have hx : b.bids.queue.head? = some x := by rw [hq]; rfl
    have hacc : acceptable (TE.bside b.bids.side) o.price x.price = true := by
      rw [hbest, headPrice, hx] at hc
      rw [hb]; simp [acceptable, TE.bside] at *; omega
    obtain ⟨h', h1, h2, h3, h4, h5⟩ := tradeLimit_spec m wb (o := ⟨o.price, o.qty, .ask, o.id⟩)
      (by rw [hb]; simp) hx hacc
    rw [hb] at h1 h4 hacc
    simp only [TE.bside] at h1 h4 hacc
    have hfills := sweep_trades hx hacc hpos
    have hcons := sweep_conserve (acceptable .buy o.price) b.bids.queue o.qty
    simp only [processLimit, hc, if_false, h1, Res.bind_ok]
    rw [if_neg hfills]
    by_cases hr : (sweep (acceptable .buy o.price) o.qty b.bids.queue).rem = 0
    · refine ⟨{ b with bids := h' }, ?_, ⟨wa, h2, ha, h3.trans hb, ?_⟩, ?_⟩
      · simp [hr]
      · intro x hx y hy
        simp only at hy
        rw [h4] at hy
        obtain ⟨z, hz, he, _⟩ := sweep_ids_subset _ _ _ y hy
        rw [← he]; exact hd x hx z hz
      · simp [hr, h4]
    · obtain ⟨k', k1, k2, k3, k4⟩ := expectAdd_spec m wa
        (o := ⟨o.price, (sweep (acceptable .buy o.price) o.qty b.bids.queue).rem, .ask, o.id⟩)
        ha.symm (by simp; omega) (by simp; omega) hf1 hp
      refine ⟨{ b with bids := h', asks := k' }, ?_, ⟨k2, h2, k3.trans ha, h3.trans hb, ?_⟩, ?_⟩
      · rw [if_pos (by omega), k1]; rfl
      · intro x hx y hy
        simp only at hy hx
        rw [h4] at hy
        obtain ⟨z, hz, he, _⟩ := sweep_ids_subset _ _ _ y hy
        rw [← he]
        rw [k4, mem_rest] at hx
        rcases hx with rfl | hx
        · exact fun h => hf2 z hz h.symm
        · exact hd x hx z hz
      · simp only [hr, if_false, h4]
        rw [k4, ha]; rfl

theorem processLimit_buy (m : Mode) {b : OrderBook} (wf : b.WF) {o : Resting} (hpos : 0 < o.qty)
    (hfit : volume b.bids.queue + o.qty < U64) (hp : InI64 o.price) (hmin : o.price < I64MAX ∨ b.asks.queue ≠ [])
    (hf1 : ∀ x ∈ b.asks.queue, x.id ≠ o.id) (hf2 : ∀ x ∈ b.bids.queue, x.id ≠ o.id) :
    ∃ b', b.processLimit m ⟨o.price, o.qty, .bid, o.id⟩ = .ok (b', (b.abs.submit .buy o).2) ∧ b'.WF ∧
      b'.abs = (b.abs.submit .buy o).1 := by
  obtain ⟨wa, wb, ha, hb, hd⟩ := wf
  have hbest := best_head wa
  rw [ha] at hbest
  simp only [abs, submit_buy]
  rw [wb.total.symm] at hfit
  by_cases hc : o.price < b.asks.best
  · have hsw : sweep (acceptable .sell o.price) o.qty b.asks.queue = ⟨[], o.qty, b.asks.queue⟩ := by
      apply sweep_no_trade
      intro x hx
      rw [hbest, headPrice, hx] at hc
      simp only at hc
      simp [acceptable]; omega
    obtain ⟨h', h1, h2, h3, h4⟩ := expectAdd_spec m wb (o := ⟨o.price, o.qty, .bid, o.id⟩)
      hb.symm hpos hfit hf2 hp
    refine ⟨{ b with bids := h' }, ?_, ⟨wa, h2, ha, h3.trans hb, ?_⟩, ?_⟩
    · simp only [processLimit, hc, if_true, h1, Res.bind_ok, hsw]
    · intro x hx y hy
      simp only at hy
      rw [h4, mem_rest] at hy
      rcases hy with rfl | hy
      · exact hf1 x hx
      · exact hd x hx y hy
    · rw [hsw]
      simp only [Nat.pos_iff_ne_zero.1 hpos, if_false]
      rw [h4, hb]; rfl
  · have hne : b.asks.queue ≠ [] := by
      intro he
      rw [hbest, headPrice, he] at hc
      simp [sentinel] at hc
      rcases hmin with h | h
      · omega
      · exact h he
    obtain ⟨x, xs, hq⟩ := List.exists_cons_of_ne_nil hne
    have hx : b.asks.queue.head? = some x := by rw [hq]; rfl
    have hacc : acceptable (TE.bside b.asks.side) o.price x.price = true := by
      rw [hbest, headPrice, hx] at hc
      rw [ha]; simp [acceptable, TE.bside] at *; omega
    obtain ⟨h', h1, h2, h3, h4, h5⟩ := tradeLimit_spec m wa (o := ⟨o.price, o.qty, .bid, o.id⟩)
      (by rw [ha]; simp) hx hacc
    rw [ha] at h1 h4 hacc
    simp only [TE.bside] at h1 h4 hacc
    have hfills := sweep_trades hx hacc hpos
    have hcons := sweep_conserve (acceptable .sell o.price) b.asks.queue o.qty
    simp only [processLimit, hc, if_false, h1, Res.bind_ok]
    rw [if_neg hfills]
    by_cases hr : (sweep (acceptable .sell o.price) o.qty b.asks.queue).rem = 0
    · refine ⟨{ b with asks := h' }, ?_, ⟨h2, wb, h3.trans ha, hb, ?_⟩, ?_⟩
      · simp [hr]
      · intro x hx y hy
        simp only at hx
        rw [h4] at hx
        obtain ⟨z, hz, he, _⟩ := sweep_ids_subset _ _ _ x hx
        rw [← he]; exact hd z hz y hy
      · simp [hr, h4]
    · obtain ⟨k', k1, k2, k3, k4⟩ := expectAdd_spec m wb
        (o := ⟨o.price, (sweep (acceptable .sell o.price) o.qty b.asks.queue).rem, .bid, o.id⟩)
        hb.symm (by simp; omega) (by simp; omega) hf2 hp
      refine ⟨{ b with asks := h', bids := k' }, ?_, ⟨h2, k2, h3.trans ha, k3.trans hb, ?_⟩, ?_⟩
      · rw [if_pos (by omega), k1]; rfl
      · intro x hx y hy
        simp only at hy hx
        rw [h4] at hx
        obtain ⟨z, hz, he, _⟩ := sweep_ids_subset _ _ _ x hx
        rw [← he]
        rw [k4, mem_rest] at hy
        rcases hy with rfl | hy
        · exact hf1 z hz
        · exact hd z hz y hy
      · simp only [hr, if_false, h4]
        rw [k4, hb]; rfl

theorem locate_sell {b : Book} {id x} (h : find id b.sells = some x) :
    b.locate id = some (.sell, x) := by simp [Book.locate, h]
theorem locate_buy {b : Book} {id x} (h1 : find id b.sells = none) (h : find id b.buys = some x) :
    b.locate id = some (.buy, x) := by simp [Book.locate, h, h1]
theorem locate_none {b : Book} {id} (h1 : find id b.sells = none) (h : find id b.buys = none) :
    b.locate id = none := by simp [Book.locate, h, h1]

theorem cancel_none {id q} (h : find id q = none) : Spec.cancel id q = q :=
  cancel_self (find_eq_none.1 h)
theorem setQty_none {id n q} (h : find id q = none) : setQty id n q = q :=
  setQty_self (find_eq_none.1 h)

theorem find_disj {b : OrderBook} (wf : b.WF) {id x} (h : find id b.asks.queue = some x) :
    find id b.bids.queue = none := by
  obtain ⟨h1, h2⟩ := find_mem h
  rw [find_eq_none]; intro y hy he
  exact wf.disj x h1 y hy (by rw [h2, he])

/-- Replacing one side by a queue with the same or fewer ids keeps the invariant. -/
theorem wf_asks {b : OrderBook} (wf : b.WF) {h : HalfBook} (hw : h.WF) (hs : h.side = .ask)
    (hsub : ∀ x ∈ h.queue, ∀ y ∈ b.bids.queue, x.id ≠ y.id) : WF { b with asks := h } :=
  ⟨hw, wf.bids, hs, wf.bside, hsub⟩
theorem wf_bids {b : OrderBook} (wf : b.WF) {h : HalfBook} (hw : h.WF) (hs : h.side = .bid)
    (hsub : ∀ x ∈ b.asks.queue, ∀ y ∈ h.queue, x.id ≠ y.id) : WF { b with bids := h } :=
  ⟨wf.asks, hw, wf.aside, hs, hsub⟩

theorem cancelOrder_spec (m : Mode) {b : OrderBook} (wf : b.WF) (id : Nat) :
    ∃ b' r, b.cancelOrder m id = .ok (b', r) ∧ b'.WF ∧ b'.abs = b.abs.cancel id ∧
      r.isSome = (b.abs.locate id).isSome ∧ b'.inst = b.inst ∧ b'.ctr = b.ctr := by
  cases ha : find id b.asks.queue with
  | some x =>
    obtain ⟨hx, he⟩ := find_mem ha
    subst he
    have hb := find_disj wf ha
    obtain ⟨h', h1, h2, h3, h4, _⟩ := cancelOrder_some m wf.asks hx
    refine ⟨{ b with asks := h' }, some (), ?_, wf_asks wf h2 (h3.trans wf.aside) ?_, ?_, ?_, rfl, rfl⟩
    · simp [cancelOrder, h1]
    · intro y hy z hz
      rw [h4] at hy
      exact wf.disj y (List.mem_filter.1 hy).1 z hz
    · simp [abs, Book.cancel, h4, cancel_none hb]
    · rw [locate_sell (b := b.abs) ha]; rfl
  | none =>
    have h0 := cancelOrder_none m wf.asks (find_eq_none.1 ha)
    cases hb : find id b.bids.queue with
    | some x =>
      obtain ⟨hx, he⟩ := find_mem hb
      subst he
      obtain ⟨h', h1, h2, h3, h4, _⟩ := cancelOrder_some m wf.bids hx
      refine ⟨{ b with bids := h' }, some (), ?_, wf_bids wf h2 (h3.trans wf.bside) ?_, ?_, ?_, rfl, rfl⟩
      · simp [cancelOrder, h0, h1]
      · intro y hy z hz
        rw [h4] at hz
        exact wf.disj y hy z (List.mem_filter.1 hz).1
      · simp [abs, Book.cancel, h4, cancel_none ha]
      · rw [locate_buy (b := b.abs) ha hb]; rfl
    | none =>
      refine ⟨b, none, ?_, wf, ?_, ?_, rfl, rfl⟩
      · simp [cancelOrder, h0, cancelOrder_none m wf.bids (find_eq_none.1 hb)]
      · simp [abs, Book.cancel, cancel_none ha, cancel_none hb]
      · rw [locate_none (b := b.abs) ha hb]; rfl

theorem mem_setQty {id n q y} (h : y ∈ setQty id n q) : ∃ x ∈ q, x.id = y.id ∧ x.price = y.price := by
  simp only [setQty, List.mem_map] at h
  obtain ⟨x, hx, rfl⟩ := h
  exact ⟨x, hx, by split <;> rfl, by split <;> rfl⟩

theorem changeQuantity_spec (m : Mode) {b : OrderBook} (wf : b.WF) (id n : Nat) (hn : 0 < n)
    (hf1 : volume b.asks.queue + n < U64) (hf2 : volume b.bids.queue + n < U64) :
    ∃ b' r, b.changeQuantity m id n = .ok (b', r) ∧ b'.WF ∧
      b'.abs = ⟨setQty id n b.asks.queue, setQty id n b.bids.queue⟩ ∧
      r.isSome = (b.abs.locate id).isSome ∧ b'.inst = b.inst ∧ b'.ctr = b.ctr := by
  rw [← wf.asks.total] at hf1
  rw [← wf.bids.total] at hf2
  cases ha : find id b.asks.queue with
  | some x =>
    obtain ⟨hx, he⟩ := find_mem ha
    subst he
    have hb := find_disj wf ha
    obtain ⟨h', h1, h2, h3, h4, _⟩ := changeQuantity_some m wf.asks hx hn hf1
    refine ⟨{ b with asks := h' }, some (), ?_, wf_asks wf h2 (h3.trans wf.aside) ?_, ?_, ?_, rfl, rfl⟩
    · simp [changeQuantity, h1]
    · intro y hy z hz
      rw [h4] at hy
      obtain ⟨w, hw, he, _⟩ := mem_setQty hy
      rw [← he]; exact wf.disj w hw z hz
    · simp [abs, h4, setQty_none hb]
    · rw [locate_sell (b := b.abs) ha]; rfl
  | none =>
    have h0 := changeQuantity_none m wf.asks (n := n) (find_eq_none.1 ha)
    cases hb : find id b.bids.queue with
    | some x =>
      obtain ⟨hx, he⟩ := find_mem hb
      subst he
      obtain ⟨h', h1, h2, h3, h4, _⟩ := changeQuantity_some m wf.bids hx hn hf2
      refine ⟨{ b with bids := h' }, some (), ?_, wf_bids wf h2 (h3.trans wf.bside) ?_, ?_, ?_, rfl, rfl⟩
      · simp [changeQuantity, h0, h1]
      · intro y hy z hz
        rw [h4] at hz
        obtain ⟨w, hw, he, _⟩ := mem_setQty hz
        rw [← he]; exact wf.disj y hy w hw
      · simp [abs, h4, setQty_none ha]
      · rw [locate_buy (b := b.abs) ha hb]; rfl
    | none =>
      refine ⟨b, none, ?_, wf, ?_, ?_, rfl, rfl⟩
      · simp [changeQuantity, h0, changeQuantity_none m wf.bids (find_eq_none.1 hb)]
      · simp [abs, setQty_none ha, setQty_none hb]
      · rw [locate_none (b := b.abs) ha hb]; rfl

theorem changePrice_spec (m : Mode) {b : OrderBook} (wf : b.WF) (id : Nat) (p : Int) (hp : InI64 p) :
    ∃ b' r, b.changePrice m id p = .ok (b', r) ∧ b'.WF ∧
      (b'.abs, Out.found r.isSome) = b.abs.step (.changePrice id p) := by
  cases ha : find id b.asks.queue with
  | some x =>
    obtain ⟨hx, he⟩ := find_mem ha
    subst he
    have hb := find_disj wf ha
    obtain ⟨h', h1, h2, h3, h4, _⟩ := changePrice_some m wf.asks hx hp
    refine ⟨{ b with asks := h' }, some (), ?_, wf_asks wf h2 (h3.trans wf.aside) ?_, ?_⟩
    · simp [changePrice, h1]
    · intro y hy z hz
      rw [h4, mem_rest] at hy
      rcases hy with rfl | hy
      · exact wf.disj x hx z hz
      · exact wf.disj y (List.mem_filter.1 hy).1 z hz
    · simp only [Book.step, locate_sell (b := b.abs) ha]
      simp [abs, h4, wf.aside, TE.bside, Book.ofSides, Book.own, Book.opposite]
  | none =>
    have h0 := changePrice_none m wf.asks (p := p) (find_eq_none.1 ha)
    cases hb : find id b.bids.queue with
    | some x =>
      obtain ⟨hx, he⟩ := find_mem hb
      subst he
      obtain ⟨h', h1, h2, h3, h4, _⟩ := changePrice_some m wf.bids hx hp
      refine ⟨{ b with bids := h' }, some (), ?_, wf_bids wf h2 (h3.trans wf.bside) ?_, ?_⟩
      · simp [changePrice, h0, h1]
      · intro y hy z hz
        rw [h4, mem_rest] at hz
        rcases hz with rfl | hz
        · exact wf.disj y hy x hx
        · exact wf.disj y hy z (List.mem_filter.1 hz).1
      · simp only [Book.step, locate_buy (b := b.abs) ha hb]
        simp [abs, h4, wf.bside, TE.bside, Book.ofSides, Book.own, Book.opposite]
    | none =>
      refine ⟨b, none, ?_, wf, ?_⟩
      · simp [changePrice, h0, changePrice_none m wf.bids (find_eq_none.1 hb)]
      · simp only [Book.step, locate_none (b := b.abs) ha hb]; rfl

theorem volume_cancel_le (id q) : volume (Spec.cancel id q) ≤ volume q := by
  induction q with
  | nil => simp [Spec.cancel]
  | cons x q ih =>
    simp only [Spec.cancel, List.filter_cons] at *
    split <;> simp only [volume_cons] <;> omega

theorem modifyOrder_spec (m : Mode) {b : OrderBook} (wf : b.WF) (id n : Nat) (p : Int)
    (hp : RealPrice p) (hn : 0 < n)
    (hf1 : volume b.asks.queue + n < U64) (hf2 : volume b.bids.queue + n < U64) :
    ∃ b' r, b.modifyOrder m ⟨id, p, n⟩ = .ok (b', r) ∧ b'.WF ∧
      (b'.abs, Out.trade r) = b.abs.step (.modify id p n) := by
  cases ha : find id b.asks.queue with
  | some x =>
    obtain ⟨hx, he⟩ := find_mem ha
    subst he
    have hb := find_disj wf ha
    have hc : b.asks.cache x.id = some x.price := (wf.asks.cache _ _).2 ⟨x, hx, rfl, rfl⟩
    by_cases hxp : x.price = p
    · obtain ⟨h', h1, h2, h3, h4, _⟩ := changeQuantity_some m wf.asks hx hn (by rw [wf.asks.total]; exact hf1)
      refine ⟨{ b with asks := h' }, none, ?_, wf_asks wf h2 (h3.trans wf.aside) ?_, ?_⟩
      · simp [modifyOrder, hc, hxp, h1]
      · intro y hy z hz
        rw [h4] at hy
        obtain ⟨w, hw, he, _⟩ := mem_setQty hy
        rw [← he]; exact wf.disj w hw z hz
      · simp only [Book.step, locate_sell (b := b.abs) ha, hxp, if_true]
        simp [abs, h4, setQty_none hb]
    · obtain ⟨h', h1, h2, h3, h4, _⟩ := cancelOrder_some m wf.asks hx
      have wf' : WF { b with asks := h' } := wf_asks wf h2 (h3.trans wf.aside) (by
        intro y hy z hz
        rw [h4] at hy
        exact wf.disj y (List.mem_filter.1 hy).1 z hz)
      have hv := volume_cancel_le x.id b.asks.queue
      obtain ⟨b', k1, k2, k3⟩ := processLimit_sell m wf' (o := ⟨x.id, p, n⟩) hn
        (by simp only [h4]; omega) hp.inI64 (Or.inl hp.1)
        (by intro y hy; simp only [h4] at hy; simpa using (List.mem_filter.1 hy).2)
        (find_eq_none.1 hb)
      refine ⟨b', _, (?_ : _ = Except.ok (b', ((OrderBook.abs { b with asks := h' }).submit .sell ⟨x.id, p, n⟩).2)), k2, ?_⟩
      · simp only [modifyOrder, hc, hxp, if_false, h1, Res.bind_ok]; exact k1
      · simp only [Book.step, locate_sell (b := b.abs) ha, hxp, if_false, k3]
        simp only [abs, h4, Book.cancel, cancel_none hb]
  | none =>
    have hca := (cache_none wf.asks).2 (find_eq_none.1 ha)
    cases hb : find id b.bids.queue with
    | some x =>
      obtain ⟨hx, he⟩ := find_mem hb
      subst he
      have hc : b.bids.cache x.id = some x.price := (wf.bids.cache _ _).2 ⟨x, hx, rfl, rfl⟩
      by_cases hxp : x.price = p
      · obtain ⟨h', h1, h2, h3, h4, _⟩ := changeQuantity_some m wf.bids hx hn (by rw [wf.bids.total]; exact hf2)
        refine ⟨{ b with bids := h' }, none, ?_, wf_bids wf h2 (h3.trans wf.bside) ?_, ?_⟩
        · simp [modifyOrder, hca, hc, hxp, h1]
        · intro y hy z hz
          rw [h4] at hz
          obtain ⟨w, hw, he, _⟩ := mem_setQty hz
          rw [← he]; exact wf.disj y hy w hw
        · simp only [Book.step, locate_buy (b := b.abs) ha hb, hxp, if_true]
          simp [abs, h4, setQty_none ha]
      · obtain ⟨h', h1, h2, h3, h4, _⟩ := cancelOrder_some m wf.bids hx
        have wf' : WF { b with bids := h' } := wf_bids wf h2 (h3.trans wf.bside) (by
          intro y hy z hz
          rw [h4] at hz
          exact wf.disj y hy z (List.mem_filter.1 hz).1)
        have hv := volume_cancel_le x.id b.bids.queue
        obtain ⟨b', k1, k2, k3⟩ := processLimit_buy m wf' (o := ⟨x.id, p, n⟩) hn
          (by simp only [h4]; omega) hp.inI64 (Or.inl hp.2)
          (find_eq_none.1 ha)
          (by intro y hy; simp only [h4] at hy; simpa using (List.mem_filter.1 hy).2)
        refine ⟨b', _, (?_ : _ = Except.ok (b', ((OrderBook.abs { b with bids := h' }).submit .buy ⟨x.id, p, n⟩).2)), k2, ?_⟩
        · simp only [modifyOrder, hca, hc, hxp, if_false, h1, Res.bind_ok]; exact k1
        · simp only [Book.step, locate_buy (b := b.abs) ha hb, hxp, if_false, k3]
          simp only [abs, h4, Book.cancel, cancel_none ha]
    | none =>
      have hcb := (cache_none wf.bids).2 (find_eq_none.1 hb)
      refine ⟨b, none, ?_, wf, ?_⟩
      · simp [modifyOrder, hca, hcb]
      · simp only [Book.step, locate_none (b := b.abs) ha hb]

theorem removeAt_ids {p q l y} (h : y ∈ removeAt p q l) : ∃ x ∈ l, x.id = y.id ∧ x.price = y.price := by
  have tn : ∀ (l : List Resting) q, ∀ y ∈ takeNewest q l, ∃ x ∈ l, x.id = y.id ∧ x.price = y.price := by
    intro l
    induction l with
    | nil => intro q y hy; simp [takeNewest] at hy
    | cons x l ih =>
      intro q y hy
      simp only [takeNewest] at hy
      split at hy
      · rcases List.mem_cons.1 hy with rfl | hy
        · exact ⟨x, by simp, rfl, rfl⟩
        · exact ⟨y, by simp [hy], rfl, rfl⟩
      · obtain ⟨z, hz, he⟩ := ih _ y hy; exact ⟨z, by simp [hz], he⟩
  simp only [removeAt, List.mem_append, List.mem_reverse] at h
  rcases h with (h | h) | h
  · exact ⟨y, List.takeWhile_subset _ h, rfl, rfl⟩
  · obtain ⟨z, hz, he⟩ := tn _ _ y h
    rw [List.mem_reverse] at hz
    exact ⟨z, (List.mem_filter.1 hz).1, he⟩
  · exact ⟨y, List.dropWhile_subset _ (List.mem_filter.1 h).1, rfl, rfl⟩

/-- One valid command: the model returns (no fault), keeps the invariant and does what the
specification says, in both overflow modes. -/
theorem step_refines (m : Mode) {b : OrderBook} (wf : b.WF) (c : Cmd) (hv : Valid b.abs c) :
    ∃ b' out, b.step m c = .ok (b', out) ∧ b'.WF ∧ (b'.abs, out) = b.abs.step c := by
  cases c with
  | add s o =>
    obtain ⟨hq, hfit, hp, hid⟩ := hv
    have hf1 : ∀ x ∈ b.asks.queue, x.id ≠ o.id := fun x hx he => hid ⟨x, by simp [abs, hx], he⟩
    have hf2 : ∀ x ∈ b.bids.queue, x.id ≠ o.id := fun x hx he => hid ⟨x, by simp [abs, hx], he⟩
    cases s with
    | sell =>
      obtain ⟨h', h1, h2, h3, h4, _⟩ := addLimitOrder_spec m wf.asks (o := ⟨o.price, o.qty, .ask, o.id⟩)
        wf.aside.symm hq (by rw [wf.asks.total]; exact hfit) hf1 hp.inI64
      refine ⟨{ b with asks := h' }, .done, ?_, wf_asks wf h2 (h3.trans wf.aside) ?_, ?_⟩
      · simp [step, addLimitOrder, mside, h1]
      · intro x hx y hy
        rw [h4, mem_rest] at hx
        rcases hx with rfl | hx
        · exact fun h => hf2 y hy h.symm
        · exact wf.disj x hx y hy
      · simp [Book.step, abs, h4, wf.aside, TE.bside, Book.ofSides, Book.own, Book.opposite]
    | buy =>
      obtain ⟨h', h1, h2, h3, h4, _⟩ := addLimitOrder_spec m wf.bids (o := ⟨o.price, o.qty, .bid, o.id⟩)
        wf.bside.symm hq (by rw [wf.bids.total]; exact hfit) hf2 hp.inI64
      refine ⟨{ b with bids := h' }, .done, ?_, wf_bids wf h2 (h3.trans wf.bside) ?_, ?_⟩
      · simp [step, addLimitOrder, mside, h1]
      · intro x hx y hy
        rw [h4, mem_rest] at hy
        rcases hy with rfl | hy
        · exact hf1 x hx
        · exact wf.disj x hx y hy
      · simp [Book.step, abs, h4, wf.bside, TE.bside, Book.ofSides, Book.own, Book.opposite]
  | limit s o =>
    obtain ⟨hq, hfit, hp, hid⟩ := hv
    have hf1 : ∀ x ∈ b.asks.queue, x.id ≠ o.id := fun x hx he => hid ⟨x, by simp [abs, hx], he⟩
    have hf2 : ∀ x ∈ b.bids.queue, x.id ≠ o.id := fun x hx he => hid ⟨x, by simp [abs, hx], he⟩
    cases s with
    | sell =>
      obtain ⟨b', h1, h2, h3⟩ := processLimit_sell m wf hq hfit hp.inI64 (Or.inl hp.1) hf1 hf2
      exact ⟨b', _, by simp only [step, mside, h1, Res.bind_ok]; rfl, h2, by simp only [Book.step, h3]⟩
    | buy =>
      obtain ⟨b', h1, h2, h3⟩ := processLimit_buy m wf hq hfit hp.inI64 (Or.inl hp.2) hf1 hf2
      exact ⟨b', _, by simp only [step, mside, h1, Res.bind_ok]; rfl, h2, by simp only [Book.step, h3]⟩
  | market s q =>
    have hs : s = .buy := hv
    subst hs
    by_cases hne : b.asks.queue = []
    · have hle : b.asks.levels = [] := (queueOf_isEmpty wf.asks.levels).1 hne
      refine ⟨b, .trade none, ?_, wf, ?_⟩
      · simp [step, processMarket, mside, tradeMarket, hle]
      · simp [Book.step, Book.market, Book.opposite, Book.own, abs, hne, Book.ofSides, sweep]
    · obtain ⟨h', h1, h2, h3, h4, _⟩ := tradeMarket_ask_spec m wf.asks wf.aside (o := ⟨q, .bid, 0⟩) rfl hne
      refine ⟨{ b with asks := h' }, .trade (some (report (sweep (fun _ => true) q b.asks.queue).fills,
        (sweep (fun _ => true) q b.asks.queue).rem)), ?_, wf_asks wf h2 (h3.trans wf.aside) ?_, ?_⟩
      · simp only [step, processMarket, mside, h1, Res.bind_ok]
      · intro x hx y hy
        rw [h4] at hx
        obtain ⟨z, hz, he, _⟩ := sweep_ids_subset _ _ _ x hx
        rw [← he]; exact wf.disj z hz y hy
      · simp [Book.step, Book.market, Book.opposite, Book.own, abs, hne, Book.ofSides, h4]
  | cancel id =>
    obtain ⟨b', r, h1, h2, h3, h4, _⟩ := cancelOrder_spec m wf id
    exact ⟨b', _, by simp only [step, h1, Res.bind_ok]; rfl, h2, by simp only [Book.step, h3, h4]⟩
  | changeQty id q =>
    obtain ⟨hq, hf1, hf2⟩ := hv
    obtain ⟨b', r, h1, h2, h3, h4, _⟩ := changeQuantity_spec m wf id q hq hf1 hf2
    exact ⟨b', _, by simp only [step, h1, Res.bind_ok]; rfl, h2, by simp only [Book.step, h3, h4]; rfl⟩
  | changePrice id p =>
    obtain ⟨b', r, h1, h2, h3⟩ := changePrice_spec m wf id p (RealPrice.inI64 hv)
    exact ⟨b', _, by simp only [step, h1, Res.bind_ok], h2, h3⟩
  | modify id p q =>
    obtain ⟨hq, hf1, hf2, hp⟩ := hv
    obtain ⟨b', r, h1, h2, h3⟩ := modifyOrder_spec m wf id q p hp hq hf1 hf2
    exact ⟨b', _, by simp only [step, h1, Res.bind_ok], h2, h3⟩
  | remove s p q =>
    cases s with
    | sell =>
      obtain ⟨h', h1, h2, h3, h4, _⟩ := removeOrder_spec m wf.asks ⟨p, q, .ask⟩ wf.aside.symm
      refine ⟨{ b with asks := h' }, .left (q - volumeAt p b.asks.queue), ?_,
        wf_asks wf h2 (h3.trans wf.aside) ?_, ?_⟩
      · simp only [step, removeOrder, mside, h1, Res.bind_ok]
      · intro x hx y hy
        rw [h4] at hx
        obtain ⟨z, hz, he, _⟩ := removeAt_ids hx
        rw [← he]; exact wf.disj z hz y hy
      · simp [Book.step, Book.opposite, Book.own, abs, Book.ofSides, h4]
    | buy =>
      obtain ⟨h', h1, h2, h3, h4, _⟩ := removeOrder_spec m wf.bids ⟨p, q, .bid⟩ wf.bside.symm
      refine ⟨{ b with bids := h' }, .left (q - volumeAt p b.bids.queue), ?_,
        wf_bids wf h2 (h3.trans wf.bside) ?_, ?_⟩
      · simp only [step, removeOrder, mside, h1, Res.bind_ok]
      · intro x hx y hy
        rw [h4] at hy
        obtain ⟨z, hz, he, _⟩ := removeAt_ids hy
        rw [← he]; exact wf.disj x hx z hz
      · simp [Book.step, Book.opposite, Book.own, abs, Book.ofSides, h4]

theorem wf_init (inst : Nat) : (init inst).WF :=
  ⟨HalfBook.wf_init _, HalfBook.wf_init _, rfl, rfl, by simp [init, HalfBook.init, queueOf]⟩

end OrderBook
end Verif.TE

import Verif.Props.BookCore
/-!
# C08–C18: market orders, cancel, lookup, modification, removal
-/
set_option autoImplicit false
namespace Verif.Props
open Verif Verif.TE Verif.Spec

/-! ## C08 -/

/-- C08 for market buys (full claim): executes `min q total`, from the best price, FIFO inside a price;
the remaining book, the report and the remainder are those of the specification, and all cached data is
right afterwards. Missing for the full C08: market sells, for which the claim is false — see
`C08_market_sell_release` and `C08_market_sell_debug`. -/
theorem C08_market_buy_partial (m : Mode) (inst : Nat) (b : OrderBook) (h : Reachable AnyCmd m inst b)
    (q id : Nat) (hne : b.abs.sells ≠ []) :
    ∃ b', b.processMarket m ⟨q, .bid, id⟩ = .ok (b', (b.abs.market .buy q).2) ∧
      b'.abs = (b.abs.market .buy q).1 ∧
      (∃ hist, (b.abs.market .buy q).2 = some (hist, q - min q b.asks.aggregate) ∧
        (hist.map (·.2)).sum = min q b.asks.aggregate) ∧
      b'.bids = b.bids ∧ TotalsRight m b'.asks ∧ IsBest b'.asks b'.asks.best := by
  have wf := h.wf
  obtain ⟨h', h1, h2, h3, h4, _⟩ := HalfBook.tradeMarket_ask_spec m wf.asks wf.aside (o := ⟨q, .bid, id⟩) rfl hne
  have hm : (b.abs.market .buy q).2 = some (report (sweep (fun _ => true) q b.asks.queue).fills,
      (sweep (fun _ => true) q b.asks.queue).rem) := by
    show (if b.abs.sells = [] then none else _) = _
    rw [if_neg hne]; rfl
  refine ⟨{ b with asks := h' }, ?_, ?_, ?_, rfl, totals_of_wf m h2, best_of_wf h2⟩
  · rw [hm]; simp only [OrderBook.processMarket, h1, Res.bind_ok]
  · simp only [OrderBook.abs, Book.market, Book.ofSides, Book.own, Book.opposite, h4]
  · have hc := sweep_conserve (fun _ => true) b.asks.queue q
    have hv := sweep_volume (fun _ => true) b.asks.queue q
    have hall : (sweep (fun _ => true) q b.asks.queue).rem = q - volume b.asks.queue := by
      have : ∀ (l : List Resting) (q : Nat), (sweep (fun _ => true) q l).rem = q - volume l := by
        intro l
        induction l with
        | nil => intro q; simp [sweep]
        | cons x l ih =>
          intro q
          simp only [sweep]
          split
          · rename_i hc; simp at hc; simp [hc]
          · split
            · simp; omega
            · rw [ih]; simp; omega
      exact this _ _
    rw [hm]
    have ht : b.asks.aggregate = volume b.asks.queue := wf.asks.total
    rw [ht]
    refine ⟨_, by rw [hall]; congr 2; omega, ?_⟩
    rw [report_sum]; omega

example (m : Mode) : ∃ b, Reachable AnyCmd m 7 b ∧ b.abs.sells ≠ [] := by
  obtain ⟨b, h, e⟩ := demo_any m; exact ⟨b, h, by rw [e]; decide⟩
example : (demoBook.market .buy 11).2 = some ([(101, 9), (103, 2)], 0) := by decide

/-- C08, market sells in a release build: executions, remainder, resting orders, side total, best price
and lookups are those of the specification (the per-level totals are not, see the next theorem). -/
theorem C08_market_sell_release (inst : Nat) (b : OrderBook) (h : Reachable AnyCmd .wrapping inst b)
    (q id : Nat) (hne : b.abs.buys ≠ []) :
    ∃ b', b.processMarket .wrapping ⟨q, .ask, id⟩ = .ok (b', (b.abs.market .sell q).2) ∧
      b'.abs = (b.abs.market .sell q).1 ∧ b'.asks = b.asks ∧
      b'.bids.aggregate = volume b'.abs.buys ∧
      b'.bids.best = (match bestPrice b'.abs.buys with | some p => p | none => -(2 ^ 63)) ∧
      (∀ i p, b'.bids.getPrice i = some p ↔ ∃ x ∈ b'.abs.buys, x.id = i ∧ x.price = p) := by
  have wf := h.wf
  obtain ⟨h', h1, h2, h3, h4, h5, h6⟩ := HalfBook.marketSell_wrapping wf.bids wf.bside (o := ⟨q, .ask, id⟩) rfl hne
  have hm : (b.abs.market .sell q).2 = some (report (sweep (fun _ => true) q b.bids.queue).fills,
      (sweep (fun _ => true) q b.bids.queue).rem) := by
    show (if b.abs.buys = [] then none else _) = _
    rw [if_neg hne]; rfl
  have hv := sweep_volume (fun _ => true) b.bids.queue q
  refine ⟨{ b with bids := h' }, ?_, ?_, rfl, ?_, ?_, h6⟩
  · rw [hm]; simp only [OrderBook.processMarket, h1, Res.bind_ok]
  · simp only [OrderBook.abs, Book.market, Book.ofSides, Book.own, Book.opposite, h3]
  · show h'.total = volume h'.queue
    rw [h4, h3, wf.bids.total]; simp only; omega
  · show h'.best = _
    rw [h5, wf.bside]
    show headPrice .bid h'.queue = _
    simp only [headPrice, bestPrice, OrderBook.abs, HalfBook.sentinel, I64MIN]
    cases h'.queue.head? <;> rfl

/-- C08, market sells in a debug build: the call panics as soon as the order takes more than half of the
best bid level; otherwise it returns, but the quantity reported for that level is short by the traded
quantity. -/
theorem C08_market_sell_debug (inst : Nat) (b : OrderBook) (h : Reachable AnyCmd .checked inst b)
    (q id : Nat) (hq : 0 < q) (x : Resting) (hx : b.abs.buys.head? = some x) :
    (volumeAt x.price b.abs.buys < 2 * q → b.processMarket .checked ⟨q, .ask, id⟩ = .error .overflow) ∧
    (2 * q ≤ volumeAt x.price b.abs.buys →
      ∃ b', b.processMarket .checked ⟨q, .ask, id⟩ = .ok (b', some ([(x.price, q)], 0)) ∧
        b'.bids.aggregateAt x.price = volumeAt x.price b.abs.buys - 2 * q) := by
  have wf := h.wf
  obtain ⟨h1, h2⟩ := HalfBook.marketSell_checked wf.bids wf.bside (id := id) hq hx
  constructor
  · intro hc
    simp only [OrderBook.processMarket, h1 hc, Res.bind_error]
  · intro hc
    obtain ⟨h', e1, e2, _⟩ := h2 hc
    exact ⟨{ b with bids := h' }, by simp only [OrderBook.processMarket, e1, Res.bind_ok], e2⟩

example : ∃ b, Reachable AnyCmd .checked 7 b ∧ b.abs.buys.head? = some ⟨5, 99, 6⟩ ∧
    volumeAt 99 b.abs.buys < 2 * 4 := by
  obtain ⟨b, h, e⟩ := demo_any .checked; exact ⟨b, h, by rw [e]; decide, by rw [e]; decide⟩

/-! ## C09 -/

/-- C09. -/
theorem C09_market_empty_side (m : Mode) (inst : Nat) (b : OrderBook) (h : Reachable AnyCmd m inst b)
    (s : BookSide) (q id : Nat) (he : b.abs.opposite s = []) :
    b.processMarket m ⟨q, mside s, id⟩ = .ok (b, none) := by
  have wf := h.wf
  cases s
  · have hl : b.bids.levels = [] := (queueOf_isEmpty (s := b.bids.side) wf.bids.levels).1 he
    simp [OrderBook.processMarket, mside, HalfBook.tradeMarket, hl]
  · have hl : b.asks.levels = [] := (queueOf_isEmpty (s := b.asks.side) wf.asks.levels).1 he
    simp [OrderBook.processMarket, mside, HalfBook.tradeMarket, hl]

/-- A book with sellers only. -/
theorem sells_only (m : Mode) : ∃ b, Reachable AnyCmd m 7 b ∧ b.abs = ⟨[⟨1, 101, 10⟩], []⟩ := by
  obtain ⟨b, outs, _, hr, he⟩ := reachable_of_history (P := AnyCmd) m 7 (cs := [.limit .sell ⟨1, 101, 10⟩])
    ⟨by intro c hc; simp at hc; subst hc; simp [CmdOK, RealPrice, I64MIN, I64MAX], by decide, by decide⟩
    (fun _ _ => trivial)
  have : b.abs = (Book.run ⟨[], []⟩ [.limit .sell ⟨1, 101, 10⟩]).1 := by rw [← he]
  exact ⟨b, hr, by rw [this]; decide⟩

example (m : Mode) : ∃ b, Reachable AnyCmd m 7 b ∧ b.abs.opposite .sell = [] ∧ b.abs ≠ ⟨[], []⟩ := by
  obtain ⟨b, h, e⟩ := sells_only m; exact ⟨b, h, by rw [e]; rfl, by rw [e]; decide⟩

/-! ## C10 -/

theorem locate_isSome {b : Book} {id : Nat} : (b.locate id).isSome = true ↔ b.HasId id := by
  unfold Book.locate Book.HasId
  cases h1 : find id b.sells with
  | some x =>
    obtain ⟨h2, h3⟩ := find_mem h1
    simp only [Option.isSome_some, true_iff]
    exact ⟨x, by simp [h2], h3⟩
  | none =>
    rw [find_eq_none] at h1
    simp only [Option.isSome_map, find_isSome, List.mem_append]
    constructor
    · rintro ⟨x, hx, he⟩; exact ⟨x, Or.inr hx, he⟩
    · rintro ⟨x, hx | hx, he⟩
      · exact absurd he (h1 x hx)
      · exact ⟨x, hx, he⟩

/-- C10. Cancelling succeeds iff the id rests in the book; exactly that order disappears and all others
keep their place; if nothing rests under the id the book is unchanged (as a state, not just observably);
a second cancel fails. -/
theorem C10_cancel (m : Mode) (inst : Nat) (b : OrderBook) (h : Reachable AnyCmd m inst b) (id : Nat) :
    ∃ b' r, b.cancelOrder m id = .ok (b', r) ∧ (r = some () ↔ b.abs.HasId id) ∧
      b'.abs.sells = b.abs.sells.filter (·.id ≠ id) ∧ b'.abs.buys = b.abs.buys.filter (·.id ≠ id) ∧
      (¬ b.abs.HasId id → b' = b) ∧
      b'.cancelOrder m id = .ok (b', none) ∧ TotalsRight m b'.asks ∧ TotalsRight m b'.bids := by
  have wf := h.wf
  have hnone : ∀ {b : OrderBook}, b.WF → ¬ b.abs.HasId id → b.cancelOrder m id = .ok (b, none) := by
    intro b wf hn
    have h1 : ∀ x ∈ b.asks.queue, x.id ≠ id := fun x hx he => hn ⟨x, by simp [OrderBook.abs, hx], he⟩
    have h2 : ∀ x ∈ b.bids.queue, x.id ≠ id := fun x hx he => hn ⟨x, by simp [OrderBook.abs, hx], he⟩
    simp [OrderBook.cancelOrder, HalfBook.cancelOrder_none m wf.asks h1, HalfBook.cancelOrder_none m wf.bids h2]
  obtain ⟨b', r, h1, w, h2, h3, _⟩ := OrderBook.cancelOrder_spec m wf id
  refine ⟨b', r, h1, ?_, by rw [h2]; rfl, by rw [h2]; rfl, ?_, ?_, totals_of_wf m w.asks, totals_of_wf m w.bids⟩
  · rw [← locate_isSome, ← h3]; cases r <;> simp
  · intro hn
    have := hnone wf hn
    rw [h1] at this
    simp only [Except.ok.injEq, Prod.mk.injEq] at this
    exact this.1
  · apply hnone w
    rintro ⟨x, hx, he⟩
    rw [h2] at hx
    simp only [Book.cancel, Spec.cancel, List.mem_append, List.mem_filter] at hx
    rcases hx with ⟨_, hx⟩ | ⟨_, hx⟩ <;> simp [he] at hx

example (m : Mode) : ∃ b, Reachable AnyCmd m 7 b ∧ b.abs.HasId 2 ∧ ¬ b.abs.HasId 20 := by
  obtain ⟨b, h, e⟩ := demo_any m
  exact ⟨b, h, e ▸ ⟨⟨2, 101, 4⟩, by decide, rfl⟩, e ▸ demo_valid.2.2.2⟩

/-! ## C11 -/

/-- C11, one side. -/
theorem getOrder_iff {h : HalfBook} (wf : h.WF) (id : Nat) :
    ∃ r, h.getOrder id = .ok r ∧
      (∀ o, r = some o ↔ (⟨id, o.price, o.qty⟩ ∈ h.queue ∧ o.side = h.side ∧ o.id = id)) ∧
      (r = none ↔ ∀ x ∈ h.queue, x.id ≠ id) := by
  refine ⟨_, HalfBook.getOrder_spec wf id, ?_, ?_⟩
  · intro o
    obtain ⟨p, q, s, i⟩ := o
    simp only [Option.map_eq_some_iff, LimitOrder.mk.injEq]
    constructor
    · rintro ⟨x, hx, rfl, rfl, rfl, rfl⟩
      obtain ⟨h1, h2⟩ := find_mem hx
      exact ⟨by rw [← h2]; exact h1, rfl, h2⟩
    · rintro ⟨hx, rfl, rfl⟩
      refine ⟨⟨i, p, q⟩, ?_, rfl, rfl, rfl, rfl⟩
      cases hf : find i h.queue with
      | none => exact absurd rfl (find_eq_none.1 hf _ hx)
      | some y =>
        obtain ⟨h1, h2⟩ := find_mem hf
        rw [nodup_id_inj wf.nodup hx h1 (by simp [h2])]
  · simp only [Option.map_eq_none_iff]
    exact find_eq_none

/-- C11. -/
theorem C11_lookup (m : Mode) (inst : Nat) (b : OrderBook) (h : Reachable AnyCmd m inst b) (id : Nat) :
    (∃ r, b.asks.getOrder id = .ok r ∧
      (∀ o, r = some o ↔ (⟨id, o.price, o.qty⟩ ∈ b.abs.sells ∧ o.side = .ask ∧ o.id = id)) ∧
      (r = none ↔ ∀ x ∈ b.abs.sells, x.id ≠ id)) ∧
    (∃ r, b.bids.getOrder id = .ok r ∧
      (∀ o, r = some o ↔ (⟨id, o.price, o.qty⟩ ∈ b.abs.buys ∧ o.side = .bid ∧ o.id = id)) ∧
      (r = none ↔ ∀ x ∈ b.abs.buys, x.id ≠ id)) := by
  have wf := h.wf
  have ha := getOrder_iff wf.asks id
  have hb := getOrder_iff wf.bids id
  rw [wf.aside] at ha
  rw [wf.bside] at hb
  exact ⟨ha, hb⟩

example (m : Mode) : ∃ b, Reachable AnyCmd m 7 b ∧ b.asks.getOrder 2 = .ok (some ⟨101, 4, .ask, 2⟩) := by
  obtain ⟨b, h, e⟩ := demo_any m
  refine ⟨b, h, ?_⟩
  obtain ⟨⟨r, h1, h2, _⟩, _⟩ := C11_lookup m 7 b h 2
  rw [h1, (h2 ⟨101, 4, .ask, 2⟩).2 ⟨by rw [e]; decide, rfl, rfl⟩]

/-! ## C12 -/

/-- Replace the quantity of one order, positions untouched. -/
def withQty (id q : Nat) (l : List Resting) : List Resting :=
  l.map (fun x => if x.id = id then ⟨x.id, x.price, q⟩ else x)

theorem setQty_withQty (id q : Nat) (l : List Resting) : setQty id q l = withQty id q l := rfl

/-- C12. `change_quantity`, and `modify_order` at the price the order already has, change only that
order's quantity. -/
theorem C12_quantity_change (m : Mode) (inst : Nat) (b : OrderBook) (h : Reachable AnyCmd m inst b)
    (id q : Nat) (hq : 0 < q) (hf1 : volume b.abs.sells + q < U64) (hf2 : volume b.abs.buys + q < U64)
    (hid : b.abs.HasId id) :
    (∃ b', b.changeQuantity m id q = .ok (b', some ()) ∧
      b'.abs.sells = withQty id q b.abs.sells ∧ b'.abs.buys = withQty id q b.abs.buys ∧
      TotalsRight m b'.asks ∧ TotalsRight m b'.bids) ∧
    (∀ p, (∃ x ∈ b.abs.sells ++ b.abs.buys, x.id = id ∧ x.price = p) → RealPrice p →
      ∃ b', b.modifyOrder m ⟨id, p, q⟩ = .ok (b', none) ∧
        b'.abs.sells = withQty id q b.abs.sells ∧ b'.abs.buys = withQty id q b.abs.buys ∧
        TotalsRight m b'.asks ∧ TotalsRight m b'.bids) := by
  have wf := h.wf
  constructor
  · obtain ⟨b', r, h1, w, h2, h3, _⟩ := OrderBook.changeQuantity_spec m wf id q hq hf1 hf2
    have hr : r = some () := by
      rw [locate_isSome.2 hid] at h3
      cases r with
      | none => simp at h3
      | some u => rfl
    subst hr
    exact ⟨b', h1, by rw [h2]; rfl, by rw [h2]; rfl, totals_of_wf m w.asks, totals_of_wf m w.bids⟩
  · rintro p ⟨x, hx, hxi, hxp⟩ hp
    obtain ⟨b', r, h1, w, h2⟩ := OrderBook.modifyOrder_spec m wf id q p hp hq hf1 hf2
    have hl : ∃ s y, b.abs.locate id = some (s, y) ∧ y.price = p := by
      cases hlo : b.abs.locate id with
      | none => have := locate_isSome.2 hid; simp [hlo] at this
      | some v =>
        obtain ⟨s, y⟩ := v
        refine ⟨s, y, rfl, ?_⟩
        obtain ⟨h3, h4⟩ := locate_mem hlo
        have h5 : y ∈ b.abs.sells ++ b.abs.buys := by
          cases s <;> simp only [Book.own] at h3 <;> simp [h3]
        rw [← hxp, nodup_id_inj wf.nodup h5 hx (by rw [h4, hxi])]
    obtain ⟨s, y, hlo, hyp⟩ := hl
    simp only [Book.step, hlo, hyp, if_true, Prod.mk.injEq, Out.trade.injEq] at h2
    exact ⟨b', by rw [h1, h2.2], by rw [h2.1]; rfl, by rw [h2.1]; rfl, totals_of_wf m w.asks, totals_of_wf m w.bids⟩

example (m : Mode) : ∃ b, Reachable AnyCmd m 7 b ∧ b.abs.HasId 1 ∧ volume b.abs.sells + 9 < U64 ∧
    volume b.abs.buys + 9 < U64 := by
  obtain ⟨b, h, e⟩ := demo_any m
  exact ⟨b, h, e ▸ ⟨⟨1, 101, 5⟩, by decide, rfl⟩, by rw [e]; decide, by rw [e]; decide⟩

/-! ## C13 -/

/-- C13. `modify_order` to a different price = `cancel_order` followed by `process_limit_order` of the
same id on the same side: same final state and same result. -/
theorem C13_reprice (m : Mode) (inst : Nat) (b : OrderBook) (h : Reachable AnyCmd m inst b)
    (s : BookSide) (x : Resting) (hx : x ∈ b.abs.own s) (p : Int) (q : Nat) (hpx : p ≠ x.price) :
    ∃ b1, b.cancelOrder m x.id = .ok (b1, some ()) ∧
      b.modifyOrder m ⟨x.id, p, q⟩ = b1.processLimit m (incoming s ⟨x.id, p, q⟩) := by
  have wf := h.wf
  cases s
  · obtain ⟨h', h1, _⟩ := HalfBook.cancelOrder_some m wf.asks hx
    have hc : b.asks.cache x.id = some x.price := (wf.asks.cache _ _).2 ⟨x, hx, rfl, rfl⟩
    refine ⟨{ b with asks := h' }, by simp [OrderBook.cancelOrder, h1], ?_⟩
    simp only [OrderBook.modifyOrder, hc, if_neg (Ne.symm hpx), h1, Res.bind_ok]
    rfl
  · obtain ⟨h', h1, _⟩ := HalfBook.cancelOrder_some m wf.bids hx
    have hc : b.bids.cache x.id = some x.price := (wf.bids.cache _ _).2 ⟨x, hx, rfl, rfl⟩
    have hn : ∀ y ∈ b.asks.queue, y.id ≠ x.id := fun y hy => wf.disj y hy x hx
    have hc' : b.asks.cache x.id = none := (HalfBook.cache_none wf.asks).2 hn
    refine ⟨{ b with bids := h' }, ?_, ?_⟩
    · simp [OrderBook.cancelOrder, HalfBook.cancelOrder_none m wf.asks hn, h1]
    · simp only [OrderBook.modifyOrder, hc, hc', if_neg (Ne.symm hpx), h1, Res.bind_ok]
      rfl

example (m : Mode) : ∃ b, Reachable AnyCmd m 7 b ∧ (⟨5, 99, 6⟩ : Resting) ∈ b.abs.own .buy := by
  obtain ⟨b, h, e⟩ := demo_any m; exact ⟨b, h, by rw [e]; decide⟩

/-- Modifying an id that does not rest anywhere does nothing. -/
theorem C13_unknown (m : Mode) (inst : Nat) (b : OrderBook) (h : Reachable AnyCmd m inst b) (id : Nat)
    (hn : ¬ b.abs.HasId id) (p : Int) (q : Nat) : b.modifyOrder m ⟨id, p, q⟩ = .ok (b, none) := by
  have wf := h.wf
  have h1 : b.asks.cache id = none := (HalfBook.cache_none wf.asks).2
    (fun x hx he => hn ⟨x, by simp [OrderBook.abs, hx], he⟩)
  have h2 : b.bids.cache id = none := (HalfBook.cache_none wf.bids).2
    (fun x hx he => hn ⟨x, by simp [OrderBook.abs, hx], he⟩)
  simp [OrderBook.modifyOrder, h1, h2]

/-! ## C14 -/

theorem cancel_rest (s : BookSide) (o : Resting) (l : List Resting) (h : ∀ x ∈ l, x.id ≠ o.id) :
    Spec.cancel o.id (rest s o l) = l := by
  induction l with
  | nil => simp [rest, Spec.cancel]
  | cons y l ih =>
    have hy := h y (by simp)
    have ih' := ih (fun x hx => h x (by simp [hx]))
    have hself : Spec.cancel o.id l = l := cancel_self (fun x hx => h x (by simp [hx]))
    simp only [rest]
    split
    · simp only [Spec.cancel, List.filter_cons] at hself ⊢
      simp only [ne_eq, not_true, decide_false, hy, not_false_eq_true, decide_true, if_true]
      simpa using fun a ha => h a (by simp [ha])
    · simp only [Spec.cancel, List.filter_cons] at ih' ⊢
      simp only [ne_eq, hy, not_false_eq_true, decide_true, if_true]
      rw [ih']

/-- C14. Adding a resting order under an unused id and cancelling it again restores the very same book
(every field: levels, queues, totals, best prices, id index). -/
theorem C14_add_cancel_identity (m : Mode) (inst : Nat) (b : OrderBook) (h : Reachable AnyCmd m inst b)
    (s : BookSide) (o : Resting) (hv : Valid b.abs (.add s o)) :
    ∃ b1, b.addLimitOrder m (incoming s o) = .ok (b1, .ok ()) ∧ b1.cancelOrder m o.id = .ok (b, some ()) := by
  have wf := h.wf
  obtain ⟨hq, hfit, hp, hid⟩ := hv
  have hf1 : ∀ x ∈ b.asks.queue, x.id ≠ o.id := fun x hx he => hid ⟨x, by simp [OrderBook.abs, hx], he⟩
  have hf2 : ∀ x ∈ b.bids.queue, x.id ≠ o.id := fun x hx he => hid ⟨x, by simp [OrderBook.abs, hx], he⟩
  cases s
  · obtain ⟨h', h1, w1, s1, q1, t1⟩ := HalfBook.addLimitOrder_spec m wf.asks
      (o := ⟨o.price, o.qty, .ask, o.id⟩) wf.aside.symm hq (by rw [wf.asks.total]; exact hfit) hf1 hp.inI64
    have hx : o ∈ h'.queue := by rw [q1]; exact (mem_rest _).2 (Or.inl rfl)
    obtain ⟨h'', h2, w2, s2, q2, _⟩ := HalfBook.cancelOrder_some m w1 hx
    have : h'' = b.asks := HalfBook.WF.ext w2 wf.asks (s2.trans s1) (by
      rw [q2, q1]; exact cancel_rest _ o _ hf1)
    subst this
    refine ⟨{ b with asks := h' }, by simp [OrderBook.addLimitOrder, incoming, mside, h1], ?_⟩
    simp [OrderBook.cancelOrder, h2]
  · obtain ⟨h', h1, w1, s1, q1, t1⟩ := HalfBook.addLimitOrder_spec m wf.bids
      (o := ⟨o.price, o.qty, .bid, o.id⟩) wf.bside.symm hq (by rw [wf.bids.total]; exact hfit) hf2 hp.inI64
    have hx : o ∈ h'.queue := by rw [q1]; exact (mem_rest _).2 (Or.inl rfl)
    obtain ⟨h'', h2, w2, s2, q2, _⟩ := HalfBook.cancelOrder_some m w1 hx
    have : h'' = b.bids := HalfBook.WF.ext w2 wf.bids (s2.trans s1) (by
      rw [q2, q1]; exact cancel_rest _ o _ hf2)
    subst this
    refine ⟨{ b with bids := h' }, by simp [OrderBook.addLimitOrder, incoming, mside, h1], ?_⟩
    simp [OrderBook.cancelOrder, HalfBook.cancelOrder_none m wf.asks hf1, h2]

example (m : Mode) : ∃ b, Reachable AnyCmd m 7 b ∧ Valid b.abs (.add .sell ⟨20, 101, 8⟩) := by
  obtain ⟨b, h, e⟩ := demo_any m
  exact ⟨b, h, by rw [e]; exact ⟨by decide, by decide, by simp [RealPrice, I64MIN, I64MAX], demo_valid.2.2.2⟩⟩

/-! ## C15 -/

/-- C15. `remove_order` always terminates without panic, removes from the newest orders of that price,
returns what could not be removed, and touches no other price. -/
theorem C15_remove_from_back (m : Mode) (inst : Nat) (b : OrderBook) (h : Reachable AnyCmd m inst b)
    (s : BookSide) (p : Int) (q : Nat) :
    ∃ b', b.removeOrder m ⟨p, q, mside s⟩ = .ok (b', some (q - volumeAt p (b.abs.own s))) ∧
      b'.abs.own s = removeAt p q (b.abs.own s) ∧ b'.abs.opposite s = b.abs.opposite s ∧
      volumeAt p (b'.abs.own s) = volumeAt p (b.abs.own s) - q ∧
      (b'.abs.own s).filter (·.price ≠ p) = (b.abs.own s).filter (·.price ≠ p) ∧
      TotalsRight m b'.asks ∧ TotalsRight m b'.bids ∧ IsBest b'.asks b'.asks.best ∧ IsBest b'.bids b'.bids.best := by
  have wf := h.wf
  have htn : ∀ (l : List Resting) (q : Nat), volume (takeNewest q l) = volume l - q := by
    intro l
    induction l with
    | nil => intro q; simp [takeNewest]
    | cons x l ih =>
      intro q
      simp only [takeNewest]
      split
      · simp; omega
      · rw [ih]; simp; omega
  have htp : ∀ (l : List Resting) (q : Nat), (∀ x ∈ l, x.price = p) → ∀ x ∈ takeNewest q l, x.price = p := by
    intro l
    induction l with
    | nil => intro q _ x hx; simp [takeNewest] at hx
    | cons y l ih =>
      intro q hl x hx
      simp only [takeNewest] at hx
      split at hx
      · rcases List.mem_cons.1 hx with rfl | hx
        · exact hl y (by simp)
        · exact hl x (by simp [hx])
      · exact ih _ (fun x hx => hl x (by simp [hx])) x hx
  have hfil : ∀ l : List Resting, (∀ x ∈ l, x.price = p) → l.filter (·.price ≠ p) = [] ∧ l.filter (·.price = p) = l := by
    intro l hl
    constructor
    · rw [List.filter_eq_nil_iff]; intro x hx; simp [hl x hx]
    · rw [List.filter_eq_self]; intro x hx; simp [hl x hx]
  have hsplit : ∀ l : List Resting,
      l.filter (·.price ≠ p) = l.takeWhile (·.price ≠ p) ++ (l.dropWhile (·.price ≠ p)).filter (·.price ≠ p) := by
    intro l
    induction l with
    | nil => rfl
    | cons y l ih =>
      by_cases hy : y.price = p
      · simp [List.filter_cons, List.takeWhile_cons, List.dropWhile_cons, hy]
      · simp only [List.filter_cons, List.takeWhile_cons, List.dropWhile_cons, ne_eq, hy, not_false_eq_true,
          decide_true, if_true, List.cons_append]
        rw [← ih]
  have htw : ∀ l : List Resting, ∀ x ∈ l.takeWhile (·.price ≠ p), x.price ≠ p := by
    intro l x hx
    have := List.mem_takeWhile_imp hx
    simpa using this
  have hspec : ∀ l : List Resting, volumeAt p (removeAt p q l) = volumeAt p l - q ∧
      (removeAt p q l).filter (·.price ≠ p) = l.filter (·.price ≠ p) := by
    intro l
    have hat : ∀ x ∈ (l.filter (·.price = p)).reverse, x.price = p := by
      intro x hx; simp at hx; exact hx.2
    have hr : ∀ x ∈ (takeNewest q (l.filter (·.price = p)).reverse).reverse, x.price = p := by
      intro x hx; exact htp _ _ hat x (by simpa using hx)
    have hA : (l.takeWhile (·.price ≠ p)).filter (·.price = p) = [] := by
      rw [List.filter_eq_nil_iff]; intro x hx; simpa using htw l x hx
    have hC : ((l.dropWhile (·.price ≠ p)).filter (·.price ≠ p)).filter (·.price = p) = [] := by
      rw [List.filter_eq_nil_iff]; intro x hx
      have := (List.mem_filter.1 hx).2
      simpa using this
    constructor
    · simp only [removeAt, volumeAt, List.filter_append]
      rw [hA, hC, (hfil _ hr).2]
      simp only [List.nil_append, List.append_nil, volume_reverse]
      rw [htn]; simp
    · simp only [removeAt, List.filter_append]
      rw [(hfil _ hr).1, hsplit l]
      have : (l.takeWhile (·.price ≠ p)).filter (·.price ≠ p) = l.takeWhile (·.price ≠ p) := by
        rw [List.filter_eq_self]; intro x hx; simpa using htw l x hx
      rw [this]
      simp [List.filter_filter]
  cases s
  · obtain ⟨h', h1, w1, s1, q1, t1⟩ := HalfBook.removeOrder_spec m wf.asks ⟨p, q, .ask⟩ wf.aside.symm
    refine ⟨{ b with asks := h' }, by simp only [OrderBook.removeOrder, mside, h1, Res.bind_ok]; rfl, q1, rfl, ?_, ?_,
      totals_of_wf m w1, totals_of_wf m wf.bids, best_of_wf w1, best_of_wf wf.bids⟩
    · show volumeAt p h'.queue = _
      rw [q1]; exact (hspec _).1
    · show h'.queue.filter _ = _
      rw [q1]; exact (hspec _).2
  · obtain ⟨h', h1, w1, s1, q1, t1⟩ := HalfBook.removeOrder_spec m wf.bids ⟨p, q, .bid⟩ wf.bside.symm
    refine ⟨{ b with bids := h' }, by simp only [OrderBook.removeOrder, mside, h1, Res.bind_ok]; rfl, q1, rfl, ?_, ?_,
      totals_of_wf m wf.asks, totals_of_wf m w1, best_of_wf wf.asks, best_of_wf w1⟩
    · show volumeAt p h'.queue = _
      rw [q1]; exact (hspec _).1
    · show h'.queue.filter _ = _
      rw [q1]; exact (hspec _).2

example : removeAt 101 6 demoBook.sells = [⟨1, 101, 3⟩, ⟨3, 103, 5⟩] := by decide

/-! ## C16 -/

/-- C16. -/
theorem C16_change_price (m : Mode) (inst : Nat) (b : OrderBook) (h : Reachable AnyCmd m inst b)
    (s : BookSide) (x : Resting) (hx : x ∈ b.abs.own s) (p : Int) (hp : RealPrice p) :
    ∃ b', b.changePrice m x.id p = .ok (b', some ()) ∧
      b'.abs.own s = rest s ⟨x.id, p, x.qty⟩ ((b.abs.own s).filter (·.id ≠ x.id)) ∧
      b'.abs.opposite s = b.abs.opposite s ∧
      TotalsRight m b'.asks ∧ TotalsRight m b'.bids ∧ IsBest b'.asks b'.asks.best ∧ IsBest b'.bids b'.bids.best := by
  have wf := h.wf
  cases s
  · obtain ⟨h', h1, w1, s1, q1, t1⟩ := HalfBook.changePrice_some m wf.asks hx hp.inI64
    refine ⟨{ b with asks := h' }, by simp [OrderBook.changePrice, h1], ?_, rfl,
      totals_of_wf m w1, totals_of_wf m wf.bids, best_of_wf w1, best_of_wf wf.bids⟩
    show h'.queue = _
    rw [q1, wf.aside]; rfl
  · have hn : ∀ y ∈ b.asks.queue, y.id ≠ x.id := fun y hy => wf.disj y hy x hx
    obtain ⟨h', h1, w1, s1, q1, t1⟩ := HalfBook.changePrice_some m wf.bids hx hp.inI64
    refine ⟨{ b with bids := h' }, by simp [OrderBook.changePrice, HalfBook.changePrice_none m wf.asks hn, h1], ?_, rfl,
      totals_of_wf m wf.asks, totals_of_wf m w1, best_of_wf wf.asks, best_of_wf w1⟩
    show h'.queue = _
    rw [q1, wf.bside]; rfl

example (m : Mode) : ∃ b, Reachable AnyCmd m 7 b ∧ (⟨1, 101, 5⟩ : Resting) ∈ b.abs.own .sell ∧ RealPrice 103 := by
  obtain ⟨b, h, e⟩ := demo_any m
  exact ⟨b, h, by rw [e]; decide, by simp [RealPrice, I64MIN, I64MAX]⟩
example : rest .sell ⟨1, 103, 5⟩ (demoBook.sells.filter (·.id ≠ 1)) =
    [⟨2, 101, 4⟩, ⟨3, 103, 5⟩, ⟨1, 103, 5⟩] := by decide

/-! ## C17 -/

/-- C17. Both overflow modes: an admissible history runs to the end without any panic and its outputs are
those of the specification; and from any reachable book every valid command returns. -/
theorem C17_no_panic (m : Mode) (inst : Nat) :
    (∀ cs, Admissible cs → ∃ b outs, (OrderBook.init inst).run m cs = .ok (b, outs) ∧
      (b.abs, outs) = Book.run ⟨[], []⟩ cs) ∧
    (∀ b, Reachable AnyCmd m inst b → ∀ c, Valid b.abs c → ∃ b' out, b.step m c = .ok (b', out) ∧
      (b'.abs, out) = b.abs.step c) := by
  constructor
  · intro cs ha
    obtain ⟨b, outs, h1, _, h2⟩ := OrderBook.run_init m inst ha
    exact ⟨b, outs, h1, h2⟩
  · intro b h c hv
    obtain ⟨b', out, h1, _, h2⟩ := OrderBook.step_refines m h.wf c hv
    exact ⟨b', out, h1, h2⟩

example : Admissible demo := demo_admissible

/-! ## C18 -/

/-- C18. Commands on one side leave the other side's state identical (every field). -/
theorem C18_sides_independent (m : Mode) (inst : Nat) (b : OrderBook) (h : Reachable AnyCmd m inst b) :
    (∀ o b' r, o.side = .ask → b.addLimitOrder m o = .ok (b', r) → b'.bids = b.bids) ∧
    (∀ o b' r, o.side = .bid → b.addLimitOrder m o = .ok (b', r) → b'.asks = b.asks) ∧
    (∀ o b' r, o.side = .ask → b.removeOrder m o = .ok (b', r) → b'.bids = b.bids) ∧
    (∀ o b' r, o.side = .bid → b.removeOrder m o = .ok (b', r) → b'.asks = b.asks) ∧
    (∀ x ∈ b.abs.sells, ∀ b' r, b.cancelOrder m x.id = .ok (b', r) → b'.bids = b.bids) ∧
    (∀ x ∈ b.abs.buys, ∀ b' r, b.cancelOrder m x.id = .ok (b', r) → b'.asks = b.asks) ∧
    (∀ x ∈ b.abs.sells, ∀ q b' r, 0 < q → b.asks.aggregate + q < U64 →
      b.changeQuantity m x.id q = .ok (b', r) → b'.bids = b.bids) ∧
    (∀ x ∈ b.abs.buys, ∀ q b' r, 0 < q → b.bids.aggregate + q < U64 →
      b.changeQuantity m x.id q = .ok (b', r) → b'.asks = b.asks) ∧
    (∀ o b', o.side = .ask → b.processLimit m o = .ok (b', none) → b'.bids = b.bids) ∧
    (∀ o b', o.side = .bid → b.processLimit m o = .ok (b', none) → b'.asks = b.asks) := by
  have wf := h.wf
  have hdis : ∀ x ∈ b.abs.buys, ∀ y ∈ b.asks.queue, y.id ≠ x.id := fun x hx y hy => wf.disj y hy x hx
  have htl : ∀ (hb hb' : HalfBook) (o : LimitOrder), hb.tradeLimit m o = .ok (hb', none) → hb' = hb := by
    intro hb hb' o he
    unfold HalfBook.tradeLimit at he
    split at he
    · simp only [Except.ok.injEq, Prod.mk.injEq] at he; exact he.1.symm
    · dsimp only at he
      split at he
      · cases hl : HalfBook.askLimitLoop m o.price hb.levels ⟨o.qty, [], [], [], hb.total⟩ with
        | error f => rw [hl] at he; simp at he
        | ok v => rw [hl] at he; simp at he
      · cases hl : HalfBook.bidLimitLoop m o.price hb.levels.reverse ⟨o.qty, [], [], [], hb.total⟩ with
        | error f => rw [hl] at he; simp at he
        | ok v => rw [hl] at he; simp at he
  refine ⟨?_, ?_, ?_, ?_, ?_, ?_, ?_, ?_, ?_, ?_⟩
  · intro o b' r hs he
    simp only [OrderBook.addLimitOrder, hs] at he
    cases hl : b.asks.addLimitOrder m o with
    | error f => rw [hl] at he; simp at he
    | ok v =>
      rw [hl] at he; simp only [Res.bind_ok, Except.ok.injEq, Prod.mk.injEq] at he
      rw [← he.1]
  · intro o b' r hs he
    simp only [OrderBook.addLimitOrder, hs] at he
    cases hl : b.bids.addLimitOrder m o with
    | error f => rw [hl] at he; simp at he
    | ok v =>
      rw [hl] at he; simp only [Res.bind_ok, Except.ok.injEq, Prod.mk.injEq] at he
      rw [← he.1]
  · intro o b' r hs he
    simp only [OrderBook.removeOrder, hs] at he
    cases hl : b.asks.removeOrder m o with
    | error f => rw [hl] at he; simp at he
    | ok v =>
      rw [hl] at he; simp only [Res.bind_ok, Except.ok.injEq, Prod.mk.injEq] at he
      rw [← he.1]
  · intro o b' r hs he
    simp only [OrderBook.removeOrder, hs] at he
    cases hl : b.bids.removeOrder m o with
    | error f => rw [hl] at he; simp at he
    | ok v =>
      rw [hl] at he; simp only [Res.bind_ok, Except.ok.injEq, Prod.mk.injEq] at he
      rw [← he.1]
  · intro x hx b' r he
    obtain ⟨h', h1, _⟩ := HalfBook.cancelOrder_some m wf.asks hx
    simp [OrderBook.cancelOrder, h1] at he
    rw [← he.1]
  · intro x hx b' r he
    obtain ⟨h', h1, _⟩ := HalfBook.cancelOrder_some m wf.bids hx
    simp [OrderBook.cancelOrder, HalfBook.cancelOrder_none m wf.asks (hdis x hx), h1] at he
    rw [← he.1]
  · intro x hx q b' r hq hf he
    obtain ⟨h', h1, _⟩ := HalfBook.changeQuantity_some m wf.asks hx hq hf
    simp [OrderBook.changeQuantity, h1] at he
    rw [← he.1]
  · intro x hx q b' r hq hf he
    obtain ⟨h', h1, _⟩ := HalfBook.changeQuantity_some m wf.bids hx hq hf
    simp [OrderBook.changeQuantity, HalfBook.changeQuantity_none m wf.asks (hdis x hx), h1] at he
    rw [← he.1]
  · intro o b' hs he
    simp only [OrderBook.processLimit, hs] at he
    split at he
    · cases hl : OrderBook.expectAdd m b.asks o with
      | error f => rw [hl] at he; simp at he
      | ok v => rw [hl] at he; simp at he; rw [← he]
    · cases hl : b.bids.tradeLimit m o with
      | error f => rw [hl] at he; simp at he
      | ok v =>
        obtain ⟨hb', r⟩ := v
        rw [hl] at he
        simp only [Res.bind_ok] at he
        cases r with
        | none => simp at he; rw [← he]; exact htl _ _ _ hl
        | some hr =>
          obtain ⟨hist, rem⟩ := hr
          simp only at he
          split at he
          · cases hl2 : OrderBook.expectAdd m b.asks { o with qty := rem } with
            | error f => rw [hs] at hl2; rw [hl2] at he; simp at he
            | ok v => rw [hs] at hl2; rw [hl2] at he; simp at he
          · simp at he
  · intro o b' hs he
    simp only [OrderBook.processLimit, hs] at he
    split at he
    · cases hl : OrderBook.expectAdd m b.bids o with
      | error f => rw [hl] at he; simp at he
      | ok v => rw [hl] at he; simp at he; rw [← he]
    · cases hl : b.asks.tradeLimit m o with
      | error f => rw [hl] at he; simp at he
      | ok v =>
        obtain ⟨hb', r⟩ := v
        rw [hl] at he
        simp only [Res.bind_ok] at he
        cases r with
        | none => simp at he; rw [← he]; exact htl _ _ _ hl
        | some hr =>
          obtain ⟨hist, rem⟩ := hr
          simp only at he
          split at he
          · cases hl2 : OrderBook.expectAdd m b.bids { o with qty := rem } with
            | error f => rw [hs] at hl2; rw [hl2] at he; simp at he
            | ok v => rw [hs] at hl2; rw [hl2] at he; simp at he
          · simp at he

example (m : Mode) : ∃ b, Reachable AnyCmd m 7 b ∧ (⟨1, 101, 5⟩ : Resting) ∈ b.abs.sells ∧
    (⟨5, 99, 6⟩ : Resting) ∈ b.abs.buys := by
  obtain ⟨b, h, e⟩ := demo_any m; exact ⟨b, h, by rw [e]; decide, by rw [e]; decide⟩

end Verif.Props

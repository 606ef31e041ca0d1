import Verif.Props.BookReach
/-!
# C01–C07: levels, totals, best price, matching
-/
set_option autoImplicit false
namespace Verif.Props
open Verif Verif.TE Verif.Spec

/-! ## C01 -/

theorem fillQ_shape (os : List (Nat × Nat)) : ∀ q, ∃ filled part rest,
    os = filled ++ part ++ rest ∧ (Level.fillQ os q).2.2 = filled.map (·.1) ∧
    ((part = [] ∧ (Level.fillQ os q).1 = rest ∧ (filled.map (·.2)).sum = min q (os.map (·.2)).sum) ∨
     (∃ id a r, part = [(id, a)] ∧ 0 < r ∧ r < a ∧ (Level.fillQ os q).1 = (id, a - r) :: rest ∧
        (filled.map (·.2)).sum + r = q)) := by
  induction os with
  | nil => intro q; exact ⟨[], [], [], rfl, rfl, Or.inl ⟨rfl, rfl, by simp⟩⟩
  | cons o os ih =>
    intro q
    obtain ⟨id, a⟩ := o
    by_cases hq : q = 0
    · subst hq
      exact ⟨[], [], (id, a) :: os, rfl, by simp [Level.fillQ], Or.inl ⟨rfl, by simp [Level.fillQ], by simp⟩⟩
    · by_cases ha : a > q
      · refine ⟨[], [(id, a)], os, rfl, by simp [Level.fillQ, hq, ha], Or.inr ⟨id, a, q, rfl, by omega, ha, ?_, by simp⟩⟩
        simp [Level.fillQ, hq, ha]
      · obtain ⟨f, p, r, h1, h2, h3⟩ := ih (q - a)
        refine ⟨(id, a) :: f, p, r, by simp [h1], by simp [Level.fillQ, hq, ha, h2], ?_⟩
        rcases h3 with ⟨hp, he, hs⟩ | ⟨i, b, r', hp, h0, hb, he, hs⟩
        · refine Or.inl ⟨hp, by simp [Level.fillQ, hq, ha, he], ?_⟩
          simp [hs]; omega
        · refine Or.inr ⟨i, b, r', hp, h0, hb, by simp [Level.fillQ, hq, ha, he], ?_⟩
          simp; omega

/-- C01. Trading `q` against a level whose cached total is right: the queue splits into a fully filled
prefix (whose ids are reported), at most one partially filled order, and an untouched suffix. -/
theorem C01_level_trade_is_fifo (m : Mode) (l : Level) (q : Nat) (h : l.total = (l.orders.map (·.2)).sum) :
    ∃ filled part rest l', l.orders = filled ++ part ++ rest ∧
      l.trade m q = .ok (l', filled.map (·.1), q - min q l.total) ∧
      l'.price = l.price ∧ l'.total = (l'.orders.map (·.2)).sum ∧ l'.total = l.total - min q l.total ∧
      ((part = [] ∧ l'.orders = rest ∧ (filled.map (·.2)).sum = min q l.total) ∨
       (∃ id a r, part = [(id, a)] ∧ 0 < r ∧ r < a ∧ l'.orders = (id, a - r) :: rest ∧
          (filled.map (·.2)).sum + r = q)) := by
  obtain ⟨f, p, r, h1, h2, h3⟩ := fillQ_shape l.orders q
  refine ⟨f, p, r, { l with orders := (Level.fillQ l.orders q).1, total := sumQ (Level.fillQ l.orders q).1 },
    h1, ?_, rfl, rfl, ?_, ?_⟩
  · rw [Level.trade_eq m l q h, h2, Level.fillQ_rem]
    have : l.total = sumQ l.orders := h
    simp; omega
  · have : l.total = sumQ l.orders := h
    have := Level.fillQ_sum l.orders q
    simp only; omega
  · rw [h]; exact h3

example : (Level.mk 100 [(1, 3), (2, 4), (3, 5)] 12).total =
    ((Level.mk 100 [(1, 3), (2, 4), (3, 5)] 12).orders.map (·.2)).sum := by decide
example : (Level.mk 100 [(1, 3), (2, 4), (3, 5)] 12).trade .checked 5 =
    .ok (⟨100, [(2, 2), (3, 5)], 7⟩, [1], 0) := by decide

/-! ## C02 -/

/-- What "totals are right" means for one side. -/
def TotalsRight (m : Mode) (h : HalfBook) : Prop :=
  (∀ e ∈ h.levels, e.2.total = (e.2.orders.map (·.2)).sum) ∧
  h.aggregate = (h.levels.map (·.2.total)).sum ∧
  h.checkValidity m = .ok true

theorem checkValidity_fold (m : Mode) (ls : List (Int × Level)) : ∀ acc : Nat,
    acc + (ls.map (·.2.total)).sum < U64 →
    ls.foldlM (fun acc e => addU m acc e.2.total) acc = .ok (acc + (ls.map (·.2.total)).sum) := by
  induction ls with
  | nil => intro acc _; simp
  | cons e ls ih =>
    intro acc h
    simp only [List.map_cons, List.sum_cons] at h
    simp only [List.foldlM_cons, addU_ok (show acc + e.2.total < U64 by omega), Res.bind_ok,
      List.map_cons, List.sum_cons]
    rw [ih _ (by omega)]
    congr 1; omega

theorem totals_of_wf (m : Mode) {h : HalfBook} (wf : h.WF) : TotalsRight m h := by
  have h1 : ∀ e ∈ h.levels, e.2.total = (e.2.orders.map (·.2)).sum := fun e he => (wf.levels e he).total
  have h2 : h.total = (h.levels.map (·.2.total)).sum := by
    rw [wf.total, HalfBook.queue, volume_queueOf, volume_flat h1]
  refine ⟨h1, h2, ?_⟩
  unfold HalfBook.checkValidity
  rw [checkValidity_fold m _ 0 (by rw [← h2]; simpa using wf.bound)]
  simp [← h2]

/-- C02. -/
theorem C02_totals (m : Mode) (inst : Nat) (b : OrderBook) (h : Reachable AnyCmd m inst b) :
    TotalsRight m b.asks ∧ TotalsRight m b.bids ∧ b.checkValidity m = .ok true := by
  have ha := totals_of_wf m h.wf.asks
  have hb := totals_of_wf m h.wf.bids
  refine ⟨ha, hb, ?_⟩
  simp [OrderBook.checkValidity, ha.2.2, hb.2.2]

example : ∃ b, Reachable AnyCmd .checked 7 b ∧ b.abs = demoBook := demo_any _

/-! ## C03 -/

/-- `p` is the best price among the levels of `h`, each of which holds at least one order; the sentinel if
there is no level. -/
def IsBest (h : HalfBook) (p : Int) : Prop :=
  (∀ e ∈ h.levels, e.2.orders ≠ []) ∧
  ((h.levels = [] ∧ p = match h.side with | .ask => 2 ^ 63 - 1 | .bid => -(2 ^ 63)) ∨
   ((∃ e ∈ h.levels, e.1 = p) ∧
    ∀ e ∈ h.levels, match h.side with | .ask => p ≤ e.1 | .bid => e.1 ≤ p))

theorem best_of_levels {h : HalfBook} (hs : Sorted h.levels) (hne : ∀ e ∈ h.levels, e.2.orders ≠ [])
    (hb : h.best = HalfBook.bestOf h.side h.levels) : IsBest h h.best := by
  refine ⟨hne, ?_⟩
  rw [hb]
  cases hsd : h.side
  · cases hl : h.levels with
    | nil => left; simp [HalfBook.bestOf, HalfBook.sentinel, I64MAX]
    | cons e ls =>
      right
      simp only [HalfBook.bestOf, List.head?_cons]
      refine ⟨⟨e, by simp, rfl⟩, ?_⟩
      rw [hl] at hs
      intro f hf
      rcases List.mem_cons.1 hf with rfl | hf
      · exact Int.le_refl _
      · exact Int.le_of_lt ((List.pairwise_cons.1 hs).1 f hf)
  · rcases List.eq_nil_or_concat h.levels with hl | ⟨ls, e, hl⟩
    · left; simp [hl, HalfBook.bestOf, HalfBook.sentinel, I64MIN]
    · right
      rw [hl] at hs ⊢
      simp only [List.concat_eq_append, HalfBook.bestOf, List.getLast?_append, List.getLast?_singleton,
        Option.some_or]
      refine ⟨⟨e, by simp, rfl⟩, ?_⟩
      intro f hf
      simp only [List.concat_eq_append] at hs
      rcases List.mem_append.1 hf with hf | hf
      · exact Int.le_of_lt ((List.pairwise_append.1 hs).2.2 f hf e (by simp))
      · simp at hf; rw [hf]; exact Int.le_refl _

theorem best_of_wf {h : HalfBook} (wf : h.WF) : IsBest h h.best :=
  best_of_levels wf.sorted (fun e he => (wf.levels e he).nonempty) wf.best

/-- C03. -/
theorem C03_best_price (m : Mode) (inst : Nat) (b : OrderBook) (h : Reachable AnyCmd m inst b) :
    IsBest b.asks b.asks.best ∧ IsBest b.bids b.bids.best ∧ b.asks.side = .ask ∧ b.bids.side = .bid :=
  ⟨best_of_wf h.wf.asks, best_of_wf h.wf.bids, h.wf.aside, h.wf.bside⟩

example : ∃ b, Reachable AnyCmd .wrapping 7 b ∧ b.abs = demoBook := demo_any _

/-! ## C04 -/

theorem uncrossed_of_reachable {m : Mode} {inst : Nat} {b : OrderBook}
    (h : Reachable Cmd.isMatching m inst b) : b.abs.Uncrossed := by
  induction h with
  | init => intro x hx; simp [OrderBook.abs_init] at hx
  | @step b b' c out hr hp hv hs ih =>
    have wf := hr.wf
    obtain ⟨b1, o1, h1, w1, e1⟩ := OrderBook.step_refines m wf c hv
    rw [hs] at h1
    simp only [Except.ok.injEq, Prod.mk.injEq] at h1
    have hb : b'.abs = (b.abs.step c).1 := by rw [h1.1, ← e1]
    rw [hb]
    have s1 := queue_sorted wf.asks
    have s2 := queue_sorted wf.bids
    rw [wf.aside] at s1
    rw [wf.bside] at s2
    exact step_uncrossed ih s1 s2 hp

/-- C04. Every bid price level lies strictly below every ask price level; in particular the best bid is
strictly below the best ask when both sides have orders. -/
theorem C04_never_crossed (m : Mode) (inst : Nat) (b : OrderBook) (h : Reachable Cmd.isMatching m inst b) :
    (∀ e ∈ b.bids.levels, ∀ f ∈ b.asks.levels, e.1 < f.1) ∧
    (b.bids.levels ≠ [] → b.asks.levels ≠ [] → b.bids.best < b.asks.best) := by
  have hu := uncrossed_of_reachable h
  have wf := h.wf
  have key : ∀ e ∈ b.bids.levels, ∀ f ∈ b.asks.levels, e.1 < f.1 := by
    intro e he f hf
    obtain ⟨x, hx⟩ := List.exists_mem_of_ne_nil _ (wf.bids.levels e he).nonempty
    obtain ⟨y, hy⟩ := List.exists_mem_of_ne_nil _ (wf.asks.levels f hf).nonempty
    have := hu ⟨y.1, f.1, y.2⟩ (mem_queueOf.2 (mem_flat.2 ⟨f, hf, rfl, hy⟩))
      ⟨x.1, e.1, x.2⟩ (mem_queueOf.2 (mem_flat.2 ⟨e, he, rfl, hx⟩))
    exact this
  refine ⟨key, fun h1 h2 => ?_⟩
  rcases (best_of_wf wf.bids).2 with ⟨h3, _⟩ | ⟨⟨e, he, hep⟩, _⟩
  · exact absurd h3 h1
  · rcases (best_of_wf wf.asks).2 with ⟨h4, _⟩ | ⟨⟨f, hf, hfp⟩, _⟩
    · exact absurd h4 h2
    · rw [← hep, ← hfp]; exact key e he f hf

example : ∃ b, Reachable Cmd.isMatching .checked 7 b ∧ b.abs = demoBook := demo_reachable _

/-! ## C05 -/

/-- The model-level form of an incoming limit order. -/
abbrev incoming (s : BookSide) (o : Resting) : LimitOrder := ⟨o.price, o.qty, mside s, o.id⟩

theorem processLimit_submit (m : Mode) {b : OrderBook} (wf : b.WF) (s : BookSide) (o : Resting)
    (hv : Valid b.abs (.limit s o)) :
    ∃ b', b.processLimit m (incoming s o) = .ok (b', (b.abs.submit s o).2) ∧ b'.WF ∧
      b'.abs = (b.abs.submit s o).1 := by
  obtain ⟨b', out, h1, w, e⟩ := OrderBook.step_refines m wf (.limit s o) hv
  simp only [OrderBook.step] at h1
  cases hp : b.processLimit m ⟨o.price, o.qty, mside s, o.id⟩ with
  | error f => rw [hp] at h1; simp at h1
  | ok v =>
    obtain ⟨b1, r⟩ := v
    rw [hp] at h1
    simp only [Res.bind_ok, Except.ok.injEq, Prod.mk.injEq] at h1
    obtain ⟨rfl, rfl⟩ := h1
    simp only [Book.step, Prod.mk.injEq, Out.trade.injEq] at e
    exact ⟨b1, by rw [e.2], w, e.1⟩

/-- C05. `process_limit_order` is exactly the price-time-priority specification `Book.submit`: same
contents afterwards (including queue positions), same report. -/
theorem C05_limit_price_time (m : Mode) (inst : Nat) (b : OrderBook) (h : Reachable AnyCmd m inst b)
    (s : BookSide) (o : Resting) (hv : Valid b.abs (.limit s o)) :
    ∃ b', b.processLimit m (incoming s o) = .ok (b', (b.abs.submit s o).2) ∧
      b'.abs = (b.abs.submit s o).1 := by
  obtain ⟨b', h1, _, h2⟩ := processLimit_submit m h.wf s o hv
  exact ⟨b', h1, h2⟩

theorem demo_valid : Valid demoBook (.limit .buy ⟨20, 102, 12⟩) := by
  refine ⟨by decide, by decide, by simp [RealPrice, I64MIN, I64MAX], ?_⟩
  rintro ⟨x, hx, he⟩
  simp [demoBook] at hx
  rcases hx with rfl | rfl | rfl | rfl | rfl <;> simp at he

example (m : Mode) : ∃ b, Reachable AnyCmd m 7 b ∧ Valid b.abs (.limit .buy ⟨20, 102, 12⟩) := by
  obtain ⟨b, h, e⟩ := demo_any m; exact ⟨b, h, e ▸ demo_valid⟩
-- nine units trade at 101 (ids 1 then 2), three rest at 102
example : demoBook.submit .buy ⟨20, 102, 12⟩ =
    (⟨[⟨3, 103, 5⟩], [⟨20, 102, 3⟩, ⟨5, 99, 6⟩, ⟨6, 97, 8⟩]⟩, some ([(101, 9)], 3)) := by decide

/-! ## C06 -/

/-- C06. -/
theorem C06_trade_accounting (m : Mode) (inst : Nat) (b : OrderBook) (h : Reachable AnyCmd m inst b)
    (s : BookSide) (o : Resting) (hv : Valid b.abs (.limit s o)) :
    ∃ b' r, b.processLimit m (incoming s o) = .ok (b', r) ∧
      ∀ hist rem, r = some (hist, rem) →
        hist ≠ [] ∧
        (hist.map (·.2)).sum + rem = o.qty ∧
        (∀ e ∈ hist, 0 < e.2 ∧ match s with | .sell => o.price ≤ e.1 | .buy => e.1 ≤ o.price) ∧
        hist.Pairwise (fun e f => match s with | .sell => f.1 < e.1 | .buy => e.1 < f.1) := by
  obtain ⟨b', h1, _, h2⟩ := processLimit_submit m h.wf s o hv
  refine ⟨b', _, h1, ?_⟩
  intro hist rem hr
  simp only [Book.submit] at hr
  split at hr
  · simp at hr
  · rename_i hne
    simp only [Option.some.injEq, Prod.mk.injEq] at hr
    obtain ⟨rfl, rfl⟩ := hr
    have hsort : PrioritySorted s.flip (b.abs.opposite s) := by
      cases s
      · have := queue_sorted h.wf.bids; rwa [h.wf.bside] at this
      · have := queue_sorted h.wf.asks; rwa [h.wf.aside] at this
    have hpos : ∀ x ∈ b.abs.opposite s, 0 < x.qty := by
      cases s
      · exact queue_pos h.wf.bids
      · exact queue_pos h.wf.asks
    refine ⟨?_, ?_, ?_, ?_⟩
    · cases hf : (sweep (acceptable s.flip o.price) o.qty (b.abs.opposite s)).fills with
      | nil => exact absurd hf hne
      | cons f fs =>
        simp only [report]
        split
        · simp
        · split <;> simp
    · rw [report_sum]; exact sweep_conserve _ _ _
    · intro e he
      obtain ⟨h3, f, hf, hfe⟩ := report_mem _ (sweep_fill_pos _ _ hpos _) e he
      refine ⟨h3, ?_⟩
      have := (sweep_prices _ _ _ f hf).1
      cases s <;> simp [acceptable, BookSide.flip] at this ⊢ <;> omega
    · have := (report_sorted s.flip _ (sweep_fills_sorted hsort o.qty (ok := acceptable s.flip o.price))).1
      refine this.imp ?_
      intro e f hef
      cases s <;> simpa [better, BookSide.flip] using hef

example (m : Mode) : ∃ b, Reachable AnyCmd m 7 b ∧ Valid b.abs (.limit .buy ⟨20, 102, 12⟩) := by
  obtain ⟨b, h, e⟩ := demo_any m; exact ⟨b, h, e ▸ demo_valid⟩

/-! ## C07 -/

theorem find_rest (s : BookSide) (o : Resting) (l : List Resting) (h : ∀ x ∈ l, x.id ≠ o.id) :
    find o.id (rest s o l) = some o := by
  induction l with
  | nil => simp [rest, find]
  | cons y l ih =>
    simp only [rest]
    split
    · simp [find]
    · have hy := h y (by simp)
      simp only [find, List.find?_cons, hy, decide_false]
      exact ih (fun x hx => h x (by simp [hx]))

/-- Quantity executed according to the returned value. -/
def executed (r : Option (List (Int × Nat) × Nat)) : Nat :=
  match r with
  | none => 0
  | some (hist, _) => (hist.map (·.2)).sum

/-- The resting quantity of an id in a queue. -/
def restingQty (id : Nat) (q : List Resting) : Nat := volume (q.filter (·.id = id))

theorem submit_no_loss (b : Book) (s : BookSide) (o : Resting) (hf : ¬ b.HasId o.id) :
    restingQty o.id ((b.submit s o).1.own s) + executed (b.submit s o).2 = o.qty ∧
    restingQty o.id ((b.submit s o).1.opposite s) = 0 := by
  have hown : ∀ x ∈ b.own s, x.id ≠ o.id := by
    intro x hx he
    exact hf (hasId_own.2 ⟨x, Or.inl hx, he⟩)
  have hopp : ∀ x ∈ b.opposite s, x.id ≠ o.id := by
    intro x hx he
    exact hf (hasId_own.2 ⟨x, Or.inr hx, he⟩)
  have hz : ∀ l : List Resting, (∀ x ∈ l, x.id ≠ o.id) → restingQty o.id l = 0 := by
    intro l hl
    have : l.filter (·.id = o.id) = [] := by
      rw [List.filter_eq_nil_iff]; intro x hx; simp [hl x hx]
    simp [restingQty, this]
  have hrest : ∀ q : Nat, ∀ l : List Resting, (∀ x ∈ l, x.id ≠ o.id) →
      restingQty o.id (rest s { o with qty := q } l) = q := by
    intro q l
    induction l with
    | nil => intro _; simp [rest, restingQty]
    | cons y l ih =>
      intro hl
      have hy := hl y (by simp)
      have hl' : ∀ x ∈ l, x.id ≠ o.id := fun x hx => hl x (by simp [hx])
      have hz' := hz l hl'
      simp only [rest]
      split
      · simp only [restingQty] at hz' ⊢
        simp [List.filter_cons, hy, hz']
      · have := ih hl'
        simp only [restingQty] at this ⊢
        simp [List.filter_cons, hy, this]
  have hc := sweep_conserve (acceptable s.flip o.price) (b.opposite s) o.qty
  have hex : executed (b.submit s o).2 = fillSum (sweep (acceptable s.flip o.price) o.qty (b.opposite s)).fills := by
    simp only [Book.submit]
    split
    · rename_i h; simp [executed, h, fillSum]
    · simp only [executed]; exact report_sum _
  rw [hex]
  have ho : (b.submit s o).1.own s =
      if (sweep (acceptable s.flip o.price) o.qty (b.opposite s)).rem = 0 then b.own s
      else rest s { o with qty := (sweep (acceptable s.flip o.price) o.qty (b.opposite s)).rem } (b.own s) := by
    cases s <;> rfl
  have hp : (b.submit s o).1.opposite s = (sweep (acceptable s.flip o.price) o.qty (b.opposite s)).queue := by
    cases s <;> rfl
  constructor
  · rw [ho]
    split
    · rename_i h0; rw [hz _ hown]; omega
    · rw [hrest _ _ hown]; omega
  · rw [hp]
    apply hz
    intro x hx he
    obtain ⟨y, hy, h1, _⟩ := sweep_ids_subset _ _ _ x hx
    exact hopp y hy (by rw [h1, he])

/-- The two inputs for which an order is dropped. -/
def Dropped (b : Book) (s : BookSide) (price : Int) : Prop :=
  b.opposite s = [] ∧ match s with | .sell => price = -(2 ^ 63) | .buy => price = 2 ^ 63 - 1

/-- C07. Every unit of a limit order is executed or rests on the order's own side under its id — for every
64-bit price except the two of `Dropped`. -/
theorem C07_no_quantity_lost (m : Mode) (inst : Nat) (b : OrderBook) (h : Reachable AnyCmd m inst b)
    (s : BookSide) (o : Resting) (hq : 0 < o.qty) (hfit : volume (b.abs.own s) + o.qty < U64)
    (hp : -(2 ^ 63) ≤ o.price ∧ o.price ≤ 2 ^ 63 - 1) (hid : ¬ b.abs.HasId o.id)
    (hnd : ¬ Dropped b.abs s o.price) :
    ∃ b' r, b.processLimit m (incoming s o) = .ok (b', r) ∧
      restingQty o.id (b'.abs.own s) + executed r = o.qty ∧ restingQty o.id (b'.abs.opposite s) = 0 := by
  have hf1 : ∀ x ∈ b.asks.queue, x.id ≠ o.id := fun x hx he => hid ⟨x, by simp [OrderBook.abs, hx], he⟩
  have hf2 : ∀ x ∈ b.bids.queue, x.id ≠ o.id := fun x hx he => hid ⟨x, by simp [OrderBook.abs, hx], he⟩
  have hp' : HalfBook.InI64 o.price := by simpa [HalfBook.InI64, I64MIN, I64MAX] using hp
  cases s
  · have : I64MIN < o.price ∨ b.bids.queue ≠ [] := by
      by_cases hx : b.bids.queue = []
      · left
        have : o.price ≠ -(2 ^ 63) := fun he => hnd ⟨hx, he⟩
        unfold I64MIN; omega
      · exact Or.inr hx
    obtain ⟨b', h1, _, h3⟩ := OrderBook.processLimit_sell m h.wf hq hfit hp' this hf1 hf2
    refine ⟨b', _, h1, ?_⟩
    rw [h3]
    exact submit_no_loss b.abs .sell o hid
  · have : o.price < I64MAX ∨ b.asks.queue ≠ [] := by
      by_cases hx : b.asks.queue = []
      · left
        have : o.price ≠ 2 ^ 63 - 1 := fun he => hnd ⟨hx, he⟩
        unfold I64MAX; omega
      · exact Or.inr hx
    obtain ⟨b', h1, _, h3⟩ := OrderBook.processLimit_buy m h.wf hq hfit hp' this hf1 hf2
    refine ⟨b', _, h1, ?_⟩
    rw [h3]
    exact submit_no_loss b.abs .buy o hid

/-- C07, the exceptional inputs: the call reports "no trade" and leaves the book unchanged — the whole
quantity is lost. -/
theorem C07_dropped (m : Mode) (inst : Nat) (b : OrderBook) (h : Reachable AnyCmd m inst b)
    (s : BookSide) (o : Resting) (hd : Dropped b.abs s o.price) :
    b.processLimit m (incoming s o) = .ok (b, none) := by
  obtain ⟨he, hp⟩ := hd
  have wf := h.wf
  cases s
  · have hl : b.bids.levels = [] := (queueOf_isEmpty (s := b.bids.side) wf.bids.levels).1 he
    have hb : b.bids.best = I64MIN := by
      rw [wf.bids.best, wf.bside, hl]; rfl
    simp only at hp
    have : ¬ o.price > b.bids.best := by rw [hb, hp]; simp [I64MIN]
    simp only [OrderBook.processLimit, mside, this, if_false, HalfBook.tradeLimit, wf.bside, hl,
      List.isEmpty_nil, true_or, or_true, if_true, Res.bind_ok]
  · have hl : b.asks.levels = [] := (queueOf_isEmpty (s := b.asks.side) wf.asks.levels).1 he
    have hb : b.asks.best = I64MAX := by
      rw [wf.asks.best, wf.aside, hl]; rfl
    simp only at hp
    have : ¬ o.price < b.asks.best := by rw [hb, hp]; simp [I64MAX]
    simp only [OrderBook.processLimit, mside, this, if_false, HalfBook.tradeLimit, wf.aside, hl,
      List.isEmpty_nil, true_or, or_true, if_true, Res.bind_ok]

example (m : Mode) : ∃ b, Reachable AnyCmd m 7 b ∧ ¬ b.abs.HasId 20 ∧ ¬ Dropped b.abs .buy (2 ^ 63 - 1) := by
  obtain ⟨b, h, e⟩ := demo_any m
  refine ⟨b, h, e ▸ demo_valid.2.2.2, ?_⟩
  rw [e]; rintro ⟨h1, _⟩; simp [demoBook, Book.opposite] at h1
-- the exceptional case exists: a maximal buy into an empty book
example (m : Mode) : Reachable AnyCmd m 7 (OrderBook.init 7) ∧ Dropped (OrderBook.init 7).abs .buy (2 ^ 63 - 1) :=
  ⟨.init, rfl, rfl⟩

end Verif.Props

import Verif.Props.Snapshot
/-!
# C21, C22, C24: decomposition, level comparison, virtual ids
-/
set_option autoImplicit false
namespace Verif.Props
open Verif Verif.TE Verif.Spec

/-! ## Vocabulary -/

/-- Positive quantities at prices strictly between the two sentinel prices. -/
def PosReal (s : List LevelSnapshot) : Prop := ∀ x ∈ s, 0 < x.qty ∧ RealPrice x.price

/-- Ids of all resting orders. -/
def restingIds (b : OrderBook) : List Nat := b.asks.queue.map (·.id) ++ b.bids.queue.map (·.id)

/-- Ids that rest after but not before. -/
def freshIds (b b' : OrderBook) : List Nat := (restingIds b').filter (fun i => !(restingIds b).contains i)

/-- Ids carried by the emitted limit orders. -/
def emittedIds (os : List DecOrder) : List Nat :=
  os.filterMap (fun | .limit o => some o.id | .removeAny _ => none)

/-- Every level holds exactly one order (always true when the book is fed by snapshot updates only). -/
def OnePerLevel (b : OrderBook) : Prop :=
  (∀ e ∈ b.asks.levels, e.2.orders.length = 1) ∧ (∀ e ∈ b.bids.levels, e.2.orders.length = 1)

/-- Histories of a book whose orders all come from snapshots, together with the list of all virtual ids
handed out so far: snapshot updates (on books with one order per level), snapshot decompositions, and any
command that introduces no client id (market buys, cancels, modifications, removals). -/
inductive Fed (m : Mode) (inst : Nat) : List Nat → OrderBook → Prop
  | init : Fed m inst [] (OrderBook.init inst)
  | update {L : List Nat} {b b' : OrderBook} {a d : List LevelSnapshot} : Fed m inst L b → SnapOK b a d →
      PosReal a → PosReal d → OnePerLevel b → b.updateFromSnapshot m inst a d = .ok (b', .ok ()) →
      Fed m inst (L ++ freshIds b b') b'
  | decompose {L : List Nat} {b b' : OrderBook} {a d : List LevelSnapshot} {os : List DecOrder} :
      Fed m inst L b → SnapOK b a d → PosReal a → PosReal d → b.decompose m a d = .ok (b', .ok os) →
      Fed m inst (L ++ emittedIds os) b'
  | command {L : List Nat} {b b' : OrderBook} {c : Cmd} {out : Out} : Fed m inst L b → c.newIds = [] →
      Valid b.abs c → b.step m c = .ok (b', out) → Fed m inst L b'

/-! ## Commands keep the counter and the instrument -/

/-- A computation that, if it returns, keeps counter and instrument of `b`. -/
def Keeps {α : Type} (b : OrderBook) (r : Res (OrderBook × α)) : Prop :=
  ∀ x, r = .ok x → x.1.ctr = b.ctr ∧ x.1.inst = b.inst

theorem keeps_bind {α β : Type} {b : OrderBook} {x : Res β} {f : β → Res (OrderBook × α)}
    (h : ∀ a, Keeps b (f a)) : Keeps b (x >>= f) := by
  intro y hy
  cases x with
  | error e => simp at hy
  | ok v => exact h v y hy

theorem keeps_ok {α : Type} {b b' : OrderBook} {r : α} (h1 : b'.ctr = b.ctr) (h2 : b'.inst = b.inst) :
    Keeps b (.ok (b', r)) := by
  intro x hx; simp only [Except.ok.injEq] at hx; rw [← hx]; exact ⟨h1, h2⟩

theorem keeps_map {α β : Type} {b : OrderBook} {x : Res (OrderBook × α)} {f : OrderBook × α → Res (OrderBook × β)}
    (h : Keeps b x) (hf : ∀ y z, f y = .ok z → z.1 = y.1) : Keeps b (x >>= f) := by
  intro y hy
  cases x with
  | error e => simp at hy
  | ok v => have := hf v y hy; rw [this]; exact h v rfl

theorem keeps_processLimit (m : Mode) (b : OrderBook) (o : LimitOrder) : Keeps b (b.processLimit m o) := by
  unfold OrderBook.processLimit
  repeat' first
    | exact keeps_ok rfl rfl
    | (refine keeps_bind ?_; rintro ⟨⟩)
    | split

theorem keeps_step (m : Mode) (b : OrderBook) (c : Cmd) : Keeps b (b.step m c) := by
  cases c with
  | limit s o =>
    refine keeps_map (keeps_processLimit m b _) ?_
    rintro ⟨y1, y2⟩ z hz; simp only [Except.ok.injEq] at hz; rw [← hz]
  | modify id p q =>
    refine keeps_map ?_ ?_
    · unfold OrderBook.modifyOrder
      repeat' first
        | exact keeps_ok rfl rfl
        | exact keeps_processLimit m _ _
        | (refine keeps_bind ?_; rintro ⟨⟩)
        | split
    · rintro ⟨y1, y2⟩ z hz; simp only [Except.ok.injEq] at hz; rw [← hz]
  | add s o =>
    refine keeps_map ?_ ?_
    · unfold OrderBook.addLimitOrder
      repeat' first
        | exact keeps_ok rfl rfl
        | (refine keeps_bind ?_; rintro ⟨⟩)
        | split
    · rintro ⟨y1, y2⟩ z hz; dsimp only at hz; split at hz <;> (simp only [Except.ok.injEq] at hz; rw [← hz])
  | market s q =>
    refine keeps_map ?_ ?_
    · unfold OrderBook.processMarket
      repeat' first
        | exact keeps_ok rfl rfl
        | (refine keeps_bind ?_; rintro ⟨⟩)
        | split
    · rintro ⟨y1, y2⟩ z hz; simp only [Except.ok.injEq] at hz; rw [← hz]
  | cancel id =>
    refine keeps_map ?_ ?_
    · unfold OrderBook.cancelOrder
      repeat' first
        | exact keeps_ok rfl rfl
        | (refine keeps_bind ?_; rintro ⟨⟩)
        | split
    · rintro ⟨y1, y2⟩ z hz; simp only [Except.ok.injEq] at hz; rw [← hz]
  | changeQty id q =>
    refine keeps_map ?_ ?_
    · unfold OrderBook.changeQuantity
      repeat' first
        | exact keeps_ok rfl rfl
        | (refine keeps_bind ?_; rintro ⟨⟩)
        | split
    · rintro ⟨y1, y2⟩ z hz; simp only [Except.ok.injEq] at hz; rw [← hz]
  | changePrice id p =>
    refine keeps_map ?_ ?_
    · unfold OrderBook.changePrice
      repeat' first
        | exact keeps_ok rfl rfl
        | (refine keeps_bind ?_; rintro ⟨⟩)
        | split
    · rintro ⟨y1, y2⟩ z hz; simp only [Except.ok.injEq] at hz; rw [← hz]
  | remove s p q =>
    refine keeps_map ?_ ?_
    · unfold OrderBook.removeOrder
      repeat' first
        | exact keeps_ok rfl rfl
        | (refine keeps_bind ?_; rintro ⟨⟩)
        | split
    · rintro ⟨y1, y2⟩ z hz; dsimp only at hz; split at hz <;> (simp only [Except.ok.injEq] at hz; rw [← hz])

/-! ## Invariant of `Fed` -/

structure FedInv (inst : Nat) (L : List Nat) (b : OrderBook) : Prop where
  wf : b.WF
  inst : b.inst = inst
  rest : ∀ i ∈ restingIds b, i ∈ L
  nodup : L.Nodup
  lt : ∀ i ∈ L, i < b.ctr

theorem mem_resting {b : OrderBook} {i : Nat} :
    i ∈ restingIds b ↔ ∃ x, (x ∈ b.asks.queue ∨ x ∈ b.bids.queue) ∧ x.id = i := by
  unfold restingIds
  simp only [List.mem_append, List.mem_map]
  constructor
  · rintro (⟨x, hx, rfl⟩ | ⟨x, hx, rfl⟩)
    · exact ⟨x, Or.inl hx, rfl⟩
    · exact ⟨x, Or.inr hx, rfl⟩
  · rintro ⟨x, hx | hx, rfl⟩
    · exact Or.inl ⟨x, hx, rfl⟩
    · exact Or.inr ⟨x, hx, rfl⟩

theorem mem_resting_abs {b : OrderBook} {i : Nat} : i ∈ restingIds b ↔ b.abs.HasId i := by
  rw [mem_resting]
  unfold Book.HasId OrderBook.abs
  simp only [List.mem_append]

theorem resting_nodup {b : OrderBook} (wf : b.WF) : (restingIds b).Nodup := by
  unfold restingIds
  rw [List.nodup_append]
  refine ⟨wf.asks.nodup, wf.bids.nodup, ?_⟩
  rintro i hi j hj
  obtain ⟨x, hx, rfl⟩ := List.mem_map.1 hi
  obtain ⟨y, hy, rfl⟩ := List.mem_map.1 hj
  exact wf.disj x hx y hy

theorem ids_iff {h : HalfBook} {i : Nat} : i ∈ HalfBook.idsOf h.levels ↔ ∃ x ∈ h.queue, x.id = i := by
  rw [← (HalfBook.queue_ids_perm h).mem_iff, List.mem_map]

theorem emittedIds_eq (os : List DecOrder) : emittedIds os = os.flatMap (·.ids) := by
  induction os with
  | nil => rfl
  | cons o os ih =>
    cases o
    · simp only [emittedIds, List.filterMap_cons, List.flatMap_cons] at ih ⊢; rw [ih]; rfl
    · simp only [emittedIds, List.filterMap_cons, List.flatMap_cons] at ih ⊢; rw [ih]; rfl

theorem snapBook_of_fed {inst : Nat} {L : List Nat} {b : OrderBook} (h : FedInv inst L b) (h1 : OnePerLevel b) :
    SnapBook b := by
  have hlt : ∀ i ∈ restingIds b, i < b.ctr := fun i hi => h.lt i (h.rest i hi)
  refine ⟨HalfBook.snap_of_wf h.wf.asks h1.1 ?_, HalfBook.snap_of_wf h.wf.bids h1.2 ?_, h.wf.asks.best,
    h.wf.bids.best, h.wf.aside, h.wf.bside⟩
  · intro x hx; exact hlt _ (by unfold restingIds; simp only [List.mem_append, List.mem_map]; exact Or.inl ⟨x, hx, rfl⟩)
  · intro x hx; exact hlt _ (by unfold restingIds; simp only [List.mem_append, List.mem_map]; exact Or.inr ⟨x, hx, rfl⟩)

theorem half_wf_of_shows {h : HalfBook} {ctr : Nat} {s : Side} {snap : List LevelSnapshot}
    (inv : HalfBook.SnapInv h ctr) (hb : h.best = HalfBook.bestOf h.side h.levels) (hs : Shows h s snap)
    (hp : PosReal snap) (hfit : qtySum snap < U64) : h.WF := by
  refine HalfBook.wf_of_snap inv hb ?_ ?_
  · intro e he
    have : (⟨e.2.price, e.2.total⟩ : LevelSnapshot) ∈ snap := hs.1.subset (List.mem_map.2 ⟨e, he, rfl⟩)
    exact (hp _ this).1
  · have : h.total = qtySum snap := hs.2.2.2.2.1
    omega

theorem update_fed (m : Mode) {inst : Nat} {L : List Nat} {b b' : OrderBook} {a d : List LevelSnapshot}
    (h : FedInv inst L b) (ok : SnapOK b a d) (ha : PosReal a) (hd : PosReal d) (h1 : OnePerLevel b)
    (hu : b.updateFromSnapshot m inst a d = .ok (b', .ok ())) : FedInv inst (L ++ freshIds b b') b' := by
  have sb := snapBook_of_fed h h1
  obtain ⟨b1, e, sb', hi, hc1, hc2, sa, sd, g1, g2, i1, c, hcc, hcb, i2, i3⟩ := update_spec m sb ok
  rw [h.inst, hu] at e
  simp only [Except.ok.injEq, Prod.mk.injEq, and_true] at e
  subst e
  have hlt : ∀ i ∈ restingIds b, i < b.ctr := fun i hi => h.lt i (h.rest i hi)
  have wa := half_wf_of_shows sb'.asks sb'.abest sa ha (by have := ok.afit; omega)
  have wd := half_wf_of_shows sb'.bids sb'.bbest sd hd (by have := ok.bfit; omega)
  have ia : ∀ x ∈ b'.asks.queue, (∃ y ∈ b.asks.queue, y.id = x.id) ∨ b.ctr ≤ x.id := by
    intro x hx
    rcases i1 _ (ids_iff.2 ⟨x, hx, rfl⟩) with h | h
    · exact Or.inl (ids_iff.1 h)
    · exact Or.inr h
  have id' : ∀ x ∈ b'.bids.queue, (∃ y ∈ b.bids.queue, y.id = x.id) ∨ c ≤ x.id := by
    intro x hx
    rcases i3 _ (ids_iff.2 ⟨x, hx, rfl⟩) with h | h
    · exact Or.inl (ids_iff.1 h)
    · exact Or.inr h
  have hbq : ∀ y ∈ b.bids.queue, y.id < b.ctr := fun y hy =>
    hlt _ (mem_resting.2 ⟨y, Or.inr hy, rfl⟩)
  have wf' : b'.WF := by
    refine ⟨wa, wd, sb'.aside, sb'.bside, ?_⟩
    intro x hx y hy he
    rcases id' y hy with ⟨y', hy', e'⟩ | hge
    · rcases ia x hx with ⟨x', hx', e''⟩ | hge'
      · exact h.wf.disj x' hx' y' hy' (by omega)
      · have := hbq y' hy'; omega
    · have := i2 _ (ids_iff.2 ⟨x, hx, rfl⟩); omega
  have hnew : ∀ i ∈ restingIds b', i ∈ restingIds b ∨ b.ctr ≤ i := by
    intro i hi
    obtain ⟨x, hx | hx, rfl⟩ := mem_resting.1 hi
    · rcases ia x hx with ⟨y, hy, e⟩ | h
      · exact Or.inl (mem_resting.2 ⟨y, Or.inl hy, e⟩)
      · exact Or.inr h
    · rcases id' x hx with ⟨y, hy, e⟩ | h
      · exact Or.inl (mem_resting.2 ⟨y, Or.inr hy, e⟩)
      · exact Or.inr (Nat.le_trans hcc h)
  have hlt' : ∀ i ∈ restingIds b', i < b'.ctr := by
    intro i hi
    have hs : ∀ (hh : HalfBook), HalfBook.SnapInv hh b'.ctr → ∀ x ∈ hh.queue, x.id < b'.ctr := by
      intro hh inv x hx
      obtain ⟨e, he, hm⟩ := HalfBook.mem_idsOf.1 (ids_iff.2 ⟨x, hx, rfl⟩)
      obtain ⟨i, q, hl, hq⟩ := inv.single e he
      rw [hq] at hm; simp at hm; omega
    obtain ⟨x, hx | hx, rfl⟩ := mem_resting.1 hi
    · exact hs _ sb'.asks x hx
    · exact hs _ sb'.bids x hx
  refine ⟨wf', hi.trans h.inst, ?_, ?_, ?_⟩
  · intro i hi
    by_cases hin : i ∈ restingIds b
    · exact List.mem_append_left _ (h.rest i hin)
    · exact List.mem_append_right _ (List.mem_filter.2 ⟨hi, by simpa using hin⟩)
  · rw [List.nodup_append]
    refine ⟨h.nodup, (resting_nodup wf').filter _, ?_⟩
    rintro i hi j hj rfl
    obtain ⟨h1, h2⟩ := List.mem_filter.1 hj
    rcases hnew i h1 with h3 | h3
    · simp only [Bool.not_eq_eq_eq_not, Bool.not_true, List.contains_eq_mem, decide_eq_false_iff_not] at h2
      exact h2 h3
    · have := h.lt i hi; omega
  · intro i hi
    rcases List.mem_append.1 hi with hi | hi
    · have := h.lt i hi; omega
    · exact hlt' i (List.mem_filter.1 hi).1

theorem decompose_fed (m : Mode) {inst : Nat} {L : List Nat} {b : OrderBook} {a d : List LevelSnapshot}
    (h : FedInv inst L b) (ok : SnapOK b a d) (ha : PosReal a) (hd : PosReal d) :
    ∃ b' xs ys, b.decompose m a d = .ok (b', .ok (xs ++ ys)) ∧ FedInv inst (L ++ emittedIds (xs ++ ys)) b' ∧
      HalfBook.applyDecs m xs b.asks = .ok (b'.asks, .ok ()) ∧ HalfBook.applyDecs m ys b.bids = .ok (b'.bids, .ok ()) ∧
      b.ctr ≤ b'.ctr ∧ emittedIds (xs ++ ys) = List.range' b.ctr (b'.ctr - b.ctr) ∧
      (xs.map (·.price)).Nodup ∧ (ys.map (·.price)).Nodup ∧
      (∀ o ∈ xs, o.side = .ask) ∧ (∀ o ∈ ys, o.side = .bid) ∧
      (∀ p, (xs.find? (·.price = p)).map (·.change) =
        neededChange (volumeAt p b.asks.queue) ((HalfBook.snapAt a p).getD 0)) ∧
      (∀ p, (ys.find? (·.price = p)).map (·.change) =
        neededChange (volumeAt p b.bids.queue) ((HalfBook.snapAt d p).getD 0)) ∧
      (∀ p, volumeAt p b'.asks.queue = (HalfBook.snapAt a p).getD 0) ∧
      (∀ p, volumeAt p b'.bids.queue = (HalfBook.snapAt d p).getD 0) := by
  have hlt : ∀ i ∈ restingIds b, i < b.ctr := fun i hi => h.lt i (h.rest i hi)
  have hfa := ok.afit; have hfb := ok.bfit; have hc := ok.ctr
  simp only [qtySum] at hfa hfb
  have hqa : ∀ x ∈ b.asks.queue, x.id < b.ctr := fun x hx => hlt _ (mem_resting.2 ⟨x, Or.inl hx, rfl⟩)
  have hqb : ∀ x ∈ b.bids.queue, x.id < b.ctr := fun x hx => hlt _ (mem_resting.2 ⟨x, Or.inr hx, rfl⟩)
  obtain ⟨h1, c1, xs, e1, w1, s1, p1, r1, hc1, hc1', n1, sd1, id1, ch1, v1⟩ :=
    HalfBook.decompose_spec m h.wf.asks hqa a ok.asks (fun s hs => ⟨(ha s hs).1, (ha s hs).2.inI64⟩) (by omega) hfa
  obtain ⟨h2, c2, ys, e2, w2, s2, p2, r2, hc2, hc2', n2, sd2, id2, ch2, v2⟩ :=
    HalfBook.decompose_spec m h.wf.bids (ctr := c1) (fun x hx => Nat.lt_of_lt_of_le (hqb x hx) hc1) d ok.bids
      (fun s hs => ⟨(hd s hs).1, (hd s hs).2.inI64⟩) (by omega) hfb
  have hem : emittedIds (xs ++ ys) = List.range' b.ctr (c2 - b.ctr) := by
    rw [emittedIds_eq, List.flatMap_append, r1, r2]
    rw [show c2 - b.ctr = (c1 - b.ctr) + (c2 - c1) by omega, ← List.range'_append_1]
    congr 2; omega
  have hwf : OrderBook.WF ⟨h1, h2, b.inst, c2⟩ := by
    refine ⟨w1, w2, s1.trans h.wf.aside, s2.trans h.wf.bside, ?_⟩
    intro x hx y hy he
    rcases id1 x hx with ⟨x', hx', ex⟩ | hxr
    · rcases id2 y hy with ⟨y', hy', ey⟩ | hyr
      · exact h.wf.disj x' hx' y' hy' (by omega)
      · rw [r2, List.mem_range'_1] at hyr
        have := hqa x' hx'; omega
    · rw [r1, List.mem_range'_1] at hxr
      rcases id2 y hy with ⟨y', hy', ey⟩ | hyr
      · have := hqb y' hy'; omega
      · rw [r2, List.mem_range'_1] at hyr; omega
  refine ⟨⟨h1, h2, b.inst, c2⟩, xs, ys, ?_, ⟨hwf, h.inst, ?_, ?_, ?_⟩, p1, p2, ?_, hem, n1, n2, ?_, ?_, ch1, ch2, v1, v2⟩
  · simp only [OrderBook.decompose, e1, Res.bind_ok, e2]
  · intro i hi
    obtain ⟨x, hx | hx, rfl⟩ := mem_resting.1 hi
    · rcases id1 x hx with ⟨y, hy, e⟩ | hr
      · exact List.mem_append_left _ (e ▸ h.rest _ (mem_resting.2 ⟨y, Or.inl hy, rfl⟩))
      · refine List.mem_append_right _ ?_
        rw [emittedIds_eq, List.flatMap_append]; exact List.mem_append_left _ hr
    · rcases id2 x hx with ⟨y, hy, e⟩ | hr
      · exact List.mem_append_left _ (e ▸ h.rest _ (mem_resting.2 ⟨y, Or.inr hy, rfl⟩))
      · refine List.mem_append_right _ ?_
        rw [emittedIds_eq, List.flatMap_append]; exact List.mem_append_right _ hr
  · rw [hem, List.nodup_append]
    refine ⟨h.nodup, List.nodup_range', ?_⟩
    rintro i hi j hj rfl
    rw [List.mem_range'_1] at hj
    have := h.lt i hi; omega
  · intro i hi
    rw [hem] at hi
    rcases List.mem_append.1 hi with hi | hi
    · have := h.lt i hi; show i < c2; omega
    · rw [List.mem_range'_1] at hi; show i < c2; omega
  · show b.ctr ≤ c2; omega
  · intro o ho; rw [sd1 o ho, h.wf.aside]
  · intro o ho; rw [sd2 o ho, h.wf.bside]

theorem Fed.inv {m : Mode} {inst : Nat} {L : List Nat} {b : OrderBook} (h : Fed m inst L b) : FedInv inst L b := by
  induction h with
  | init =>
    exact ⟨OrderBook.wf_init inst, rfl, by simp [restingIds, OrderBook.init, HalfBook.init, HalfBook.queue, queueOf],
      by simp, by simp⟩
  | update _ ok ha hd h1 hu ih => exact update_fed m ih ok ha hd h1 hu
  | decompose _ ok ha hd hu ih =>
    obtain ⟨b1, xs, ys, e, hf, _⟩ := decompose_fed m ih ok ha hd
    rw [hu] at e
    simp only [Except.ok.injEq, Prod.mk.injEq] at e
    obtain ⟨rfl, rfl⟩ := e
    exact hf
  | @command L b b' c out _ hn hv hs ih =>
    obtain ⟨b1, o1, h1, w1, e1⟩ := OrderBook.step_refines m ih.wf _ hv
    obtain ⟨k1, k2⟩ := keeps_step m b c _ hs
    rw [hs] at h1
    simp only [Except.ok.injEq, Prod.mk.injEq] at h1
    obtain ⟨rfl, rfl⟩ := h1
    refine ⟨w1, k2.trans ih.inst, ?_, ih.nodup, ?_⟩
    · intro i hi
      rw [mem_resting_abs, show b'.abs = (b.abs.step c).1 from by rw [← e1]] at hi
      rcases ids_step c hi with h | h
      · exact ih.rest i (mem_resting_abs.2 h)
      · rw [hn] at h; simp at h
    · intro i hi
      have := ih.lt i hi
      simp only at k1; omega

/-! ## C24 -/

/-- C24. Over any history, no virtual id is handed out twice, and every resting order carries one of them. -/
theorem C24_virtual_ids_unique (m : Mode) (inst : Nat) (ids : List Nat) (b : OrderBook) (h : Fed m inst ids b) :
    ids.Nodup ∧ ∀ i ∈ restingIds b, i ∈ ids :=
  ⟨h.inv.nodup, h.inv.rest⟩

/-! ## C21 -/

/-- Applying one emitted order through the public interface of the book. -/
def applyOrder (m : Mode) (b : OrderBook) : DecOrder → Res (OrderBook × Except Unit Unit)
  | .limit o => b.addLimitOrder m o
  | .removeAny o => do
    let (b', _) ← b.removeOrder m o
    .ok (b', .ok ())

/-- Applying the emitted orders one by one. -/
def replay (m : Mode) : List DecOrder → OrderBook → Res (OrderBook × Except Unit Unit)
  | [], b => .ok (b, .ok ())
  | o :: os, b => do
    let (b', r) ← applyOrder m b o
    match r with
    | .error e => .ok (b', .error e)
    | .ok _ => replay m os b'

/-- The change a price needs: nothing, one addition, or one removal of the exact difference. -/
def exactChange (old new : Nat) : List (Bool × Nat) :=
  if old = new then [] else if old < new then [(true, new - old)] else [(false, old - new)]

/-- Quantity the snapshot shows at a price. -/
def shownQty (snap : List LevelSnapshot) (p : Int) : Nat :=
  match snap.find? (·.price = p) with
  | some x => x.qty
  | none => 0

theorem replay_append (m : Mode) (xs ys : List DecOrder) : ∀ {b b1 : OrderBook},
    replay m xs b = .ok (b1, .ok ()) → replay m (xs ++ ys) b = replay m ys b1 := by
  induction xs with
  | nil => intro b b1 h; simp only [replay, Except.ok.injEq, Prod.mk.injEq, and_true] at h; rw [h]; rfl
  | cons x xs ih =>
    intro b b1 h
    simp only [replay, List.cons_append] at h ⊢
    cases hx : applyOrder m b x with
    | error e => rw [hx] at h; simp at h
    | ok v =>
      obtain ⟨b2, r⟩ := v
      rw [hx] at h
      simp only [Res.bind_ok] at h ⊢
      cases r with
      | error e => simp at h
      | ok _ => simp only at h ⊢; exact ih h

theorem replay_asks (m : Mode) (xs : List DecOrder) (hs : ∀ o ∈ xs, o.side = .ask) : ∀ {b : OrderBook} {h' : HalfBook},
    HalfBook.applyDecs m xs b.asks = .ok (h', .ok ()) → replay m xs b = .ok ({ b with asks := h' }, .ok ()) := by
  induction xs with
  | nil =>
    intro b h' h
    simp only [HalfBook.applyDecs, Except.ok.injEq, Prod.mk.injEq, and_true] at h
    rw [← h]; rfl
  | cons x xs ih =>
    intro b h' h
    simp only [HalfBook.applyDecs] at h
    cases hx : HalfBook.applyDec m b.asks x with
    | error e => rw [hx] at h; simp at h
    | ok v =>
      obtain ⟨h1, r⟩ := v
      rw [hx] at h
      simp only [Res.bind_ok] at h
      cases r with
      | error e => simp at h
      | ok u =>
        simp only at h
        have hside := hs x (by simp)
        have hstep : applyOrder m b x = .ok ({ b with asks := h1 }, .ok u) := by
          cases x with
          | limit o =>
            have : o.side = .ask := hside
            simp only [HalfBook.applyDec] at hx
            simp only [applyOrder, OrderBook.addLimitOrder, this, hx, Res.bind_ok]
          | removeAny o =>
            have : o.side = .ask := hside
            simp only [HalfBook.applyDec] at hx
            simp only [applyOrder, OrderBook.removeOrder, this]
            cases hr : HalfBook.removeOrder m b.asks o with
            | error e => rw [hr] at hx; simp at hx
            | ok w =>
              obtain ⟨w1, w2⟩ := w
              rw [hr] at hx
              simp only [Res.bind_ok, Except.ok.injEq, Prod.mk.injEq] at hx
              simp only [Res.bind_ok, hx.1]
        simp only [replay, hstep, Res.bind_ok]
        exact ih (fun o ho => hs o (by simp [ho])) (b := { b with asks := h1 }) h

theorem replay_bids (m : Mode) (xs : List DecOrder) (hs : ∀ o ∈ xs, o.side = .bid) : ∀ {b : OrderBook} {h' : HalfBook},
    HalfBook.applyDecs m xs b.bids = .ok (h', .ok ()) → replay m xs b = .ok ({ b with bids := h' }, .ok ()) := by
  induction xs with
  | nil =>
    intro b h' h
    simp only [HalfBook.applyDecs, Except.ok.injEq, Prod.mk.injEq, and_true] at h
    rw [← h]; rfl
  | cons x xs ih =>
    intro b h' h
    simp only [HalfBook.applyDecs] at h
    cases hx : HalfBook.applyDec m b.bids x with
    | error e => rw [hx] at h; simp at h
    | ok v =>
      obtain ⟨h1, r⟩ := v
      rw [hx] at h
      simp only [Res.bind_ok] at h
      cases r with
      | error e => simp at h
      | ok u =>
        simp only at h
        have hside := hs x (by simp)
        have hstep : applyOrder m b x = .ok ({ b with bids := h1 }, .ok u) := by
          cases x with
          | limit o =>
            have : o.side = .bid := hside
            simp only [HalfBook.applyDec] at hx
            simp only [applyOrder, OrderBook.addLimitOrder, this, hx, Res.bind_ok]
          | removeAny o =>
            have : o.side = .bid := hside
            simp only [HalfBook.applyDec] at hx
            simp only [applyOrder, OrderBook.removeOrder, this]
            cases hr : HalfBook.removeOrder m b.bids o with
            | error e => rw [hr] at hx; simp at hx
            | ok w =>
              obtain ⟨w1, w2⟩ := w
              rw [hr] at hx
              simp only [Res.bind_ok, Except.ok.injEq, Prod.mk.injEq] at hx
              simp only [Res.bind_ok, hx.1]
        simp only [replay, hstep, Res.bind_ok]
        exact ih (fun o ho => hs o (by simp [ho])) (b := { b with bids := h1 }) h

theorem filter_of_find {xs : List DecOrder} (hn : (xs.map (·.price)).Nodup) (p : Int) :
    (xs.filter (·.price = p)).map (·.change) = ((xs.find? (·.price = p)).map (·.change)).toList := by
  induction xs with
  | nil => rfl
  | cons x xs ih =>
    simp only [List.map_cons, List.nodup_cons] at hn
    simp only [List.filter_cons, List.find?_cons]
    by_cases hx : x.price = p
    · have : xs.filter (fun y => decide (y.price = p)) = [] := by
        rw [List.filter_eq_nil_iff]; intro y hy
        simp only [decide_eq_true_eq]
        intro he; exact hn.1 (List.mem_map.2 ⟨y, hy, he.trans hx.symm⟩)
      simp [hx, this]
    · simp only [hx, decide_false]
      simpa using ih hn.2

theorem needed_exact (old new : Nat) : (neededChange old new).toList = exactChange old new := by
  unfold neededChange exactChange
  by_cases h1 : old < new
  · rw [if_pos h1, if_neg (by omega), if_pos h1]; rfl
  · rw [if_neg h1]
    by_cases h2 : new < old
    · rw [if_pos h2, if_neg (by omega), if_neg h1]; rfl
    · rw [if_neg h2, if_pos (by omega)]; rfl

theorem shownQty_eq (snap : List LevelSnapshot) (p : Int) : (HalfBook.snapAt snap p).getD 0 = shownQty snap p := by
  unfold HalfBook.snapAt shownQty
  cases snap.find? (fun x => x.price = p) <;> rfl

theorem shows_of_volume {h : HalfBook} (wf : h.WF) {s : Side} (hs : h.side = s) {snap : List LevelSnapshot}
    (hd : DistinctPrices snap) (hp : PosReal snap)
    (hv : ∀ p, volumeAt p h.queue = (HalfBook.snapAt snap p).getD 0) : Shows h s snap := by
  refine shows_of_levels wf.sorted (fun e he => (wf.levels e he).price) (fun e he => (wf.levels e he).nonempty) ?_
    wf.best hs hd ?_
  · rw [wf.total, HalfBook.queue, volume_queueOf, volume_flat (fun e he => (wf.levels e he).total)]; rfl
  · intro p
    rw [HalfBook.get_total wf, hv]
    cases hsn : HalfBook.snapAt snap p with
    | none => simp
    | some q =>
      have : 0 < q := by
        unfold HalfBook.snapAt at hsn
        cases hf : snap.find? (fun x => x.price = p) with
        | none => rw [hf] at hsn; simp at hsn
        | some x =>
          rw [hf] at hsn
          simp only [Option.map_some, Option.some.injEq] at hsn
          rw [← hsn]; exact (hp x (List.mem_of_find?_eq_some hf)).1
      simp only [Option.getD_some]
      rw [if_neg (by omega)]

/-- C21. Decomposing a snapshot: the resulting book shows exactly the snapshot; the emitted orders, applied
one by one through the public interface, produce that book; and for each side and price the emitted orders
are exactly the needed change - none if the quantity is unchanged, otherwise one order for the exact
difference. -/
theorem C21_decompose (m : Mode) (inst : Nat) (ids : List Nat) (b : OrderBook) (h : Fed m inst ids b)
    (askS bidS : List LevelSnapshot) (ok : SnapOK b askS bidS) (ha : PosReal askS) (hd : PosReal bidS) :
    ∃ b' os, b.decompose m askS bidS = .ok (b', .ok os) ∧
      Shows b'.asks .ask askS ∧ Shows b'.bids .bid bidS ∧
      replay m os b = .ok ({ b' with ctr := b.ctr }, .ok ()) ∧
      (∀ p, (os.filter (fun o => o.side = .ask ∧ o.price = p)).map (·.change) =
        exactChange (b.asks.aggregateAt p) (shownQty askS p)) ∧
      (∀ p, (os.filter (fun o => o.side = .bid ∧ o.price = p)).map (·.change) =
        exactChange (b.bids.aggregateAt p) (shownQty bidS p)) := by
  obtain ⟨b', xs, ys, e, hf, a1, a2, _, hem, n1, n2, s1, s2, c1, c2, v1, v2⟩ := decompose_fed m h.inv ok ha hd
  have hfx : ∀ p, (xs ++ ys).filter (fun o => o.side = .ask ∧ o.price = p) = xs.filter (·.price = p) := by
    intro p
    rw [List.filter_append]
    have : ys.filter (fun o => decide (o.side = .ask ∧ o.price = p)) = [] := by
      rw [List.filter_eq_nil_iff]; intro o ho; rw [s2 o ho]; simp
    rw [this, List.append_nil]
    apply List.filter_congr
    intro o ho; rw [s1 o ho]; simp
  have hfy : ∀ p, (xs ++ ys).filter (fun o => o.side = .bid ∧ o.price = p) = ys.filter (·.price = p) := by
    intro p
    rw [List.filter_append]
    have : xs.filter (fun o => decide (o.side = .bid ∧ o.price = p)) = [] := by
      rw [List.filter_eq_nil_iff]; intro o ho; rw [s1 o ho]; simp
    rw [this, List.nil_append]
    apply List.filter_congr
    intro o ho; rw [s2 o ho]; simp
  have hinst : b'.inst = b.inst := hf.inst.trans h.inv.inst.symm
  refine ⟨b', xs ++ ys, e, shows_of_volume hf.wf.asks hf.wf.aside ok.asks ha v1,
    shows_of_volume hf.wf.bids hf.wf.bside ok.bids hd v2, ?_, ?_, ?_⟩
  · have r1 := replay_asks m xs s1 a1
    have r2 := replay_bids m ys s2 (b := { b with asks := b'.asks }) a2
    rw [replay_append m xs ys r1, r2, ← hinst]
  · intro p
    rw [hfx, filter_of_find n1, c1, needed_exact, shownQty_eq, HalfBook.aggregateAt_eq h.inv.wf.asks]
  · intro p
    rw [hfy, filter_of_find n2, c2, needed_exact, shownQty_eq, HalfBook.aggregateAt_eq h.inv.wf.bids]

/-- A history mixing decompositions (leaving a level with two orders), a cancel and a market buy, after
which the hypotheses of `C21_decompose` and `C24_virtual_ids_unique` hold. -/
theorem fed_demo (m : Mode) : ∃ b ids, Fed m 7 ids b ∧ ids = [0, 1, 2, 3] ∧ b.abs.sells = [⟨0, 101, 3⟩, ⟨3, 101, 4⟩] ∧
    b.abs.buys = [] ∧ SnapOK b [⟨101, 2⟩, ⟨105, 8⟩] [⟨98, 6⟩] := by
  have ok0 : SnapOK (OrderBook.init 7) [⟨101, 5⟩, ⟨103, 2⟩] [⟨99, 3⟩] :=
    ⟨by decide, by decide, by decide, by decide, by decide⟩
  have pos : ∀ s : List LevelSnapshot, (∀ x ∈ s, 0 < x.qty ∧ I64MIN < x.price ∧ x.price < I64MAX) → PosReal s :=
    fun s h x hx => ⟨(h x hx).1, (h x hx).2⟩
  cases m
  · refine ⟨_, _, .command (c := .market .buy 2) (.command (c := .cancel 2) (.decompose
      (a := [⟨101, 9⟩]) (d := [⟨99, 3⟩]) (.update (d := [⟨99, 3⟩]) .init ok0
        (pos _ (by decide)) (pos _ (by decide)) ?_ rfl) ?_ (pos _ (by decide)) (pos _ (by decide)) rfl) rfl trivial rfl) rfl rfl rfl, ?_, ?_, ?_, ?_⟩
    · exact ⟨by decide, by decide⟩
    · refine ⟨by decide, by decide, ?_, ?_, ?_⟩ <;> decide +kernel
    · decide +kernel
    · decide +kernel
    · decide +kernel
    · refine ⟨by decide, by decide, ?_, ?_, ?_⟩ <;> decide +kernel
  · refine ⟨_, _, .command (c := .market .buy 2) (.command (c := .cancel 2) (.decompose
      (a := [⟨101, 9⟩]) (d := [⟨99, 3⟩]) (.update (d := [⟨99, 3⟩]) .init ok0
        (pos _ (by decide)) (pos _ (by decide)) ?_ rfl) ?_ (pos _ (by decide)) (pos _ (by decide)) rfl) rfl trivial rfl) rfl rfl rfl, ?_, ?_, ?_, ?_⟩
    · exact ⟨by decide, by decide⟩
    · refine ⟨by decide, by decide, ?_, ?_, ?_⟩ <;> decide +kernel
    · decide +kernel
    · decide +kernel
    · decide +kernel
    · refine ⟨by decide, by decide, ?_, ?_, ?_⟩ <;> decide +kernel

/-! ## C22 -/

/-- Books a client can have: reached by order commands, or fed by snapshots. -/
def Live (m : Mode) (inst : Nat) (b : OrderBook) : Prop := Reachable AnyCmd m inst b ∨ ∃ ids, Fed m inst ids b

theorem Live.wf {m : Mode} {inst : Nat} {b : OrderBook} (h : Live m inst b) : b.WF := by
  rcases h with h | ⟨_, h⟩
  · exact h.wf
  · exact h.inv.wf

/-- C22. `eq_level` decides, on all live books, "same quantity at every price on both sides". -/
theorem C22_eq_level (m m' : Mode) (i j : Nat) (a b : OrderBook) (ha : Live m i a)
    (hb : Live m' j b) :
    a.eqLevel b = true ↔
      ∀ p, a.asks.aggregateAt p = b.asks.aggregateAt p ∧ a.bids.aggregateAt p = b.bids.aggregateAt p := by
  unfold OrderBook.eqLevel
  rw [Bool.and_eq_true, half_eqLevel ha.wf.asks hb.wf.asks, half_eqLevel ha.wf.bids hb.wf.bids]
  exact ⟨fun h p => ⟨h.1 p, h.2 p⟩, fun h => ⟨fun p => (h p).1, fun p => (h p).2⟩⟩

/-- … hence it is an equivalence. -/
theorem C22_equivalence (m : Mode) (i j k : Nat) (a b c : OrderBook) (ha : Live m i a)
    (hb : Live m j b) (hc : Live m k c) :
    a.eqLevel a = true ∧ a.eqLevel b = b.eqLevel a ∧
      (a.eqLevel b = true → b.eqLevel c = true → a.eqLevel c = true) := by
  refine ⟨?_, ?_, ?_⟩
  · rw [C22_eq_level m m i i a a ha ha]; intro p; exact ⟨rfl, rfl⟩
  · rw [Bool.eq_iff_iff, C22_eq_level m m i j a b ha hb, C22_eq_level m m j i b a hb ha]
    exact ⟨fun h p => ⟨(h p).1.symm, (h p).2.symm⟩, fun h p => ⟨(h p).1.symm, (h p).2.symm⟩⟩
  · rw [C22_eq_level m m i j a b ha hb, C22_eq_level m m j k b c hb hc, C22_eq_level m m i k a c ha hc]
    exact fun h1 h2 p => ⟨(h1 p).1.trans (h2 p).1, (h1 p).2.trans (h2 p).2⟩

example : ∃ a b, Reachable AnyCmd .checked 7 a ∧ Reachable AnyCmd .wrapping 7 b ∧ a.abs = demoBook ∧ b.abs = demoBook := by
  obtain ⟨a, h1, e1⟩ := demo_any .checked
  obtain ⟨b, h2, e2⟩ := demo_any .wrapping
  exact ⟨a, b, h1, h2, e1, e2⟩

end Verif.Props

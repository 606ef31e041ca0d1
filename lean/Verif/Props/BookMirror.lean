import Verif.Props.BookCore
/-!
# C191: buyers and sellers are treated alike

The mirror image of a history at `k`: buyers become sellers, a price `p` becomes `k - p`.
-/
set_option autoImplicit false
namespace Verif.Props
open Verif Verif.TE Verif.Spec

/-- Mirror image of an order. -/
def mirO (k : Int) (o : Resting) : Resting := { o with price := k - o.price }

/-- Mirror image of a queue: the same orders in the same order. -/
def mirQ (k : Int) (l : List Resting) : List Resting := l.map (mirO k)

/-- Mirror image of a book. -/
def mirB (k : Int) (b : Book) : Book := ⟨mirQ k b.buys, mirQ k b.sells⟩

/-- Mirror image of a command. -/
def mirC (k : Int) : Cmd → Cmd
  | .add s o => .add s.flip (mirO k o)
  | .limit s o => .limit s.flip (mirO k o)
  | .market s q => .market s.flip q
  | .cancel id => .cancel id
  | .modify id p q => .modify id (k - p) q
  | .changeQty id q => .changeQty id q
  | .changePrice id p => .changePrice id (k - p)
  | .remove s p q => .remove s.flip (k - p) q

/-- Mirror image of an answer: only the prices of trades change. -/
def mirR (k : Int) : Out → Out
  | .trade r => .trade (r.map fun t => (t.1.map fun e => (k - e.1, e.2), t.2))
  | o => o

theorem mir_rest (k : Int) (s : BookSide) (o : Resting) : ∀ l, rest s.flip (mirO k o) (mirQ k l) = mirQ k (rest s o l)
  | [] => rfl
  | x :: xs => by
    have ih := mir_rest k s o xs
    have hb : better s.flip (k - o.price) (k - x.price) ↔ better s o.price x.price := by
      cases s <;> simp only [better, BookSide.flip] <;> omega
    simp only [mirQ, List.map_cons, rest] at ih ⊢
    by_cases h : better s o.price x.price
    · rw [if_pos h, if_pos (by exact hb.2 h)]; rfl
    · rw [if_neg h, if_neg (by exact fun q => h (hb.1 q)), ih]; rfl

theorem mir_acc (k : Int) (s : BookSide) (a p : Int) : acceptable s.flip (k - a) (k - p) = acceptable s a p := by
  cases s <;> simp only [acceptable, BookSide.flip, decide_eq_decide] <;> omega

def mirF (k : Int) (f : Fill) : Fill := { f with price := k - f.price }

theorem mir_sweep (k : Int) (ok ok' : Int → Bool) (h : ∀ p, ok' (k - p) = ok p) : ∀ (l : List Resting) (q : Nat),
    sweep ok' q (mirQ k l) = ⟨(sweep ok q l).fills.map (mirF k), (sweep ok q l).rem, mirQ k (sweep ok q l).queue⟩
  | [], q => rfl
  | x :: xs, q => by
    have ih := mir_sweep k ok ok' h xs
    simp only [mirQ, List.map_cons, sweep, mirO, h] at ih ⊢
    split
    · rfl
    · split
      · rfl
      · rw [ih]; rfl

theorem mir_report (k : Int) : ∀ l : List Fill, report (l.map (mirF k)) = (report l).map fun e => (k - e.1, e.2)
  | [] => rfl
  | f :: fs => by
    have ih := mir_report k fs
    simp only [List.map_cons, report, ih]
    rcases report fs with _ | ⟨⟨p, q⟩, r⟩
    · rfl
    · simp only [List.map_cons]
      by_cases hp : f.price = p
      · rw [if_pos hp, if_pos (by simp [mirF, hp])]; simp [mirF]
      · rw [if_neg hp, if_neg (by simp only [mirF]; omega)]; rfl

theorem mir_find (k : Int) (id : Nat) : ∀ l, find id (mirQ k l) = (find id l).map (mirO k)
  | [] => rfl
  | x :: xs => by
    have ih := mir_find k id xs
    simp only [find, mirQ, List.map_cons, List.find?_cons, mirO] at ih ⊢
    by_cases h : x.id = id
    · simp [h, mirO]
    · simp only [h, decide_false]; exact ih

theorem mir_cancel (k : Int) (id : Nat) (l) : Spec.cancel id (mirQ k l) = mirQ k (Spec.cancel id l) := by
  simp only [Spec.cancel, mirQ, List.filter_map]; rfl

theorem mir_setQty (k : Int) (id q : Nat) (l) : setQty id q (mirQ k l) = mirQ k (setQty id q l) := by
  simp only [setQty, mirQ, List.map_map]
  refine List.map_congr_left fun x _ => ?_
  by_cases h : x.id = id <;> simp [mirO, h]

theorem mir_takeNewest (k : Int) : ∀ (l : List Resting) (q : Nat), takeNewest q (mirQ k l) = mirQ k (takeNewest q l)
  | [], q => rfl
  | x :: xs, q => by
    have ih := mir_takeNewest k xs
    simp only [mirQ, List.map_cons, takeNewest, mirO] at ih ⊢
    split
    · rfl
    · exact ih _

theorem mir_removeAt (k p : Int) (q : Nat) (l) : removeAt (k - p) q (mirQ k l) = mirQ k (removeAt p q l) := by
  have e1 : ((fun x : Resting => decide (x.price ≠ k - p)) ∘ mirO k) = fun x => decide (x.price ≠ p) := by
    funext x; exact decide_eq_decide.2 (show k - x.price ≠ k - p ↔ x.price ≠ p by omega)
  have e2 : ((fun x : Resting => decide (x.price = k - p)) ∘ mirO k) = fun x => decide (x.price = p) := by
    funext x; exact decide_eq_decide.2 (show k - x.price = k - p ↔ x.price = p by omega)
  have ht := mir_takeNewest k (l.filter fun x => decide (x.price = p)).reverse q
  simp only [removeAt, mirQ, List.takeWhile_map, List.dropWhile_map, List.filter_map, e1, e2, List.map_append, ← List.map_reverse] at ht ⊢
  rw [ht]
  simp only [List.map_reverse]

theorem mir_volumeAt (k p : Int) (l) : volumeAt (k - p) (mirQ k l) = volumeAt p l := by
  have e2 : ((fun x : Resting => decide (x.price = k - p)) ∘ mirO k) = fun x => decide (x.price = p) := by
    funext x; exact decide_eq_decide.2 (show k - x.price = k - p ↔ x.price = p by omega)
  simp only [volumeAt, volume, mirQ, List.filter_map, e2, List.map_map]
  rfl

theorem mir_own (k : Int) (b : Book) (s : BookSide) : (mirB k b).own s.flip = mirQ k (b.own s) := by cases s <;> rfl
theorem mir_opp (k : Int) (b : Book) (s : BookSide) : (mirB k b).opposite s.flip = mirQ k (b.opposite s) := by cases s <;> rfl
theorem mir_ofSides (k : Int) (s : BookSide) (x y) : Book.ofSides s.flip (mirQ k x) (mirQ k y) = mirB k (Book.ofSides s x y) := by cases s <;> rfl

theorem mir_trade (k : Int) (c : Prop) [Decidable c] (c' : Prop) [Decidable c'] (hc : c ↔ c') (l : List Fill) (q : Nat) :
    (if c' then none else some (report (l.map (mirF k)), q)) = (if c then none else some (report l, q)).map fun t => (t.1.map fun e => (k - e.1, e.2), t.2) := by
  by_cases h : c
  · rw [if_pos h, if_pos (hc.1 h)]; rfl
  · rw [if_neg h, if_neg (fun w => h (hc.2 w)), mir_report]; rfl

theorem mir_submit (k : Int) (b : Book) (s : BookSide) (o : Resting) :
    (mirB k b).submit s.flip (mirO k o) = (mirB k (b.submit s o).1, (b.submit s o).2.map fun t => (t.1.map fun e => (k - e.1, e.2), t.2)) := by
  have hs := mir_sweep k (acceptable s.flip o.price) (acceptable s.flip.flip (k - o.price)) (mir_acc k s.flip o.price) (b.opposite s) o.qty
  simp only [Book.submit, mir_own, mir_opp, show (mirO k o).price = k - o.price from rfl, show (mirO k o).qty = o.qty from rfl]
  rw [hs]
  refine Prod.ext ?_ ?_
  · simp only
    split
    · exact mir_ofSides k s _ _
    · have := mir_rest k s { o with qty := (sweep (acceptable s.flip o.price) o.qty (b.opposite s)).rem } (b.own s)
      simp only [mirO] at this ⊢
      rw [this]
      exact mir_ofSides k s _ _
  · exact mir_trade k _ _ (by simp) _ _

theorem mir_market (k : Int) (b : Book) (s : BookSide) (q : Nat) :
    (mirB k b).market s.flip q = (mirB k (b.market s q).1, (b.market s q).2.map fun t => (t.1.map fun e => (k - e.1, e.2), t.2)) := by
  have hs := mir_sweep k (fun _ => true) (fun _ => true) (fun _ => rfl) (b.opposite s) q
  simp only [Book.market, mir_own, mir_opp]
  rw [hs]
  refine Prod.ext (mir_ofSides k s _ _) ?_
  exact mir_trade k _ _ (by simp [mirQ]) _ _

theorem mir_bookCancel (k : Int) (b : Book) (id : Nat) : (mirB k b).cancel id = mirB k (b.cancel id) := by
  simp only [Book.cancel, mirB, mir_cancel]

/-- No order rests on both sides. -/
def OneSide (b : Book) : Prop := ∀ x ∈ b.sells, ∀ y ∈ b.buys, x.id ≠ y.id

theorem mir_locate (k : Int) {b : Book} (hb : OneSide b) (id : Nat) :
    (mirB k b).locate id = (b.locate id).map fun t => (t.1.flip, mirO k t.2) := by
  simp only [Book.locate, mirB, mir_find]
  rcases h1 : find id b.buys with _ | y
  · rcases h2 : find id b.sells with _ | x <;> simp [BookSide.flip]
  · have h2 : find id b.sells = none := by
      rw [find_eq_none]
      intro x hx he
      obtain ⟨m1, m2⟩ := find_mem h1
      exact hb x hx y m1 (by rw [m2, he])
    simp [h2, BookSide.flip]

theorem mir_step (k : Int) {b : Book} (hb : OneSide b) (c : Cmd) :
    (mirB k b).step (mirC k c) = (mirB k (b.step c).1, mirR k (b.step c).2) := by
  cases c with
  | add s o => simp only [mirC, Book.step, mir_own, mir_opp, mir_rest, mir_ofSides, mirR]
  | limit s o => simp only [mirC, Book.step, mir_submit, mirR]
  | market s q => simp only [mirC, Book.step, mir_market, mirR]
  | cancel id => simp only [mirC, Book.step, mir_bookCancel, mir_locate k hb, mirR, Option.isSome_map]
  | changeQty id q =>
    simp only [mirC, Book.step, mir_locate k hb, mirR, Option.isSome_map]
    simp only [mirB, mir_setQty]
  | remove s p q => simp only [mirC, Book.step, mir_own, mir_opp, mir_removeAt, mir_volumeAt, mir_ofSides, mirR]
  | changePrice id p =>
    simp only [mirC, Book.step, mir_locate k hb]
    rcases b.locate id with _ | ⟨s, x⟩
    · rfl
    · simp only [Option.map_some, mir_own, mir_opp, mir_cancel]
      have := mir_rest k s { x with price := p } (Spec.cancel id (b.own s))
      simp only [mirO] at this ⊢
      rw [this, mir_ofSides]; rfl
  | modify id p q =>
    simp only [mirC, Book.step, mir_locate k hb]
    rcases b.locate id with _ | ⟨s, x⟩
    · rfl
    · simp only [Option.map_some, mir_bookCancel, show (mirO k x).price = k - x.price from rfl]
      by_cases hp : x.price = p
      · rw [if_pos hp, if_pos (by omega)]
        simp only [mirB, mir_setQty, mirR, Option.map_none]
      · rw [if_neg hp, if_neg (by omega)]
        have := mir_submit k (b.cancel id) s ⟨id, p, q⟩
        simp only [mirO] at this
        rw [this]; rfl

theorem mir_run (m : Mode) (k : Int) (cs : List Cmd) : ∀ {b : OrderBook}, b.WF →
    (∀ c ∈ cs, CmdOK c) → (cs.flatMap Cmd.newIds).Nodup →
    (∀ id ∈ cs.flatMap Cmd.newIds, ¬ b.abs.HasId id) →
    vol b.abs + (cs.map Cmd.budget).sum < U64 →
    Book.run (mirB k b.abs) (cs.map (mirC k)) = (mirB k (b.abs.run cs).1, (b.abs.run cs).2.map (mirR k)) := by
  induction cs with
  | nil => intro b _ _ _ _ _; rfl
  | cons c cs ih =>
    intro b wf hok hnd hid hv
    simp only [List.flatMap_cons, List.nodup_append] at hnd
    simp only [List.flatMap_cons, List.mem_append] at hid
    simp only [List.map_cons, List.sum_cons] at hv
    have hvalid : Valid b.abs c :=
      OrderBook.valid_of_ok (hok c (by simp)) (by omega) (fun id h => hid id (Or.inl h))
    obtain ⟨b1, o1, h1, w1, e1⟩ := OrderBook.step_refines m wf c hvalid
    have hs1 : b1.abs = (b.abs.step c).1 := by rw [← e1]
    have hvs := vol_step wf.nodup c
    rw [← hs1] at hvs
    have := ih w1 (fun c hc => hok c (by simp [hc])) hnd.2.1
      (by
        intro id hin hh
        rw [hs1] at hh
        rcases ids_step c hh with h | h
        · exact hid id (Or.inr hin) h
        · exact hnd.2.2 id h id hin rfl)
      (by omega)
    rw [hs1] at this
    have hone : OneSide b.abs := wf.disj
    simp only [List.map_cons, Book.run, mir_step k hone, this]

theorem mir_ids (k : Int) (cs : List Cmd) : (cs.map (mirC k)).flatMap Cmd.newIds = cs.flatMap Cmd.newIds := by
  induction cs with
  | nil => rfl
  | cons c cs ih => simp only [List.map_cons, List.flatMap_cons, ih]; cases c <;> rfl

theorem mir_budget (k : Int) (cs : List Cmd) : (cs.map (mirC k)).map Cmd.budget = cs.map Cmd.budget := by
  induction cs with
  | nil => rfl
  | cons c cs ih => simp only [List.map_cons, ih]; cases c <;> rfl

/-- **C191**. A history of a new book within the contract, and its mirror image at `k` (each client on the other side, each price `p` at `k - p`), whose commands are within the contract too: both
end; every answer of the second run is the mirror image of that of the first (the same orders found, the same quantities traded and left, at the mirrored prices), and the books are mirror
images: the bids of the one are the asks of the other, order by order, in the same priority. -/
theorem C191_mirror (m m' : Mode) (inst inst' : Nat) (k : Int) (cs : List Cmd) (ha : Admissible cs) (hk : ∀ c ∈ cs, CmdOK (mirC k c)) :
    ∃ b b' outs, (OrderBook.init inst).run m cs = .ok (b, outs) ∧
      (OrderBook.init inst').run m' (cs.map (mirC k)) = .ok (b', outs.map (mirR k)) ∧
      b'.abs = mirB k b.abs ∧ b.WF ∧ b'.WF := by
  obtain ⟨b, outs, h1, w1, e1⟩ := OrderBook.run_init m inst ha
  have ha' : Admissible (cs.map (mirC k)) := ⟨by
    intro c hc
    obtain ⟨d, hd, rfl⟩ := List.mem_map.1 hc
    exact hk d hd, by rw [mir_ids]; exact ha.ids, by rw [mir_budget]; exact ha.qty⟩
  obtain ⟨b', outs', h2, w2, e2⟩ := OrderBook.run_init m' inst' ha'
  have hr := mir_run m k cs (OrderBook.wf_init inst) ha.ok ha.ids
    (by intro id _ h; obtain ⟨x, hx, _⟩ := h; simp [OrderBook.abs_init] at hx)
    (by have := ha.qty; simp only [OrderBook.abs_init, vol, volume_nil]; omega)
  have : (b'.abs, outs') = (mirB k b.abs, outs.map (mirR k)) := by
    rw [e2]
    refine hr.trans ?_
    rw [OrderBook.abs_init, ← e1]
  obtain ⟨q1, q2⟩ := Prod.mk.inj this
  exact ⟨b, b', outs, h1, by rw [h2, q2], q1, w1, w2⟩

/-- A history of six commands (two sellers, a buyer who takes the first and part of the second, a change of price, a cancellation, a removal) and its mirror image at 200. -/
def mirDemo : List Cmd :=
  [.limit .sell ⟨1, 101, 5⟩, .limit .sell ⟨2, 102, 5⟩, .limit .buy ⟨3, 102, 7⟩, .limit .buy ⟨4, 99, 2⟩, .changePrice 4 98, .remove .sell 102 1]

theorem mirror_witness (m : Mode) : Admissible mirDemo ∧ (∀ c ∈ mirDemo, CmdOK (mirC 200 c)) ∧
    ∃ b b' outs, (OrderBook.init 7).run m mirDemo = .ok (b, outs) ∧ (OrderBook.init 7).run m (mirDemo.map (mirC 200)) = .ok (b', outs.map (mirR 200)) ∧
      b.abs = ⟨[⟨2, 102, 2⟩], [⟨4, 98, 2⟩]⟩ ∧ b'.abs = ⟨[⟨4, 102, 2⟩], [⟨2, 98, 2⟩]⟩ ∧
      outs = [.trade none, .trade none, .trade (some ([(101, 5), (102, 2)], 0)), .trade none, .found true, .left 0] ∧
      outs.map (mirR 200) = [.trade none, .trade none, .trade (some ([(99, 5), (98, 2)], 0)), .trade none, .found true, .left 0] := by
  have ha : Admissible mirDemo := by
    refine ⟨fun c hc => ?_, by decide, by decide⟩
    simp only [mirDemo, List.mem_cons, List.not_mem_nil, or_false] at hc
    rcases hc with rfl | rfl | rfl | rfl | rfl | rfl <;> simp [CmdOK, RealPrice, I64MIN, I64MAX]
  have hk : ∀ c ∈ mirDemo, CmdOK (mirC 200 c) := by
    intro c hc
    simp only [mirDemo, List.mem_cons, List.not_mem_nil, or_false] at hc
    rcases hc with rfl | rfl | rfl | rfl | rfl | rfl <;> simp [mirC, mirO, CmdOK, RealPrice, I64MIN, I64MAX]
  refine ⟨ha, hk, ?_⟩
  obtain ⟨b, b', outs, h1, h2, h3, _, _⟩ := C191_mirror m m 7 7 200 mirDemo ha hk
  obtain ⟨b0, o0, g1, _, g3⟩ := OrderBook.run_init m 7 ha
  rw [h1] at g1
  obtain ⟨rfl, rfl⟩ := Prod.mk.inj (Except.ok.inj g1)
  have hd : Book.run ⟨[], []⟩ mirDemo = (⟨[⟨2, 102, 2⟩], [⟨4, 98, 2⟩]⟩, [.trade none, .trade none, .trade (some ([(101, 5), (102, 2)], 0)), .trade none, .found true, .left 0]) := by decide
  rw [hd] at g3
  obtain ⟨q1, q2⟩ := Prod.mk.inj g3
  exact ⟨b, b', outs, h1, h2, q1, by rw [h3, q1]; decide, q2, by rw [q2]; decide⟩

end Verif.Props

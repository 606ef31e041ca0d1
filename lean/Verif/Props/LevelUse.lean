import Verif.TE.LevelUse
import Verif.TE.LevelLemmas
import Verif.TE.HalfBookOps
/-!
# A price level used on its own (C175)

Specification: a queue of orders, first come first served, and the quantity that was discarded by clearing.
-/
set_option autoImplicit false
namespace Verif.Props
open Verif Verif.TE

/-- Orders `(id, quantity)`, the oldest first, and what clearing has discarded. -/
structure Line where
  queue : List (Nat × Nat)
  lost : Nat

/-- The quantity waiting. -/
def Line.waiting (s : Line) : Nat := (s.queue.map Prod.snd).sum

/-- Serving `r` units, the oldest order first: what stays, who is done, what is left of `r`. -/
def serve : List (Nat × Nat) → Nat → List (Nat × Nat) × List Nat × Nat
  | [], r => ([], [], r)
  | (id, q) :: rest, r =>
    if r = 0 then ((id, q) :: rest, [], 0)
    else if r < q then ((id, q - r) :: rest, [], 0)
    else ((serve rest (r - q)).1, id :: (serve rest (r - q)).2.1, (serve rest (r - q)).2.2)

/-- The oldest order with this id, with those before and behind it. -/
def findId (id : Nat) : List (Nat × Nat) → Option (List (Nat × Nat) × Nat × List (Nat × Nat))
  | [] => none
  | (k, q) :: rest => if k = id then some ([], q, rest) else (findId id rest).map fun x => ((k, q) :: x.1, x.2)

/-- What a call does and answers. The total shown is what waits plus what clearing discarded. -/
def Line.call (p : Int) (s : Line) : LevelCall → Line × LevelAnswer
  | .add o => if o.price = p then ({ s with queue := s.queue ++ [(o.id, o.qty)] }, .added) else (s, .mismatch)
  | .cancel id =>
    match findId id s.queue with
    | some (a, q, b) => ({ s with queue := a ++ b }, .cancelled q ((Line.mk (a ++ b) s.lost).waiting + s.lost))
    | none => (s, .notFound)
  | .trade q =>
    ({ s with queue := (serve s.queue q).1 },
      .traded (serve s.queue q).2.1 (serve s.queue q).2.2 ((Line.mk (serve s.queue q).1 s.lost).waiting + s.lost))
  | .change id new =>
    match findId id s.queue with
    | some (a, q, b) => ({ s with queue := a ++ (id, new) :: b }, .changed q)
    | none => (s, .notFound)
  | .clear => (⟨[], s.lost + s.waiting⟩, .cleared)

def Line.calls (p : Int) : List LevelCall → Line → Line × List LevelAnswer
  | [], s => (s, [])
  | c :: cs, s => ((Line.calls p cs (s.call p c).1).1, (s.call p c).2 :: (Line.calls p cs (s.call p c).1).2)

/-- The quantity a call brings. -/
def brings : LevelCall → Nat
  | .add o => o.qty
  | .change _ new => new
  | _ => 0

theorem waiting_eq (q : List (Nat × Nat)) (n : Nat) : (Line.mk q n).waiting = sumQ q := rfl

theorem serve_eq (os : List (Nat × Nat)) : ∀ r, serve os r = ((Level.fillQ os r).1, (Level.fillQ os r).2.2, (Level.fillQ os r).2.1) := by
  induction os with
  | nil => intro r; rfl
  | cons o os ih =>
    intro r
    obtain ⟨id, q⟩ := o
    unfold serve Level.fillQ
    by_cases h : r = 0
    · rw [if_pos h, if_pos h]
    · rw [if_neg h, if_neg h]
      by_cases h2 : r < q
      · rw [if_pos h2, if_pos h2]
      · rw [if_neg h2, if_neg h2, ih]

theorem findId_remove (id : Nat) (os : List (Nat × Nat)) : Level.removeFirst id os = (findId id os).map fun x => (x.2.1, x.1 ++ x.2.2) := by
  induction os with
  | nil => rfl
  | cons o os ih =>
    obtain ⟨k, q⟩ := o
    unfold Level.removeFirst findId
    by_cases h : k = id
    · rw [if_pos h, if_pos h]; rfl
    · rw [if_neg h, if_neg h, ih]
      cases findId id os <;> rfl

theorem findId_set (id n : Nat) (os : List (Nat × Nat)) : Level.setFirst id n os = (findId id os).map fun x => (x.2.1, x.1 ++ (id, n) :: x.2.2) := by
  induction os with
  | nil => rfl
  | cons o os ih =>
    obtain ⟨k, q⟩ := o
    unfold Level.setFirst findId
    by_cases h : k = id
    · subst h; rw [if_pos rfl, if_pos rfl]; rfl
    · rw [if_neg h, if_neg h, ih]
      cases findId id os <;> rfl

theorem findId_sum (id : Nat) (os : List (Nat × Nat)) (x : List (Nat × Nat) × Nat × List (Nat × Nat)) (h : findId id os = some x) :
    sumQ os = sumQ x.1 + x.2.1 + sumQ x.2.2 := by
  induction os generalizing x with
  | nil => cases h
  | cons o os ih =>
    obtain ⟨k, q⟩ := o
    unfold findId at h
    by_cases hk : k = id
    · rw [if_pos hk] at h
      cases h
      simp
    · rw [if_neg hk] at h
      cases hf : findId id os with
      | none => rw [hf] at h; cases h
      | some y =>
        rw [hf] at h
        cases h
        have := ih y hf
        simp
        omega

/-- One call. -/
theorem level_call (m : Mode) (l : Level) (s : Line) (c : LevelCall) (ho : l.orders = s.queue) (ht : l.total = sumQ s.queue + s.lost)
    (hb : sumQ s.queue + s.lost + brings c < U64) :
    ∃ l', l.call m c = .ok (l', (s.call l.price c).2) ∧ l'.price = l.price ∧ l'.orders = (s.call l.price c).1.queue ∧
      l'.total = sumQ (s.call l.price c).1.queue + (s.call l.price c).1.lost ∧
      sumQ (s.call l.price c).1.queue + (s.call l.price c).1.lost ≤ sumQ s.queue + s.lost + brings c := by
  cases c with
  | add o =>
    simp only [Level.call, Level.addLimitOrder, Line.call]
    by_cases h : o.price = l.price
    · have h' : ¬ l.price ≠ o.price := fun x => x h.symm
      rw [if_neg h', if_pos h, addU_ok (by simp only [brings] at hb; omega)]
      refine ⟨_, rfl, rfl, ?_, ?_, ?_⟩
      · simp only [ho]
      · simp only [sumQ_append, sumQ_cons, sumQ_nil]; omega
      · simp only [sumQ_append, sumQ_cons, sumQ_nil, brings]; omega
    · have h' : l.price ≠ o.price := fun x => h x.symm
      rw [if_pos h', if_neg h]
      exact ⟨_, rfl, rfl, ho, ht, Nat.le_add_right _ _⟩
  | cancel id =>
    simp only [Level.call, Level.cancelOrder, Line.call]
    rw [ho, findId_remove]
    cases hf : findId id s.queue with
    | none => exact ⟨_, rfl, rfl, ho, ht, Nat.le_add_right _ _⟩
    | some x =>
      have hs := findId_sum _ _ _ hf
      obtain ⟨a, q, b⟩ := x
      simp only [Option.map_some] at hs ⊢
      rw [subU_ok (by omega)]
      refine ⟨{ l with orders := a ++ b, total := l.total - q }, ?_, rfl, rfl, ?_, ?_⟩
      · have : l.total - q = (Line.mk (a ++ b) s.lost).waiting + s.lost := by rw [waiting_eq, sumQ_append]; omega
        rw [← this]; rfl
      · simp only [sumQ_append]; omega
      · simp only [sumQ_append]; omega
  | trade q =>
    simp only [Level.call, Level.trade, Line.call]
    rw [Level.tradeLoop_eq m _ _ _ _ (by rw [ho]; omega), ho, serve_eq]
    have h1 := Level.fillQ_sum s.queue q
    have h2 := Level.fillQ_rem s.queue q
    have e : l.total - (q - (Level.fillQ s.queue q).2.1) = sumQ (Level.fillQ s.queue q).1 + s.lost := by omega
    refine ⟨{ l with orders := (Level.fillQ s.queue q).1, total := l.total - (q - (Level.fillQ s.queue q).2.1) }, ?_, rfl, rfl, e, ?_⟩
    · simp only [waiting_eq, ← e]; rfl
    · simp only; omega
  | change id new =>
    simp only [Level.call, Level.changeQuantity, Line.call]
    rw [ho, findId_set]
    cases hf : findId id s.queue with
    | none => exact ⟨_, rfl, rfl, ho, ht, Nat.le_add_right _ _⟩
    | some x =>
      have hs := findId_sum _ _ _ hf
      obtain ⟨a, q, b⟩ := x
      simp only [Option.map_some, brings] at hs hb ⊢
      rw [addU_ok (by omega)]
      simp only [Res.bind_ok]
      rw [subU_ok (by omega)]
      refine ⟨{ l with orders := a ++ (id, new) :: b, total := l.total + new - q }, rfl, rfl, rfl, ?_, ?_⟩
      · simp only [sumQ_append, sumQ_cons]; omega
      · simp only [sumQ_append, sumQ_cons]; omega
  | clear =>
    refine ⟨_, rfl, rfl, rfl, ?_, ?_⟩
    · show l.total = sumQ [] + (s.lost + sumQ s.queue)
      simp only [sumQ_nil]; omega
    · show sumQ [] + (s.lost + sumQ s.queue) ≤ _
      simp only [sumQ_nil]; omega

theorem level_calls (m : Mode) (cs : List LevelCall) : ∀ (l : Level) (s : Line), l.orders = s.queue → l.total = sumQ s.queue + s.lost →
    sumQ s.queue + s.lost + (cs.map brings).sum < U64 →
    ∃ l', Level.calls m cs l = .ok (l', (Line.calls l.price cs s).2) ∧ l'.price = l.price ∧ l'.orders = (Line.calls l.price cs s).1.queue ∧
      l'.total = (Line.calls l.price cs s).1.waiting + (Line.calls l.price cs s).1.lost := by
  induction cs with
  | nil => intro l s ho ht hb; exact ⟨l, rfl, rfl, ho, ht⟩
  | cons c cs ih =>
    intro l s ho ht hb
    simp only [List.map_cons, List.sum_cons] at hb
    obtain ⟨l1, h1, h2, h3, h4, h5⟩ := level_call m l s c ho ht (by omega)
    obtain ⟨l2, g1, g2, g3, g4⟩ := ih l1 (s.call l.price c).1 h3 h4 (by omega)
    rw [h2] at g1 g2 g3 g4
    exact ⟨l2, by simp only [Level.calls, h1, g1, Res.bind_ok, Line.calls], g2, g3, g4⟩

/-- C175. For every series of calls on a new level (with quantities that add up to less than 2^64), in both build modes: no call panics; the orders are those of the
queue, oldest first, each call answers as the queue does, and the total is the quantity waiting plus everything clearing has ever discarded. -/
theorem C175_level (m : Mode) (p : Int) (cs : List LevelCall) (hb : (cs.map brings).sum < 2 ^ 64) :
    ∃ l, Level.calls m cs (Level.empty p) = .ok (l, (Line.calls p cs ⟨[], 0⟩).2) ∧ l.price = p ∧ l.orders = (Line.calls p cs ⟨[], 0⟩).1.queue ∧
      l.total = (Line.calls p cs ⟨[], 0⟩).1.waiting + (Line.calls p cs ⟨[], 0⟩).1.lost ∧
      l.snapshot = (p, l.total, l.orders.length % 2 ^ 32) := by
  obtain ⟨l, h1, h2, h3, h4⟩ := level_calls m cs (Level.empty p) ⟨[], 0⟩ rfl rfl (by show 0 + 0 + _ < 2 ^ 64; omega)
  refine ⟨l, h1, h2, h3, h4, ?_⟩
  show (l.price, _, _) = _
  rw [h2]
  rfl

/-- What is discarded: nothing without a call of `clear`. -/
theorem lost_calls (p : Int) (cs : List LevelCall) : ∀ s : Line, (∀ c ∈ cs, c ≠ .clear) → (Line.calls p cs s).1.lost = s.lost := by
  induction cs with
  | nil => intro s _; rfl
  | cons c cs ih =>
    intro s h
    show (Line.calls p cs (s.call p c).1).1.lost = _
    rw [ih _ fun x hx => h x (List.mem_cons_of_mem _ hx)]
    have := h c (by simp)
    cases c with
    | clear => exact absurd rfl this
    | add o => simp only [Line.call]; split <;> rfl
    | cancel id => simp only [Line.call]; split <;> rfl
    | trade q => rfl
    | change id n => simp only [Line.call]; split <;> rfl

/-- C175 (total). Without `clear`, the total is what the orders add up to. -/
theorem C175_total (m : Mode) (p : Int) (cs : List LevelCall) (hb : (cs.map brings).sum < 2 ^ 64) (hc : LevelCall.clear ∉ cs) :
    ∃ l as, Level.calls m cs (Level.empty p) = .ok (l, as) ∧ l.total = (l.orders.map Prod.snd).sum := by
  obtain ⟨l, h1, -, h3, h4, -⟩ := C175_level m p cs hb
  refine ⟨l, _, h1, ?_⟩
  rw [h4, h3, lost_calls p cs _ (fun c hx he => hc (he ▸ hx))]
  rfl

/-- C175 (clear, a finding). After orders and `clear`, the level has no orders and still shows the quantity; whatever comes later, it shows at least that much. -/
theorem C175_clear (m : Mode) (p : Int) (cs ds : List LevelCall) (hb : ((cs ++ .clear :: ds).map brings).sum < 2 ^ 64) (hc : LevelCall.clear ∉ cs) :
    ∃ l l' as as', Level.calls m cs (Level.empty p) = .ok (l, as) ∧ Level.calls m (cs ++ .clear :: ds) (Level.empty p) = .ok (l', as') ∧
      (l.orders.map Prod.snd).sum ≤ l'.total ∧ (ds = [] → l'.orders = [] ∧ l'.total = (l.orders.map Prod.snd).sum) := by
  have happ : ∀ (xs ys : List LevelCall) (s : Line), (Line.calls p (xs ++ ys) s).1 = (Line.calls p ys (Line.calls p xs s).1).1 := by
    intro xs
    induction xs with
    | nil => intro ys s; rfl
    | cons x xs ih => intro ys s; exact ih ys _
  have hlost : ∀ (xs : List LevelCall) (s : Line), s.lost ≤ (Line.calls p xs s).1.lost := by
    intro xs
    induction xs with
    | nil => intro s; exact Nat.le_refl _
    | cons c xs ih =>
      intro s
      refine Nat.le_trans ?_ (ih (s.call p c).1)
      cases c with
      | clear => exact Nat.le_add_right _ _
      | add o => simp only [Line.call]; split <;> exact Nat.le_refl _
      | cancel id => simp only [Line.call]; split <;> exact Nat.le_refl _
      | trade q => exact Nat.le_refl _
      | change id n => simp only [Line.call]; split <;> exact Nat.le_refl _
  have hcs : (cs.map brings).sum < 2 ^ 64 := by
    rw [List.map_append, List.sum_append] at hb; omega
  obtain ⟨l, h1, -, h3, h4, -⟩ := C175_level m p cs hcs
  obtain ⟨l', g1, -, g3, g4, -⟩ := C175_level m p _ hb
  rw [happ] at g3 g4
  have e : (Line.calls p (.clear :: ds) (Line.calls p cs ⟨[], 0⟩).1).1 =
      (Line.calls p ds ⟨[], (Line.calls p cs ⟨[], 0⟩).1.lost + (Line.calls p cs ⟨[], 0⟩).1.waiting⟩).1 := rfl
  rw [e] at g3 g4
  have hl := hlost ds ⟨[], (Line.calls p cs ⟨[], 0⟩).1.lost + (Line.calls p cs ⟨[], 0⟩).1.waiting⟩
  have hl0 := lost_calls p cs ⟨[], 0⟩ (fun c hx he => hc (he ▸ hx))
  have hw : (l.orders.map Prod.snd).sum = (Line.calls p cs ⟨[], 0⟩).1.waiting := by rw [h3]; rfl
  refine ⟨l, l', _, _, h1, g1, ?_, ?_⟩
  · rw [hw, g4]
    simp only at hl
    omega
  · rintro rfl
    refine ⟨g3, ?_⟩
    rw [hw, g4]
    show 0 + _ = _
    simp only [Line.calls]
    simp only at hl0
    omega

/-- C175 (constructors). A level made with an order is a new level with that order added; a side made with an order is a new side with it added; and a cleared side is
a new side. -/
theorem C175_constructors (m : Mode) (o : LimitOrder) (h : HalfBook) (hq : o.qty < 2 ^ 64) (h1 : -2 ^ 63 ≤ o.price) (h2 : o.price < 2 ^ 63) :
    (Level.empty o.price).addLimitOrder m o = .ok (Level.initWithOrder o, .ok ()) ∧
    (HalfBook.init o.side).addLimitOrder m o = .ok (HalfBook.initWithLimitOrder o, .ok ()) ∧
    h.clear = HalfBook.init h.side := by
  refine ⟨?_, ?_, rfl⟩
  · unfold Level.addLimitOrder Level.empty
    rw [if_neg (by simp), addU_ok (by show 0 + _ < 2 ^ 64; omega)]
    simp [Level.initWithOrder]
  · obtain ⟨pr, q, sd, id⟩ := o
    unfold HalfBook.addLimitOrder HalfBook.init
    rw [if_neg (by simp)]
    simp only at hq h1 h2
    have hb : HalfBook.updateBest ({ side := sd, levels := [], cache := fun _ => none, best := HalfBook.sentinel sd, total := 0 } : HalfBook) pr =
        { side := sd, levels := [], cache := fun _ => none, best := pr, total := 0 } := by
      cases sd
      · simp only [HalfBook.updateBest, HalfBook.sentinel, I64MAX]; congr 1; omega
      · simp only [HalfBook.updateBest, HalfBook.sentinel, I64MIN]; congr 1; omega
    simp only [hb, BMap.get]
    rw [addU_ok (by show 0 + _ < 2 ^ 64; omega)]
    simp [HalfBook.initWithLimitOrder, BMap.insert]

/-- A case: two orders, a trade through the first, a change, a cancel, `clear`, and a new order. -/
theorem C175_example : ∃ l, Level.calls .checked
      [.add ⟨100, 5, .ask, 1⟩, .add ⟨100, 7, .ask, 2⟩, .add ⟨101, 1, .ask, 9⟩, .trade 6, .change 2 10, .cancel 3, .clear, .add ⟨100, 2, .ask, 4⟩] (Level.empty 100) =
    .ok (l, [.added, .added, .mismatch, .traded [1] 0 6, .changed 6, .notFound, .cleared, .added]) ∧ l = ⟨100, [(4, 2)], 12⟩ :=
  ⟨_, by decide +kernel, rfl⟩

end Verif.Props

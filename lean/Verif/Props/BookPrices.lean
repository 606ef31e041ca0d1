import Mathlib.Order.Monotone.Basic
import Mathlib.Order.Lattice
import Verif.Props.BookCore
/-!
# C192: only the order of prices matters

The image of a history under a function `f` of prices: each price `p` becomes `f p`.
-/
set_option autoImplicit false
namespace Verif.Props
open Verif Verif.TE Verif.Spec

/-- Image of an order. -/
def relO (f : Int → Int) (o : Resting) : Resting := { o with price := f o.price }

/-- Image of a queue: the same orders in the same order. -/
def relQ (f : Int → Int) (l : List Resting) : List Resting := l.map (relO f)

/-- Image of a book. -/
def relB (f : Int → Int) (b : Book) : Book := ⟨relQ f b.sells, relQ f b.buys⟩

/-- Image of a command. -/
def relC (f : Int → Int) : Cmd → Cmd
  | .add s o => .add s (relO f o)
  | .limit s o => .limit s (relO f o)
  | .market s q => .market s q
  | .cancel id => .cancel id
  | .modify id p q => .modify id (f p) q
  | .changeQty id q => .changeQty id q
  | .changePrice id p => .changePrice id (f p)
  | .remove s p q => .remove s (f p) q

/-- Image of an answer: only the prices of trades change. -/
def relR (f : Int → Int) : Out → Out
  | .trade r => .trade (r.map fun t => (t.1.map fun e => (f e.1, e.2), t.2))
  | o => o

theorem rel_rest {f : Int → Int} (hf : StrictMono f) (s : BookSide) (o : Resting) : ∀ l, rest s (relO f o) (relQ f l) = relQ f (rest s o l)
  | [] => rfl
  | x :: xs => by
    have ih := rel_rest hf s o xs
    have hb : better s (f o.price) (f x.price) ↔ better s o.price x.price := by
      cases s <;> simp only [better] <;> exact hf.lt_iff_lt
    simp only [relQ, List.map_cons, rest] at ih ⊢
    by_cases h : better s o.price x.price
    · rw [if_pos h, if_pos (by exact hb.2 h)]; rfl
    · rw [if_neg h, if_neg (by exact fun q => h (hb.1 q)), ih]; rfl

theorem rel_acc {f : Int → Int} (hf : StrictMono f) (s : BookSide) (a p : Int) : acceptable s (f a) (f p) = acceptable s a p := by
  cases s <;> simp only [acceptable, decide_eq_decide] <;> exact hf.le_iff_le

def relF (f : Int → Int) (u : Fill) : Fill := { u with price := f u.price }

theorem rel_sweep {f : Int → Int} (hf : StrictMono f) (ok ok' : Int → Bool) (h : ∀ p, ok' (f p) = ok p) : ∀ (l : List Resting) (q : Nat),
    sweep ok' q (relQ f l) = ⟨(sweep ok q l).fills.map (relF f), (sweep ok q l).rem, relQ f (sweep ok q l).queue⟩
  | [], q => rfl
  | x :: xs, q => by
    have ih := rel_sweep hf ok ok' h xs
    simp only [relQ, List.map_cons, sweep, relO, h] at ih ⊢
    split
    · rfl
    · split
      · rfl
      · rw [ih]; rfl

theorem rel_report {f : Int → Int} (hf : StrictMono f) : ∀ l : List Fill, report (l.map (relF f)) = (report l).map fun e => (f e.1, e.2)
  | [] => rfl
  | u :: us => by
    have ih := rel_report hf us
    simp only [List.map_cons, report, ih]
    rcases report us with _ | ⟨⟨p, q⟩, r⟩
    · rfl
    · simp only [List.map_cons]
      by_cases hp : u.price = p
      · rw [if_pos hp, if_pos (by simp [relF, hp])]; simp [relF]
      · rw [if_neg hp, if_neg (by simp only [relF]; exact fun q => hp (hf.injective q))]; rfl

theorem rel_find {f : Int → Int} (hf : StrictMono f) (id : Nat) : ∀ l, find id (relQ f l) = (find id l).map (relO f)
  | [] => rfl
  | x :: xs => by
    have ih := rel_find hf id xs
    simp only [find, relQ, List.map_cons, List.find?_cons, relO] at ih ⊢
    by_cases h : x.id = id
    · simp [h, relO]
    · simp only [h, decide_false]; exact ih

theorem rel_cancel {f : Int → Int} (hf : StrictMono f) (id : Nat) (l) : Spec.cancel id (relQ f l) = relQ f (Spec.cancel id l) := by
  simp only [Spec.cancel, relQ, List.filter_map]; rfl

theorem rel_setQty {f : Int → Int} (hf : StrictMono f) (id q : Nat) (l) : setQty id q (relQ f l) = relQ f (setQty id q l) := by
  simp only [setQty, relQ, List.map_map]
  refine List.map_congr_left fun x _ => ?_
  by_cases h : x.id = id <;> simp [relO, h]

theorem rel_takeNewest {f : Int → Int} (hf : StrictMono f) : ∀ (l : List Resting) (q : Nat), takeNewest q (relQ f l) = relQ f (takeNewest q l)
  | [], q => rfl
  | x :: xs, q => by
    have ih := rel_takeNewest hf xs
    simp only [relQ, List.map_cons, takeNewest, relO] at ih ⊢
    split
    · rfl
    · exact ih _

theorem rel_removeAt {f : Int → Int} (hf : StrictMono f) (p : Int) (q : Nat) (l) : removeAt (f p) q (relQ f l) = relQ f (removeAt p q l) := by
  have e1 : ((fun x : Resting => decide (x.price ≠ f p)) ∘ relO f) = fun x => decide (x.price ≠ p) := by
    funext x; exact decide_eq_decide.2 (not_congr hf.injective.eq_iff)
  have e2 : ((fun x : Resting => decide (x.price = f p)) ∘ relO f) = fun x => decide (x.price = p) := by
    funext x; exact decide_eq_decide.2 hf.injective.eq_iff
  have ht := rel_takeNewest hf (l.filter fun x => decide (x.price = p)).reverse q
  simp only [removeAt, relQ, List.takeWhile_map, List.dropWhile_map, List.filter_map, e1, e2, List.map_append, ← List.map_reverse] at ht ⊢
  rw [ht]
  simp only [List.map_reverse]

theorem rel_volumeAt {f : Int → Int} (hf : StrictMono f) (p : Int) (l) : volumeAt (f p) (relQ f l) = volumeAt p l := by
  have e2 : ((fun x : Resting => decide (x.price = f p)) ∘ relO f) = fun x => decide (x.price = p) := by
    funext x; exact decide_eq_decide.2 hf.injective.eq_iff
  simp only [volumeAt, volume, relQ, List.filter_map, e2, List.map_map]
  rfl

theorem rel_own {f : Int → Int} (hf : StrictMono f) (b : Book) (s : BookSide) : (relB f b).own s = relQ f (b.own s) := by cases s <;> rfl
theorem rel_opp {f : Int → Int} (hf : StrictMono f) (b : Book) (s : BookSide) : (relB f b).opposite s = relQ f (b.opposite s) := by cases s <;> rfl
theorem rel_ofSides {f : Int → Int} (hf : StrictMono f) (s : BookSide) (x y) : Book.ofSides s (relQ f x) (relQ f y) = relB f (Book.ofSides s x y) := by cases s <;> rfl

theorem rel_trade {f : Int → Int} (hf : StrictMono f) (c : Prop) [Decidable c] (c' : Prop) [Decidable c'] (hc : c ↔ c') (l : List Fill) (q : Nat) :
    (if c' then none else some (report (l.map (relF f)), q)) = (if c then none else some (report l, q)).map fun t => (t.1.map fun e => (f e.1, e.2), t.2) := by
  by_cases h : c
  · rw [if_pos h, if_pos (hc.1 h)]; rfl
  · rw [if_neg h, if_neg (fun w => h (hc.2 w)), rel_report hf]; rfl

theorem rel_submit {f : Int → Int} (hf : StrictMono f) (b : Book) (s : BookSide) (o : Resting) :
    (relB f b).submit s (relO f o) = (relB f (b.submit s o).1, (b.submit s o).2.map fun t => (t.1.map fun e => (f e.1, e.2), t.2)) := by
  have hs := rel_sweep hf (acceptable s.flip o.price) (acceptable s.flip (f o.price)) (rel_acc hf s.flip o.price) (b.opposite s) o.qty
  simp only [Book.submit, rel_own hf, rel_opp hf, show (relO f o).price = f o.price from rfl, show (relO f o).qty = o.qty from rfl]
  rw [hs]
  refine Prod.ext ?_ ?_
  · simp only
    split
    · exact rel_ofSides hf s _ _
    · have := rel_rest hf s { o with qty := (sweep (acceptable s.flip o.price) o.qty (b.opposite s)).rem } (b.own s)
      simp only [relO] at this ⊢
      rw [this]
      exact rel_ofSides hf s _ _
  · exact rel_trade hf _ _ (by simp) _ _

theorem rel_market {f : Int → Int} (hf : StrictMono f) (b : Book) (s : BookSide) (q : Nat) :
    (relB f b).market s q = (relB f (b.market s q).1, (b.market s q).2.map fun t => (t.1.map fun e => (f e.1, e.2), t.2)) := by
  have hs := rel_sweep hf (fun _ => true) (fun _ => true) (fun _ => rfl) (b.opposite s) q
  simp only [Book.market, rel_own hf, rel_opp hf]
  rw [hs]
  refine Prod.ext (rel_ofSides hf s _ _) ?_
  exact rel_trade hf _ _ (by simp [relQ]) _ _

theorem rel_bookCancel {f : Int → Int} (hf : StrictMono f) (b : Book) (id : Nat) : (relB f b).cancel id = relB f (b.cancel id) := by
  simp only [Book.cancel, relB, rel_cancel hf]

theorem rel_locate {f : Int → Int} (hf : StrictMono f) (b : Book) (id : Nat) :
    (relB f b).locate id = (b.locate id).map fun t => (t.1, relO f t.2) := by
  simp only [Book.locate, relB, rel_find hf]
  rcases find id b.sells with _ | x
  · rcases find id b.buys with _ | y <;> rfl
  · rfl

theorem rel_step {f : Int → Int} (hf : StrictMono f) (b : Book) (c : Cmd) :
    (relB f b).step (relC f c) = (relB f (b.step c).1, relR f (b.step c).2) := by
  cases c with
  | add s o => simp only [relC, Book.step, rel_own hf, rel_opp hf, rel_rest hf, rel_ofSides hf, relR]
  | limit s o => simp only [relC, Book.step, rel_submit hf, relR]
  | market s q => simp only [relC, Book.step, rel_market hf, relR]
  | cancel id => simp only [relC, Book.step, rel_bookCancel hf, rel_locate hf, relR, Option.isSome_map]
  | changeQty id q =>
    simp only [relC, Book.step, rel_locate hf, relR, Option.isSome_map]
    simp only [relB, rel_setQty hf]
  | remove s p q => simp only [relC, Book.step, rel_own hf, rel_opp hf, rel_removeAt hf, rel_volumeAt hf, rel_ofSides hf, relR]
  | changePrice id p =>
    simp only [relC, Book.step, rel_locate hf]
    rcases b.locate id with _ | ⟨s, x⟩
    · rfl
    · simp only [Option.map_some, rel_own hf, rel_opp hf, rel_cancel hf]
      have := rel_rest hf s { x with price := p } (Spec.cancel id (b.own s))
      simp only [relO] at this ⊢
      rw [this, rel_ofSides hf]; rfl
  | modify id p q =>
    simp only [relC, Book.step, rel_locate hf]
    rcases b.locate id with _ | ⟨s, x⟩
    · rfl
    · simp only [Option.map_some, rel_bookCancel hf, show (relO f x).price = f x.price from rfl]
      by_cases hp : x.price = p
      · rw [if_pos hp, if_pos (by rw [hp])]
        simp only [relB, rel_setQty hf, relR, Option.map_none]
      · rw [if_neg hp, if_neg (fun q => hp (hf.injective q))]
        have := rel_submit hf (b.cancel id) s ⟨id, p, q⟩
        simp only [relO] at this
        rw [this]; rfl

theorem rel_run {f : Int → Int} (hf : StrictMono f) (cs : List Cmd) : ∀ b : Book,
    Book.run (relB f b) (cs.map (relC f)) = (relB f (b.run cs).1, (b.run cs).2.map (relR f)) := by
  induction cs with
  | nil => intro b; rfl
  | cons c cs ih =>
    intro b
    simp only [List.map_cons, Book.run, rel_step hf, ih]

theorem rel_ids {f : Int → Int} (hf : StrictMono f) (cs : List Cmd) : (cs.map (relC f)).flatMap Cmd.newIds = cs.flatMap Cmd.newIds := by
  induction cs with
  | nil => rfl
  | cons c cs ih => simp only [List.map_cons, List.flatMap_cons, ih]; cases c <;> rfl

theorem rel_budget {f : Int → Int} (hf : StrictMono f) (cs : List Cmd) : (cs.map (relC f)).map Cmd.budget = cs.map Cmd.budget := by
  induction cs with
  | nil => rfl
  | cons c cs ih => simp only [List.map_cons, ih]; cases c <;> rfl

/-- **C192**. A history of a new book within the contract, and the same history with each price `p` at `f p`, for any strictly increasing `f`, whose commands are within the contract too: both
end; every answer of the second run is that of the first with the prices mapped, and the books hold the same orders in the same priority on the same sides, at the mapped prices. -/
theorem C192_order_only (m m' : Mode) (inst inst' : Nat) (f : Int → Int) (hf : StrictMono f) (cs : List Cmd) (ha : Admissible cs) (hk : ∀ c ∈ cs, CmdOK (relC f c)) :
    ∃ b b' outs, (OrderBook.init inst).run m cs = .ok (b, outs) ∧
      (OrderBook.init inst').run m' (cs.map (relC f)) = .ok (b', outs.map (relR f)) ∧
      b'.abs = relB f b.abs ∧ b.WF ∧ b'.WF := by
  obtain ⟨b, outs, h1, w1, e1⟩ := OrderBook.run_init m inst ha
  have ha' : Admissible (cs.map (relC f)) := ⟨by
    intro c hc
    obtain ⟨d, hd, rfl⟩ := List.mem_map.1 hc
    exact hk d hd, by rw [rel_ids hf]; exact ha.ids, by rw [rel_budget hf]; exact ha.qty⟩
  obtain ⟨b', outs', h2, w2, e2⟩ := OrderBook.run_init m' inst' ha'
  have : (b'.abs, outs') = (relB f b.abs, outs.map (relR f)) := by
    rw [e2]
    refine (rel_run hf cs ⟨[], []⟩).trans ?_
    rw [← e1]
  obtain ⟨q1, q2⟩ := Prod.mk.inj this
  exact ⟨b, b', outs, h1, by rw [h2, q2], q1, w1, w2⟩

/-- A history of six commands (two sellers, a buyer who takes the first and part of the second, a market buyer, a change of price, a removal). -/
def relDemo : List Cmd :=
  [.limit .sell ⟨1, 101, 5⟩, .limit .sell ⟨2, 102, 5⟩, .limit .buy ⟨3, 102, 7⟩, .market .buy 1, .limit .buy ⟨4, 99, 2⟩, .changePrice 4 98]

theorem order_only_witness (m : Mode) : Admissible relDemo ∧ StrictMono (fun p : Int => 10 * p - 7) ∧ (∀ c ∈ relDemo, CmdOK (relC (fun p => 10 * p - 7) c)) ∧
    ∃ b b' outs, (OrderBook.init 7).run m relDemo = .ok (b, outs) ∧ (OrderBook.init 7).run m (relDemo.map (relC fun p => 10 * p - 7)) = .ok (b', outs.map (relR fun p => 10 * p - 7)) ∧
      b.abs = ⟨[⟨2, 102, 2⟩], [⟨4, 98, 2⟩]⟩ ∧ b'.abs = ⟨[⟨2, 1013, 2⟩], [⟨4, 973, 2⟩]⟩ ∧
      outs = [.trade none, .trade none, .trade (some ([(101, 5), (102, 2)], 0)), .trade (some ([(102, 1)], 0)), .trade none, .found true] ∧
      outs.map (relR fun p => 10 * p - 7) = [.trade none, .trade none, .trade (some ([(1003, 5), (1013, 2)], 0)), .trade (some ([(1013, 1)], 0)), .trade none, .found true] := by
  have ha : Admissible relDemo := by
    refine ⟨fun c hc => ?_, by decide, by decide⟩
    simp only [relDemo, List.mem_cons, List.not_mem_nil, or_false] at hc
    rcases hc with rfl | rfl | rfl | rfl | rfl | rfl <;> simp [CmdOK, RealPrice, I64MIN, I64MAX]
  have hf : StrictMono (fun p : Int => 10 * p - 7) := fun a b h => by show 10 * a - 7 < 10 * b - 7; omega
  have hk : ∀ c ∈ relDemo, CmdOK (relC (fun p => 10 * p - 7) c) := by
    intro c hc
    simp only [relDemo, List.mem_cons, List.not_mem_nil, or_false] at hc
    rcases hc with rfl | rfl | rfl | rfl | rfl | rfl <;> simp [relC, relO, CmdOK, RealPrice, I64MIN, I64MAX]
  refine ⟨ha, hf, hk, ?_⟩
  obtain ⟨b, b', outs, h1, h2, h3, _, _⟩ := C192_order_only m m 7 7 _ hf relDemo ha hk
  obtain ⟨b0, o0, g1, _, g3⟩ := OrderBook.run_init m 7 ha
  rw [h1] at g1
  obtain ⟨rfl, rfl⟩ := Prod.mk.inj (Except.ok.inj g1)
  have hd : Book.run ⟨[], []⟩ relDemo = (⟨[⟨2, 102, 2⟩], [⟨4, 98, 2⟩]⟩, [.trade none, .trade none, .trade (some ([(101, 5), (102, 2)], 0)), .trade (some ([(102, 1)], 0)), .trade none, .found true]) := by decide
  rw [hd] at g3
  obtain ⟨q1, q2⟩ := Prod.mk.inj g3
  exact ⟨b, b', outs, h1, h2, q1, by rw [h3, q1]; decide, q2, by rw [q2]; decide⟩

end Verif.Props

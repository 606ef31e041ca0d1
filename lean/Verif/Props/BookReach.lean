import Verif.TE.MarketSell
/-!
# Reachable books

The vocabulary in which the order-book properties are stated.
-/
set_option autoImplicit false
namespace Verif.Props
open Verif Verif.TE Verif.Spec

/-- Books a client can reach from the empty book by commands satisfying `P`, each within the contract
`Valid` (positive quantities, unused ids for new orders, prices strictly between the two sentinel prices,
side totals below 2^64, no market sell) at the moment it is issued. Ids may be reused once the earlier
order is gone. -/
inductive Reachable (P : Cmd → Prop) (m : Mode) (inst : Nat) : OrderBook → Prop
  | init : Reachable P m inst (OrderBook.init inst)
  | step {b b' : OrderBook} {c : Cmd} {out : Out} : Reachable P m inst b → P c → Valid b.abs c →
      b.step m c = .ok (b', out) → Reachable P m inst b'

/-- All commands. -/
abbrev AnyCmd : Cmd → Prop := fun _ => True

theorem Reachable.wf {P : Cmd → Prop} {m : Mode} {inst : Nat} {b : OrderBook} (h : Reachable P m inst b) :
    b.WF := by
  induction h with
  | init => exact OrderBook.wf_init inst
  | step _ _ hv hs ih =>
    obtain ⟨b1, o1, h1, w1, _⟩ := OrderBook.step_refines m ih _ hv
    rw [hs] at h1
    simp only [Except.ok.injEq, Prod.mk.injEq] at h1
    rw [h1.1]; exact w1

theorem Reachable.mono {P Q : Cmd → Prop} {m : Mode} {inst : Nat} {b : OrderBook} (hpq : ∀ c, P c → Q c)
    (h : Reachable P m inst b) : Reachable Q m inst b := by
  induction h with
  | init => exact .init
  | step _ hp hv hs ih => exact .step ih (hpq _ hp) hv hs

theorem reachable_append {P : Cmd → Prop} {m : Mode} {inst : Nat} (cs : List Cmd) :
    ∀ {b : OrderBook}, Reachable P m inst b →
    (∀ c ∈ cs, P c) → (∀ c ∈ cs, CmdOK c) → (cs.flatMap Cmd.newIds).Nodup →
    (∀ id ∈ cs.flatMap Cmd.newIds, ¬ b.abs.HasId id) →
    vol b.abs + (cs.map Cmd.budget).sum < U64 →
    ∃ b' outs, b.run m cs = .ok (b', outs) ∧ Reachable P m inst b' ∧ (b'.abs, outs) = b.abs.run cs := by
  induction cs with
  | nil => intro b hr _ _ _ _ _; exact ⟨b, [], rfl, hr, rfl⟩
  | cons c cs ih =>
    intro b hr hP hok hnd hid hv
    simp only [List.flatMap_cons, List.nodup_append] at hnd
    simp only [List.flatMap_cons, List.mem_append] at hid
    simp only [List.map_cons, List.sum_cons] at hv
    have wf := hr.wf
    have hvalid : Valid b.abs c :=
      OrderBook.valid_of_ok (hok c (by simp)) (by omega) (fun id h => hid id (Or.inl h))
    obtain ⟨b1, o1, h1, w1, e1⟩ := OrderBook.step_refines m wf c hvalid
    have hs1 : b1.abs = (b.abs.step c).1 := by rw [← e1]
    have ho1 : o1 = (b.abs.step c).2 := by rw [← e1]
    have hvs := vol_step wf.nodup c
    rw [← hs1] at hvs
    obtain ⟨b2, os, h2, w2, e2⟩ := ih (.step hr (hP c (by simp)) hvalid h1)
      (fun c hc => hP c (by simp [hc])) (fun c hc => hok c (by simp [hc])) hnd.2.1
      (by
        intro id hin hh
        rw [hs1] at hh
        rcases ids_step c hh with h | h
        · exact hid id (Or.inr hin) h
        · exact hnd.2.2 id h id hin rfl)
      (by omega)
    refine ⟨b2, o1 :: os, ?_, w2, ?_⟩
    · simp [OrderBook.run, h1, h2]
    · simp only [Book.run]
      rw [← hs1, ← e2, ← ho1]

/-- Every admissible history leads to a reachable book. -/
theorem reachable_of_history {P : Cmd → Prop} (m : Mode) (inst : Nat) {cs : List Cmd} (ha : Admissible cs)
    (hP : ∀ c ∈ cs, P c) :
    ∃ b outs, (OrderBook.init inst).run m cs = .ok (b, outs) ∧ Reachable P m inst b ∧
      (b.abs, outs) = Book.run ⟨[], []⟩ cs := by
  have := reachable_append (P := P) (m := m) (inst := inst) cs .init hP ha.ok ha.ids
    (by intro id _ h; obtain ⟨x, hx, _⟩ := h; simp [OrderBook.abs_init] at hx)
    (by have := ha.qty; simp only [OrderBook.abs_init, vol, volume_nil]; omega)
  rwa [OrderBook.abs_init] at this

/-! ## A concrete reachable book, used to show that the theorems below are not vacuous -/

/-- A history with partial fills, several orders per level, a cancel, re-pricing and a market buy. -/
def demo : List Cmd :=
  [.limit .sell ⟨1, 101, 10⟩, .limit .sell ⟨2, 101, 4⟩, .limit .sell ⟨3, 103, 6⟩,
   .limit .buy ⟨4, 99, 5⟩, .limit .buy ⟨5, 99, 7⟩, .limit .buy ⟨6, 98, 9⟩,
   .limit .buy ⟨7, 101, 3⟩, .cancel 4, .modify 6 97 8, .market .buy 2, .changeQty 3 5, .remove .buy 99 1]

theorem demo_admissible : Admissible demo := by
  constructor
  · intro c hc
    simp only [demo, List.mem_cons, List.not_mem_nil, or_false] at hc
    rcases hc with rfl | rfl | rfl | rfl | rfl | rfl | rfl | rfl | rfl | rfl | rfl | rfl <;>
      simp [CmdOK, RealPrice, I64MIN, I64MAX]
  · decide
  · decide

/-- The contents of the demo book. -/
def demoBook : Book :=
  ⟨[⟨1, 101, 5⟩, ⟨2, 101, 4⟩, ⟨3, 103, 5⟩], [⟨5, 99, 6⟩, ⟨6, 97, 8⟩]⟩

theorem demo_reachable (m : Mode) : ∃ b, Reachable Cmd.isMatching m 7 b ∧ b.abs = demoBook := by
  obtain ⟨b, outs, _, hr, he⟩ := reachable_of_history (P := Cmd.isMatching) m 7 demo_admissible (by
    intro c hc
    simp only [demo, List.mem_cons, List.not_mem_nil, or_false] at hc
    rcases hc with rfl | rfl | rfl | rfl | rfl | rfl | rfl | rfl | rfl | rfl | rfl | rfl <;> trivial)
  refine ⟨b, hr, ?_⟩
  have : b.abs = (Book.run ⟨[], []⟩ demo).1 := by rw [← he]
  rw [this]; decide

theorem demo_any (m : Mode) : ∃ b, Reachable AnyCmd m 7 b ∧ b.abs = demoBook := by
  obtain ⟨b, h, e⟩ := demo_reachable m
  exact ⟨b, h.mono (fun _ _ => trivial), e⟩

end Verif.Props

import Verif.TE.BookRefine
import Mathlib.Data.List.TakeWhile
/-!
# Whole histories of order-book commands
-/
namespace Verif.TE
open Verif Verif.Spec

/-- Per-command part of the contract, independent of the state. -/
def CmdOK : Cmd → Prop
  | .add _ o | .limit _ o => 0 < o.qty ∧ RealPrice o.price
  | .market s _ => s = .buy
  | .changeQty _ q => 0 < q
  | .changePrice _ p => RealPrice p
  | .modify _ p q => 0 < q ∧ RealPrice p
  | .cancel _ | .remove _ _ _ => True

/-- A client history within the contract: positive quantities, prices strictly between the sentinels,
new orders under pairwise distinct ids, all submitted quantities together below 2^64, no market sells. -/
structure Admissible (cs : List Cmd) : Prop where
  ok : ∀ c ∈ cs, CmdOK c
  ids : (cs.flatMap Cmd.newIds).Nodup
  qty : (cs.map Cmd.budget).sum < U64

namespace Spec'

theorem volume_rest (s o q) : volume (rest s o q) = volume q + o.qty := by
  induction q with
  | nil => simp [rest]
  | cons y q ih =>
    simp only [rest]; split
    · simp; omega
    · simp [ih]; omega

theorem volume_setQty {id n : Nat} : ∀ {q : List Resting}, (q.map (·.id)).Nodup → volume (setQty id n q) ≤ volume q + n := by
  intro q
  induction q with
  | nil => intro _; simp [setQty]
  | cons x q ih =>
    intro h
    simp only [List.map_cons, List.nodup_cons] at h
    by_cases hx : x.id = id
    · have hs : setQty id n q = q := setQty_self (fun o ho he => h.1 (List.mem_map.2 ⟨o, ho, by rw [he, hx]⟩))
      simp only [setQty, List.map_cons] at hs ⊢
      rw [hs]; simp [hx]; omega
    · have := ih h.2
      simp only [setQty, List.map_cons] at this ⊢
      simp [hx]; omega

theorem volume_takeNewest (q) : ∀ n, volume (takeNewest n q) ≤ volume q := by
  induction q with
  | nil => intro n; simp [takeNewest]
  | cons x q ih =>
    intro n
    simp only [takeNewest]; split
    · simp
    · have := ih (n - x.qty); simp; omega

theorem volume_filter_le (f : Resting → Bool) (q) : volume (q.filter f) ≤ volume q := by
  induction q with
  | nil => simp
  | cons x q ih => rw [List.filter_cons]; split <;> simp <;> omega

theorem volume_split (f : Resting → Bool) (q) : volume (q.filter f) + volume (q.filter (fun x => !f x)) = volume q := by
  induction q with
  | nil => simp
  | cons x q ih => cases h : f x <;> simp [h] <;> omega

theorem volume_removeAt (p n q) : volume (removeAt p n q) ≤ volume q := by
  unfold removeAt
  simp only [volume_append, volume_reverse]
  have h1 := volume_takeNewest (q.filter (fun x => decide (x.price = p))).reverse n
  rw [volume_reverse] at h1
  have h2 : volume (q.takeWhile (fun x => decide (x.price ≠ p))) +
      volume ((q.dropWhile (fun x => decide (x.price ≠ p))).filter (fun x => decide (x.price ≠ p))) =
      volume (q.filter (fun x => decide (x.price ≠ p))) := by
    conv_rhs => rw [← List.takeWhile_append_dropWhile (p := fun x => decide (x.price ≠ p)) (l := q)]
    rw [List.filter_append, volume_append]
    congr 1
    congr 1
    symm
    rw [List.filter_eq_self]
    intro a ha
    exact List.mem_takeWhile_imp (p := fun x : Resting => decide (x.price ≠ p)) ha
  have h3 := volume_split (fun x => decide (x.price = p)) q
  have h4 : (fun x : Resting => !decide (x.price = p)) = (fun x => decide (x.price ≠ p)) := by
    funext x; simp
  rw [h4] at h3
  omega

end Spec'
open Spec'

/-- Total volume of both sides. -/
def vol (b : Book) : Nat := volume b.sells + volume b.buys

theorem vol_submit (b : Book) (s o) : vol (b.submit s o).1 ≤ vol b + o.qty := by
  obtain ⟨X, Y⟩ := b
  cases s
  · rw [OrderBook.submit_sell]
    have h1 := sweep_conserve (acceptable .buy o.price) Y o.qty
    have h2 := sweep_volume (acceptable .buy o.price) Y o.qty
    simp only [vol]
    split
    · omega
    · rw [volume_rest]; simp; omega
  · rw [OrderBook.submit_buy]
    have h1 := sweep_conserve (acceptable .sell o.price) X o.qty
    have h2 := sweep_volume (acceptable .sell o.price) X o.qty
    simp only [vol]
    split
    · omega
    · rw [volume_rest]; simp; omega

theorem ids_submit (b : Book) (s o id) (h : (b.submit s o).1.HasId id) : b.HasId id ∨ id = o.id := by
  obtain ⟨X, Y⟩ := b
  obtain ⟨x, hx, rfl⟩ := h
  cases s
  · rw [OrderBook.submit_sell] at hx
    simp only [List.mem_append] at hx
    rcases hx with hx | hx
    · split at hx
      · exact Or.inl ⟨x, by simp [hx], rfl⟩
      · rw [mem_rest] at hx
        rcases hx with rfl | hx
        · exact Or.inr rfl
        · exact Or.inl ⟨x, by simp [hx], rfl⟩
    · obtain ⟨z, hz, he, _⟩ := sweep_ids_subset _ _ _ x hx
      exact Or.inl ⟨z, by simp [hz], he⟩
  · rw [OrderBook.submit_buy] at hx
    simp only [List.mem_append] at hx
    rcases hx with hx | hx
    · obtain ⟨z, hz, he, _⟩ := sweep_ids_subset _ _ _ x hx
      exact Or.inl ⟨z, by simp [hz], he⟩
    · split at hx
      · exact Or.inl ⟨x, by simp [hx], rfl⟩
      · rw [mem_rest] at hx
        rcases hx with rfl | hx
        · exact Or.inr rfl
        · exact Or.inl ⟨x, by simp [hx], rfl⟩

theorem vol_cancel (b : Book) (id) : vol (b.cancel id) ≤ vol b := by
  have h1 := OrderBook.volume_cancel_le id b.sells
  have h2 := OrderBook.volume_cancel_le id b.buys
  simp only [vol, Book.cancel]; omega

theorem ids_cancel (b : Book) (i id) (h : (b.cancel i).HasId id) : b.HasId id := by
  obtain ⟨x, hx, rfl⟩ := h
  simp only [Book.cancel, Spec.cancel, List.mem_append, List.mem_filter] at hx
  rcases hx with hx | hx
  · exact ⟨x, by simp [hx.1], rfl⟩
  · exact ⟨x, by simp [hx.1], rfl⟩

theorem locate_mem {b : Book} {id s x} (h : b.locate id = some (s, x)) : x ∈ b.own s ∧ x.id = id := by
  unfold Book.locate at h
  cases ha : find id b.sells with
  | some y =>
    simp [ha] at h; obtain ⟨rfl, rfl⟩ := h; exact find_mem ha
  | none =>
    cases hb : find id b.buys with
    | some y => simp [ha, hb] at h; obtain ⟨rfl, rfl⟩ := h; exact find_mem hb
    | none => simp [ha, hb] at h

theorem setQty_ids {id n q} : (setQty id n q).map (·.id) = q.map (·.id) := by
  simp only [setQty, List.map_map]
  apply List.map_congr_left
  intro x _; simp only [Function.comp]; split <;> rfl

theorem ids_setQty (b : Book) (i n id) (h : (Book.mk (setQty i n b.sells) (setQty i n b.buys)).HasId id) :
    b.HasId id := by
  obtain ⟨x, hx, rfl⟩ := h
  simp only [List.mem_append] at hx
  rcases hx with hx | hx
  · obtain ⟨z, hz, he, _⟩ := OrderBook.mem_setQty hx; exact ⟨z, by simp [hz], he⟩
  · obtain ⟨z, hz, he, _⟩ := OrderBook.mem_setQty hx; exact ⟨z, by simp [hz], he⟩

theorem vol_setQty {b : Book} (hnd : ((b.sells ++ b.buys).map (·.id)).Nodup) (i n) :
    vol ⟨setQty i n b.sells, setQty i n b.buys⟩ ≤ vol b + n := by
  have := volume_setQty (id := i) (n := n) hnd
  rw [setQty_append] at this
  simp only [volume_append] at this
  simp only [vol]; omega

theorem vol_ofSides (s X Y) : vol (Book.ofSides s X Y) = volume X + volume Y := by
  cases s <;> simp [Book.ofSides, vol]; omega

theorem hasId_ofSides {s X Y id} : (Book.ofSides s X Y).HasId id ↔ ∃ x, (x ∈ X ∨ x ∈ Y) ∧ x.id = id := by
  cases s <;> simp only [Book.ofSides, Book.HasId, List.mem_append]
  constructor
  · rintro ⟨x, hx, h⟩; exact ⟨x, hx.symm, h⟩
  · rintro ⟨x, hx, h⟩; exact ⟨x, hx.symm, h⟩

theorem vol_own (b : Book) (s) : volume (b.own s) + volume (b.opposite s) = vol b := by
  cases s <;> simp [Book.own, Book.opposite, vol]; omega

theorem hasId_own {b : Book} {s id} : b.HasId id ↔ ∃ x, (x ∈ b.own s ∨ x ∈ b.opposite s) ∧ x.id = id := by
  cases s <;> simp only [Book.own, Book.opposite, Book.HasId, List.mem_append]
  constructor
  · rintro ⟨x, hx, h⟩; exact ⟨x, hx.symm, h⟩
  · rintro ⟨x, hx, h⟩; exact ⟨x, hx.symm, h⟩

/-- A command adds at most its budget to the total volume. -/
theorem vol_step {b : Book} (hnd : ((b.sells ++ b.buys).map (·.id)).Nodup) (c : Cmd) :
    vol (b.step c).1 ≤ vol b + c.budget := by
  cases c with
  | add s o =>
    have := vol_own b s
    simp only [Book.step, vol_ofSides, volume_rest, Cmd.budget]; omega
  | limit s o => exact vol_submit b s o
  | market s q =>
    have := vol_own b s
    have := sweep_volume (fun _ => true) (b.opposite s) q
    simp only [Book.step, Book.market, vol_ofSides]; omega
  | cancel id => have := vol_cancel b id; simp only [Book.step]; omega
  | changeQty id q => exact vol_setQty hnd id q
  | changePrice id p =>
    simp only [Book.step]
    split
    · simp
    · rename_i s x hloc
      have h1 := vol_own b s
      obtain ⟨hx, hid⟩ := locate_mem hloc
      simp only [vol_ofSides, volume_rest]
      have : ∀ {q : List Resting}, x ∈ q → volume (Spec.cancel x.id q) + x.qty ≤ volume q := by
        intro q
        induction q with
        | nil => intro h; simp at h
        | cons y q ih =>
          intro h
          rcases List.mem_cons.1 h with rfl | h
          · have := OrderBook.volume_cancel_le x.id q
            simp only [Spec.cancel, List.filter_cons] at this ⊢
            simp only [ne_eq, not_true_eq_false, decide_false, Bool.false_eq_true, if_false, volume_cons] at this ⊢
            omega
          · have := ih h
            simp only [Spec.cancel, List.filter_cons] at this ⊢
            split <;> simp only [volume_cons] <;> omega
      have := this hx
      rw [hid] at this
      omega
  | modify id p q =>
    simp only [Book.step]
    split
    · simp
    · rename_i s x hloc
      split
      · exact vol_setQty hnd id q
      · have h1 := vol_submit (b.cancel id) s ⟨id, p, q⟩
        have h2 := vol_cancel b id
        simp only [Cmd.budget]; simp only at h1; omega
  | remove s p q =>
    have h1 := vol_own b s
    have h2 := volume_removeAt p q (b.own s)
    simp only [Book.step, vol_ofSides]; omega

/-- Every id of the book after a command was there before or is introduced by the command. -/
theorem ids_step {b : Book} (c : Cmd) {id : Nat} (h : (b.step c).1.HasId id) :
    b.HasId id ∨ id ∈ c.newIds := by
  cases c with
  | add s o =>
    simp only [Book.step, hasId_ofSides, mem_rest] at h
    obtain ⟨x, (rfl | hx) | hx, rfl⟩ := h
    · exact Or.inr (by simp [Cmd.newIds])
    · exact Or.inl (hasId_own.2 ⟨x, Or.inl hx, rfl⟩)
    · exact Or.inl (hasId_own.2 ⟨x, Or.inr hx, rfl⟩)
  | limit s o =>
    rcases ids_submit b s o id h with h | h
    · exact Or.inl h
    · exact Or.inr (by simp [Cmd.newIds, h])
  | market s q =>
    simp only [Book.step, Book.market, hasId_ofSides] at h
    obtain ⟨x, hx | hx, rfl⟩ := h
    · exact Or.inl (hasId_own.2 ⟨x, Or.inl hx, rfl⟩)
    · obtain ⟨z, hz, he, _⟩ := sweep_ids_subset _ _ _ x hx
      exact Or.inl (hasId_own.2 ⟨z, Or.inr hz, he⟩)
  | cancel i => exact Or.inl (ids_cancel b i id h)
  | changeQty i q => exact Or.inl (ids_setQty b i q id h)
  | changePrice i p =>
    simp only [Book.step] at h
    split at h
    · exact Or.inl h
    · rename_i s x hloc
      obtain ⟨hx, hid⟩ := locate_mem hloc
      simp only [hasId_ofSides, mem_rest] at h
      obtain ⟨y, (rfl | hy) | hy, rfl⟩ := h
      · exact Or.inl (hasId_own.2 ⟨x, Or.inl hx, rfl⟩)
      · exact Or.inl (hasId_own.2 ⟨y, Or.inl (List.mem_filter.1 hy).1, rfl⟩)
      · exact Or.inl (hasId_own.2 ⟨y, Or.inr hy, rfl⟩)
  | modify i p q =>
    simp only [Book.step] at h
    split at h
    · exact Or.inl h
    · rename_i s x hloc
      obtain ⟨hx, hid⟩ := locate_mem hloc
      split at h
      · exact Or.inl (ids_setQty b i q id h)
      · rcases ids_submit _ _ _ _ h with h | h
        · exact Or.inl (ids_cancel b i id h)
        · simp only at h
          exact Or.inl (hasId_own.2 ⟨x, Or.inl hx, by rw [hid, h]⟩)
  | remove s p q =>
    simp only [Book.step, hasId_ofSides] at h
    obtain ⟨x, hx | hx, rfl⟩ := h
    · obtain ⟨z, hz, he, _⟩ := OrderBook.removeAt_ids hx
      exact Or.inl (hasId_own.2 ⟨z, Or.inl hz, he⟩)
    · exact Or.inl (hasId_own.2 ⟨x, Or.inr hx, rfl⟩)

namespace OrderBook

theorem WF.nodup {b : OrderBook} (wf : b.WF) : ((b.abs.sells ++ b.abs.buys).map (·.id)).Nodup := by
  rw [List.map_append, List.nodup_append]
  refine ⟨wf.asks.nodup, wf.bids.nodup, ?_⟩
  intro a ha c hc
  obtain ⟨x, hx, rfl⟩ := List.mem_map.1 ha
  obtain ⟨y, hy, rfl⟩ := List.mem_map.1 hc
  exact wf.disj x hx y hy

/-- State-dependent validity follows from the admissibility of the remaining history. -/
theorem valid_of_ok {b : Book} {c : Cmd} (hok : CmdOK c) (hv : vol b + c.budget < U64)
    (hid : ∀ id ∈ c.newIds, ¬ b.HasId id) : Valid b c := by
  cases c with
  | add s o =>
    have := vol_own b s
    simp only [Cmd.budget] at hv
    exact ⟨hok.1, by omega, hok.2, hid o.id (by simp [Cmd.newIds])⟩
  | limit s o =>
    have := vol_own b s
    simp only [Cmd.budget] at hv
    exact ⟨hok.1, by omega, hok.2, hid o.id (by simp [Cmd.newIds])⟩
  | market s q => exact hok
  | cancel id => trivial
  | changeQty id q =>
    simp only [Cmd.budget, vol] at hv
    exact ⟨hok, by omega, by omega⟩
  | changePrice id p => exact hok
  | modify id p q =>
    simp only [Cmd.budget, vol] at hv
    exact ⟨hok.1, by omega, by omega, hok.2⟩
  | remove s p q => trivial

/-- Histories from any well-formed book: the model runs without fault in both overflow modes and agrees
with the specification on every output and on the final contents. -/
theorem run_refines (m : Mode) (cs : List Cmd) : ∀ {b : OrderBook}, b.WF →
    (∀ c ∈ cs, CmdOK c) → (cs.flatMap Cmd.newIds).Nodup →
    (∀ id ∈ cs.flatMap Cmd.newIds, ¬ b.abs.HasId id) →
    vol b.abs + (cs.map Cmd.budget).sum < U64 →
    ∃ b' outs, b.run m cs = .ok (b', outs) ∧ b'.WF ∧ (b'.abs, outs) = b.abs.run cs := by
  induction cs with
  | nil => intro b wf _ _ _ _; exact ⟨b, [], rfl, wf, rfl⟩
  | cons c cs ih =>
    intro b wf hok hnd hid hv
    simp only [List.flatMap_cons, List.nodup_append] at hnd
    simp only [List.flatMap_cons, List.mem_append] at hid
    simp only [List.map_cons, List.sum_cons] at hv
    have hvalid : Valid b.abs c :=
      valid_of_ok (hok c (by simp)) (by omega) (fun id h => hid id (Or.inl h))
    obtain ⟨b1, o1, h1, w1, e1⟩ := step_refines m wf c hvalid
    have hs1 : b1.abs = (b.abs.step c).1 := by rw [← e1]
    have ho1 : o1 = (b.abs.step c).2 := by rw [← e1]
    have hvs := vol_step wf.nodup c
    rw [← hs1] at hvs
    obtain ⟨b2, os, h2, w2, e2⟩ := ih w1 (fun c hc => hok c (by simp [hc])) hnd.2.1
      (by
        intro id hin hh
        rw [hs1] at hh
        rcases ids_step c hh with h | h
        · exact hid id (Or.inr hin) h
        · exact hnd.2.2 id h id hin rfl)
      (by omega)
    refine ⟨b2, o1 :: os, ?_, w2, ?_⟩
    · simp [run, h1, h2]
    · simp only [Book.run]
      rw [← hs1, ← e2, ← ho1]

theorem abs_init (inst) : (init inst).abs = ⟨[], []⟩ := rfl

/-- Histories from the empty book. -/
theorem run_init (m : Mode) (inst : Nat) {cs : List Cmd} (ha : Admissible cs) :
    ∃ b outs, (init inst).run m cs = .ok (b, outs) ∧ b.WF ∧ (b.abs, outs) = Book.run ⟨[], []⟩ cs := by
  have := run_refines m cs (wf_init inst) ha.ok ha.ids
    (by intro id _ h; obtain ⟨x, hx, _⟩ := h; simp [abs_init] at hx)
    (by have := ha.qty; simp only [abs_init, vol, volume_nil]; omega)
  rwa [abs_init] at this

end OrderBook

/-! ### The book never crosses -/

theorem sweep_rem_pos {s : BookSide} {limit : Int} {l : List Resting} (hs : PrioritySorted s l) : ∀ q,
    (sweep (acceptable s limit) q l).rem ≠ 0 →
    ∀ x ∈ (sweep (acceptable s limit) q l).queue, acceptable s limit x.price = false := by
  induction l with
  | nil => intro q _ x hx; simp [sweep] at hx
  | cons y l ih =>
    intro q hr x hx
    have hs' := List.pairwise_cons.1 hs
    simp only [sweep] at hr hx
    split at hr
    · rename_i hc
      rw [if_pos hc] at hx
      simp only at hr hx
      have hy : acceptable s limit y.price = false := by simpa [hr] using hc
      rcases List.mem_cons.1 hx with rfl | hx
      · exact hy
      · have := hs'.1 x hx
        cases s <;> simp [better, acceptable] at * <;> omega
    · rename_i hc
      rw [if_neg hc] at hx
      split at hr
      · simp at hr
      · rename_i hc2
        rw [if_neg hc2] at hx
        exact ih hs'.2 _ hr x hx

theorem submit_uncrossed {b : Book} (hu : b.Uncrossed) (hs : PrioritySorted .sell b.sells)
    (hb : PrioritySorted .buy b.buys) (s o) : (b.submit s o).1.Uncrossed := by
  obtain ⟨X, Y⟩ := b
  cases s
  · rw [OrderBook.submit_sell]
    intro x hx y hy
    simp only at hx hy
    obtain ⟨y0, hy0, _, hp0⟩ := sweep_ids_subset _ _ _ y hy
    split at hx
    · rw [← hp0]; exact hu x hx y0 hy0
    · rename_i hr
      rw [mem_rest] at hx
      rcases hx with rfl | hx
      · have := sweep_rem_pos hb _ hr y hy
        simp [acceptable] at this; exact this
      · rw [← hp0]; exact hu x hx y0 hy0
  · rw [OrderBook.submit_buy]
    intro x hx y hy
    simp only at hx hy
    obtain ⟨x0, hx0, _, hp0⟩ := sweep_ids_subset _ _ _ x hx
    split at hy
    · rw [← hp0]; exact hu x0 hx0 y hy
    · rename_i hr
      rw [mem_rest] at hy
      rcases hy with rfl | hy
      · have := sweep_rem_pos hs _ hr x hx
        simp [acceptable] at this; exact this
      · rw [← hp0]; exact hu x0 hx0 y hy

theorem step_uncrossed {b : Book} (hu : b.Uncrossed) (hs : PrioritySorted .sell b.sells)
    (hb : PrioritySorted .buy b.buys) {c : Cmd} (hc : Cmd.isMatching c) : (b.step c).1.Uncrossed := by
  have hset : ∀ i q, (Book.mk (setQty i q b.sells) (setQty i q b.buys)).Uncrossed := by
    intro i q x hx y hy
    obtain ⟨x0, hx0, _, hpx⟩ := OrderBook.mem_setQty hx
    obtain ⟨y0, hy0, _, hpy⟩ := OrderBook.mem_setQty hy
    rw [← hpx, ← hpy]; exact hu x0 hx0 y0 hy0
  have hcan : ∀ i, (b.cancel i).Uncrossed := by
    intro i x hx y hy
    exact hu x (List.mem_filter.1 hx).1 y (List.mem_filter.1 hy).1
  cases c with
  | add s o => exact absurd hc (by simp [Cmd.isMatching])
  | changePrice i p => exact absurd hc (by simp [Cmd.isMatching])
  | limit s o => exact submit_uncrossed hu hs hb s o
  | market s q =>
    cases s
    · intro x hx y hy
      obtain ⟨y0, hy0, _, hpy⟩ := sweep_ids_subset _ _ _ y hy
      rw [← hpy]; exact hu x hx y0 hy0
    · intro x hx y hy
      obtain ⟨x0, hx0, _, hpx⟩ := sweep_ids_subset _ _ _ x hx
      rw [← hpx]; exact hu x0 hx0 y hy
  | cancel i => exact hcan i
  | changeQty i q => exact hset i q
  | modify i p q =>
    simp only [Book.step]
    split
    · exact hu
    · split
      · exact hset i q
      · apply submit_uncrossed (hcan i)
        · exact List.Pairwise.filter _ hs
        · exact List.Pairwise.filter _ hb
  | remove s p q =>
    cases s
    · intro x hx y hy
      obtain ⟨x0, hx0, _, hpx⟩ := OrderBook.removeAt_ids hx
      rw [← hpx]; exact hu x0 hx0 y hy
    · intro x hx y hy
      obtain ⟨y0, hy0, _, hpy⟩ := OrderBook.removeAt_ids hy
      rw [← hpy]; exact hu x hx y0 hy0

end Verif.TE

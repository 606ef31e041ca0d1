import Verif.TE.SpinQueue
import Mathlib.Tactic.Common
/-!
# Invariant of the spin queue
-/
set_option autoImplicit false
namespace Verif.TE.Spin
open Verif

theorem bit_get (id i : Nat) (h : id < 16) : (1#16 <<< id).getLsbD i = decide (i = id) := by
  rw [BitVec.getLsbD_shiftLeft, BitVec.getLsbD_one]
  by_cases h1 : i = id
  · subst h1; simp [h]
  · by_cases h2 : i < id
    · simp [h1, h2]
    · have : i - id ≠ 0 := by omega
      simp [h1, this]

theorem new_id {w : WorkerId} (h : WorkerId.new w.id = some w) :
    w.id < 16 ∧ w.bit = 1#16 <<< w.id ∧ w.neg = ~~~(1#16 <<< w.id) := by
  unfold WorkerId.new at h
  split at h
  · cases h
  · simp only [Option.some.injEq] at h
    refine ⟨by omega, ?_, ?_⟩ <;> rw [← h]

theorem ult_zero (v : BitVec 16) : (0#16).ult v = true ↔ v ≠ 0#16 := by
  rw [BitVec.ult]
  simp only [decide_eq_true_eq]
  constructor
  · rintro h rfl; exact absurd h (by decide)
  · intro h
    have : v.toNat ≠ 0 := fun e => h (BitVec.eq_of_toNat_eq (by simpa using e))
    simp; omega

theorem ready_iff {w : WorkerId} (h : WorkerId.new w.id = some w) (v : BitVec 16) :
    readyToWork w v = true ↔ v.getLsbD w.id = true := by
  obtain ⟨h1, h2, -⟩ := new_id h
  unfold readyToWork
  rw [ult_zero, h2]
  constructor
  · intro hne
    by_contra hb
    apply hne
    apply BitVec.eq_of_getLsbD_eq
    intro i hi
    rw [BitVec.getLsbD_and, bit_get _ _ h1]
    by_cases e : i = w.id
    · subst e; simpa using hb
    · simp [e]
  · intro hb he
    have := congrArg (fun x => BitVec.getLsbD x w.id) he
    simp only [BitVec.getLsbD_and, bit_get _ _ h1, hb] at this
    simp at this

theorem done_get {w : WorkerId} (h : WorkerId.new w.id = some w) (v : BitVec 16) (i : Nat) :
    (doneValue w v).getLsbD i = (v.getLsbD i && decide (i ≠ w.id)) := by
  obtain ⟨h1, -, h2⟩ := new_id h
  unfold doneValue
  rw [h2, BitVec.getLsbD_and, BitVec.getLsbD_not, bit_get _ _ h1]
  by_cases hi : i < 16
  · simp [hi]
  · have : v.getLsbD i = false := BitVec.getLsbD_of_ge _ _ (by omega)
    simp [this]

theorem readyToUpdate_iff (v : BitVec 16) : readyToUpdate v = true ↔ v = 0#16 := by
  unfold readyToUpdate; simp

theorem upd_same {β : Type} (f : Nat → β) (i : Nat) (x : β) : upd f i x i = x := by simp [upd]
theorem upd_other {β : Type} (f : Nat → β) (i j : Nat) (x : β) (h : j ≠ i) : upd f i x j = f j := by simp [upd, h]

/-- The invariant; `N` (the writes known to the newest message) is the number of notified items. -/
structure Inv {α : Type} (full : BitVec 16) (s : State α) : Prop where
  len_pos : 0 < s.len
  pubs : s.published.length = (s.hist (s.len - 1)).view.w + (if s.wpc = .wrote then 1 else 0)
  mono : ∀ j k, j ≤ k → k < s.len → (s.hist j).view.w ≤ (s.hist k).view.w
  unreg : ∀ j i, j < s.len → full.getLsbD i = false → (s.hist j).val.getLsbD i = false
  unregIdle : ∀ i, full.getLsbD i = false → s.seen i = [] ∧ s.rpc i = .idle
  lastSet : ∀ i, full.getLsbD i = true → (s.hist (s.len - 1)).val.getLsbD i = true →
    (s.seen i).length + 1 = (s.hist (s.len - 1)).view.w + (if s.rpc i = .used then 1 else 0)
  lastClear : ∀ i, full.getLsbD i = true → (s.hist (s.len - 1)).val.getLsbD i = false →
    (s.seen i).length = (s.hist (s.len - 1)).view.w ∧ s.rpc i = .idle
  clear : ∀ j i, j < s.len → full.getLsbD i = true → (s.hist j).val.getLsbD i = false →
    (s.hist j).view.w ≤ (s.hist j).view.r i
  rle : ∀ j i, j < s.len → (s.hist j).view.r i ≤ (s.seen i).length
  nonlast : ∀ j, j + 1 < s.len → (s.hist j).view.w = (s.hist (s.len - 1)).view.w →
    ∃ i, (s.hist j).val.getLsbD i = true
  wbound : s.writer.bound < s.len ∧ (s.hist s.writer.bound).view.w = (s.hist (s.len - 1)).view.w
  ww : s.writer.view.w = s.published.length
  wr : ∀ i, s.writer.view.r i ≤ (s.seen i).length
  wholds : s.wpc ≠ .idle → (s.hist (s.len - 1)).val = 0#16 ∧ s.writer.bound = s.len - 1 ∧
    ∀ i, s.writer.view.r i = (s.seen i).length
  rbound : ∀ i, (s.worker i).bound < s.len
  rmsgs : ∀ i j, (s.worker i).bound ≤ j → j < s.len → (s.hist j).val.getLsbD i = true →
    (s.hist j).view.w = (s.hist (s.len - 1)).view.w ∧ (s.hist (s.len - 1)).val.getLsbD i = true
  rw_ : ∀ i, (s.worker i).view.w ≤ (s.hist (s.len - 1)).view.w
  rr : ∀ i k, (s.worker i).view.r k ≤ (s.seen k).length
  rself : ∀ i, (s.worker i).view.r i = (s.seen i).length
  rholds : ∀ i, s.rpc i ≠ .idle → (s.hist (s.len - 1)).val.getLsbD i = true ∧
    (s.worker i).view.w = (s.hist (s.len - 1)).view.w
  dat : ∀ x l, s.published = l ++ [x] → s.data = x
  pre : ∀ i, s.seen i = s.published.take (s.seen i).length
  norace : ¬ s.race

theorem inv_init {α : Type} (full : BitVec 16) (a : α) : Inv full (init a) where
  len_pos := by simp [init]
  pubs := by simp [init]
  mono := by simp [init]
  unreg := by simp [init]
  unregIdle := by simp [init]
  lastSet := by simp [init]
  lastClear := by simp [init]
  clear := by simp [init]
  rle := by simp [init]
  nonlast := by intro j hj; simp [init] at hj
  wbound := by simp [init]
  ww := by simp [init]
  wr := by simp [init]
  wholds := by simp [init]
  rbound := by simp [init]
  rmsgs := by simp [init]
  rw_ := by simp [init]
  rr := by simp [init]
  rself := by simp [init]
  rholds := by simp [init]
  dat := by simp [init]
  pre := by simp [init]
  norace := by simp [init]

/-- While some worker has the pointer, the writer does not. -/
theorem Inv.excl {α : Type} {full : BitVec 16} {s : State α} (h : Inv full s) (i : Nat) (hi : s.rpc i ≠ .idle) :
    s.wpc = .idle := by
  by_contra hc
  have h1 := (h.wholds hc).1
  have h2 := (h.rholds i hi).1
  rw [h1] at h2
  simp at h2

theorem Inv.allClear {α : Type} {full : BitVec 16} {s : State α} (h : Inv full s)
    (hz : (s.hist (s.len - 1)).val = 0#16) (i : Nat) : s.rpc i = .idle := by
  by_contra hc
  have h2 := (h.rholds i hc).1
  rw [hz] at h2
  simp at h2

theorem inv_getMut {α : Type} {full : BitVec 16} {s : State α} (h : Inv full s) (j : Nat) (hpc : s.wpc = .idle)
    (hj : s.writer.bound ≤ j) (hl : j < s.len) :
    Inv full { s with writer := ⟨j, s.writer.view.join (s.hist j).view⟩
                      wpc := if readyToUpdate (s.hist j).val then .holds else .idle } := by
  have hN : (s.hist j).view.w = (s.hist (s.len - 1)).view.w := by
    have h1 := h.mono _ _ hj hl
    have h2 := h.mono j (s.len - 1) (by omega) (by omega)
    have := h.wbound.2
    omega
  have hp := h.pubs
  rw [hpc] at hp
  simp only [reduceCtorEq, if_false] at hp
  have hne : ¬ ((if readyToUpdate (s.hist j).val then WPc.holds else .idle) = .wrote) := by split <;> simp
  have hww := h.ww
  refine { h with pubs := ?_, wbound := ?_, ww := ?_, wr := ?_, wholds := ?_ }
  · simp only; rw [if_neg hne]; exact hp
  · exact ⟨hl, hN⟩
  · simp only [View.join]; omega
  · intro i
    have h1 := h.wr i
    have h2 := h.rle j i hl
    simp only [View.join]; omega
  · intro hc
    have hz : (s.hist j).val = 0#16 := by
      by_contra hz
      apply hc
      simp only
      rw [if_neg (fun e => hz ((readyToUpdate_iff _).1 e))]
    have hjl : j = s.len - 1 := by
      by_contra hx
      obtain ⟨i, hi⟩ := h.nonlast j (by omega) hN
      rw [hz] at hi
      simp at hi
    subst hjl
    refine ⟨hz, rfl, fun i => ?_⟩
    have h1 := h.wr i
    have h2 := h.rle _ i hl
    simp only [View.join]
    rcases hb : full.getLsbD i with _ | _
    · have := (h.unregIdle i hb).1
      rw [this] at h1 h2
      simp only [List.length_nil] at h1 h2
      rw [this]; simp only [List.length_nil]; omega
    · have hc' : (s.hist (s.len - 1)).val.getLsbD i = false := by rw [hz]; simp
      have h3 := h.clear _ i hl hb hc'
      have h4 := (h.lastClear i hb hc').1
      omega

theorem inv_write {α : Type} {full : BitVec 16} {s : State α} (h : Inv full s) (x : α) (hpc : s.wpc = .holds) :
    Inv full { s with
        data := x
        published := s.published ++ [x]
        writer := { s.writer with view := { s.writer.view with w := s.published.length + 1 } }
        race := s.race ∨ s.writer.view.w ≠ s.published.length ∨ ∃ i, s.writer.view.r i ≠ (s.seen i).length
        wpc := .wrote } := by
  have hw := h.wholds (by rw [hpc]; simp)
  have hp := h.pubs
  rw [hpc] at hp
  simp only [reduceCtorEq, if_false] at hp
  have hle : ∀ i, (s.seen i).length ≤ s.published.length := by
    intro i
    have := congrArg List.length (h.pre i)
    rw [List.length_take] at this
    omega
  refine { h with pubs := ?_, ww := ?_, wr := h.wr, wholds := ?_, dat := ?_, pre := ?_, norace := ?_ }
  · simp; omega
  · simp
  · intro _; exact hw
  · intro y l hy
    have := List.append_inj' hy rfl
    simpa using this.2
  · intro i
    simp only
    rw [List.take_append_of_le_length (hle i)]
    exact h.pre i
  · simp only [not_or, not_exists, not_not]
    exact ⟨h.norace, h.ww, hw.2.2⟩

theorem insert_last (h : Nat → Msg) (n : Nat) (x : Msg) : insertMsg h n x n = x := by simp [insertMsg]
theorem insert_old (h : Nat → Msg) (n j : Nat) (x : Msg) (hj : j < n) : insertMsg h n x j = h j := by
  simp [insertMsg, hj]

theorem inv_notify {α : Type} {full : BitVec 16} {s : State α} (h : Inv full s) (p : Nat) (hpc : s.wpc = .wrote)
    (hp : s.writer.bound < p) (hl : p ≤ s.len) :
    Inv full { s with
        hist := insertMsg s.hist p ⟨full, s.writer.view⟩
        len := s.len + 1
        writer := { s.writer with bound := p }
        worker := fun i => { s.worker i with bound := shiftBound p (s.worker i).bound }
        wpc := .idle } := by
  obtain ⟨hz, hb, hr⟩ := h.wholds (by rw [hpc]; simp)
  have hlp := h.len_pos
  have hpl : p = s.len := by omega
  subst hpl
  have hpub := h.pubs
  rw [hpc] at hpub
  simp only [if_true] at hpub
  have hidle := h.allClear hz
  have hbs : ∀ i, shiftBound s.len (s.worker i).bound = (s.worker i).bound := by
    intro i; unfold shiftBound; rw [if_pos (h.rbound i)]
  have hold : ∀ j, j < s.len → insertMsg s.hist s.len ⟨full, s.writer.view⟩ j = s.hist j :=
    fun j hj => insert_old _ _ _ _ hj
  have hlast := insert_last s.hist s.len ⟨full, s.writer.view⟩
  have hww := h.ww
  have hmw : ∀ j, j < s.len → (s.hist j).view.w ≤ (s.hist (s.len - 1)).view.w :=
    fun j hj => h.mono j _ (by omega) (by omega)
  have hcases : ∀ j, j < s.len + 1 → j < s.len ∨ j = s.len := fun j hj => by omega
  have hseen : ∀ i, full.getLsbD i = true → (s.seen i).length = (s.hist (s.len - 1)).view.w :=
    fun i hi => (h.lastClear i hi (by rw [hz]; simp)).1
  refine { h with len_pos := ?_, pubs := ?_, mono := ?_, unreg := ?_, lastSet := ?_, lastClear := ?_, clear := ?_,
                  rle := ?_, nonlast := ?_, wbound := ?_, wholds := ?_, rbound := ?_, rmsgs := ?_, rw_ := ?_,
                  rr := ?_, rself := ?_, rholds := ?_ }
  · simp
  · simp only [Nat.add_sub_cancel, hlast, reduceCtorEq, if_false]; omega
  · intro j k hjk hk
    simp only at hk ⊢
    rcases hcases k hk with hk' | rfl
    · rw [hold k hk', hold j (by omega)]; exact h.mono j k hjk hk'
    · rw [hlast]
      rcases hcases j (by omega) with hj' | rfl
      · rw [hold j hj']; have := hmw j hj'; simp only; omega
      · rw [hlast]; exact Nat.le_refl _
  · intro j i hj hi
    simp only at hj ⊢
    rcases hcases j hj with hj' | rfl
    · rw [hold j hj']; exact h.unreg j i hj' hi
    · rw [hlast]; exact hi
  · intro i hi _
    simp only [Nat.add_sub_cancel, hlast, hidle i, reduceCtorEq, if_false]
    have := hseen i hi
    omega
  · intro i hi hc
    simp only [Nat.add_sub_cancel, hlast] at hc
    rw [hi] at hc; cases hc
  · intro j i hj hi hc
    simp only at hj hc ⊢
    rcases hcases j hj with hj' | rfl
    · rw [hold j hj'] at hc ⊢; exact h.clear j i hj' hi hc
    · rw [hlast] at hc; simp only at hc; rw [hi] at hc; cases hc
  · intro j i hj
    simp only at hj ⊢
    rcases hcases j hj with hj' | rfl
    · rw [hold j hj']; exact h.rle j i hj'
    · rw [hlast]; exact h.wr i
  · intro j hj he
    simp only [Nat.add_sub_cancel, hlast] at hj he
    have hj' : j < s.len := by omega
    rw [hold j hj'] at he
    have := hmw j hj'
    omega
  · refine ⟨by simp, by simp only [Nat.add_sub_cancel]⟩
  · intro hc; simp at hc
  · intro i
    have := h.rbound i
    simp only [hbs]; omega
  · intro i j hij hj hbit
    simp only [hbs] at hij hj hbit
    rcases hcases j hj with hj' | rfl
    · rw [hold j hj'] at hbit
      have := (h.rmsgs i j hij hj' hbit).2
      rw [hz] at this; simp at this
    · rw [hlast] at hbit
      simp only [Nat.add_sub_cancel, hlast, true_and]
      exact hbit
  · intro i
    have := h.rw_ i
    simp only [Nat.add_sub_cancel, hlast]; omega
  · intro i k; exact h.rr i k
  · intro i; exact h.rself i
  · intro i hi
    exact absurd (hidle i) hi

theorem inv_get {α : Type} {full : BitVec 16} {s : State α} (h : Inv full s) (w : WorkerId) (j : Nat)
    (hw : WorkerId.new w.id = some w) (hpc : s.rpc w.id = .idle) (hj : (s.worker w.id).bound ≤ j) (hl : j < s.len) :
    Inv full { s with
        worker := upd s.worker w.id ⟨j, (s.worker w.id).view.join (s.hist j).view⟩
        rpc := upd s.rpc w.id (if readyToWork w (s.hist j).val then .holds else .idle) } := by
  have hmw : ∀ j, j < s.len → (s.hist j).view.w ≤ (s.hist (s.len - 1)).view.w :=
    fun j hj => h.mono j _ (by omega) (by omega)
  have hready : readyToWork w (s.hist j).val = true →
      (s.hist j).view.w = (s.hist (s.len - 1)).view.w ∧ (s.hist (s.len - 1)).val.getLsbD w.id = true :=
    fun e => h.rmsgs w.id j hj hl ((ready_iff hw _).1 e)
  have hcase : ∀ i, upd s.rpc w.id (if readyToWork w (s.hist j).val then .holds else .idle) i = s.rpc i ∨
      (i = w.id ∧ readyToWork w (s.hist j).val = true ∧
        upd s.rpc w.id (if readyToWork w (s.hist j).val then .holds else .idle) i = .holds) := by
    intro i
    by_cases hi : i = w.id
    · subst hi
      rw [upd_same]
      by_cases hr : readyToWork w (s.hist j).val = true
      · right; exact ⟨rfl, hr, by rw [if_pos hr]⟩
      · left; rw [if_neg hr]; exact hpc.symm
    · left; rw [upd_other _ _ _ _ hi]
  refine { h with unregIdle := ?_, lastSet := ?_, lastClear := ?_, rbound := ?_, rmsgs := ?_, rw_ := ?_, rr := ?_,
                  rself := ?_, rholds := ?_ }
  · intro i hi
    refine ⟨(h.unregIdle i hi).1, ?_⟩
    rcases hcase i with e | ⟨rfl, hr, -⟩
    · exact e.trans (h.unregIdle i hi).2
    · have := (hready hr).2
      rw [h.unreg _ _ (by have := h.len_pos; omega) hi] at this; cases this
  · intro i hi hb
    have := h.lastSet i hi hb
    rcases hcase i with e | ⟨rfl, hr, e⟩
    · simp only [e]; exact this
    · simp only [e, reduceCtorEq, if_false]; rw [hpc] at this; simpa using this
  · intro i hi hb
    refine ⟨(h.lastClear i hi hb).1, ?_⟩
    rcases hcase i with e | ⟨rfl, hr, -⟩
    · exact e.trans (h.lastClear i hi hb).2
    · have := (hready hr).2
      simp only at hb
      rw [hb] at this; cases this
  · intro i
    by_cases hi : i = w.id
    · subst hi; simp only [upd_same]; exact hl
    · simp only [upd_other _ _ _ _ hi]; exact h.rbound i
  · intro i k hk hkl hb
    by_cases hi : i = w.id
    · subst hi
      simp only [upd_same] at hk
      exact h.rmsgs w.id k (by omega) hkl hb
    · simp only [upd_other _ _ _ _ hi] at hk
      exact h.rmsgs i k hk hkl hb
  · intro i
    by_cases hi : i = w.id
    · subst hi
      have h1 := h.rw_ w.id
      have h2 := hmw j hl
      simp only [upd_same, View.join]; omega
    · simp only [upd_other _ _ _ _ hi]; exact h.rw_ i
  · intro i k
    by_cases hi : i = w.id
    · subst hi
      have h1 := h.rr w.id k
      have h2 := h.rle j k hl
      simp only [upd_same, View.join]; omega
    · simp only [upd_other _ _ _ _ hi]; exact h.rr i k
  · intro i
    by_cases hi : i = w.id
    · subst hi
      have h1 := h.rself w.id
      have h2 := h.rle j w.id hl
      simp only [upd_same, View.join]; omega
    · simp only [upd_other _ _ _ _ hi]; exact h.rself i
  · intro i hi
    rcases hcase i with e | ⟨rfl, hr, e⟩
    · simp only [e] at hi
      have hne : i ≠ w.id := fun e' => hi (by rw [e']; exact hpc)
      have := h.rholds i hi
      simp only [upd_other _ _ _ _ hne]; exact this
    · have h1 := hready hr
      have h2 := h.rw_ w.id
      simp only [upd_same, View.join]
      exact ⟨h1.2, by omega⟩

theorem inv_use {α : Type} {full : BitVec 16} {s : State α} (h : Inv full s) (w : WorkerId)
    (hpc : s.rpc w.id = .holds) :
    Inv full { s with
        seen := upd s.seen w.id (s.seen w.id ++ [s.data])
        worker := upd s.worker w.id { s.worker w.id with
          view := { (s.worker w.id).view with r := upd (s.worker w.id).view.r w.id ((s.seen w.id).length + 1) } }
        race := s.race ∨ (s.worker w.id).view.w ≠ s.published.length
        rpc := upd s.rpc w.id .used } := by
  have hne : s.rpc w.id ≠ .idle := by rw [hpc]; simp
  have hidle := h.excl w.id hne
  have hh := h.rholds w.id hne
  have hp := h.pubs
  rw [hidle] at hp
  simp only [reduceCtorEq, if_false] at hp
  have hreg : full.getLsbD w.id = true := by
    by_contra hc
    have := (h.unregIdle w.id (by simpa using hc)).2
    exact hne this
  have hls := h.lastSet w.id hreg hh.1
  rw [hpc] at hls
  simp only [reduceCtorEq, if_false] at hls
  have hlen : ∀ i, (s.seen i).length ≤ (upd s.seen w.id (s.seen w.id ++ [s.data]) i).length := by
    intro i
    by_cases hi : i = w.id
    · subst hi; rw [upd_same]; simp
    · rw [upd_other _ _ _ _ hi]; exact Nat.le_refl _
  refine { h with unregIdle := ?_, lastSet := ?_, lastClear := ?_, rle := ?_, wr := ?_, wholds := ?_, rbound := ?_,
                  rmsgs := ?_, rw_ := ?_, rr := ?_, rself := ?_, rholds := ?_, pre := ?_, norace := ?_ }
  · intro i hi
    have hx : i ≠ w.id := by rintro rfl; rw [hreg] at hi; cases hi
    simp only [upd_other _ _ _ _ hx]
    exact h.unregIdle i hi
  · intro i hi hb
    by_cases hx : i = w.id
    · subst hx; simp only [upd_same, List.length_append, List.length_singleton, if_true]; omega
    · simp only [upd_other _ _ _ _ hx]; exact h.lastSet i hi hb
  · intro i hi hb
    have hx : i ≠ w.id := by
      rintro rfl
      simp only at hb
      rw [hh.1] at hb; cases hb
    simp only [upd_other _ _ _ _ hx]
    exact h.lastClear i hi hb
  · intro j i hj
    exact Nat.le_trans (h.rle j i hj) (hlen i)
  · intro i
    exact Nat.le_trans (h.wr i) (hlen i)
  · intro hc
    exact absurd hidle hc
  · intro i
    by_cases hx : i = w.id
    · subst hx; simp only [upd_same]; exact h.rbound _
    · simp only [upd_other _ _ _ _ hx]; exact h.rbound i
  · intro i j hj
    by_cases hx : i = w.id
    · subst hx; simp only [upd_same] at hj; exact h.rmsgs _ j hj
    · simp only [upd_other _ _ _ _ hx] at hj; exact h.rmsgs i j hj
  · intro i
    by_cases hx : i = w.id
    · subst hx; simp only [upd_same]; exact h.rw_ _
    · simp only [upd_other _ _ _ _ hx]; exact h.rw_ i
  · intro i k
    by_cases hx : i = w.id
    · subst hx
      by_cases hk : k = w.id
      · subst hk; simp [upd_same]
      · simp only [upd_same, upd_other _ _ _ _ hk]; exact h.rr _ k
    · simp only [upd_other _ _ _ _ hx]
      exact Nat.le_trans (h.rr i k) (hlen k)
  · intro i
    by_cases hx : i = w.id
    · subst hx; simp [upd_same]
    · simp only [upd_other _ _ _ _ hx]; exact h.rself i
  · intro i hi
    by_cases hx : i = w.id
    · subst hx; simp only [upd_same]; exact hh
    · simp only [upd_other _ _ _ _ hx] at hi ⊢; exact h.rholds i hi
  · intro i
    by_cases hx : i = w.id
    · subst hx
      simp only [upd_same, List.length_append, List.length_singleton]
      have hpre := h.pre w.id
      have hlast : ∃ l x, s.published = l ++ [x] := by
        rcases List.eq_nil_or_concat s.published with e | ⟨l, x, e⟩
        · rw [e] at hp; simp only [List.length_nil] at hp; omega
        · exact ⟨l, x, by simpa using e⟩
      obtain ⟨l, x, hl⟩ := hlast
      have hd := h.dat x l hl
      have hll : l.length = (s.seen w.id).length := by
        rw [hl] at hp; simp only [List.length_append, List.length_singleton] at hp; omega
      have e1 : s.published.take ((s.seen w.id).length + 1) = s.published := by
        apply List.take_of_length_le; omega
      have e2 : s.seen w.id = l := by
        rw [hpre, hl, ← hll]; simp
      rw [e1, hl, hd, e2]
    · simp only [upd_other _ _ _ _ hx]; exact h.pre i
  · simp only [not_or, not_not]
    exact ⟨h.norace, by omega⟩

theorem inv_done {α : Type} {full : BitVec 16} {s : State α} (h : Inv full s) (w : WorkerId)
    (hw : WorkerId.new w.id = some w) (hpc : s.rpc w.id = .used) :
    Inv full { s with
        hist := upd s.hist s.len
          ⟨doneValue w (s.hist (s.len - 1)).val, (s.worker w.id).view.join (s.hist (s.len - 1)).view⟩
        len := s.len + 1
        worker := upd s.worker w.id { s.worker w.id with bound := s.len }
        rpc := upd s.rpc w.id .idle } := by
  have hne : s.rpc w.id ≠ .idle := by rw [hpc]; simp
  have hidle := h.excl w.id hne
  have hh := h.rholds w.id hne
  have hlp := h.len_pos
  have hreg : full.getLsbD w.id = true := by
    by_contra hc
    exact hne (h.unregIdle w.id (by simpa using hc)).2
  have hls := h.lastSet w.id hreg hh.1
  rw [hpc] at hls
  simp only [if_true] at hls
  generalize hm : (Msg.mk (doneValue w (s.hist (s.len - 1)).val)
    ((s.worker w.id).view.join (s.hist (s.len - 1)).view)) = m
  have hmv : ∀ i, m.val.getLsbD i = ((s.hist (s.len - 1)).val.getLsbD i && decide (i ≠ w.id)) := by
    intro i; rw [← hm]; exact done_get hw _ i
  have hmw : m.view.w = (s.hist (s.len - 1)).view.w := by
    rw [← hm]; simp only [View.join]; omega
  have hmr : ∀ i, (s.hist (s.len - 1)).view.r i ≤ m.view.r i ∧ (s.worker w.id).view.r i ≤ m.view.r i ∧
      m.view.r i ≤ (s.seen i).length := by
    intro i
    have h1 := h.rr w.id i
    have h2 := h.rle (s.len - 1) i (by omega)
    rw [← hm]; simp only [View.join]; omega
  have hold : ∀ j, j < s.len → upd s.hist s.len m j = s.hist j := fun j hj => upd_other _ _ _ _ (by omega)
  have hlast : upd s.hist s.len m s.len = m := upd_same _ _ _
  have hcases : ∀ j, j < s.len + 1 → j < s.len ∨ j = s.len := fun j hj => by omega
  have hmono : ∀ j, j < s.len → (s.hist j).view.w ≤ (s.hist (s.len - 1)).view.w :=
    fun j hj => h.mono j _ (by omega) (by omega)
  refine { h with len_pos := ?_, pubs := ?_, mono := ?_, unreg := ?_, unregIdle := ?_, lastSet := ?_,
                  lastClear := ?_, clear := ?_, rle := ?_, nonlast := ?_, wbound := ?_, wholds := ?_, rbound := ?_,
                  rmsgs := ?_, rw_ := ?_, rr := ?_, rself := ?_, rholds := ?_ }
  · simp
  · simp only [Nat.add_sub_cancel, hlast, hmw]; exact h.pubs
  · intro j k hjk hk
    simp only at hk ⊢
    rcases hcases k hk with hk' | rfl
    · rw [hold k hk', hold j (by omega)]; exact h.mono j k hjk hk'
    · rw [hlast]
      rcases hcases j (by omega) with hj' | rfl
      · rw [hold j hj', hmw]; exact hmono j hj'
      · rw [hlast]; exact Nat.le_refl _
  · intro j i hj hi
    simp only at hj ⊢
    rcases hcases j hj with hj' | rfl
    · rw [hold j hj']; exact h.unreg j i hj' hi
    · rw [hlast, hmv, h.unreg (s.len - 1) i (by omega) hi]; rfl
  · intro i hi
    have hx : i ≠ w.id := by rintro rfl; rw [hreg] at hi; cases hi
    simp only [upd_other _ _ _ _ hx]
    exact h.unregIdle i hi
  · intro i hi hb
    simp only [Nat.add_sub_cancel, hlast, hmw, hmv, Bool.and_eq_true, decide_eq_true_eq] at hb ⊢
    have := h.lastSet i hi hb.1
    simp only [upd_other _ _ _ _ hb.2]; exact this
  · intro i hi hb
    simp only [Nat.add_sub_cancel, hlast, hmw, hmv] at hb ⊢
    by_cases hx : i = w.id
    · subst hx; exact ⟨by omega, upd_same _ _ _⟩
    · rw [upd_other _ _ _ _ hx]
      have : (s.hist (s.len - 1)).val.getLsbD i = false := by simpa [hx] using hb
      exact h.lastClear i hi this
  · intro j i hj hi hb
    simp only at hj hb ⊢
    rcases hcases j hj with hj' | rfl
    · rw [hold j hj'] at hb ⊢; exact h.clear j i hj' hi hb
    · rw [hlast] at hb ⊢
      rw [hmw]
      rw [hmv] at hb
      by_cases hx : i = w.id
      · subst hx
        have h1 := h.rself w.id
        have h2 := (hmr w.id).2.1
        omega
      · have : (s.hist (s.len - 1)).val.getLsbD i = false := by simpa [hx] using hb
        have h1 := h.clear (s.len - 1) i (by omega) hi this
        have h2 := (hmr i).1
        omega
  · intro j i hj
    simp only at hj ⊢
    rcases hcases j hj with hj' | rfl
    · rw [hold j hj']; exact h.rle j i hj'
    · rw [hlast]; exact (hmr i).2.2
  · intro j hj he
    simp only [Nat.add_sub_cancel, hlast, hmw] at hj he ⊢
    have hj' : j < s.len := by omega
    rw [hold j hj'] at he ⊢
    rcases Nat.lt_or_ge (j + 1) s.len with hlt | hge
    · exact h.nonlast j hlt he
    · have e : j = s.len - 1 := by omega
      subst e
      exact ⟨w.id, hh.1⟩
  · obtain ⟨b1, b2⟩ := h.wbound
    refine ⟨by simp only; omega, ?_⟩
    simp only [Nat.add_sub_cancel, hlast, hmw]
    rw [hold _ b1]; exact b2
  · intro hc; exact absurd hidle hc
  · intro i
    by_cases hx : i = w.id
    · subst hx; simp [upd_same]
    · have := h.rbound i
      simp only [upd_other _ _ _ _ hx]; omega
  · intro i j hij hj hb
    simp only [Nat.add_sub_cancel, hlast, hmw] at hj hb ⊢
    by_cases hx : i = w.id
    · subst hx
      simp only [upd_same] at hij
      have e : j = s.len := by omega
      subst e
      rw [hlast, hmv] at hb
      simp at hb
    · simp only [upd_other _ _ _ _ hx] at hij
      rcases hcases j hj with hj' | rfl
      · rw [hold j hj'] at hb ⊢
        have := h.rmsgs i j hij hj' hb
        refine ⟨this.1, ?_⟩
        rw [hmv, this.2]; simp [hx]
      · rw [hlast] at hb ⊢
        exact ⟨hmw, hb⟩
  · intro i
    simp only [Nat.add_sub_cancel, hlast, hmw]
    by_cases hx : i = w.id
    · subst hx; simp only [upd_same]; exact h.rw_ _
    · simp only [upd_other _ _ _ _ hx]; exact h.rw_ i
  · intro i k
    by_cases hx : i = w.id
    · subst hx; simp only [upd_same]; exact h.rr _ k
    · simp only [upd_other _ _ _ _ hx]; exact h.rr i k
  · intro i
    by_cases hx : i = w.id
    · subst hx; simp only [upd_same]; exact h.rself _
    · simp only [upd_other _ _ _ _ hx]; exact h.rself i
  · intro i hi
    have hx : i ≠ w.id := by
      rintro rfl
      simp only [upd_same] at hi
      exact hi rfl
    simp only [upd_other _ _ _ _ hx, Nat.add_sub_cancel, hlast, hmw] at hi ⊢
    have := h.rholds i hi
    refine ⟨?_, this.2⟩
    rw [hmv, this.1]; simp [hx]

theorem inv_reach {α : Type} {full : BitVec 16} {a : α} {s : State α} (h : Reach full a s) : Inv full s := by
  induction h with
  | start => exact inv_init full a
  | step s t _ hst ih =>
    cases hst with
    | getMut j hpc hj hl => exact inv_getMut ih j hpc hj hl
    | write x hpc => exact inv_write ih x hpc
    | notify p hpc hp hl => exact inv_notify ih p hpc hp hl
    | get w j hw hpc hj hl => exact inv_get ih w j hw hpc hj hl
    | use w hw hpc => exact inv_use ih w hpc
    | done w hw hpc => exact inv_done ih w hw hpc

end Verif.TE.Spin

import Verif.TE.SpinLemmas
/-!
# C34: the spin queue under every interleaving
-/
set_option autoImplicit false
namespace Verif.Props
open Verif Verif.TE.Spin

/-- `WorkerId::new` accepts exactly the ids 0 to 15. -/
theorem C34_worker_id (id : Nat) : (WorkerId.new id).isSome ↔ id < 16 := by
  unfold WorkerId.new
  split <;> simp <;> omega

/-- Bit `i` of a status. -/
def HasBit (v : BitVec 16) (i : Nat) : Prop := v.getLsbD i = true

theorem checkIds_spec (acc : List Nat) (ws : List WorkerId) :
    (checkIds acc ws = none ∧ ¬ (acc ++ ws.map (·.id)).Nodup) ∨
    (checkIds acc ws = some (acc ++ ws.map (·.id)) ∧ (acc.Nodup → (acc ++ ws.map (·.id)).Nodup)) := by
  induction ws generalizing acc with
  | nil => right; simp [checkIds]
  | cons w ws ih =>
    unfold checkIds
    by_cases h : acc.contains w.id = true
    · left
      rw [if_pos h]
      refine ⟨rfl, fun hn => ?_⟩
      rw [List.contains_iff_mem] at h
      rw [List.nodup_append] at hn
      exact hn.2.2 _ h w.id (by simp) rfl
    · rw [if_neg h]
      have e : acc ++ (w :: ws).map (·.id) = (acc ++ [w.id]) ++ ws.map (·.id) := by simp
      rw [e]
      rcases ih (acc ++ [w.id]) with ⟨h1, h2⟩ | ⟨h1, h2⟩
      · left; exact ⟨h1, h2⟩
      · right
        refine ⟨h1, fun ha => h2 ?_⟩
        rw [List.nodup_append]
        refine ⟨ha, by simp, ?_⟩
        intro a haa b hb
        simp only [List.mem_singleton] at hb
        subst hb
        rintro rfl
        exact h (List.contains_iff_mem.2 haa)

theorem foldl_bits (ids : List Nat) (acc : BitVec 16) (h : ∀ i ∈ ids, i < 16) (k : Nat) :
    (ids.foldl (fun acc i => acc ||| (1#16 <<< i)) acc).getLsbD k = (acc.getLsbD k || decide (k ∈ ids)) := by
  induction ids generalizing acc with
  | nil => simp
  | cons i is ih =>
    rw [List.foldl_cons, ih _ (fun j hj => h j (List.mem_cons_of_mem _ hj)), BitVec.getLsbD_or,
      bit_get _ _ (h i (by simp))]
    by_cases e : k = i <;> simp [e]

/-- C34 (construction). `DataSpinQueue::new` fails exactly when two workers have the same id; otherwise the full
status has exactly the bits of the workers. -/
theorem C34_new (ws : List WorkerId) (hw : ∀ w ∈ ws, WorkerId.new w.id = some w) :
    (newFull ws = none ↔ ¬ (ws.map (·.id)).Nodup) ∧
    ∀ full, newFull ws = some full → ∀ i, HasBit full i ↔ ∃ w ∈ ws, w.id = i := by
  unfold newFull
  rcases checkIds_spec [] ws with ⟨h1, h2⟩ | ⟨h1, h2⟩
  · rw [h1]
    refine ⟨?_, by simp⟩
    simpa using h2
  · rw [h1]
    refine ⟨?_, ?_⟩
    · have := h2 List.nodup_nil
      simp only [List.nil_append] at this
      simp [this]
    · intro full hf i
      simp only [List.nil_append, Option.some.injEq] at hf
      subst hf
      unfold HasBit
      rw [foldl_bits _ _ (by
        intro i hi
        simp only [List.mem_map] at hi
        obtain ⟨w, hw', rfl⟩ := hi
        exact (new_id (hw w hw')).1)]
      simp

/-- C34 (safety). In every state of every interleaving, under release-acquire memory: no access to the item
races with another; the writer and a worker never hold the item at the same time. -/
theorem C34_exclusive {α : Type} (full : BitVec 16) (a : α) (s : State α) (h : Reach full a s) :
    ¬ s.race ∧ (s.wpc ≠ .idle → ∀ i, s.rpc i = .idle) := by
  have hi := inv_reach h
  refine ⟨hi.norace, fun hw i => ?_⟩
  exact hi.allClear (hi.wholds hw).1 i

/-- C34 (delivery). Every registered worker uses the published items in order, each exactly once, and is at most
one item behind; workers that are not registered use nothing; when the writer may write again, every registered
worker has used every item. -/
theorem C34_delivery {α : Type} (full : BitVec 16) (a : α) (s : State α) (h : Reach full a s) (i : Nat) :
    (HasBit full i → ∃ rest, s.published = s.seen i ++ rest ∧ rest.length ≤ 1 ∧ (s.wpc = .holds → rest = [])) ∧
    (¬ HasBit full i → s.seen i = []) := by
  have hi := inv_reach h
  refine ⟨fun hb => ?_, fun hb => (hi.unregIdle i (by simpa [HasBit] using hb)).1⟩
  have hpre := hi.pre i
  refine ⟨s.published.drop (s.seen i).length, ?_, ?_, ?_⟩
  · conv_rhs => rw [hpre]
    rw [List.length_take]
    have hle : (s.seen i).length ≤ s.published.length := by
      have := congrArg List.length hpre
      rw [List.length_take] at this; omega
    rw [Nat.min_eq_left hle]
    exact (List.take_append_drop _ _).symm
  · rw [List.length_drop]
    have hp := hi.pubs
    rcases hl : (s.hist (s.len - 1)).val.getLsbD i with _ | _
    · have := (hi.lastClear i hb hl).1
      split at hp <;> omega
    · have h1 := hi.lastSet i hb hl
      have : s.wpc = .idle := by
        by_contra hc
        have := (hi.wholds hc).1
        rw [this] at hl; simp at hl
      rw [this] at hp
      simp only [reduceCtorEq, if_false] at hp
      omega
  · intro hw
    have hz := (hi.wholds (by rw [hw]; simp)).1
    have h1 := (hi.lastClear i hb (by rw [hz]; simp)).1
    have hp := hi.pubs
    rw [hw] at hp
    simp only [reduceCtorEq, if_false] at hp
    apply List.drop_of_length_le
    omega

/-- C34 (no deadlock). When nobody holds the item: if some registered worker has not used the latest item, it can
take it; otherwise the writer can. -/
theorem C34_progress {α : Type} (full : BitVec 16) (a : α) (s : State α) (h : Reach full a s)
    (hw : s.wpc = .idle) (hr : ∀ i, s.rpc i = .idle) :
    (∀ w, WorkerId.new w.id = some w → HasBit full w.id → s.seen w.id ≠ s.published →
        ∃ t, Step full s t ∧ t.rpc w.id = .holds) ∧
    ((∀ i, HasBit full i → s.seen i = s.published) → ∃ t, Step full s t ∧ t.wpc = .holds) := by
  have hi := inv_reach h
  have hp := hi.pubs
  rw [hw] at hp
  simp only [reduceCtorEq, if_false] at hp
  have hlp := hi.len_pos
  refine ⟨fun w hw' hb hne => ?_, fun hall => ?_⟩
  · have hbit : (s.hist (s.len - 1)).val.getLsbD w.id = true := by
      by_contra hc
      have h1 := (hi.lastClear w.id hb (by simpa using hc)).1
      apply hne
      rw [hi.pre w.id]
      apply List.take_of_length_le
      omega
    have := hi.rbound w.id
    refine ⟨_, Step.get s w (s.len - 1) hw' (hr w.id) (by omega) (by omega), ?_⟩
    simp only [upd_same]
    rw [if_pos ((ready_iff hw' _).2 hbit)]
  · have hz : (s.hist (s.len - 1)).val = 0#16 := by
      apply BitVec.eq_of_getLsbD_eq
      intro i _
      rw [BitVec.getLsbD_zero]
      rcases hf : full.getLsbD i with _ | _
      · exact hi.unreg _ i (by omega) hf
      · by_contra hc
        have h1 := hi.lastSet i hf (by simpa using hc)
        rw [hr i] at h1
        rw [hall i hf] at h1
        simp only [reduceCtorEq, if_false] at h1
        omega
    have := hi.wbound.1
    refine ⟨_, Step.getMut s (s.len - 1) hw (by omega) (by omega), ?_⟩
    simp only
    rw [if_pos ((readyToUpdate_iff _).2 hz)]

/-- Before the first `notify_all_workers` no worker gets the initial data: `get` returns `None` for every worker
(the unit test at spinqueue.rs 172 unwraps it). -/
theorem C34_fresh_get {α : Type} (a : α) (w : WorkerId) (j : Nat) :
    readyToWork w ((init a).hist j).val = false := by
  unfold readyToWork
  simp [init, BitVec.ult]

/-! ### A run -/

/-- Worker number `i` (below 16). -/
def wk (i : Nat) : WorkerId := { id := i, bit := 1#16 <<< i, neg := ~~~(1#16 <<< i) }

example : newFull [wk 0, wk 3] = some 9#16 := by decide

/-- With workers 0 and 3: the item 7 is written, worker 3 uses it and is done, worker 0 still holds it. -/
example : ∃ s : State Nat, Reach 9#16 0 s ∧ s.published = [7] ∧ s.seen 3 = [7] ∧ s.seen 0 = [] ∧
    s.rpc 0 = .holds ∧ s.wpc = .idle := by
  have h0 := Reach.start (full := 9#16) (a := 0)
  have h1 := Reach.step _ _ h0 (Step.getMut _ 0 rfl (by simp [init]) (by simp [init]))
  have h2 := Reach.step _ _ h1 (Step.write _ 7 (by simp [init, readyToUpdate]))
  have h3 := Reach.step _ _ h2 (Step.notify _ 1 rfl (by simp) (by simp [init]))
  have h4 := Reach.step _ _ h3 (Step.get _ (wk 3) 1 (by decide) (by simp [init])
    (by simp [init, shiftBound]) (by simp [init]))
  have h5 := Reach.step _ _ h4 (Step.use _ (wk 3) (by decide)
    (by simp [upd, insertMsg, readyToWork, wk]))
  have h6 := Reach.step _ _ h5 (Step.done _ (wk 3) (by decide) (by simp [upd]))
  have h7 := Reach.step _ _ h6 (Step.get _ (wk 0) 2 (by decide) (by simp [upd, wk, init])
    (by simp [upd, wk, init, shiftBound]) (by simp [init]))
  refine ⟨_, h7, rfl, rfl, rfl, ?_, rfl⟩
  simp [upd, wk, init, insertMsg, readyToWork, doneValue]

end Verif.Props

import Verif.TE.DecompLemmas
/-!
# Snapshot-fed sides and the general representation invariant
-/
namespace Verif.TE
open Verif Verif.Spec
namespace HalfBook

theorem flat_ids (ls : List (Int × Level)) : (flat ls).map (·.id) = idsOf ls := by
  simp only [flat, idsOf, List.map_flatMap, List.map_map]
  rfl

theorem queue_ids_perm (h : HalfBook) : (h.queue.map (·.id)).Perm (idsOf h.levels) := by
  unfold queue queueOf
  cases h.side
  · simp only; rw [flat_ids]
  · simp only; rw [flat_ids]; exact (List.reverse_perm _).flatMap_right _

theorem mem_queue {h : HalfBook} {o : Resting} : o ∈ h.queue ↔ ∃ e ∈ h.levels, o.price = e.1 ∧ (o.id, o.qty) ∈ e.2.orders := by
  unfold queue; rw [mem_queueOf, mem_flat]

theorem wf_of_snap {h : HalfBook} {ctr : Nat} (inv : SnapInv h ctr) (hb : h.best = bestOf h.side h.levels)
    (hpos : ∀ e ∈ h.levels, 0 < e.2.total) (hbd : h.total < U64) : h.WF := by
  have hlev : ∀ e ∈ h.levels, LevelOK e := by
    intro e he
    obtain ⟨id, q, _, hq⟩ := inv.single e he
    have := hpos e he
    rw [hq] at this
    refine ⟨by rw [hq], by rw [hq]; simp, ?_, by rw [hq]; simp [sumQ]⟩
    rw [hq]; intro x hx; simp at hx; subst hx; exact this
  refine ⟨inv.sorted, hlev, ?_, hbd, hb, ?_, ?_⟩
  · rw [inv.total, queue, volume_queueOf, volume_flat (fun e he => (hlev e he).total)]; rfl
  · exact (queue_ids_perm h).nodup_iff.2 inv.nodup
  · intro id p
    rw [inv.cache]
    constructor
    · rintro ⟨e, he, rfl, hm⟩
      obtain ⟨x, hx, rfl⟩ := List.mem_map.1 hm
      exact ⟨⟨x.1, e.1, x.2⟩, mem_queue.2 ⟨e, he, rfl, hx⟩, rfl, rfl⟩
    · rintro ⟨o, ho, rfl, rfl⟩
      obtain ⟨e, he, hp, hm⟩ := mem_queue.1 ho
      exact ⟨e, he, hp.symm, List.mem_map.2 ⟨_, hm, rfl⟩⟩

theorem snap_of_wf {h : HalfBook} {ctr : Nat} (wf : h.WF) (hone : ∀ e ∈ h.levels, e.2.orders.length = 1)
    (hid : ∀ x ∈ h.queue, x.id < ctr) : SnapInv h ctr := by
  refine ⟨wf.sorted, ?_, ?_, ?_, ?_⟩
  · intro e he
    obtain ⟨⟨id, q⟩, hq⟩ := List.length_eq_one_iff.1 (hone e he)
    have hl := wf.levels e he
    refine ⟨id, q, hid ⟨id, e.1, q⟩ (mem_queue.2 ⟨e, he, rfl, by rw [hq]; simp⟩), ?_⟩
    obtain ⟨k, p, os, t⟩ := e
    have h1 := hl.price; have h2 := hl.total
    simp only at h1 h2 hq ⊢
    subst hq; subst h1
    rw [h2]; simp [sumQ]
  · rw [wf.total, queue, volume_queueOf, volume_flat (fun e he => (wf.levels e he).total)]; rfl
  · exact (queue_ids_perm h).nodup_iff.1 wf.nodup
  · intro id p
    rw [wf.cache]
    constructor
    · rintro ⟨o, ho, rfl, rfl⟩
      obtain ⟨e, he, hp, hm⟩ := mem_queue.1 ho
      exact ⟨e, he, hp.symm, List.mem_map.2 ⟨_, hm, rfl⟩⟩
    · rintro ⟨e, he, rfl, hm⟩
      obtain ⟨x, hx, rfl⟩ := List.mem_map.1 hm
      exact ⟨⟨x.1, e.1, x.2⟩, mem_queue.2 ⟨e, he, rfl, hx⟩, rfl, rfl⟩

/-- Ids after the snapshot loop: the earlier ones and numbers from the counter. -/
theorem snapLoop_ids (m : Mode) (snap : List LevelSnapshot) : ∀ {h : HalfBook} {ctr : Nat}, SnapInv h ctr →
    h.total + (snap.map (·.qty)).sum < U64 → ctr + snap.length < U64 →
    ∀ {h' : HalfBook} {ctr' r}, snapLoop m snap h ctr = .ok (h', ctr', r) →
      ∀ id ∈ idsOf h'.levels, id ∈ idsOf h.levels ∨ ctr ≤ id := by
  induction snap with
  | nil =>
    intro h ctr inv _ _ h' ctr' r he id hid
    simp only [snapLoop, Except.ok.injEq, Prod.mk.injEq] at he
    rw [← he.1] at hid; exact Or.inl hid
  | cons s snap ih =>
    intro h ctr inv hfit hctr h' ctr' r he id hid
    simp only [List.map_cons, List.sum_cons, List.length_cons] at hfit hctr
    obtain ⟨h1, c1, i1d, e1, i1, s1, l1, t1, hcase⟩ := snapStep_snap m inv s (by omega) (by omega)
    simp only [snapLoop, e1, Res.bind_ok] at he
    have hc1 : ctr ≤ c1 ∧ c1 ≤ ctr + 1 := by
      rcases hcase with ⟨_, _, _, h⟩ | ⟨_, _, h⟩ <;> omega
    rcases ih i1 (by omega) (by omega) he id hid with hi | hi
    · rw [l1, mem_idsOf] at hi
      obtain ⟨e, he, hm⟩ := hi
      rw [BMap.mem_insert inv.sorted] at he
      rcases he with rfl | ⟨he, _⟩
      · simp only [List.map_cons, List.map_nil, List.mem_singleton] at hm
        subst hm
        rcases hcase with ⟨l, hg, hl, _⟩ | ⟨_, h2, _⟩
        · left; exact mem_idsOf.2 ⟨_, BMap.get_mem hg, by rw [hl]; simp⟩
        · right; omega
      · left; exact mem_idsOf.2 ⟨e, he, hm⟩
    · right; omega

theorem updateSnapshot_ids (m : Mode) {h : HalfBook} {ctr : Nat} (inv : SnapInv h ctr)
    (hb : h.best = bestOf h.side h.levels) (snap : List LevelSnapshot)
    (hfit : h.total + (snap.map (·.qty)).sum < U64) (hctr : ctr + snap.length < U64)
    {h' : HalfBook} {ctr' : Nat} (he : h.updateSnapshot m snap ctr = .ok (h', ctr', .ok ())) :
    ∀ id ∈ idsOf h'.levels, id ∈ idsOf h.levels ∨ ctr ≤ id := by
  obtain ⟨h1, e1, i1, b1, s1, l1⟩ := removeFold_snap m
    ((h.levels.map (·.1)).filter (fun p => !(snap.map (·.price)).contains p)) inv hb
  have ht1 : h1.total ≤ h.total := by rw [i1.total, inv.total, l1]; exact sumT_filter_le _ _
  simp only [updateSnapshot, e1, Res.bind_ok] at he
  cases hl : snapLoop m snap h1 ctr with
  | error e => rw [hl] at he; simp at he
  | ok v =>
    obtain ⟨h2, c2, r⟩ := v
    rw [hl] at he
    simp only [Res.bind_ok] at he
    cases r with
    | error _ => simp at he
    | ok _ =>
      simp only [Except.ok.injEq, Prod.mk.injEq] at he
      obtain ⟨rfl, rfl, _⟩ := he
      intro id hid
      rcases snapLoop_ids m snap i1 (by omega) hctr hl id hid with h | h
      · left
        rw [l1, mem_idsOf] at h
        obtain ⟨e, he, hm⟩ := h
        exact mem_idsOf.2 ⟨e, (List.mem_filter.1 he).1, hm⟩
      · exact Or.inr h

/-- Sum of the snapshot quantities. -/
theorem total_of_perm {h : HalfBook} {ctr : Nat} (inv : SnapInv h ctr) {snap : List LevelSnapshot}
    (hp : h.toSnapshot.Perm snap) : h.total = (snap.map (·.qty)).sum := by
  rw [inv.total, ← (hp.map (·.qty)).sum_nat]
  simp only [sumT, toSnapshot, List.map_map]; rfl

end HalfBook
end Verif.TE

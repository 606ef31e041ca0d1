import Verif.TE.SnapLemmas
/-!
# Snapshot decomposition: lemmas
-/
namespace Verif.TE
open Verif Verif.Spec

theorem volumeAt_rest (s : BookSide) (o : Resting) (p : Int) (l : List Resting) :
    volumeAt p (rest s o l) = volumeAt p l + if o.price = p then o.qty else 0 := by
  induction l with
  | nil => by_cases h : o.price = p <;> simp [rest, volumeAt, h]
  | cons y l ih =>
    simp only [rest]
    split
    · by_cases h : o.price = p <;> simp [volumeAt, List.filter_cons, h]; omega
    · simp only [volumeAt, List.filter_cons] at ih ⊢
      by_cases h : y.price = p <;> simp [h, ih] ; omega

theorem volume_takeNewest (l : List Resting) : ∀ (q : Nat), volume (takeNewest q l) = volume l - q := by
  induction l with
  | nil => intro q; simp [takeNewest]
  | cons x l ih =>
    intro q
    simp only [takeNewest]
    split
    · simp; omega
    · rw [ih]; simp; omega

theorem takeNewest_price {p : Int} (l : List Resting) : ∀ (q : Nat), (∀ x ∈ l, x.price = p) →
    ∀ x ∈ takeNewest q l, x.price = p := by
  induction l with
  | nil => intro q _ x hx; simp [takeNewest] at hx
  | cons y l ih =>
    intro q hl x hx
    simp only [takeNewest] at hx
    split at hx
    · rcases List.mem_cons.1 hx with rfl | hx
      · exact hl y (by simp)
      · exact hl x (by simp [hx])
    · exact ih _ (fun x hx => hl x (by simp [hx])) x hx

theorem filter_ne_split (p : Int) (l : List Resting) :
    l.filter (·.price ≠ p) = l.takeWhile (·.price ≠ p) ++ (l.dropWhile (·.price ≠ p)).filter (·.price ≠ p) := by
  induction l with
  | nil => rfl
  | cons y l ih =>
    by_cases hy : y.price = p
    · simp [List.dropWhile_cons, hy]
    · simp only [List.filter_cons, List.takeWhile_cons, List.dropWhile_cons, ne_eq, hy, not_false_eq_true,
        decide_true, if_true, List.cons_append]
      rw [← ih]

/-- `removeAt` touches one price only, and removes the stated amount. -/
theorem removeAt_spec (p : Int) (q : Nat) (l : List Resting) :
    volumeAt p (removeAt p q l) = volumeAt p l - q ∧
      (removeAt p q l).filter (·.price ≠ p) = l.filter (·.price ≠ p) := by
  have htw : ∀ x ∈ l.takeWhile (·.price ≠ p), x.price ≠ p := by
    intro x hx
    have := List.mem_takeWhile_imp hx
    simpa using this
  have hat : ∀ x ∈ (l.filter (·.price = p)).reverse, x.price = p := by
    intro x hx; simp at hx; exact hx.2
  have hr : ∀ x ∈ (takeNewest q (l.filter (·.price = p)).reverse).reverse, x.price = p := by
    intro x hx; exact takeNewest_price _ _ hat x (by simpa using hx)
  have hr1 : (takeNewest q (l.filter (·.price = p)).reverse).reverse.filter (·.price = p) =
      (takeNewest q (l.filter (·.price = p)).reverse).reverse := by
    rw [List.filter_eq_self]; intro x hx; simp [hr x hx]
  have hr2 : (takeNewest q (l.filter (·.price = p)).reverse).reverse.filter (·.price ≠ p) = [] := by
    rw [List.filter_eq_nil_iff]; intro x hx; simp [hr x hx]
  have hA : (l.takeWhile (·.price ≠ p)).filter (·.price = p) = [] := by
    rw [List.filter_eq_nil_iff]; intro x hx; simpa using htw x hx
  have hC : ((l.dropWhile (·.price ≠ p)).filter (·.price ≠ p)).filter (·.price = p) = [] := by
    rw [List.filter_eq_nil_iff]; intro x hx
    have := (List.mem_filter.1 hx).2
    simpa using this
  constructor
  · simp only [removeAt, volumeAt, List.filter_append]
    rw [hA, hC, hr1]
    simp only [List.nil_append, List.append_nil, volume_reverse]
    rw [volume_takeNewest]; simp
  · simp only [removeAt, List.filter_append]
    rw [hr2, filter_ne_split p l]
    have : (l.takeWhile (·.price ≠ p)).filter (·.price ≠ p) = l.takeWhile (·.price ≠ p) := by
      rw [List.filter_eq_self]; intro x hx; simpa using htw x hx
    rw [this]
    simp [List.filter_filter]

theorem volumeAt_removeAt (p p' : Int) (q : Nat) (l : List Resting) :
    volumeAt p' (removeAt p q l) = if p' = p then volumeAt p l - q else volumeAt p' l := by
  obtain ⟨h1, h2⟩ := removeAt_spec p q l
  split
  · rename_i h; rw [h, h1]
  · rename_i h
    have : ∀ X : List Resting, X.filter (·.price = p') = (X.filter (·.price ≠ p)).filter (·.price = p') := by
      intro X
      rw [List.filter_filter]
      apply List.filter_congr
      intro x _
      by_cases hx : x.price = p' <;> simp [hx, h]
    unfold volumeAt
    rw [this, this l, h2]

theorem volumeAt_le (p : Int) (l : List Resting) : volumeAt p l ≤ volume l := Spec'.volume_filter_le _ _

/-! ### Applying emitted orders -/

/-- Price of an emitted order. -/
def DecOrder.price : DecOrder → Int
  | .limit o => o.price
  | .removeAny o => o.price

/-- Side of an emitted order. -/
def DecOrder.side : DecOrder → Side
  | .limit o => o.side
  | .removeAny o => o.side

/-- Ids of added orders. -/
def DecOrder.ids : DecOrder → List Nat
  | .limit o => [o.id]
  | .removeAny _ => []

/-- Quantity added. -/
def DecOrder.added : DecOrder → Nat
  | .limit o => o.qty
  | .removeAny _ => 0

/-- Quantity at the price after the order. -/
def DecOrder.after (v : Nat) : DecOrder → Nat
  | .limit o => v + o.qty
  | .removeAny o => v - o.qty

/-- Emitted orders that can be applied to side `s`. -/
def DecOrder.ok (s : Side) : DecOrder → Prop
  | .limit o => o.side = s ∧ 0 < o.qty ∧ HalfBook.InI64 o.price
  | .removeAny o => o.side = s

namespace HalfBook

theorem applyDecs_spec (m : Mode) (os : List DecOrder) : ∀ {h : HalfBook}, h.WF →
    (∀ o ∈ os, o.ok h.side) → (os.map (·.price)).Nodup → (os.flatMap (·.ids)).Nodup →
    (∀ id ∈ os.flatMap (·.ids), ∀ x ∈ h.queue, x.id ≠ id) →
    h.total + (os.map (·.added)).sum < U64 →
    ∃ h', applyDecs m os h = .ok (h', .ok ()) ∧ h'.WF ∧ h'.side = h.side ∧
      (∀ p, volumeAt p h'.queue = match os.find? (·.price = p) with
        | some o => o.after (volumeAt p h.queue)
        | none => volumeAt p h.queue) ∧
      (∀ x ∈ h'.queue, (∃ y ∈ h.queue, y.id = x.id) ∨ x.id ∈ os.flatMap (·.ids)) := by
  induction os with
  | nil => intro h wf _ _ _ _ _; exact ⟨h, rfl, wf, rfl, by simp, fun x hx => Or.inl ⟨x, hx, rfl⟩⟩
  | cons o os ih =>
    intro h wf hok hnp hni hfr hfit
    simp only [List.map_cons, List.nodup_cons, List.flatMap_cons, List.sum_cons] at hnp hni hfr hfit
    have ho := hok o (by simp)
    have hos : ∀ o ∈ os, o.ok h.side := fun o' h' => hok o' (by simp [h'])
    rw [List.nodup_append] at hni
    have hfp : ∀ p, o.price = p → os.find? (fun x => x.price = p) = none := by
      rintro p rfl
      rw [List.find?_eq_none]; intro x hx; simp only [decide_eq_true_eq]
      intro he; exact hnp.1 (List.mem_map.2 ⟨x, hx, he⟩)
    -- one step
    obtain ⟨h1, e1, w1, s1, v1, i1, t1⟩ : ∃ h1, applyDec m h o = .ok (h1, .ok ()) ∧ h1.WF ∧ h1.side = h.side ∧
        (∀ p, volumeAt p h1.queue = if o.price = p then o.after (volumeAt p h.queue) else volumeAt p h.queue) ∧
        (∀ x ∈ h1.queue, (∃ y ∈ h.queue, y.id = x.id) ∨ x.id ∈ o.ids) ∧ h1.total ≤ h.total + o.added := by
      cases o with
      | limit o =>
        obtain ⟨h1, e, w, s, q, t⟩ := addLimitOrder_spec m wf ho.1 ho.2.1
          (by simp only [DecOrder.added] at hfit; omega)
          (fun x hx => hfr o.id (by simp [DecOrder.ids]) x hx) ho.2.2
        refine ⟨h1, e, w, s, ?_, ?_, by rw [t]; exact Nat.le_refl _⟩
        · intro p; rw [q, volumeAt_rest]
          by_cases hp : o.price = p <;> simp [DecOrder.price, DecOrder.after, hp]
        · intro x hx; rw [q, mem_rest] at hx
          rcases hx with rfl | hx
          · right; simp [DecOrder.ids]
          · left; exact ⟨x, hx, rfl⟩
      | removeAny o =>
        obtain ⟨h1, e, w, s, q, t⟩ := removeOrder_spec m wf o ho
        refine ⟨h1, ?_, w, s, ?_, ?_, by omega⟩
        · simp only [applyDec, e, Res.bind_ok]
        · intro p; rw [q, volumeAt_removeAt]
          by_cases hp : p = o.price
          · subst hp; simp [DecOrder.price, DecOrder.after]
          · have hp' : ¬ (DecOrder.removeAny o).price = p := fun h => hp h.symm
            rw [if_neg hp, if_neg hp']
        · intro x hx; rw [q] at hx
          obtain ⟨y, hy, h1, _⟩ := OrderBook.removeAt_ids hx
          exact Or.inl ⟨y, hy, h1⟩
    obtain ⟨h2, e2, w2, s2, v2, i2⟩ := ih w1 (by rw [s1]; exact hos) hnp.2 hni.2.1
      (by
        intro id hid x hx he
        rcases i1 x hx with ⟨y, hy, h⟩ | h
        · exact hfr id (by simp only [List.mem_append]; exact Or.inr hid) y hy (h.trans he)
        · exact hni.2.2 _ h id hid he)
      (by omega)
    refine ⟨h2, ?_, w2, s2.trans s1, ?_, ?_⟩
    · simp only [applyDecs, e1, Res.bind_ok, e2]
    · intro p
      rw [v2, v1]
      simp only [List.find?_cons]
      by_cases hp : o.price = p
      · simp [hp, hfp p hp]
      · simp [hp]
    · intro x hx
      simp only [List.flatMap_cons, List.mem_append]
      rcases i2 x hx with ⟨y, hy, h⟩ | h
      · rcases i1 y hy with ⟨z, hz, h'⟩ | h'
        · exact Or.inl ⟨z, hz, h'.trans h⟩
        · right; left; rw [← h]; exact h'
      · exact Or.inr (Or.inr h)

end HalfBook

/-- What a price level needs to go from `old` to `new` units: `(true, q)` = add `q`, `(false, q)` = remove
`q`, `none` = nothing. -/
def neededChange (old new : Nat) : Option (Bool × Nat) :=
  if old < new then some (true, new - old) else if new < old then some (false, old - new) else none

/-- The same view of an emitted order. -/
def DecOrder.change : DecOrder → Bool × Nat
  | .limit o => (true, o.qty)
  | .removeAny o => (false, o.qty)

namespace HalfBook

theorem get_total {h : HalfBook} (wf : h.WF) (p : Int) :
    (BMap.get p h.levels).map (·.total) = if volumeAt p h.queue = 0 then none else some (volumeAt p h.queue) := by
  rw [← aggregateAt_eq wf]
  unfold aggregateAt
  cases hg : BMap.get p h.levels with
  | none => simp
  | some l =>
    have hl := wf.levels _ (BMap.get_mem hg)
    have : l.total ≠ 0 := by
      have h1 := hl.total
      have h2 := (hl.pos.sum_eq_zero).not.2 hl.nonempty
      simp only at h1 h2; omega
    simp [this]

theorem decompLoop_spec (m : Mode) {h : HalfBook} (wf : h.WF) (snap : List LevelSnapshot) : ∀ ctr,
    (snap.map (·.price)).Nodup → (∀ s ∈ snap, 0 < s.qty ∧ InI64 s.price) → ctr + snap.length < U64 →
    ∃ os ctr', decompLoop m h snap ctr = .ok (os, ctr') ∧
      os.flatMap (·.ids) = List.range' ctr (ctr' - ctr) ∧ ctr ≤ ctr' ∧ ctr' ≤ ctr + snap.length ∧
      (os.map (·.price)).Sublist (snap.map (·.price)) ∧ (∀ o ∈ os, o.ok h.side) ∧
      (os.map (·.added)).sum ≤ (snap.map (·.qty)).sum ∧
      (∀ s ∈ snap, (os.find? (·.price = s.price)).map (·.change) =
        neededChange (volumeAt s.price h.queue) s.qty) := by
  induction snap with
  | nil => intro ctr _ _ _; exact ⟨[], ctr, rfl, by simp, Nat.le_refl _, by simp, by simp, by simp, by simp, by simp⟩
  | cons s snap ih =>
    intro ctr hnd hpos hctr
    simp only [List.map_cons, List.nodup_cons, List.length_cons] at hnd hctr
    have hs := hpos s (by simp)
    have hpos' : ∀ s ∈ snap, 0 < s.qty ∧ InI64 s.price := fun x hx => hpos x (by simp [hx])
    have hag := aggregateAt_eq wf s.price
    have hnf : ∀ os : List DecOrder, (os.map (·.price)).Sublist (snap.map (·.price)) →
        os.find? (fun x => x.price = s.price) = none := by
      intro os hsub
      rw [List.find?_eq_none]; intro x hx; simp only [decide_eq_true_eq]
      intro he; exact hnd.1 (he ▸ hsub.subset (List.mem_map.2 ⟨x, hx, rfl⟩))
    -- adding an order with a fresh id
    have hadd : ∀ q, 0 < q → q ≤ s.qty → neededChange (volumeAt s.price h.queue) s.qty = some (true, q) →
        (∀ r, decompLoop m h snap (ctr + 1) = .ok r →
          decompLoop m h (s :: snap) ctr = .ok (.limit ⟨s.price, q, h.side, ctr⟩ :: r.1, r.2)) →
        ∃ os ctr', decompLoop m h (s :: snap) ctr = .ok (os, ctr') ∧
      os.flatMap (·.ids) = List.range' ctr (ctr' - ctr) ∧ ctr ≤ ctr' ∧ ctr' ≤ ctr + (s :: snap).length ∧
      (os.map (·.price)).Sublist ((s :: snap).map (·.price)) ∧ (∀ o ∈ os, o.ok h.side) ∧
      (os.map (·.added)).sum ≤ ((s :: snap).map (·.qty)).sum ∧
      (∀ s' ∈ s :: snap, (os.find? (·.price = s'.price)).map (·.change) =
        neededChange (volumeAt s'.price h.queue) s'.qty) := by
      intro q hq hq2 hn hrun
      obtain ⟨os, c, e, hid, h1, h2, hsub, hok, hsum, hch⟩ := ih (ctr + 1) hnd.2 hpos' (by omega)
      refine ⟨.limit ⟨s.price, q, h.side, ctr⟩ :: os, c, hrun _ e, ?_, by omega, by simp only [List.length_cons]; omega,
        ?_, ?_, ?_, ?_⟩
      · rw [List.flatMap_cons, hid, show c - ctr = (c - (ctr + 1)) + 1 by omega, List.range'_succ]; rfl
      · simp only [List.map_cons, DecOrder.price]; exact hsub.cons_cons _
      · intro o ho
        rcases List.mem_cons.1 ho with rfl | ho
        · exact ⟨rfl, hq, hs.2⟩
        · exact hok o ho
      · simp only [List.map_cons, List.sum_cons]; show q + _ ≤ _; omega
      · intro s' hs'
        simp only [List.find?_cons, DecOrder.price]
        rcases List.mem_cons.1 hs' with rfl | hs'
        · simp [DecOrder.change, hn]
        · have : s.price ≠ s'.price := fun he => hnd.1 (he ▸ List.mem_map.2 ⟨s', hs', rfl⟩)
          simp only [this, decide_false]
          exact hch s' hs'
    cases hg : BMap.get s.price h.levels with
    | none =>
      simp only [aggregateAt, hg] at hag
      apply hadd s.qty hs.1 (Nat.le_refl _)
      · simp [neededChange, ← hag, hs.1]
      · intro r hr
        simp only [decompLoop, hg, addU_ok (show ctr + 1 < U64 by omega), Res.bind_ok, hr]
    | some l =>
      simp only [aggregateAt, hg] at hag
      by_cases h1 : l.total > s.qty
      · obtain ⟨os, c, e, hid, h2, h3, hsub, hok, hsum, hch⟩ := ih ctr hnd.2 hpos' (by omega)
        refine ⟨.removeAny ⟨s.price, l.total - s.qty, h.side⟩ :: os, c, ?_, ?_, h2, by simp only [List.length_cons]; omega,
          ?_, ?_, ?_, ?_⟩
        · simp only [decompLoop, hg, h1, if_true, e, Res.bind_ok]
        · rw [List.flatMap_cons, hid]; rfl
        · simp only [List.map_cons, DecOrder.price]; exact hsub.cons_cons _
        · intro o ho
          rcases List.mem_cons.1 ho with rfl | ho
          · rfl
          · exact hok o ho
        · simp only [List.map_cons, List.sum_cons]; show 0 + _ ≤ _; omega
        · intro s' hs'
          simp only [List.find?_cons, DecOrder.price]
          rcases List.mem_cons.1 hs' with rfl | hs'
          · simp only [decide_true, Option.map_some, DecOrder.change, neededChange, ← hag]
            rw [if_neg (by omega), if_pos (by omega)]
          · have : s.price ≠ s'.price := fun he => hnd.1 (he ▸ List.mem_map.2 ⟨s', hs', rfl⟩)
            simp only [this, decide_false]
            exact hch s' hs'
      · by_cases h2 : l.total < s.qty
        · apply hadd (s.qty - l.total) (by omega) (by omega)
          · simp only [neededChange, ← hag]; rw [if_pos h2]
          · intro r hr
            simp only [decompLoop, hg, h1, if_false, h2, if_true, addU_ok (show ctr + 1 < U64 by omega), Res.bind_ok, hr]
        · obtain ⟨os, c, e, hid, h3, h4, hsub, hok, hsum, hch⟩ := ih ctr hnd.2 hpos' (by omega)
          refine ⟨os, c, ?_, hid, h3, by simp only [List.length_cons]; omega, hsub.cons _, hok, ?_, ?_⟩
          · simp only [decompLoop, hg, h1, if_false, h2, e]
          · simp only [List.map_cons, List.sum_cons]; omega
          · intro s' hs'
            rcases List.mem_cons.1 hs' with rfl | hs'
            · rw [hnf os hsub]
              simp only [neededChange, ← hag]
              rw [if_neg (by omega), if_neg (by omega)]; rfl
            · exact hch s' hs'

/-- Full effect of the decomposition on one side. -/
theorem decompose_spec (m : Mode) {h : HalfBook} (wf : h.WF) {ctr : Nat} (hfr : ∀ x ∈ h.queue, x.id < ctr)
    (snap : List LevelSnapshot) (hnd : (snap.map (·.price)).Nodup)
    (hpos : ∀ s ∈ snap, 0 < s.qty ∧ InI64 s.price) (hctr : ctr + snap.length < U64)
    (hfit : h.total + (snap.map (·.qty)).sum < U64) :
    ∃ h' ctr' all, h.decompose m snap ctr = .ok (h', ctr', .ok all) ∧ h'.WF ∧ h'.side = h.side ∧
      applyDecs m all h = .ok (h', .ok ()) ∧
      all.flatMap (·.ids) = List.range' ctr (ctr' - ctr) ∧ ctr ≤ ctr' ∧ ctr' ≤ ctr + snap.length ∧
      (all.map (·.price)).Nodup ∧ (∀ o ∈ all, o.side = h.side) ∧
      (∀ x ∈ h'.queue, (∃ y ∈ h.queue, y.id = x.id) ∨ x.id ∈ all.flatMap (·.ids)) ∧
      (∀ p, (all.find? (·.price = p)).map (·.change) =
        neededChange (volumeAt p h.queue) ((snapAt snap p).getD 0)) ∧
      (∀ p, volumeAt p h'.queue = (snapAt snap p).getD 0) := by
  obtain ⟨os, c, e, hid, hc1, hc2, hsub, hok, hsum, hch⟩ := decompLoop_spec m wf snap ctr hnd hpos hctr
  -- the removals for vanished prices
  have hgone : ∀ o ∈ decompGone h snap, ∃ p l, (p, l) ∈ h.levels ∧ p ∉ snap.map (·.price) ∧
      o = .removeAny ⟨p, l.total, h.side⟩ := by
    intro o ho
    unfold decompGone at ho
    rw [List.mem_filterMap] at ho
    obtain ⟨⟨p, l⟩, he, ho⟩ := ho
    simp only at ho
    split at ho
    · simp at ho
    · rename_i hn
      simp only [Option.some.injEq] at ho
      exact ⟨p, l, he, by simpa using hn, ho.symm⟩
  have hgids : (decompGone h snap).flatMap (·.ids) = [] := by
    rw [List.flatMap_eq_nil_iff]
    intro o ho; obtain ⟨p, l, _, _, rfl⟩ := hgone o ho; rfl
  have hgadd : ((decompGone h snap).map (·.added)).sum = 0 := by
    generalize decompGone h snap = g at hgone
    clear hgids
    induction g with
    | nil => rfl
    | cons o g ih =>
      obtain ⟨p, l, _, _, rfl⟩ := hgone o (by simp)
      rw [List.map_cons, List.sum_cons, ih (fun o ho => hgone o (by simp [ho]))]; rfl
  have hgpr : ((decompGone h snap).map (·.price)).Nodup := by
    have h1 : ((decompGone h snap).map (·.price)).Sublist (h.levels.map (·.1)) := by
      unfold decompGone
      induction h.levels with
      | nil => simp
      | cons e ls ih =>
        obtain ⟨p, l⟩ := e
        simp only [List.filterMap_cons]
        split
        · exact ih.cons _
        · rename_i o ho
          split at ho
          · simp at ho
          · simp only [Option.some.injEq] at ho; subst ho
            simp only [List.map_cons, DecOrder.price]
            exact ih.cons_cons _
    have h2 : (h.levels.map (·.1)).Nodup :=
      (BMap.sorted_keys.1 wf.sorted).imp (fun hlt he => by rw [he] at hlt; exact Int.lt_irrefl _ hlt)
    exact h1.nodup h2
  have hall_nd : ((os ++ decompGone h snap).map (·.price)).Nodup := by
    rw [List.map_append, List.nodup_append]
    refine ⟨hsub.nodup hnd, hgpr, ?_⟩
    rintro a ha b hb rfl
    obtain ⟨o, ho, rfl⟩ := List.mem_map.1 hb
    obtain ⟨p, l, _, hn, rfl⟩ := hgone o ho
    exact hn (hsub.subset ha)
  have hids : (os ++ decompGone h snap).flatMap (·.ids) = List.range' ctr (c - ctr) := by
    rw [List.flatMap_append, hgids, List.append_nil, hid]
  obtain ⟨h', ea, w', s', v', i'⟩ := applyDecs_spec m (os ++ decompGone h snap) wf
    (by
      intro o ho
      rcases List.mem_append.1 ho with ho | ho
      · exact hok o ho
      · obtain ⟨p, l, _, _, rfl⟩ := hgone o ho; rfl)
    hall_nd (by rw [hids]; exact List.nodup_range')
    (by
      intro id hid x hx he
      rw [hids, List.mem_range'_1] at hid
      have := hfr x hx; omega)
    (by rw [List.map_append, List.sum_append, hgadd]; omega)
  have hfind : ∀ p, ((os ++ decompGone h snap).find? (·.price = p)).map (·.change) =
      neededChange (volumeAt p h.queue) ((snapAt snap p).getD 0) := by
    intro p
    rw [List.find?_append]
    by_cases hp : p ∈ snap.map (·.price)
    · obtain ⟨s, hs, rfl⟩ := List.mem_map.1 hp
      have hgn : (decompGone h snap).find? (fun x => x.price = s.price) = none := by
        rw [List.find?_eq_none]; intro o ho
        obtain ⟨q, l, _, hn, rfl⟩ := hgone o ho
        rw [decide_eq_true_eq]
        intro he; exact hn (by rw [show q = s.price from he]; exact hp)
      have hsa : snapAt snap s.price = some s.qty := by
        unfold snapAt
        cases hf : snap.find? (fun x => x.price = s.price) with
        | none => rw [List.find?_eq_none] at hf; have := hf s hs; simp at this
        | some b =>
          have hb := List.mem_of_find?_eq_some hf
          have hbp : b.price = s.price := by simpa using List.find?_some hf
          have : b = s := List.inj_on_of_nodup_map hnd hb hs hbp
          simp [this]
      rw [hgn, Option.or_none, hch s hs, hsa]; rfl
    · have hon : os.find? (fun x => x.price = p) = none := by
        rw [List.find?_eq_none]; intro o ho; simp only [decide_eq_true_eq]
        rintro rfl; exact hp (hsub.subset (List.mem_map.2 ⟨o, ho, rfl⟩))
      rw [hon, Option.none_or, snapAt_none.2 hp]
      simp only [Option.getD_none]
      cases hg : BMap.get p h.levels with
      | none =>
        have hv : volumeAt p h.queue = 0 := by
          rw [← aggregateAt_eq wf]; simp [aggregateAt, hg]
        have : (decompGone h snap).find? (fun x => x.price = p) = none := by
          rw [List.find?_eq_none]; intro o ho
          obtain ⟨q, l, hm, _, rfl⟩ := hgone o ho
          rw [decide_eq_true_eq]
          intro he
          exact BMap.get_eq_none.1 hg _ hm he
        rw [this, hv]; rfl
      | some l =>
        have hm := BMap.get_mem hg
        have hv : volumeAt p h.queue = l.total := by
          rw [← aggregateAt_eq wf]; simp [aggregateAt, hg]
        have hl0 : 0 < l.total := by
          have hl := wf.levels _ hm
          have h1 := hl.total
          have h2 := (hl.pos.sum_eq_zero).not.2 hl.nonempty
          simp only at h1 h2; omega
        have hin : DecOrder.removeAny ⟨p, l.total, h.side⟩ ∈ decompGone h snap := by
          unfold decompGone
          rw [List.mem_filterMap]
          refine ⟨(p, l), hm, ?_⟩
          simp only
          rw [if_neg (by simpa using hp)]
        cases hf : (decompGone h snap).find? (fun x => x.price = p) with
        | none => rw [List.find?_eq_none] at hf; have := hf _ hin; simp [DecOrder.price] at this
        | some o =>
          have ho := List.mem_of_find?_eq_some hf
          have hop : o.price = p := by simpa using List.find?_some hf
          have : o = .removeAny ⟨p, l.total, h.side⟩ := List.inj_on_of_nodup_map hgpr ho hin (by rw [hop]; rfl)
          rw [this, hv]
          simp only [Option.map_some, DecOrder.change, neededChange, Nat.sub_zero]
          rw [if_neg (by omega), if_pos hl0]
  refine ⟨h', c, os ++ decompGone h snap, ?_, w', s', ea, hids, hc1, hc2, hall_nd, ?_, i', hfind, ?_⟩
  · simp only [decompose, e, Res.bind_ok, ea]
  · intro o ho
    rcases List.mem_append.1 ho with ho | ho
    · have := hok o ho
      cases o
      · exact this.1
      · exact this
    · obtain ⟨p, l, _, _, rfl⟩ := hgone o ho; rfl
  · intro p
    rw [v']
    have hf := hfind p
    cases hfo : (os ++ decompGone h snap).find? (fun x => x.price = p) with
    | none =>
      rw [hfo] at hf
      simp only [Option.map_none, neededChange] at hf
      simp only
      split at hf
      · simp at hf
      · split at hf
        · simp at hf
        · omega
    | some o =>
      rw [hfo] at hf
      simp only [Option.map_some, neededChange] at hf
      simp only
      split at hf
      · cases o <;> simp [DecOrder.change] at hf
        simp only [DecOrder.after]; omega
      · split at hf
        · cases o <;> simp [DecOrder.change] at hf
          simp only [DecOrder.after]; omega
        · simp at hf

end HalfBook
end Verif.TE

import Verif.TE.HalfBookOps
/-!
# `remove_order`, `change_price`, `get_order`, `remove_level` refine the specification
-/
namespace Verif.TE
open Verif Verif.Spec

/-- Erasing exactly the ids that left the queue keeps the cache correct. -/
theorem cache_shrink {q q' : List Resting} {rm : List Nat} {cache : Nat → Option Int}
    (hc : ∀ id p, cache id = some p ↔ ∃ o ∈ q, o.id = id ∧ o.price = p)
    (h1 : ∀ o ∈ q', ∃ o2 ∈ q, o2.id = o.id ∧ o2.price = o.price)
    (h2 : ∀ o ∈ q, o.id ∈ rm ∨ ∃ o2 ∈ q', o2.id = o.id ∧ o2.price = o.price)
    (h3 : ∀ o ∈ q', o.id ∉ rm) :
    ∀ id p, rm.foldl cacheErase cache id = some p ↔ ∃ o ∈ q', o.id = id ∧ o.price = p := by
  intro id p
  rw [foldl_cacheErase]
  by_cases hid : id ∈ rm
  · simp only [hid, if_true]
    constructor
    · intro h; simp at h
    · rintro ⟨o, ho, he, _⟩; subst he; exact absurd hid (h3 o ho)
  · simp only [hid, if_false, hc]
    constructor
    · rintro ⟨o, ho, he, hp⟩
      rcases h2 o ho with h | ⟨o2, ho2, he2, hp2⟩
      · rw [he] at h; exact absurd h hid
      · exact ⟨o2, ho2, by rw [he2, he], by rw [hp2, hp]⟩
    · rintro ⟨o, ho, he, hp⟩
      obtain ⟨o2, ho2, he2, hp2⟩ := h1 o ho
      exact ⟨o2, ho2, by rw [he2, he], by rw [hp2, hp]⟩

namespace HalfBook

/-- Queue part of `removeLoop`, newest first: what is left and the ids removed. -/
def cutQ : Nat → List (Nat × Nat) → List (Nat × Nat) × List Nat
  | _, [] => ([], [])
  | rem, (id, q) :: rest =>
    if rem = 0 then ((id, q) :: rest, [])
    else if q ≤ rem then ((cutQ (rem - q) rest).1, id :: (cutQ (rem - q) rest).2)
    else ((id, q - rem) :: rest, [])

theorem cutQ_ids (os) : ∀ r, (cutQ r os).2 ++ (cutQ r os).1.map (·.1) = os.map (·.1) := by
  induction os with
  | nil => intro r; simp [cutQ]
  | cons o os ih =>
    intro r
    obtain ⟨id, q⟩ := o
    simp only [cutQ]
    split
    · simp
    · split
      · simp [ih]
      · simp

theorem cutQ_sum (os) : ∀ r, sumQ (cutQ r os).1 = sumQ os - r := by
  induction os with
  | nil => intro r; simp [cutQ]
  | cons o os ih =>
    intro r
    obtain ⟨id, q⟩ := o
    simp only [cutQ]
    split
    · simp; omega
    · split
      · simp [ih]; omega
      · simp; omega

theorem cutQ_pos (os) : ∀ r, Pos os → Pos (cutQ r os).1 := by
  induction os with
  | nil => intro r h; simpa [cutQ] using h
  | cons o os ih =>
    intro r h
    obtain ⟨id, q⟩ := o
    simp only [cutQ]
    split
    · exact h
    · split
      · exact ih _ h.tail
      · intro x hx
        rcases List.mem_cons.1 hx with rfl | hx
        · simp; omega
        · exact h x (by simp [hx])

theorem cutQ_spec (p : Int) (os) : ∀ r, Pos os →
    takeNewest r (os.map (toR p)) = (cutQ r os).1.map (toR p) := by
  induction os with
  | nil => intro r h; simp [cutQ, takeNewest]
  | cons o os ih =>
    intro r h
    obtain ⟨id, q⟩ := o
    have hq : 0 < q := h (id, q) (by simp)
    rw [cutQ, List.map_cons, takeNewest]
    by_cases h0 : r = 0
    · subst h0; simp [hq, toR]
    · by_cases h1 : q ≤ r
      · rw [if_neg (by simp; omega), if_neg h0, if_pos h1]; exact ih _ h.tail
      · rw [if_pos (by simp; omega), if_neg h0, if_neg h1]; simp [toR]

theorem removeLoop_eq (m : Mode) (os) : ∀ rem lt bt c, Pos os → sumQ os ≤ lt → lt ≤ bt →
    removeLoop m os rem lt bt c = .ok ((cutQ rem os).1, rem - sumQ os,
      lt - min rem (sumQ os), bt - min rem (sumQ os), (cutQ rem os).2.foldl cacheErase c) := by
  induction os with
  | nil => intro rem lt bt c _ _ _; simp [removeLoop, cutQ]
  | cons o os ih =>
    intro rem lt bt c hp h1 h2
    obtain ⟨id, q⟩ := o
    have hq : 0 < q := hp (id, q) (by simp)
    simp only [sumQ_cons] at h1
    simp only [removeLoop, cutQ]
    by_cases h0 : rem = 0
    · subst h0; simp
    · simp only [h0, if_false]
      by_cases h3 : q ≤ rem
      · simp only [h3, if_true]
        rw [subU_ok (by omega), Res.bind_ok, subU_ok (by omega), Res.bind_ok, if_neg (by omega),
          ih _ _ _ _ hp.tail (by omega) (by omega)]
        simp only [sumQ_cons, List.foldl_cons, Except.ok.injEq, Prod.mk.injEq, and_true, true_and]
        omega
      · simp only [h3, if_false]
        rw [subU_ok (by omega), Res.bind_ok, subU_ok (by omega), Res.bind_ok]
        simp only [sumQ_cons, List.foldl_nil, Except.ok.injEq, Prod.mk.injEq, and_true, true_and]
        omega

theorem removeAt_split {p : Int} {q : Nat} {X M Y : List Resting} (hX : ∀ x ∈ X, x.price ≠ p)
    (hM : ∀ x ∈ M, x.price = p) (hne : M ≠ []) (hY : ∀ x ∈ Y, x.price ≠ p) :
    removeAt p q (X ++ (M ++ Y)) = X ++ ((takeNewest q M.reverse).reverse ++ Y) := by
  have fX : X.filter (fun o => o.price = p) = [] := by
    rw [List.filter_eq_nil_iff]; intro o ho; simp [hX o ho]
  have fY : Y.filter (fun o => o.price = p) = [] := by
    rw [List.filter_eq_nil_iff]; intro o ho; simp [hY o ho]
  have fM : M.filter (fun o => o.price = p) = M := by
    rw [List.filter_eq_self]; intro o ho; simp [hM o ho]
  have fM' : M.filter (fun o => o.price ≠ p) = [] := by
    rw [List.filter_eq_nil_iff]; intro o ho; simp [hM o ho]
  have fY' : Y.filter (fun o => o.price ≠ p) = Y := by
    rw [List.filter_eq_self]; intro o ho; simp [hY o ho]
  have tw : (X ++ (M ++ Y)).takeWhile (fun o => o.price ≠ p) = X := by
    rw [List.takeWhile_append_of_pos (by intro o ho; simp [hX o ho])]
    cases M with
    | nil => exact absurd rfl hne
    | cons x M => simp [hM x (by simp)]
  have dw : (X ++ (M ++ Y)).dropWhile (fun o => o.price ≠ p) = M ++ Y := by
    rw [List.dropWhile_append_of_pos (by intro o ho; simp [hX o ho])]
    cases M with
    | nil => exact absurd rfl hne
    | cons x M => simp [hM x (by simp)]
  unfold removeAt
  simp only [tw, dw, List.filter_append, fX, fM, fY, fM', fY']
  simp

theorem removeAt_absent {p : Int} {q : Nat} {X : List Resting} (hX : ∀ x ∈ X, x.price ≠ p) :
    removeAt p q X = X := by
  have fX : X.filter (fun o => o.price = p) = [] := by
    rw [List.filter_eq_nil_iff]; intro o ho; simp [hX o ho]
  have tw : X.takeWhile (fun o => o.price ≠ p) = X := by
    
    have := List.takeWhile_append_of_pos (p := fun o => o.price ≠ p) (l₁ := X) (l₂ := [])
      (by intro o ho; simp [hX o ho])
    simpa using this
  have dw : X.dropWhile (fun o => o.price ≠ p) = [] := by
    
    have := List.dropWhile_append_of_pos (p := fun o => o.price ≠ p) (l₁ := X) (l₂ := [])
      (by intro o ho; simp [hX o ho])
    simpa using this
  unfold removeAt
  simp only [fX, tw, dw]
  simp [takeNewest]

theorem volumeAt_split {p : Int} {X M Y : List Resting} (hX : ∀ x ∈ X, x.price ≠ p)
    (hM : ∀ x ∈ M, x.price = p) (hY : ∀ x ∈ Y, x.price ≠ p) :
    volumeAt p (X ++ (M ++ Y)) = volume M := by
  have fX : X.filter (fun o => o.price = p) = [] := by
    rw [List.filter_eq_nil_iff]; intro o ho; simp [hX o ho]
  have fY : Y.filter (fun o => o.price = p) = [] := by
    rw [List.filter_eq_nil_iff]; intro o ho; simp [hY o ho]
  have fM : M.filter (fun o => o.price = p) = M := by
    rw [List.filter_eq_self]; intro o ho; simp [hM o ho]
  simp only [volumeAt, List.filter_append, fX, fM, fY]
  simp

theorem volumeAt_absent {p : Int} {X : List Resting} (hX : ∀ x ∈ X, x.price ≠ p) :
    volumeAt p X = 0 := by
  have fX : X.filter (fun o => o.price = p) = [] := by
    rw [List.filter_eq_nil_iff]; intro o ho; simp [hX o ho]
  simp only [volumeAt, fX]; rfl

/-- Absent price: no resting order has it. -/
theorem get_none_queue {s ls p} (h : BMap.get p ls = none) : ∀ x ∈ queueOf s ls, x.price ≠ p := by
  intro x hx
  rw [mem_queueOf, mem_flat] at hx
  obtain ⟨e, he, hp, _⟩ := hx
  rw [hp]; exact BMap.get_eq_none.1 h e he

theorem aggregateAt_eq {h : HalfBook} (wf : h.WF) (p : Int) :
    h.aggregateAt p = volumeAt p h.queue := by
  unfold aggregateAt
  cases hg : BMap.get p h.levels with
  | none => exact (volumeAt_absent (get_none_queue hg)).symm
  | some l =>
    obtain ⟨A, B, hAB, hA, hB⟩ := BMap.get_split wf.sorted hg
    have hl := wf.levels (p, l) (by rw [hAB]; simp)
    unfold HalfBook.queue
    rw [hAB, queueOf_split, volumeAt_split (fun x hx => better_ne (pre_better hA hB x hx))
      (by intro x hx; obtain ⟨y, _, rfl⟩ := List.mem_map.1 hx; rfl)
      (fun x hx => (better_ne (post_worse hA hB x hx)).symm), volume_map_toR]
    exact hl.total

theorem removeOrder_spec (m : Mode) {h : HalfBook} (wf : h.WF) (o : RemoveAnyOrder)
    (hs : o.side = h.side) :
    ∃ h', h.removeOrder m o = .ok (h', some (o.qty - volumeAt o.price h.queue)) ∧ h'.WF ∧
      h'.side = h.side ∧ h'.queue = removeAt o.price o.qty h.queue ∧
      h'.total = h.total - min o.qty (volumeAt o.price h.queue) := by
  cases hg : BMap.get o.price h.levels with
  | none =>
    have hn := get_none_queue (s := h.side) hg
    refine ⟨h, ?_, wf, rfl, ?_, ?_⟩
    · simp [removeOrder, hs, hg, volumeAt_absent (X := h.queue) hn]
    · exact (removeAt_absent hn).symm
    · simp [volumeAt_absent (X := h.queue) hn]
  | some l =>
    obtain ⟨A, B, hAB, hA, hB⟩ := BMap.get_split wf.sorted hg
    obtain ⟨hsorted, hlev, htot, hbound, hbest, hnodup, hcache⟩ := wf
    obtain ⟨side, levels, cache, best, total⟩ := h
    simp only [queue_mk] at *
    subst hAB
    have hl := hlev (o.price, l) (by simp)
    have hlt := hl.total
    have hlp := hl.price
    have hps := hl.pos
    have hne := hl.nonempty
    simp only at hlt hlp hps hne
    have hX := fun x hx => better_ne (pre_better (s := side) hA hB x hx)
    have hM : ∀ x ∈ l.orders.map (toR o.price), x.price = o.price := by
      intro x hx; obtain ⟨y, _, rfl⟩ := List.mem_map.1 hx; rfl
    have hY := fun x hx => (better_ne (post_worse (s := side) hA hB x hx)).symm
    have hva : volumeAt o.price (queueOf side (A ++ (o.price, l) :: B)) = sumQ l.orders := by
      rw [queueOf_split, volumeAt_split hX hM hY, volume_map_toR]
    have hra : removeAt o.price o.qty (queueOf side (A ++ (o.price, l) :: B)) =
        queueOf side (put A B o.price (cutQ o.qty l.orders.reverse).1.reverse) := by
      rw [queueOf_put, queueOf_split, removeAt_split hX hM (by simpa using hne) hY,
        ← List.map_reverse, cutQ_spec _ _ _ (pos_reverse.2 hps)]
      simp
    have hsum := cutQ_sum l.orders.reverse o.qty
    rw [sumQ_reverse] at hsum
    have hids := cutQ_ids l.orders.reverse o.qty
    have hvol : volume (queueOf side (put A B o.price (cutQ o.qty l.orders.reverse).1.reverse)) =
        total - min o.qty (sumQ l.orders) := by
      rw [htot, queueOf_put, queueOf_split]
      simp only [volume_append, volume_map_toR, sumQ_reverse, hsum]
      omega
    have hlle : sumQ l.orders ≤ total := by
      rw [htot, queueOf_split]; simp [volume_map_toR]; omega
    have hperm : ((cutQ o.qty l.orders.reverse).2 ++
        (queueOf side (put A B o.price (cutQ o.qty l.orders.reverse).1.reverse)).map (·.id)).Perm
        ((queueOf side (A ++ (o.price, l) :: B)).map (·.id)) := by
      rw [queueOf_put, queueOf_split]
      have e : (l.orders.map (·.1)).Perm ((cutQ o.qty l.orders.reverse).2 ++
          (cutQ o.qty l.orders.reverse).1.reverse.map (·.1)) := by
        have : (l.orders.map (·.1)).Perm (l.orders.reverse.map (·.1)) :=
          (List.reverse_perm l.orders).symm.map _
        refine this.trans ?_
        rw [← hids]
        exact List.Perm.append_left _ ((List.reverse_perm _).symm.map _)
      simp only [List.map_append, List.map_map]
      have e1 : ((fun x => x.id) ∘ toR o.price) = (fun x : Nat × Nat => x.1) := rfl
      rw [e1]
      refine (List.perm_append_comm_assoc _ _ _).trans (List.Perm.append_left _ ?_)
      rw [← List.append_assoc]
      exact List.Perm.append_right _ e.symm
    have hnd' := hperm.symm.nodup hnodup
    rw [List.nodup_append] at hnd'
    refine ⟨⟨side, put A B o.price (cutQ o.qty l.orders.reverse).1.reverse,
      (cutQ o.qty l.orders.reverse).2.foldl cacheErase cache,
      bestOf side (put A B o.price (cutQ o.qty l.orders.reverse).1.reverse),
      total - min o.qty (sumQ l.orders)⟩, ?_,
      wf_put hsorted hlev (pos_reverse.2 (cutQ_pos _ _ (pos_reverse.2 hps))) hvol.symm (by omega)
        hnd'.2.1 ?_, rfl, hra.symm, by rw [hva]⟩
    · simp only [removeOrder, hs, ne_eq, not_true_eq_false, if_false, hg]
      rw [removeLoop_eq m _ _ _ _ _ (pos_reverse.2 hps) (by rw [sumQ_reverse]; omega) (by omega)]
      simp only [Res.bind_ok, sumQ_reverse, hva, List.isEmpty_iff]
      have hlt' : l.total - min o.qty (sumQ l.orders) =
          sumQ (cutQ o.qty l.orders.reverse).1.reverse := by
        rw [sumQ_reverse, hsum]; omega
      by_cases he : (cutQ o.qty l.orders.reverse).1.reverse = []
      · simp only [he, if_true, put, BMap.insert_split hA, BMap.erase_split hA hB, reinitBest]
      · simp only [he, if_false, put, BMap.insert_split hA, hlt', hlp, hbest]
        rw [bestOf_keep]
    · apply cache_shrink hcache
      · intro x hx
        rw [queueOf_put, List.mem_append, List.mem_append] at hx
        rw [queueOf_split]
        rcases hx with hx | hx | hx
        · exact ⟨x, by simp [hx], rfl, rfl⟩
        · obtain ⟨y, hy, rfl⟩ := List.mem_map.1 hx
          have : y.1 ∈ l.orders.reverse.map (·.1) := by
            rw [← hids, List.mem_append]; right
            exact List.mem_map.2 ⟨y, by simpa using hy, rfl⟩
          obtain ⟨z, hz, hze⟩ := List.mem_map.1 this
          refine ⟨toR o.price z, ?_, hze, rfl⟩
          rw [List.mem_append, List.mem_append]
          exact Or.inr (Or.inl (List.mem_map.2 ⟨z, by simpa using hz, rfl⟩))
        · exact ⟨x, by simp [hx], rfl, rfl⟩
      · intro x hx
        rw [queueOf_split, List.mem_append, List.mem_append] at hx
        rw [queueOf_put]
        rcases hx with hx | hx | hx
        · exact Or.inr ⟨x, by simp [hx], rfl, rfl⟩
        · obtain ⟨y, hy, rfl⟩ := List.mem_map.1 hx
          have : y.1 ∈ l.orders.reverse.map (·.1) := List.mem_map.2 ⟨y, by simpa using hy, rfl⟩
          rw [← hids, List.mem_append] at this
          rcases this with h | h
          · exact Or.inl h
          · obtain ⟨z, hz, hze⟩ := List.mem_map.1 h
            refine Or.inr ⟨toR o.price z, ?_, hze, rfl⟩
            rw [List.mem_append, List.mem_append]
            exact Or.inr (Or.inl (List.mem_map.2 ⟨z, by simpa using hz, rfl⟩))
        · exact Or.inr ⟨x, by simp [hx], rfl, rfl⟩
      · intro x hx hin
        exact hnd'.2.2 _ hin _ (List.mem_map.2 ⟨x, hx, rfl⟩) rfl

/-! ### lookup -/

theorem find_some {q : List Resting} (hnd : (q.map (·.id)).Nodup) {x} (hx : x ∈ q) :
    find x.id q = some x := by
  unfold find
  cases hf : q.find? (fun o => o.id = x.id) with
  | none => rw [List.find?_eq_none] at hf; have := hf x hx; simp at this
  | some y =>
    have h1 := List.mem_of_find?_eq_some hf
    have h2 := List.find?_some hf
    rw [nodup_id_inj hnd h1 hx (by simpa using h2)]

theorem getOrder_spec {h : HalfBook} (wf : h.WF) (id : Nat) :
    h.getOrder id = .ok ((find id h.queue).map (fun r => ⟨r.price, r.qty, h.side, r.id⟩)) := by
  cases hf : find id h.queue with
  | none =>
    have : h.cache id = none := by
      rw [cache_none wf]; intro x hx he
      unfold find at hf; rw [List.find?_eq_none] at hf
      have := hf x hx; simp [he] at this
    simp [getOrder, this]
  | some x =>
    have hx : x ∈ h.queue := List.mem_of_find?_eq_some hf
    have hid : x.id = id := by simpa using List.find?_some hf
    subst hid
    obtain ⟨A, B, l, a, b, hAB, hA, hB, hg, hl, hlo, _, _, hpre, _, hq⟩ := around wf hx
    have hc : h.cache x.id = some x.price := (wf.cache _ _).2 ⟨x, hx, rfl, rfl⟩
    have hfind : l.orders.find? (fun o => o.1 == x.id) = some (x.id, x.qty) := by
      rw [hlo, List.find?_append]
      have : a.find? (fun o => o.1 == x.id) = none := by
        rw [List.find?_eq_none]
        intro y hy
        have := hpre (toR x.price y) (by simp only [List.mem_append]; exact Or.inr (List.mem_map.2 ⟨y, hy, rfl⟩))
        simpa using this
      rw [this]; simp
    simp only [getOrder, hc, hg, Level.getOrder, hfind, Option.map_some]
    have := hl.price
    simp only at this
    rw [this]

/-! ### change of price -/

theorem changePrice_none (m : Mode) {h : HalfBook} (wf : h.WF) {id : Nat} {p : Int}
    (hn : ∀ x ∈ h.queue, x.id ≠ id) : h.changePrice m id p = .ok (h, none) := by
  simp [changePrice, (cache_none wf).2 hn]

/-- `add_limit_order` reads neither the cache nor the best price. -/
theorem addLimitOrder_frame (m : Mode) (s : Side) (ls c b t c' b') (o : LimitOrder) {h' r}
    (h : addLimitOrder m ⟨s, ls, c, b, t⟩ o = .ok (h', r)) (hs : o.side = s) :
    addLimitOrder m ⟨s, ls, c', b', t⟩ o =
      .ok ({ h' with cache := cacheSet c' o.id o.price,
                     best := (updateBest ⟨s, ls, c', b', t⟩ o.price).best }, r) ∧
    h'.cache = cacheSet c o.id o.price := by
  subst hs
  have e1 : ∀ c b, (updateBest ⟨o.side, ls, c, b, t⟩ o.price).levels = ls := by
    intro c b; unfold updateBest; cases o.side <;> rfl
  have e2 : ∀ c b, (updateBest ⟨o.side, ls, c, b, t⟩ o.price).total = t := by
    intro c b; unfold updateBest; cases o.side <;> rfl
  have e3 : ∀ c b, (updateBest ⟨o.side, ls, c, b, t⟩ o.price).cache = c := by
    intro c b; unfold updateBest; cases o.side <;> rfl
  have e4 : ∀ c b, (updateBest ⟨o.side, ls, c, b, t⟩ o.price).side = o.side := by
    intro c b; unfold updateBest; cases o.side <;> rfl
  simp only [addLimitOrder, ne_eq, not_true_eq_false, if_false, e1, e2, e3, e4] at h ⊢
  cases hg : BMap.get o.price ls with
  | none =>
    simp only [hg] at h ⊢
    cases ha : addU m t o.qty with
    | error e => simp [ha] at h
    | ok t' =>
      simp only [ha, Res.bind_ok, Except.ok.injEq, Prod.mk.injEq] at h ⊢
      obtain ⟨rfl, rfl⟩ := h
      simp
  | some l =>
    simp only [hg] at h ⊢
    cases ha : addU m t o.qty with
    | error e => simp [ha] at h
    | ok t' =>
      cases hl : l.addLimitOrder m o with
      | error e => simp [ha, hl] at h
      | ok v =>
        simp only [ha, hl, Res.bind_ok, Except.ok.injEq, Prod.mk.injEq] at h ⊢
        obtain ⟨rfl, rfl⟩ := h
        simp

theorem changePrice_some (m : Mode) {h : HalfBook} (wf : h.WF) {x : Resting} (hx : x ∈ h.queue)
    {p : Int} (hp : InI64 p) :
    ∃ h', h.changePrice m x.id p = .ok (h', some ()) ∧ h'.WF ∧ h'.side = h.side ∧
      h'.queue = rest (bside h.side) ⟨x.id, p, x.qty⟩ (cancel x.id h.queue) ∧ h'.total = h.total := by
  obtain ⟨hc, _, wfc, hs, hq, ht, hcache, hch⟩ := cancelOrder_core m wf hx
  have hxq : 0 < x.qty := by
    obtain ⟨A, B, l, _, _, _, _, ho, hl⟩ := split_at wf hx
    exact hl.pos _ ho
  obtain ⟨h2, ha, wf2, hs2, hq2, ht2⟩ := addLimitOrder_spec m wfc (o := ⟨p, x.qty, h.side, x.id⟩)
    hs.symm hxq (by rw [ht]; exact wf.bound)
    (by intro y hy; rw [hq] at hy; simpa using (List.mem_filter.1 hy).2) hp
  obtain ⟨s, ls, c, b, t⟩ := hc
  simp only at hs; subst hs
  obtain ⟨hf, hc2⟩ := addLimitOrder_frame m h.side ls c b t (cacheSet h.cache x.id p) h.best
    ⟨p, x.qty, h.side, x.id⟩ ha rfl
  refine ⟨h2, ?_, wf2, hs2, ?_, by rw [ht2]; exact ht⟩
  · rw [hch]
    simp only
    rw [hf]
    simp only [Res.bind_ok, reinitBest, Except.ok.injEq, Prod.mk.injEq, and_true]
    have e : cacheSet (cacheSet h.cache x.id p) x.id p = h2.cache := by
      rw [hc2]; simp only at hcache; rw [hcache]
      funext k; simp only [cacheSet, cacheErase]; split <;> rfl
    rw [e, ← wf2.best]
  · rw [hq2, hq]

/-! ### removing a whole level -/

theorem removeLevel_spec (m : Mode) {h : HalfBook} (wf : h.WF) (p : Int) :
    ∃ h', h.removeLevel m p = .ok h' ∧ h'.WF ∧ h'.side = h.side ∧
      h'.queue = h.queue.filter (·.price ≠ p) ∧ h'.levels = BMap.erase p h.levels ∧
      h'.total = h.total - volumeAt p h.queue := by
  cases hg : BMap.get p h.levels with
  | none =>
    have hn := get_none_queue (s := h.side) hg
    have he : BMap.erase p h.levels = h.levels := by
      unfold BMap.erase; rw [List.filter_eq_self]
      intro e he; simpa using BMap.get_eq_none.1 hg e he
    have hv := volumeAt_absent (X := h.queue) hn
    refine ⟨h, ?_, wf, rfl, ?_, he.symm, by omega⟩
    · simp only [removeLevel, hg, subU_ok (Nat.zero_le _), Res.bind_ok, he, Nat.sub_zero]
      split
      · simp only [reinitBest]
        have := wf.best
        obtain ⟨s, ls, c, b, t⟩ := h
        simp only at this; rw [← this]
      · rfl
    · rw [eq_comm, List.filter_eq_self]; intro x hx; simpa using hn x hx
  | some l =>
    obtain ⟨A, B, hAB, hA, hB⟩ := BMap.get_split wf.sorted hg
    obtain ⟨hsorted, hlev, htot, hbound, hbest, hnodup, hcache⟩ := wf
    obtain ⟨side, levels, cache, best, total⟩ := h
    simp only [queue_mk] at *
    subst hAB
    have hl := hlev (p, l) (by simp)
    have hlt := hl.total
    simp only at hlt
    have hX := fun x hx => better_ne (pre_better (s := side) hA hB x hx)
    have hM : ∀ x ∈ l.orders.map (toR p), x.price = p := by
      intro x hx; obtain ⟨y, _, rfl⟩ := List.mem_map.1 hx; rfl
    have hY := fun x hx => (better_ne (post_worse (s := side) hA hB x hx)).symm
    have hva : volumeAt p (queueOf side (A ++ (p, l) :: B)) = sumQ l.orders := by
      rw [queueOf_split, volumeAt_split hX hM hY, volume_map_toR]
    have hfil : (queueOf side (A ++ (p, l) :: B)).filter (fun o => o.price ≠ p) =
        queueOf side (put A B p []) := by
      rw [queueOf_put, queueOf_split]
      have fX : (pre side A B).filter (fun o => o.price ≠ p) = pre side A B := by
        rw [List.filter_eq_self]; intro o ho; simp [hX o ho]
      have fY : (post side A B).filter (fun o => o.price ≠ p) = post side A B := by
        rw [List.filter_eq_self]; intro o ho; simp [hY o ho]
      have fM : (l.orders.map (toR p)).filter (fun o => o.price ≠ p) = [] := by
        rw [List.filter_eq_nil_iff]; intro o ho; simp [hM o ho]
      simp only [List.filter_append, fX, fY, fM]; simp
    have hvol : volume (queueOf side (put A B p [])) = total - sumQ l.orders := by
      rw [htot, queueOf_put, queueOf_split]
      simp only [volume_append, volume_map_toR, sumQ_nil]
      omega
    have hle : sumQ l.orders ≤ total := by
      rw [htot, queueOf_split]; simp [volume_map_toR]; omega
    have hput : put A B p [] = A ++ B := by simp [put]
    refine ⟨⟨side, put A B p [], (l.orders.map (·.1)).foldl cacheErase cache,
      bestOf side (put A B p []), total - sumQ l.orders⟩, ?_,
      wf_put hsorted hlev (by intro o ho; simp at ho) hvol.symm (by omega) ?_ ?_, rfl, hfil.symm, ?_,
      by rw [hva]⟩
    · simp only [removeLevel, hg, hlt, subU_ok hle, Res.bind_ok, reinitBest, hput,
        BMap.erase_split hA hB]
      split
      · rfl
      · rename_i hne
        rw [hbest] at hne
        rw [bestOf_erase (fun h => hne h.symm), hbest]
    · rw [← hfil]; exact hnodup.sublist (List.filter_sublist.map _)
    · apply cache_shrink hcache
      · intro x hx; rw [← hfil] at hx; exact ⟨x, (List.mem_filter.1 hx).1, rfl, rfl⟩
      · intro x hx
        by_cases hxp : x.price = p
        · left
          rw [queueOf_split, List.mem_append, List.mem_append] at hx
          rcases hx with hx | hx | hx
          · exact absurd hxp (hX x hx)
          · obtain ⟨y, hy, rfl⟩ := List.mem_map.1 hx; exact List.mem_map.2 ⟨y, hy, rfl⟩
          · exact absurd hxp (hY x hx)
        · right; rw [← hfil]; exact ⟨x, List.mem_filter.2 ⟨hx, by simp [hxp]⟩, rfl, rfl⟩
      · intro x hx hin
        obtain ⟨y, hy, hye⟩ := List.mem_map.1 hin
        rw [← hfil] at hx
        have hx' := List.mem_filter.1 hx
        have hy' : toR p y ∈ queueOf side (A ++ (p, l) :: B) := by
          rw [queueOf_split, List.mem_append, List.mem_append]
          exact Or.inr (Or.inl (List.mem_map.2 ⟨y, hy, rfl⟩))
        have := nodup_id_inj hnodup hy' hx'.1 hye
        have h2 := hx'.2
        rw [← this] at h2; simp at h2
    · simp only [hput, BMap.erase_split hA hB]

end HalfBook
end Verif.TE

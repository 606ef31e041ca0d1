import Verif.TE.SweepLemmas
/-!
# `trade_limit_order` and `trade_market_order` refine the specification's `sweep`
-/
namespace Verif.TE
open Verif Verif.Spec
namespace HalfBook

/-- Levels in iteration order of the trade loops: best price first. -/
def iter (s : Side) (ls : List (Int × Level)) : List (Int × Level) :=
  match s with
  | .ask => ls
  | .bid => ls.reverse

theorem flat_iter (s ls) : flat (iter s ls) = queueOf s ls := by cases s <;> rfl
theorem iter_iter (s ls) : iter s (iter s ls) = ls := by cases s <;> simp [iter]
theorem mem_iter {s ls e} : e ∈ iter s ls ↔ e ∈ ls := by cases s <;> simp [iter]

/-- `askMarketLoop` is `sweepLoop` without a price limit, on non-empty consistent levels. -/
theorem askMarketLoop_eq (m ls) : ∀ a, (∀ e ∈ ls, LevelOK e) →
    askMarketLoop m ls a = sweepLoop m (fun _ => true) ls a := by
  induction ls with
  | nil => intro a _; rfl
  | cons e ls ih =>
    intro a h
    obtain ⟨p, l⟩ := e
    have hl := h (p, l) (by simp)
    have hlt := hl.total
    have hlo := hl.pos
    have hlne := hl.nonempty
    simp only at hlt hlo hlne
    have hls : ∀ e ∈ ls, LevelOK e := fun e he => h e (by simp [he])
    obtain ⟨q, rp, ri, hist, total⟩ := a
    by_cases hq : q = 0
    · subst hq
      have hz : Level.fillQ l.orders 0 = (l.orders, 0, []) := by
        cases l.orders <;> simp [Level.fillQ]
      have hs : sumQ l.orders ≠ 0 := fun h => hlne (hlo.sum_eq_zero.1 h)
      simp only [askMarketLoop, sweepLoop, Level.trade_eq m l 0 hlt, hz, Res.bind_ok, if_false,
        Nat.sub_self, gt_iff_lt, Nat.lt_irrefl, if_true, or_true, ← hlt, List.append_nil]
      rw [if_neg (by rw [hlt]; exact hs)]
    · simp only [askMarketLoop, sweepLoop, Level.trade_eq m l q hlt, Res.bind_ok, hq, or_self,
        Bool.true_eq_false, if_false]
      have htail : ∀ rp ri hist tt, (if (Level.fillQ l.orders q).2.1 = 0 then
            (.ok ((p, { l with orders := (Level.fillQ l.orders q).1, total := sumQ (Level.fillQ l.orders q).1 }) :: ls,
              ⟨(Level.fillQ l.orders q).2.1, rp, ri, hist, tt⟩) : Res (List (Int × Level) × TradeAcc))
          else do
            let (rest', a'') ← askMarketLoop m ls ⟨(Level.fillQ l.orders q).2.1, rp, ri, hist, tt⟩
            .ok ((p, { l with orders := (Level.fillQ l.orders q).1, total := sumQ (Level.fillQ l.orders q).1 }) :: rest', a'')) =
          (do
            let (rest', a'') ← sweepLoop m (fun _ => true) ls ⟨(Level.fillQ l.orders q).2.1, rp, ri, hist, tt⟩
            .ok ((p, { l with orders := (Level.fillQ l.orders q).1, total := sumQ (Level.fillQ l.orders q).1 }) :: rest', a'')) := by
        intro rp ri hist tt
        rw [ih _ hls]
        split
        · rename_i h0
          cases ls with
          | nil => simp [sweepLoop]
          | cons e ls => obtain ⟨p', l'⟩ := e; simp [sweepLoop, h0]
        · rfl
      split
      · cases subU m total (q - (Level.fillQ l.orders q).2.1) with
        | error e => rfl
        | ok t' => simp only [Res.bind_ok]; exact htail _ _ _ _
      · exact htail _ _ _ _

/-- `cleanup_after_trade` on the result of a sweep. -/
theorem cleanup_spec {h : HalfBook} (wf : h.WF) (ok : Int → Bool) (q : Nat)
    {ls' : List (Int × Level)} {rmq : List (Nat × Int)}
    (hkeys : ls'.map (·.1) = (iter h.side h.levels).map (·.1))
    (hflat : flat ls' = (sweep ok q h.queue).queue) (hok' : ∀ e ∈ ls', LevelOK' e)
    (hrmq : rmq ++ (sweep ok q h.queue).queue.map (fun o => (o.id, o.price)) =
      h.queue.map (fun o => (o.id, o.price))) :
    let h0 : HalfBook := { h with
      levels := iter h.side ls'
      total := h.total - fillSum (sweep ok q h.queue).fills }
    let h' := cleanup h0 ((ls'.filter (fun e => e.2.orders.isEmpty)).map (·.1)) (rmq.map Prod.fst)
    h'.WF ∧ h'.side = h.side ∧ h'.queue = (sweep ok q h.queue).queue ∧
      h'.total = h.total - fillSum (sweep ok q h.queue).fills := by
  obtain ⟨hsorted, hlev, htot, hbound, hbest, hnodup, hcache⟩ := wf
  obtain ⟨side, levels, cache, best, total⟩ := h
  simp only [queue_mk] at *
  have hsort' : Sorted (iter side ls') := by
    rw [BMap.sorted_keys] at hsorted ⊢
    have : (iter side ls').map (·.1) = levels.map (·.1) := by
      cases side
      · exact hkeys
      · simp only [iter] at hkeys ⊢; rw [List.map_reverse, hkeys]; simp
    rw [this]; exact hsorted
  -- the surviving levels
  have hfilt : (iter side ls').filter (fun e => !((ls'.filter (fun e => e.2.orders.isEmpty)).map (·.1)).contains e.1)
      = (iter side ls').filter (fun e => !e.2.orders.isEmpty) := by
    apply List.filter_congr
    intro e he
    rw [Bool.eq_iff_iff]
    simp only [Bool.not_eq_true', List.isEmpty_eq_false_iff, List.contains_eq_mem,
      decide_eq_false_iff_not, List.mem_map, List.mem_filter, List.isEmpty_iff]
    constructor
    · intro hne hemp; exact hne ⟨e, ⟨mem_iter.1 he, hemp⟩, rfl⟩
    · rintro hne ⟨e', ⟨he', hemp⟩, hk⟩
      have h1 : (e.1, e'.2) ∈ iter side ls' := by rw [← hk]; exact mem_iter.2 he'
      have h2 := BMap.mem_get hsort' h1
      have h3 := BMap.mem_get (v := e.2) hsort' (by exact he)
      rw [h2] at h3
      simp only [Option.some.injEq] at h3
      rw [h3] at hemp; exact hne hemp
  have hflatf : ∀ ls : List (Int × Level), flat (ls.filter (fun e => !e.2.orders.isEmpty)) = flat ls := by
    intro ls
    induction ls with
    | nil => rfl
    | cons e ls ih =>
      rw [List.filter_cons]
      split
      · simp [ih]
      · rename_i h; simp at h; simp [ih, h]
  have hqueue : queueOf side ((iter side ls').filter (fun e => !e.2.orders.isEmpty)) =
      (sweep ok q (queueOf side levels)).queue := by
    rw [← hflat]
    cases side
    · exact hflatf _
    · simp only [queueOf, iter]
      rw [← List.filter_reverse, hflatf]; simp
  have hlevok : ∀ e ∈ (iter side ls').filter (fun e => !e.2.orders.isEmpty), LevelOK e := by
    intro e he
    rw [List.mem_filter] at he
    have := hok' e (mem_iter.1 he.1)
    exact ⟨this.price, by simpa using he.2, this.pos, this.total⟩
  have hids : rmq.map Prod.fst ++ (sweep ok q (queueOf side levels)).queue.map (·.id) =
      (queueOf side levels).map (·.id) := by
    have := congrArg (List.map Prod.fst) hrmq
    simp only [List.map_append, List.map_map] at this
    exact this
  have hnd := hnodup
  rw [← hids, List.nodup_append] at hnd
  have hsv := sweep_volume ok (queueOf side levels) q
  refine ⟨⟨?_, ?_, ?_, ?_, ?_, ?_, ?_⟩, ?_, ?_, ?_⟩
  · simp only [cleanup, reinitBest, BMap.foldl_erase, hfilt]
    exact List.Pairwise.filter _ hsort'
  · simp only [cleanup, reinitBest, BMap.foldl_erase, hfilt]; exact hlevok
  · simp only [cleanup, reinitBest, BMap.foldl_erase, hfilt, queue_mk, hqueue]; omega
  · simp only [cleanup, reinitBest]; omega
  · simp only [cleanup, reinitBest]
  · simp only [cleanup, reinitBest, BMap.foldl_erase, hfilt, queue_mk, hqueue]; exact hnd.2.1
  · simp only [cleanup, reinitBest, BMap.foldl_erase, hfilt, queue_mk, hqueue]
    apply cache_shrink hcache
    · intro o ho
      have : (o.id, o.price) ∈ (queueOf side levels).map (fun o => (o.id, o.price)) := by
        rw [← hrmq, List.mem_append]; right; exact List.mem_map.2 ⟨o, ho, rfl⟩
      obtain ⟨o2, ho2, he⟩ := List.mem_map.1 this
      simp only [Prod.mk.injEq] at he
      exact ⟨o2, ho2, he.1, he.2⟩
    · intro o ho
      have : (o.id, o.price) ∈ (queueOf side levels).map (fun o => (o.id, o.price)) :=
        List.mem_map.2 ⟨o, ho, rfl⟩
      rw [← hrmq, List.mem_append] at this
      rcases this with h | h
      · left; exact List.mem_map.2 ⟨_, h, rfl⟩
      · right
        obtain ⟨o2, ho2, he⟩ := List.mem_map.1 h
        simp only [Prod.mk.injEq] at he
        exact ⟨o2, ho2, he.1, he.2⟩
    · intro o ho hin
      exact hnd.2.2 _ hin _ (List.mem_map.2 ⟨o, ho, rfl⟩) rfl
  · simp [cleanup, reinitBest]
  · simp only [cleanup, reinitBest, BMap.foldl_erase, hfilt, queue_mk, hqueue]
  · simp [cleanup, reinitBest]

/-- Running the generic loop on a well-formed book and cleaning up. -/
theorem sweep_run (m : Mode) {h : HalfBook} (wf : h.WF) (ok : Int → Bool) (q : Nat) :
    ∃ ls a h', sweepLoop m ok (iter h.side h.levels) ⟨q, [], [], [], h.total⟩ = .ok (ls, a) ∧
      cleanup { h with levels := iter h.side ls, total := a.total } a.rmPrices a.rmIds = h' ∧
      a.hist = report (sweep ok q h.queue).fills ∧ a.rem = (sweep ok q h.queue).rem ∧
      h'.WF ∧ h'.side = h.side ∧ h'.queue = (sweep ok q h.queue).queue ∧
      h'.total = h.total - fillSum (sweep ok q h.queue).fills := by
  have hpw : (iter h.side h.levels).Pairwise (fun a b => a.1 ≠ b.1) := by
    have := wf.sorted
    cases hs : h.side
    · exact List.Pairwise.imp (fun h => by omega) this
    · simp only [iter]; rw [List.pairwise_reverse]
      exact List.Pairwise.imp (fun h => by omega) this
  obtain ⟨ls', rp', rmq, hrun, hkeys, hflat, hok', hrp, hrmq⟩ :=
    sweepLoop_spec m ok (iter h.side h.levels) q [] [] [] h.total
      (fun e he => wf.levels e (mem_iter.1 he)) hpw (by rw [flat_iter, wf.total]; exact Nat.le_refl _)
  rw [flat_iter] at hrun hflat hrmq
  change _ = (sweep ok q h.queue).queue at hflat
  change rmq ++ (sweep ok q h.queue).queue.map _ = h.queue.map _ at hrmq
  have hc := cleanup_spec wf ok q hkeys hflat hok' hrmq
  refine ⟨ls', _, _, hrun, rfl, by simp; rfl, by rfl, ?_⟩
  simp only [List.nil_append, hrp]
  exact hc

/-- Is a resting price on the side of `h` acceptable to an incoming order with limit `limit`? -/
def okLimit (s : Side) (limit : Int) (p : Int) : Bool := acceptable (bside s) limit p

theorem tradeLimit_spec (m : Mode) {h : HalfBook} (wf : h.WF) {o : LimitOrder}
    (hs : o.side ≠ h.side) {x : Resting} (hx : h.queue.head? = some x)
    (hcross : acceptable (bside h.side) o.price x.price = true) :
    ∃ h', h.tradeLimit m o = .ok (h', some
        (report (sweep (acceptable (bside h.side) o.price) o.qty h.queue).fills,
          (sweep (acceptable (bside h.side) o.price) o.qty h.queue).rem)) ∧
      h'.WF ∧ h'.side = h.side ∧
      h'.queue = (sweep (acceptable (bside h.side) o.price) o.qty h.queue).queue ∧
      h'.total = h.total - fillSum (sweep (acceptable (bside h.side) o.price) o.qty h.queue).fills := by
  obtain ⟨ls, a, h', hrun, hcl, hhist, hrem, hwf', hside, hq, ht⟩ :=
    sweep_run m wf (acceptable (bside h.side) o.price) o.qty
  have hbest : h.best = x.price := by
    rw [wf.best, bestOf_eq wf.levels]
    show headPrice h.side h.queue = _
    rw [headPrice, hx]
  have hne : h.levels.isEmpty = false := by
    cases hl : h.levels with
    | nil => simp [HalfBook.queue, hl, (queueOf_isEmpty (s := h.side) (ls := []) (by simp)).2 rfl] at hx
    | cons _ _ => rfl
  refine ⟨h', ?_, hwf', hside, hq, ht⟩
  unfold tradeLimit
  cases hsd : h.side with
  | ask =>
    rw [hsd] at hrun hcl hs hcross
    simp only [acceptable, bside, decide_eq_true_eq] at hcross
    rw [if_neg (by rw [hbest, hne]; simp; exact ⟨fun h => hs h.symm, hcross⟩)]
    simp only [iter] at hrun hcl
    simp only [askLimitLoop_eq]
    have e : (fun p => decide (p ≤ o.price)) = acceptable (bside .ask) o.price := by
      funext p; simp [acceptable, bside]
    rw [e, hrun]
    simp only [Res.bind_ok, hhist, hrem, hsd, ← hcl]
  | bid =>
    rw [hsd] at hrun hcl hs hcross
    simp only [acceptable, bside, decide_eq_true_eq] at hcross
    rw [if_neg (by rw [hbest, hne]; simp; exact ⟨fun h => hs h.symm, hcross⟩)]
    simp only [iter] at hrun hcl
    simp only [bidLimitLoop_eq]
    have e : (fun p => decide (o.price ≤ p)) = acceptable (bside .bid) o.price := by
      funext p; simp [acceptable, bside]
    rw [e, hrun]
    simp only [Res.bind_ok, hhist, hrem, hsd, ← hcl]

/-- The sell side hit by a market buy. -/
theorem tradeMarket_ask_spec (m : Mode) {h : HalfBook} (wf : h.WF) (hsd : h.side = .ask)
    {o : MarketOrder} (hs : o.side = .bid) (hne : h.queue ≠ []) :
    ∃ h', h.tradeMarket m o = .ok (h', some
        (report (sweep (fun _ => true) o.qty h.queue).fills, (sweep (fun _ => true) o.qty h.queue).rem)) ∧
      h'.WF ∧ h'.side = h.side ∧ h'.queue = (sweep (fun _ => true) o.qty h.queue).queue ∧
      h'.total = h.total - fillSum (sweep (fun _ => true) o.qty h.queue).fills := by
  obtain ⟨ls, a, h', hrun, hcl, hhist, hrem, hwf', hside, hq, ht⟩ :=
    sweep_run m wf (fun _ => true) o.qty
  refine ⟨h', ?_, hwf', hside, hq, ht⟩
  have hne' : h.levels.isEmpty = false := by
    cases hl : h.levels with
    | nil => simp [HalfBook.queue, hl, (queueOf_isEmpty (s := h.side) (ls := []) (by simp)).2 rfl] at hne
    | cons _ _ => rfl
  unfold tradeMarket
  rw [if_neg (by rw [hne', hs, hsd]; simp)]
  rw [hsd] at hrun hcl
  simp only [iter] at hrun hcl
  rw [hsd]
  simp only
  rw [askMarketLoop_eq m _ _ wf.levels, hrun]
  simp only [Res.bind_ok, hhist, hrem, ← hcl]

end HalfBook
end Verif.TE

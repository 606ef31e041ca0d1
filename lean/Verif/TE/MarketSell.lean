import Verif.TE.BookExt
/-!
# Market sells: what the doubled decrement in `bid_trade_market_order` does
-/
namespace Verif.TE
open Verif Verif.Spec
namespace HalfBook

/-- A level without its cached total. -/
def strip (e : Int × Level) : Int × Int × List (Nat × Nat) := (e.1, e.2.price, e.2.orders)

theorem flat_strip {l1 l2 : List (Int × Level)} (h : l1.map strip = l2.map strip) : flat l1 = flat l2 := by
  induction l1 generalizing l2 with
  | nil => cases l2 with
    | nil => rfl
    | cons _ _ => simp at h
  | cons e l1 ih =>
    cases l2 with
    | nil => simp at h
    | cons f l2 =>
      simp only [List.map_cons, List.cons.injEq, strip, Prod.mk.injEq] at h
      rw [flat_cons, flat_cons, ih h.2, h.1.1, h.1.2.2]

theorem keys_strip {l1 l2 : List (Int × Level)} (h : l1.map strip = l2.map strip) :
    l1.map (·.1) = l2.map (·.1) := by
  have := congrArg (List.map (·.1)) h
  simpa [List.map_map, strip, Function.comp_def] using this

/-- In the wrapping build the loop does everything right except the cached level totals. -/
theorem bidMarketLoop_wrapping (ls) : ∀ a, (∀ e ∈ ls, LevelOK e) → volume (flat ls) ≤ a.total →
    ∀ {ls' a'}, sweepLoop .wrapping (fun _ => true) ls a = .ok (ls', a') →
    ∃ ls'', bidMarketLoop .wrapping ls a = .ok (ls'', a') ∧ ls''.map strip = ls'.map strip := by
  induction ls with
  | nil => intro a _ _ ls' a' h; simp [sweepLoop] at h; exact ⟨[], by simp [bidMarketLoop, h.2], by rw [← h.1]⟩
  | cons e ls ih =>
    intro a hok hv ls' a' hrun
    obtain ⟨p, l⟩ := e
    have hl := hok (p, l) (by simp)
    have hlt := hl.total
    have hlo := hl.pos
    have hlne := hl.nonempty
    simp only at hlt hlo hlne
    have hls : ∀ e ∈ ls, LevelOK e := fun e he => hok e (by simp [he])
    obtain ⟨q, rp, ri, hist, total⟩ := a
    simp only [flat_cons, volume_append, volume_map_toR] at hv
    by_cases hq : q = 0
    · subst hq
      have hz : Level.fillQ l.orders 0 = (l.orders, 0, []) := by
        cases l.orders <;> simp [Level.fillQ]
      have hs : sumQ l.orders ≠ 0 := fun h => hlne (hlo.sum_eq_zero.1 h)
      simp only [sweepLoop, or_true, if_true, Except.ok.injEq, Prod.mk.injEq] at hrun
      obtain ⟨rfl, rfl⟩ := hrun
      refine ⟨(p, l) :: ls, ?_, rfl⟩
      simp only [bidMarketLoop, Level.trade_eq .wrapping l 0 hlt, hz, Res.bind_ok, ← hlt,
        Nat.sub_self, gt_iff_lt, Nat.lt_irrefl, if_false, if_true, List.append_nil]
      rw [if_neg (by rw [hlt]; exact hs)]
    · have hfr := Level.fillQ_rem l.orders q
      have hfs := Level.fillQ_sum l.orders q
      have hlsum : 0 < sumQ l.orders := by
        have := (hlo.sum_eq_zero).not.2 hlne; omega
      have hpos : 0 < q - (Level.fillQ l.orders q).2.1 := by omega
      have hle : q - (Level.fillQ l.orders q).2.1 ≤ total := by omega
      obtain ⟨lt', hlt'⟩ : ∃ x, subU .wrapping (sumQ (Level.fillQ l.orders q).1)
          (q - (Level.fillQ l.orders q).2.1) = .ok x := by
        unfold subU; split <;> exact ⟨_, rfl⟩
      simp only [sweepLoop, Level.trade_eq .wrapping l q hlt, Res.bind_ok, hq, or_self,
        Bool.true_eq_false, if_false, gt_iff_lt, hpos, if_true, subU_ok hle] at hrun
      simp only [bidMarketLoop, Level.trade_eq .wrapping l q hlt, Res.bind_ok, gt_iff_lt, hpos, if_true,
        subU_ok hle, hlt']
      cases hrest : sweepLoop .wrapping (fun _ => true) ls
          ⟨(Level.fillQ l.orders q).2.1,
            (if sumQ (Level.fillQ l.orders q).1 = 0 then rp ++ [p] else rp),
            ri ++ (Level.fillQ l.orders q).2.2, hist ++ [(p, q - (Level.fillQ l.orders q).2.1)],
            total - (q - (Level.fillQ l.orders q).2.1)⟩ with
      | error e => rw [hrest] at hrun; simp at hrun
      | ok v =>
        obtain ⟨r', a''⟩ := v
        rw [hrest] at hrun
        simp only [Res.bind_ok, Except.ok.injEq, Prod.mk.injEq] at hrun
        obtain ⟨rfl, rfl⟩ := hrun
        by_cases h0 : (Level.fillQ l.orders q).2.1 = 0
        · simp only [h0, if_true]
          have : r' = ls ∧ a'' = ⟨(Level.fillQ l.orders q).2.1,
            (if sumQ (Level.fillQ l.orders q).1 = 0 then rp ++ [p] else rp),
            ri ++ (Level.fillQ l.orders q).2.2, hist ++ [(p, q - (Level.fillQ l.orders q).2.1)],
            total - (q - (Level.fillQ l.orders q).2.1)⟩ := by
            rw [h0] at hrest
            cases ls with
            | nil => simp [sweepLoop] at hrest; rw [← hrest.1, ← hrest.2, h0]; simp
            | cons e ls => obtain ⟨p', l'⟩ := e; simp [sweepLoop] at hrest; rw [← hrest.1, ← hrest.2, h0]; simp
          obtain ⟨rfl, rfl⟩ := this
          refine ⟨(p, { price := l.price, orders := (Level.fillQ l.orders q).1, total := lt' }) :: r', ?_, ?_⟩
          · simp [h0]
          · simp [strip]
        · obtain ⟨r'', hr, hst⟩ := ih _ hls (by simp only; omega) hrest
          simp only [h0, if_false, hr, Res.bind_ok]
          exact ⟨_, rfl, by simp [strip] at hst ⊢; exact hst⟩

/-- Release build: the resting orders, the history, the side total, the lookups and the best price are
right after a market sell. (The level totals are not: see `marketSell_checked`.) -/
theorem marketSell_wrapping {h : HalfBook} (wf : h.WF) (hsd : h.side = .bid) {o : MarketOrder}
    (hs : o.side = .ask) (hne : h.queue ≠ []) :
    ∃ h', h.tradeMarket .wrapping o = .ok (h', some
        (report (sweep (fun _ => true) o.qty h.queue).fills, (sweep (fun _ => true) o.qty h.queue).rem)) ∧
      h'.side = h.side ∧ h'.queue = (sweep (fun _ => true) o.qty h.queue).queue ∧
      h'.total = h.total - fillSum (sweep (fun _ => true) o.qty h.queue).fills ∧
      h'.best = headPrice h.side h'.queue ∧
      (∀ id p, h'.cache id = some p ↔ ∃ x ∈ h'.queue, x.id = id ∧ x.price = p) := by
  obtain ⟨ls, a, h1, hrun, hcl, hhist, hrem, hwf', hside, hq, ht⟩ :=
    sweep_run .wrapping wf (fun _ => true) o.qty
  rw [hsd] at hrun hcl
  simp only [iter] at hrun hcl
  obtain ⟨ls'', hrun'', hst⟩ := bidMarketLoop_wrapping h.levels.reverse ⟨o.qty, [], [], [], h.total⟩
    (fun e he => wf.levels e (by simpa using he))
    (by rw [volume_flat_reverse, wf.total, HalfBook.queue, volume_queueOf]) hrun
  have hne' : h.levels.isEmpty = false := by
    cases hl : h.levels with
    | nil => simp [HalfBook.queue, hl, (queueOf_isEmpty (s := h.side) (ls := []) (by simp)).2 rfl] at hne
    | cons _ _ => rfl
  -- compare the two cleaned-up books
  have hfil : ∀ {l1 l2 : List (Int × Level)} (f : Int → Bool), l1.map strip = l2.map strip →
      (l1.filter (fun e => f e.1)).map strip = (l2.filter (fun e => f e.1)).map strip := by
    intro l1
    induction l1 with
    | nil => intro l2 f h; cases l2 with
      | nil => rfl
      | cons _ _ => simp at h
    | cons e l1 ih =>
      intro l2 f h
      cases l2 with
      | nil => simp at h
      | cons g l2 =>
        simp only [List.map_cons, List.cons.injEq] at h
        have h1 : e.1 = g.1 := by have := congrArg Prod.fst h.1; simpa [strip] using this
        have := ih f h.2
        simp only [List.filter_cons, h1]
        split
        · simp [h.1, this]
        · exact this
  have hstr : (cleanup { h with levels := ls''.reverse, total := a.total } a.rmPrices a.rmIds).levels.map strip =
      h1.levels.map strip := by
    rw [← hcl]
    simp only [cleanup, reinitBest, BMap.foldl_erase]
    apply hfil (fun p => !a.rmPrices.contains p)
    rw [List.map_reverse, List.map_reverse, hst]
  obtain ⟨c, hc⟩ : ∃ c, c = cleanup { h with levels := ls''.reverse, total := a.total } a.rmPrices a.rmIds := ⟨_, rfl⟩
  have hcs : c.side = h.side := by rw [hc]; rfl
  have hcb : c.best = bestOf h.side c.levels := by rw [hc]; rfl
  have hct : c.total = h1.total := by rw [hc, ← hcl]; rfl
  have hcc : c.cache = h1.cache := by rw [hc, ← hcl]; rfl
  rw [← hc] at hstr
  have hqq : c.queue = h1.queue := by
    unfold HalfBook.queue
    rw [hcs, hside, hsd]
    simp only [queueOf]
    apply flat_strip
    rw [List.map_reverse, List.map_reverse, hstr]
  refine ⟨c, ?_, hcs, ?_, ?_, ?_, ?_⟩
  · unfold tradeMarket
    rw [if_neg (by rw [hne', hs, hsd]; simp)]
    rw [hsd]
    simp only
    rw [hrun'', hc]
    simp only [Res.bind_ok, hhist, hrem]
    rw [hsd]
  · rw [hqq, hq]
  · rw [← ht, hct]
  · have e1 : h1.best = headPrice h1.side h1.queue := OrderBook.best_head hwf'
    rw [hqq, ← hside, ← e1]
    have hk := keys_strip hstr
    rw [hwf'.best, hcb, hside, hsd]
    have gl : ∀ l : List (Int × Level), bestOf .bid l = match (l.map (·.1)).getLast? with
        | none => sentinel .bid
        | some k => k := by
      intro l
      rw [List.getLast?_map]
      cases hgl : l.getLast? <;> simp [bestOf, hgl]
    rw [gl, gl, hk]
  · rw [hqq, hcc]
    exact hwf'.cache

/-- Debug build: a market sell of `q` units panics as soon as it takes more than half of the best level;
otherwise it returns, but the best level's reported quantity is short by `q`. -/
theorem marketSell_checked {h : HalfBook} (wf : h.WF) (hsd : h.side = .bid) {q id : Nat} (hq : 0 < q)
    {x : Resting} (hx : h.queue.head? = some x) :
    (volumeAt x.price h.queue < 2 * q → h.tradeMarket .checked ⟨q, .ask, id⟩ = .error .overflow) ∧
    (2 * q ≤ volumeAt x.price h.queue → ∃ h', h.tradeMarket .checked ⟨q, .ask, id⟩ =
        .ok (h', some ([(x.price, q)], 0)) ∧
      h'.aggregateAt x.price = volumeAt x.price h.queue - 2 * q ∧
      h'.total = h.total - q) := by
  have hxm : x ∈ h.queue := List.mem_of_mem_head? (by rw [hx]; simp)
  obtain ⟨A, B, l, hAB, hA, hB, hg, ho, hl⟩ := split_at wf hxm
  have hbest : bestOf h.side h.levels = x.price := by
    rw [← wf.best, OrderBook.best_head wf, headPrice, hx]
  -- the level is the last one
  have hBnil : B = [] := by
    rcases List.eq_nil_or_concat B with rfl | ⟨B', e, rfl⟩
    · rfl
    · rw [hsd, hAB] at hbest
      simp [bestOf, List.getLast?_cons] at hbest
      have := hB e (by simp)
      omega
  subst hBnil
  have hva := aggregateAt_eq wf x.price
  simp only [aggregateAt, hg] at hva
  have hlt := hl.total
  have hlo := hl.pos
  simp only at hlt hlo
  have hrev : h.levels.reverse = (x.price, l) :: A.reverse := by rw [hAB]; simp
  have hfr := Level.fillQ_rem l.orders q
  have hfs := Level.fillQ_sum l.orders q
  have hlsum : 0 < sumQ l.orders := by
    have := (hlo.sum_eq_zero).not.2 hl.nonempty; omega
  have hpos : 0 < q - (Level.fillQ l.orders q).2.1 := by omega
  have hltot : sumQ l.orders ≤ h.total := by
    rw [wf.total, HalfBook.queue, hAB, queueOf_split, hsd]; simp [volume_map_toR]; omega
  have hle : q - (Level.fillQ l.orders q).2.1 ≤ h.total := by omega
  rw [← hva, hlt]
  have hne : h.levels.isEmpty = false := by rw [hAB]; simp
  constructor
  · intro h2
    unfold tradeMarket
    rw [if_neg (by rw [hne, hsd]; simp), hsd]
    simp only [hrev, bidMarketLoop, Level.trade_eq .checked l q hlt, Res.bind_ok, gt_iff_lt, hpos, if_true,
      subU_ok hle]
    have : subU .checked (sumQ (Level.fillQ l.orders q).1) (q - (Level.fillQ l.orders q).2.1) = .error .overflow := by
      unfold subU; rw [if_neg (by omega)]
    simp only [this]; rfl
  · intro h2
    have h0 : (Level.fillQ l.orders q).2.1 = 0 := by omega
    have hsne : ¬ sumQ (Level.fillQ l.orders q).1 = 0 := by omega
    refine ⟨cleanup { h with
      levels := ((x.price, ⟨l.price, (Level.fillQ l.orders q).1, sumQ (Level.fillQ l.orders q).1 - q⟩) :: A.reverse).reverse,
      total := h.total - q } [] (Level.fillQ l.orders q).2.2, ?_, ?_, ?_⟩
    · unfold tradeMarket
      rw [if_neg (by rw [hne, hsd]; simp), hsd]
      simp only [hrev, bidMarketLoop, Level.trade_eq .checked l q hlt, Res.bind_ok, gt_iff_lt, hpos, if_true,
        subU_ok hle]
      rw [subU_ok (by omega)]
      simp only [Res.bind_ok, h0, if_true, hsne, if_false, Nat.sub_zero, List.nil_append]
    · simp only [cleanup, reinitBest, List.foldl_nil, List.reverse_cons,
        List.reverse_reverse, aggregateAt]
      rw [BMap.get_of_split hA]
      simp only; omega
    · simp [cleanup, reinitBest]

end HalfBook
end Verif.TE

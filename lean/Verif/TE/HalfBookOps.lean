import Verif.TE.HalfBookWF
/-!
# Each non-trading operation of a half book refines the priority-queue specification
-/
namespace Verif.TE
open Verif Verif.Spec
namespace HalfBook

/-- Price representable as `i64`. -/
def InI64 (p : Int) : Prop := I64MIN ≤ p ∧ p ≤ I64MAX

@[simp] theorem queue_mk (s ls c b t) : HalfBook.queue ⟨s, ls, c, b, t⟩ = queueOf s ls := rfl

theorem wf_init (s : Side) : (init s).WF := by
  constructor <;> try simp [init, Sorted, queueOf, U64]
  · cases s <;> simp
  · cases s <;> simp [bestOf]
  · cases s <;> simp
  · cases s <;> simp

/-! ### add -/

theorem best_rest {s : Side} {o : Resting} {q : List Resting} (hp : InI64 o.price)
    (hq : PrioritySorted (bside s) q)  :
    headPrice s (rest (bside s) o q) =
    (match s with
      | .ask => min (headPrice s q) o.price
      | .bid => max (headPrice s q) o.price) := by
  obtain ⟨h1, h2⟩ := hp
  cases q with
  | nil => cases s <;> simp [rest, sentinel, headPrice] <;> omega
  | cons x xs =>
    by_cases hb : better (bside s) o.price x.price
    · simp only [rest, if_pos hb]
      cases s <;> simp [headPrice, better, bside] at * <;> omega
    · simp only [rest, if_neg hb]
      cases s <;> simp [headPrice, better, bside] at * <;> omega

theorem addLimitOrder_spec (m : Mode) {h : HalfBook} (wf : h.WF) {o : LimitOrder}
    (hside : o.side = h.side) (hpos : 0 < o.qty) (hfit : h.total + o.qty < U64)
    (hfresh : ∀ x ∈ h.queue, x.id ≠ o.id) (hp : InI64 o.price) :
    ∃ h', h.addLimitOrder m o = .ok (h', .ok ()) ∧ h'.WF ∧ h'.side = h.side ∧
      h'.queue = rest (bside h.side) ⟨o.id, o.price, o.qty⟩ h.queue ∧ h'.total = h.total + o.qty := by
  obtain ⟨side, levels, cache, best, total⟩ := h
  obtain ⟨hsorted, hlev, htot, hbound, hbest, hnodup, hcache⟩ := wf
  simp only [queue_mk] at *
  subst hside
  -- the common part: the new levels `ls'` and their queue
  suffices key : ∀ A B l', (∀ e ∈ A, e.1 < o.price) → (∀ e ∈ B, o.price < e.1) →
      Sorted (A ++ (o.price, l') :: B) → (∀ e ∈ A ++ (o.price, l') :: B, LevelOK e) →
      (queueOf o.side (A ++ (o.price, l') :: B) =
        rest (bside o.side) ⟨o.id, o.price, o.qty⟩ (queueOf o.side levels)) →
      (HalfBook.WF ⟨o.side, A ++ (o.price, l') :: B, cacheSet cache o.id o.price,
        (updateBest ⟨o.side, levels, cache, best, total⟩ o.price).best, total + o.qty⟩) by
    cases hg : BMap.get o.price levels with
    | some l =>
      obtain ⟨A, B, hAB, hA, hB⟩ := BMap.get_split hsorted hg
      subst hAB
      have hl := hlev (o.price, l) (by simp)
      have hlp := hl.price; have hlt := hl.total
      simp only at hlp hlt
      have hvol : total = volume (pre o.side A B) + (sumQ l.orders + volume (post o.side A B)) := by
        rw [htot, queueOf_split]; simp [volume_map_toR]
      have hq : queueOf o.side (A ++ (o.price, { l with orders := l.orders ++ [(o.id, o.qty)], total := l.total + o.qty }) :: B) =
          rest (bside o.side) ⟨o.id, o.price, o.qty⟩ (queueOf o.side (A ++ (o.price, l) :: B)) := by
        have e : queueOf o.side (A ++ (o.price, l) :: B) =
            (pre o.side A B ++ l.orders.map (toR o.price)) ++ post o.side A B := by
          rw [queueOf_split, List.append_assoc]
        rw [e, rest_append]
        · simp [queueOf_split, toR]
        · intro x hx
          rcases List.mem_append.1 hx with hx | hx
          · exact better_asymm (pre_better hA hB x hx)
          · obtain ⟨y, _, rfl⟩ := List.mem_map.1 hx
            exact better_irrefl _ _
        · exact post_worse hA hB
      refine ⟨_, ?_, key A B { l with orders := l.orders ++ [(o.id, o.qty)], total := l.total + o.qty } hA hB ?_ ?_ hq, rfl, hq, rfl⟩
      · simp only [addLimitOrder, ne_eq, not_true_eq_false, if_false]
        have e1 : (updateBest ⟨o.side, A ++ (o.price, l) :: B, cache, best, total⟩ o.price).levels =
          A ++ (o.price, l) :: B := by unfold updateBest; cases o.side <;> rfl
        have e2 : (updateBest ⟨o.side, A ++ (o.price, l) :: B, cache, best, total⟩ o.price).total =
          total := by unfold updateBest; cases o.side <;> rfl
        have e3 : (updateBest ⟨o.side, A ++ (o.price, l) :: B, cache, best, total⟩ o.price).cache =
          cache := by unfold updateBest; cases o.side <;> rfl
        have e4 : (updateBest ⟨o.side, A ++ (o.price, l) :: B, cache, best, total⟩ o.price).side =
          o.side := by unfold updateBest; cases o.side <;> rfl
        simp only [e1, e2, e3, e4, BMap.get_of_split hA, addU_ok hfit, Res.bind_ok,
          Level.addLimitOrder, hlp]
        rw [addU_ok (by simp only [U64] at *; omega)]
        simp [BMap.insert_split hA]
      · rw [BMap.sorted_split] at hsorted ⊢; exact hsorted
      · intro e he
        rcases List.mem_append.1 he with he | he
        · exact hlev e (by simp [he])
        · rcases List.mem_cons.1 he with rfl | he
          · refine ⟨hlp, by simp, ?_, by simp [hlt]⟩
            simp only [pos_append]
            exact ⟨hl.pos, by intro x hx; simp at hx; subst hx; exact hpos⟩
          · exact hlev e (by simp [he])
    | none =>
      obtain ⟨A, B, hAB, hA, hB⟩ := BMap.get_none_split hsorted hg
      subst hAB
      have hq : queueOf o.side (A ++ (o.price, Level.initWithOrder o) :: B) =
          rest (bside o.side) ⟨o.id, o.price, o.qty⟩ (queueOf o.side (A ++ B)) := by
        rw [queueOf_split, queueOf_append, rest_append]
        · simp [toR, Level.initWithOrder]
        · intro x hx; exact better_asymm (pre_better hA hB x hx)
        · exact post_worse hA hB
      refine ⟨_, ?_, key A B (Level.initWithOrder o) hA hB ?_ ?_ hq, rfl, hq, rfl⟩
      · simp only [addLimitOrder, ne_eq, not_true_eq_false, if_false]
        have e1 : (updateBest ⟨o.side, A ++ B, cache, best, total⟩ o.price).levels =
          A ++ B := by unfold updateBest; cases o.side <;> rfl
        have e2 : (updateBest ⟨o.side, A ++ B, cache, best, total⟩ o.price).total =
          total := by unfold updateBest; cases o.side <;> rfl
        have e3 : (updateBest ⟨o.side, A ++ B, cache, best, total⟩ o.price).cache =
          cache := by unfold updateBest; cases o.side <;> rfl
        have e4 : (updateBest ⟨o.side, A ++ B, cache, best, total⟩ o.price).side =
          o.side := by unfold updateBest; cases o.side <;> rfl
        simp only [e1, e2, e3, e4, hg, addU_ok hfit, Res.bind_ok, BMap.insert_new hA hB]
      · exact BMap.sorted_insert_new hsorted hA hB
      · intro e he
        rcases List.mem_append.1 he with he | he
        · exact hlev e (by simp [he])
        · rcases List.mem_cons.1 he with rfl | he
          · refine ⟨rfl, by simp [Level.initWithOrder], ?_, by simp [Level.initWithOrder]⟩
            intro x hx; simp [Level.initWithOrder] at hx; subst hx; exact hpos
          · exact hlev e (by simp [he])
  intro A B l' hA hB hs hl hq
  have hperm : ∀ x, x ∈ rest (bside o.side) ⟨o.id, o.price, o.qty⟩ (queueOf o.side levels) ↔
      x = ⟨o.id, o.price, o.qty⟩ ∨ x ∈ queueOf o.side levels := by
    intro x
    generalize queueOf o.side levels = q
    induction q with
    | nil => simp [rest]
    | cons y q ih =>
      simp only [rest]; split
      · simp
      · simp only [List.mem_cons, ih]; tauto
  have hvol : volume (rest (bside o.side) ⟨o.id, o.price, o.qty⟩ (queueOf o.side levels)) =
      volume (queueOf o.side levels) + o.qty := by
    generalize queueOf o.side levels = q
    induction q with
    | nil => simp [rest]
    | cons y q ih =>
      simp only [rest]; split
      · simp; omega
      · simp [ih]; omega
  have hnd : ((rest (bside o.side) ⟨o.id, o.price, o.qty⟩ (queueOf o.side levels)).map (·.id)).Nodup := by
    revert hnodup hfresh
    generalize queueOf o.side levels = q
    intro hfresh hnodup
    induction q with
    | nil => simp [rest]
    | cons y q ih =>
      simp only [rest]; split
      · simp only [List.map_cons, List.nodup_cons] at hnodup ⊢
        refine ⟨?_, hnodup⟩
        intro hm
        rcases List.mem_cons.1 hm with hm | hm
        · exact hfresh y (by simp) hm.symm
        · obtain ⟨z, hz, he⟩ := List.mem_map.1 hm
          exact hfresh z (by simp [hz]) he
      · simp only [List.map_cons, List.nodup_cons] at hnodup ⊢
        refine ⟨?_, ih (fun x hx => hfresh x (by simp [hx])) hnodup.2⟩
        intro hm
        obtain ⟨z, hz, he⟩ := List.mem_map.1 hm
        have : z = ⟨o.id, o.price, o.qty⟩ ∨ z ∈ q := by
          clear ih hfresh hnodup hm
          induction q with
          | nil => simpa [rest] using hz
          | cons w q ih =>
            simp only [rest] at hz; split at hz
            · simpa using hz
            · rcases List.mem_cons.1 hz with rfl | hz
              · simp
              · rcases ih hz with h | h
                · exact Or.inl h
                · simp [h]
        rcases this with rfl | hz
        · exact hfresh y (by simp) he.symm
        · exact hnodup.1 (List.mem_map.2 ⟨z, hz, he⟩)
  refine ⟨hs, hl, ?_, hfit, ?_, ?_, ?_⟩
  · simp only [queue_mk, hq, hvol, htot]
  · simp only
    rw [bestOf_eq hl, hq, best_rest (o := ⟨o.id, o.price, o.qty⟩) hp (queueOf_sorted hsorted), ← bestOf_eq hlev, ← hbest]
    unfold updateBest
    cases o.side <;> rfl
  · simpa only [queue_mk, hq] using hnd
  · intro id p
    simp only [queue_mk, hq, hperm, cacheSet]
    by_cases hid : id = o.id
    · subst hid
      simp only [if_true]
      constructor
      · intro h; exact ⟨_, Or.inl rfl, rfl, by simpa using h⟩
      · rintro ⟨x, hx | hx, h1, h2⟩
        · subst hx; simpa using h2
        · exact absurd h1 (hfresh x hx)
    · simp only [hid, if_false, hcache]
      constructor
      · rintro ⟨x, hx, h1, h2⟩; exact ⟨x, Or.inr hx, h1, h2⟩
      · rintro ⟨x, hx | hx, h1, h2⟩
        · subst hx; exact absurd h1.symm hid
        · exact ⟨x, hx, h1, h2⟩

/-! ### Replacing the orders of one level -/

/-- Levels after the orders of the level at `p` became `os` (deleted when empty). -/
def put (A B : List (Int × Level)) (p : Int) (os : List (Nat × Nat)) : List (Int × Level) :=
  if os = [] then A ++ B else A ++ (p, ⟨p, os, sumQ os⟩) :: B

theorem queueOf_put (s A B p os) :
    queueOf s (put A B p os) = pre s A B ++ (os.map (toR p) ++ post s A B) := by
  unfold put
  split
  · subst_vars; simp [queueOf_append]
  · simp [queueOf_split]

theorem bestOf_keep {s A B p l l'} : bestOf s (A ++ (p, l) :: B) = bestOf s (A ++ (p, l') :: B) := by
  cases s
  · cases A <;> simp [bestOf]
  · rcases List.eq_nil_or_concat B with rfl | ⟨B, e, rfl⟩ <;> simp [bestOf, List.getLast?_cons]

theorem bestOf_erase {s A B p l} (h : bestOf s (A ++ (p, l) :: B) ≠ p) :
    bestOf s (A ++ B) = bestOf s (A ++ (p, l) :: B) := by
  cases s
  · cases A with
    | nil => simp [bestOf] at h
    | cons a A => simp [bestOf]
  · rcases List.eq_nil_or_concat B with rfl | ⟨B, e, rfl⟩
    · simp [bestOf] at h
    · simp [bestOf, List.getLast?_cons]

/-- If some level holds price `p`, the book splits there. -/
theorem split_at {h : HalfBook} (wf : h.WF) {x : Resting} (hx : x ∈ h.queue) :
    ∃ A B l, h.levels = A ++ (x.price, l) :: B ∧ (∀ e ∈ A, e.1 < x.price) ∧
      (∀ e ∈ B, x.price < e.1) ∧ BMap.get x.price h.levels = some l ∧
      (x.id, x.qty) ∈ l.orders ∧ LevelOK (x.price, l) := by
  have hx' := hx
  unfold HalfBook.queue at hx'
  rw [mem_queueOf, mem_flat] at hx'
  obtain ⟨⟨k, l⟩, he, hp, ho⟩ := hx'
  simp only at hp ho
  subst hp
  have hg := BMap.mem_get wf.sorted he
  obtain ⟨A, B, hAB, hA, hB⟩ := BMap.get_split wf.sorted hg
  exact ⟨A, B, l, hAB, hA, hB, hg, ho, wf.levels _ he⟩

theorem wf_put {s : Side} {A B p l os} {cache' : Nat → Option Int} {total' : Nat}
    (hsorted : Sorted (A ++ (p, l) :: B)) (hlev : ∀ e ∈ A ++ (p, l) :: B, LevelOK e)
    (hpos : Pos os) (htot : total' = volume (queueOf s (put A B p os))) (hb : total' < U64)
    (hnd : ((queueOf s (put A B p os)).map (·.id)).Nodup)
    (hc : ∀ id q, cache' id = some q ↔ ∃ o ∈ queueOf s (put A B p os), o.id = id ∧ o.price = q) :
    HalfBook.WF ⟨s, put A B p os, cache', bestOf s (put A B p os), total'⟩ := by
  refine ⟨?_, ?_, htot, hb, rfl, hnd, hc⟩
  · simp only [put]
    split
    · exact BMap.sorted_erase_mid hsorted
    · rw [BMap.sorted_split] at hsorted ⊢; exact hsorted
  · intro e he
    simp only [put] at he
    split at he
    · rcases List.mem_append.1 he with he | he <;> exact hlev e (by simp [he])
    · rcases List.mem_append.1 he with he | he
      · exact hlev e (by simp [he])
      · rcases List.mem_cons.1 he with rfl | he
        · exact ⟨rfl, by assumption, hpos, rfl⟩
        · exact hlev e (by simp [he])

/-! ### cancel -/

theorem cache_none {h : HalfBook} (wf : h.WF) {id : Nat} :
    h.cache id = none ↔ ∀ x ∈ h.queue, x.id ≠ id := by
  constructor
  · intro hn x hx he
    have := (wf.cache id x.price).2 ⟨x, hx, he, rfl⟩
    rw [hn] at this; simp at this
  · intro hn
    cases hc : h.cache id with
    | none => rfl
    | some p =>
      obtain ⟨o, ho, he, _⟩ := (wf.cache id p).1 hc
      exact absurd he (hn o ho)

theorem cancelOrder_none (m : Mode) {h : HalfBook} (wf : h.WF) {id : Nat}
    (hn : ∀ x ∈ h.queue, x.id ≠ id) : h.cancelOrder m id = .ok (h, none) := by
  simp [cancelOrder, (cache_none wf).2 hn]

/-- Around the order `x` of a well-formed book: the queue and the ids outside the order. -/
theorem around {h : HalfBook} (wf : h.WF) {x : Resting} (hx : x ∈ h.queue) :
    ∃ A B l a b, h.levels = A ++ (x.price, l) :: B ∧ (∀ e ∈ A, e.1 < x.price) ∧
      (∀ e ∈ B, x.price < e.1) ∧ BMap.get x.price h.levels = some l ∧ LevelOK (x.price, l) ∧
      l.orders = a ++ (x.id, x.qty) :: b ∧
      Level.removeFirst x.id l.orders = some (x.qty, a ++ b) ∧
      (∀ n, Level.setFirst x.id n l.orders = some (x.qty, a ++ (x.id, n) :: b)) ∧
      (∀ y ∈ pre h.side A B ++ (a.map (toR x.price)), y.id ≠ x.id) ∧
      (∀ y ∈ b.map (toR x.price) ++ post h.side A B, y.id ≠ x.id) ∧
      h.queue = (pre h.side A B ++ a.map (toR x.price)) ++ x ::
        (b.map (toR x.price) ++ post h.side A B) := by
  obtain ⟨A, B, l, hAB, hA, hB, hg, ho, hl⟩ := split_at wf hx
  have hid : x.id ∈ l.orders.map (·.1) := List.mem_map.2 ⟨_, ho, rfl⟩
  obtain ⟨a, q, b, hlo, hrm, ha⟩ := Level.removeFirst_split hid
  have hqueue : h.queue = (pre h.side A B ++ a.map (toR x.price)) ++ ⟨x.id, x.price, q⟩ ::
        (b.map (toR x.price) ++ post h.side A B) := by
    unfold HalfBook.queue
    rw [hAB, queueOf_split, hlo]
    simp [toR]
  have hxe : (⟨x.id, x.price, q⟩ : Resting) = x := by
    refine nodup_id_inj (a := ⟨x.id, x.price, q⟩) (b := x) wf.nodup ?_ hx rfl
    rw [hqueue]; simp
  have hq : q = x.qty := by rw [← hxe]
  subst hq
  have hnd := wf.nodup
  rw [hqueue] at hnd
  simp only [List.map_append, List.map_cons, List.nodup_append, List.nodup_cons] at hnd
  refine ⟨A, B, l, a, b, hAB, hA, hB, hg, hl, hlo, hrm, ?_, ?_, ?_, ?_⟩
  · intro n; rw [hlo]; exact Level.setFirst_of_split ha
  · intro y hy he
    rcases List.mem_append.1 hy with hy | hy
    · exact hnd.2.2 y.id (by simp; exact Or.inl ⟨y, hy, rfl⟩) x.id (by simp) he
    · exact hnd.2.2 y.id (by simp only [List.mem_append]; exact Or.inr (List.mem_map.2 ⟨y, hy, rfl⟩))
        x.id (by simp) he
  · intro y hy he
    apply hnd.2.1.1
    rw [List.mem_append]
    rcases List.mem_append.1 hy with hy | hy
    · exact Or.inl (List.mem_map.2 ⟨y, hy, he⟩)
    · exact Or.inr (List.mem_map.2 ⟨y, hy, he⟩)
  · rw [hqueue, hxe]

theorem cancelOrder_core (m : Mode) {h : HalfBook} (wf : h.WF) {x : Resting} (hx : x ∈ h.queue) :
    ∃ h', h.cancelOrder m x.id = .ok (h', some ()) ∧ h'.WF ∧ h'.side = h.side ∧
      h'.queue = cancel x.id h.queue ∧ h'.total + x.qty = h.total ∧
      h'.cache = cacheErase h.cache x.id ∧
      ∀ newP, h.changePrice m x.id newP = (do
        let (h2, res) ← addLimitOrder m { h' with cache := cacheSet h.cache x.id newP, best := h.best }
          ⟨newP, x.qty, h.side, x.id⟩
        match res with
        | .error _ => .error .unwrapNone
        | .ok _ => .ok (reinitBest h2, some ())) := by
  obtain ⟨A, B, l, a, b, hAB, hA, hB, hg, hl, hlo, hrm, _, hpre, hpost, hq⟩ := around wf hx
  obtain ⟨hsorted, hlev, htot, hbound, hbest, hnodup, hcache⟩ := wf
  obtain ⟨side, levels, cache, best, total⟩ := h
  simp only [queue_mk] at *
  subst hAB
  have hlt := hl.total
  have hlp := hl.price
  have hps := hl.pos
  simp only at hlt hlp hps
  rw [hlo] at hlt hps
  have hc : cache x.id = some x.price := (hcache _ _).2 ⟨x, hx, rfl, rfl⟩
  have hcancel : cancel x.id (queueOf side (A ++ (x.price, l) :: B)) = queueOf side (put A B x.price (a ++ b)) := by
    rw [hq, queueOf_put, cancel_append, cancel_self hpre]
    have : cancel x.id (x :: (b.map (toR x.price) ++ post side A B)) =
        b.map (toR x.price) ++ post side A B := by
      rw [show x :: (b.map (toR x.price) ++ post side A B) =
        [x] ++ (b.map (toR x.price) ++ post side A B) by rfl, cancel_append, cancel_self hpost]
      simp [cancel]
    rw [this]; simp
  have hvol : total = volume (queueOf side (put A B x.price (a ++ b))) + x.qty := by
    rw [htot, hq, queueOf_put]; simp; omega
  have hpos' : Pos (a ++ b) := by
    simp only [pos_append] at hps ⊢
    exact ⟨hps.1, hps.2.tail⟩
  refine ⟨⟨side, put A B x.price (a ++ b), cacheErase cache x.id, bestOf side (put A B x.price (a ++ b)),
    total - x.qty⟩, ?_, wf_put hsorted hlev hpos' (by omega) (by omega) ?_ ?_, rfl, hcancel.symm, ?_,
    rfl, ?_⟩
  · simp only [cancelOrder, hc, hg, Level.cancelOrder, hrm]
    rw [subU_ok (by rw [hlt]; simp; omega)]
    simp only [Res.bind_ok]
    rw [subU_ok (by omega)]
    have hrem : l.total - x.qty = sumQ (a ++ b) := by rw [hlt]; simp; omega
    simp only [Res.bind_ok, hrem, hpos'.sum_eq_zero]
    by_cases he : a ++ b = []
    · simp only [he, if_true, put, BMap.erase_split hA hB, reinitBest]
      split
      · rfl
      · rename_i hne
        rw [hbest] at hne
        rw [bestOf_erase (fun h => hne h.symm), hbest]
    · simp only [he, if_false, put, BMap.insert_split hA, hlp, hbest]
      rw [bestOf_keep]
  · rw [← hcancel]
    exact (hnodup.sublist ((List.filter_sublist).map _))
  · intro id p
    rw [← hcancel]
    simp only [cacheErase, cancel, List.mem_filter]
    by_cases hid : id = x.id
    · subst hid; simp only [if_true]
      constructor
      · intro h; simp at h
      · rintro ⟨o, ⟨_, ho⟩, he, _⟩; simp [he] at ho
    · simp only [hid, if_false, hcache]
      constructor
      · rintro ⟨o, ho, he, hp⟩; exact ⟨o, ⟨ho, by simp; rw [he]; exact hid⟩, he, hp⟩
      · rintro ⟨o, ⟨ho, _⟩, he, hp⟩; exact ⟨o, ho, he, hp⟩
  · simp only; omega
  · intro newP
    simp only [changePrice, hc, hg, Level.cancelOrder, hrm]
    rw [subU_ok (by rw [hlt]; simp; omega)]
    simp only [Res.bind_ok]
    rw [subU_ok (by omega)]
    have hrem : l.total - x.qty = sumQ (a ++ b) := by rw [hlt]; simp; omega
    simp only [Res.bind_ok, hrem, hpos'.sum_eq_zero]
    by_cases he : a ++ b = []
    · simp only [he, if_true, put, BMap.erase_split hA hB]
      rfl
    · simp only [he, if_false, put, BMap.insert_split hA, hlp]
      rfl

theorem cancelOrder_some (m : Mode) {h : HalfBook} (wf : h.WF) {x : Resting} (hx : x ∈ h.queue) :
    ∃ h', h.cancelOrder m x.id = .ok (h', some ()) ∧ h'.WF ∧ h'.side = h.side ∧
      h'.queue = cancel x.id h.queue ∧ h'.total + x.qty = h.total := by
  obtain ⟨h', h1, h2, h3, h4, h5, _⟩ := cancelOrder_core m wf hx
  exact ⟨h', h1, h2, h3, h4, h5⟩

/-! ### change of quantity -/

theorem changeQuantity_none (m : Mode) {h : HalfBook} (wf : h.WF) {id n : Nat}
    (hn : ∀ x ∈ h.queue, x.id ≠ id) : h.changeQuantity m id n = .ok (h, none) := by
  simp [changeQuantity, (cache_none wf).2 hn]

theorem changeQuantity_some (m : Mode) {h : HalfBook} (wf : h.WF) {x : Resting} (hx : x ∈ h.queue)
    {n : Nat} (hn : 0 < n) (hfit : h.total + n < U64) :
    ∃ h', h.changeQuantity m x.id n = .ok (h', some ()) ∧ h'.WF ∧ h'.side = h.side ∧
      h'.queue = setQty x.id n h.queue ∧ h'.total + x.qty = h.total + n := by
  obtain ⟨A, B, l, a, b, hAB, hA, hB, hg, hl, hlo, _, hsf, hpre, hpost, hq⟩ := around wf hx
  obtain ⟨hsorted, hlev, htot, hbound, hbest, hnodup, hcache⟩ := wf
  obtain ⟨side, levels, cache, best, total⟩ := h
  simp only [queue_mk] at *
  subst hAB
  have hlt := hl.total
  have hlp := hl.price
  have hps := hl.pos
  simp only at hlt hlp hps
  rw [hlo] at hlt hps
  have hc : cache x.id = some x.price := (hcache _ _).2 ⟨x, hx, rfl, rfl⟩
  have hset : setQty x.id n (queueOf side (A ++ (x.price, l) :: B)) =
      queueOf side (put A B x.price (a ++ (x.id, n) :: b)) := by
    rw [hq, queueOf_put, setQty_append, setQty_self hpre]
    have : setQty x.id n (x :: (b.map (toR x.price) ++ post side A B)) =
        toR x.price (x.id, n) :: (b.map (toR x.price) ++ post side A B) := by
      rw [show x :: (b.map (toR x.price) ++ post side A B) =
        [x] ++ (b.map (toR x.price) ++ post side A B) by rfl, setQty_append, setQty_self hpost]
      simp [setQty, toR]
    rw [this]; simp
  have hvol : total + n = volume (queueOf side (put A B x.price (a ++ (x.id, n) :: b))) + x.qty := by
    rw [htot, hq, queueOf_put]; simp; omega
  have hvl : sumQ (a ++ (x.id, n) :: b) ≤ volume (queueOf side (put A B x.price (a ++ (x.id, n) :: b))) := by
    rw [queueOf_put]
    simp only [volume_append, volume_map_toR]; omega
  have hlle : l.total ≤ total := by
    rw [htot, queueOf_split, hlo, hlt]; simp [volume_map_toR]; omega
  have hpos' : Pos (a ++ (x.id, n) :: b) := by
    simp only [pos_append] at hps ⊢
    refine ⟨hps.1, ?_⟩
    intro o ho
    rcases List.mem_cons.1 ho with rfl | ho
    · exact hn
    · exact hps.2.tail o ho
  have hne : a ++ (x.id, n) :: b ≠ [] := by simp
  have hids : (queueOf side (put A B x.price (a ++ (x.id, n) :: b))).map (·.id) =
      (queueOf side (A ++ (x.price, l) :: B)).map (·.id) := by
    rw [queueOf_put, hq]; simp
  refine ⟨⟨side, put A B x.price (a ++ (x.id, n) :: b), cache,
    bestOf side (put A B x.price (a ++ (x.id, n) :: b)),
    total - x.qty + n⟩, ?_, wf_put hsorted hlev hpos' ?_ ?_ ?_ ?_, rfl, hset.symm, ?_⟩
  · simp only [changeQuantity, hc, hg, Level.changeQuantity, hsf]
    rw [addU_ok (by omega)]
    simp only [Res.bind_ok]
    have h1 : l.total + n - x.qty = sumQ (a ++ (x.id, n) :: b) := by rw [hlt]; simp; omega
    have h2 : x.qty ≤ l.total := by rw [hlt]; simp; omega
    rw [subU_ok (by omega)]
    simp only [Res.bind_ok]
    rw [subU_ok (by omega)]
    simp only [Res.bind_ok]
    rw [addU_ok (by omega)]
    simp only [Res.bind_ok, h1, hpos'.sum_eq_zero, hne, if_false, put, BMap.insert_split hA, hlp, hbest]
    rw [bestOf_keep]
  · have : x.qty ≤ total := by rw [htot, hq]; simp; omega
    omega
  · have : x.qty ≤ total := by rw [htot, hq]; simp; omega
    omega
  · rw [hids]; exact hnodup
  · intro id p
    rw [hcache, ← hset]
    simp only [setQty, List.mem_map]
    constructor
    · rintro ⟨o, ho, he, hp⟩
      exact ⟨_, ⟨o, ho, rfl⟩, by split <;> simp [he], by split <;> simp [hp]⟩
    · rintro ⟨_, ⟨o, ho, rfl⟩, he, hp⟩
      refine ⟨o, ho, ?_, ?_⟩
      · split at he <;> simpa using he
      · split at hp <;> simpa using hp
  · have : x.qty ≤ total := by rw [htot, hq]; simp; omega
    simp only; omega

end HalfBook
end Verif.TE

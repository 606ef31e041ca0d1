import Verif.Props.BookFaults
import Verif.TE.SnapWF
/-!
# C19–C24: snapshots
-/
set_option autoImplicit false
namespace Verif.Props
open Verif Verif.TE Verif.Spec

/-! ## Vocabulary -/

/-- Each price at most once. -/
abbrev DistinctPrices (s : List LevelSnapshot) : Prop := (s.map (·.price)).Nodup

/-- Sum of the quantities of a snapshot side. -/
def qtySum (s : List LevelSnapshot) : Nat := (s.map (·.qty)).sum

/-- A snapshot the book can take: distinct prices per side, and no overflow of the 64-bit side totals and
of the virtual-id counter. -/
structure SnapOK (b : OrderBook) (askS bidS : List LevelSnapshot) : Prop where
  asks : DistinctPrices askS
  bids : DistinctPrices bidS
  afit : b.asks.total + qtySum askS < U64
  bfit : b.bids.total + qtySum bidS < U64
  ctr : b.ctr + askS.length + bidS.length < U64

/-- Books fed by snapshots only, from the empty book. -/
inductive SnapReachable (m : Mode) (inst : Nat) : OrderBook → Prop
  | init : SnapReachable m inst (OrderBook.init inst)
  | step {b b' : OrderBook} {a d : List LevelSnapshot} {r : Except Unit Unit} : SnapReachable m inst b →
      SnapOK b a d → b.updateFromSnapshot m inst a d = .ok (b', r) → SnapReachable m inst b'

/-- The side shows exactly the snapshot: `to_level_snapshot` lists the same pairs, by ascending price; the
quantity query answers with the snapshot's quantity (0 for other prices); the total is the sum; the best
price is the smallest (asks) or largest (bids) snapshot price, or the sentinel when there is none. -/
def Shows (h : HalfBook) (s : Side) (snap : List LevelSnapshot) : Prop :=
  h.toSnapshot.Perm snap ∧ h.toSnapshot.Pairwise (fun x y => x.price < y.price) ∧
  (∀ x ∈ snap, h.aggregateAt x.price = x.qty) ∧ (∀ p, (∀ x ∈ snap, x.price ≠ p) → h.aggregateAt p = 0) ∧
  h.aggregate = qtySum snap ∧
  (snap = [] → h.best = match s with | .ask => 2 ^ 63 - 1 | .bid => -(2 ^ 63)) ∧
  (snap ≠ [] → (∃ x ∈ snap, x.price = h.best) ∧
    ∀ x ∈ snap, match s with | .ask => h.best ≤ x.price | .bid => x.price ≤ h.best)

/-! ## Invariants -/

/-- Invariant of snapshot-fed books. -/
structure SnapBook (b : OrderBook) : Prop where
  asks : HalfBook.SnapInv b.asks b.ctr
  bids : HalfBook.SnapInv b.bids b.ctr
  abest : b.asks.best = HalfBook.bestOf b.asks.side b.asks.levels
  bbest : b.bids.best = HalfBook.bestOf b.bids.side b.bids.levels
  aside : b.asks.side = .ask
  bside : b.bids.side = .bid

theorem snapInv_mono {h : HalfBook} {c c' : Nat} (hi : HalfBook.SnapInv h c) (hc : c ≤ c') :
    HalfBook.SnapInv h c' :=
  ⟨hi.sorted, fun e he => by obtain ⟨i, q, h1, h2⟩ := hi.single e he; exact ⟨i, q, by omega, h2⟩,
    hi.total, hi.nodup, hi.cache⟩

theorem snapBook_init (inst : Nat) : SnapBook (OrderBook.init inst) := by
  have : ∀ s, HalfBook.SnapInv (HalfBook.init s) 0 := fun s =>
    ⟨by simp [HalfBook.init, Sorted], by simp [HalfBook.init], by simp [HalfBook.init, HalfBook.sumT],
      by simp [HalfBook.init, HalfBook.idsOf], by simp [HalfBook.init]⟩
  exact ⟨this _, this _, rfl, rfl, rfl, rfl⟩

theorem shows_of_levels {h : HalfBook} {s : Side} {snap : List LevelSnapshot} (hsort : Sorted h.levels)
    (hpr : ∀ e ∈ h.levels, e.2.price = e.1) (hne : ∀ e ∈ h.levels, e.2.orders ≠ [])
    (htot : h.total = HalfBook.sumT h.levels)
    (hb : h.best = HalfBook.bestOf h.side h.levels) (hs : h.side = s) (hd : DistinctPrices snap)
    (hg : ∀ p, (BMap.get p h.levels).map (·.total) = HalfBook.snapAt snap p) : Shows h s snap := by
  obtain ⟨hp, hasc⟩ := HalfBook.toSnapshot_perm hsort hpr hd hg
  have hagg : ∀ p, h.aggregateAt p = (HalfBook.snapAt snap p).getD 0 := by
    intro p
    rw [← hg]
    unfold HalfBook.aggregateAt
    cases BMap.get p h.levels <;> rfl
  have hkeys : ∀ e ∈ h.levels, ∃ x ∈ snap, x.price = e.1 := by
    intro e he
    have : (⟨e.2.price, e.2.total⟩ : LevelSnapshot) ∈ h.toSnapshot := List.mem_map.2 ⟨e, he, rfl⟩
    exact ⟨_, hp.subset this, hpr e he⟩
  have hkeys' : ∀ x ∈ snap, ∃ e ∈ h.levels, e.1 = x.price := by
    intro x hx
    obtain ⟨e, he, hex⟩ := List.mem_map.1 (hp.symm.subset hx)
    refine ⟨e, he, ?_⟩
    rw [← hex]; exact (hpr e he).symm
  have hbest := best_of_levels hsort hne hb
  have htot' : h.total = qtySum snap := by
    rw [htot, qtySum, ← (hp.map (·.qty)).sum_nat]
    simp only [HalfBook.sumT, HalfBook.toSnapshot, List.map_map]; rfl
  refine ⟨hp, hasc, ?_, ?_, htot', ?_, ?_⟩
  · intro x hx
    rw [hagg]
    unfold HalfBook.snapAt
    cases hf : snap.find? (fun y => y.price = x.price) with
    | none => rw [List.find?_eq_none] at hf; have := hf x hx; simp at this
    | some y =>
      have hy := List.mem_of_find?_eq_some hf
      have hyp : y.price = x.price := by simpa using List.find?_some hf
      have : y = x := List.inj_on_of_nodup_map hd hy hx hyp
      simp [this]
  · intro p hpn
    rw [hagg, HalfBook.snapAt_none.2]
    · rfl
    · intro hm
      obtain ⟨x, hx, he⟩ := List.mem_map.1 hm
      exact hpn x hx he
  · intro hn
    rcases hbest.2 with ⟨_, h2⟩ | ⟨⟨e, he, _⟩, _⟩
    · rw [hs] at h2; exact h2
    · obtain ⟨x, hx, _⟩ := hkeys e he; rw [hn] at hx; simp at hx
  · intro hn
    rcases hbest.2 with ⟨h1, _⟩ | ⟨⟨e, he, h1⟩, h2⟩
    · obtain ⟨x, hx⟩ := List.exists_mem_of_ne_nil _ hn
      obtain ⟨e, he, _⟩ := hkeys' x hx
      rw [h1] at he; simp at he
    · obtain ⟨x, hx, hxe⟩ := hkeys e he
      refine ⟨⟨x, hx, hxe.trans h1⟩, ?_⟩
      intro y hy
      obtain ⟨f, hf, hfe⟩ := hkeys' y hy
      have := h2 f hf
      rw [hs, hfe] at this
      exact this

theorem shows_of {h : HalfBook} {ctr : Nat} {s : Side} {snap : List LevelSnapshot} (inv : HalfBook.SnapInv h ctr)
    (hb : h.best = HalfBook.bestOf h.side h.levels) (hs : h.side = s) (hd : DistinctPrices snap)
    (hg : ∀ p, (BMap.get p h.levels).map (·.total) = HalfBook.snapAt snap p) : Shows h s snap :=
  shows_of_levels inv.sorted
    (fun e he => by obtain ⟨_, _, _, h2⟩ := inv.single e he; rw [h2])
    (fun e he => by obtain ⟨_, _, _, h2⟩ := inv.single e he; rw [h2]; simp) inv.total hb hs hd hg

/-- One update, with everything the properties need. -/
theorem update_spec (m : Mode) {b : OrderBook} (hb : SnapBook b) {a d : List LevelSnapshot} (ok : SnapOK b a d) :
    ∃ b', b.updateFromSnapshot m b.inst a d = .ok (b', .ok ()) ∧ SnapBook b' ∧ b'.inst = b.inst ∧
      b.ctr ≤ b'.ctr ∧ b'.ctr ≤ b.ctr + a.length + d.length ∧
      Shows b'.asks .ask a ∧ Shows b'.bids .bid d ∧
      (∀ p, (BMap.get p b'.asks.levels).map (·.total) = HalfBook.snapAt a p) ∧
      (∀ p, (BMap.get p b'.bids.levels).map (·.total) = HalfBook.snapAt d p) ∧
      (∀ id ∈ HalfBook.idsOf b'.asks.levels, id ∈ HalfBook.idsOf b.asks.levels ∨ b.ctr ≤ id) ∧
      (∃ c, b.ctr ≤ c ∧ c ≤ b'.ctr ∧ (∀ id ∈ HalfBook.idsOf b'.asks.levels, id < c) ∧
        (∀ id ∈ HalfBook.idsOf b'.bids.levels, id ∈ HalfBook.idsOf b.bids.levels ∨ c ≤ id)) := by
  have hfa := ok.afit; have hfb := ok.bfit; have hc := ok.ctr
  simp only [qtySum] at hfa hfb
  obtain ⟨ha, c1, e1, i1, b1, s1, h1, h2, g1⟩ :=
    HalfBook.updateSnapshot_snap m hb.asks hb.abest a ok.asks hfa (by omega)
  obtain ⟨hd, c2, e2, i2, b2, s2, h3, h4, g2⟩ :=
    HalfBook.updateSnapshot_snap m (snapInv_mono hb.bids h1) hb.bbest d ok.bids hfb (by omega)
  refine ⟨⟨ha, hd, b.inst, c2⟩, ?_, ⟨snapInv_mono i1 h3, i2, b1, b2, s1.trans hb.aside, s2.trans hb.bside⟩, rfl,
    Nat.le_trans h1 h3, ?_, shows_of i1 b1 (s1.trans hb.aside) ok.asks g1,
    shows_of i2 b2 (s2.trans hb.bside) ok.bids g2, g1, g2, ?_, c1, h1, h3, ?_, ?_⟩
  · simp only [OrderBook.updateFromSnapshot, ne_eq, not_true_eq_false, if_false, e1, Res.bind_ok, e2]
  · show c2 ≤ _; omega
  · exact HalfBook.updateSnapshot_ids m hb.asks hb.abest a hfa (by omega) e1
  · intro id hid
    obtain ⟨e, he, hm⟩ := HalfBook.mem_idsOf.1 hid
    obtain ⟨i, q, hlt, hq⟩ := i1.single e he
    rw [hq] at hm; simp at hm; omega
  · exact HalfBook.updateSnapshot_ids m (snapInv_mono hb.bids h1) hb.bbest d hfb (by omega) e2

theorem SnapReachable.inv {m : Mode} {inst : Nat} {b : OrderBook} (h : SnapReachable m inst b) :
    SnapBook b ∧ b.inst = inst := by
  induction h with
  | init => exact ⟨snapBook_init inst, rfl⟩
  | step _ hok hs ih =>
    obtain ⟨ih, hi⟩ := ih
    obtain ⟨b1, e1, hb1, hi1, _⟩ := update_spec m ih hok
    rw [hi, hs] at e1
    simp only [Except.ok.injEq, Prod.mk.injEq] at e1
    rw [e1.1]; exact ⟨hb1, hi1.trans hi⟩

/-! ## C19 -/

/-- C19. After a snapshot update both sides show exactly the snapshot, whatever the book contained. -/
theorem C19_update_equals_snapshot (m : Mode) (inst : Nat) (b : OrderBook) (hr : SnapReachable m inst b)
    (askS bidS : List LevelSnapshot) (ok : SnapOK b askS bidS) :
    ∃ b', b.updateFromSnapshot m inst askS bidS = .ok (b', .ok ()) ∧
      Shows b'.asks .ask askS ∧ Shows b'.bids .bid bidS := by
  obtain ⟨hb, hi⟩ := hr.inv
  obtain ⟨b', e, _, _, _, _, h1, h2, _⟩ := update_spec m hb ok
  rw [hi] at e
  exact ⟨b', e, h1, h2⟩

/-- Two snapshots in a row that change, drop and add levels. -/
example (m : Mode) : ∃ b, SnapReachable m 7 b ∧ b.asks.toSnapshot = [⟨101, 5⟩, ⟨103, 2⟩] ∧
    SnapOK b [⟨103, 9⟩, ⟨102, 4⟩] [⟨97, 1⟩] := by
  have ok : SnapOK (OrderBook.init 7) [⟨101, 5⟩, ⟨103, 2⟩] [⟨99, 3⟩] :=
    ⟨by decide, by decide, by decide, by decide, by decide⟩
  cases m
  · refine ⟨_, .step (r := .ok ()) .init ok rfl, rfl, ⟨by decide, by decide, ?_, ?_, ?_⟩⟩ <;> decide +kernel
  · refine ⟨_, .step (r := .ok ()) .init ok rfl, rfl, ⟨by decide, by decide, ?_, ?_, ?_⟩⟩ <;> decide +kernel

/-! ## C20 -/

theorem le_sum_of_mem' {l : List Nat} {n : Nat} (h : n ∈ l) : n ≤ l.sum := by
  induction l with
  | nil => simp at h
  | cons a l ih =>
    rcases List.mem_cons.1 h with rfl | h
    · simp
    · have := ih h; simp only [List.sum_cons]; omega

theorem fix_of_shows (m : Mode) {h : HalfBook} {ctr : Nat} {snap : List LevelSnapshot}
    (inv : HalfBook.SnapInv h ctr) (hb : h.best = HalfBook.bestOf h.side h.levels) (hd : DistinctPrices snap)
    (hg : ∀ p, (BMap.get p h.levels).map (·.total) = HalfBook.snapAt snap p)
    (hfit : h.total + qtySum snap < U64) : h.updateSnapshot m snap ctr = .ok (h, ctr, .ok ()) := by
  refine HalfBook.updateSnapshot_fix m inv hb snap ?_ ?_ ?_
  · intro s hs
    have : s.qty ≤ qtySum snap := le_sum_of_mem' (List.mem_map.2 ⟨s, hs, rfl⟩)
    omega
  · intro e he
    have h1 := hg e.1
    rw [BMap.mem_get inv.sorted (v := e.2) he] at h1
    by_contra hn
    rw [HalfBook.snapAt_none.2 hn] at h1
    simp at h1
  · intro s hs
    rw [hg]
    unfold HalfBook.snapAt
    cases hf : snap.find? (fun y => y.price = s.price) with
    | none => rw [List.find?_eq_none] at hf; have := hf s hs; simp at this
    | some y =>
      have hy := List.mem_of_find?_eq_some hf
      have hyp : y.price = s.price := by simpa using List.find?_some hf
      have : y = s := List.inj_on_of_nodup_map hd hy hs hyp
      simp [this]

/-- C20. Applying the same snapshot again returns the very same book (levels, ids, totals, best prices
and virtual-id counter). -/
theorem C20_idempotent (m : Mode) (inst : Nat) (b b' : OrderBook) (hr : SnapReachable m inst b)
    (askS bidS : List LevelSnapshot) (ok : SnapOK b askS bidS)
    (ha2 : 2 * qtySum askS < U64) (hb2 : 2 * qtySum bidS < U64)
    (h : b.updateFromSnapshot m inst askS bidS = .ok (b', .ok ())) :
    b'.updateFromSnapshot m inst askS bidS = .ok (b', .ok ()) := by
  obtain ⟨hb, hi⟩ := hr.inv
  obtain ⟨b1, e, hb1, hi1, hc1, hc2, h1, h2, g1, g2, _⟩ := update_spec m hb ok
  rw [hi, h] at e
  simp only [Except.ok.injEq, Prod.mk.injEq, and_true] at e
  subst e
  have t1 : b'.asks.total = qtySum askS := h1.2.2.2.2.1
  have t2 : b'.bids.total = qtySum bidS := h2.2.2.2.2.1
  have f1 := fix_of_shows m hb1.asks hb1.abest ok.asks g1 (by omega)
  have f2 := fix_of_shows m hb1.bids hb1.bbest ok.bids g2 (by omega)
  unfold OrderBook.updateFromSnapshot
  rw [if_neg (by rw [hi1, hi]; simp)]
  simp only [f1, Res.bind_ok, f2]

example : SnapOK (OrderBook.init 7) [⟨101, 5⟩, ⟨103, 2⟩] [⟨99, 3⟩] ∧ 2 * qtySum [⟨101, 5⟩, ⟨103, 2⟩] < U64 ∧
    2 * qtySum [⟨99, 3⟩] < U64 := ⟨⟨by decide, by decide, by decide, by decide, by decide⟩, by decide, by decide⟩

/-! ## C23 -/

/-- C23. A snapshot for another instrument is rejected and changes nothing. -/
theorem C23_wrong_instrument (m : Mode) (b : OrderBook) (inst : Nat) (askS bidS : List LevelSnapshot)
    (h : b.inst ≠ inst) : b.updateFromSnapshot m inst askS bidS = .ok (b, .error ()) := by
  simp [OrderBook.updateFromSnapshot, h]

/-- … and one for the right instrument is taken (so the check does not reject everything). -/
theorem C23_right_instrument (m : Mode) (inst : Nat) (b : OrderBook) (hr : SnapReachable m inst b)
    (askS bidS : List LevelSnapshot) (ok : SnapOK b askS bidS) (i : Nat) :
    (∃ b', b.updateFromSnapshot m i askS bidS = .ok (b', .ok ())) ↔ i = inst := by
  constructor
  · rintro ⟨b', h⟩
    by_contra hne
    rw [C23_wrong_instrument m b i _ _ (by rw [hr.inv.2]; exact fun h => hne h.symm)] at h
    simp at h
  · rintro rfl
    obtain ⟨b', h, _⟩ := C19_update_equals_snapshot m i b hr askS bidS ok
    exact ⟨b', h⟩

example : (OrderBook.init 7).inst ≠ 8 := by decide

/-! ## C22 -/

/-- The `(price, quantity)` pairs of a side. -/
def pairs (h : HalfBook) : List (Int × Nat) := h.levels.map (fun e => (e.1, e.2.total))

theorem level_pos {h : HalfBook} (wf : h.WF) {e : Int × Level} (he : e ∈ h.levels) : 0 < e.2.total := by
  have hl := wf.levels e he
  have h1 := hl.total
  have h2 := (hl.pos.sum_eq_zero).not.2 hl.nonempty
  omega

theorem mem_pairs {h : HalfBook} (wf : h.WF) (p : Int) (q : Nat) :
    (p, q) ∈ pairs h ↔ 0 < q ∧ h.aggregateAt p = q := by
  unfold pairs HalfBook.aggregateAt
  constructor
  · intro hm
    obtain ⟨e, he, heq⟩ := List.mem_map.1 hm
    simp only [Prod.mk.injEq] at heq
    rw [← heq.1, ← heq.2, BMap.mem_get wf.sorted (v := e.2) he]
    exact ⟨level_pos wf he, rfl⟩
  · rintro ⟨hq, hp⟩
    cases hg : BMap.get p h.levels with
    | none => rw [hg] at hp; simp only at hp; omega
    | some l =>
      rw [hg] at hp
      exact List.mem_map.2 ⟨_, BMap.get_mem hg, by simp only at hp; simp [hp]⟩

theorem pairs_nodup {h : HalfBook} (wf : h.WF) : (pairs h).Nodup := by
  unfold pairs List.Nodup
  rw [List.pairwise_map]
  refine List.Pairwise.imp ?_ wf.sorted
  intro a b hab he
  simp only [Prod.mk.injEq] at he
  omega

theorem pairs_sum {h : HalfBook} (wf : h.WF) : ((pairs h).map (·.2)).sum = h.total := by
  rw [wf.total, HalfBook.queue, volume_queueOf, volume_flat (fun e he => (wf.levels e he).total)]
  simp [pairs, Function.comp_def]

theorem half_eqLevel {a b : HalfBook} (wa : a.WF) (wb : b.WF) :
    a.eqLevel b = true ↔ ∀ p, a.aggregateAt p = b.aggregateAt p := by
  have hsub : a.eqLevel b = true ↔ a.total = b.total ∧ ∀ x ∈ pairs a, x ∈ pairs b := by
    unfold HalfBook.eqLevel
    rw [Bool.and_eq_true, beq_iff_eq, List.all_eq_true]
    refine and_congr Iff.rfl ?_
    constructor
    · rintro h ⟨p, q⟩ hx
      obtain ⟨⟨k, l⟩, he, heq⟩ := List.mem_map.1 hx
      simp only [Prod.mk.injEq] at heq
      obtain ⟨rfl, rfl⟩ := heq
      have h1 := h _ he
      simp only at h1
      cases hg : BMap.get k b.levels with
      | none => rw [hg] at h1; simp at h1
      | some l' =>
        rw [hg] at h1
        simp only [beq_iff_eq] at h1
        exact List.mem_map.2 ⟨_, BMap.get_mem hg, by simp [h1]⟩
    · rintro h ⟨k, l⟩ he
      have := h (k, l.total) (List.mem_map.2 ⟨_, he, rfl⟩)
      obtain ⟨⟨k', l'⟩, he', heq⟩ := List.mem_map.1 this
      simp only [Prod.mk.injEq] at heq
      obtain ⟨rfl, h2⟩ := heq
      simp only [BMap.mem_get wb.sorted he', h2, beq_self_eq_true]
  have hagg : (∀ p, a.aggregateAt p = b.aggregateAt p) ↔ ∀ x, x ∈ pairs a ↔ x ∈ pairs b := by
    constructor
    · rintro h ⟨p, q⟩; rw [mem_pairs wa, mem_pairs wb, h]
    · intro h p
      by_cases h1 : 0 < a.aggregateAt p
      · exact ((mem_pairs wb p _).1 ((h (p, a.aggregateAt p)).1 ((mem_pairs wa p _).2 ⟨h1, rfl⟩))).2.symm
      · by_cases h2 : 0 < b.aggregateAt p
        · have := ((mem_pairs wa p _).1 ((h (p, b.aggregateAt p)).2 ((mem_pairs wb p _).2 ⟨h2, rfl⟩))).2
          omega
        · omega
  rw [hsub, hagg]
  constructor
  · rintro ⟨ht, hs⟩ x
    refine ⟨hs x, ?_⟩
    have hsp : (pairs a).Subperm (pairs b) := (pairs_nodup wa).subperm hs
    obtain ⟨l, hl, hlb⟩ := hsp
    obtain ⟨c, hc⟩ := hlb.exists_perm_append
    have hpab : (pairs b).Perm (pairs a ++ c) := hc.trans (hl.append_right c)
    have hsum := (hpab.map (·.2)).sum_nat
    rw [List.map_append, List.sum_append, pairs_sum wa, pairs_sum wb, ← ht] at hsum
    have hc0 : c = [] := by
      cases c with
      | nil => rfl
      | cons y ys =>
        have hy : y ∈ pairs b := hpab.symm.subset (by simp)
        have := ((mem_pairs wb y.1 y.2).1 hy).1
        simp only [List.map_cons, List.sum_cons] at hsum
        omega
    intro hx
    have := hpab.subset hx
    simpa [hc0] using this
  · intro h
    refine ⟨?_, fun x hx => (h x).1 hx⟩
    rw [← pairs_sum wa, ← pairs_sum wb]
    exact (((List.perm_ext_iff_of_nodup (pairs_nodup wa) (pairs_nodup wb)).2 h).map _).sum_nat

end Verif.Props

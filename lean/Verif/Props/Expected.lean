import Verif.Props.Floating
/-!
# C67: the expected coupon amounts of a result

`get_expected_coupon_amount` walks a `HashMap` in an arbitrary order and writes into a map by date; the theorems hold for
every order of the walk.
-/
set_option autoImplicit false
set_option linter.unusedSectionVars false
namespace Verif.Props
open Verif Verif.QL Verif.Civil

theorem lookup_certain (k : Nat) (l : Numbered) (h : k ∈ l.map fun x => x.1) : ∃ d, lookupN k (certain l) = some (d, 1) := by
  induction l with
  | nil => cases h
  | cons x l ih =>
    obtain ⟨j, d, a⟩ := x
    unfold certain
    rw [List.map_cons]
    unfold lookupN
    by_cases e : j = k
    · rw [if_pos e]; exact ⟨d, rfl⟩
    · rw [if_neg e]
      rw [List.map_cons] at h
      rcases List.mem_cons.1 h with q | q
      · exact absurd q.symm e
      · exact ih q

theorem expected_fold (amounts walk : Numbered) (h : ∀ x ∈ walk, x.1 ∈ amounts.map fun x => x.1) (m : Flows) :
    expectedLoop (certain amounts) walk m = .ok ((walk.map fun x => x.2).foldl (fun m x => putAt x.1 x.2 m) m) := by
  induction walk generalizing m with
  | nil => rfl
  | cons x walk ih =>
    obtain ⟨k, d, a⟩ := x
    unfold expectedLoop
    obtain ⟨d', e⟩ := lookup_certain k amounts (h _ (List.mem_cons_self ..))
    rw [e]
    simp only [mul_one]
    rw [ih fun y hy => h y (List.mem_cons_of_mem _ hy)]
    rfl

theorem fold_put_due (es m : Flows) (hm : Keyed m) (i : Int) :
    Keyed (es.foldl (fun m x => putAt x.1 x.2 m) m) ∧
    dueAt (es.foldl (fun m x => putAt x.1 x.2 m) m) i =
      match (es.filter fun x => decide (x.1.instant = i)).getLast? with
      | some x => x.2
      | none => dueAt m i := by
  induction es generalizing m with
  | nil => exact ⟨hm, rfl⟩
  | cons x es ih =>
    obtain ⟨k1, k2⟩ := ih (putAt x.1 x.2 m) (putAt_keyed _ _ _ hm)
    refine ⟨k1, ?_⟩
    rw [List.foldl_cons, k2, dueAt_putAt _ _ _ hm]
    rw [List.filter_cons]
    by_cases h : x.1.instant = i
    · simp only [h, decide_true, if_true]
      rw [List.getLast?_cons]
      cases (es.filter fun x => decide (x.1.instant = i)).getLast? <;> rfl
    · simp [h]

theorem filter_keyed_length (m : Flows) (h : Keyed m) (i : Int) : (m.filter fun x => decide (x.1.instant = i)).length ≤ 1 := by
  induction m with
  | nil => simp
  | cons x m ih =>
    unfold Keyed at h
    rw [List.map_cons, List.nodup_cons] at h
    rw [List.filter_cons]
    by_cases e : x.1.instant = i
    · simp only [e, decide_true, if_true, List.length_cons]
      have : m.filter (fun x => decide (x.1.instant = i)) = [] := by
        rw [List.filter_eq_nil_iff]
        intro y hy q
        exact h.1 (List.mem_map.2 ⟨y, hy, by rw [e]; simpa using q⟩)
      rw [this]
      simp
    · simp only [e, decide_false, Bool.false_eq_true, if_false]
      exact ih h.2

/-- Does a map have an entry at an instant? -/
def PaysAt (m : Flows) (i : Int) : Prop := ∃ x ∈ m, x.1.instant = i

theorem filter_single (m : Flows) (h : Keyed m) (i : Int) :
    (¬ PaysAt m i ∧ (m.filter fun x => decide (x.1.instant = i)) = [] ∧ dueAt m i = 0) ∨
    (PaysAt m i ∧ ∃ x, (m.filter fun x => decide (x.1.instant = i)) = [x] ∧ x.2 = dueAt m i ∧ x.1.instant = i) := by
  have hl := filter_keyed_length m h i
  have hd : dueAt m i = ((m.filter fun x => decide (x.1.instant = i)).map fun x => x.2).sum := rfl
  cases hf : (m.filter fun x => decide (x.1.instant = i)) with
  | nil =>
    left
    refine ⟨?_, rfl, by rw [hd, hf]; rfl⟩
    rintro ⟨x, hx, e⟩
    have : x ∈ m.filter fun x => decide (x.1.instant = i) := List.mem_filter.2 ⟨hx, by simpa using e⟩
    rw [hf] at this
    cases this
  | cons x xs =>
    have hx : x ∈ m.filter fun x => decide (x.1.instant = i) := by rw [hf]; exact List.mem_cons_self ..
    rw [hf, List.length_cons] at hl
    have : xs = [] := List.length_eq_zero_iff.1 (by omega)
    subst this
    right
    obtain ⟨h1, h2⟩ := List.mem_filter.1 hx
    refine ⟨⟨x, h1, by simpa using h2⟩, x, rfl, by rw [hd, hf]; simp, by simpa using h2⟩

/-- **C67** (bonds). Walked in any order, the expected coupon amounts of a bond's result exist, with one entry per date, and
say the same as the cash-flow map of the bond. -/
theorem C67_bond (md : Mode) (p : BondPricer) (b : Bond) (r : NpvResult) (h : p.result md b = .ok r) (walk : Numbered)
    (hw : walk.Perm r.amounts) :
    ∃ m e, b.flows md p.mkt (pricedAt b p.eval) = .ok m ∧ expectedLoop r.probs walk [] = .ok e ∧ Keyed e ∧ ∀ i, dueAt e i = dueAt m i := by
  obtain ⟨m, hm, ha, -, hp⟩ := (C62_result md p b).2 r h
  have hk := (C61_bond_flows md b p.mkt (pricedAt b p.eval) m hm).1
  have he := expected_fold r.amounts walk (fun x hx => List.mem_map.2 ⟨x, hw.mem_iff.1 hx, rfl⟩) []
  have hpr : r.probs = certain r.amounts := hp
  rw [← hpr] at he
  refine ⟨m, _, hm, he, (fold_put_due _ _ (by simp [Keyed]) 0).1, fun i => ?_⟩
  rw [(fold_put_due _ _ (by simp [Keyed]) i).2]
  have hperm : (walk.map fun x => x.2).Perm m := by rw [← ha]; exact hw.map _
  have hkw : Keyed (walk.map fun x => x.2) := by
    unfold Keyed at hk ⊢
    exact ((hperm.map _).nodup_iff).2 hk
  rw [← dueAt_perm hperm i]
  rcases filter_single _ hkw i with ⟨-, e1, e2⟩ | ⟨-, x, e1, e2, -⟩
  · rw [e1, e2]; rfl
  · rw [e1]; exact e2

theorem expected_loop_iff (probs walk : Numbered) (m : Flows) :
    ((∃ e, expectedLoop probs walk m = .ok e) ↔ ∀ x ∈ walk, ∃ q, lookupN x.1 probs = some q) ∧
    ∀ e, expectedLoop probs walk m = .ok e → e = (walk.map fun x => (x.2.1, x.2.2 * ((lookupN x.1 probs).map fun q => q.2).getD 0)).foldl (fun m x => putAt x.1 x.2 m) m := by
  induction walk generalizing m with
  | nil => exact ⟨⟨by simp, fun _ => ⟨m, rfl⟩⟩, fun e h => by cases h; rfl⟩
  | cons x walk ih =>
    obtain ⟨k, d, a⟩ := x
    cases hl : lookupN k probs with
    | none =>
      have hn : ∀ e, expectedLoop probs ((k, d, a) :: walk) m ≠ .ok e := by
        intro e h
        unfold expectedLoop at h
        rw [hl] at h
        cases h
      refine ⟨⟨fun ⟨e, h⟩ => absurd h (hn e), fun h => ?_⟩, fun e h => absurd h (hn e)⟩
      obtain ⟨q, hq⟩ := h _ (List.mem_cons_self ..)
      rw [hl] at hq
      cases hq
    | some q =>
      have hs : expectedLoop probs ((k, d, a) :: walk) m = expectedLoop probs walk (putAt d (a * q.2) m) := by
        conv_lhs => unfold expectedLoop
        rw [hl]
      rw [hs]
      obtain ⟨i1, i2⟩ := ih (putAt d (a * q.2) m)
      refine ⟨i1.trans ⟨fun h y hy => ?_, fun h y hy => h y (List.mem_cons_of_mem _ hy)⟩, fun e h => ?_⟩
      · rcases List.mem_cons.1 hy with rfl | hy
        · exact ⟨q, hl⟩
        · exact h y hy
      · rw [i2 e h]
        simp [hl]

/-- **C67** (probabilities). For any result, walked in any order: the expected amounts exist exactly when every reported
amount has a probability, and if no two amounts are due at one instant then what is expected at the instant of an amount is
the amount times its probability. -/
theorem C67_probability (r : NpvResult) (walk : Numbered) (hw : walk.Perm r.amounts) :
    ((∃ e, expectedLoop r.probs walk [] = .ok e) ↔ ∀ x ∈ r.amounts, ∃ q, lookupN x.1 r.probs = some q) ∧
    ∀ e, expectedLoop r.probs walk [] = .ok e → Keyed (r.amounts.map fun x => x.2) → ∀ x ∈ r.amounts, ∃ q,
      lookupN x.1 r.probs = some q ∧ dueAt e x.2.1.instant = x.2.2 * q.2 := by
  obtain ⟨h1, h2⟩ := expected_loop_iff r.probs walk []
  have h1' : (∃ e, expectedLoop r.probs walk [] = .ok e) ↔ ∀ x ∈ r.amounts, ∃ q, lookupN x.1 r.probs = some q :=
    h1.trans ⟨fun h x hx => h x (hw.mem_iff.2 hx), fun h x hx => h x (hw.mem_iff.1 hx)⟩
  refine ⟨h1', fun e he hk x hx => ?_⟩
  obtain ⟨q, hq⟩ := h1'.1 ⟨e, he⟩ x hx
  refine ⟨q, hq, ?_⟩
  have hm := h2 e he
  have hfl := filter_keyed_length (walk.map fun x => (x.2.1, x.2.2 * ((lookupN x.1 r.probs).map fun q => q.2).getD 0)) (by
    unfold Keyed at hk ⊢
    rw [List.map_map] at hk ⊢
    exact ((hw.map _).nodup_iff).2 hk) x.2.1.instant
  have hmem : (x.2.1, x.2.2 * q.2) ∈ (walk.map fun x => (x.2.1, x.2.2 * ((lookupN x.1 r.probs).map fun q => q.2).getD 0)).filter fun y => decide (y.1.instant = x.2.1.instant) := by
    refine List.mem_filter.2 ⟨List.mem_map.2 ⟨x, hw.mem_iff.2 hx, by rw [hq]; rfl⟩, by simp⟩
  rw [hm, (fold_put_due _ _ (by simp [Keyed]) _).2]
  cases hf : (walk.map fun x => (x.2.1, x.2.2 * ((lookupN x.1 r.probs).map fun q => q.2).getD 0)).filter fun y => decide (y.1.instant = x.2.1.instant) with
  | nil => rw [hf] at hmem; cases hmem
  | cons y ys =>
    rw [hf] at hmem hfl
    have : ys = [] := List.length_eq_zero_iff.1 (by rw [List.length_cons] at hfl; omega)
    subst this
    rw [← List.mem_singleton.1 hmem]
    rfl

/-- A 2 % chance of 50 in 2022 and certainty of 3 in 2023. -/
example : let r : NpvResult := { npv := 0, amounts := [(0, day0 2022 1 1, 50), (1, day0 2023 1 1, 3)], probs := [(1, day0 2023 1 1, 1), (0, day0 2022 1 1, 0.02)] }
    Keyed (r.amounts.map fun x => x.2) ∧ ∃ e, expectedLoop r.probs r.amounts [] = .ok e ∧ dueAt e (day0 2022 1 1).instant = 1 := by
  dsimp only
  have hk : Keyed (([(0, day0 2022 1 1, 50), (1, day0 2023 1 1, 3)] : Numbered).map fun x => x.2) := by
    have : (day0 2022 1 1).instant ≠ (day0 2023 1 1).instant := by decide +kernel
    simp [Keyed, this]
  obtain ⟨h1, h2⟩ := C67_probability { npv := 0, amounts := [(0, day0 2022 1 1, 50), (1, day0 2023 1 1, 3)], probs := [(1, day0 2023 1 1, 1), (0, day0 2022 1 1, 0.02)] } _ (List.Perm.refl _)
  obtain ⟨e, he⟩ := h1.2 (by simp [lookupN])
  obtain ⟨q, hq, hd⟩ := h2 e he hk (0, day0 2022 1 1, 50) (List.mem_cons_self ..)
  refine ⟨hk, e, he, ?_⟩
  rw [hd]
  simp [lookupN] at hq
  rw [← hq]
  norm_num

/-- **C67** (swaps). For a swap the expected amounts exist too. At an instant at which not both legs pay they are the sum of
what the legs pay (the floating leg converted). At an instant at which both pay they are the amount of one leg only, which
one depending on the order of the walk, and both orders are possible. -/
theorem C67_swap (md : Mode) (p : SwapPricer) (s : Swap) (hne : s.eff.instant ≠ s.maturity.instant)
    (hc : Coherent (legDates s s.fixedLegs)) (hc' : Coherent (legDates s s.floatLegs)) (r : NpvResult)
    (h : p.result md s = .ok r) :
    ∃ m n, s.fixedFlows p.eval = .ok m ∧ s.floatFlows md p.mkt p.eval = .ok n ∧
      (∀ walk : Numbered, walk.Perm r.amounts → ∃ e, expectedLoop r.probs walk [] = .ok e ∧ Keyed e ∧ ∀ i,
        (¬ (PaysAt m i ∧ PaysAt n i) → dueAt e i = dueAt m i + dueAt n i * p.fx.getD 1) ∧
        (PaysAt m i ∧ PaysAt n i → dueAt e i = dueAt m i ∨ dueAt e i = dueAt n i * p.fx.getD 1)) ∧
      ∀ i, PaysAt m i ∧ PaysAt n i → ∃ w1 w2 e1 e2, w1.Perm r.amounts ∧ w2.Perm r.amounts ∧
        expectedLoop r.probs w1 [] = .ok e1 ∧ expectedLoop r.probs w2 [] = .ok e2 ∧
        dueAt e1 i = dueAt m i ∧ dueAt e2 i = dueAt n i * p.fx.getD 1 := by
  obtain ⟨m, n, hm, hn, ha, -, hp⟩ := (C65_result md p s hne hc hc').2 r h
  have hk := (C64_fixed s p.eval m hne hm).1
  have hk' := (C64_floating md s p.mkt p.eval n hne hn).1
  set n' : Flows := n.map fun x => (x.1, x.2 * p.fx.getD 1) with hn'
  have hkn : Keyed n' := by
    unfold Keyed
    rw [hn', List.map_map]
    exact hk'
  have hdn : ∀ i, dueAt n' i = dueAt n i * p.fx.getD 1 := by
    intro i
    rw [hn']
    clear hn hk' hn' hkn ha
    induction n with
    | nil => simp [dueAt_nil]
    | cons x n ih =>
      rw [List.map_cons, dueAt_cons, dueAt_cons, ih]
      by_cases e : x.1.instant = i
      · simp [e]; ring
      · simp [e]
  have hpn : ∀ i, PaysAt n' i ↔ PaysAt n i := by
    intro i
    unfold PaysAt
    rw [hn']
    constructor
    · rintro ⟨x, hx, e⟩
      obtain ⟨y, hy, rfl⟩ := List.mem_map.1 hx
      exact ⟨y, hy, e⟩
    · rintro ⟨y, hy, e⟩
      exact ⟨_, List.mem_map.2 ⟨y, hy, rfl⟩, e⟩
  have hpr : r.probs = certain r.amounts := hp
  have hexp : ∀ walk : Numbered, walk.Perm r.amounts →
      expectedLoop r.probs walk [] = .ok ((walk.map fun x => x.2).foldl (fun m x => putAt x.1 x.2 m) []) := by
    intro walk hw
    rw [hpr]
    exact expected_fold r.amounts walk (fun x hx => List.mem_map.2 ⟨x, hw.mem_iff.1 hx, rfl⟩) []
  refine ⟨m, n, hm, hn, ?_, ?_⟩
  · intro walk hw
    refine ⟨_, hexp walk hw, (fold_put_due _ _ (by simp [Keyed]) 0).1, fun i => ?_⟩
    rw [(fold_put_due _ _ (by simp [Keyed]) i).2]
    have hperm : (walk.map fun x => x.2).Perm (m ++ n') := by rw [← ha]; exact hw.map _
    have hf := hperm.filter fun x => decide (x.1.instant = i)
    rw [List.filter_append] at hf
    rcases filter_single m hk i with ⟨a1, a2, a3⟩ | ⟨a1, x, a2, a3, -⟩ <;>
      rcases filter_single n' hkn i with ⟨b1, b2, b3⟩ | ⟨b1, y, b2, b3, -⟩
    · rw [a2, b2] at hf
      rw [List.append_nil, List.perm_nil] at hf
      rw [hf, a3, ← hdn, b3]
      simp [dueAt_nil, a1]
    · rw [a2, b2] at hf
      rw [List.nil_append, List.perm_singleton] at hf
      rw [hf, a3, ← hdn, ← b3]
      simp [a1]
    · rw [a2, b2] at hf
      rw [List.append_nil, List.perm_singleton] at hf
      rw [hpn] at b1
      rw [hf, ← hdn, b3, ← a3]
      simp [b1]
    · rw [a2, b2] at hf
      rw [hpn] at b1
      refine ⟨fun q => absurd ⟨a1, b1⟩ q, fun _ => ?_⟩
      have h2 := hf.length_eq
      simp only [List.length_append, List.length_singleton] at h2
      obtain ⟨u, v, e⟩ := List.length_eq_two.1 h2
      rw [e] at hf ⊢
      have hv : v ∈ [x] ++ [y] := hf.mem_iff.1 (by simp)
      simp only [List.getLast?_cons, List.getLast?_nil, Option.getD_none, Option.getD_some]
      rcases List.mem_append.1 hv with q | q
      · left; rw [List.mem_singleton.1 q]; exact a3
      · right; rw [List.mem_singleton.1 q, ← hdn]; exact b3
  · intro i ⟨q1, q2⟩
    rw [← hpn] at q2
    -- the walk that ends with the entries of one leg
    have split : ∃ A B : Numbered, r.amounts = A ++ B ∧ A.map (fun x => x.2) = m ∧ B.map (fun x => x.2) = n' := by
      refine ⟨r.amounts.take m.length, r.amounts.drop m.length, (List.take_append_drop _ _).symm, ?_, ?_⟩
      · rw [List.map_take, ha, List.take_left']; rfl
      · rw [List.map_drop, ha, List.drop_left']; rfl
    obtain ⟨A, B, eAB, eA, eB⟩ := split
    have w1 : (B ++ A).Perm r.amounts := by rw [eAB]; exact List.perm_append_comm
    have w2 : (A ++ B).Perm r.amounts := by rw [eAB]
    refine ⟨B ++ A, A ++ B, _, _, w1, w2, hexp _ w1, hexp _ w2, ?_, ?_⟩
    · rw [(fold_put_due _ _ (by simp [Keyed]) i).2, List.map_append, eA, eB, List.filter_append]
      rcases filter_single m hk i with ⟨a1, -⟩ | ⟨-, x, a2, a3, -⟩
      · exact absurd q1 a1
      · rw [a2, List.getLast?_append]
        exact a3
    · rw [(fold_put_due _ _ (by simp [Keyed]) i).2, List.map_append, eA, eB, List.filter_append]
      rcases filter_single n' hkn i with ⟨a1, -⟩ | ⟨-, x, a2, a3, -⟩
      · exact absurd q2 a1
      · rw [a2, List.getLast?_append, ← hdn]
        exact a3

/-! ### A concrete swap -/

/-- A forward-starting interest rate swap with one coupon on each leg, both paid on 2022-01-01. -/
noncomputable def sampleSwap : Swap :=
  { fixedLegs := [{ fixing := day0 2021 7 1, start := day0 2021 7 1, stop := day0 2022 1 1, payment := day0 2022 1 1 }]
    floatLegs := [{ fixing := day0 2021 7 1, start := day0 2021 7 1, stop := day0 2022 1 1, payment := day0 2022 1 1 }]
    fixedRate := some 0.03, index := some ['6', 'M'], comp := none, hol := fun _ => .ok false, notional := 100
    issue := day0 2021 1 1, eff := day0 2021 7 1, maturity := day0 2022 1 1, fixedCcy := 0, floatCcy := 0
    initFixed := none, initFloat := none, lastFixed := none, lastFloat := none
    fixedDcc := .actual365Fixed, floatDcc := .actual365Fixed, fixGap := 0 }

/-- It has a kind, a value and a report, its legs pay at the same instant, and the hypotheses of the theorems on swaps hold
for it. -/
theorem swap_witness : ∃ c r m n, Curve.new .checked (day0 2021 1 1) [1] [0.03] = .ok c ∧
    SwapPricer.result .checked { eval := day0 2021 1 1, fixedCurve := c, floatCurve := c, mkt := { fwd := some { curve := c, eval := day0 2021 1 1 }, close := none }, fx := none } sampleSwap = .ok r ∧
    sampleSwap.fixedFlows (day0 2021 1 1) = .ok m ∧
    sampleSwap.floatFlows .checked { fwd := some { curve := c, eval := day0 2021 1 1 }, close := none } (day0 2021 1 1) = .ok n ∧
    PaysAt m (day0 2022 1 1).instant ∧ PaysAt n (day0 2022 1 1).instant ∧
    IsKind sampleSwap .irs ∧ sampleSwap.eff.instant ≠ sampleSwap.maturity.instant ∧
    Coherent (legDates sampleSwap sampleSwap.fixedLegs) ∧ Coherent (legDates sampleSwap sampleSwap.floatLegs) := by
  obtain ⟨c, e, ok, ⟨tl, htl, h99⟩, hdf⟩ := sample_curve 0.03
  have hne : sampleSwap.eff.instant ≠ sampleSwap.maturity.instant := by decide +kernel
  have hc1 : Coherent (legDates sampleSwap sampleSwap.fixedLegs) := coherent_of_offset _ 0 (by decide +kernel)
  have hc2 : Coherent (legDates sampleSwap sampleSwap.floatLegs) := coherent_of_offset _ 0 (by decide +kernel)
  have hq : timeDifference (day0 2021 1 1) (day0 2021 7 1) = 181 / 365 ∧ timeDifference (day0 2021 1 1) (day0 2022 1 1) = 1 := by
    decide +kernel
  -- the floating coupon
  have hamt : ∀ x ∈ sampleSwap.floatLegs, ∃ a, (floatEnv sampleSwap { fwd := some { curve := c, eval := day0 2021 1 1 }, close := none }
      { curve := c, eval := day0 2021 1 1 } (day0 2021 1 1) ['6', 'M']).amount .checked sampleSwap.comp none x = .ok a := by
    intro x hx
    rw [List.mem_singleton.1 hx]
    obtain ⟨-, -, -, s, -, -, -, es, -⟩ := C58_rates c ok tl htl (181 / 365) 1 (by norm_num) (by norm_num) (by linarith)
    have hs : Live.fwd { curve := c, eval := day0 2021 1 1 } (day0 2021 7 1) (day0 2022 1 1) = .ok s := by
      unfold Live.fwd
      rw [(C58_dates c _ _ _ .simple).2.1 (by decide +kernel), hq.1, hq.2]
      rw [show ((181 / 365 : ℚ) : ℝ) = 181 / 365 by norm_num, show ((1 : ℚ) : ℝ) = 1 by norm_num]
      exact es
    obtain ⟨f, hf⟩ : ∃ f, frac (day0 2021 7 1) (day0 2022 1 1) .actual365Fixed = .ok f := by
      obtain ⟨q, hq⟩ : ∃ q, yearFraction (day0 2021 7 1) (day0 2022 1 1) .actual365Fixed = .ok q :=
        (C45_error _ _ _).2 (by decide +kernel)
      exact ⟨_, (bind_ok_iff _ _ _).2 ⟨q, hq, rfl⟩⟩
    refine ⟨(s + 0) * f, (C66_simple _ _ _ _ _).2 ⟨s, f, ⟨day0 2022 1 1, by show addPeriod .checked (day0 2021 7 1) ['6', 'M'] = _; decide +kernel, fun _ => hs, fun q => ?_⟩, hf, rfl⟩⟩
    exact absurd q (by show ¬ (day0 2021 7 1).instant < (day0 2021 1 1).instant; decide +kernel)
  obtain ⟨m, hm⟩ : ∃ m, sampleSwap.fixedFlows (day0 2021 1 1) = .ok m :=
    (C64_defined .checked sampleSwap { fwd := none, close := none } (day0 2021 1 1)).1.2 (Or.inr (by
      intro x hx _
      rw [List.mem_singleton.1 hx]
      exact ⟨by decide +kernel, by decide⟩))
  obtain ⟨n, hn⟩ : ∃ n, sampleSwap.floatFlows .checked { fwd := some { curve := c, eval := day0 2021 1 1 }, close := none } (day0 2021 1 1) = .ok n :=
    (C64_defined .checked sampleSwap { fwd := some { curve := c, eval := day0 2021 1 1 }, close := none } (day0 2021 1 1)).2.2 (by
      intro t ht x hx _
      cases ht
      obtain ⟨a, ha⟩ := hamt x hx
      exact ⟨_, a, rfl, ha⟩)
  -- the only entry of each map
  have single : ∀ (amount : Coupon → Res ℝ) (k : Flows), flowLoop Coupon.payment amount (day0 2021 1 1) sampleSwap.fixedLegs [] = .ok k →
      ∃ a, k = [(day0 2022 1 1, a)] := by
    intro amount k hk
    rw [flowLoop_iff] at hk
    refine ⟨valOf (amount { fixing := day0 2021 7 1, start := day0 2021 7 1, stop := day0 2022 1 1, payment := day0 2022 1 1 }), hk.2.trans ?_⟩
    show (if (day0 2022 1 1).day < (day0 2021 1 1).day then ([] : Flows) else addTo (day0 2022 1 1) _ []) = _
    rw [if_neg (by decide +kernel)]
    rfl
  obtain ⟨a, rfl⟩ := single _ m hm
  obtain ⟨b, rfl⟩ := single _ n hn
  have hd : ∃ y, Live.df { curve := c, eval := day0 2021 1 1 } (day0 2022 1 1) = .ok y := by
    unfold Live.df
    rw [(C57_at_date c ok _ _).1, hq.2]
    obtain ⟨y, hy, -⟩ := hdf 1 (by norm_num) (by norm_num)
    exact ⟨y, by rw [show ((1 : ℚ) : ℝ) = 1 by norm_num]; exact hy⟩
  have hdisc : ∀ a : ℝ, ∃ v, discounted { curve := c, eval := day0 2021 1 1 } (day0 2021 1 1) [(day0 2022 1 1, a)] 0 = .ok v := by
    intro a
    exact ⟨_, (discounted_iff _ _ _ _ _).2 ⟨fun x hx _ => by rw [List.mem_singleton.1 hx]; exact hd, rfl⟩⟩
  obtain ⟨x, hx⟩ := hdisc a
  obtain ⟨y, hy⟩ := hdisc b
  refine ⟨c, _, _, _, e, (swap_result_iff _ _ _ _).2 ⟨_, _, x, y, ⟨hm, hn, hx, hy⟩, rfl⟩, hm, hn, ?_, ?_, ?_, hne, hc1, hc2⟩
  · exact ⟨_, List.mem_singleton.2 rfl, rfl⟩
  · exact ⟨_, List.mem_singleton.2 rfl, rfl⟩
  · exact ⟨⟨rfl, rfl⟩, ⟨rfl, rfl⟩, ⟨by simp [sampleSwap], by simp [sampleSwap]⟩, rfl⟩

end Verif.Props

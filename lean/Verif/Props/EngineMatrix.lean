import Verif.Props.EngineVega
/-!
# C96: the vega matrix
-/
set_option autoImplicit false
namespace Verif.Props
open Verif Verif.QL Verif.Civil

/-! ## Specification -/

/-- The time `t` and the moneyness `x` are in the cell of tenor `c.1` and moneyness `c.2`: above the tenor and the moneyness before (if there
are any), up to these, all limits moved by 0.0001. -/
def InCell (times mon : List ℝ) (c : Nat × Nat) (t x : ℝ) : Prop :=
  FromTenor times c.1 t ∧ (∀ z, times[c.1]? = some z → t ≤ z + 1e-4) ∧ FromTenor mon c.2 x ∧ ∀ z, mon[c.2]? = some z → x ≤ z + 1e-4

/-- The cells in the order in which they are raised: by rows, from the last tenor to the first, without those starting after `T`; in a row by
moneyness. -/
noncomputable def matrixOrder (times : List ℝ) (T : ℝ) (cols : Nat) : List (Nat × Nat) :=
  (List.range times.length).reverse.flatMap fun i => open Classical in if TenorBeyond times T i then [] else (List.range cols).map fun j => (i, j)

/-- A vega matrix. With `z k` the npv when the first `k` cells of `order` are `b` higher (`z 0` the plain npv), the number of a cell is the
difference its raising makes; cells not raised have 0. -/
def VegaMatrix (g : EngCfg) (M : Mkt) (u : String) (b : ℝ) (times mon : List ℝ) (order : List (Nat × Nat)) (i : Instr) (npv : Option NpvResult)
    (tbl : List (List ℝ)) : Prop :=
  ∃ (v : NpvResult) (z : Nat → ℝ), npv = some v ∧ b ≠ 0 ∧ z 0 = v.npv ∧
    (∀ k, k < order.length → ∃ m, VolShifted u (fun t x => ∃ c ∈ order.take (k + 1), InCell times mon c t x) b M m ∧ g.npv i m = .ok (z (k + 1))) ∧
    tbl.length = times.length ∧ (∀ row ∈ tbl, row.length = mon.length) ∧
    (∀ (k : Nat) c, order[k]? = some c → cell tbl c.1 c.2 = some ((z (k + 1) - z k) / b * 0.01 * i.notional)) ∧
    ∀ (a j : Nat), a < times.length → j < mon.length → (a, j) ∉ order → cell tbl a j = some 0

/-! ## The order of the cells -/

theorem cellOrder_aux (times : List ℝ) (T : ℝ) (cols : Nat) : ∀ n, cellOrder times T cols n =
    (List.range n).reverse.flatMap fun i => open Classical in if TenorBeyond times T i then [] else (List.range cols).map fun j => (i, j)
  | 0 => rfl
  | n + 1 => by
    unfold cellOrder
    rw [cellOrder_aux times T cols n, List.range_succ, List.reverse_append, List.flatMap_append]
    congr 1
    simp only [List.reverse_cons, List.reverse_nil, List.nil_append, List.flatMap_cons, List.flatMap_nil, List.append_nil]
    by_cases h : TenorBeyond times T n
    · rw [if_pos h, if_pos ((beyond_iff _ _ _).2 h)]
    · rw [if_neg h, if_neg fun q => h ((beyond_iff _ _ _).1 q)]

theorem mem_order (times : List ℝ) (T : ℝ) (cols : Nat) (c : Nat × Nat) :
    c ∈ matrixOrder times T cols ↔ c.1 < times.length ∧ ¬ TenorBeyond times T c.1 ∧ c.2 < cols := by
  unfold matrixOrder
  simp only [List.mem_flatMap, List.mem_reverse, List.mem_range]
  constructor
  · rintro ⟨i, hi, hc⟩
    by_cases h : TenorBeyond times T i
    · rw [if_pos h] at hc; simp at hc
    · rw [if_neg h] at hc
      obtain ⟨j, hj, rfl⟩ := List.mem_map.1 hc
      exact ⟨hi, h, List.mem_range.1 hj⟩
  · rintro ⟨h1, h2, h3⟩
    refine ⟨c.1, h1, ?_⟩
    rw [if_neg h2]
    exact List.mem_map.2 ⟨c.2, List.mem_range.2 h3, rfl⟩

theorem nodup_order (times : List ℝ) (T : ℝ) (cols : Nat) : (matrixOrder times T cols).Nodup := by
  unfold matrixOrder
  rw [List.nodup_flatMap]
  refine ⟨fun i _ => ?_, ?_⟩
  · by_cases h : TenorBeyond times T i
    · rw [if_pos h]; exact List.nodup_nil
    · rw [if_neg h]
      exact List.nodup_range.map fun a b h => by simpa using h
  · refine (List.nodup_reverse.2 List.nodup_range).imp ?_
    intro a b hab x hx hy
    have e1 : x.1 = a := by
      by_cases h : TenorBeyond times T a
      · simp only [if_pos h] at hx; simp at hx
      · simp only [if_neg h] at hx; obtain ⟨j, -, rfl⟩ := List.mem_map.1 hx; rfl
    have e2 : x.1 = b := by
      by_cases h : TenorBeyond times T b
      · simp only [if_pos h] at hy; simp at hy
      · simp only [if_neg h] at hy; obtain ⟨j, -, rfl⟩ := List.mem_map.1 hy; rfl
    exact hab (e1.symm.trans e2)

theorem inCell_iff (times mon : List ℝ) (c : Nat × Nat) (t x : ℝ) :
    InCell times mon c t x ↔ InWindow (startOf times c.1) times[c.1]? t ∧ InWindow (startOf mon c.2) mon[c.2]? x := by
  rw [window_start, window_start]
  unfold InCell
  tauto

theorem window_disjoint (l : List ℝ) (hs : l.Pairwise (· < ·)) (a b : Nat) (hb : b < l.length) (hab : a < b) (t : ℝ) :
    ¬ ((∀ z, l[a]? = some z → t ≤ z + 1e-4) ∧ FromTenor l b t) := by
  rintro ⟨h1, h2⟩
  have q1 := h1 _ (List.getElem?_eq_getElem (by omega : a < l.length))
  have q2 := h2 _ (by omega) (List.getElem?_eq_getElem (by omega : b - 1 < l.length))
  rcases Nat.lt_or_ge a (b - 1) with h | h
  · have := List.pairwise_iff_getElem.1 hs a (b - 1) (by omega) (by omega) h
    linarith
  · obtain rfl : a = b - 1 := by omega
    linarith

theorem cells_disjoint (times mon : List ℝ) (hs : times.Pairwise (· < ·)) (hm : mon.Pairwise (· < ·)) (c d : Nat × Nat) (hc : c.1 < times.length ∧ c.2 < mon.length)
    (hd : d.1 < times.length ∧ d.2 < mon.length) (hne : c ≠ d) (t x : ℝ) : ¬ (InCell times mon c t x ∧ InCell times mon d t x) := by
  rintro ⟨⟨a1, a2, a3, a4⟩, b1, b2, b3, b4⟩
  rcases Nat.lt_trichotomy c.1 d.1 with h | h | h
  · exact window_disjoint times hs _ _ hd.1 h t ⟨a2, b1⟩
  · rcases Nat.lt_trichotomy c.2 d.2 with h' | h' | h'
    · exact window_disjoint mon hm _ _ hd.2 h' x ⟨a4, b3⟩
    · exact hne (Prod.ext h h')
    · exact window_disjoint mon hm _ _ hc.2 h' x ⟨b4, a3⟩
  · exact window_disjoint times hs _ _ hc.1 h t ⟨b2, a1⟩

/-- Every number of a grid is in one of its windows. -/
theorem window_exists (l : List ℝ) (hs : l.Pairwise (· < ·)) (t : ℝ) (ht : t ∈ l) : ∃ k, k < l.length ∧ FromTenor l k t ∧ ∀ z, l[k]? = some z → t ≤ z + 1e-4 := by
  have key : ∀ n, n ≤ l.length → ¬ FromTenor l n t → ∃ k, k < n ∧ FromTenor l k t ∧ ∀ z, l[k]? = some z → t ≤ z + 1e-4 := by
    intro n
    induction n with
    | zero => exact fun _ h => absurd (fromTenor_zero l t) h
    | succ n ih =>
      intro hn h
      by_cases hf : FromTenor l n t
      · refine ⟨n, by omega, hf, fun z hz => ?_⟩
        by_contra hc
        refine h fun s _ hs' => ?_
        rw [show n + 1 - 1 = n from rfl, hz] at hs'
        obtain rfl := Option.some.inj hs'
        exact not_le.1 hc
      · obtain ⟨k, hk, q⟩ := ih (by omega) hf
        exact ⟨k, by omega, q⟩
  exact key l.length (le_refl _) (fromTenor_last l hs t ht)

/-- If no row is left out, every point of the grid is in a cell. -/
theorem order_covers (times mon : List ℝ) (hs : times.Pairwise (· < ·)) (hm : mon.Pairwise (· < ·)) (T : ℝ) (hT : ∀ k, k < times.length → ¬ TenorBeyond times T k)
    (t x : ℝ) (ht : t ∈ times) (hx : x ∈ mon) : ∃ c ∈ matrixOrder times T mon.length, InCell times mon c t x := by
  obtain ⟨a, a1, a2, a3⟩ := window_exists times hs t ht
  obtain ⟨j, j1, j2, j3⟩ := window_exists mon hm x hx
  exact ⟨(a, j), (mem_order _ _ _ _).2 ⟨a1, hT a a1, j1⟩, a2, a3, j2, j3⟩

/-! ## Cells -/

theorem cell_setCell (tbl : List (List ℝ)) (i j : Nat) (v : ℝ) (hi : i < tbl.length) (hj : ∀ row ∈ tbl, j < row.length) :
    cell (setCell tbl i j v) i j = some v ∧ (∀ a b, (a, b) ≠ (i, j) → cell (setCell tbl i j v) a b = cell tbl a b) ∧
    (setCell tbl i j v).length = tbl.length ∧ ∀ n, (∀ row ∈ tbl, row.length = n) → ∀ row ∈ setCell tbl i j v, row.length = n := by
  unfold setCell
  rw [List.getElem?_eq_getElem hi]
  have hjr := hj _ (List.getElem_mem hi)
  refine ⟨?_, fun a b hab => ?_, by simp, fun n hn row hrow => ?_⟩
  · unfold cell
    simp only [List.getElem?_set_self hi, Option.bind_eq_bind, Option.bind_some, List.getElem?_set_self hjr]
  · unfold cell
    by_cases ha : a = i
    · subst ha
      have hb : b ≠ j := fun e => hab (by rw [e])
      simp only [List.getElem?_set_self hi, Option.bind_eq_bind, Option.bind_some]
      rw [List.getElem?_set_ne (Ne.symm hb), List.getElem?_eq_getElem hi, Option.bind_some]
    · simp only [List.getElem?_set_ne (Ne.symm ha)]
  · rcases List.mem_or_eq_of_mem_set hrow with h | rfl
    · exact hn row h
    · rw [List.length_set]
      exact hn _ (List.getElem_mem hi)

theorem setCell_twice (tbl : List (List ℝ)) (i j : Nat) (v : ℝ) : setCell (setCell tbl i j v) i j v = setCell tbl i j v := by
  unfold setCell
  cases h : tbl[i]? with
  | none => simp only [h]
  | some row =>
    have hi : i < tbl.length := (List.getElem?_eq_some_iff.1 h).1
    simp only [List.getElem?_set_self hi, List.set_set]

/-! ## The loop -/

theorem take_succ_cons {α : Type} (done : List α) (c : α) (l : List α) (k : Nat) : done ++ (c :: l).take (k + 1) = done ++ [c] ++ l.take k := by
  simp

theorem matrixLoop_spec (g : EngCfg) (hg : OwnCodes g) (u : String) (act : List Instr) (ha : Among g act) (codes : List String)
    (hcodes : ∀ i ∈ act, i.code ∈ codes) (times mon : List ℝ) (M : Mkt)
    (s0 : Surf) (hs0 : M.vols u = some (.surface s0)) (hsort : times.Pairwise (· < ·)) (hmon : mon.Pairwise (· < ·)) :
    ∀ (cells done : List (Nat × Nat)) (m : Mkt) (prev : Map String ℝ) (t : Map String (List (List ℝ))) (r : Results) (m' : Mkt) (t' : Map String (List (List ℝ))) (r' : Results),
    (done ++ cells).Nodup → (∀ c ∈ done ++ cells, c.1 < times.length ∧ c.2 < mon.length) →
    VolShifted u (fun t x => ∃ c ∈ done, InCell times mon c t x) g.conf.vegaSBump M m → GoodVols m →
    matrixLoop g u act codes times mon cells m prev t r = .ok (m', t', r') →
    VolShifted u (fun t x => ∃ c ∈ done ++ cells, InCell times mon c t x) g.conf.vegaSBump M m' ∧ GoodVols m' ∧
    (∀ c, c ∉ codes → r' c = r c) ∧ (∀ c, c ∉ act.map Instr.code → t' c = t c) ∧
    (∀ i ∈ act, ∀ z0 L x, prev i.code = some z0 → t i.code = some L → r i.code = some x → L.length = times.length → (∀ row ∈ L, row.length = mon.length) →
      ∃ (z : Nat → ℝ) (L' : List (List ℝ)), z 0 = z0 ∧
        (∀ k, k < cells.length → g.conf.vegaSBump ≠ 0 ∧
          ∃ m, VolShifted u (fun t x => ∃ c ∈ done ++ cells.take (k + 1), InCell times mon c t x) g.conf.vegaSBump M m ∧ g.npv i m = .ok (z (k + 1))) ∧
        L'.length = times.length ∧ (∀ row ∈ L', row.length = mon.length) ∧ t' i.code = some L' ∧
        (∀ (k : Nat) c, cells[k]? = some c → cell L' c.1 c.2 = some ((z (k + 1) - z k) / g.conf.vegaSBump * 0.01 * i.notional)) ∧
        (∀ (a j : Nat), (a, j) ∉ cells → cell L' a j = cell L a j) ∧
        r' i.code = some (if cells = [] then x else { x with vegaM := x.vegaM.put u L' })) ∧
    ∀ c ∈ codes, c ∉ act.map Instr.code → ∀ x L, r c = some x → t c = some L → r' c = some (if cells = [] then x else { x with vegaM := x.vegaM.put u L }) := by
  intro cells
  induction cells with
  | nil =>
    intro done m prev t r m' t' r' _ _ hm hgm h
    obtain ⟨rfl, h'⟩ := Prod.mk.inj (Except.ok.inj h)
    obtain ⟨rfl, rfl⟩ := Prod.mk.inj h'
    refine ⟨by simpa using hm, hgm, fun _ _ => rfl, fun _ _ => rfl, fun i _ z0 L x _ hL hx h1 h2 => ⟨fun _ => z0, L, rfl, fun k hk => by simp at hk, h1, h2, hL,
      fun k c hc => by simp at hc, fun _ _ _ => rfl, ?_⟩, fun c _ _ x L hx _ => ?_⟩
    · rw [if_pos rfl]; exact hx
    · rw [if_pos rfl]; exact hx
  | cons c cells ih =>
    obtain ⟨ci, cj⟩ := c
    intro done m prev t r m' t' r' hnd hin hm hgm h
    unfold matrixLoop at h
    obtain ⟨m1, h1, h⟩ := (bind_ok_iff _ _ _).1 h
    obtain ⟨ups, h2, h⟩ := (bind_ok_iff _ _ _).1 h
    obtain ⟨t1, h3, h⟩ := (bind_ok_iff _ _ _).1 h
    obtain ⟨r1, h4, h⟩ := (bind_ok_iff _ _ _).1 h
    have hcin := hin (ci, cj) (by simp)
    obtain ⟨q1, q2⟩ := volShifted_step u _ M m m1 s0 hs0 hgm _ (fun t x => ∃ c ∈ done ++ [(ci, cj)], InCell times mon c t x) _ _ _ _ hm h1 fun t _ x _ => by
      rw [← inCell_iff times mon (ci, cj) t x]
      refine ⟨?_, ?_⟩
      · constructor
        · rintro ⟨d, hd, q⟩
          rcases List.mem_append.1 hd with hd | hd
          · exact Or.inl ⟨d, hd, q⟩
          · obtain rfl := List.mem_singleton.1 hd
            exact Or.inr q
        · rintro (⟨d, hd, q⟩ | q)
          · exact ⟨d, List.mem_append_left _ hd, q⟩
          · exact ⟨_, List.mem_append_right _ (List.mem_singleton.2 rfl), q⟩
      · rintro ⟨⟨d, hd, q⟩, q'⟩
        refine cells_disjoint times mon hsort hmon d (ci, cj) (hin d (List.mem_append_left _ hd)) hcin ?_ t x ⟨q, q'⟩
        rintro rfl
        exact (List.nodup_append.1 hnd).2.2 _ hd _ (List.mem_cons_self) rfl
    obtain ⟨n1, -⟩ := getNpvs_spec g hg _ _ _ _ ha h2
    obtain ⟨s1, s2⟩ := tableLoop_spec g hg (fun x v => setCell x ci cj v) (fun x v => setCell_twice x ci cj v) ups _ _ _ act t t1 ha h3
    obtain ⟨w1, w2⟩ := writeTables_spec (fun (x : EResult) v => { x with vegaM := x.vegaM.put u v }) (fun x v w => by simp only [put_put]) t1 _ _ _ h4
    have hsplit : done ++ (ci, cj) :: cells = (done ++ [(ci, cj)]) ++ cells := by simp
    rw [hsplit] at hnd hin
    obtain ⟨p1, p2, p3, p4, p5, p6⟩ := ih (done ++ [(ci, cj)]) m1 ups t1 r1 m' t' r' hnd hin q1 q2 h
    have hne : (ci, cj) :: cells ≠ [] := List.cons_ne_nil _ _
    refine ⟨by rw [hsplit]; exact p1, p2, fun c hc => (p3 c hc).trans (w2 c hc), fun c hc => (p4 c hc).trans (s2 c hc), fun i hi z0 L x hz hL hx hl hr => ?_,
      fun c hc hca x L hx hL => ?_⟩
    · obtain ⟨up, v, L0, a1, a2, a3, a4, a5⟩ := s1 i hi
      rw [hL] at a4
      obtain rfl := Option.some.inj a4
      rw [orErr_eq, hz] at a2
      obtain rfl := Option.some.inj a2
      obtain ⟨up', b1, b2⟩ := n1 i hi
      rw [a1] at b2
      obtain rfl := Option.some.inj b2
      obtain ⟨v', x', c1, c2, c3⟩ := w1 i.code (hcodes i hi)
      rw [a5] at c1
      obtain rfl := Option.some.inj c1
      rw [hx] at c2
      obtain rfl := Option.some.inj c2
      obtain ⟨k1, k2, k3, k4⟩ := cell_setCell L ci cj ((up - z0) / g.conf.vegaSBump * 0.01 * i.notional) (by rw [hl]; exact hcin.1) (fun row hrow => by rw [hr row hrow]; exact hcin.2)
      obtain ⟨z, L', e1, e2, e3, e4, e5, e6, e7, e8⟩ := p5 i hi up _ _ a1 a5 c3 (k3.trans hl) (k4 _ hr)
      refine ⟨fun k => if k = 0 then z0 else z (k - 1), L', rfl, fun k hk => ?_, e3, e4, e5, fun k c hc => ?_, fun a j haj => ?_, ?_⟩
      · dsimp only
        rw [if_neg (Nat.succ_ne_zero k), take_succ_cons]
        cases k with
        | zero =>
          refine ⟨a3, m1, ?_, by rw [show 0 + 1 - 1 = 0 from rfl, e1]; exact b1⟩
          simpa using q1
        | succ k => exact e2 k (by simpa using hk)
      · cases k with
        | zero =>
          obtain rfl := Option.some.inj hc
          have hnot : (ci, cj) ∉ cells := fun hmem => by
            rw [← hsplit] at hnd
            exact (List.nodup_cons.1 (List.nodup_append.1 hnd).2.1).1 hmem
          rw [e7 ci cj hnot, k1]
          simp [e1]
        | succ k =>
          dsimp only
          rw [if_neg (Nat.succ_ne_zero _), if_neg (Nat.succ_ne_zero _)]
          exact e6 k c hc
      · rw [e7 a j fun h => haj (List.mem_cons_of_mem _ h), k2 a j fun e => haj (by rw [e]; simp)]
      · rw [e8, if_neg hne]
        by_cases h0 : cells = []
        · rw [if_pos h0]
          have : L' = setCell L ci cj ((up - z0) / g.conf.vegaSBump * 0.01 * i.notional) := by
            refine cells_ext times.length mon.length _ _ e3 (k3.trans hl) e4 (k4 _ hr) fun a j _ _ => e7 a j (by rw [h0]; simp)
          rw [this]
        · rw [if_neg h0]
          simp only [put_put]
    · obtain ⟨v', x', c1, c2, c3⟩ := w1 c hc
      rw [s2 c hca, hL] at c1
      obtain rfl := Option.some.inj c1
      rw [hx] at c2
      obtain rfl := Option.some.inj c2
      rw [p6 c hc hca _ L c3 (by rw [s2 c hca]; exact hL), if_neg hne]
      by_cases h0 : cells = []
      · rw [if_pos h0]
      · rw [if_neg h0]
        simp only [put_put]


/-- The opposite bump of everything: what was shifted is back, the rest is lower. -/
theorem volShifted_minus (u : String) (b : ℝ) (M m m' : Mkt) (s0 : Surf) (hs0 : M.vols u = some (.surface s0)) (hg : GoodVols m) (w w' : ℝ → ℝ → Prop)
    (h : VolShifted u w b M m) (hb : m.bumpVol u none none none none (-b) = .ok m') (hw : ∀ t ∈ s0.times, ∀ x ∈ s0.mon, (w' t x ↔ ¬ w t x)) :
    VolShifted u w' (-b) M m' ∧ GoodVols m' := by
  obtain ⟨g1, -, g3⟩ := bumpVol_spec m m' hg u none none none none (-b) hb
  refine ⟨?_, g3⟩
  obtain ⟨s, s1, env, a1, a2, a3, a4, a5, a6, rfl⟩ := h
  obtain ⟨s1', s2, env', b1, b2, b3, b4, b5, b6, rfl⟩ := g1
  simp only [put_self] at b1
  obtain rfl := Vol.surface.inj (Option.some.inj b1)
  rw [env_vols, a2] at b2
  obtain rfl := Except.ok.inj b2
  rw [hs0] at a1
  obtain rfl := Vol.surface.inj (Option.some.inj a1)
  refine ⟨s0, s2, env, hs0, a2, b3, b4, ?_, fun i j t x v h1 h2 h3 => ?_, ?_⟩
  · rw [b5, a5]
  · have c1 := a6 i j t x v h1 h2 h3
    have c2 := b6 i j t x _ (by rw [a5]; exact h1) (by rw [a5]; exact h2) c1
    rw [c2, if_pos ⟨⟨by simp, by simp⟩, by simp, by simp⟩]
    have q := hw t (List.mem_of_getElem? h1) x (List.mem_of_getElem? h2)
    by_cases hc : w t x
    · rw [if_pos hc, if_neg fun hq => q.1 hq hc]
      congr 1; ring
    · rw [if_neg hc, if_pos (q.2 hc)]
  · simp only [put_put]

/-- A shift does not depend on the volatilities of other underlyings. -/
theorem volShifted_move (u : String) (w : ℝ → ℝ → Prop) (b : ℝ) (M M2 m : Mkt) (h : VolShifted u w b M m) (h2 : M2 = { M with vols := M2.vols }) (hu : M2.vols u = M.vols u) :
    ∃ m2, VolShifted u w b M2 m2 ∧ m2.vols u = m.vols u := by
  obtain ⟨s, s1, env, a1, a2, a3, a4, a5, a6, rfl⟩ := h
  refine ⟨{ M2 with vols := M2.vols.put u (.surface s1) }, ⟨s, s1, env, by rw [hu]; exact a1, by rw [h2, env_vols]; exact a2, a3, a4, a5, a6, rfl⟩, ?_⟩
  simp only [put_self]

/-! ## Specification of the part -/

/-- The instrument has the underlying `u` and is no cash, stock or future. -/
def OnVol (i : Instr) (u : String) : Prop := u ∈ i.unds ∧ i.typeName ≠ "Cash" ∧ i.typeName ≠ "Stock" ∧ i.typeName ≠ "Futures"

/-- The time `t` is in no row raised: none up to the first one starting after `T`. -/
def NotRaised (times : List ℝ) (T t : ℝ) : Prop :=
  ∀ k, k < times.length → ¬ TenorBeyond times T k → ¬ (FromTenor times k t ∧ ∀ z, times[k]? = some z → t ≤ z + 1e-4)

/-- The market afterwards: only volatilities are different, those of the underlyings in `us`; of each only the rows not raised, which are `b`
lower. -/
def LoweredTails (g : EngCfg) (us : List String) (times : List ℝ) (M M' : Mkt) : Prop :=
  M' = { M with vols := M'.vols } ∧ ∀ u,
    (u ∈ us → (∃ i ∈ g.insts, OnVol i u) → ∃ T m, DoneBy M.w.date (fun j => j ∈ g.insts ∧ OnVol j u) T ∧
      VolShifted u (fun t _ => NotRaised times T t) (-g.conf.vegaSBump) M m ∧ M'.vols u = m.vols u) ∧
    (¬ (u ∈ us ∧ ∃ i ∈ g.insts, OnVol i u) → M'.vols u = M.vols u)

theorem onVol_unique (i : Instr) (u w : String) (h1 : OnVol i u) (h2 : OnVol i w) : u = w := by
  have h1 := h1.1
  have h2 := h2.1
  unfold Instr.unds at h1 h2
  split at h1 <;> simp_all

theorem onVol_act (g : EngCfg) (u : String) (i : Instr) : i ∈ withUnderlying g.insts u ["Cash", "Stock", "Futures"] ↔ i ∈ g.insts ∧ OnVol i u := by
  rw [withUnderlying_mem]
  unfold OnVol
  simp

theorem order_ne (times mon : List ℝ) (T : ℝ) (h1 : times ≠ []) (h2 : mon ≠ []) : matrixOrder times T mon.length ≠ [] := by
  have : ((0, 0) : Nat × Nat) ∈ matrixOrder times T mon.length :=
    (mem_order _ _ _ _).2 ⟨List.length_pos_iff.2 h1, fun h => absurd h.1 (lt_irrefl _), List.length_pos_iff.2 h2⟩
  exact List.ne_nil_of_mem this

/-- Surfaces on a grid: the times `times` and the moneynesses `mon`. -/
def OnGrid (M : Mkt) (times mon : List ℝ) : Prop := ∀ u s, M.vols u = some (.surface s) → s.times = times ∧ s.mon = mon

theorem matrixNames_spec (g : EngCfg) (hg : OwnCodes g) (times : List ℝ) : ∀ (us codes : List String) (t : Map String (List (List ℝ))) (e e' : Eng),
    us.Nodup → (∀ c ∈ codes, ∃ L, t c = some L) → (∀ u ∈ us, ∀ i ∈ g.insts, OnVol i u → i.code ∉ codes) → GoodVols e.mkt → OnGrid e.mkt times g.conf.moneyness →
    matrixNames g times us codes t e = .ok e' →
    LoweredTails g us times e.mkt e'.mkt ∧ GoodVols e'.mkt ∧
    (∀ c, c ∉ codes → (∀ i ∈ g.insts, ∀ u ∈ us, OnVol i u → i.code ≠ c) → e'.results c = e.results c) ∧
    (∀ c ∈ codes, ∀ x L, e.results c = some x → t c = some L → ∃ y, e'.results c = some y ∧ y = { x with vegaM := y.vegaM } ∧
      ∀ w, ((w ∈ us ∧ ∃ i ∈ g.insts, OnVol i w) → y.vegaM w = some L) ∧ (¬ (w ∈ us ∧ ∃ i ∈ g.insts, OnVol i w) → y.vegaM w = x.vegaM w)) ∧
    ∀ i ∈ g.insts, ∀ pre u suf, us = pre ++ u :: suf → OnVol i u → ∀ x, e.results i.code = some x →
      ∃ T Mu y L, e'.results i.code = some y ∧ y = { x with vegaM := y.vegaM } ∧ y.vegaM u = some L ∧
        DoneBy e.mkt.w.date (fun j => j ∈ g.insts ∧ OnVol j u) T ∧ Mu = { e.mkt with vols := Mu.vols } ∧ Mu.vols u = e.mkt.vols u ∧
        (∀ w, Mu.vols w = e.mkt.vols w ∨ Mu.vols w = e'.mkt.vols w) ∧
        VegaMatrix g Mu u g.conf.vegaSBump times g.conf.moneyness (matrixOrder times T g.conf.moneyness.length) i x.npv L ∧
        ∀ w, w ≠ u → ((w ∈ suf ∧ ∃ j ∈ g.insts, OnVol j w) → y.vegaM w = some L) ∧ (¬ (w ∈ suf ∧ ∃ j ∈ g.insts, OnVol j w) → y.vegaM w = x.vegaM w) := by
  intro us
  induction us with
  | nil =>
    intro codes t e e' _ _ _ hM _ h
    obtain rfl := Except.ok.inj h
    refine ⟨⟨rfl, fun u => ⟨by simp, fun _ => rfl⟩⟩, hM, fun _ _ _ => rfl, fun c _ x L hx _ => ⟨x, hx, rfl, fun w => ⟨by simp, fun _ => rfl⟩⟩, fun i _ pre u suf hp => ?_⟩
    simp at hp
  | cons u us ih =>
    intro codes t e e' hnd hcod hdis hM hgrid h
    unfold matrixNames at h
    dsimp only at h
    obtain ⟨hu, hnd⟩ := List.nodup_cons.1 hnd
    by_cases hact : (withUnderlying g.insts u ["Cash", "Stock", "Futures"]).isEmpty
    · rw [if_pos hact] at h
      have hno : ¬ ∃ i ∈ g.insts, OnVol i u := by
        rintro ⟨i, hi⟩
        have := (onVol_act g u i).2 hi
        rw [List.isEmpty_iff.1 hact] at this
        simp at this
      have hiff : ∀ w, (w ∈ u :: us ∧ ∃ i ∈ g.insts, OnVol i w) ↔ (w ∈ us ∧ ∃ i ∈ g.insts, OnVol i w) := by
        intro w
        refine ⟨fun ⟨h1, h2⟩ => ?_, fun ⟨h1, h2⟩ => ⟨List.mem_cons_of_mem _ h1, h2⟩⟩
        rcases List.mem_cons.1 h1 with rfl | h1
        · exact absurd h2 hno
        · exact ⟨h1, h2⟩
      obtain ⟨⟨a1, a2⟩, b, c1, c2, d⟩ := ih codes t { e with action := [] } e' hnd hcod (fun w hw => hdis w (List.mem_cons_of_mem _ hw)) hM hgrid h
      refine ⟨⟨a1, fun w => ⟨fun h1 h2 => ?_, fun hn => (a2 w).2 fun hc => hn ((hiff w).2 hc)⟩⟩, b, fun c hc hcc => c1 c hc fun i hi w hw => hcc i hi w (List.mem_cons_of_mem _ hw), ?_, ?_⟩
      · obtain ⟨q1, q2⟩ := (hiff w).1 ⟨h1, h2⟩
        exact (a2 w).1 q1 q2
      · intro c hc x L hx hL
        obtain ⟨y, y1, y2, y3⟩ := c2 c hc x L hx hL
        exact ⟨y, y1, y2, fun w => ⟨fun hw => (y3 w).1 ((hiff w).1 hw), fun hw => (y3 w).2 fun hc => hw ((hiff w).2 hc)⟩⟩
      · intro i hi pre w suf hp hiw x hx
        cases pre with
        | nil =>
          obtain ⟨rfl, -⟩ := List.cons.inj hp
          exact absurd ⟨i, hi, hiw⟩ hno
        | cons p pre => exact d i hi pre w suf (List.cons.inj hp).2 hiw x hx
    · rw [if_neg hact] at h
      obtain ⟨prev, h1, h⟩ := (bind_ok_iff _ _ _).1 h
      obtain ⟨⟨m1, t1, r1⟩, h2, h⟩ := (bind_ok_iff _ _ _).1 h
      obtain ⟨m2, h3, h4⟩ := (bind_ok_iff _ _ _).1 h
      clear h
      have hactm := onVol_act g u
      generalize hA : withUnderlying g.insts u ["Cash", "Stock", "Futures"] = act at *
      have hne : act ≠ [] := fun hc => hact (List.isEmpty_iff.2 hc)
      have ham : Among g act := fun i hi => ((hactm i).1 hi).1
      have hsome : ∃ i ∈ g.insts, OnVol i u := by
        obtain ⟨i, hi⟩ := List.exists_mem_of_ne_nil _ hne
        exact ⟨i, (hactm i).1 hi⟩
      -- the surface
      have hs : ∃ s, e.mkt.vols u = some (.surface s) := by
        have hb : ∀ t1 t2 x1 x2 b k, e.mkt.bumpVol u t1 t2 x1 x2 b = .ok k → ∃ s, e.mkt.vols u = some (.surface s) := by
          intro t1 t2 x1 x2 b k hk
          unfold Mkt.bumpVol at hk
          obtain ⟨v, hv, -⟩ := (bind_ok_iff _ _ _).1 hk
          rw [orErr_eq] at hv
          obtain ⟨s, _, _, rfl, -⟩ := hM u v hv
          exact ⟨s, hv⟩
        cases ho : cellOrder times (longestTime e.mkt.w.date act) g.conf.moneyness.length times.length with
        | nil =>
          rw [ho] at h2
          obtain ⟨rfl, -⟩ := Prod.mk.inj (Except.ok.inj h2)
          exact hb _ _ _ _ _ _ h3
        | cons c cells =>
          rw [ho] at h2
          unfold matrixLoop at h2
          obtain ⟨k, hk, -⟩ := (bind_ok_iff _ _ _).1 h2
          exact hb _ _ _ _ _ _ hk
      obtain ⟨s0, hs0⟩ := hs
      obtain ⟨hgt, hgm⟩ := hgrid u s0 hs0
      obtain ⟨_, _, _, es, _, hgood, _⟩ := hM u _ hs0
      obtain rfl := Vol.surface.inj es
      have hsort : times.Pairwise (· < ·) := hgt ▸ hgood.times
      have hmon : g.conf.moneyness.Pairwise (· < ·) := hgm ▸ hgood.mon
      have hT := longestTime_spec e.mkt.w.date act hne
      have hP : (fun j => j ∈ act) = fun j => j ∈ g.insts ∧ OnVol j u := funext fun j => propext (hactm j)
      rw [hP] at hT
      rw [show cellOrder times (longestTime e.mkt.w.date act) g.conf.moneyness.length times.length = matrixOrder times (longestTime e.mkt.w.date act) g.conf.moneyness.length from
        cellOrder_aux _ _ _ _] at h2
      generalize longestTime e.mkt.w.date act = T at *
      have hone := order_ne times g.conf.moneyness T (hgt ▸ hgood.some) (hgm ▸ hgood.someMon)
      obtain ⟨l1, l2, l3, l4, l5, l6⟩ := matrixLoop_spec g hg u act ham (codes ++ act.map Instr.code) (fun i hi => List.mem_append_right _ (List.mem_map_of_mem hi)) times
        g.conf.moneyness e.mkt s0 hs0 hsort hmon (matrixOrder times T g.conf.moneyness.length) [] e.mkt prev _ e.results m1 t1 r1 (by simpa using nodup_order _ _ _)
        (fun c hc => by
          have := (mem_order _ _ _ _).1 (by simpa using hc)
          exact ⟨this.1, this.2.2⟩)
        (volShifted_none u _ e.mkt hM s0 hs0 _ fun t _ x _ => by simp) hM h2
      rw [List.nil_append] at l1
      have hnot : ∀ t ∈ s0.times, ∀ x ∈ s0.mon, (NotRaised times T t ↔ ¬ ∃ c ∈ matrixOrder times T g.conf.moneyness.length, InCell times g.conf.moneyness c t x) := by
        intro t ht x hx
        constructor
        · rintro hn ⟨c, hc, q1, q2, -⟩
          obtain ⟨o1, o2, -⟩ := (mem_order _ _ _ _).1 hc
          exact hn c.1 o1 o2 ⟨q1, q2⟩
        · intro hn k hk hb hq
          obtain ⟨j, j1, j2, j3⟩ := window_exists g.conf.moneyness hmon x (hgm ▸ hx)
          exact hn ⟨(k, j), (mem_order _ _ _ _).2 ⟨hk, hb, j1⟩, hq.1, hq.2, j2, j3⟩
      obtain ⟨k1, k2⟩ := volShifted_minus u _ e.mkt m1 m2 s0 hs0 l2 _ (fun t _ => NotRaised times T t) l1 h3 hnot
      have hm2 : m2 = { e.mkt with vols := m2.vols } := by
        obtain ⟨_, _, _, -, -, -, -, -, -, q⟩ := id k1
        rw [q]
      have hm2v : ∀ w, w ≠ u → m2.vols w = e.mkt.vols w := by
        intro w hw
        obtain ⟨_, _, _, -, -, -, -, -, -, q⟩ := id k1
        rw [q]
        exact put_other _ _ _ _ hw
      have hgrid2 : OnGrid m2 times g.conf.moneyness := by
        intro w s hws
        by_cases hw : w = u
        · subst hw
          obtain ⟨s', s1, _, q1, -, -, -, q5, -, q⟩ := id k1
          rw [q] at hws
          simp only [put_self] at hws
          obtain rfl := Vol.surface.inj (Option.some.inj hws)
          have := hgrid w s' q1
          rw [q5]
          exact this
        · rw [hm2v w hw] at hws
          exact hgrid w s hws
      have hz := zeroTables_spec (List.replicate times.length (List.replicate g.conf.moneyness.length (0 : ℝ))) act t
      -- the tables afterwards
      have hbase := (baseNpvs_spec g hg e.results act _ _ ham h1).1
      have hrow : ∀ i ∈ act, ∃ (x : EResult) (L' : List (List ℝ)), e.results i.code = some x ∧ t1 i.code = some L' ∧
          r1 i.code = some { x with vegaM := x.vegaM.put u L' } ∧
          VegaMatrix g e.mkt u g.conf.vegaSBump times g.conf.moneyness (matrixOrder times T g.conf.moneyness.length) i x.npv L' := by
        intro i hi
        obtain ⟨v0, c1, c2⟩ := hbase i hi
        obtain ⟨x, v, d1, d2, rfl⟩ := (baseNpv_ok _ _ _).1 c1
        obtain ⟨z, L', e1, e2, e3, e4, e5, e6, e7, e8⟩ := l5 i hi v.npv _ x c2 (hz.1 i hi) d1 (by simp) (fun row hrow => by rw [List.eq_of_mem_replicate hrow]; simp)
        rw [if_neg hone] at e8
        refine ⟨x, L', d1, e5, e8, v, z, d2, (e2 0 (List.length_pos_iff.2 hone)).1, e1, fun k hk => by simpa using (e2 k hk).2, e3, e4, e6, fun a j ha hj haj => ?_⟩
        rw [e7 a j haj]
        unfold cell
        simp [ha, hj]
      have hcodes' : ∀ c ∈ codes ++ act.map Instr.code, ∃ L, t1 c = some L := by
        intro c hc
        by_cases hca : c ∈ act.map Instr.code
        · obtain ⟨i, hi, rfl⟩ := List.mem_map.1 hca
          obtain ⟨_, L, -, q, -⟩ := hrow i hi
          exact ⟨L, q⟩
        · rw [l4 c hca, hz.2 c hca]
          exact hcod c ((List.mem_append.1 hc).resolve_right hca)
      have hactcode : ∀ i ∈ g.insts, i.code ∈ act.map Instr.code → i ∈ act := by
        intro i hi hc
        obtain ⟨j, hj, ej⟩ := List.mem_map.1 hc
        exact code_unique g hg j i (ham j hj) hi ej ▸ hj
      obtain ⟨⟨a1, a2⟩, b, c1, c2, d⟩ := ih (codes ++ act.map Instr.code) t1 { mkt := m2, action := act, results := r1 } e' hnd hcodes'
        (fun w hw i hi hiw hc => by
          rcases List.mem_append.1 hc with hc | hc
          · exact hdis w (List.mem_cons_of_mem _ hw) i hi hiw hc
          · have := ((hactm i).1 (hactcode i hi hc)).2
            exact hu (onVol_unique i u w this hiw ▸ hw))
        k2 hgrid2 h4
      dsimp only at a1 a2 c1 c2 d
      have hdate : m2.w = e.mkt.w := by rw [hm2]
      rw [hdate] at a2 d
      have hback : e'.mkt.vols u = m2.vols u := (a2 u).2 fun hc => hu hc.1
      refine ⟨⟨by rw [a1, hm2], fun w => ⟨fun hw hi => ?_, fun hn => ?_⟩⟩, b, fun c hc hcc => ?_, fun c hc x L hx hL => ?_, fun i hi pre w suf hp hiw x hx => ?_⟩
      · rcases List.mem_cons.1 hw with rfl | hw'
        · exact ⟨T, m2, hT, k1, hback⟩
        · obtain ⟨T', m', t1, t2, t3⟩ := (a2 w).1 hw' hi
          have hwu : w ≠ u := fun hc => hu (hc ▸ hw')
          obtain ⟨m'', q1, q2⟩ := volShifted_move w _ _ m2 e.mkt m' t2 (by rw [hm2]) (hm2v w hwu).symm
          exact ⟨T', m'', t1, q1, t3.trans q2.symm⟩
      · have hwu : w ≠ u := fun hc => hn ⟨by rw [hc]; simp, by rw [hc]; exact hsome⟩
        rw [(a2 w).2 fun hc => hn ⟨List.mem_cons_of_mem _ hc.1, hc.2⟩, hm2v w hwu]
      · have hca : c ∉ codes ++ act.map Instr.code := by
          intro hm
          rcases List.mem_append.1 hm with hm | hm
          · exact hc hm
          · obtain ⟨i, hi, ei⟩ := List.mem_map.1 hm
            exact hcc i (ham i hi) u (by simp) ((hactm i).1 hi).2 ei
        rw [c1 c hca fun i hi w hw => hcc i hi w (List.mem_cons_of_mem _ hw), l3 c hca]
      · have hca : c ∉ act.map Instr.code := by
          intro hm
          obtain ⟨i, hi, ei⟩ := List.mem_map.1 hm
          exact hdis u (by simp) i (ham i hi) ((hactm i).1 hi).2 (ei ▸ hc)
        have hr1 := l6 c (List.mem_append_left _ hc) hca x L hx (by rw [hz.2 c hca]; exact hL)
        rw [if_neg hone] at hr1
        obtain ⟨y, y1, y2, y3⟩ := c2 c (List.mem_append_left _ hc) _ L hr1 (by rw [l4 c hca, hz.2 c hca]; exact hL)
        refine ⟨y, y1, by rw [y2], fun w => ⟨fun hw => ?_, fun hw => ?_⟩⟩
        · by_cases hwu : w = u
          · subst hwu
            rw [(y3 w).2 fun hc => hu hc.1]
            exact put_self _ _ _
          · refine (y3 w).1 ⟨(List.mem_cons.1 hw.1).resolve_left hwu, hw.2⟩
        · have hwu : w ≠ u := fun hc => hw ⟨by rw [hc]; simp, by rw [hc]; exact hsome⟩
          rw [(y3 w).2 fun hc => hw ⟨List.mem_cons_of_mem _ hc.1, hc.2⟩]
          exact put_other _ _ _ _ hwu
      · cases pre with
        | nil =>
          obtain ⟨rfl, rfl⟩ := List.cons.inj hp
          have hia : i ∈ act := (hactm i).2 ⟨hi, hiw⟩
          obtain ⟨x', L, q1, q2, q3, q4⟩ := hrow i hia
          rw [hx] at q1
          obtain rfl := Option.some.inj q1
          obtain ⟨y, y1, y2, y3⟩ := c2 i.code (List.mem_append_right _ (List.mem_map_of_mem hia)) _ L q3 q2
          refine ⟨T, e.mkt, y, L, y1, by rw [y2], ?_, hT, rfl, rfl, fun _ => Or.inl rfl, q4, fun w hw => ⟨fun hc => (y3 w).1 hc, fun hc => ?_⟩⟩
          · rw [(y3 u).2 fun hc => hu hc.1]
            exact put_self _ _ _
          · rw [(y3 w).2 hc]
            exact put_other _ _ _ _ hw
        | cons p pre =>
          have hpus := (List.cons.inj hp).2
          have hwus : w ∈ us := by rw [hpus]; simp
          have hwu : w ≠ u := fun hc => hu (hc ▸ hwus)
          have hia : i.code ∉ codes ++ act.map Instr.code := by
            intro hm
            rcases List.mem_append.1 hm with hm | hm
            · exact hdis w (List.mem_cons_of_mem _ hwus) i hi hiw hm
            · exact hwu (onVol_unique i w u hiw ((hactm i).1 (hactcode i hi hm)).2)
          obtain ⟨T', Mu, y, L, y1, y2, y3, y4, y5, y6, y7, y8, y9⟩ := d i hi pre w suf hpus hiw x (by rw [l3 _ hia]; exact hx)
          refine ⟨T', Mu, y, L, y1, y2, y3, y4, by rw [y5, hm2], by rw [y6, hm2v w hwu], fun v => ?_, y8, y9⟩
          by_cases hv : v = u
          · subst hv
            refine Or.inr ?_
            rcases y7 v with q | q
            · rw [q, hback]
            · exact q
          · rcases y7 v with q | q
            · exact Or.inl (q.trans (hm2v v hv))
            · exact Or.inr q


/-- **C96** (vega matrix). Let `times` be the tenors counted from the evaluation date in years, and the surfaces on these times and the configured
moneynesses. Every instrument other than cash, stock and future with the underlying `u` has for `u` a matrix: the cells are raised one after the
other, by rows from the last to the first, without the rows starting after the last maturity `T` on `u`, and each cell holds the difference its
raising makes, for 1 % and the notional. The same matrix is also there for each underlying with such instruments that comes after
`u`. Nothing else in the results has changed. In the market the rows left out are a bump lower afterwards (`LoweredTails`); the volatilities of
underlyings done before are so already when `u` is done (`Mu`). -/
theorem C96_vega_matrix (g : EngCfg) (hg : OwnCodes g) (e e' : Eng) (hM : GoodVols e.mkt) (ds : List DT)
    (hds : calcDates g.md e.mkt.w.date g.conf.vegaTenors = .ok ds) (hgrid : OnGrid e.mkt (ds.map (timeFrom e.mkt.w.date)) g.conf.moneyness) (h : setVegaM g e = .ok e') :
    LoweredTails g (allUnds g.insts) (ds.map (timeFrom e.mkt.w.date)) e.mkt e'.mkt ∧
    (∀ c, (∀ i ∈ g.insts, ∀ u, OnVol i u → i.code ≠ c) → e'.results c = e.results c) ∧
    ∀ i ∈ g.insts, ∀ u, OnVol i u → ∀ x, e.results i.code = some x →
      ∃ T Mu y L, e'.results i.code = some y ∧ y = { x with vegaM := y.vegaM } ∧ y.vegaM u = some L ∧
        DoneBy e.mkt.w.date (fun j => j ∈ g.insts ∧ OnVol j u) T ∧ Mu = { e.mkt with vols := Mu.vols } ∧ Mu.vols u = e.mkt.vols u ∧
        (∀ w, Mu.vols w = e.mkt.vols w ∨ Mu.vols w = e'.mkt.vols w) ∧
        VegaMatrix g Mu u g.conf.vegaSBump (ds.map (timeFrom e.mkt.w.date)) g.conf.moneyness
          (matrixOrder (ds.map (timeFrom e.mkt.w.date)) T g.conf.moneyness.length) i x.npv L ∧
        ∀ pre suf, allUnds g.insts = pre ++ u :: suf → ∀ w, w ≠ u →
          ((w ∈ suf ∧ ∃ j ∈ g.insts, OnVol j w) → y.vegaM w = some L) ∧ (¬ (w ∈ suf ∧ ∃ j ∈ g.insts, OnVol j w) → y.vegaM w = x.vegaM w) := by
  unfold setVegaM at h
  rw [hds, Res.bind_ok] at h
  obtain ⟨h1, -, h2, -, h3⟩ := matrixNames_spec g hg _ (allUnds g.insts) [] (fun _ => none) e e' (nodup_allUnds _) (by simp) (by simp) hM hgrid h
  refine ⟨h1, fun c hc => h2 c (by simp) fun i hi u _ => hc i hi u, fun i hi u hu x hx => ?_⟩
  obtain ⟨pre, suf, hp⟩ := List.append_of_mem ((mem_allUnds g.insts u).2 ⟨i, hi, hu.1⟩)
  obtain ⟨T, Mu, y, L, a1, a2, a3, a4, a5, a6, a7, a8, a9⟩ := h3 i hi pre u suf hp hu x hx
  refine ⟨T, Mu, y, L, a1, a2, a3, a4, a5, a6, a7, a8, fun pre' suf' hp' => ?_⟩
  have hnd := nodup_allUnds g.insts
  rw [hp] at hp' hnd
  have : pre = pre' ∧ u :: suf = u :: suf' := by
    refine List.append_inj hp' ?_
    have i1 : (pre ++ u :: suf).idxOf u = pre.length := by
      rw [List.idxOf_append_of_notMem fun hm => (List.nodup_append.1 hnd).2.2 _ hm _ (by simp) rfl]
      simp
    have i2 : (pre' ++ u :: suf').idxOf u = pre'.length := by
      rw [hp'] at hnd
      rw [List.idxOf_append_of_notMem fun hm => (List.nodup_append.1 hnd).2.2 _ hm _ (by simp) rfl]
      simp
    rw [← i1, ← i2, hp']
  obtain rfl := (List.cons.inj this.2).2
  exact a9

/-- **C96** (the market, if all rows count). If no tenor starts after the last maturity on any underlying, the market is what it was, and
every matrix is made in it. -/
theorem C96_restored (g : EngCfg) (times : List ℝ) (us : List String) (M M' : Mkt) (hM : GoodVols M) (hgrid : OnGrid M times g.conf.moneyness)
    (h : LoweredTails g us times M M')
    (hall : ∀ u T, (∃ i ∈ g.insts, OnVol i u) → DoneBy M.w.date (fun j => j ∈ g.insts ∧ OnVol j u) T → ∀ k, k < times.length → ¬ TenorBeyond times T k) :
    M' = M ∧ ∀ Mu : Mkt, Mu = { M with vols := Mu.vols } → (∀ w, Mu.vols w = M.vols w ∨ Mu.vols w = M'.vols w) → Mu = M := by
  obtain ⟨h1, h2⟩ := h
  have hv : M'.vols = M.vols := by
    funext u
    by_cases hu : u ∈ us ∧ ∃ i ∈ g.insts, OnVol i u
    · obtain ⟨T, m, t1, t2, t3⟩ := (h2 u).1 hu.1 hu.2
      obtain ⟨s, _, _, q, -⟩ := id t2
      obtain ⟨g1, g2⟩ := hgrid u s q
      obtain ⟨_, _, _, es, _, hgood, _⟩ := hM u _ q
      obtain rfl := Vol.surface.inj es
      have hsort : times.Pairwise (· < ·) := g1 ▸ hgood.times
      have hno := volShifted_none u (-g.conf.vegaSBump) M hM s q (fun t _ => NotRaised times T t) fun t ht x _ hn => by
        obtain ⟨k, k1, k2, k3⟩ := window_exists times hsort t (g1 ▸ ht)
        exact hn k k1 (hall u T hu.2 t1 k k1) ⟨k2, k3⟩
      rw [t3, volShifted_unique u _ _ M m M hM t2 hno]
    · exact (h2 u).2 hu
  refine ⟨by rw [h1, hv], fun Mu m1 m2 => ?_⟩
  rw [m1, show Mu.vols = M.vols from funext fun w => (m2 w).elim id fun q => by rw [q, hv]]

theorem sum_range_getD (l : List ℝ) : l.sum = ∑ i ∈ Finset.range l.length, (l[i]?).getD 0 := by
  induction l with
  | nil => simp
  | cons a l ih => rw [List.sum_cons, List.length_cons, Finset.sum_range_succ', ih]; simp [add_comm]

theorem sum_telescope {α : Type} (f : α → ℝ) (q : ℝ) : ∀ (l : List α) (z : Nat → ℝ), (∀ (k : Nat) c, l[k]? = some c → f c = (z (k + 1) - z k) * q) →
    (l.map f).sum = (z l.length - z 0) * q
  | [], z, _ => by simp
  | a :: l, z, h => by
    have h0 := h 0 a rfl
    have := sum_telescope f q l (fun k => z (k + 1)) fun k c hc => h (k + 1) c hc
    simp only [List.map_cons, List.sum_cons, List.length_cons]
    rw [h0, this]
    ring

/-- **C96** (the cells add up). All cells together are the forward difference of the npv with all cells counted raised; if no tenor starts after the
last maturity these are the whole surface. -/
theorem C96_adds_up (g : EngCfg) (M : Mkt) (u : String) (b T : ℝ) (times mon : List ℝ) (hs : times ≠ []) (hm : mon ≠ []) (i : Instr) (npv : Option NpvResult)
    (tbl : List (List ℝ)) (h : VegaMatrix g M u b times mon (matrixOrder times T mon.length) i npv tbl) :
    ∃ m, VolShifted u (fun t x => ∃ c ∈ matrixOrder times T mon.length, InCell times mon c t x) b M m ∧ ForwardDiff g m b 0.01 i npv (some (tbl.map List.sum).sum) ∧
      ((∀ s, M.vols u = some (.surface s) → GoodSurf s ∧ s.times = times ∧ s.mon = mon) → (∀ k, k < times.length → ¬ TenorBeyond times T k) →
        VolShifted u (fun _ _ => True) b M m) := by
  obtain ⟨v, z, h1, h2, h3, h4, h5, h6, h7, h8⟩ := h
  have hpos : 0 < (matrixOrder times T mon.length).length := List.length_pos_iff.2 (order_ne times mon T hs hm)
  obtain ⟨m, m1, m2⟩ := h4 ((matrixOrder times T mon.length).length - 1) (by omega)
  rw [Nat.sub_add_cancel hpos, List.take_length] at m1
  rw [Nat.sub_add_cancel hpos] at m2
  refine ⟨m, m1, ⟨v, z _, h1, m2, h2, ?_⟩, fun hg hT => ?_⟩
  · rw [Option.some.injEq]
    have e1 : (tbl.map List.sum).sum = ∑ p ∈ Finset.range times.length ×ˢ Finset.range mon.length, (cell tbl p.1 p.2).getD 0 := by
      rw [Finset.sum_product, sum_range_getD, List.length_map, h5]
      refine Finset.sum_congr rfl fun a ha => ?_
      have ha : a < tbl.length := by rw [h5]; exact Finset.mem_range.1 ha
      rw [List.getElem?_map, List.getElem?_eq_getElem ha, Option.map_some, Option.getD_some, sum_range_getD, h6 _ (List.getElem_mem ha)]
      refine Finset.sum_congr rfl fun j _ => ?_
      unfold cell
      simp [List.getElem?_eq_getElem ha]
    have e2 : ((matrixOrder times T mon.length).map fun p => (cell tbl p.1 p.2).getD 0).sum
        = ∑ p ∈ (matrixOrder times T mon.length).toFinset, (cell tbl p.1 p.2).getD 0 := by
      rw [List.sum_toFinset _ (nodup_order _ _ _)]
    have e3 : ∑ p ∈ (matrixOrder times T mon.length).toFinset, (cell tbl p.1 p.2).getD 0
        = ∑ p ∈ Finset.range times.length ×ˢ Finset.range mon.length, (cell tbl p.1 p.2).getD 0 := by
      refine Finset.sum_subset (fun p hp => ?_) fun p hp hn => ?_
      · have := (mem_order _ _ _ _).1 (List.mem_toFinset.1 hp)
        exact Finset.mem_product.2 ⟨Finset.mem_range.2 this.1, Finset.mem_range.2 this.2.2⟩
      · obtain ⟨q1, q2⟩ := Finset.mem_product.1 hp
        rw [h8 p.1 p.2 (Finset.mem_range.1 q1) (Finset.mem_range.1 q2) fun hc => hn (List.mem_toFinset.2 hc)]
        rfl
    rw [e1, ← e3, ← e2, sum_telescope _ (1 / b * 0.01 * i.notional) _ z fun k c hc => by
      rw [h7 k c hc]
      simp only [Option.getD_some]
      ring, h3]
    ring
  · obtain ⟨s, s1, env, a1, a2⟩ := id m1
    obtain ⟨q1, rfl, rfl⟩ := hg s a1
    exact volShifted_congr u _ _ b M m s a1 (fun t ht x hx => ⟨fun _ => trivial, fun _ => order_covers _ _ q1.times q1.mon T hT t x ht hx⟩) m1


/-- The last row is left out if its tenor starts after `T`. -/
theorem last_notRaised (times : List ℝ) (hs : times.Pairwise (· < ·)) (T t : ℝ) (n : Nat) (hn : times.length = n + 2) (ht : times[n + 1]? = some t)
    (hT : TenorBeyond times T (n + 1)) (hgap : ∀ s, times[n]? = some s → s + 1e-4 < t) : NotRaised times T t := by
  intro k hk hb hq
  rcases Nat.lt_or_ge k (n + 1) with h | h
  · refine window_disjoint times hs k (n + 1) (by omega) h t ⟨hq.2, fun s _ hs' => hgap s (by simpa using hs')⟩
  · obtain rfl : k = n + 1 := by omega
    exact hb hT

/-- A fault (C96): if the last tenor starts after the last maturity on `u`, the part leaves the market changed: the volatilities of that tenor
are a bump lower. -/
theorem fault_matrix_lowered (g : EngCfg) (times : List ℝ) (us : List String) (M M' : Mkt) (hM : GoodVols M) (hgrid : OnGrid M times g.conf.moneyness)
    (h : LoweredTails g us times M M') (u : String) (hu : u ∈ us) (hi : ∃ i ∈ g.insts, OnVol i u) (n : Nat) (hn : times.length = n + 2)
    (hgap : ∀ s t, times[n]? = some s → times[n + 1]? = some t → s + 1e-4 < t)
    (hT : ∀ T, DoneBy M.w.date (fun j => j ∈ g.insts ∧ OnVol j u) T → TenorBeyond times T (n + 1)) :
    ∃ s s', M.vols u = some (.surface s) ∧ M'.vols u = some (.surface s') ∧
      ∀ (j : Nat) v, cell s.vols (n + 1) j = some v → cell s'.vols (n + 1) j = some (v - g.conf.vegaSBump) := by
  obtain ⟨T, m, t1, t2, t3⟩ := (h.2 u).1 hu hi
  obtain ⟨s, s', env, a1, -, -, -, a5, a6, rfl⟩ := t2
  obtain ⟨g1, g2⟩ := hgrid u s a1
  obtain ⟨_, _, _, es, _, hgood, _⟩ := hM u _ a1
  obtain rfl := Vol.surface.inj es
  have hsort : times.Pairwise (· < ·) := g1 ▸ hgood.times
  refine ⟨s, s', a1, t3.trans (put_self _ _ _), fun j v hv => ?_⟩
  have hlt : n + 1 < times.length := by omega
  have ht : times[n + 1]? = some times[n + 1] := List.getElem?_eq_getElem hlt
  have hj : j < s.mon.length := by
    unfold cell at hv
    obtain ⟨row, hr, hv⟩ := Option.bind_eq_some_iff.1 hv
    rw [← hgood.cols row (List.mem_of_getElem? hr)]
    exact (List.getElem?_eq_some_iff.1 hv).1
  rw [a6 (n + 1) j _ _ v (by rw [g1]; exact ht) (List.getElem?_eq_getElem hj) hv,
    if_pos (last_notRaised times hsort T _ n hn ht (hT T t1) fun s hs => hgap s _ hs ht), sub_eq_add_neg]

/-! ## When it succeeds -/

theorem matrixLoop_total (g : EngCfg) (hg : OwnCodes g) (u : String) (act : List Instr) (ha : Among g act) (codes : List String) (times mon : List ℝ) (hb0 : g.conf.vegaSBump ≠ 0)
    (ok : Mkt → Prop) (hok : ∀ m m' t1 t2 x1 x2, ok m → m.bumpVol u t1 t2 x1 x2 g.conf.vegaSBump = .ok m' → ok m')
    (hbump : ∀ m t1 t2 x1 x2, ok m → ∃ m', m.bumpVol u t1 t2 x1 x2 g.conf.vegaSBump = .ok m')
    (hprice : ∀ i ∈ act, ∀ m, ok m → ∃ up, g.npv i m = .ok up) :
    ∀ (cells : List (Nat × Nat)) (m : Mkt) (prev : Map String ℝ) (t : Map String (List (List ℝ))) (r : Results), ok m →
    (∀ i ∈ act, ∃ z, prev i.code = some z) → (∀ i ∈ act, ∃ L, t i.code = some L) → (∀ c ∈ codes, (∃ L, t c = some L) ∧ ∃ x, r c = some x) →
    ∃ m' t' r', matrixLoop g u act codes times mon cells m prev t r = .ok (m', t', r') ∧ ok m' := by
  intro cells
  induction cells with
  | nil => exact fun m prev t r hm _ _ _ => ⟨m, t, r, rfl, hm⟩
  | cons c cells ih =>
    obtain ⟨ci, cj⟩ := c
    intro m prev t r hm hp ht hc
    obtain ⟨m1, h1⟩ := hbump m (startOf times ci) times[ci]? (startOf mon cj) mon[cj]? hm
    have hm1 := hok _ _ _ _ _ _ hm h1
    obtain ⟨ups, h2⟩ := getNpvs_total g m1 act (fun _ => none) fun i hi => hprice i hi m1 hm1
    obtain ⟨n1, -⟩ := getNpvs_spec g hg _ _ _ _ ha h2
    obtain ⟨t1, h3⟩ := tableLoop_total (fun x v => setCell x ci cj v) ups (fun c => orErr (prev c)) g.conf.vegaSBump 0.01 hb0 act t fun i hi => by
      obtain ⟨up, -, hup⟩ := n1 i hi
      obtain ⟨z, hz⟩ := hp i hi
      exact ⟨⟨up, hup⟩, ⟨z, (orErr_eq _ _).2 hz⟩, ht i hi⟩
    obtain ⟨s1, s2⟩ := tableLoop_spec g hg (fun x v => setCell x ci cj v) (fun x v => setCell_twice x ci cj v) ups _ _ _ act t t1 ha h3
    have ht1 : ∀ c, (∃ L, t c = some L) → ∃ L, t1 c = some L := by
      intro c hL
      by_cases hca : c ∈ act.map Instr.code
      · obtain ⟨i, hi, rfl⟩ := List.mem_map.1 hca
        obtain ⟨_, _, _, -, -, -, -, q⟩ := s1 i hi
        exact ⟨_, q⟩
      · rw [s2 c hca]; exact hL
    obtain ⟨r1, h4⟩ := writeTables_total (fun (x : EResult) v => { x with vegaM := x.vegaM.put u v }) t1 codes r fun c hcc => ⟨ht1 c (hc c hcc).1, (hc c hcc).2⟩
    obtain ⟨w1, -⟩ := writeTables_spec (fun (x : EResult) v => { x with vegaM := x.vegaM.put u v }) (fun x v w => by simp only [put_put]) t1 _ _ _ h4
    unfold matrixLoop
    rw [h1, Res.bind_ok, h2, Res.bind_ok, h3, Res.bind_ok, h4, Res.bind_ok]
    refine ih m1 ups t1 r1 hm1 (fun i hi => ?_) (fun i hi => ht1 _ (ht i hi)) fun c hcc => ⟨ht1 c (hc c hcc).1, ?_⟩
    · obtain ⟨up, -, hup⟩ := n1 i hi
      exact ⟨up, hup⟩
    · obtain ⟨_, _, -, -, w⟩ := w1 c hcc
      exact ⟨_, w⟩

/-- The loop drops no table and no result. -/
theorem matrixLoop_keeps (g : EngCfg) (hg : OwnCodes g) (u : String) (act : List Instr) (ha : Among g act) (codes : List String) (times mon : List ℝ) :
    ∀ (cells : List (Nat × Nat)) (m : Mkt) (prev : Map String ℝ) (t : Map String (List (List ℝ))) (r : Results) (m' : Mkt) (t' : Map String (List (List ℝ))) (r' : Results),
    matrixLoop g u act codes times mon cells m prev t r = .ok (m', t', r') →
    (∀ c, (∃ L, t c = some L) → ∃ L, t' c = some L) ∧ ∀ c x, r c = some x → ∃ y, r' c = some y ∧ x.npv = y.npv := by
  intro cells
  induction cells with
  | nil =>
    intro m prev t r m' t' r' h
    obtain ⟨rfl, h'⟩ := Prod.mk.inj (Except.ok.inj h)
    obtain ⟨rfl, rfl⟩ := Prod.mk.inj h'
    exact ⟨fun _ h => h, fun c x hx => ⟨x, hx, rfl⟩⟩
  | cons c cells ih =>
    obtain ⟨ci, cj⟩ := c
    intro m prev t r m' t' r' h
    unfold matrixLoop at h
    obtain ⟨m1, h1, h⟩ := (bind_ok_iff _ _ _).1 h
    obtain ⟨ups, h2, h⟩ := (bind_ok_iff _ _ _).1 h
    obtain ⟨t1, h3, h⟩ := (bind_ok_iff _ _ _).1 h
    obtain ⟨r1, h4, h⟩ := (bind_ok_iff _ _ _).1 h
    obtain ⟨s1, s2⟩ := tableLoop_spec g hg (fun x v => setCell x ci cj v) (fun x v => setCell_twice x ci cj v) ups _ _ _ act t t1 ha h3
    obtain ⟨w1, w2⟩ := writeTables_spec (fun (x : EResult) v => { x with vegaM := x.vegaM.put u v }) (fun x v w => by simp only [put_put]) t1 _ _ _ h4
    obtain ⟨p1, p2⟩ := ih _ _ _ _ _ _ _ h
    refine ⟨fun c hL => p1 c ?_, fun c x hx => ?_⟩
    · by_cases hca : c ∈ act.map Instr.code
      · obtain ⟨i, hi, rfl⟩ := List.mem_map.1 hca
        obtain ⟨_, _, _, -, -, -, -, q⟩ := s1 i hi
        exact ⟨_, q⟩
      · rw [s2 c hca]; exact hL
    · by_cases hc : c ∈ codes
      · obtain ⟨v, x', a1, a2, a3⟩ := w1 c hc
        rw [hx] at a2
        obtain rfl := Option.some.inj a2
        obtain ⟨y, hy, e⟩ := p2 c _ a3
        exact ⟨y, hy, e⟩
      · exact p2 c x (by rw [w2 c hc]; exact hx)

/-- Specification: a market with the volatilities changed, but all sound and on their grids. -/
def OtherVols (M : Mkt) (times mon : List ℝ) (m : Mkt) : Prop :=
  m = { M with vols := m.vols } ∧ GoodVols m ∧ OnGrid m times mon ∧ ∀ u, (∃ v, M.vols u = some v) → ∃ v, m.vols u = some v

theorem otherVols_bump (M : Mkt) (times mon : List ℝ) (m m' : Mkt) (u : String) (t1 t2 x1 x2 : Option ℝ) (b : ℝ) (h : OtherVols M times mon m)
    (hb : m.bumpVol u t1 t2 x1 x2 b = .ok m') : OtherVols M times mon m' := by
  obtain ⟨a1, a2, a3, a4⟩ := h
  obtain ⟨q, -, g3⟩ := bumpVol_spec m m' a2 u t1 t2 x1 x2 b hb
  obtain ⟨s, s', env, b1, -, -, -, b5, -, rfl⟩ := q
  refine ⟨by rw [a1], g3, fun w s1 hs1 => ?_, fun w hw => ?_⟩
  · by_cases hwu : w = u
    · subst hwu
      simp only [put_self] at hs1
      obtain rfl := Vol.surface.inj (Option.some.inj hs1)
      rw [b5]
      exact a3 w s b1
    · simp only [put_other _ _ _ _ hwu] at hs1
      exact a3 w s1 hs1
  · by_cases hwu : w = u
    · subst hwu; exact ⟨_, put_self _ _ _⟩
    · simp only [put_other _ _ _ _ hwu]
      exact a4 w hw

theorem matrixNames_total (g : EngCfg) (hg : OwnCodes g) (M : Mkt) (times : List ℝ) (hb0 : g.conf.vegaSBump ≠ 0)
    (hv : ∀ i ∈ g.insts, ∀ u, OnVol i u → (∃ v, M.vols u = some v) ∧ ∀ m, OtherVols M times g.conf.moneyness m → ∃ up, g.npv i m = .ok up) :
    ∀ (us codes : List String) (t : Map String (List (List ℝ))) (e : Eng), OtherVols M times g.conf.moneyness e.mkt → us.Nodup → (∀ c ∈ codes, ∃ L, t c = some L) →
    (∀ u ∈ us, ∀ i ∈ g.insts, OnVol i u → i.code ∉ codes) → (∀ c ∈ codes, ∃ x, e.results c = some x) → Valued g.insts e.results →
    ∃ e', matrixNames g times us codes t e = .ok e' := by
  intro us
  induction us with
  | nil => exact fun _ _ e _ _ _ _ _ _ => ⟨e, rfl⟩
  | cons u us ih =>
    intro codes t e hM hnd hcod hdis hres hval
    obtain ⟨hu, hnd⟩ := List.nodup_cons.1 hnd
    unfold matrixNames
    dsimp only
    by_cases hact : (withUnderlying g.insts u ["Cash", "Stock", "Futures"]).isEmpty
    · rw [if_pos hact]
      exact ih codes t { e with action := [] } hM hnd hcod (fun w hw => hdis w (List.mem_cons_of_mem _ hw)) hres hval
    · rw [if_neg hact]
      have hactm := onVol_act g u
      generalize hA : withUnderlying g.insts u ["Cash", "Stock", "Futures"] = act at *
      have hne : act ≠ [] := fun hc => hact (List.isEmpty_iff.2 hc)
      have ham : Among g act := fun i hi => ((hactm i).1 hi).1
      obtain ⟨prev, h1⟩ := baseNpvs_total e.results act (fun _ => none) fun i hi => hval i (ham i hi)
      obtain ⟨b1, -⟩ := baseNpvs_spec g hg e.results act _ _ ham h1
      have hvol : ∀ m, OtherVols M times g.conf.moneyness m → ∃ v, m.vols u = some v := by
        intro m hm
        obtain ⟨i, hi⟩ := List.exists_mem_of_ne_nil _ hne
        exact hm.2.2.2 u (hv i (ham i hi) u ((hactm i).1 hi).2).1
      have hz := zeroTables_spec (List.replicate times.length (List.replicate g.conf.moneyness.length (0 : ℝ))) act t
      have hzc : ∀ c ∈ codes ++ act.map Instr.code, ∃ L, zeroTables (List.replicate times.length (List.replicate g.conf.moneyness.length (0 : ℝ))) act t c = some L := by
        intro c hc
        by_cases hca : c ∈ act.map Instr.code
        · obtain ⟨i, hi, rfl⟩ := List.mem_map.1 hca
          exact ⟨_, hz.1 i hi⟩
        · rw [hz.2 c hca]
          exact hcod c ((List.mem_append.1 hc).resolve_right hca)
      have hrc : ∀ c ∈ codes ++ act.map Instr.code, ∃ x, e.results c = some x := by
        intro c hc
        rcases List.mem_append.1 hc with hc | hc
        · exact hres c hc
        · obtain ⟨i, hi, rfl⟩ := List.mem_map.1 hc
          obtain ⟨x, _, hx, -⟩ := hval i (ham i hi)
          exact ⟨x, hx⟩
      obtain ⟨m1, t1, r1, h2, hm1⟩ := matrixLoop_total g hg u act ham (codes ++ act.map Instr.code) times g.conf.moneyness hb0 (OtherVols M times g.conf.moneyness)
        (fun m m' _ _ _ _ hm hb => otherVols_bump M times _ m m' u _ _ _ _ _ hm hb)
        (fun m t1 t2 x1 x2 hm => by
          obtain ⟨v, hv⟩ := hvol m hm
          exact bumpVol_ok m hm.2.1 u t1 t2 x1 x2 _ v hv)
        (fun i hi m hm => (hv i (ham i hi) u ((hactm i).1 hi).2).2 m hm)
        (cellOrder times (longestTime e.mkt.w.date act) g.conf.moneyness.length times.length) e.mkt prev _ e.results hM
        (fun i hi => by
          obtain ⟨z, -, hz⟩ := b1 i hi
          exact ⟨z, hz⟩)
        (fun i hi => ⟨_, hz.1 i hi⟩) fun c hc => ⟨hzc c hc, hrc c hc⟩
      obtain ⟨v, hvv⟩ := hvol m1 hm1
      obtain ⟨m2, h3⟩ := bumpVol_ok m1 hm1.2.1 u none none none none (-g.conf.vegaSBump) v hvv
      have hm2 := otherVols_bump M times _ m1 m2 u _ _ _ _ _ hm1 h3
      rw [h1, Res.bind_ok, h2, Res.bind_ok]
      dsimp only
      rw [h3, Res.bind_ok]
      -- results and tables stay there
      obtain ⟨k1, k2⟩ := matrixLoop_keeps g hg u act ham (codes ++ act.map Instr.code) times g.conf.moneyness _ _ _ _ _ _ _ _ h2
      have hactcode : ∀ i ∈ g.insts, i.code ∈ act.map Instr.code → i ∈ act := by
        intro i hi hc
        obtain ⟨j, hj, ej⟩ := List.mem_map.1 hc
        exact code_unique g hg j i (ham j hj) hi ej ▸ hj
      refine ih (codes ++ act.map Instr.code) t1 { mkt := m2, action := act, results := r1 } hm2 hnd (fun c hc => k1 c (hzc c hc)) (fun w hw i hi hiw hc => ?_)
        (fun c hc => ?_) fun i hi => ?_
      · rcases List.mem_append.1 hc with hc | hc
        · exact hdis w (List.mem_cons_of_mem _ hw) i hi hiw hc
        · exact hu (onVol_unique i u w ((hactm i).1 (hactcode i hi hc)).2 hiw ▸ hw)
      · obtain ⟨x, hx⟩ := hrc c hc
        obtain ⟨y, hy, -⟩ := k2 c x hx
        exact ⟨y, hy⟩
      · obtain ⟨x, v, hx, hxv⟩ := hval i hi
        obtain ⟨y, hy, e⟩ := k2 i.code x hx
        exact ⟨y, v, hy, e ▸ hxv⟩

/-- **C96** (when it succeeds). It is enough that the bump is not 0, the tenors can be counted, the surfaces are there, sound and on the grid, every
instrument has its npv, and every instrument other than cash, stock and future with an underlying can be repriced whatever the volatilities. -/
theorem C96_succeeds (g : EngCfg) (hg : OwnCodes g) (e : Eng) (hM : GoodVols e.mkt) (hv : Valued g.insts e.results) (hb : g.conf.vegaSBump ≠ 0) (ds : List DT)
    (hds : calcDates g.md e.mkt.w.date g.conf.vegaTenors = .ok ds) (hgrid : OnGrid e.mkt (ds.map (timeFrom e.mkt.w.date)) g.conf.moneyness)
    (h : ∀ i ∈ g.insts, ∀ u, OnVol i u → (∃ v, e.mkt.vols u = some v) ∧
      ∀ m, OtherVols e.mkt (ds.map (timeFrom e.mkt.w.date)) g.conf.moneyness m → ∃ up, g.npv i m = .ok up) : ∃ e', setVegaM g e = .ok e' := by
  unfold setVegaM
  rw [hds, Res.bind_ok]
  exact matrixNames_total g hg e.mkt _ hb h _ _ _ e ⟨rfl, hM, hgrid, fun _ h => h⟩ (nodup_allUnds _) (by simp) (by simp) (by simp) hv

end Verif.Props

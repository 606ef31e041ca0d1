import Verif.QL.ZeroCurve
import Verif.Props.Period
import Verif.Props.DayCount
import Verif.Props.Schedule

/-! # The cached times of a zero curve are strictly increasing (lemmas for C57) -/

set_option autoImplicit false

namespace Verif.Props

open Verif Verif.QL Verif.Civil

/-- What `scan` reads off the tenors. -/
def tenorSteps : List (List (Nat × PerUnit)) :=
  [[(0, .D)], [(1, .D)], [(1, .W)], [(2, .W)], [(1, .M)], [(2, .M)], [(3, .M)], [(4, .M)], [(5, .M)], [(6, .M)], [(9, .M)],
   [(1, .Y)], [(1, .Y), (6, .M)], [(2, .Y)], [(2, .Y), (6, .M)], [(3, .Y)], [(4, .Y)], [(5, .Y)], [(6, .Y)], [(7, .Y)],
   [(8, .Y)], [(9, .Y)], [(10, .Y)], [(12, .Y)], [(15, .Y)], [(20, .Y)], [(30, .Y)], [(50, .Y)], [(100, .Y)]]

theorem scan_tenors : tenors.map (scan true []) = tenorSteps := by decide +kernel

/-- Days (with no months) or months of a tenor. -/
def tenorKey : List (Nat × PerUnit) → Nat × Nat
  | [] => (0, 0)
  | (n, u) :: ts =>
    let r := tenorKey ts
    match u with
    | .D => (n + r.1, r.2)
    | .W => (7 * n + r.1, r.2)
    | .M => (r.1, n + r.2)
    | .Y => (r.1, 12 * n + r.2)
    | _ => r

/-- The date reached: `n` days later, or in the month `k` months later (exactly one month later for `k = 1`). -/
def Reached (a : DT) (d : DT) (key : Nat × Nat) : Prop :=
  d.Valid ∧ d.tod = a.tod ∧ d.off = a.off ∧
  (key.2 = 0 → d.day = a.day + key.1) ∧
  (0 < key.2 → monthIdx d.ymd = monthIdx a.ymd + key.2) ∧
  (key.2 = 1 → MonthShift a.ymd 1 d.ymd)

theorem small63 (v : Nat) (hs : v ≤ 100) : ¬ (v ≥ 2 ^ 63) := by
  have : (100 : Nat) < 2 ^ 63 := by decide
  omega

theorem addStep_calendar (md : Mode) (orig cur : DT) (hv : cur.Valid) (ht : cur.tod = orig.tod)
    (v : Nat) (hs : v ≤ 100) (u : PerUnit) (k : Int) (hu : u = .M ∧ k = v ∨ u = .Y ∧ k = 12 * v)
    (hr : monthIdx cur.ymd + k ≤ lastMonth) :
    ∃ c, addStep md orig cur (v, u) = .ok c ∧ c.Valid ∧ c.tod = orig.tod ∧ c.off = orig.off ∧ MonthShift cur.ymd k c.ymd := by
  have hy := year_bounds ⟨hv.1, hv.2.1⟩
  obtain ⟨v1, v2, -⟩ := ofOrd_valid cur.day
  have hlow : firstMonth ≤ monthIdx cur.ymd + k := by
    unfold firstMonth monthIdx DT.ymd
    omega
  have hw : wrapI32 (v : Int) = v := wrapI32_small _ (by omega) (by unfold I32; omega)
  have get : ∀ r, ShiftOr cur.day k r → ∃ c : DT, (r >>= fun day => .ok { day := day, tod := orig.tod, off := orig.off }) = .ok c ∧
      c.Valid ∧ c.tod = orig.tod ∧ c.off = orig.off ∧ MonthShift cur.ymd k c.ymd := by
    intro r hr'
    unfold ShiftOr at hr'
    rw [if_pos ⟨hlow, hr⟩] at hr'
    obtain ⟨day, e, hm, h1, h2⟩ := hr'
    rw [e]
    refine ⟨⟨day, orig.tod, orig.off⟩, rfl, ⟨h1, h2, ?_⟩, rfl, rfl, hm⟩
    simp only
    rw [← ht]
    exact hv.2.2
  unfold addStep
  simp only [small63 v hs, if_false]
  rcases hu with ⟨rfl, rfl⟩ | ⟨rfl, rfl⟩
  · simp only [hw]
    exact get _ (addMonths_spec md cur.day v ⟨hv.1, hv.2.1⟩ (by omega) (by unfold I32; omega))
  · simp only [hw]
    exact get _ (addYears_spec md cur.day v ⟨hv.1, hv.2.1⟩ (by omega) (by unfold I32; omega))

theorem addStep_days (md : Mode) (orig cur : DT) (hv : cur.Valid) (v : Nat) (hs : v ≤ 100) (u : PerUnit) (k : Int)
    (hu : u = .D ∧ k = v ∨ u = .W ∧ k = 7 * v) (hr : cur.day + k ≤ maxDay) :
    ∃ c, addStep md orig cur (v, u) = .ok c ∧ c.Valid ∧ c.tod = cur.tod ∧ c.off = cur.off ∧ c.day = cur.day + k := by
  have key : ∀ ns : Int, ns = k * dayNs → ∃ c, cur.addNs ns = .ok c ∧ c.Valid ∧ c.tod = cur.tod ∧ c.off = cur.off ∧ c.day = cur.day + k := by
    intro ns hns
    subst hns
    have ht := hv.2.2
    have hd := dayNs_pos
    have e1 : (cur.localNs + k * dayNs) / dayNs = cur.day + k := by
      unfold DT.localNs
      rw [show cur.day * dayNs + (cur.tod : Int) + k * dayNs = (cur.tod : Int) + (cur.day + k) * dayNs by ring,
        Int.add_mul_ediv_right _ _ (by omega), Int.ediv_eq_zero_of_lt (by omega) ht]
      omega
    have e2 : (cur.localNs + k * dayNs) % dayNs = cur.tod := by
      unfold DT.localNs
      rw [show cur.day * dayNs + (cur.tod : Int) + k * dayNs = (cur.tod : Int) + (cur.day + k) * dayNs by ring,
        Int.add_mul_emod_self_right, Int.emod_eq_of_lt (by omega) ht]
    have hk : 0 ≤ k := by omega
    unfold DT.addNs checkDay
    rw [e1, e2, if_pos ⟨by have := hv.1; omega, hr⟩]
    refine ⟨_, rfl, ⟨by have := hv.1; simp only; omega, hr, ?_⟩, ?_, rfl, rfl⟩
    · simp only [Int.toNat_natCast]; exact ht
    · simp only [Int.toNat_natCast]
  unfold addStep
  simp only [small63 v hs, if_false]
  rcases hu with ⟨rfl, rfl⟩ | ⟨rfl, rfl⟩
  · simp only
    exact key _ (by simp [unitNs])
  · simp only
    exact key _ (by simp only [unitNs]; ring)

/-- The tenor strings reach their dates, for evaluation dates up to the year 9899. -/
theorem tenor_reached (md : Mode) (a : DT) (ha : a.Valid) (hy : a.ymd.y ≤ 9899) :
    ∀ ts ∈ tenorSteps, ∃ d, addLoop md a a ts = .ok d ∧ Reached a d (tenorKey ts) := by
  obtain ⟨v1, v2, -⟩ := ofOrd_valid a.day
  have hm : monthIdx a.ymd + 1200 ≤ lastMonth := by
    unfold monthIdx lastMonth; unfold DT.ymd at *; omega
  have hday : a.day + 14 ≤ maxDay := by
    have b := day_bounds a.day
    have h1 := dby_mono a.ymd.y 9900 (by omega)
    have h2 : dby 9900 + 14 ≤ maxDay := by decide
    change dby a.ymd.y < a.day ∧ a.day ≤ dby a.ymd.y + yearLen a.ymd.y at b
    omega
  have one : ∀ v u, v ≤ 100 → (u = .M ∨ u = .Y) → 0 < v → 
      ∃ d, addLoop md a a [(v, u)] = .ok d ∧ Reached a d (tenorKey [(v, u)]) := by
    intro v u hs hu h0
    rcases hu with rfl | rfl
    · obtain ⟨c, e, c1, c2, c3, c4⟩ := addStep_calendar md a a ha rfl v hs .M v (.inl ⟨rfl, rfl⟩) (by omega)
      refine ⟨c, by simp only [addLoop]; rw [e]; rfl, c1, c2, c3, ?_, ?_, ?_⟩ <;> simp only [tenorKey]
      · omega
      · intro _; rw [c4.2.1]; rfl
      · intro h
        have : v = 1 := by omega
        subst this
        exact c4
    · obtain ⟨c, e, c1, c2, c3, c4⟩ := addStep_calendar md a a ha rfl v hs .Y (12 * v) (.inr ⟨rfl, rfl⟩) (by omega)
      refine ⟨c, by simp only [addLoop]; rw [e]; rfl, c1, c2, c3, ?_, ?_, ?_⟩ <;> simp only [tenorKey]
      · omega
      · intro _; rw [c4.2.1]; push_cast; ring
      · omega
  have day : ∀ v u, v ≤ 100 → (u = .D ∧ v ≤ 14 ∨ u = .W ∧ 7 * v ≤ 14) →
      ∃ d, addLoop md a a [(v, u)] = .ok d ∧ Reached a d (tenorKey [(v, u)]) := by
    intro v u hs hu
    rcases hu with ⟨rfl, hv⟩ | ⟨rfl, hv⟩
    · obtain ⟨c, e, c1, c2, c3, c4⟩ := addStep_days md a a ha v hs .D v (.inl ⟨rfl, rfl⟩) (by omega)
      refine ⟨c, by simp only [addLoop]; rw [e]; rfl, c1, c2, c3, ?_, ?_, ?_⟩ <;> simp only [tenorKey]
      · intro _; rw [c4]; rfl
      · omega
      · omega
    · obtain ⟨c, e, c1, c2, c3, c4⟩ := addStep_days md a a ha v hs .W (7 * v) (.inr ⟨rfl, rfl⟩) (by omega)
      refine ⟨c, by simp only [addLoop]; rw [e]; rfl, c1, c2, c3, ?_, ?_, ?_⟩ <;> simp only [tenorKey]
      · intro _; rw [c4]; push_cast; ring
      · omega
      · omega
  have two : ∀ v w, 0 < v → 12 * v + w ≤ 1200 → w ≤ 100 →
      ∃ d, addLoop md a a [(v, .Y), (w, .M)] = .ok d ∧ Reached a d (tenorKey [(v, .Y), (w, .M)]) := by
    intro v w h0 hs hw
    obtain ⟨c, e, c1, c2, c3, c4⟩ := addStep_calendar md a a ha rfl v (by omega) .Y (12 * v) (.inr ⟨rfl, rfl⟩) (by omega)
    obtain ⟨c', e', d1, d2, d3, d4⟩ := addStep_calendar md a c c1 c2 w hw .M w (.inl ⟨rfl, rfl⟩)
      (by have := c4.2.1; omega)
    refine ⟨c', by simp only [addLoop]; rw [e, Res.bind_ok, e']; rfl, d1, d2, d3, ?_, ?_, ?_⟩ <;> simp only [tenorKey]
    · omega
    · intro _; rw [d4.2.1, c4.2.1]; push_cast; ring
    · omega
  intro ts hts
  simp only [tenorSteps, List.mem_cons, List.not_mem_nil, or_false] at hts
  rcases hts with rfl | rfl | rfl | rfl | rfl | rfl | rfl | rfl | rfl | rfl | rfl | rfl | rfl | rfl | rfl | rfl | rfl |
    rfl | rfl | rfl | rfl | rfl | rfl | rfl | rfl | rfl | rfl | rfl | rfl
  all_goals first
    | exact one _ _ (by omega) (.inl rfl) (by omega)
    | exact one _ _ (by omega) (.inr rfl) (by omega)
    | exact day _ _ (by omega) (.inl ⟨rfl, by omega⟩)
    | exact day _ _ (by omega) (.inr ⟨rfl, by omega⟩)
    | exact two _ _ (by omega) (by omega) (by omega)

/-- Order of the tenor keys. -/
def KeyLt (p q : Nat × Nat) : Prop :=
  p.2 = 0 ∧ q.2 = 0 ∧ p.1 < q.1 ∨ p.2 = 0 ∧ 1 ≤ q.2 ∧ p.1 ≤ 14 ∨ 1 ≤ p.2 ∧ p.2 < q.2

instance (p q : Nat × Nat) : Decidable (KeyLt p q) := by unfold KeyLt; infer_instance

theorem keys_increasing : (tenorSteps.map tenorKey).Pairwise KeyLt := by decide +kernel

/-- One month is at least 28 days. -/
theorem month_at_least_28 (x z : Ymd) (hx : x.Valid) (h : MonthShift x 1 z) : x.ord + 28 ≤ z.ord := by
  obtain ⟨hz, hm, hd⟩ := h
  obtain ⟨x1, x2, x3, x4⟩ := hx
  obtain ⟨z1, z2, z3, z4⟩ := hz
  unfold monthIdx at hm
  have d1 := dim_pos x.y x.m x1 x2
  have d2 := dim_pos z.y z.m z1 z2
  unfold Ymd.ord
  by_cases hdec : x.m = 12
  · have e1 : z.m = 1 := by omega
    have e2 : z.y = x.y + 1 := by omega
    have e3 := dby_succ x.y
    have e4 := dbm_12 x.y
    have e5 : dbm z.y z.m = 0 := by rw [e1]; rfl
    have e6 : dim x.y x.m = 31 := by rw [hdec]; rfl
    rw [e2] at *
    rw [hdec]
    omega
  · have e1 : z.m = x.m + 1 := by omega
    have e2 : z.y = x.y := by omega
    have e3 := dbm_succ x.y x.m x1
    rw [e2] at *
    rw [e1] at *
    omega

theorem reached_lt (a b c : DT) (p q : Nat × Nat) (hk : KeyLt p q) (hb : Reached a b p) (hc : Reached a c q) :
    b.day < c.day := by
  obtain ⟨-, -, -, b1, b2, b3⟩ := hb
  obtain ⟨-, -, -, c1, c2, c3⟩ := hc
  have lex : ∀ u w : DT, monthIdx u.ymd < monthIdx w.ymd → u.day < w.day := by
    intro u w h
    have hu := ofOrd_valid u.day
    have hw := ofOrd_valid w.day
    have := ord_lt_of_lt (ofOrd u.day) (ofOrd w.day) hu hw (by
      unfold monthIdx DT.ymd at h
      obtain ⟨u1, u2, -⟩ := hu
      obtain ⟨w1, w2, -⟩ := hw
      unfold Ymd.lt
      omega)
    rw [ord_ofOrd, ord_ofOrd] at this
    exact this
  rcases hk with ⟨h1, h2, h3⟩ | ⟨h1, h2, h3⟩ | ⟨h1, h2⟩
  · have := b1 h1
    have := c1 h2
    omega
  · have hb' := b1 h1
    by_cases h : q.2 = 1
    · have := month_at_least_28 _ _ (ofOrd_valid a.day) (c3 h)
      unfold DT.ymd at this
      rw [ord_ofOrd, ord_ofOrd] at this
      omega
    · -- two or more months: beyond the date one month later, compare month by month
      have hc' := c2 (by omega)
      -- `b` is at most 14 days later, hence at most in the next month
      by_contra hcon
      have hle : c.day ≤ a.day + 14 := by omega
      have hva := ofOrd_valid a.day
      have hvc := ofOrd_valid c.day
      obtain ⟨a1, a2, a3, a4⟩ := hva
      obtain ⟨m1, m2, m3, m4⟩ := hvc
      have oa := ord_ofOrd a.day
      have oc := ord_ofOrd c.day
      -- the first day of the month after `a`'s
      let z : Ymd := if (ofOrd a.day).m = 12 then ⟨(ofOrd a.day).y + 1, 1, 28⟩ else ⟨(ofOrd a.day).y, (ofOrd a.day).m + 1, 28⟩
      have hz : z.Valid := by
        simp only [z]
        split
        · exact ⟨by simp, by simp, by simp, by simp [dim]⟩
        · exact ⟨by simp only; omega, by simp only; omega, by simp only; omega, dim_pos _ _ (by simp only; omega) (by simp only; omega)⟩
      have hzi : monthIdx z = monthIdx (ofOrd a.day) + 1 := by
        simp only [z, monthIdx]
        split <;> push_cast <;> omega
      have hzc : z.ord < (ofOrd c.day).ord := by
        refine ord_lt_of_lt z _ hz (ofOrd_valid _) ?_
        have : monthIdx z < monthIdx (ofOrd c.day) := by
          unfold DT.ymd at hc'
          omega
        unfold monthIdx at this
        obtain ⟨z1, z2, -⟩ := hz
        unfold Ymd.lt
        omega
      have hza : (ofOrd a.day).ord + 28 ≤ z.ord := by
        simp only [z]
        unfold Ymd.ord
        have d1 := dim_pos (ofOrd a.day).y (ofOrd a.day).m a1 a2
        split
        · rename_i h12
          have e3 := dby_succ (ofOrd a.day).y
          have e4 := dbm_12 (ofOrd a.day).y
          have e6 : dim (ofOrd a.day).y (ofOrd a.day).m = 31 := by rw [h12]; rfl
          have e5 : dbm ((ofOrd a.day).y + 1) 1 = 0 := rfl
          simp only
          rw [h12, e5]
          omega
        · have e3 := dbm_succ (ofOrd a.day).y (ofOrd a.day).m a1
          simp only
          rw [e3]
          omega
      omega
  · exact lex b c (by rw [b2 (by omega), c2 (by omega)]; omega)

/-- Local days apart, same time of day and offset: strictly later on the year axis. -/
theorem position_lt (off : Int) (b c : DT) (hb : b.Valid) (hbo : b.off = off) (hco : c.off = off)
    (ht : b.tod = c.tod) (h : b.day < c.day) : position off b < position off c := by
  have hy : b.ymd.y ≤ c.ymd.y := year_mono (by omega)
  have b1 := day_bounds b.day
  have b2 := day_bounds c.day
  change dby b.ymd.y < b.day ∧ b.day ≤ dby b.ymd.y + yearLen b.ymd.y at b1
  change dby c.ymd.y < c.day ∧ c.day ≤ dby c.ymd.y + yearLen c.ymd.y at b2
  have pd : (0 : Rat) < dayNs := by unfold dayNs; norm_num
  have pa : (0 : Rat) < yearLen b.ymd.y := by rcases yearLen_cases b.ymd.y with h | h <;> rw [h] <;> norm_num
  have pb : (0 : Rat) < yearLen c.ymd.y := by rcases yearLen_cases c.ymd.y with h | h <;> rw [h] <;> norm_num
  unfold position
  rw [local_instant b off hbo, local_instant c off hco]
  unfold inDays
  have ex : (((b.day - dby b.ymd.y) * dayNs + b.tod : Int) : Rat) / dayNs = ((b.day - dby b.ymd.y : Int) : Rat) + b.tod / dayNs := by
    push_cast; field_simp
  have ey : (((c.day - dby c.ymd.y) * dayNs + c.tod : Int) : Rat) / dayNs = ((c.day - dby c.ymd.y : Int) : Rat) + c.tod / dayNs := by
    push_cast; field_simp
  rw [ex, ey, ← ht]
  have fs1 : (b.tod : Rat) / dayNs < 1 := by rw [div_lt_one pd]; exact_mod_cast hb.2.2
  have fs0 : (0 : Rat) ≤ (b.tod : Rat) / dayNs := div_nonneg (by positivity) pd.le
  rcases Int.lt_or_eq_of_le hy with hlt | heq
  · have c1 : ((b.day - dby b.ymd.y : Int) : Rat) ≤ yearLen b.ymd.y := by
      exact_mod_cast (by omega : b.day - dby b.ymd.y ≤ yearLen b.ymd.y)
    have c2 : (1 : Rat) ≤ ((c.day - dby c.ymd.y : Int) : Rat) := by
      exact_mod_cast (by omega : 1 ≤ c.day - dby c.ymd.y)
    have c3 : ((b.ymd.y : Int) : Rat) + 1 ≤ (c.ymd.y : Int) := by exact_mod_cast hlt
    generalize ((b.day - dby b.ymd.y : Int) : Rat) = A at *
    generalize ((c.day - dby c.ymd.y : Int) : Rat) = B at *
    generalize (b.tod : Rat) / dayNs = f at *
    have k1 : (A + f) / (yearLen b.ymd.y : Rat) ≤ 1 + f / 365 := by
      rw [add_div]
      have : A / (yearLen b.ymd.y : Rat) ≤ 1 := by rw [div_le_one pa]; exact c1
      have : f / (yearLen b.ymd.y : Rat) ≤ f / 365 := by
        apply div_le_div_of_nonneg_left fs0 (by norm_num)
        rcases yearLen_cases b.ymd.y with h | h <;> rw [h] <;> norm_num
      linarith
    have k2 : (1 + f) / 366 ≤ (B + f) / yearLen c.ymd.y := by
      rw [div_le_div_iff₀ (by norm_num) pb]
      rcases yearLen_cases c.ymd.y with h | h <;> rw [h] <;> push_cast <;> nlinarith
    have k3 : f / 365 < (1 + f) / 366 := by
      rw [div_lt_div_iff₀ (by norm_num) (by norm_num)]
      linarith
    linarith
  · rw [heq]
    have : ((b.day - dby c.ymd.y : Int) : Rat) + 1 ≤ ((c.day - dby c.ymd.y : Int) : Rat) := by
      exact_mod_cast (by omega : b.day - dby c.ymd.y + 1 ≤ c.day - dby c.ymd.y)
    have := div_lt_div_of_pos_right (show ((b.day - dby c.ymd.y : Int) : Rat) + (b.tod : Rat) / dayNs
      < ((c.day - dby c.ymd.y : Int) : Rat) + (b.tod : Rat) / dayNs by linarith) pb
    linarith

/-- The times of the curve: one for each tenor, from 0, strictly increasing. -/
theorem curve_times (md : Mode) (a : DT) (ha : a.Valid) (hy : a.ymd.y ≤ 9899) :
    ∃ ds, mapRes (fun p => addPeriod md a p) tenors = .ok ds ∧ ds.length = 29 ∧ ds[0]? = some a ∧
      (ds.map fun d => timeDifference a d).Pairwise (· < ·) := by
  have each : ∀ s ∈ tenors, ∃ d, addPeriod md a s = .ok d ∧ Reached a d (tenorKey (scan true [] s)) := by
    intro s hs
    have hm : scan true [] s ∈ tenorSteps := by rw [← scan_tenors]; exact List.mem_map_of_mem hs
    obtain ⟨d, e, h⟩ := tenor_reached md a ha hy _ hm
    refine ⟨d, ?_, h⟩
    unfold addPeriod
    have hne : ∀ ts ∈ tenorSteps, ts ≠ [] := by decide
    split
    · rename_i h0
      exact absurd h0 (hne _ hm)
    · exact e
  -- all of them
  have all : ∀ l : List (List Char), (∀ s ∈ l, s ∈ tenors) → ∃ ds, mapRes (fun p => addPeriod md a p) l = .ok ds ∧
      List.Forall₂ (fun s d => addPeriod md a s = .ok d ∧ Reached a d (tenorKey (scan true [] s))) l ds := by
    intro l
    induction l with
    | nil => exact fun _ => ⟨[], rfl, .nil⟩
    | cons s l ih =>
      intro hl
      obtain ⟨ds, e, h⟩ := ih fun x hx => hl x (List.mem_cons_of_mem _ hx)
      obtain ⟨d, e1, h1⟩ := each s (hl s (by simp))
      exact ⟨d :: ds, by simp [mapRes, e1, e], .cons ⟨e1, h1⟩ h⟩
  obtain ⟨ds, e, hf⟩ := all tenors fun s hs => hs
  have hlen : ds.length = 29 := by rw [← hf.length_eq]; rfl
  refine ⟨ds, e, hlen, ?_, ?_⟩
  · -- the first is the date itself
    cases hf with
    | cons h _ =>
      obtain ⟨-, r1, r2, r3, r4, -⟩ := h
      have k0 : tenorKey (scan true [] ['0', 'D']) = (0, 0) := by decide +kernel
      rw [k0] at r4
      have := r4 rfl
      simp only [List.getElem?_cons_zero, Option.some.injEq]
      rename_i d _ _
      obtain ⟨dd, dt, do_⟩ := d
      obtain ⟨ad, at', ao⟩ := a
      simp only at *
      subst r2 r3
      simp only [DT.mk.injEq, and_true]
      omega
  · have keys := keys_increasing
    rw [← scan_tenors, List.map_map] at keys
    -- transfer along Forall₂
    have trans : ∀ (l : List (List Char)) (ds : List DT),
        List.Forall₂ (fun s d => addPeriod md a s = .ok d ∧ Reached a d (tenorKey (scan true [] s))) l ds →
        (l.map (tenorKey ∘ scan true [])).Pairwise KeyLt →
        (ds.map fun d => timeDifference a d).Pairwise (· < ·) := by
      intro l ds h
      induction h with
      | nil => intro _; exact .nil
      | cons h1 h2 ih =>
        rename_i s d l ds
        intro hp
        rw [List.map_cons, List.pairwise_cons] at hp
        rw [List.map_cons, List.pairwise_cons]
        refine ⟨?_, ih hp.2⟩
        intro x hx
        obtain ⟨c, hc, rfl⟩ := List.mem_map.1 hx
        -- find the tenor of `c`
        obtain ⟨s', hs', hr⟩ : ∃ s' ∈ l, Reached a c (tenorKey (scan true [] s')) := by
          clear ih hp hx
          induction h2 with
          | nil => cases hc
          | cons g1 g2 ih2 =>
            rcases List.mem_cons.1 hc with rfl | hc
            · exact ⟨_, by simp, g1.2⟩
            · obtain ⟨s', h', hr⟩ := ih2 hc
              exact ⟨s', List.mem_cons_of_mem _ h', hr⟩
        have hk := hp.1 _ (List.mem_map_of_mem hs')
        have hlt := reached_lt a d c _ _ hk h1.2 hr
        obtain ⟨dv, dt, do_, -⟩ := h1.2
        obtain ⟨cv, ct, co, -⟩ := id hr
        have hday : ∀ x key, Reached a x key → a.ymd.y ≤ x.ymd.y := by
          intro x key hx
          refine year_mono ?_
          obtain ⟨-, -, -, x1, x2, -⟩ := hx
          by_cases hk : key.2 = 0
          · have := x1 hk; omega
          · have := x2 (by omega)
            have hu := ofOrd_valid a.day
            have hw := ofOrd_valid x.day
            have := ord_lt_of_lt (ofOrd a.day) (ofOrd x.day) hu hw (by
              unfold monthIdx DT.ymd at this
              obtain ⟨u1, u2, -⟩ := hu
              obtain ⟨w1, w2, -⟩ := hw
              unfold Ymd.lt
              omega)
            rw [ord_ofOrd, ord_ofOrd] at this
            omega
        rw [C55_position, C55_position, if_pos (hday d _ h1.2), if_pos (hday c _ hr)]
        have := position_lt a.off d c dv do_ co (dt.trans ct.symm) hlt
        linarith
    exact trans tenors ds hf keys

end Verif.Props

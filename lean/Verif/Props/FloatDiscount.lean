import Verif.Props.FloatBumps
import Verif.Props.FloatKnots
/-!
# C144: discount factors in single precision
-/
set_option autoImplicit false
namespace Verif.Props
open Verif Verif.QL Verif.Float Verif.Civil

/-- What the theorems need of `f32::exp`: it is one at both zeros, between zero and one and non-decreasing for numbers that
are not positive, and up to 20 between zero and `2 ^ 30` (`exp 20` is less than `2 ^ 29`). -/
structure ExpSpec (E : Fl → Fl) : Prop where
  one : ∀ s, E (.fin s 0) = f32.lit 1
  range : ∀ a x, f32.Finite a x → x ≤ 0 → ∃ y, f32.Finite (E a) y ∧ 0 ≤ y ∧ y ≤ 1
  small : ∀ a x, f32.Finite a x → x ≤ 20 → ∃ y, f32.Finite (E a) y ∧ 0 ≤ y ∧ y ≤ 2 ^ 30
  mono : ∀ a b x y v w, f32.Finite a x → f32.Finite b y → x ≤ y → y ≤ 0 → f32.Finite (E a) v → f32.Finite (E b) w → v ≤ w

/-- There are such functions: `1 / (1 - x)` for negative and `1 + x` for positive numbers, correctly rounded. -/
def hyperbola : Fl → Fl
  | .fin _ x => f32.of false (if x ≤ 0 then 1 / (1 - x) else 1 + x)
  | a => a

theorem hyperbola_spec : ExpSpec hyperbola := by
  have big : ∀ x : ℚ, x ≤ 0 → 0 ≤ 1 / (1 - x) ∧ 1 / (1 - x) ≤ 1 := by
    intro x hx
    refine ⟨by apply div_nonneg <;> linarith, ?_⟩
    rw [div_le_one (by linarith)]
    linarith
  have fin : ∀ x : ℚ, x ≤ 0 → f32.Finite (f32.of false (if x ≤ 0 then 1 / (1 - x) else 1 + x)) (f32.rnd (1 / (1 - x))) := by
    intro x hx
    rw [if_pos hx]
    refine finite_of f32 false _ (le_f32_max ?_)
    obtain ⟨h1, h2⟩ := big x hx
    rw [abs_of_nonneg h1]
    exact h2.trans (by norm_num)
  have range : ∀ a x, f32.Finite a x → x ≤ 0 → ∃ y, f32.Finite (hyperbola a) y ∧ 0 ≤ y ∧ y ≤ 1 := by
    rintro a x ⟨s, rfl, -⟩ hx
    refine ⟨_, fin x hx, rnd_nonneg f32 (big x hx).1, rnd_le f32 (big x hx).2 ?_⟩
    simpa using rep_p 0 (by omega)
  refine ⟨fun s => ?_, range, ?_, ?_⟩
  · show f32.of false (if (0 : ℚ) ≤ 0 then 1 / (1 - 0) else 1 + 0) = _
    norm_num [Fmt.lit]
  · intro a x ha hx
    by_cases h0 : x ≤ 0
    · obtain ⟨y, y1, y2, y3⟩ := range a x ha h0
      exact ⟨y, y1, y2, y3.trans (by norm_num)⟩
    · obtain ⟨s, rfl, -⟩ := ha
      have h0 := not_le.1 h0
      refine ⟨f32.rnd (1 + x), ?_, rnd_nonneg f32 (by linarith), rnd_le f32 (by norm_num; linarith) (rep_p 30 (by omega))⟩
      show f32.Finite (f32.of false (if x ≤ 0 then 1 / (1 - x) else 1 + x)) _
      rw [if_neg (not_le.2 h0)]
      refine finite_of f32 false _ (le_f32_max ?_)
      rw [abs_of_pos (by linarith)]
      norm_num
      linarith
  · rintro a b x y v w ⟨s, rfl, -⟩ ⟨t, rfl, -⟩ h hy hv hw
    rw [hv.unique (fin x (h.trans hy)), hw.unique (fin y hy)]
    refine rnd_mono f32 ?_
    apply one_div_le_one_div_of_le <;> linarith

theorem position_range (off : Int) (b : DT) (hb : b.Valid) (hbo : b.off = off) :
    (b.ymd.y : ℚ) ≤ position off b ∧ position off b ≤ b.ymd.y + 2 := by
  have b1 := day_bounds b.day
  change dby b.ymd.y < b.day ∧ b.day ≤ dby b.ymd.y + yearLen b.ymd.y at b1
  have pd : (0 : Rat) < dayNs := by unfold dayNs; norm_num
  have pa : (365 : Rat) ≤ yearLen b.ymd.y := by rcases yearLen_cases b.ymd.y with h | h <;> rw [h] <;> norm_num
  unfold position
  rw [local_instant b off hbo]
  unfold inDays
  have ex : (((b.day - dby b.ymd.y) * dayNs + b.tod : Int) : Rat) / dayNs = ((b.day - dby b.ymd.y : Int) : Rat) + b.tod / dayNs := by
    push_cast; field_simp
  rw [ex]
  have fs1 : (b.tod : Rat) / dayNs < 1 := by rw [div_lt_one pd]; exact_mod_cast hb.2.2
  have fs0 : (0 : Rat) ≤ (b.tod : Rat) / dayNs := div_nonneg (by positivity) pd.le
  have c1 : ((b.day - dby b.ymd.y : Int) : Rat) ≤ yearLen b.ymd.y := by
    exact_mod_cast (by omega : b.day - dby b.ymd.y ≤ yearLen b.ymd.y)
  have c2 : (1 : Rat) ≤ ((b.day - dby b.ymd.y : Int) : Rat) := by
    exact_mod_cast (by omega : 1 ≤ b.day - dby b.ymd.y)
  generalize ((b.day - dby b.ymd.y : Int) : Rat) = A at *
  generalize (b.tod : Rat) / dayNs = f at *
  generalize (yearLen b.ymd.y : Rat) = Y at *
  have k0 : 0 ≤ (A + f) / Y := div_nonneg (by linarith) (by linarith)
  have k1 : (A + f) / Y ≤ 2 := by
    rw [div_le_iff₀ (by linarith)]
    linarith
  constructor <;> linarith

/-- The times a curve caches: at least a five-hundredth of a year apart, from exactly zero to at most 104 years. -/
theorem knot_values (md : Mode) (a : DT) (ha : a.Valid) (ao : OffOk a) (hy : a.ymd.y ≤ 9899) :
    ∃ ds qs, mapRes (fun p => addPeriod md a p) tenors = .ok ds ∧ Values (ds.map (timeDifferenceF a)) qs ∧ ds.length = 29 ∧
      qs[0]? = some 0 ∧ qs.Pairwise (fun x y => x + 1 / 500 ≤ y) ∧ ∀ q ∈ qs, 0 ≤ q ∧ q ≤ 104 := by
  obtain ⟨ds, e, hlen, h0, pw, hall⟩ := tenor_days md a ha hy
  have acc : ∀ d ∈ ds, ∃ x, f32.Finite (timeDifferenceF a d) x ∧ |x - (position a.off d - position a.off a)| ≤ 1 / 50000 := by
    intro d hd
    obtain ⟨v, t, o, dd, yy⟩ := hall d hd
    obtain ⟨x, x1, x2⟩ := C141_accuracy a d ha v ao (by unfold OffOk at *; rwa [o])
    have ya : a.ymd.y ≤ d.ymd.y := year_mono dd
    rw [C55_position, if_pos ya] at x2
    refine ⟨x, x1, x2.trans ?_⟩
    have hn : 3 * |d.ymd.y - a.ymd.y| + 14 ≤ 317 := by
      rw [abs_of_nonneg (by omega)]; omega
    have : ((3 * |d.ymd.y - a.ymd.y| + 14 : Int) : ℚ) ≤ 317 := by exact_mod_cast hn
    refine (div_le_div_of_nonneg_right this (by norm_num)).trans ?_
    norm_num
  have hqs : ∃ qs, List.Forall₂ (fun d x => f32.Finite (timeDifferenceF a d) x ∧ |x - (position a.off d - position a.off a)| ≤ 1 / 50000) ds qs := by
    clear hlen h0 pw hall e
    induction ds with
    | nil => exact ⟨[], .nil⟩
    | cons d ds ih =>
      obtain ⟨x, hx⟩ := acc d (List.mem_cons_self ..)
      obtain ⟨qs, hq⟩ := ih fun d hd => acc d (List.mem_cons_of_mem _ hd)
      exact ⟨x :: qs, .cons hx hq⟩
  obtain ⟨qs, hqs⟩ := hqs
  have hl := hqs.length_eq
  have hget := (List.forall₂_iff_get.1 hqs).2
  have gap : qs.Pairwise (fun x y => x + 1 / 500 ≤ y) := by
    rw [List.pairwise_iff_getElem]
    intro i j hi hj hij
    obtain ⟨-, x2⟩ := hget i (by omega) hi
    obtain ⟨-, y2⟩ := hget j (by omega) hj
    have hlt := List.pairwise_iff_getElem.1 pw i j (by omega) (by omega) hij
    obtain ⟨v, t, o, -, -⟩ := hall (ds[i]'(by omega)) (List.getElem_mem _)
    obtain ⟨-, t', o', -, -⟩ := hall (ds[j]'(by omega)) (List.getElem_mem _)
    have g := position_gap a.off _ _ v o o' (t.trans t'.symm) hlt
    rw [List.get_eq_getElem, List.get_eq_getElem, abs_le] at x2 y2
    obtain ⟨x3, x4⟩ := x2
    obtain ⟨y3, y4⟩ := y2
    linarith
  have first : qs[0]? = some 0 := by
    obtain ⟨x1, -⟩ := hget 0 (by omega) (by omega)
    rw [List.getElem?_eq_getElem (by omega), Option.some.injEq] at h0
    rw [List.get_eq_getElem, List.get_eq_getElem, h0] at x1
    rw [List.getElem?_eq_getElem (by omega), x1.unique (C141_zero a)]
  refine ⟨ds, qs, e, ?_, hlen, first, gap, ?_⟩
  · unfold Values
    rw [List.forall₂_map_left_iff]
    exact hqs.imp fun _ _ h => h.1
  · intro q hq
    obtain ⟨i, hi, rfl⟩ := List.mem_iff_getElem.1 hq
    constructor
    · rcases Nat.eq_zero_or_pos i with hz | hz
      · subst hz
        rw [List.getElem?_eq_getElem hi, Option.some.injEq] at first
        rw [first]
      · have g := List.pairwise_iff_getElem.1 gap 0 i (by omega) hi hz
        rw [List.getElem?_eq_getElem (by omega), Option.some.injEq] at first
        rw [first] at g
        linarith
    · obtain ⟨-, x2⟩ := hget i (by omega) hi
      rw [List.get_eq_getElem, List.get_eq_getElem, abs_le] at x2
      obtain ⟨v, t, o, -, yy⟩ := hall (ds[i]'(by omega)) (List.getElem_mem _)
      obtain ⟨-, r2⟩ := position_range a.off _ v o
      obtain ⟨r3, -⟩ := position_range a.off a ha rfl
      have : ((ds[i]'(by omega)).ymd.y : ℚ) ≤ a.ymd.y + 101 := by exact_mod_cast yy
      obtain ⟨-, x4⟩ := x2
      linarith

/-- A curve as its constructor and its bumps leave it: it caches the times of the 29 tenors from the evaluation date, and its
discount factors are those of the cached rates. -/
def CurveOn (E : Fl → Fl) (md : Mode) (eval : DT) (c : CurveF) : Prop :=
  ∃ ds, mapRes (fun p => addPeriod md eval p) tenors = .ok ds ∧ c.times = ds.map (timeDifferenceF eval) ∧
    CurveF.of E c.rateInterp c.rates c.times = .ok c

theorem of_fields (E : Fl → Fl) (ri : RateInterpF) (rs ts : List Fl) (c : CurveF) (h : CurveF.of E ri rs ts = .ok c) :
    c.rateInterp = ri ∧ c.rates = rs ∧ c.times = ts ∧ c.dfs = discountsF E rs ts ∧
      linNewF ts (discountsF E rs ts) .none false = .ok c.disc := by
  unfold CurveF.of at h
  obtain ⟨d, e, h⟩ := (bind_ok_iff _ _ _).1 h
  obtain rfl := Except.ok.inj h
  exact ⟨rfl, rfl, rfl, rfl, e⟩

theorem new_on (E : Fl → Fl) (md : Mode) (eval : DT) (times rates : List Fl) (c : CurveF) (h : CurveF.new E md eval times rates = .ok c) :
    CurveOn E md eval c := by
  unfold CurveF.new at h
  split_ifs at h
  obtain ⟨ri, -, h⟩ := (bind_ok_iff _ _ _).1 h
  obtain ⟨ds, e, h⟩ := (bind_ok_iff _ _ _).1 h
  dsimp only at h
  obtain ⟨rs, -, h⟩ := (bind_ok_iff _ _ _).1 h
  obtain ⟨f1, f2, f3, -, -⟩ := of_fields E _ _ _ c h
  exact ⟨ds, e, f3, by rw [f1, f2, f3]; exact h⟩

theorem bump_on (E : Fl → Fl) (md : Mode) (eval : DT) (c c' : CurveF) (time1 time2 : Option Fl) (b : Fl) (hc : CurveOn E md eval c)
    (h : c.bumpTimes E time1 time2 b = .ok c') : CurveOn E md eval c' := by
  obtain ⟨ds, e, ht, -⟩ := hc
  obtain ⟨-, -, h3, -, -, h6⟩ := bump_iff E c c' time1 time2 b h
  exact ⟨ds, e, h3.trans ht, by rw [h3]; exact h6⟩

/-- One cached discount factor. -/
theorem cell_df {E : Fl → Fl} (hE : ExpSpec E) {r t : Fl} {q p : ℚ} (hr : f32.Finite r q) (ht : f32.Finite t p)
    (q1 : -19 / 100 ≤ q) (q2 : q ≤ 2 ^ 20) (p1 : 0 ≤ p) (p2 : p ≤ 104) :
    ∃ v, f32.Finite (E (f32.mul r t).neg) v ∧ 0 ≤ v ∧ v ≤ 2 ^ 30 ∧ (p = 0 → v = 1) ∧ (0 ≤ q → v ≤ 1) := by
  have b1 : -20 ≤ q * p := by nlinarith
  have b2 : q * p ≤ 2 ^ 20 * 104 := mul_le_mul q2 p2 p1 (by norm_num)
  have fin := finite_mul hr ht (le_f32_max (abs_le.2 ⟨le_trans (by norm_num) b1, b2.trans (by norm_num)⟩))
  have r20 : f32.Rep (-20) := by
    have := rep_int f32 (by decide) (-20) (by decide)
    simpa using this
  have lo : -20 ≤ f32.rnd (q * p) := le_rnd f32 b1 r20
  obtain ⟨v, v1, v2, v3⟩ := hE.small _ _ fin.neg (by linarith)
  refine ⟨v, v1, v2, v3, ?_, ?_⟩
  · rintro rfl
    rw [mul_zero, rnd_zero] at fin
    obtain ⟨s, e, -⟩ := fin
    rw [e] at v1
    have : (Fl.fin s 0).neg = .fin (!s) 0 := by
      show Fl.fin (!s) (-0) = _
      rw [neg_zero]
    rw [this, hE.one] at v1
    exact v1.unique f32_one
  · intro hq
    obtain ⟨w, w1, -, w3⟩ := hE.range _ _ fin.neg (by linarith [rnd_nonneg f32 (mul_nonneg hq p1)])
    rw [v1.unique w1]
    exact w3

/-- The knots of the discount factors. -/
theorem knot_dfs {E : Fl → Fl} (hE : ExpSpec E) (md : Mode) (eval : DT) (ha : eval.Valid) (ao : OffOk eval) (hy : eval.ymd.y ≤ 9899)
    (c : CurveF) (hc : CurveOn E md eval c) (rq : List ℚ) (hr : Values c.rates rq) (hb : ∀ r ∈ rq, -19 / 100 ≤ r ∧ r ≤ 2 ^ 20) :
    ∃ tq vs, Values c.times tq ∧ Values c.dfs vs ∧ c.dfs = discountsF E c.rates c.times ∧ PlainKnots tq vs (2 ^ 30) ∧ tq.length = 29 ∧ 29 ≤ rq.length ∧
      tq[0]? = some 0 ∧ vs[0]? = some 1 ∧ (∀ q ∈ tq, 0 ≤ q ∧ q ≤ 104) ∧ (∀ v ∈ vs, 0 ≤ v) ∧ ((∀ r ∈ rq, 0 ≤ r) → ∀ v ∈ vs, v ≤ 1) := by
  obtain ⟨ds, e, ht, hof⟩ := hc
  obtain ⟨ds', tq, e', tv, hlen, first, gap, tb⟩ := knot_values md eval ha ao hy
  rw [e'] at e
  obtain rfl := Except.ok.inj e
  rw [← ht] at tv
  obtain ⟨-, -, -, f4, f5⟩ := of_fields E _ _ _ c hof
  have lt := tv.length
  have lt' : c.times.length = 29 := by rw [ht, List.length_map, hlen]
  have lr := hr.length
  have ld : c.dfs.length = 29 ∧ 29 ≤ c.rates.length := by
    unfold linNewF at f5
    split_ifs at f5 with h
    have h := not_not.1 h
    rw [f4]
    unfold discountsF at h ⊢
    rw [List.length_zipWith] at h ⊢
    omega
  have cell : ∀ i (h1 : i < c.dfs.length) (h2 : i < rq.length) (h3 : i < tq.length), ∃ v, f32.Finite c.dfs[i] v ∧ 0 ≤ v ∧ v ≤ 2 ^ 30 ∧
      (tq[i] = 0 → v = 1) ∧ (0 ≤ rq[i] → v ≤ 1) := by
    intro i h1 h2 h3
    have := cell_df hE (hr.get i (by omega) h2) (tv.get i (by omega) h3) (hb _ (List.getElem_mem h2)).1 (hb _ (List.getElem_mem h2)).2
      (tb _ (List.getElem_mem h3)).1 (tb _ (List.getElem_mem h3)).2
    have ei : c.dfs[i] = E (f32.mul (c.rates[i]'(by omega)) (c.times[i]'(by omega))).neg := by
      have : c.dfs[i]? = some (E (f32.mul (c.rates[i]'(by omega)) (c.times[i]'(by omega))).neg) := by
        rw [f4]
        unfold discountsF
        rw [List.getElem?_zipWith, List.getElem?_eq_getElem (by omega), List.getElem?_eq_getElem (by omega)]
      rw [List.getElem?_eq_getElem h1] at this
      exact Option.some.inj this
    rw [ei]
    exact this
  have hex : ∃ vs : List ℚ, vs.length = 29 ∧ ∀ i (h1 : i < c.dfs.length) (h2 : i < rq.length) (h3 : i < tq.length) (h4 : i < vs.length),
      f32.Finite c.dfs[i] vs[i] ∧ 0 ≤ vs[i] ∧ vs[i] ≤ 2 ^ 30 ∧ (tq[i] = 0 → vs[i] = 1) ∧ (0 ≤ rq[i] → vs[i] ≤ 1) := by
    refine ⟨List.ofFn fun i : Fin 29 => (cell i (by omega) (by omega) (by omega)).choose, by simp, ?_⟩
    intro i h1 h2 h3 h4
    rw [List.getElem_ofFn]
    exact (cell i h1 h2 h3).choose_spec
  obtain ⟨vs, lv, hvs⟩ := hex
  have vv : Values c.dfs vs := by
    refine List.forall₂_iff_get.2 ⟨by omega, fun i h1 h2 => ?_⟩
    exact (hvs i h1 (by omega) (by omega) h2).1
  refine ⟨tq, vs, tv, vv, f4, ⟨by omega, ?_, ?_, ?_, ?_, le_refl _⟩, by omega, by omega, first, ?_, tb, ?_, ?_⟩
  · intro h
    rw [h] at first
    cases first
  · refine gap.imp fun h => le_trans ?_ h
    norm_num
  · intro q hq
    obtain ⟨t1, t2⟩ := tb q hq
    rw [abs_of_nonneg t1]
    linarith
  · intro v hv
    obtain ⟨i, hi, rfl⟩ := List.mem_iff_getElem.1 hv
    obtain ⟨-, x, y, -⟩ := hvs i (by omega) (by omega) (by omega) hi
    rwa [abs_of_nonneg x]
  · rw [List.getElem?_eq_getElem (by omega), (hvs 0 (by omega) (by omega) (by omega) (by omega)).2.2.2.1]
    rw [List.getElem?_eq_getElem (by omega), Option.some.injEq] at first
    exact first
  · intro v hv
    obtain ⟨i, hi, rfl⟩ := List.mem_iff_getElem.1 hv
    exact (hvs i (by omega) (by omega) (by omega) hi).2.1
  · intro hpos v hv
    obtain ⟨i, hi, rfl⟩ := List.mem_iff_getElem.1 hv
    exact (hvs i (by omega) (by omega) (by omega) hi).2.2.2.2 (hpos _ (List.getElem_mem _))

theorem Values.unique {v : List Fl} {xs ys : List ℚ} (h : Values v xs) (h' : Values v ys) : xs = ys := by
  unfold Values at h h'
  induction h generalizing ys with
  | nil => cases h'; rfl
  | cons a _ ih =>
    cases h' with
    | cons b h' => rw [a.unique b, ih h']

theorem CurveOn.disc {E : Fl → Fl} {md : Mode} {eval : DT} {c : CurveF} (hc : CurveOn E md eval c) :
    linNewF c.times c.dfs .none false = .ok c.disc := by
  obtain ⟨ds, -, -, h⟩ := hc
  obtain ⟨-, -, -, f4, f5⟩ := of_fields E _ _ _ c h
  rw [f4]
  exact f5

/-- The rates a curve caches, as numbers: between -19 % and a million. -/
def RatesIn (c : CurveF) (rq : List ℚ) : Prop := Values c.rates rq ∧ ∀ r ∈ rq, -19 / 100 ≤ r ∧ r ≤ 2 ^ 20

section
variable {E : Fl → Fl} (hE : ExpSpec E) (md : Mode) (eval : DT) (ha : eval.Valid) (ao : OffOk eval) (hy : eval.ymd.y ≤ 9899)
  (c : CurveF) (hc : CurveOn E md eval c) (rq : List ℚ) (hr : RatesIn c rq)
include hE ha ao hy hc hr

/-- **C144** (today). At time zero, of either sign, the discount factor is exactly one. -/
theorem C144_today (s : Bool) : ∃ y, c.df (.fin s 0) = .ok y ∧ f32.Finite y 1 := by
  obtain ⟨tq, vs, tv, vv, -, pk, lt, -, t0, v0, tb, -⟩ := knot_dfs hE md eval ha ao hy c hc rq hr.1 hr.2
  have ll := pk.len
  rw [List.getElem?_eq_getElem (by omega), Option.some.injEq] at t0 v0
  have z : f32.Finite (.fin s 0) 0 := ⟨s, rfl, rep_zero f32, by rw [abs_zero]; exact (maxFin_pos f32).le, fun h => absurd h (lt_irrefl _),
    fun h => absurd h (lt_irrefl _)⟩
  have g := sorted_lt pk.sorted 0 1 (by omega) (by omega)
  obtain ⟨y, e, hy⟩ := interpF_inside tv vv pk .none false c.disc hc.disc 0 (by omega) z t0.le (by rw [← t0]; exact g)
  refine ⟨y, e, ?_⟩
  have left := lineVal_left vs[0] vs[1] tq[0] tq[1] (vv.get 0 (by have := vv.length; omega) (by omega)).rep
  rw [t0] at left
  rw [t0, left, v0] at hy
  exact hy

/-- **C144** (where). There is a discount factor exactly for the times from zero to just before the last cached time. -/
theorem C144_where (tq : List ℚ) (tv : Values c.times tq) (hl : 0 < tq.length) {x : Fl} {q : ℚ} (hx : f32.Finite x q) :
    (0 ≤ q ∧ q < tq[tq.length - 1] → ∃ y w, c.df x = .ok y ∧ f32.Finite y w) ∧
    (¬ (0 ≤ q ∧ q < tq[tq.length - 1]) → c.df x = .error .err) := by
  obtain ⟨tq', vs, tv', vv, -, pk, lt, -, t0, v0, tb, -⟩ := knot_dfs hE md eval ha ao hy c hc rq hr.1 hr.2
  obtain rfl := Values.unique tv tv'
  have ll := pk.len
  rw [List.getElem?_eq_getElem (by omega), Option.some.injEq] at t0 v0
  constructor
  · rintro ⟨h1, h2⟩
    rcases interp_trichotomy tq pk.sorted hl q with hq | ⟨i, hi, i1, i2⟩ | hq
    · rw [t0] at hq
      linarith
    · obtain ⟨y, e, hy⟩ := interpF_inside tv vv pk .none false c.disc hc.disc i hi hx i1 i2
      exact ⟨y, _, e, hy⟩
    · linarith
  · intro h
    obtain ⟨g, hg⟩ := (C38_new tq vs .none false).2.2.2 ll pk.some pk.sorted
    have hq : q < tq[0] ∨ tq[tq.length - 1] ≤ q := by
      rw [t0]
      by_contra hn
      rw [not_or, not_lt, not_le] at hn
      exact h hn
    rcases interpF_outside tv vv pk .none false c.disc hc.disc (by decide) g hg hx hq with ⟨e, e1, e2⟩ | ⟨r, y, -, e1, -⟩
    · rw [C38_refused tq vs .none false g hg pk.sorted ll hl (Or.inl rfl) q hq] at e1
      rw [show c.df x = linInterpF c.disc x from rfl, e2]
      rw [Except.error.inj e1]
    · rw [C38_refused tq vs .none false g hg pk.sorted ll hl (Or.inl rfl) q hq] at e1
      cases e1

/-- **C144** (bounds). With cached rates that are not negative every discount factor is between zero and one, up to nine
parts in `2 ^ 24`. -/
theorem C144_bounds (hpos : ∀ r ∈ rq, 0 ≤ r) {x y : Fl} {q : ℚ} (hx : f32.Finite x q) (h : c.df x = .ok y) :
    ∃ w, f32.Finite y w ∧ -(9 / 2 ^ 24) ≤ w ∧ w ≤ 1 + 9 / 2 ^ 24 := by
  obtain ⟨tq, vs, tv, vv, -, pk, lt, -, t0, v0, tb, vn, v1⟩ := knot_dfs hE md eval ha ao hy c hc rq hr.1 hr.2
  have ll := pk.len
  have v1 := v1 hpos
  have pk1 : PlainKnots tq vs 1 := ⟨pk.len, pk.some, pk.gaps, pk.knots, fun v hv => by rw [abs_of_nonneg (vn v hv)]; exact v1 v hv, by norm_num⟩
  rcases interp_trichotomy tq pk.sorted (by omega) q with hq | ⟨i, hi, i1, i2⟩ | hq
  · rw [(C144_where hE md eval ha ao hy c hc rq hr tq tv (by omega) hx).2 (by
      rw [List.getElem?_eq_getElem (by omega), Option.some.injEq] at t0
      rw [t0] at hq
      intro h
      linarith [h.1])] at h
    cases h
  · obtain ⟨y', e, hy⟩ := interpF_inside tv vv pk1 .none false c.disc hc.disc i hi hx i1 i2
    rw [show linInterpF c.disc x = c.df x from rfl, h] at e
    obtain rfl := Except.ok.inj e
    refine ⟨_, hy, ?_⟩
    have seg := pk1.segment i hi q i1 i2.le
    have lv := vv.length
    have lt' := tv.length
    have err := line_error (vv.get i (by omega) (by omega)).rep (vv.get (i + 1) (by omega) (by omega)).rep
      (tv.get i (by omega) (by omega)).rep (tv.get (i + 1) (by omega) (by omega)).rep hx.rep seg
    have a0 := vn _ (List.getElem_mem (show i < vs.length by omega))
    have a1 := v1 _ (List.getElem_mem (show i < vs.length by omega))
    have b0 := vn _ (List.getElem_mem (show i + 1 < vs.length by omega))
    have b1 := v1 _ (List.getElem_mem (show i + 1 < vs.length by omega))
    have st := sorted_lt pk.sorted i (i + 1) (by omega) hi
    generalize vs[i]'(by omega) = A at *
    generalize vs[i + 1]'(by omega) = B at *
    generalize tq[i] = S at *
    generalize tq[i + 1] = T at *
    have ch : 0 ≤ chordQ A B S T q ∧ chordQ A B S T q ≤ 1 := by
      have hd : 0 < T - S := sub_pos.2 st
      have l0 : 0 ≤ (q - S) / (T - S) := div_nonneg (sub_nonneg.2 i1) hd.le
      have l1 : (q - S) / (T - S) ≤ 1 := by rw [div_le_one hd]; linarith
      have e : chordQ A B S T q = (1 - (q - S) / (T - S)) * A + (q - S) / (T - S) * B := by unfold chordQ; field_simp; ring
      rw [e]
      generalize (q - S) / (T - S) = l at *
      constructor <;> nlinarith
    have m1 : max |A| |B| ≤ 1 := max_le (by rwa [abs_of_nonneg a0]) (by rwa [abs_of_nonneg b0])
    have m2 : |B - A| ≤ 1 := abs_le.2 ⟨by linarith, by linarith⟩
    rw [abs_le] at err
    obtain ⟨e1, e2⟩ := err
    have tiny : ((1 : ℚ) / 2) ^ 100 ≤ 1 / 2 ^ 24 := by norm_num
    constructor <;> linarith
  · rw [(C144_where hE md eval ha ao hy c hc rq hr tq tv (by omega) hx).2 (by
      intro h
      linarith [h.2])] at h
    cases h

/-- **C144** (falling). If rate times time does not fall from one cached tenor to the next and is not negative, the discount
factor does not rise from the one to the other nor anywhere in between, and is at most one. -/
theorem C144_falls (tq : List ℚ) (tv : Values c.times tq) (i : Nat) (hi : i + 1 < tq.length) (hi' : i + 1 < rq.length) (h0 : 0 ≤ rq[i] * tq[i])
    (hm : rq[i] * tq[i] ≤ rq[i + 1] * tq[i + 1]) {x x' : Fl} {q q' : ℚ} (hx : f32.Finite x q) (hx' : f32.Finite x' q') (h1 : tq[i] ≤ q) (hq : q ≤ q')
    (h2 : q' < tq[i + 1]) :
    ∃ y y' w w', c.df x = .ok y ∧ c.df x' = .ok y' ∧ f32.Finite y w ∧ f32.Finite y' w' ∧ w' ≤ w ∧ w ≤ 1 := by
  obtain ⟨tq', vs, tv', vv, hd, pk, lt, lr, t0, v0, tb, vn, -⟩ := knot_dfs hE md eval ha ao hy c hc rq hr.1 hr.2
  obtain rfl := Values.unique tv tv'
  have ll := pk.len
  have ln := vv.length
  have lt' := tv.length
  have lr' := hr.1.length
  have cellv : ∀ j (h1 : j < rq.length) (h2 : j < tq.length) (h3 : j < vs.length), f32.Finite (f32.mul (c.rates[j]'(by omega)) (c.times[j]'(by omega))).neg (-f32.rnd (rq[j] * tq[j])) ∧
      f32.Finite (E (f32.mul (c.rates[j]'(by omega)) (c.times[j]'(by omega))).neg) vs[j] := by
    intro j h1 h2 h3
    have q1 := hr.2 _ (List.getElem_mem h1)
    have p1 := tb _ (List.getElem_mem h2)
    refine ⟨?_, ?_⟩
    · refine (finite_mul (hr.1.get j (by omega) h1) (tv.get j (by omega) h2) (le_f32_max (abs_le.2 ⟨?_, ?_⟩))).neg
      · have : -20 ≤ rq[j] * tq[j] := by nlinarith [q1.1, p1.1, p1.2]
        exact le_trans (by norm_num) this
      · have : rq[j] * tq[j] ≤ 2 ^ 20 * 104 := mul_le_mul q1.2 p1.2 p1.1 (by norm_num)
        exact this.trans (by norm_num)
    · have := vv.get j (by omega) h3
      have ei : c.dfs[j]'(by omega) = E (f32.mul (c.rates[j]'(by omega)) (c.times[j]'(by omega))).neg := by
        have e : c.dfs[j]? = some (E (f32.mul (c.rates[j]'(by omega)) (c.times[j]'(by omega))).neg) := by
          rw [hd]
          unfold discountsF
          rw [List.getElem?_zipWith, List.getElem?_eq_getElem (by omega), List.getElem?_eq_getElem (by omega)]
        rw [List.getElem?_eq_getElem (by omega)] at e
        exact Option.some.inj e
      rwa [ei] at this
  obtain ⟨a1, a2⟩ := cellv i (by omega) (by omega) (by omega)
  obtain ⟨b1, b2⟩ := cellv (i + 1) (by omega) (by omega) (by omega)
  have n0 := rnd_nonneg f32 h0
  have down : vs[i + 1] ≤ vs[i] := hE.mono _ _ _ _ _ _ b1 a1 (neg_le_neg (rnd_mono f32 hm)) (by linarith) b2 a2
  have top : vs[i] ≤ 1 := by
    obtain ⟨w, w1, -, w2⟩ := hE.range _ _ a1 (by linarith)
    rw [a2.unique w1]
    exact w2
  obtain ⟨y, y', e, e', -, h⟩ := C143_segment tv vv pk .none false c.disc hc.disc i hi (by omega) hx hx' h1 hq h2
  obtain ⟨w, w', z, z', z1, z2⟩ := h down
  exact ⟨y, y', w, w', e, e', z, z', z2, z1.trans top⟩

end

/-- `exp` is a contraction on the numbers that are not positive. -/
theorem exp_contract {a b : ℝ} (ha : a ≤ 0) (hb : b ≤ 0) : |Real.exp a - Real.exp b| ≤ |a - b| := by
  have main : ∀ x y : ℝ, x ≤ y → y ≤ 0 → Real.exp y - Real.exp x ≤ y - x := by
    intro x y hxy hy
    have h1 : Real.exp x = Real.exp y * Real.exp (x - y) := by rw [← Real.exp_add]; congr 1; ring
    have h2 := Real.add_one_le_exp (x - y)
    have h3 := Real.exp_pos y
    have h4 : Real.exp y ≤ 1 := Real.exp_le_one_iff.2 hy
    rw [h1]
    nlinarith
  rcases le_total a b with h | h
  · have := main a b h hb
    have m := Real.exp_le_exp.2 h
    rw [abs_of_nonpos (by linarith), abs_of_nonpos (by linarith)]
    linarith
  · have := main b a h ha
    have m := Real.exp_le_exp.2 h
    rw [abs_of_nonneg (by linarith), abs_of_nonneg (by linarith)]
    linarith

/-- **C144** (accuracy). If the exponential of the program is within `η` of the true one for numbers that are not positive, the
discount factor cached for a rate and a time is within `η + rate * time / 2 ^ 24 + 2 ^ -150` of `exp (- rate * time)`. -/
theorem C144_accuracy (E : Fl → Fl) (η : ℝ) (hη : ∀ a x y, f32.Finite a x → x ≤ 0 → f32.Finite (E a) y → |(y : ℝ) - Real.exp x| ≤ η)
    {r t : Fl} {q p v : ℚ} (hr : f32.Finite r q) (ht : f32.Finite t p) (q1 : 0 ≤ q) (q2 : q ≤ 2 ^ 20) (p1 : 0 ≤ p) (p2 : p ≤ 2 ^ 20)
    (hv : f32.Finite (E (f32.mul r t).neg) v) :
    |(v : ℝ) - Real.exp (-((q : ℝ) * p))| ≤ η + ((q * p / 2 ^ 24 + 2 ^ (-150 : Int) : ℚ) : ℝ) := by
  have b2 : q * p ≤ 2 ^ 20 * 2 ^ 20 := mul_le_mul q2 p2 p1 (by norm_num)
  have b1 : 0 ≤ q * p := mul_nonneg q1 p1
  have fin := finite_mul hr ht (le_f32_max (by rw [abs_of_nonneg b1]; exact b2.trans (by norm_num)))
  have n0 := rnd_nonneg f32 b1
  have h1 := hη _ _ _ fin.neg (by linarith) hv
  have h2 : |f32.rnd (q * p) - q * p| ≤ q * p / 2 ^ 24 + 2 ^ (-150 : Int) := by
    have := rnd_err f32 (q * p)
    rw [abs_of_nonneg b1] at this
    exact this
  have h3 : |((-f32.rnd (q * p) : ℚ) : ℝ) - -((q : ℝ) * p)| ≤ ((q * p / 2 ^ 24 + 2 ^ (-150 : Int) : ℚ) : ℝ) := by
    have e : ((-f32.rnd (q * p) : ℚ) : ℝ) - -((q : ℝ) * p) = ((-(f32.rnd (q * p) - q * p) : ℚ) : ℝ) := by push_cast; ring
    rw [e, ← Rat.cast_abs, abs_neg]
    exact_mod_cast h2
  have h4 := exp_contract (a := ((-f32.rnd (q * p) : ℚ) : ℝ)) (b := -((q : ℝ) * p)) (by exact_mod_cast (by linarith : -f32.rnd (q * p) ≤ 0)) (by
    have : (0 : ℝ) ≤ (q : ℝ) * p := by exact_mod_cast b1
    linarith)
  have h5 := abs_sub_le (v : ℝ) (Real.exp ((-f32.rnd (q * p) : ℚ) : ℝ)) (Real.exp (-((q : ℝ) * p)))
  linarith

/-- **C144** (one rate). From a single rate the constructor makes a curve that caches it 29 times. -/
theorem C144_flat {E : Fl → Fl} (md : Mode) (eval : DT) (ha : eval.Valid) (ao : OffOk eval) (hy : eval.ymd.y ≤ 9899) (t r : Fl) :
    ∃ c, CurveF.new E md eval [t] [r] = .ok c ∧ c.rates = List.replicate 29 r ∧ CurveOn E md eval c := by
  obtain ⟨ds, qs, e, tv, hlen, h0, gap, -⟩ := knot_values md eval ha ao hy
  have hl := tv.length
  rw [List.length_map] at hl
  have er : (ds.map (timeDifferenceF eval)).map (fun _ => r) = List.replicate 29 r := by
    rw [List.map_map, ← hlen]
    exact List.map_const' ..
  have sorted : isSorted (ds.map (timeDifferenceF eval)) = .ok true := by
    rw [sorted_agree tv]
    have pw : qs.Pairwise (· < ·) := gap.imp fun h => lt_of_lt_of_le (by linarith) h
    have hne : qs ≠ [] := by rintro rfl; simp at h0
    obtain ⟨f, hf⟩ := (C38_new qs qs .none false).2.2.2 rfl hne pw
    unfold Lin.new at hf
    rw [if_neg (by omega)] at hf
    cases hq : isSorted qs with
    | error e => rw [hq] at hf; cases hf
    | ok b =>
      rw [hq] at hf
      cases b
      · cases hf
      · rfl
  have hnew : ∃ c, CurveF.new E md eval [t] [r] = .ok c ∧ c.rates = List.replicate 29 r := by
    unfold CurveF.new mkRatesF
    rw [if_neg (by simp), if_neg (by simp), if_pos (by simp), e]
    simp only [at_ok [r] 0 (by simp), Res.bind_ok, RateInterpF.vec, List.getElem_cons_zero]
    rw [er]
    unfold CurveF.of linNewF
    rw [if_neg (by
      unfold discountsF
      simp [hlen]), sorted]
    exact ⟨_, rfl, rfl⟩
  obtain ⟨c, h1, h2⟩ := hnew
  exact ⟨c, h1, h2, new_on E md eval _ _ c h1⟩

/-- A flat curve of 3.5 % on 30 December 2024 meets all of the hypotheses. -/
example : ∃ c rq, CurveF.new hyperbola .wrapping (utcAt 2024 12 30 43200) [f32.lit 1] [f32.lit (35 / 1000)] = .ok c ∧
    CurveOn hyperbola .wrapping (utcAt 2024 12 30 43200) c ∧ RatesIn c rq ∧ (∀ r ∈ rq, 0 ≤ r) ∧ rq.length = 29 := by
  obtain ⟨c, h1, h2, h3⟩ := C144_flat (E := hyperbola) .wrapping (utcAt 2024 12 30 43200)
    (by refine ⟨?_, ?_, ?_⟩ <;> decide +kernel) (by unfold OffOk; decide +kernel) (by decide +kernel) (f32.lit 1) (f32.lit (35 / 1000))
  have fin := f32_lit_value (35 / 1000) (by norm_num)
  have lo : 0 ≤ f32.rnd (35 / 1000) := rnd_nonneg f32 (by norm_num)
  have hi : f32.rnd (35 / 1000) ≤ 2 ^ 20 := rnd_le f32 (by norm_num) (rep_p 20 (by omega))
  refine ⟨c, List.replicate 29 (f32.rnd (35 / 1000)), h1, h3, ⟨?_, ?_⟩, ?_, by simp⟩
  · rw [h2]
    unfold Values
    generalize 29 = n
    induction n with
    | zero => exact .nil
    | succ n ih => exact .cons fin ih
  · intro r hr
    rw [List.eq_of_mem_replicate hr]
    exact ⟨by linarith, hi⟩
  · intro r hr
    rw [List.eq_of_mem_replicate hr]
    exact lo

end Verif.Props

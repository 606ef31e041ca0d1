import Verif.QL.ZeroCurve
import Verif.Props.Interp
import Verif.Props.CurveTimes
import Mathlib.Analysis.Convex.SpecificFunctions.Basic
/-!
# C57-C60: the zero curve

The specification is in terms of what the program shows: the cached times, the rates at those times, and the discount
factors returned for a time. `chord` (C38) is the straight line through two points.
-/
set_option autoImplicit false
set_option linter.unusedSectionVars false
namespace Verif.Props
open Verif Verif.QL Verif.Civil

/-- Specification: `y` is the value at `x` of the broken line through the points `(xs[i], ys[i])`, continued flat on
both sides. -/
def FlatLine (xs ys : List ℝ) (x y : ℝ) : Prop :=
  (∃ x0 y0, xs[0]? = some x0 ∧ ys[0]? = some y0 ∧ x ≤ x0 ∧ y = y0) ∨
  (∃ x1 y1, xs[xs.length - 1]? = some x1 ∧ ys[xs.length - 1]? = some y1 ∧ x1 ≤ x ∧ y = y1) ∨
  (∃ (i : Nat) (x0 x1 y0 y1 : ℝ), xs[i]? = some x0 ∧ xs[i + 1]? = some x1 ∧ ys[i]? = some y0 ∧ ys[i + 1]? = some y1 ∧
    x0 ≤ x ∧ x < x1 ∧ y = chord x0 y0 x1 y1 x)

/-- The invariant of every curve: as many rates as times, times from zero strictly upwards, and the discount factors
and their interpolator rebuilt from the current rates. -/
structure CurveOk (c : Curve) : Prop where
  len : c.rates.length = c.times.length
  two : 2 ≤ c.times.length
  inc : c.times.Pairwise (· < ·)
  zero : c.times[0]? = some 0
  dfs_eq : c.dfs = discounts c.rates c.times
  disc_eq : Lin.new c.times c.dfs .none false = .ok c.disc

/-- The curves a program can hold: one that was constructed, then bumped any number of times. -/
inductive Built (md : Mode) (eval : DT) (times rates : List ℝ) : Curve → Prop
  | new {c} : Curve.new md eval times rates = .ok c → Built md eval times rates c
  | bump {c c'} (t1 t2 : Option ℝ) (b : ℝ) : Built md eval times rates c → c.bumpTimes t1 t2 b = .ok c' →
      Built md eval times rates c'

/-! ### The broken line -/

theorem seg_exists {xs : List ℝ} (x : ℝ) (x0 xl : ℝ) (h0 : xs[0]? = some x0)
    (hl : xs[xs.length - 1]? = some xl) (h1 : x0 ≤ x) (h2 : x < xl) :
    ∃ i, ∃ h : i + 1 < xs.length, xs[i] ≤ x ∧ x < xs[i + 1] := by
  have key : ∀ n, ∀ h : n < xs.length, x < xs[n] → ∃ i, ∃ h : i + 1 < xs.length, xs[i] ≤ x ∧ x < xs[i + 1] := by
    intro n
    induction n with
    | zero =>
      intro h hx
      rw [List.getElem?_eq_getElem h] at h0
      cases h0
      linarith
    | succ n ih =>
      intro h hx
      by_cases hc : xs[n] ≤ x
      · exact ⟨n, h, hc, hx⟩
      · exact ih (by omega) (not_le.1 hc)
  obtain ⟨hlt, he⟩ := List.getElem?_eq_some_iff.1 hl
  exact key _ hlt (by rw [he]; exact h2)

theorem flatLine_interp (xs ys : List ℝ) (f : Lin ℝ) (hf : Lin.new xs ys .flat true = .ok f) (hs : xs.Pairwise (· < ·))
    (hl : xs.length = ys.length) (hd : 0 < xs.length) (x : ℝ) : ∃ y, f.interp x = .ok y ∧ FlatLine xs ys x y := by
  by_cases h0 : x < xs[0]
  · exact ⟨_, (C38_flat xs ys f hf hs hl hd x).1 h0, .inl ⟨_, _, List.getElem?_eq_getElem hd,
      List.getElem?_eq_getElem (by omega), h0.le, rfl⟩⟩
  by_cases h1 : xs[xs.length - 1] ≤ x
  · exact ⟨_, (C38_flat xs ys f hf hs hl hd x).2 h1, .inr (.inl ⟨_, _, List.getElem?_eq_getElem (by omega),
      List.getElem?_eq_getElem (by omega), h1, rfl⟩)⟩
  obtain ⟨i, hi, g1, g2⟩ := seg_exists x _ _ (List.getElem?_eq_getElem hd)
    (List.getElem?_eq_getElem (by omega : xs.length - 1 < xs.length)) (not_lt.1 h0) (not_le.1 h1)
  exact ⟨_, C38_inside xs ys .flat true f hf hs hl i hi x g1 g2, .inr (.inr ⟨i, _, _, _, _,
    List.getElem?_eq_getElem (by omega), List.getElem?_eq_getElem hi, List.getElem?_eq_getElem (by omega),
    List.getElem?_eq_getElem (by omega), g1, g2, rfl⟩)⟩

theorem mapM_ok {α β : Type} (g : α → Res β) (P : α → β → Prop) (h : ∀ a, ∃ b, g a = .ok b ∧ P a b) (l : List α) :
    ∃ r, l.mapM g = .ok r ∧ List.Forall₂ P l r := by
  induction l with
  | nil => exact ⟨[], rfl, .nil⟩
  | cons a l ih =>
    obtain ⟨r, e, hr⟩ := ih
    obtain ⟨b, eb, hb⟩ := h a
    refine ⟨b :: r, ?_, .cons hb hr⟩
    rw [List.mapM_cons, eb]
    simp only [Res.bind_ok]
    rw [e]
    rfl

theorem mapRes_forall₂ {α β : Type} (f : α → Res β) (l : List α) (r : List β) (h : mapRes f l = .ok r) :
    List.Forall₂ (fun a b => f a = .ok b) l r := by
  induction l generalizing r with
  | nil => simp only [mapRes] at h; cases h; exact .nil
  | cons a l ih =>
    simp only [mapRes] at h
    obtain ⟨b, e, h⟩ := (bind_ok_iff _ _ _).1 h
    obtain ⟨bs, e', h⟩ := (bind_ok_iff _ _ _).1 h
    cases h
    exact .cons e (ih bs e')

theorem discounts_length (rs ts : List ℝ) (h : rs.length = ts.length) : (discounts rs ts).length = ts.length := by
  unfold discounts; rw [List.length_zipWith]; omega

theorem discounts_get (rs ts : List ℝ) (i : Nat) (r t : ℝ) (hr : rs[i]? = some r) (ht : ts[i]? = some t) :
    (discounts rs ts)[i]? = some (Real.exp (-(r * t))) := by
  unfold discounts
  rw [List.getElem?_zipWith, hr, ht]

/-- C57 (construction). For an evaluation date up to the year 9899 and rates at strictly increasing times, the
constructor succeeds; the curve's 29 times are those from the evaluation date to the dates 0D, 1D, ..., 100Y later,
starting at 0 and strictly increasing; the rate at each of them is the one rate if there is only one, and otherwise the
value of the broken line through the given rates, continued flat. -/
theorem C57_new (md : Mode) (eval : DT) (he : eval.Valid) (hy : eval.ymd.y ≤ 9899) (times rates : List ℝ)
    (hl : times.length = rates.length) (hne : rates ≠ []) (hs : times.Pairwise (· < ·)) :
    ∃ c ds, Curve.new md eval times rates = .ok c ∧ CurveOk c ∧ c.times.length = 29 ∧
      List.Forall₂ (fun p d => addPeriod md eval p = .ok d) tenors ds ∧
      c.times = ds.map (fun d => ((timeDifference eval d : ℚ) : ℝ)) ∧
      List.Forall₂ (fun t r => (∀ r0, rates = [r0] → r = r0) ∧ (2 ≤ rates.length → FlatLine times rates t r))
        c.times c.rates := by
  obtain ⟨ds, e, hlen, h0, hinc⟩ := curve_times md eval he hy
  let ts : List ℝ := ds.map fun d => ((timeDifference eval d : ℚ) : ℝ)
  have hinc' : ts.Pairwise (· < ·) := by
    rw [List.pairwise_map] at hinc
    simp only [ts]
    rw [List.pairwise_map]
    exact hinc.imp fun h => by exact_mod_cast h
  have htl : ts.length = 29 := by simp [ts, hlen]
  have hne' : ts ≠ [] := by intro h; rw [h] at htl; simp at htl
  have hz : ts[0]? = some 0 := by
    simp only [ts, List.getElem?_map, h0, Option.map_some]
    rw [C55_position, if_pos (le_refl _), sub_self]
    simp
  have hds : List.Forall₂ (fun p d => addPeriod md eval p = .ok d) tenors ds := mapRes_forall₂ _ _ _ e
  -- the rates
  have hrates : ∃ ri rs, mkRates times rates = .ok ri ∧ ri.vec ts = .ok rs ∧
      List.Forall₂ (fun t r => (∀ r0, rates = [r0] → r = r0) ∧ (2 ≤ rates.length → FlatLine times rates t r)) ts rs := by
    unfold mkRates
    by_cases h1 : rates.length = 1
    · rw [if_pos h1]
      match rates, h1 with
      | [r0], _ =>
        refine ⟨.const r0, ts.map fun _ => r0, rfl, rfl, ?_⟩
        rw [List.forall₂_map_right_iff]
        refine List.forall₂_same.2 fun t _ => ⟨?_, ?_⟩
        · intro r1 h; simpa using h
        · intro h; simp at h
    · rw [if_neg h1]
      have hn0 : times ≠ [] := by
        intro h; apply hne; rw [h] at hl; exact List.length_eq_zero_iff.1 hl.symm
      obtain ⟨f, hf⟩ := (C38_new times rates .flat true).2.2.2 hl hn0 hs
      have hv := C38_vectorised times rates .flat true f hf hs hl hn0 ts (hinc'.imp le_of_lt)
      obtain ⟨rs, hrs, hall⟩ := mapM_ok f.interp (FlatLine times rates)
        (fun x => flatLine_interp times rates f hf hs hl (List.length_pos_iff.2 hn0) x) ts
      refine ⟨.lin f, rs, by rw [hf]; rfl, hv.trans hrs, ?_⟩
      refine hall.imp fun a b hab => ⟨?_, fun _ => hab⟩
      intro r0 h; rw [h] at h1; simp at h1
  obtain ⟨ri, rs, e1, e2, hall⟩ := hrates
  have hrl : rs.length = ts.length := hall.length_eq.symm
  obtain ⟨disc, hdisc⟩ := (C38_new ts (discounts rs ts) .none false).2.2.2 (discounts_length rs ts hrl).symm hne' hinc'
  refine ⟨⟨ri, rs, ts, discounts rs ts, disc⟩, ds, ?_, ⟨hrl, by simp only; omega, hinc', hz, rfl, hdisc⟩, htl, hds, rfl, hall⟩
  unfold Curve.new
  rw [if_neg (by omega), if_neg (by simpa using hne), e1, e]
  simp only [Res.bind_ok]
  rw [show (ds.map fun d => ((timeDifference eval d : ℚ) : ℝ)) = ts from rfl, e2]
  simp only [Res.bind_ok]
  rw [hdisc]
  rfl

/-- C57 (refusals). Different numbers of times and rates, no rates, or two or more rates at times that are not in order:
an error. -/
theorem C57_refused (md : Mode) (eval : DT) (times rates : List ℝ)
    (h : times.length ≠ rates.length ∨ rates = [] ∨ (2 ≤ rates.length ∧ ¬ times.Pairwise (· ≤ ·))) :
    Curve.new md eval times rates = .error .err := by
  unfold Curve.new
  by_cases h1 : times.length ≠ rates.length
  · rw [if_pos h1]
  rw [if_neg h1]
  by_cases h2 : rates = []
  · rw [h2]; rfl
  rw [if_neg (by simpa using h2)]
  rcases h with h | h | ⟨h, hs⟩
  · exact absurd h h1
  · exact absurd h h2
  · have := (C38_new times rates .flat true).2.1 (not_not.1 h1) (by
      rintro rfl; exact hs .nil) hs
    unfold mkRates
    rw [if_neg (by omega), this]
    rfl

theorem bump_ok (c : Curve) (hc : CurveOk c) (time1 time2 : Option ℝ) (b : ℝ)
    (ht : time1.getD (-99999999) ≤ time2.getD 99999999) :
    ∃ c', c.bumpTimes time1 time2 b = .ok c' ∧ CurveOk c' ∧ c'.times = c.times ∧
      c'.rates = List.zipWith (fun r t => r + bumpMask (time1.getD (-99999999)) (time2.getD 99999999) t * b) c.rates c.times := by
  obtain ⟨hlen, htwo, hinc, hz, hd, hdi⟩ := hc
  have hne : c.times ≠ [] := by rintro h; rw [h] at htwo; simp at htwo
  generalize hrs : List.zipWith (fun r t => r + bumpMask (time1.getD (-99999999)) (time2.getD 99999999) t * b) c.rates c.times = rs
  have hrl : rs.length = c.times.length := by rw [← hrs, List.length_zipWith]; omega
  obtain ⟨disc, hdisc⟩ := (C38_new c.times (discounts rs c.times) .none false).2.2.2 (discounts_length rs _ hrl).symm hne hinc
  obtain ⟨f, hf⟩ := (C38_new c.times rs .flat true).2.2.2 hrl.symm hne hinc
  refine ⟨⟨.lin f, rs, c.times, discounts rs c.times, disc⟩, ?_, ⟨hrl, htwo, hinc, hz, rfl, hdisc⟩, rfl, rfl⟩
  unfold Curve.bumpTimes mkRates
  dsimp only
  rw [if_neg (by omega), if_neg (not_lt.2 ht), hrs, if_neg (by omega), hf]
  simp only [Res.bind_ok]
  rw [hdisc]
  rfl

theorem bump_err (c : Curve) (time1 time2 : Option ℝ) (b : ℝ)
    (ht : time2.getD 99999999 < time1.getD (-99999999)) : c.bumpTimes time1 time2 b = .error .err := by
  unfold Curve.bumpTimes
  dsimp only
  rw [if_pos ht]
  exact ite_self _

theorem built_ok {md : Mode} {eval : DT} {times rates : List ℝ} (he : eval.Valid) (hy : eval.ymd.y ≤ 9899)
    (hl : times.length = rates.length) (hne : rates ≠ []) (hs : times.Pairwise (· < ·)) {c : Curve}
    (h : Built md eval times rates c) : CurveOk c := by
  induction h with
  | new h =>
    obtain ⟨c', -, e, ok, -⟩ := C57_new md eval he hy times rates hl hne hs
    rw [e] at h; cases h; exact ok
  | bump t1 t2 b _ hb ih =>
    by_cases ht : t1.getD (-99999999) ≤ t2.getD 99999999
    · obtain ⟨c'', e, ok, -⟩ := bump_ok _ ih t1 t2 b ht
      rw [e] at hb; cases hb; exact ok
    · rw [bump_err _ t1 t2 b (not_le.1 ht)] at hb
      cases hb

/-! ### C57: discount factors -/

theorem ok_get (c : Curve) (hc : CurveOk c) (i : Nat) (hi : i < c.times.length) (hr : i < c.rates.length)
    (hd : i < c.dfs.length) : c.dfs[i] = Real.exp (-(c.rates[i] * c.times[i])) := by
  have := discounts_get c.rates c.times i _ _ (List.getElem?_eq_getElem hr) (List.getElem?_eq_getElem hi)
  rw [← hc.dfs_eq, List.getElem?_eq_getElem hd] at this
  simpa using this

theorem ok_dlen (c : Curve) (hc : CurveOk c) : c.times.length = c.dfs.length := by
  rw [hc.dfs_eq, discounts_length _ _ hc.len]

/-- C57 (discount factors). On every curve, however often it was bumped: at a cached time `t` with rate `r` the discount
factor is `exp(-r t)`, the cached discount factor; between two cached times it is on the straight line between theirs. -/
theorem C57_between (c : Curve) (hc : CurveOk c) (i : Nat) (t0 t1 r0 r1 : ℝ) (h0 : c.times[i]? = some t0)
    (h1 : c.times[i + 1]? = some t1) (g0 : c.rates[i]? = some r0) (g1 : c.rates[i + 1]? = some r1) (t : ℝ)
    (a : t0 ≤ t) (b : t < t1) :
    c.df t = .ok (chord t0 (Real.exp (-(r0 * t0))) t1 (Real.exp (-(r1 * t1))) t) ∧
    c.df t0 = .ok (Real.exp (-(r0 * t0))) ∧ c.dfs[i]? = some (Real.exp (-(r0 * t0))) := by
  obtain ⟨k0, e0⟩ := List.getElem?_eq_some_iff.1 h0
  obtain ⟨k1, e1⟩ := List.getElem?_eq_some_iff.1 h1
  obtain ⟨m0, f0⟩ := List.getElem?_eq_some_iff.1 g0
  obtain ⟨m1, f1⟩ := List.getElem?_eq_some_iff.1 g1
  have hl := ok_dlen c hc
  have d0 := ok_get c hc i k0 m0 (by omega)
  have d1 := ok_get c hc (i + 1) k1 m1 (by omega)
  rw [e0, f0] at d0
  rw [e1, f1] at d1
  refine ⟨?_, ?_, ?_⟩
  · have := C38_inside c.times c.dfs .none false c.disc hc.disc_eq hc.inc hl i k1 t (by rw [e0]; exact a) (by rw [e1]; exact b)
    rw [d0, d1, e0, e1] at this
    exact this
  · have := C38_knot c.times c.dfs .none false c.disc hc.disc_eq hc.inc hl i k1
    rw [d0, e0] at this
    exact this
  · rw [List.getElem?_eq_getElem (by omega), d0]

theorem df_cases (c : Curve) (hc : CurveOk c) (t : ℝ) (tl : ℝ) (hl : c.times[c.times.length - 1]? = some tl)
    (h0 : 0 ≤ t) (h1 : t < tl) : ∃ (i : Nat) (t0 t1 r0 r1 : ℝ), c.times[i]? = some t0 ∧ c.times[i + 1]? = some t1 ∧
      c.rates[i]? = some r0 ∧ c.rates[i + 1]? = some r1 ∧ t0 ≤ t ∧ t < t1 ∧
      c.df t = .ok (chord t0 (Real.exp (-(r0 * t0))) t1 (Real.exp (-(r1 * t1))) t) := by
  obtain ⟨i, hi, a, b⟩ := seg_exists t 0 tl hc.zero hl h0 h1
  have := hc.len
  have h0 : c.times[i]? = some c.times[i] := List.getElem?_eq_getElem (by omega)
  have h1 : c.times[i + 1]? = some c.times[i + 1] := List.getElem?_eq_getElem (by omega)
  have g0 : c.rates[i]? = some c.rates[i] := List.getElem?_eq_getElem (by omega)
  have g1 : c.rates[i + 1]? = some c.rates[i + 1] := List.getElem?_eq_getElem (by omega)
  exact ⟨i, _, _, _, _, h0, h1, g0, g1, a, b, (C57_between c hc i _ _ _ _ h0 h1 g0 g1 t a b).1⟩

/-- C57 (range). Today's discount factor is 1, and exactly the times from zero up to, but not including, the last
cached time have a discount factor; it is positive. Every other time is an error. -/
theorem C57_range (c : Curve) (hc : CurveOk c) (tl : ℝ) (hl : c.times[c.times.length - 1]? = some tl) :
    c.df 0 = .ok 1 ∧ 0 < tl ∧ (∀ t, 0 ≤ t → t < tl → ∃ y, c.df t = .ok y ∧ 0 < y) ∧
    (∀ t, t < 0 ∨ tl ≤ t → c.df t = .error .err) := by
  have htwo := hc.two
  obtain ⟨z, ez⟩ := List.getElem?_eq_some_iff.1 hc.zero
  obtain ⟨l, el⟩ := List.getElem?_eq_some_iff.1 hl
  have hlt : 0 < tl := by
    have := sorted_lt hc.inc 0 (c.times.length - 1) (by omega) l
    rw [ez, el] at this
    exact this
  refine ⟨?_, hlt, ?_, ?_⟩
  · have := hc.len
    have := (C57_between c hc 0 0 c.times[1] c.rates[0] c.rates[1] hc.zero (List.getElem?_eq_getElem (by omega))
      (List.getElem?_eq_getElem (by omega)) (List.getElem?_eq_getElem (by omega)) 0 (le_refl _) (by
        have := sorted_lt hc.inc 0 1 (by omega) (by omega)
        rw [ez] at this; exact this)).2.1
    simpa using this
  · intro t h0 h1
    obtain ⟨i, t0, t1, r0, r1, -, -, -, -, a, b, e⟩ := df_cases c hc t tl hl h0 h1
    refine ⟨_, e, ?_⟩
    unfold chord
    have p0 := Real.exp_pos (-(r0 * t0))
    have p1 := Real.exp_pos (-(r1 * t1))
    refine div_pos ?_ (by linarith)
    have q0 : 0 < Real.exp (-(r0 * t0)) * (t1 - t) := mul_pos p0 (by linarith)
    have q1 : 0 ≤ Real.exp (-(r1 * t1)) * (t - t0) := mul_nonneg p1.le (by linarith)
    linarith
  · intro t ht
    refine C38_refused c.times c.dfs .none false c.disc hc.disc_eq hc.inc (ok_dlen c hc) (by omega) (.inl rfl) t ?_
    rw [ez, el]
    exact ht

theorem chord_le (t0 t1 t y0 y1 z0 z1 : ℝ) (a : t0 ≤ t) (b : t < t1) (h0 : y0 ≤ z0) (h1 : y1 ≤ z1) :
    chord t0 y0 t1 y1 t ≤ chord t0 z0 t1 z1 t := by
  unfold chord
  have : 0 < t1 - t0 := by linarith
  rw [div_le_div_iff_of_pos_right this]
  have := mul_le_mul_of_nonneg_right h0 (by linarith : 0 ≤ t1 - t)
  have := mul_le_mul_of_nonneg_right h1 (by linarith : 0 ≤ t - t0)
  linarith

theorem chord_const (t0 t1 t y : ℝ) (a : t0 ≤ t) (b : t < t1) : chord t0 y t1 y t = y := by
  unfold chord
  have : t1 - t0 ≠ 0 := by intro h; linarith
  field_simp
  ring

/-- C57 (bounds). If no rate is negative no discount factor exceeds 1. -/
theorem C57_le_one (c : Curve) (hc : CurveOk c) (hr : ∀ r ∈ c.rates, 0 ≤ r) (t y : ℝ) (h : c.df t = .ok y) : y ≤ 1 := by
  have htwo := hc.two
  have hl : c.times[c.times.length - 1]? = some c.times[c.times.length - 1] := List.getElem?_eq_getElem (by omega)
  obtain ⟨-, -, -, herr⟩ := C57_range c hc _ hl
  by_cases hin : 0 ≤ t ∧ t < c.times[c.times.length - 1]
  · obtain ⟨i, t0, t1, r0, r1, a0, a1, b0, b1, a, b, e⟩ := df_cases c hc t _ hl hin.1 hin.2
    rw [e] at h
    cases h
    have pos : ∀ (j : Nat) s, c.times[j]? = some s → 0 ≤ s := by
      intro j s hs
      obtain ⟨z, ez⟩ := List.getElem?_eq_some_iff.1 hc.zero
      obtain ⟨l, el⟩ := List.getElem?_eq_some_iff.1 hs
      rcases Nat.eq_zero_or_pos j with rfl | hj
      · rw [hc.zero] at hs; cases hs; exact le_refl _
      · have := sorted_lt hc.inc 0 j hj l
        rw [ez, el] at this
        exact this.le
    have le1 : ∀ (j : Nat) s r, c.times[j]? = some s → c.rates[j]? = some r → Real.exp (-(r * s)) ≤ 1 := by
      intro j s r hs hr'
      rw [Real.exp_le_one_iff]
      have := mul_nonneg (hr r (List.mem_of_getElem? hr')) (pos j s hs)
      linarith
    calc _ ≤ chord t0 1 t1 1 t := chord_le t0 t1 t _ _ _ _ a b (le1 _ _ _ a0 b0) (le1 _ _ _ a1 b1)
      _ = 1 := chord_const t0 t1 t 1 a b
  · rw [herr t (by by_contra hcon; push Not at hcon; exact hin hcon)] at h
    cases h

/-- C57 (no arbitrage). If rate times time never falls from one cached time to the next, discount factors never rise
with time. -/
theorem C57_antitone (c : Curve) (hc : CurveOk c)
    (hr : (List.zipWith (· * ·) c.rates c.times).Pairwise (· ≤ ·)) (s t y z : ℝ) (hst : s ≤ t) (hs : c.df s = .ok y)
    (ht : c.df t = .ok z) : z ≤ y := by
  have htwo := hc.two
  -- the mirrored interpolator: minus the discount factors
  have hl : c.times[c.times.length - 1]? = some c.times[c.times.length - 1] := List.getElem?_eq_getElem (by omega)
  obtain ⟨-, -, -, herr⟩ := C57_range c hc _ hl
  have inr : ∀ u v, c.df u = .ok v → 0 ≤ u ∧ u < c.times[c.times.length - 1] := by
    intro u v hu
    by_contra hcon
    rw [herr u (by by_contra h; push Not at h; exact hcon h)] at hu
    cases hu
  have mono : ∀ (i j : Nat) ri ti rj tj, i ≤ j → c.rates[i]? = some ri → c.times[i]? = some ti →
      c.rates[j]? = some rj → c.times[j]? = some tj → Real.exp (-(rj * tj)) ≤ Real.exp (-(ri * ti)) := by
    intro i j ri ti rj tj hij a b a' b'
    rcases Nat.eq_or_lt_of_le hij with rfl | hlt
    · rw [a] at a'; rw [b] at b'; cases a'; cases b'; exact le_refl _
    · rw [Real.exp_le_exp]
      have e1 : (List.zipWith (· * ·) c.rates c.times)[i]? = some (ri * ti) := by rw [List.getElem?_zipWith, a, b]
      have e2 : (List.zipWith (· * ·) c.rates c.times)[j]? = some (rj * tj) := by rw [List.getElem?_zipWith, a', b']
      obtain ⟨l1, g1⟩ := List.getElem?_eq_some_iff.1 e1
      obtain ⟨l2, g2⟩ := List.getElem?_eq_some_iff.1 e2
      have := List.pairwise_iff_getElem.1 hr i j l1 l2 hlt
      rw [g1, g2] at this
      linarith
  obtain ⟨s0, s1⟩ := inr s y hs
  obtain ⟨u0, u1⟩ := inr t z ht
  obtain ⟨i, a0, a1, r0, r1, x0, x1, x2, x3, x4, x5, e⟩ := df_cases c hc s _ hl s0 s1
  obtain ⟨j, b0, b1, q0, q1, w0, w1, w2, w3, w4, w5, e'⟩ := df_cases c hc t _ hl u0 u1
  rw [e] at hs; cases hs
  rw [e'] at ht; cases ht
  obtain ⟨li, gi⟩ := List.getElem?_eq_some_iff.1 x1
  obtain ⟨lj, gj⟩ := List.getElem?_eq_some_iff.1 w0
  rcases Nat.lt_trichotomy i j with hij | rfl | hij
  · -- different pieces
    calc chord b0 (Real.exp (-(q0 * b0))) b1 (Real.exp (-(q1 * b1))) t
        ≤ chord b0 (Real.exp (-(q0 * b0))) b1 (Real.exp (-(q0 * b0))) t :=
          chord_le _ _ _ _ _ _ _ w4 w5 (le_refl _) (mono j (j + 1) _ _ _ _ (by omega) w2 w0 w3 w1)
      _ = Real.exp (-(q0 * b0)) := chord_const _ _ _ _ w4 w5
      _ ≤ Real.exp (-(r1 * a1)) := mono (i + 1) j _ _ _ _ (by omega) x3 x1 w2 w0
      _ = chord a0 (Real.exp (-(r1 * a1))) a1 (Real.exp (-(r1 * a1))) s := (chord_const _ _ _ _ x4 x5).symm
      _ ≤ _ := chord_le _ _ _ _ _ _ _ x4 x5 (mono i (i + 1) _ _ _ _ (by omega) x2 x0 x3 x1) (le_refl _)
  · rw [x0] at w0; rw [x1] at w1; rw [x2] at w2; rw [x3] at w3
    cases w0; cases w1; cases w2; cases w3
    have hd := mono i (i + 1) _ _ _ _ (by omega) x2 x0 x3 x1
    unfold chord
    rw [div_le_div_iff_of_pos_right (by linarith)]
    nlinarith
  · -- impossible: `t` would be before `s`
    exfalso
    obtain ⟨l2, g2⟩ := List.getElem?_eq_some_iff.1 w1
    obtain ⟨l3, g3⟩ := List.getElem?_eq_some_iff.1 x0
    have : b1 ≤ a0 := by
      rcases Nat.eq_or_lt_of_le (show j + 1 ≤ i by omega) with h | h
      · rw [← h] at x0; rw [w1] at x0; cases x0; exact le_refl _
      · have := sorted_lt hc.inc (j + 1) i h l3
        rw [g2, g3] at this
        exact this.le
    linarith

/-- C57 (one rate everywhere). With the same rate `r` at every cached time the discount factor is never below
`exp(-r t)`, with equality at the cached times (straight lines lie above the convex exponential). -/
theorem C57_flat_curve (c : Curve) (hc : CurveOk c) (r : ℝ) (hr : ∀ x ∈ c.rates, x = r) (t y : ℝ) (h : c.df t = .ok y) :
    Real.exp (-(r * t)) ≤ y ∧ (t ∈ c.times → y = Real.exp (-(r * t))) := by
  have htwo := hc.two
  have hl : c.times[c.times.length - 1]? = some c.times[c.times.length - 1] := List.getElem?_eq_getElem (by omega)
  obtain ⟨-, -, -, herr⟩ := C57_range c hc _ hl
  have hin : 0 ≤ t ∧ t < c.times[c.times.length - 1] := by
    by_contra hcon
    rw [herr t (by by_contra h; push Not at h; exact hcon h)] at h
    cases h
  obtain ⟨i, t0, t1, r0, r1, a0, a1, b0, b1, a, b, e⟩ := df_cases c hc t _ hl hin.1 hin.2
  have e0 := hr _ (List.mem_of_getElem? b0)
  have e1 := hr _ (List.mem_of_getElem? b1)
  subst e0
  subst e1
  rw [e] at h
  cases h
  constructor
  · have hp : 0 < t1 - t0 := by linarith
    have hw : (t1 - t) / (t1 - t0) + (t - t0) / (t1 - t0) = 1 := by field_simp; ring
    have := convexOn_exp.2 (Set.mem_univ (-(r1 * t0))) (Set.mem_univ (-(r1 * t1)))
      (div_nonneg (by linarith) hp.le : 0 ≤ (t1 - t) / (t1 - t0)) (div_nonneg (by linarith) hp.le : 0 ≤ (t - t0) / (t1 - t0)) hw
    simp only [smul_eq_mul] at this
    have ex : (t1 - t) / (t1 - t0) * -(r1 * t0) + (t - t0) / (t1 - t0) * -(r1 * t1) = -(r1 * t) := by
      field_simp; ring
    rw [ex] at this
    refine this.trans (le_of_eq ?_)
    unfold chord
    field_simp
  · intro hmem
    obtain ⟨k, hk, ek⟩ := List.getElem_of_mem hmem
    have hkl : k + 1 < c.times.length := by
      by_contra hcon
      have : k = c.times.length - 1 := by omega
      subst this
      rw [ek] at hin
      exact lt_irrefl _ hin.2
    have := hc.len
    have := (C57_between c hc k _ _ _ _ (List.getElem?_eq_getElem hk) (List.getElem?_eq_getElem hkl)
      (List.getElem?_eq_getElem (by omega)) (List.getElem?_eq_getElem (by omega)) c.times[k] (le_refl _)
      (sorted_lt hc.inc k (k + 1) (by omega) hkl)).2.1
    rw [ek, e, hr _ (List.getElem_mem _)] at this
    exact Except.ok.inj this

/-- C57 (vectorised). Discount factors for a sorted list of times are those of the times one by one. -/
theorem C57_vectorised (c : Curve) (hc : CurveOk c) (ts : List ℝ) (hs : ts.Pairwise (· ≤ ·)) :
    c.dfVec ts = ts.mapM c.df := by
  have htwo := hc.two
  exact C38_vectorised c.times c.dfs .none false c.disc hc.disc_eq hc.inc (ok_dlen c hc) (by
    rintro h; rw [h] at htwo; simp at htwo) ts hs

/-- C57 (dates). The discount factor at a date is that of the time from the evaluation date to it: 1 at the evaluation
date; an error when that time is negative. -/
theorem C57_at_date (c : Curve) (hc : CurveOk c) (eval d : DT) :
    c.dfAt eval d = c.df ((timeDifference eval d : ℚ) : ℝ) ∧ c.dfAt eval eval = .ok 1 := by
  have htwo := hc.two
  obtain ⟨h0, -, -, herr⟩ := C57_range c hc _ (List.getElem?_eq_getElem (by omega : c.times.length - 1 < c.times.length))
  have key : ∀ x, c.dfAt eval x = c.df ((timeDifference eval x : ℚ) : ℝ) := by
    intro x
    unfold Curve.dfAt
    dsimp only
    split
    · rename_i h
      exact (herr _ (.inl h)).symm
    · rfl
  refine ⟨key d, ?_⟩
  rw [key, C55_position, if_pos (le_refl _), sub_self]
  simpa using h0

/-- C57 (several dates). Discount factors for a list of dates are those of the dates one by one, in order; one date that
is refused refuses all. -/
theorem C57_dates (c : Curve) (eval : DT) (ds : List DT) (ys : List ℝ) :
    c.dfAtVec eval ds = .ok ys ↔ ys.length = ds.length ∧
      ∀ (i : Nat) (d : DT), ds[i]? = some d → ∃ y, ys[i]? = some y ∧ c.dfAt eval d = .ok y := by
  unfold Curve.dfAtVec
  induction ds generalizing ys with
  | nil => cases ys <;> simp [mapRes]
  | cons d ds ih =>
    unfold mapRes
    rw [bind_ok_iff]
    constructor
    · rintro ⟨y, hy, e⟩
      obtain ⟨zs, hz, e⟩ := (bind_ok_iff _ _ _).1 e
      cases e
      obtain ⟨h1, h2⟩ := (ih zs).1 hz
      refine ⟨by simp [h1], fun i x hx => ?_⟩
      cases i with
      | zero => simp only [List.getElem?_cons_zero, Option.some.injEq] at hx ⊢; exact ⟨y, rfl, hx ▸ hy⟩
      | succ i => exact h2 i x (by simpa using hx)
    · rintro ⟨h1, h2⟩
      cases ys with
      | nil => simp at h1
      | cons y ys =>
        obtain ⟨y', e, hy⟩ := h2 0 d rfl
        simp only [List.getElem?_cons_zero, Option.some.injEq] at e
        refine ⟨y', hy, (bind_ok_iff _ _ _).2 ⟨ys, (ih ys).2 ⟨by simpa using h1, fun i x hx => ?_⟩, by rw [e]⟩⟩
        simpa using h2 (i + 1) x (by simpa using hx)

/-- The limit of that check: a date of an earlier calendar year is not refused, its discount factor is 1. -/
theorem fault_discount_of_past_year (c : Curve) (hc : CurveOk c) (eval d : DT) (h : d.ymd.y < eval.ymd.y) :
    c.dfAt eval d = .ok 1 := by
  have htwo := hc.two
  rw [(C57_at_date c hc eval d).1, C55_position, if_neg (by omega)]
  simpa using (C57_range c hc _ (List.getElem?_eq_getElem (by omega : c.times.length - 1 < c.times.length))).1

/-! ### C58: forward discount factors and rates -/

/-- C58 (forward discount factors). For times in order the discount factor from the one to the other is the quotient of
today's; times out of order are an error. -/
theorem C58_quotient (c : Curve) (hc : CurveOk c) (t1 t2 : ℝ) :
    (t1 ≤ t2 → ∀ x y, c.df t1 = .ok x → c.df t2 = .ok y → ∃ q, c.dfBetween t1 t2 = .ok q ∧ x * q = y) ∧
    (t2 < t1 → c.dfBetween t1 t2 = .error .err) := by
  have htwo := hc.two
  obtain ⟨-, -, hpos, herr⟩ := C57_range c hc _ (List.getElem?_eq_getElem (by omega : c.times.length - 1 < c.times.length))
  constructor
  · intro h x y hx hy
    have hx0 : x ≠ 0 := by
      by_cases hin : 0 ≤ t1 ∧ t1 < c.times[c.times.length - 1]
      · obtain ⟨x', e, p⟩ := hpos t1 hin.1 hin.2
        rw [e] at hx; cases hx; exact p.ne'
      · rw [herr t1 (by by_contra h; push Not at h; exact hin h)] at hx
        cases hx
    refine ⟨y / x, ?_, by field_simp⟩
    unfold Curve.dfBetween divK
    rw [if_pos h, hx, hy]
    simp only [Res.bind_ok, if_neg hx0]
  · intro h
    unfold Curve.dfBetween
    rw [if_neg (not_le.2 h)]

/-- C58 (chain rule). Discounting from `t3` to `t2` and then to `t1` is discounting from `t3` to `t1`; discounting from
a time to itself is 1; forward discount factors are positive. -/
theorem C58_chain (c : Curve) (hc : CurveOk c) (tl : ℝ) (hl : c.times[c.times.length - 1]? = some tl) (t1 t2 t3 : ℝ)
    (h0 : 0 ≤ t1) (h1 : t1 ≤ t2) (h2 : t2 ≤ t3) (h3 : t3 < tl) :
    ∃ a b, 0 < a ∧ 0 < b ∧ c.dfBetween t1 t2 = .ok a ∧ c.dfBetween t2 t3 = .ok b ∧ c.dfBetween t1 t3 = .ok (a * b) ∧
      c.dfBetween t1 t1 = .ok 1 := by
  obtain ⟨-, -, hpos, -⟩ := C57_range c hc tl hl
  obtain ⟨x, ex, px⟩ := hpos t1 h0 (by linarith)
  obtain ⟨y, ey, py⟩ := hpos t2 (by linarith) (by linarith)
  obtain ⟨z, ez, pz⟩ := hpos t3 (by linarith) h3
  obtain ⟨a, ea, ha⟩ := (C58_quotient c hc t1 t2).1 h1 x y ex ey
  obtain ⟨b, eb, hb⟩ := (C58_quotient c hc t2 t3).1 h2 y z ey ez
  obtain ⟨d, ed, hd⟩ := (C58_quotient c hc t1 t3).1 (by linarith) x z ex ez
  obtain ⟨o, eo, ho⟩ := (C58_quotient c hc t1 t1).1 (le_refl _) x x ex ex
  have pa : 0 < a := by by_contra hcon; nlinarith
  have pb : 0 < b := by by_contra hcon; nlinarith
  refine ⟨a, b, pa, pb, ea, eb, ?_, ?_⟩
  · rw [ed]
    refine congrArg Except.ok ?_
    apply mul_left_cancel₀ px.ne'
    rw [hd, ← hb, ← ha]; ring
  · rw [eo]
    refine congrArg Except.ok ?_
    apply mul_left_cancel₀ px.ne'
    rw [ho, mul_one]

theorem fwd_unfold (c : Curve) (t1 t2 : ℝ) (k : Compounding) (h : t1 ≤ t2) (h6 : 1e-6 < t2 - t1) :
    c.fwd t1 t2 k = c.dfBetween t1 t2 >>= fun d => rateOf d (t2 - t1) k := by
  unfold Curve.fwd
  rw [if_pos h, if_pos (by rw [abs_of_pos (by linarith [h6, (by norm_num : (0 : ℝ) < 1e-6)])]; exact h6)]

/-- C58 (forward rates). Over a period longer than a millionth of a year, inside the curve, both forward rates exist.
The continuous rate `f` is the one with `DF(t1) * exp(-f tau) = DF(t2)`. The simple rate `s` is the one with
`DF(t1) * (1 - s tau) = DF(t2)`. -/
theorem C58_rates (c : Curve) (hc : CurveOk c) (tl : ℝ) (hl : c.times[c.times.length - 1]? = some tl) (t1 t2 : ℝ)
    (h0 : 0 ≤ t1) (h1 : 1e-6 < t2 - t1) (h2 : t2 < tl) :
    ∃ x y f s, c.df t1 = .ok x ∧ c.df t2 = .ok y ∧ c.fwd t1 t2 .continuous = .ok f ∧ c.fwd t1 t2 .simple = .ok s ∧
      x * Real.exp (-(f * (t2 - t1))) = y ∧ x * (1 - s * (t2 - t1)) = y := by
  have hp : (0 : ℝ) < t2 - t1 := by linarith [(by norm_num : (0 : ℝ) < 1e-6)]
  obtain ⟨-, -, hpos, -⟩ := C57_range c hc tl hl
  obtain ⟨x, ex, px⟩ := hpos t1 h0 (by linarith)
  obtain ⟨y, ey, py⟩ := hpos t2 (by linarith) h2
  obtain ⟨q, eq, hq⟩ := (C58_quotient c hc t1 t2).1 (by linarith) x y ex ey
  have pq : 0 < q := by by_contra hcon; nlinarith
  refine ⟨x, y, -Real.log q / (t2 - t1), (1 - q) / (t2 - t1), ex, ey, ?_, ?_, ?_, ?_⟩
  · rw [fwd_unfold c t1 t2 _ (by linarith) h1, eq, Res.bind_ok]
    simp only [rateOf, lnK, if_neg (not_le.2 pq), Res.bind_ok, divK, if_neg hp.ne']
  · rw [fwd_unfold c t1 t2 _ (by linarith) h1, eq, Res.bind_ok]
    simp only [rateOf, divK, if_neg hp.ne']
  · rw [div_mul_cancel₀ _ hp.ne', neg_neg, Real.exp_log pq, hq]
  · rw [div_mul_cancel₀ _ hp.ne', sub_sub_cancel, hq]

/-- The continuous forward rates of adjoining periods, weighted by their lengths, add up to that of the whole. -/
theorem C58_average (c : Curve) (hc : CurveOk c) (tl : ℝ) (hl : c.times[c.times.length - 1]? = some tl) (t1 t2 t3 : ℝ)
    (h0 : 0 ≤ t1) (h1 : 1e-6 < t2 - t1) (h2 : 1e-6 < t3 - t2) (h3 : t3 < tl) :
    ∃ f g h, c.fwd t1 t2 .continuous = .ok f ∧ c.fwd t2 t3 .continuous = .ok g ∧ c.fwd t1 t3 .continuous = .ok h ∧
      h * (t3 - t1) = f * (t2 - t1) + g * (t3 - t2) := by
  have e6 : (0 : ℝ) < 1e-6 := by norm_num
  obtain ⟨x, y, f, -, ex, ey, ef, -, hf, -⟩ := C58_rates c hc tl hl t1 t2 h0 h1 (by linarith)
  obtain ⟨y', z, g, -, ey', ez, eg, -, hg, -⟩ := C58_rates c hc tl hl t2 t3 (by linarith) h2 h3
  obtain ⟨x', z', h, -, ex', ez', eh, -, hh, -⟩ := C58_rates c hc tl hl t1 t3 h0 (by linarith) h3
  rw [ey] at ey'; cases ey'
  rw [ex] at ex'; cases ex'
  rw [ez] at ez'; cases ez'
  refine ⟨f, g, h, ef, eg, eh, ?_⟩
  have px : x ≠ 0 := by
    obtain ⟨-, -, hpos, -⟩ := C57_range c hc tl hl
    obtain ⟨x', e, p⟩ := hpos t1 h0 (by linarith)
    rw [ex] at e; cases e; exact p.ne'
  rw [← hf, mul_assoc, ← Real.exp_add, ← hh] at hg
  have := Real.exp_injective (mul_left_cancel₀ px hg)
  linarith

/-- C58 (dates). Between dates the forward rate is that between the times from the evaluation date; the first date after
the second, or (from the evaluation date) a date before it, is an error. -/
theorem C58_dates (c : Curve) (eval d1 d2 : DT) (k : Compounding) :
    (d2.instant < d1.instant → c.fwdDates eval d1 d2 k = .error .err) ∧
    (d1.instant ≤ d2.instant → c.fwdDates eval d1 d2 k
      = c.fwd ((timeDifference eval d1 : ℚ) : ℝ) ((timeDifference eval d2 : ℚ) : ℝ) k) ∧
    (d2.instant < eval.instant → c.fwdFromEval eval d2 k = .error .err) ∧
    (eval.instant ≤ d2.instant → c.fwdFromEval eval d2 k = c.fwd 0 ((timeDifference eval d2 : ℚ) : ℝ) k) := by
  have hz : ((timeDifference eval eval : ℚ) : ℝ) = 0 := by
    rw [C55_position, if_pos (le_refl _), sub_self]; simp
  refine ⟨?_, ?_, ?_, ?_⟩
  · intro h; unfold Curve.fwdDates; rw [if_pos h]
  · intro h; unfold Curve.fwdDates; rw [if_neg (by omega)]
  · intro h; unfold Curve.fwdFromEval; rw [if_pos h]
  · intro h; unfold Curve.fwdFromEval Curve.fwdDates; rw [if_neg (by omega), if_neg (by omega), hz]

/-- C58 (short rate). The short rate at `t` is the simple forward rate of the day (0.002737 years) that starts there. -/
theorem C58_short_rate (c : Curve) (hc : CurveOk c) (tl : ℝ) (hl : c.times[c.times.length - 1]? = some tl) (t : ℝ)
    (h0 : 0 ≤ t) (h1 : t + 0.002737 < tl) :
    ∃ x y s, c.df t = .ok x ∧ c.df (t + 0.002737) = .ok y ∧ c.shortRate t = .ok s ∧ x * (1 - s * 0.002737) = y := by
  obtain ⟨x, y, -, s, ex, ey, -, es, -, hs⟩ := C58_rates c hc tl hl t (t + 0.002737) h0 (by norm_num) h1
  refine ⟨x, y, s, ex, ey, es, ?_⟩
  rw [← hs]; ring_nf

/-- The "simple" rate is a discount yield, not the simply compounded forward rate: unless it is zero, growing at it does
not lead from one discount factor to the other. -/
theorem fault_simple_rate (c : Curve) (hc : CurveOk c) (tl : ℝ) (hl : c.times[c.times.length - 1]? = some tl) (t1 t2 : ℝ)
    (h0 : 0 ≤ t1) (h1 : 1e-6 < t2 - t1) (h2 : t2 < tl) (x y s : ℝ) (hx : c.df t1 = .ok x) (hy : c.df t2 = .ok y)
    (hs : c.fwd t1 t2 .simple = .ok s) (hs0 : s ≠ 0) : y * (1 + s * (t2 - t1)) < x := by
  obtain ⟨x', y', -, s', ex, ey, -, es, -, h⟩ := C58_rates c hc tl hl t1 t2 h0 h1 h2
  rw [hx] at ex; rw [hy] at ey; rw [hs] at es
  cases ex; cases ey; cases es
  have px : 0 < x := by
    obtain ⟨-, -, hpos, -⟩ := C57_range c hc tl hl
    obtain ⟨x', e, p⟩ := hpos t1 h0 (by linarith [(by norm_num : (0 : ℝ) < 1e-6)])
    rw [hx] at e; cases e; exact p
  have hp : (0 : ℝ) < t2 - t1 := by linarith [(by norm_num : (0 : ℝ) < 1e-6)]
  rw [← h]
  have : 0 < (s * (t2 - t1)) ^ 2 := by positivity
  nlinarith

/-- Over an empty period the rate is not a number: the discount factor is taken over 1e-5 years, the division is still
by zero. -/
theorem fault_forward_empty_period (c : Curve) (hc : CurveOk c) (tl : ℝ) (hl : c.times[c.times.length - 1]? = some tl)
    (t : ℝ) (h0 : 0 ≤ t) (h1 : t + 1e-5 < tl) (k : Compounding) : c.fwd t t k = .error .nonfinite := by
  have e5 : (0 : ℝ) < 1e-5 := by norm_num
  obtain ⟨-, -, hpos, -⟩ := C57_range c hc tl hl
  obtain ⟨x, ex, px⟩ := hpos t h0 (by linarith)
  obtain ⟨y, ey, py⟩ := hpos (t + 1e-5) (by linarith) h1
  obtain ⟨q, eq, hq⟩ := (C58_quotient c hc t (t + 1e-5)).1 (by linarith) x y ex ey
  have pq : 0 < q := by by_contra hcon; nlinarith
  unfold Curve.fwd
  rw [if_pos (le_refl _), sub_self, if_neg (by rw [abs_zero]; norm_num), eq, Res.bind_ok]
  cases k <;> simp [rateOf, divK, lnK, not_le.2 pq]

/-- Over a period of length `tau`, at most a millionth of a year, the continuous rate is the total growth over
`tau + 1e-5` divided by `tau`: at least eleven times the rate `r` of the period it was taken from. -/
theorem fault_forward_short_period (c : Curve) (hc : CurveOk c) (tl : ℝ) (hl : c.times[c.times.length - 1]? = some tl)
    (t1 t2 r : ℝ) (h0 : 0 ≤ t1) (ht : t1 < t2) (h6 : t2 - t1 ≤ 1e-6) (h2 : t2 + 1e-5 < tl)
    (hr : c.fwd t1 (t2 + 1e-5) .continuous = .ok r) (hr0 : 0 < r) :
    ∃ f, c.fwd t1 t2 .continuous = .ok f ∧ f * (t2 - t1) = r * (t2 - t1 + 1e-5) ∧ 11 * r ≤ f := by
  have hp : 0 < t2 - t1 := by linarith
  have e56 : (1e-5 : ℝ) = 10 * 1e-6 := by norm_num
  have e6 : (0 : ℝ) < 1e-6 := by norm_num
  obtain ⟨x, y, r', -, ex, ey, er, -, hxy, -⟩ := C58_rates c hc tl hl t1 (t2 + 1e-5) h0 (by linarith) h2
  rw [hr] at er; cases er
  obtain ⟨q, eq, hq⟩ := (C58_quotient c hc t1 (t2 + 1e-5)).1 (by linarith) _ _ ex ey
  have px : x ≠ 0 := by
    obtain ⟨-, -, hpos, -⟩ := C57_range c hc tl hl
    obtain ⟨x', e, p⟩ := hpos t1 h0 (by linarith)
    rw [ex] at e; cases e; exact p.ne'
  have hq' : q = Real.exp (-(r * (t2 + 1e-5 - t1))) := mul_left_cancel₀ px (hq.trans hxy.symm)
  refine ⟨r * (t2 + 1e-5 - t1) / (t2 - t1), ?_, ?_, ?_⟩
  · unfold Curve.fwd
    rw [if_pos ht.le, if_neg (by rw [abs_of_pos hp]; exact not_lt.2 h6), eq, Res.bind_ok]
    have pq : 0 < q := by rw [hq']; exact Real.exp_pos _
    simp only [rateOf, lnK, if_neg (not_le.2 pq), Res.bind_ok, divK, if_neg hp.ne']
    rw [hq', Real.log_exp, neg_neg]
  · rw [div_mul_cancel₀ _ hp.ne']; ring
  · rw [le_div_iff₀ hp]
    have : 11 * (t2 - t1) ≤ t2 + 1e-5 - t1 := by linarith
    nlinarith

/-! ### C59: bumping -/

/-- C59 (what a bump does). With the limits in order, every rate at a cached time in the interval (after the first limit,
up to and including the second) rises by the bump, the others stay; the cached times stay. With the limits out of order
it is an error. -/
theorem C59_bump (c : Curve) (hc : CurveOk c) (t1 t2 b : ℝ) :
    (t1 ≤ t2 → ∃ c', c.bumpTimes (some t1) (some t2) b = .ok c' ∧ CurveOk c' ∧ c'.times = c.times ∧
      ∀ (i : Nat) t r, c.times[i]? = some t → c.rates[i]? = some r →
        c'.rates[i]? = some (if t1 < t ∧ t ≤ t2 then r + b else r)) ∧
    (t2 < t1 → c.bumpTimes (some t1) (some t2) b = .error .err) := by
  constructor
  · intro h
    obtain ⟨c', e, ok, et, er⟩ := bump_ok c hc (some t1) (some t2) b h
    refine ⟨c', e, ok, et, ?_⟩
    intro i t r ht hr
    rw [er, List.getElem?_zipWith, hr, ht]
    simp only [bumpMask, Option.getD_some, gt_iff_lt]
    by_cases hin : t1 < t ∧ t ≤ t2
    · rw [if_pos hin, if_pos hin, one_mul]
    · rw [if_neg hin, if_neg hin, zero_mul, add_zero]
  · intro h
    exact bump_err c (some t1) (some t2) b h

/-- Two curves nobody can tell apart: the same cached times, rates and discount factors, and the same discount factor
for every time. -/
def SameCurve (c d : Curve) : Prop :=
  c.times = d.times ∧ c.rates = d.rates ∧ c.dfs = d.dfs ∧ ∀ t, c.df t = d.df t

theorem same_of_rates (c d : Curve) (hc : CurveOk c) (hd : CurveOk d) (ht : c.times = d.times) (hr : c.rates = d.rates) :
    SameCurve c d := by
  have e : c.dfs = d.dfs := by rw [hc.dfs_eq, hd.dfs_eq, ht, hr]
  refine ⟨ht, hr, e, ?_⟩
  have h1 := hc.disc_eq
  rw [ht, e, hd.disc_eq] at h1
  intro t
  unfold Curve.df
  rw [Except.ok.inj h1]

theorem rates_ext (c d : Curve) (hc : CurveOk c) (hd : CurveOk d) (ht : c.times = d.times)
    (h : ∀ (i : Nat) t r, c.times[i]? = some t → c.rates[i]? = some r → d.rates[i]? = some r) : SameCurve c d := by
  refine same_of_rates c d hc hd ht ?_
  refine List.ext_getElem? fun i => ?_
  by_cases hi : i < c.times.length
  · have hr : i < c.rates.length := by rw [hc.len]; exact hi
    rw [List.getElem?_eq_getElem hr]
    exact (h i _ _ (List.getElem?_eq_getElem hi) (List.getElem?_eq_getElem hr)).symm
  · rw [List.getElem?_eq_none (by rw [hc.len]; omega), List.getElem?_eq_none (by rw [hd.len, ← ht]; omega)]

/-- C59 (undo). A bump followed by the opposite bump over the same interval restores the curve. -/
theorem C59_restore (c : Curve) (hc : CurveOk c) (t1 t2 b : ℝ) (h : t1 ≤ t2) :
    ∃ c' c'', c.bumpTimes (some t1) (some t2) b = .ok c' ∧ c'.bumpTimes (some t1) (some t2) (-b) = .ok c'' ∧
      SameCurve c c'' := by
  obtain ⟨c', e, ok, et, er⟩ := (C59_bump c hc t1 t2 b).1 h
  obtain ⟨c'', e', ok', et', er'⟩ := (C59_bump c' ok t1 t2 (-b)).1 h
  refine ⟨c', c'', e, e', rates_ext c c'' hc ok' (et.symm.trans et'.symm) ?_⟩
  intro i t r ht hr
  have := er' i t _ (by rw [et]; exact ht) (er i t r ht hr)
  rw [this]
  split <;> simp

/-- C59 (adjoining intervals). Bumping `(t1, t2]` and then `(t2, t3]` is bumping `(t1, t3]`. -/
theorem C59_adjoin (c : Curve) (hc : CurveOk c) (t1 t2 t3 b : ℝ) (h1 : t1 ≤ t2) (h2 : t2 ≤ t3) :
    ∃ c' c'' d, c.bumpTimes (some t1) (some t2) b = .ok c' ∧ c'.bumpTimes (some t2) (some t3) b = .ok c'' ∧
      c.bumpTimes (some t1) (some t3) b = .ok d ∧ SameCurve c'' d := by
  obtain ⟨c', e, ok, et, er⟩ := (C59_bump c hc t1 t2 b).1 h1
  obtain ⟨c'', e', ok', et', er'⟩ := (C59_bump c' ok t2 t3 b).1 h2
  obtain ⟨d, ed, okd, etd, erd⟩ := (C59_bump c hc t1 t3 b).1 (by linarith)
  refine ⟨c', c'', d, e, e', ed, rates_ext c'' d ok' okd ((et'.trans et).trans etd.symm) ?_⟩
  intro i t r ht hr
  have ht' : c.times[i]? = some t := by rw [← et, ← et']; exact ht
  have hi : i < c.rates.length := by rw [hc.len]; exact (List.getElem?_eq_some_iff.1 ht').1
  have hr0 := List.getElem?_eq_getElem hi
  have a := er' i t _ (by rw [← et']; exact ht) (er i t _ ht' hr0)
  rw [hr] at a
  rw [erd i t _ ht' hr0, Option.some.inj a]
  refine congrArg some ?_
  by_cases g1 : t1 < t
  · by_cases g2 : t ≤ t2
    · rw [if_pos ⟨g1, by linarith⟩, if_neg (by intro h; linarith [h.1]), if_pos ⟨g1, g2⟩]
    · by_cases g3 : t ≤ t3
      · rw [if_pos ⟨g1, g3⟩, if_pos ⟨not_le.1 g2, g3⟩, if_neg (by intro h; exact g2 h.2)]
      · rw [if_neg (by intro h; exact g3 h.2), if_neg (by intro h; exact g3 h.2), if_neg (by intro h; exact g2 h.2)]
  · rw [if_neg (by intro h; exact g1 h.1), if_neg (by intro h; exact g1 (by linarith [h.1])),
      if_neg (by intro h; exact g1 h.1)]

/-- C59 (direction). Raising rates raises no discount factor; today's stays 1. -/
theorem C59_direction (c c' : Curve) (hc : CurveOk c) (t1 t2 b : ℝ) (hb : 0 ≤ b)
    (h : c.bumpTimes (some t1) (some t2) b = .ok c') (t y y' : ℝ) (hy : c.df t = .ok y) (hy' : c'.df t = .ok y') :
    y' ≤ y ∧ c'.df 0 = .ok 1 := by
  have h12 : t1 ≤ t2 := by
    by_contra hcon
    rw [(C59_bump c hc t1 t2 b).2 (not_le.1 hcon)] at h
    cases h
  obtain ⟨d, e, ok, et, er⟩ := (C59_bump c hc t1 t2 b).1 h12
  rw [e] at h
  cases h
  have htwo := hc.two
  have hl := List.getElem?_eq_getElem (by omega : c.times.length - 1 < c.times.length)
  obtain ⟨-, -, -, herr⟩ := C57_range c hc _ hl
  refine ⟨?_, (C57_range c' ok c.times[c.times.length - 1] (by rw [et]; exact hl)).1⟩
  have hin : 0 ≤ t ∧ t < c.times[c.times.length - 1] := by
    by_contra hcon
    rw [herr t (by by_contra h; push Not at h; exact hcon h)] at hy
    cases hy
  obtain ⟨i, a0, a1, r0, r1, x0, x1, x2, x3, x4, x5, e1⟩ := df_cases c hc t _ hl hin.1 hin.2
  rw [e1] at hy; cases hy
  have := (C57_between c' ok i a0 a1 _ _ (by rw [et]; exact x0) (by rw [et]; exact x1) (er i _ _ x0 x2) (er (i + 1) _ _ x1 x3)
    t x4 x5).1
  rw [this] at hy'; cases hy'
  have pos : ∀ (j : Nat) s, c.times[j]? = some s → 0 ≤ s := by
    intro j s hs
    obtain ⟨z, ez⟩ := List.getElem?_eq_some_iff.1 hc.zero
    obtain ⟨l, el⟩ := List.getElem?_eq_some_iff.1 hs
    rcases Nat.eq_zero_or_pos j with rfl | hj
    · rw [hc.zero] at hs; cases hs; exact le_refl _
    · have := sorted_lt hc.inc 0 j hj l
      rw [ez, el] at this
      exact this.le
  have low : ∀ s r, 0 ≤ s → Real.exp (-((if t1 < s ∧ s ≤ t2 then r + b else r) * s)) ≤ Real.exp (-(r * s)) := by
    intro s r hs
    rw [Real.exp_le_exp]
    split
    · nlinarith
    · exact le_refl _
  exact chord_le _ _ _ _ _ _ _ x4 x5 (low _ _ (pos i _ x0)) (low _ _ (pos (i + 1) _ x1))

/-- C59 (dates). Bumping between dates is bumping between the times from the evaluation date; a missing limit stands for
99999999 years in its direction, which no cached time exceeds. -/
theorem C59_dates (c : Curve) (eval : DT) (d1 d2 : DT) (b : ℝ) :
    c.bumpDates eval (some d1) (some d2) b
      = c.bumpTimes (some ((timeDifference eval d1 : ℚ) : ℝ)) (some ((timeDifference eval d2 : ℚ) : ℝ)) b ∧
    c.bumpDates eval none none b = c.bumpTimes none none b ∧
    c.bumpTimes none none b = c.bumpTimes (some (-99999999)) (some 99999999) b := ⟨rfl, rfl, rfl⟩

/-! ### C60: the data of a curve -/

/-- C60 (validation). Data is accepted exactly if: dates are given, as many as values, and a market date to measure from,
and then the times are those from the market date (times given as well are ignored); or no dates but as many times as
values, and then those are kept. -/
theorem C60_accepts (value : List ℝ) (dates : Option (List DT)) (times : Option (List ℝ)) (market : Option DT)
    (v : VectorData) :
    VectorData.new value dates times market = .ok v ↔
      v.value = value ∧ v.dates = dates ∧ v.market = market ∧
      ((∃ ds m, dates = some ds ∧ market = some m ∧ ds.length = value.length ∧
          v.times = ds.map (fun d => ((timeDifference m d : ℚ) : ℝ))) ∨
       (dates = none ∧ ∃ ts, times = some ts ∧ ts.length = value.length ∧ v.times = ts)) := by
  obtain ⟨v1, v2, v3, v4⟩ := v
  unfold VectorData.new
  cases dates with
  | some ds =>
    simp only
    by_cases hl : value.length ≠ ds.length
    · rw [if_pos hl]
      simp only [reduceCtorEq, false_iff]
      rintro ⟨-, -, -, ⟨ds', m, h1, -, h3, -⟩ | ⟨h, -⟩⟩
      · cases h1; exact hl h3.symm
      · cases h
    · rw [if_neg hl]
      cases market with
      | none => simp
      | some m =>
        simp only [Except.ok.injEq, VectorData.mk.injEq, Option.some.injEq, reduceCtorEq, false_and, or_false,
          ↓existsAndEq, true_and]
        constructor
        · rintro ⟨rfl, rfl, rfl, rfl⟩
          exact ⟨rfl, rfl, rfl, (not_not.1 hl).symm, rfl⟩
        · rintro ⟨rfl, rfl, rfl, -, rfl⟩
          exact ⟨rfl, rfl, rfl, rfl⟩
  | none =>
    simp only
    cases times with
    | none => simp
    | some ts =>
      simp only
      by_cases hl : value.length ≠ ts.length
      · rw [if_pos hl]
        simp only [reduceCtorEq, false_iff]
        rintro ⟨-, -, -, ⟨ds', m, h1, -⟩ | ⟨-, ts', h1, h2, -⟩⟩
        · cases h1
        · cases h1; exact hl h2.symm
      · rw [if_neg hl]
        simp only [Except.ok.injEq, VectorData.mk.injEq, Option.some.injEq, reduceCtorEq, false_and, exists_false,
          false_or, true_and, ↓existsAndEq]
        constructor
        · rintro ⟨rfl, rfl, rfl, rfl⟩
          exact ⟨rfl, rfl, rfl, rfl, (not_not.1 hl).symm, trivial⟩
        · rintro ⟨rfl, rfl, rfl, rfl, -, -⟩
          exact ⟨rfl, rfl, rfl, rfl⟩

/-- Everything else is an error, never a panic. -/
theorem C60_refused (value : List ℝ) (dates : Option (List DT)) (times : Option (List ℝ)) (market : Option DT) (e : Fault)
    (h : VectorData.new value dates times market = .error e) : e = .err := by
  unfold VectorData.new at h
  cases dates with
  | some ds =>
    simp only at h
    by_cases hl : value.length ≠ ds.length
    · rw [if_pos hl] at h; cases h; rfl
    · rw [if_neg hl] at h
      cases market with
      | none => cases h; rfl
      | some m => cases h
  | none =>
    cases times with
    | none => cases h; rfl
    | some ts =>
      simp only at h
      by_cases hl : value.length ≠ ts.length
      · rw [if_pos hl] at h; cases h; rfl
      · rw [if_neg hl] at h; cases h

/-- C60 (end to end). Rates at dates in order, from the market date's year on, all at the same time of day and offset:
the data is accepted, its times increase strictly, and a curve can be built from it on any evaluation date up to 9899. -/
theorem C60_curve (md : Mode) (eval m : DT) (he : eval.Valid) (hy : eval.ymd.y ≤ 9899) (value : List ℝ) (ds : List DT)
    (hne : value ≠ []) (hl : ds.length = value.length) (hv : ∀ d ∈ ds, d.Valid) (tod : Nat)
    (hd : ∀ d ∈ ds, d.tod = tod ∧ d.off = m.off ∧ m.ymd.y ≤ d.ymd.y) (hs : ds.Pairwise fun a b => a.day < b.day)
    (given : Option (List ℝ)) :
    ∃ v c, VectorData.new value (some ds) given (some m) = .ok v ∧ v.times.Pairwise (· < ·) ∧
      Curve.new md eval v.times v.value = .ok c ∧ CurveOk c := by
  have acc := (C60_accepts value (some ds) given (some m)
    ⟨value, some ds, ds.map (fun d => ((timeDifference m d : ℚ) : ℝ)), some m⟩).2
    ⟨rfl, rfl, rfl, .inl ⟨ds, m, rfl, rfl, hl, rfl⟩⟩
  have hinc : (ds.map (fun d => ((timeDifference m d : ℚ) : ℝ))).Pairwise (· < ·) := by
    rw [List.pairwise_map]
    refine List.Pairwise.imp_of_mem ?_ hs
    intro a b ha hb hab
    have pa := hd a ha
    have pb := hd b hb
    have := position_lt m.off a b (hv a ha) pa.2.1 pb.2.1 (pa.1.trans pb.1.symm) hab
    have : timeDifference m a < timeDifference m b := by
      rw [C55_position, C55_position, if_pos pa.2.2, if_pos pb.2.2]
      linarith
    exact_mod_cast this
  obtain ⟨c, -, e, ok, -⟩ := C57_new md eval he hy _ value (by rw [List.length_map]; exact hl) hne hinc
  exact ⟨_, c, acc, hinc, e, ok⟩

/-! ### A concrete curve -/

/-- The curve of the unit test's kind: 2 % at 0 and 4 % at 10 years, seen from 2021-01-01. The hypotheses of the theorems
above are met by it and by all its bumps. -/
theorem curve_witness : ∃ c, Curve.new .checked { day := (Ymd.mk 2021 1 1).ord, tod := 0, off := 0 } [0, 10] [0.02, 0.04] = .ok c ∧
    CurveOk c ∧ c.times.length = 29 ∧ c.df 0 = .ok 1 ∧ (c.df (1/400)).toOption.isSome := by
  have hv : DT.Valid { day := (Ymd.mk 2021 1 1).ord, tod := 0, off := 0 } := by
    refine ⟨?_, ?_, ?_⟩ <;> decide +kernel
  obtain ⟨c, ds, e, ok, l, hds, et, -⟩ := C57_new .checked { day := (Ymd.mk 2021 1 1).ord, tod := 0, off := 0 } hv
    (by decide +kernel) [0, 10] [0.02, 0.04] rfl (by simp) (by simp)
  have hz := C57_range c ok _ (List.getElem?_eq_getElem (by omega : c.times.length - 1 < c.times.length))
  refine ⟨c, e, ok, l, hz.1, ?_⟩
  -- the second cached time is one day, 1/365
  have h1 : c.times[1]? = some (1 / 365) := by
    rw [et]
    cases hds with
    | cons h0 t0 => cases t0 with
      | cons h1 t1 =>
        have : addPeriod .checked { day := (Ymd.mk 2021 1 1).ord, tod := 0, off := 0 } ['1', 'D']
            = .ok { day := (Ymd.mk 2021 1 2).ord, tod := 0, off := 0 } := by decide +kernel
        rw [this] at h1
        cases h1
        have : timeDifference { day := (Ymd.mk 2021 1 1).ord, tod := 0, off := 0 }
            { day := (Ymd.mk 2021 1 2).ord, tod := 0, off := 0 } = 1 / 365 := by decide +kernel
        simp only [List.map_cons, List.getElem?_cons_succ, List.getElem?_cons_zero]
        rw [this]
        norm_num
  obtain ⟨l1, e1⟩ := List.getElem?_eq_some_iff.1 h1
  have hlt := sorted_lt ok.inc 1 (c.times.length - 1) (by omega) (by omega)
  rw [e1] at hlt
  obtain ⟨y, hy, -⟩ := hz.2.2.1 (1/400) (by norm_num) (by
    refine lt_trans ?_ hlt
    norm_num)
  rw [hy]
  rfl

end Verif.Props

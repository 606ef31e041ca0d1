import Verif.Props.ZeroCurve
import Verif.Props.Schedule
import Verif.Props.Loading
import Verif.Props.Cashflow
import Mathlib.Analysis.SpecialFunctions.Exp

/-!
# C186: short rates of a zero curve
-/

set_option autoImplicit false
namespace Verif.Props
open Verif Verif.QL Verif.Civil

/-- Specification: the day of a short rate, in years (zero_curve.rs 412). -/
noncomputable def day1 : ℝ := 0.002737

theorem day1_pos : 0 < day1 := by unfold day1; norm_num

/-- Specification: `n` days in a row, from `t` on. -/
noncomputable def daysFrom (t : ℝ) (n : Nat) : List ℝ := (List.range n).map fun (k : Nat) => t + (k : ℝ) * day1

theorem daysFrom_succ (t : ℝ) (n : Nat) : daysFrom t (n + 1) = t :: daysFrom (t + day1) n := by
  unfold daysFrom
  rw [List.range_succ_eq_map, List.map_cons, List.map_map]
  congr 1
  · push_cast; ring
  · refine List.map_congr_left fun k _ => ?_
    simp only [Function.comp, Nat.cast_succ]
    ring

/-- C186 (domain). A short rate exists exactly at the times from which a whole day lies on the curve. -/
theorem C186_domain (c : Curve) (hc : CurveOk c) (tl : ℝ) (hl : c.times[c.times.length - 1]? = some tl) (t : ℝ) :
    (∃ s, c.shortRate t = .ok s) ↔ 0 ≤ t ∧ t + day1 < tl := by
  have hp := day1_pos
  constructor
  · rintro ⟨s, h⟩
    obtain ⟨-, -, -, herr⟩ := C57_range c hc tl hl
    unfold Curve.shortRate at h
    rw [fwd_unfold c t (t + 0.002737) _ (by norm_num) (by norm_num)] at h
    have hq : ∃ q, c.dfBetween t (t + 0.002737) = .ok q := by
      cases hd : c.dfBetween t (t + 0.002737) with
      | error e => rw [hd] at h; cases h
      | ok q => exact ⟨q, rfl⟩
    obtain ⟨q, hq⟩ := hq
    unfold Curve.dfBetween at hq
    rw [if_pos (by norm_num)] at hq
    by_contra hn
    rcases not_and_or.1 hn with h0 | h1
    · have e := herr t (.inl (not_le.1 h0))
      cases ha : c.df (t + 0.002737) with
      | error _ => rw [ha] at hq; cases hq
      | ok a => rw [ha, Res.bind_ok, e] at hq; cases hq
    · have e := herr (t + 0.002737) (.inr (by unfold day1 at h1; linarith))
      rw [e] at hq
      cases hq
  · rintro ⟨h0, h1⟩
    obtain ⟨_, _, s, -, -, hs, -⟩ := C58_short_rate c hc tl hl t h0 h1
    exact ⟨s, hs⟩

/-- C186 (many times). The short rates of a list of times are those of its times, in order; they exist exactly when each
of them does. -/
theorem C186_each (c : Curve) (ts ss : List ℝ) :
    (c.shortRates ts = .ok ss ↔
      ss.length = ts.length ∧ ∀ (k : Nat) (t s : ℝ), ts[k]? = some t → ss[k]? = some s → c.shortRate t = .ok s) ∧
    ((∃ r, c.shortRates ts = .ok r) ↔ ∀ t ∈ ts, ∃ s, c.shortRate t = .ok s) := by
  refine ⟨mapRes_iff _ _ _, ?_⟩
  exact mapRes_ok _ _

/-- C186 (compounding). The short rates of any number of days in a row take the discount factor of the first day to that of the
last: each day it falls by the short rate times the day. -/
theorem C186_compound (c : Curve) (hc : CurveOk c) (tl : ℝ) (hl : c.times[c.times.length - 1]? = some tl) (n : Nat) :
    ∀ t, 0 ≤ t → t + n * day1 < tl →
    ∃ ss x y, c.shortRates (daysFrom t n) = .ok ss ∧ ss.length = n ∧ c.df t = .ok x ∧ c.df (t + n * day1) = .ok y ∧
      x * (ss.map fun s => 1 - s * day1).prod = y := by
  induction n with
  | zero =>
    intro t h0 h1
    obtain ⟨-, -, hpos, -⟩ := C57_range c hc tl hl
    obtain ⟨x, ex, -⟩ := hpos t h0 (by simpa using h1)
    exact ⟨[], x, x, rfl, rfl, ex, by simpa using ex, by simp⟩
  | succ n ih =>
    intro t h0 h1
    have hp := day1_pos
    have hn : (0 : ℝ) ≤ n := Nat.cast_nonneg n
    push_cast at h1
    have hlt : t + day1 < tl := by nlinarith
    obtain ⟨x, y, s, ex, ey, es, hs⟩ := C58_short_rate c hc tl hl t h0 hlt
    obtain ⟨ss, y', z, e, len, ey', ez, hz⟩ := ih (t + day1) (by linarith) (by nlinarith)
    have : y = y' := by
      have h : c.df (t + day1) = .ok y := ey
      rw [h] at ey'; cases ey'; rfl
    subst this
    refine ⟨s :: ss, x, z, ?_, by simp [len], ex, ?_, ?_⟩
    · rw [daysFrom_succ]
      unfold Curve.shortRates at e ⊢
      simp only [mapRes, es, e, Res.bind_ok]
    · rw [← ez]; congr 1; push_cast; ring
    · rw [List.map_cons, List.prod_cons, ← mul_assoc]
      have : x * (1 - s * day1) = y := hs
      rw [this, hz]

/-- C186 (size). The short rate is never above the continuously compounded forward rate of the same day, has its sign, is never as
large as one over the day, and for a forward rate that is not negative it is short of it by no more than half its square times the day. -/
theorem C186_size (c : Curve) (hc : CurveOk c) (tl : ℝ) (hl : c.times[c.times.length - 1]? = some tl) (t s : ℝ)
    (h : c.shortRate t = .ok s) :
    ∃ f, c.fwd t (t + day1) .continuous = .ok f ∧ s ≤ f ∧ (0 ≤ s ↔ 0 ≤ f) ∧ s * day1 < 1 ∧
      (0 ≤ f → f - f ^ 2 * day1 / 2 ≤ s) := by
  have hp := day1_pos
  obtain ⟨h0, h1⟩ := (C186_domain c hc tl hl t).1 ⟨s, h⟩
  obtain ⟨x, y, f, s', ex, ey, ef, es, hf, hs⟩ := C58_rates c hc tl hl t (t + day1) h0 (by unfold day1; norm_num) h1
  have : s' = s := by
    have h' : c.shortRate t = .ok s' := es
    rw [h] at h'; cases h'; rfl
  subst this
  obtain ⟨-, -, hpos, -⟩ := C57_range c hc tl hl
  obtain ⟨x', e, px⟩ := hpos t h0 (by linarith)
  rw [ex] at e; cases e
  rw [add_sub_cancel_left] at hf hs
  have key : 1 - s' * day1 = Real.exp (-(f * day1)) := mul_left_cancel₀ px.ne' (hs.trans hf.symm)
  have he := Real.exp_pos (-(f * day1))
  have hl1 := Real.add_one_le_exp (-(f * day1))
  refine ⟨f, ef, ?_, ?_, by linarith, ?_⟩
  · have : s' * day1 ≤ f * day1 := by linarith
    exact le_of_mul_le_mul_right this hp
  · constructor
    · intro hs0
      by_contra hneg
      have : 1 < Real.exp (-(f * day1)) := Real.one_lt_exp_iff.2 (by nlinarith [not_le.1 hneg])
      nlinarith [mul_nonneg hs0 hp.le]
    · intro hf0
      have : Real.exp (-(f * day1)) ≤ 1 := Real.exp_le_one_iff.2 (by nlinarith [mul_nonneg hf0 hp.le])
      by_contra hneg
      nlinarith [mul_neg_of_neg_of_pos (not_le.1 hneg) hp]
  · intro hf0
    have hx : 0 ≤ f * day1 := mul_nonneg hf0 hp.le
    have hq := Real.quadratic_le_exp_of_nonneg hx
    have hm : Real.exp (-(f * day1)) * Real.exp (f * day1) = 1 := by rw [← Real.exp_add]; simp
    set a := f * day1 with ha
    have hub : Real.exp (-a) ≤ 1 - a + a ^ 2 / 2 := by
      have h2 : 1 ≤ (1 - a + a ^ 2 / 2) * (1 + a + a ^ 2 / 2) := by nlinarith [sq_nonneg (a ^ 2)]
      have h3 : (0 : ℝ) < 1 + a + a ^ 2 / 2 := by positivity
      have h4 : Real.exp (-a) * (1 + a + a ^ 2 / 2) ≤ 1 := by
        calc _ ≤ Real.exp (-a) * Real.exp a := mul_le_mul_of_nonneg_left hq he.le
          _ = 1 := hm
      exact le_of_mul_le_mul_right (h4.trans h2) h3
    have : (f - f ^ 2 * day1 / 2) * day1 ≤ s' * day1 := by
      have : s' * day1 = 1 - Real.exp (-a) := by linarith
      rw [this]
      have : (f - f ^ 2 * day1 / 2) * day1 = a - a ^ 2 / 2 := by rw [ha]; ring
      linarith
    exact le_of_mul_le_mul_right this hp

/-- C186 (dates). The rate asked for by date is the short rate at the time of the date; before the evaluation date there is none. -/
theorem C186_date (c : Curve) (hc : CurveOk c) (tl : ℝ) (hl : c.times[c.times.length - 1]? = some tl) (eval d : DT) (s : ℝ)
    (h : c.instantRate eval d = .ok s) :
    0 ≤ timeDifference eval d ∧ ((timeDifference eval d : ℚ) : ℝ) + day1 < tl ∧
      c.shortRates [((timeDifference eval d : ℚ) : ℝ)] = .ok [s] := by
  obtain ⟨h0, h1⟩ := (C186_domain c hc tl hl _).1 ⟨s, h⟩
  refine ⟨by exact_mod_cast h0, h1, ?_⟩
  have h' : c.shortRate ((timeDifference eval d : ℚ) : ℝ) = .ok s := h
  unfold Curve.shortRates
  simp only [mapRes, h', Res.bind_ok]

/-- On the flat curve of 3 % seen from 2021-01-01 ten thousand days compound, and there is a short rate on 2022-01-01: the hypotheses
of the theorems above are met. -/
theorem short_witness : ∃ c ss y s, CurveOk c ∧ c.shortRates (daysFrom 0 10000) = .ok ss ∧ ss.length = 10000 ∧
    c.df (10000 * day1) = .ok y ∧ (ss.map fun s => 1 - s * day1).prod = y ∧ 0 < y ∧
    c.instantRate (day0 2021 1 1) (day0 2022 1 1) = .ok s := by
  obtain ⟨c, hc, ok, ⟨tl, htl, h99⟩, hpos⟩ := sample_curve 0.03
  have hd : ((10000 : Nat) : ℝ) * day1 < 99 := by unfold day1; norm_num
  obtain ⟨ss, x, y, e, len, ex, ey, h⟩ := C186_compound c ok tl htl 10000 0 (le_refl _) (by linarith)
  obtain ⟨y', ey', py⟩ := hpos (0 + (10000 : Nat) * day1) (by have := day1_pos; positivity) (by linarith)
  have h1 : x = 1 := by
    have := (C57_range c ok tl htl).1
    rw [this] at ex; cases ex; rfl
  have ht : timeDifference (day0 2021 1 1) (day0 2022 1 1) = 1 := by decide +kernel
  obtain ⟨s, hs⟩ := (C186_domain c ok tl htl ((timeDifference (day0 2021 1 1) (day0 2022 1 1) : ℚ) : ℝ)).2 (by
    rw [ht]; unfold day1; constructor <;> norm_num; linarith)
  rw [ey] at ey'; cases ey'
  refine ⟨c, ss, y, s, ok, e, len, ?_, by rw [h1, one_mul] at h; exact h, py, hs⟩
  have e0 : (10000 : ℝ) * day1 = 0 + ((10000 : Nat) : ℝ) * day1 := by norm_num
  rw [e0]; exact ey

end Verif.Props

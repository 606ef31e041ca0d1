import Verif.Props.FloatGreeks
/-!
# The prices of a delta run, and delta without a run (C147)
-/
set_option autoImplicit false
namespace Verif.Props
open Verif Verif.Float

/-- **C147** (the prices of the runs). The price of the underlying is moved up and down by the ratio, relative to the price, up to
3 parts in `2 ^ 24`. -/
theorem C147_prices {a q : Fl} {price ratio : ℚ} (ha : f32.Finite a price) (hq : f32.Finite q ratio) (p1 : (2 : ℚ) ^ (-40 : Int) ≤ price)
    (p2 : price ≤ 2 ^ 60) (q0 : 0 ≤ ratio) (q1 : ratio ≤ 1 / 2) :
    ∃ u d, f32.Finite (upPriceF a q) u ∧ f32.Finite (downPriceF a q) d ∧
      |u - price * (1 + ratio)| ≤ 3 / 2 ^ 24 * (price * (1 + ratio)) ∧ |d - price * (1 - ratio)| ≤ 3 / 2 ^ 24 * (price * (1 - ratio)) := by
  have pp : 0 < price := (pow2_pos _).trans_le p1
  have bp : Between (-40) 60 price := Or.inr ⟨by rwa [abs_of_pos pp], by rw [abs_of_pos pp]; exact p2.trans (by norm_num)⟩
  have go : ∀ z : ℚ, 1 / 2 ≤ z → z ≤ 3 / 2 → Rel 1 (f32.rnd z) z ∧ Rel 2 (f32.rnd (price * f32.rnd z)) (price * z) ∧
      |z| ≤ f32.maxFin ∧ |price * f32.rnd z| ≤ f32.maxFin := by
    intro z z1 z2
    have zb : Between (-1) 1 z := Or.inr ⟨by rw [abs_of_pos (by linarith)]; norm_num; linarith, by rw [abs_of_pos (by linarith)]; norm_num; linarith⟩
    obtain ⟨r1, f1⟩ := zb.rnd (by norm_num) (by norm_num)
    have zb' : Between (-2) 2 (f32.rnd z) := zb.rel r1 (by norm_num)
    have pos : f32.rnd z ≠ 0 := by
      have := (r1.le (by norm_num)).2
      intro h0
      rw [h0, abs_zero, abs_of_pos (by linarith)] at this
      linarith
    obtain ⟨g1, g2⟩ := zb'.resolve_left pos
    have mb : Between (-42) 62 (price * f32.rnd z) := bp.mul g1 g2
    obtain ⟨r2, f2⟩ := mb.rnd (by norm_num) (by norm_num)
    have r3 : Rel 1 (price * f32.rnd z) (price * z) := by
      have := (Rel.refl price).mul r1
      simpa using this
    exact ⟨r1, r2.trans r3, f1, f2⟩
  obtain ⟨-, u2, u3, u4⟩ := go (1 + ratio) (by linarith) (by linarith)
  obtain ⟨-, d2, d3, d4⟩ := go (1 - ratio) (by linarith) (by linarith)
  refine ⟨_, _, finite_mul ha (finite_add f32_one hq u3) u4, finite_mul ha (finite_sub f32_one hq d3) d4, ?_, ?_⟩
  · have := u2.err (3 / 2 ^ 24) (by norm_num) (by norm_num)
    rwa [abs_of_pos (mul_pos pp (by linarith : 0 < 1 + ratio))] at this
  · have := d2.err (3 / 2 ^ 24) (by norm_num) (by norm_num)
    rwa [abs_of_pos (mul_pos pp (by linarith : 0 < 1 - ratio))] at this

/-- **C147** (delta without a run). The delta of a stock or futures contract is one hundredth of its value times the units, up to 4 parts
in `2 ^ 24`. -/
theorem C147_own {n m : Fl} {npv unit : ℚ} (hn : f32.Finite n npv) (hm : f32.Finite m unit) (n1 : Between (-40) 60 npv)
    (m1 : (2 : ℚ) ^ (-20 : Int) ≤ unit) (m2 : unit ≤ 2 ^ 30) :
    ∃ r, f32.Finite (ownDeltaF n m) r ∧ |r - npv * (1 / 100) * unit| ≤ 4 / 2 ^ 24 * |npv * (1 / 100) * unit| := by
  have mp : 0 < unit := (pow2_pos _).trans_le m1
  have ub : Between (-7) 0 (1 / 100 : ℚ) := Or.inr ⟨by norm_num [abs_of_pos], by norm_num [abs_of_pos]⟩
  obtain ⟨ru, fu⟩ := ub.rnd (by norm_num) (by norm_num)
  have hu : f32.Finite deltaUnitF (f32.rnd (1 / 100)) := finite_of f32 false _ fu
  have ub' := ub.rel ru (by norm_num)
  have pos : f32.rnd (1 / 100) ≠ 0 := by decide +kernel
  obtain ⟨g1, g2⟩ := ub'.resolve_left pos
  have b1 := n1.mul g1 g2
  obtain ⟨r1, f1⟩ := b1.rnd (by norm_num) (by norm_num)
  have b2 := (b1.rel r1 (by norm_num)).mul (k := -20) (l := 30) (by rwa [abs_of_pos mp]) (by rw [abs_of_pos mp]; exact m2.trans (by norm_num))
  obtain ⟨r2, f2⟩ := b2.rnd (by norm_num) (by norm_num)
  refine ⟨_, finite_mul (finite_mul hn hu f1) hm f2, ?_⟩
  have e1 : Rel 1 (npv * f32.rnd (1 / 100)) (npv * (1 / 100)) := by
    have := (Rel.refl npv).mul ru
    simpa using this
  have e2 : Rel 2 (f32.rnd (npv * f32.rnd (1 / 100)) * unit) (npv * (1 / 100) * unit) := (r1.trans e1).mul (Rel.refl unit)
  exact (r2.trans e2).err (4 / 2 ^ 24) (by norm_num) (by norm_num)

/-- Concrete case: a price of 100.25 with the default ratio of one percent. -/
example : upPriceF (f32.lit (401 / 4)) (f32.lit (1 / 100)) = .fin false (1658921 / 16384) ∧
    downPriceF (f32.lit (401 / 4)) (f32.lit (1 / 100)) = .fin false (1626071 / 16384) := ⟨by decide +kernel, by decide +kernel⟩

end Verif.Props

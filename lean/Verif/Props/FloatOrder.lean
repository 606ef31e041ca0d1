import Verif.Props.FloatDrift
/-!
# Floating-point operations are monotone, and differences of neighbours are exact
-/
set_option autoImplicit false
namespace Verif.Props
open Verif Verif.Float

variable (F : Fmt)

/-- A positive finite number. -/
def PosF (a : Fl) : Prop := ∃ v, a = .fin false v ∧ 0 < v

theorem le_refl_f (a : Fl) (h : a ≠ .nan) : a.le a = true := by
  cases a with
  | nan => exact absurd rfl h
  | inf s => cases s <;> rfl
  | fin s v => simp [Fl.le, Fl.beq]

theorem of_ne_nan (s : Bool) (x : ℚ) : F.of s x ≠ .nan := by
  unfold Fmt.of; dsimp only; split <;> simp

theorem of_mono {s t : Bool} {x y : ℚ} (h : x ≤ y) : (F.of s x).le (F.of t y) = true := by
  have hm := rnd_mono F h
  have hM := maxFin_pos F
  unfold Fmt.of; dsimp only
  have sgn : ∀ z : ℚ, F.maxFin < |F.rnd z| → (0 < z ∧ F.maxFin < F.rnd z) ∨ (z < 0 ∧ F.rnd z < -F.maxFin) := by
    intro z hz
    rcases lt_trichotomy z 0 with h0 | h0 | h0
    · right; refine ⟨h0, ?_⟩
      rw [abs_of_nonpos (rnd_nonpos F h0.le)] at hz; linarith
    · subst h0; rw [rnd_zero, abs_zero] at hz; linarith
    · left; refine ⟨h0, ?_⟩
      rwa [abs_of_nonneg (rnd_nonneg F h0.le)] at hz
  by_cases hx : F.maxFin < |F.rnd x| <;> by_cases hy : F.maxFin < |F.rnd y|
  · rw [if_pos hx, if_pos hy]
    rcases sgn x hx with ⟨x0, x1⟩ | ⟨x0, x1⟩ <;> rcases sgn y hy with ⟨y0, y1⟩ | ⟨y0, y1⟩
    · simp [x0, y0, not_lt.2 x0.le, not_lt.2 y0.le, Fl.le, Fl.beq]
    · linarith
    · simp [x0, y0, not_lt.2 y0.le, Fl.le, Fl.lt]
    · simp [x0, y0, Fl.le, Fl.beq]
  · rw [if_pos hx, if_neg hy]
    rcases sgn x hx with ⟨x0, x1⟩ | ⟨x0, x1⟩
    · have := (abs_le.1 (not_lt.1 hy)).2; linarith
    · simp [x0, Fl.le, Fl.lt]
  · rw [if_neg hx, if_pos hy]
    rcases sgn y hy with ⟨y0, y1⟩ | ⟨y0, y1⟩
    · simp [y0, not_lt.2 y0.le, Fl.le, Fl.lt]
    · have := (abs_le.1 (not_lt.1 hx)).1; linarith
  · rw [if_neg hx, if_neg hy]
    simp only [Fl.le, Fl.lt, Fl.beq, Bool.or_eq_true, decide_eq_true_eq]
    exact lt_or_eq_of_le hm

/-- Neither side is not-a-number when `<=` holds. -/
theorem le_ne_nan {a b : Fl} (h : a.le b = true) : a ≠ .nan ∧ b ≠ .nan := by
  cases a <;> cases b <;> simp_all [Fl.le, Fl.lt, Fl.beq]

theorem le_fin {s t : Bool} {x y : ℚ} : (Fl.fin s x).le (Fl.fin t y) = true ↔ x ≤ y := by
  simp only [Fl.le, Fl.lt, Fl.beq, Bool.or_eq_true, decide_eq_true_eq]
  exact le_iff_lt_or_eq.symm

theorem mul_mono {a b c : Fl} (hc : PosF c) (h : a.le b = true) : (F.mul a c).le (F.mul b c) = true := by
  obtain ⟨v, rfl, hv⟩ := hc
  have h0 := hv.ne'
  cases a with
  | nan => simp [Fl.le, Fl.lt, Fl.beq] at h
  | inf s =>
    cases b with
    | nan => simp [Fl.le, Fl.lt, Fl.beq] at h
    | inf s' => cases s <;> cases s' <;> simp_all [Fmt.mul, Fl.le, Fl.lt, Fl.beq]
    | fin s' y =>
      cases s
      · simp [Fl.le, Fl.lt, Fl.beq] at h
      · simp only [Fmt.mul, if_neg h0]
        have := of_ne_nan F (s' != false) (y * v)
        revert this; cases F.of (s' != false) (y * v) with
        | nan => simp
        | inf s => cases s <;> simp [Fl.le, Fl.lt, Fl.beq]
        | fin s x => simp [Fl.le, Fl.lt]
  | fin s x =>
    cases b with
    | nan => simp [Fl.le, Fl.lt, Fl.beq] at h
    | inf s' =>
      cases s'
      · simp only [Fmt.mul, if_neg h0]
        have := of_ne_nan F (s != false) (x * v)
        revert this; cases F.of (s != false) (x * v) with
        | nan => simp
        | inf s => cases s <;> simp [Fl.le, Fl.lt, Fl.beq]
        | fin s x => simp [Fl.le, Fl.lt]
      · simp [Fl.le, Fl.lt, Fl.beq] at h
    | fin s' y => exact of_mono F (mul_le_mul_of_nonneg_right (le_fin.1 h) hv.le)

theorem div_mono {a b c : Fl} (hc : PosF c) (h : a.le b = true) : (F.div a c).le (F.div b c) = true := by
  obtain ⟨v, rfl, hv⟩ := hc
  have h0 := hv.ne'
  cases a with
  | nan => simp [Fl.le, Fl.lt, Fl.beq] at h
  | inf s =>
    cases b with
    | nan => simp [Fl.le, Fl.lt, Fl.beq] at h
    | inf s' => cases s <;> cases s' <;> simp_all [Fmt.div, Fl.le, Fl.lt, Fl.beq]
    | fin s' y =>
      cases s
      · simp [Fl.le, Fl.lt, Fl.beq] at h
      · simp only [Fmt.div, if_neg h0]
        have := of_ne_nan F (s' != false) (y / v)
        revert this; cases F.of (s' != false) (y / v) with
        | nan => simp
        | inf s => cases s <;> simp [Fl.le, Fl.lt, Fl.beq]
        | fin s x => simp [Fl.le, Fl.lt]
  | fin s x =>
    cases b with
    | nan => simp [Fl.le, Fl.lt, Fl.beq] at h
    | inf s' =>
      cases s'
      · simp only [Fmt.div, if_neg h0]
        have := of_ne_nan F (s != false) (x / v)
        revert this; cases F.of (s != false) (x / v) with
        | nan => simp
        | inf s => cases s <;> simp [Fl.le, Fl.lt, Fl.beq]
        | fin s x => simp [Fl.le, Fl.lt]
      · simp [Fl.le, Fl.lt, Fl.beq] at h
    | fin s' y =>
      simp only [Fmt.div, if_neg h0]
      exact of_mono F (by rw [div_le_div_iff_of_pos_right hv]; exact le_fin.1 h)

theorem add_mono {a b : Fl} (t : Bool) (v : ℚ) (h : a.le b = true) : (F.add a (.fin t v)).le (F.add b (.fin t v)) = true := by
  cases a with
  | nan => simp [Fl.le, Fl.lt, Fl.beq] at h
  | inf s =>
    cases b with
    | nan => simp [Fl.le, Fl.lt, Fl.beq] at h
    | inf s' => exact h
    | fin s' y =>
      cases s
      · simp [Fl.le, Fl.lt, Fl.beq] at h
      · simp only [Fmt.add]
        have := of_ne_nan F (s' && t) (y + v)
        revert this; cases F.of (s' && t) (y + v) with
        | nan => simp
        | inf s => cases s <;> simp [Fl.le, Fl.lt, Fl.beq]
        | fin s x => simp [Fl.le, Fl.lt]
  | fin s x =>
    cases b with
    | nan => simp [Fl.le, Fl.lt, Fl.beq] at h
    | inf s' =>
      cases s'
      · simp only [Fmt.add]
        have := of_ne_nan F (s && t) (x + v)
        revert this; cases F.of (s && t) (x + v) with
        | nan => simp
        | inf s => cases s <;> simp [Fl.le, Fl.lt, Fl.beq]
        | fin s x => simp [Fl.le, Fl.lt]
      · simp [Fl.le, Fl.lt, Fl.beq] at h
    | fin s' y => exact of_mono F (by have := le_fin.1 h; linarith)

theorem sub_mono {a b : Fl} (t : Bool) (v : ℚ) (h : a.le b = true) : (F.sub a (.fin t v)).le (F.sub b (.fin t v)) = true :=
  add_mono F _ _ h

/-- Sterbenz: the difference of two numbers within a factor of two of each other needs no rounding. -/
theorem sterbenz {x y : ℚ} (hx : F.Rep x) (hy : F.Rep y) (h1 : y ≤ 2 * x) (h2 : x ≤ 2 * y) : F.Rep (x - y) := by
  wlog hxy : y ≤ x generalizing x y with H
  · have := H hy hx h2 h1 (not_le.1 hxy).le
    have := rep_neg F this
    rwa [neg_sub] at this
  have y0 : 0 ≤ y := by linarith
  by_cases y1 : y = 0
  · have : x = 0 := by rw [y1] at h2; linarith
    rw [this, y1, sub_zero]; exact rep_zero F
  have y2 : 0 < y := lt_of_le_of_ne y0 (Ne.symm y1)
  have he : F.expo y ≤ F.expo x := expo_mono F y1 (by rw [abs_of_pos y2, abs_of_pos (y2.trans_le hxy)]; exact hxy)
  obtain ⟨m, hm⟩ := rep_multiple_of_le F hx he
  obtain ⟨n, hn⟩ := rep_multiple F hy
  have hp := pow2_pos (F.expo y)
  refine ⟨m - n, F.expo y, ?_, emin_le_expo F y, by push_cast; rw [sub_mul, ← hm, ← hn]⟩
  have hlt := lt_expo F y
  have e : x - y = ((m - n : Int) : ℚ) * 2 ^ F.expo y := by push_cast; rw [sub_mul, ← hm, ← hn]
  have a1 : |((m - n : Int) : ℚ)| * 2 ^ F.expo y ≤ 2 ^ (F.prec : Int) * 2 ^ F.expo y := by
    rw [← abs_of_pos hp, ← abs_mul, abs_of_pos hp, ← e, abs_of_nonneg (sub_nonneg.2 hxy)]
    rw [abs_of_pos y2] at hlt
    linarith
  have a2 := le_of_mul_le_mul_right a1 hp
  rw [zpow_natCast] at a2
  exact_mod_cast a2

end Verif.Props

import Verif.Props.FloatFeature
/-!
# Weighted averages in floating point (C138, C139)
-/
set_option autoImplicit false
namespace Verif.Props
open Verif Verif.Float

/-! ### C138: the exponentially weighted average -/

theorem f64_lit1 : f64.Finite (f64.lit 1) 1 := by
  have := f64_int 1 (by norm_num)
  exact_mod_cast this

/-- `2 ^ -53` -/
abbrev u53 : ℚ := 1 / 9007199254740992

theorem f64_rnd_err (x : ℚ) : |f64.rnd x - x| ≤ |x| * u53 + u53 / 1000 := by
  have h := rnd_err f64 x
  have tiny : (2 : ℚ) ^ (f64.emin - 1) ≤ u53 / 1000 := by decide +kernel
  have h53 : (2 : ℚ) ^ f64.prec = 9007199254740992 := by rw [f64_prec]; norm_num
  rw [h53] at h
  have : |x| / 9007199254740992 = |x| * u53 := by ring
  linarith

/-- One update: the result is within eight parts in `2 ^ 53` of the exact average of the numbers it is given. -/
theorem ewma_step (fw fv fx : Fl) (w v x M : ℚ) (hw : f64.Finite fw w) (hv : f64.Finite fv v) (hx : f64.Finite fx x)
    (w0 : 0 ≤ w) (w1 : w ≤ 1) (bv : |v| ≤ M) (bx : |x| ≤ M) (M1 : 1 ≤ M) (M2 : M ≤ 2 ^ 100) :
    ∃ r, f64.Finite (ewmaF fw fv fx) r ∧ |r - (w * v + (1 - w) * x)| ≤ 8 * u53 * M := by
  have big : (2 : ℚ) ^ 100 * 8 ≤ 2 ^ 200 := by norm_num
  have hrep1 : f64.Rep 1 := by exact_mod_cast rep_pow2 f64 0 (by decide)
  have c0 : 0 ≤ f64.rnd (1 - w) := rnd_nonneg f64 (by linarith)
  have c1 : f64.rnd (1 - w) ≤ 1 := rnd_le f64 (by linarith) hrep1
  have e1 := f64_rnd_err (1 - w)
  rw [abs_of_nonneg (by linarith : 0 ≤ 1 - w)] at e1
  have hc := finite_sub f64_lit1 hw (le_f64_max (by
    rw [abs_of_nonneg (by linarith : 0 ≤ 1 - w)]; refine le_trans (by linarith : 1 - w ≤ 1) (by norm_num)))
  have bwv : |w * v| ≤ M := by
    rw [abs_mul, abs_of_nonneg w0]
    have := abs_nonneg v
    nlinarith
  have hcx : |f64.rnd (1 - w) * x| ≤ M := by
    rw [abs_mul, abs_of_nonneg c0]
    have := abs_nonneg x
    nlinarith
  have ha := finite_mul hw hv (le_f64_max (by linarith))
  have hb := finite_mul hc hx (le_f64_max (by linarith))
  have ea := f64_rnd_err (w * v)
  have eb := f64_rnd_err (f64.rnd (1 - w) * x)
  generalize f64.rnd (1 - w) = c at *
  have ecx : |c * x - (1 - w) * x| ≤ (u53 + u53 / 1000) * M := by
    rw [← sub_mul, abs_mul]
    have h1 : |c - (1 - w)| ≤ u53 + u53 / 1000 := by
      refine e1.trans ?_
      have : (1 - w) * u53 ≤ 1 * u53 := mul_le_mul_of_nonneg_right (by linarith) (by norm_num)
      linarith
    exact mul_le_mul h1 bx (abs_nonneg _) (by norm_num)
  generalize f64.rnd (w * v) = a at *
  generalize f64.rnd (c * x) = b at *
  have hu : u53 = 1 / 9007199254740992 := rfl
  have ea' : |a - w * v| ≤ M * u53 + u53 / 1000 := ea.trans (by nlinarith [bwv])
  have eb' : |b - c * x| ≤ M * u53 + u53 / 1000 := eb.trans (by nlinarith [hcx])
  have bs : |a + b| ≤ 3 * M := by
    rw [abs_le] at *
    constructor <;> linarith
  have hr := finite_add ha hb (le_f64_max (by linarith))
  refine ⟨_, hr, ?_⟩
  have er := f64_rnd_err (a + b)
  have er' : |f64.rnd (a + b) - (a + b)| ≤ 3 * M * u53 + u53 / 1000 := er.trans (by nlinarith [bs])
  generalize f64.rnd (a + b) = r at *
  have hu0 : 0 < u53 := by norm_num
  have hm : u53 ≤ u53 * M := le_mul_of_one_le_right hu0.le M1
  have hm0 : 0 < u53 * M := by linarith
  have e0 : r - (w * v + (1 - w) * x) = (r - (a + b)) + (a - w * v) + (b - c * x) + (c * x - (1 - w) * x) := by ring
  rw [e0]
  clear hu e1 ea eb er
  generalize u53 = U at *
  rw [abs_le] at er' ea' eb' ecx ⊢
  constructor <;> linarith

/-- Specification: the exponentially weighted average in exact arithmetic, with the same weights. -/
def ewmaExact (v : ℚ) : List (ℚ × ℚ) → ℚ
  | [] => v
  | (w, x) :: l => ewmaExact (w * v + (1 - w) * x) l

/-- A weight between 0 and 1 and a value of size at most `M`, with their floating-point numbers. -/
def Sample (M : ℚ) (f : Fl × Fl) (q : ℚ × ℚ) : Prop :=
  f64.Finite f.1 q.1 ∧ f64.Finite f.2 q.2 ∧ 0 ≤ q.1 ∧ q.1 ≤ 1 ∧ |q.2| ≤ M

theorem convex_abs (w v x M : ℚ) (w0 : 0 ≤ w) (w1 : w ≤ 1) (bv : |v| ≤ M) (bx : |x| ≤ M) : |w * v + (1 - w) * x| ≤ M := by
  rw [abs_le] at *
  constructor <;> nlinarith

theorem ewma_run (M : ℚ) (M1 : 1 ≤ M) (M2 : M ≤ 2 ^ 90) (fl : List (Fl × Fl)) (l : List (ℚ × ℚ)) (h : List.Forall₂ (Sample M) fl l) :
    ∀ (k : Nat) (fv : Fl) (v E : ℚ), k + l.length ≤ 2 ^ 40 → f64.Finite fv v → |E| ≤ M → |v - E| ≤ k * (16 * u53) * M →
      ∃ r, f64.Finite (ewmaRun fv fl) r ∧ |r - ewmaExact E l| ≤ (k + l.length : Nat) * (16 * u53) * M := by
  induction h with
  | nil =>
    intro k fv v E _ hv _ hE
    exact ⟨v, hv, by simpa [ewmaExact] using hE⟩
  | @cons f q fl l hs hl ih =>
    obtain ⟨fw, fx⟩ := f
    obtain ⟨w, x⟩ := q
    obtain ⟨s1, s2, s3, s4, s5⟩ := hs
    simp only at s1 s2 s3 s4 s5
    intro k fv v E hk hv hEM hE
    have hkq : (k : ℚ) ≤ 2 ^ 40 := by
      have : k ≤ 2 ^ 40 := by omega
      exact_mod_cast this
    have small : (k : ℚ) * (16 * u53) * M ≤ M := by
      have h1 : (k : ℚ) * (16 * u53) ≤ 2 ^ 40 * (16 * u53) := mul_le_mul_of_nonneg_right hkq (by norm_num)
      have h2 : (2 : ℚ) ^ 40 * (16 * u53) ≤ 1 := by norm_num
      nlinarith
    have bv : |v| ≤ 2 * M := by
      rw [abs_le] at *
      constructor <;> linarith
    obtain ⟨r, hr, er⟩ := ewma_step fw fv fx w v x (2 * M) s1 hv s2 s3 s4 bv (by linarith) (by linarith) (by
      have : (2 : ℚ) * 2 ^ 90 ≤ 2 ^ 100 := by norm_num
      linarith)
    have key := ih (k + 1) (ewmaF fw fv fx) r (w * E + (1 - w) * x) (by rw [List.length_cons] at hk; omega) hr
      (convex_abs w E x M s3 s4 hEM s5) (by
        have e1 : r - (w * E + (1 - w) * x) = (r - (w * v + (1 - w) * x)) + w * (v - E) := by ring
        rw [e1]
        refine (abs_add_le _ _).trans ?_
        have e2 : |w * (v - E)| ≤ |v - E| := by
          rw [abs_mul, abs_of_nonneg s3]
          have := abs_nonneg (v - E)
          nlinarith
        push_cast
        have e3 : 8 * u53 * (2 * M) = 16 * u53 * M := by ring
        rw [e3] at er
        linarith)
    obtain ⟨r', h1, h2⟩ := key
    refine ⟨r', h1, ?_⟩
    rw [List.length_cons, show k + (l.length + 1) = k + 1 + l.length by omega]
    exact h2

/-- **C138** (any history). After any history of up to `2 ^ 40` updates the average computed differs from the exact average with
the same weights by at most `2 ^ -49` of the largest value for each update made: it never drifts further. -/
theorem C138_history (M : ℚ) (M1 : 1 ≤ M) (M2 : M ≤ 2 ^ 90) (fl : List (Fl × Fl)) (l : List (ℚ × ℚ)) (h : List.Forall₂ (Sample M) fl l)
    (hn : l.length ≤ 2 ^ 40) (fv : Fl) (v : ℚ) (hv : f64.Finite fv v) (hvM : |v| ≤ M) :
    ∃ r, f64.Finite (ewmaRun fv fl) r ∧ |r - ewmaExact v l| ≤ l.length * (1 / 2 ^ 49) * M := by
  obtain ⟨r, h1, h2⟩ := ewma_run M M1 M2 fl l h 0 fv v v (by omega) hv hvM (by simp)
  refine ⟨r, h1, ?_⟩
  rw [Nat.zero_add] at h2
  have : (16 : ℚ) * u53 = 1 / 2 ^ 49 := by norm_num
  rwa [this] at h2

theorem ewmaExact_within (l : List (ℚ × ℚ)) (v lo hi : ℚ) (hv : lo ≤ v ∧ v ≤ hi)
    (h : ∀ q ∈ l, 0 ≤ q.1 ∧ q.1 ≤ 1 ∧ lo ≤ q.2 ∧ q.2 ≤ hi) : lo ≤ ewmaExact v l ∧ ewmaExact v l ≤ hi := by
  induction l generalizing v with
  | nil => exact hv
  | cons q l ih =>
    obtain ⟨w, x⟩ := q
    obtain ⟨h1, h2, h3, h4⟩ := h (w, x) (by simp)
    simp only at h1 h2 h3 h4
    exact ih _ ⟨by nlinarith, by nlinarith⟩ (fun q hq => h q (List.mem_cons_of_mem _ hq))

/-- **C138** (range). So it stays in the range of the values, up to that error. -/
theorem C138_within (M : ℚ) (M1 : 1 ≤ M) (M2 : M ≤ 2 ^ 90) (fl : List (Fl × Fl)) (l : List (ℚ × ℚ)) (h : List.Forall₂ (Sample M) fl l)
    (hn : l.length ≤ 2 ^ 40) (fv : Fl) (v : ℚ) (hv : f64.Finite fv v) (hvM : |v| ≤ M) (lo hi : ℚ) (hb : lo ≤ v ∧ v ≤ hi)
    (hl : ∀ q ∈ l, lo ≤ q.2 ∧ q.2 ≤ hi) :
    ∃ r, f64.Finite (ewmaRun fv fl) r ∧ lo - l.length * (1 / 2 ^ 49) * M ≤ r ∧ r ≤ hi + l.length * (1 / 2 ^ 49) * M := by
  obtain ⟨r, h1, h2⟩ := C138_history M M1 M2 fl l h hn fv v hv hvM
  have hw : ∀ q ∈ l, 0 ≤ q.1 ∧ q.1 ≤ 1 ∧ lo ≤ q.2 ∧ q.2 ≤ hi := by
    intro q hq
    obtain ⟨i, hi', e⟩ := List.mem_iff_getElem.1 hq
    have := (List.forall₂_iff_get.1 h).2 i (by rw [h.length_eq]; exact hi') hi'
    rw [List.get_eq_getElem, List.get_eq_getElem, e] at this
    exact ⟨this.2.2.1, this.2.2.2.1, hl q hq⟩
  obtain ⟨w1, w2⟩ := ewmaExact_within l v lo hi hb hw
  rw [abs_le] at h2
  exact ⟨r, h1, by linarith, by linarith⟩

/-- The average of equal values need not be that value: with weight 0.2 the average of 94.5 and 94.5 is above 94.5. -/
theorem fault_ewma_equal : (f64.lit 94.5).lt (ewmaF (f64.lit 0.2) (f64.lit 94.5) (f64.lit 94.5)) = true := by decide +kernel

example : ∃ l, List.Forall₂ (Sample 100) [(f64.lit 0.5, f64.ofInt 40), (f64.lit 0.25, f64.ofInt 80)] l ∧ l.length = 2 := by
  refine ⟨[(0.5, 40), (0.25, 80)], ?_, rfl⟩
  have a1 : f64.Finite (f64.lit 0.5) 0.5 := by
    have := finite_of f64 false 0.5 (by decide +kernel)
    rwa [show f64.rnd 0.5 = 0.5 by decide +kernel] at this
  have a2 : f64.Finite (f64.lit 0.25) 0.25 := by
    have := finite_of f64 false 0.25 (by decide +kernel)
    rwa [show f64.rnd 0.25 = 0.25 by decide +kernel] at this
  have a3 : f64.Finite (f64.ofInt 40) 40 := by have := f64_int 40 (by norm_num); exact_mod_cast this
  have a4 : f64.Finite (f64.ofInt 80) 80 := by have := f64_int 80 (by norm_num); exact_mod_cast this
  refine .cons ⟨a1, a3, ?_, ?_, ?_⟩ (.cons ⟨a2, a4, ?_, ?_, ?_⟩ .nil) <;> norm_num

end Verif.Props

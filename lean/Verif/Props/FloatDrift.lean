import Verif.Props.FloatLine
/-!
# Adding a number and taking it away again, over and over

The theorem of Reiser and Knuth ("Evading the drift in floating-point addition", 1975) for round to nearest, ties to even: after
the first round trip nothing changes any more. Lemmas for C145.
-/
set_option autoImplicit false
namespace Verif.Props
open Verif Verif.Float

section
variable (F : Fmt)

theorem expo_le_of_lt {x : ℚ} (hx : x ≠ 0) {j : Int} (hj : F.emin ≤ j) (h : |x| < 2 ^ (F.prec + j : Int)) : F.expo x ≤ j := by
  have := pow2_lt_iff.1 (lt_of_le_of_lt (log_bounds x hx).1 h)
  unfold Fmt.expo
  omega

theorem le_expo_of_le {x : ℚ} {j : Int} (h : (2 : ℚ) ^ (F.prec - 1 + j : Int) ≤ |x|) : j ≤ F.expo x := by
  have hx : x ≠ 0 := by
    rintro rfl
    rw [abs_zero] at h
    exact absurd h (not_le.2 (pow2_pos _))
  have := pow2_lt_iff.1 (lt_of_le_of_lt h (log_bounds x hx).2)
  unfold Fmt.expo
  omega

theorem rne_strict (n : Int) {δ : ℚ} (h : |δ| < 1 / 2) : rne (n + δ) = n := by
  have h1 := rne_near (n + δ)
  rw [abs_le] at h1
  rw [abs_lt] at h
  have a : ((rne (n + δ) : Int) : ℚ) < n + 1 := by linarith
  have b : (n : ℚ) - 1 < (rne (n + δ) : Int) := by linarith
  have a' : rne (n + δ) < n + 1 := by exact_mod_cast a
  have b' : n - 1 < rne (n + δ) := by exact_mod_cast b
  omega

theorem rne_half (n : Int) : rne (n + 1 / 2) % 2 = 0 := by
  unfold rne
  have hf : ⌊(n : ℚ) + 1 / 2⌋ = n := by
    rw [Int.floor_eq_iff]; constructor <;> linarith
  dsimp only
  rw [hf, if_neg (by linarith), if_neg (by linarith)]
  split_ifs with h
  · exact h
  · omega

/-- A half integer rounds to an even number. -/
theorem rne_half_abs (n : Int) {δ : ℚ} (h : |δ| = 1 / 2) : rne (n + δ) % 2 = 0 := by
  rcases (abs_eq (by norm_num)).1 h with rfl | rfl
  · exact rne_half n
  · have : (n : ℚ) + -(1 / 2) = ((n - 1 : Int) : ℚ) + 1 / 2 := by push_cast; ring
    rw [this]
    exact rne_half _

/-- An even number is where half integers next to it round to. -/
theorem rne_even (n : Int) (hn : n % 2 = 0) {δ : ℚ} (h : |δ| ≤ 1 / 2) : rne (n + δ) = n := by
  rcases lt_or_eq_of_le h with h | h
  · exact rne_strict n h
  · have h1 := rne_half_abs n h
    have h2 := rne_near (n + δ)
    have h3 := h.le
    rw [abs_le] at h2 h3
    have a : ((rne (n + δ) : Int) : ℚ) ≤ n + 1 := by linarith
    have b : (n : ℚ) - 1 ≤ (rne (n + δ) : Int) := by linarith
    have a' : rne (n + δ) ≤ n + 1 := by exact_mod_cast a
    have b' : n - 1 ≤ rne (n + δ) := by exact_mod_cast b
    omega

theorem rnd_of_expo {x : ℚ} {e n : Int} (he : F.expo x = e) (h : rne (x / 2 ^ e) = n) : F.rnd x = n * 2 ^ e := by
  unfold Fmt.rnd
  rw [he, h]

/-- A number stays where it is when less than a quarter of its last place is added. -/
theorem hold_pos {w : ℚ} (hw : F.Rep w) (h0 : 0 < w) (he : F.emin < F.expo w) {ε : ℚ} (h : |ε| ≤ 2 ^ (F.expo w) / 4) :
    F.rnd (w + ε) = w := by
  obtain ⟨m, hm⟩ := rep_multiple F hw
  have hU := pow2_pos (F.expo w)
  have lo := full_bits F w h0.ne' he
  have hi := lt_expo F w
  rw [abs_of_pos h0] at lo hi
  have hp := F.hprec
  generalize hE : F.expo w = E at *
  have elo : (2 : ℚ) ^ ((F.prec : Int) - 1 + E) = ((2 ^ (F.prec - 1) : Int) : ℚ) * 2 ^ E := by
    rw [pow2_add]
    congr 1
    push_cast
    rw [← zpow_natCast]
    congr 1
    omega
  have ehi : (2 : ℚ) ^ (F.prec : Int) = ((2 ^ F.prec : Int) : ℚ) := by push_cast; rw [zpow_natCast]
  have m1 : (2 : Int) ^ (F.prec - 1) ≤ m := by
    rw [elo, hm] at lo
    exact_mod_cast le_of_mul_le_mul_right lo hU
  have m2 : m < (2 : Int) ^ F.prec := by
    rw [ehi, hm] at hi
    exact_mod_cast lt_of_mul_lt_mul_right hi hU.le
  -- from above
  have up : F.rnd (w + 2 ^ E / 4) = w := by
    have x0 : w + 2 ^ E / 4 ≠ 0 := by positivity
    have e1 : F.expo (w + 2 ^ E / 4) = E := by
      apply le_antisymm
      · refine expo_le_of_lt F x0 (by omega) ?_
        rw [abs_of_pos (by positivity), pow2_add, ehi]
        have : ((m + 1 : Int) : ℚ) ≤ ((2 ^ F.prec : Int) : ℚ) := by exact_mod_cast m2
        have := mul_le_mul_of_nonneg_right this hU.le
        push_cast at this ⊢
        rw [hm]
        linarith
      · refine le_expo_of_le F ?_
        rw [abs_of_pos (by positivity)]
        linarith
    rw [rnd_of_expo F e1 (n := m), ← hm]
    have : (w + 2 ^ E / 4) / 2 ^ E = m + 1 / 4 := by rw [hm]; field_simp
    rw [this]
    exact rne_strict m (by rw [abs_of_pos (by norm_num)]; norm_num)
  -- from below
  have down : F.rnd (w - 2 ^ E / 4) = w := by
    rcases Int.lt_or_eq_of_le m1 with hlt | heq
    · have big : (2 : ℚ) ^ ((F.prec : Int) - 1 + E) ≤ w - 2 ^ E / 4 := by
        rw [elo, hm]
        have : (((2 : Int) ^ (F.prec - 1) + 1 : Int) : ℚ) ≤ m := by exact_mod_cast hlt
        have := mul_le_mul_of_nonneg_right this hU.le
        push_cast at this ⊢
        linarith
      have pos : 0 < w - 2 ^ E / 4 := lt_of_lt_of_le (pow2_pos _) big
      have e1 : F.expo (w - 2 ^ E / 4) = E := by
        apply le_antisymm
        · refine expo_le_of_lt F pos.ne' (by omega) ?_
          rw [abs_of_pos pos, pow2_add]
          linarith
        · refine le_expo_of_le F ?_
          rw [abs_of_pos pos]
          exact big
      rw [rnd_of_expo F e1 (n := m), ← hm]
      have : (w - 2 ^ E / 4) / 2 ^ E = m + -(1 / 4) := by rw [hm]; field_simp; ring
      rw [this]
      exact rne_strict m (by rw [abs_neg, abs_of_pos (by norm_num)]; norm_num)
    · have hh : (2 : ℚ) ^ E = 2 * 2 ^ (E - 1) := by
        rw [show E = 1 + (E - 1) by ring, pow2_add]; norm_num
      have hU' := pow2_pos (E - 1)
      have two : (2 : Int) ^ F.prec = 2 * 2 ^ (F.prec - 1) := by
        rw [show F.prec = (F.prec - 1) + 1 by omega, pow_succ]
        simp
        ring
      have wv : w = ((2 ^ F.prec : Int) : ℚ) * 2 ^ (E - 1) := by
        rw [hm, ← heq, two, hh]
        push_cast
        ring
      have one : (1 : ℚ) ≤ ((2 ^ (F.prec - 1) : Int) : ℚ) := by
        exact_mod_cast (one_le_pow₀ (by norm_num) : (1 : Int) ≤ 2 ^ (F.prec - 1))
      have two' : ((2 ^ F.prec : Int) : ℚ) = 2 * ((2 ^ (F.prec - 1) : Int) : ℚ) := by exact_mod_cast two
      have big : (2 : ℚ) ^ ((F.prec : Int) - 1 + (E - 1)) ≤ w - 2 ^ E / 4 := by
        have : (2 : ℚ) ^ ((F.prec : Int) - 1 + (E - 1)) = ((2 ^ (F.prec - 1) : Int) : ℚ) * 2 ^ (E - 1) := by
          rw [pow2_add]
          congr 1
          push_cast
          rw [← zpow_natCast]
          congr 1
          omega
        rw [this, wv, hh, two']
        have := mul_le_mul_of_nonneg_right one hU'.le
        linarith
      have pos : 0 < w - 2 ^ E / 4 := lt_of_lt_of_le (pow2_pos _) big
      have e1 : F.expo (w - 2 ^ E / 4) = E - 1 := by
        apply le_antisymm
        · refine expo_le_of_lt F pos.ne' (by omega) ?_
          rw [abs_of_pos pos, pow2_add, ehi, ← wv]
          linarith
        · refine le_expo_of_le F ?_
          rw [abs_of_pos pos]
          exact big
      rw [rnd_of_expo F e1 (n := 2 ^ F.prec), ← wv]
      have : (w - 2 ^ E / 4) / 2 ^ (E - 1) = ((2 ^ F.prec : Int) : ℚ) + -(1 / 2) := by
        rw [wv, hh]; field_simp; ring
      rw [this]
      exact rne_even _ (by rw [two]; omega) (by rw [abs_neg, abs_of_pos (by norm_num)])
  rw [abs_le] at h
  apply le_antisymm
  · calc F.rnd (w + ε) ≤ F.rnd (w + 2 ^ E / 4) := rnd_mono F (by linarith)
      _ = w := up
  · calc w = F.rnd (w - 2 ^ E / 4) := down.symm
      _ ≤ F.rnd (w + ε) := rnd_mono F (by linarith)

theorem hold {w : ℚ} (hw : F.Rep w) (h0 : w ≠ 0) (he : F.emin < F.expo w) {ε : ℚ} (h : |ε| ≤ 2 ^ (F.expo w) / 4) :
    F.rnd (w + ε) = w := by
  rcases lt_or_gt_of_ne h0 with hn | hp
  · have := hold_pos F (rep_neg F hw) (by linarith) (by rwa [expo_neg]) (ε := -ε) (by rwa [expo_neg, abs_neg])
    rw [← neg_add, rnd_neg, neg_inj] at this
    exact this
  · exact hold_pos F hw hp he h

theorem rep_multiple_min {x : ℚ} (h : F.Rep x) : ∃ n : Int, x = n * 2 ^ F.emin := by
  obtain ⟨m, e, -, he, rfl⟩ := h
  refine ⟨m * 2 ^ (e - F.emin).toNat, ?_⟩
  push_cast
  rw [mul_assoc, ← zpow_natCast, ← pow2_add, Int.toNat_of_nonneg (by omega)]
  congr 2
  omega

theorem rep_multiple_of_le {x : ℚ} (h : F.Rep x) {k : Int} (hk : k ≤ F.expo x) : ∃ n : Int, x = n * 2 ^ k := by
  obtain ⟨m, hm⟩ := rep_multiple F h
  refine ⟨m * 2 ^ (F.expo x - k).toNat, ?_⟩
  push_cast
  rw [mul_assoc, ← zpow_natCast, ← pow2_add, Int.toNat_of_nonneg (by omega)]
  rw [show F.expo x - k + k = F.expo x by ring]
  exact hm

/-- A sum of numbers of the format rounds to zero only if it is zero. -/
theorem rnd_sum_zero {a b : ℚ} (ha : F.Rep a) (hb : F.Rep b) (h : F.rnd (a + b) = 0) : a + b = 0 := by
  obtain ⟨m, hm⟩ := rep_multiple_min F ha
  obtain ⟨n, hn⟩ := rep_multiple_min F hb
  have hp := pow2_pos F.emin
  have e : a + b = ((m + n : Int) : ℚ) * 2 ^ F.emin := by rw [hm, hn]; push_cast; ring
  by_contra hne
  have h1 : (1 : ℚ) ≤ |((m + n : Int) : ℚ)| := by
    have : m + n ≠ 0 := by
      intro q
      rw [q] at e
      apply hne
      rw [e]
      simp
    exact_mod_cast Int.one_le_abs this
  have h2 : (2 : ℚ) ^ F.emin ≤ |a + b| := by
    rw [e, abs_mul, abs_of_pos hp]
    have := mul_le_mul_of_nonneg_right h1 hp.le
    linarith
  have h3 := le_rnd F h2 (rep_pow2 F _ (le_refl _))
  rw [rnd_abs, h, abs_zero] at h3
  linarith

theorem abs_ge_full {x : ℚ} (hx : x ≠ 0) {k : Int} (hk : k ≤ F.expo x) (he : F.emin < k) :
    (2 : ℚ) ^ ((F.prec : Int) - 1 + k) ≤ |x| :=
  le_trans (pow2_le (by omega)) (full_bits F x hx (lt_of_lt_of_le he hk))

/-- Halves and quarters of powers of two. -/
theorem pow2_pred (k : Int) : (2 : ℚ) ^ k = 2 * 2 ^ (k - 1) := by
  rw [show k = 1 + (k - 1) by ring, pow2_add]; norm_num

theorem pow2_scale (k : Int) : (2 : ℚ) ^ ((F.prec : Int) - 1 + k) = ((2 ^ (F.prec - 1) : Int) : ℚ) * 2 ^ k := by
  have := F.hprec
  rw [pow2_add]
  congr 1
  push_cast
  rw [← zpow_natCast]
  congr 1
  omega

theorem two_half : (2 : Int) ^ F.prec = 2 * 2 ^ (F.prec - 1) := by
  have := F.hprec
  conv_lhs => rw [show F.prec = (F.prec - 1) + 1 by omega]
  rw [pow_succ]
  ring

theorem even_half : (2 : Int) ^ (F.prec - 1) % 2 = 0 := by
  have := F.hprec
  rw [show F.prec - 1 = (F.prec - 2) + 1 by omega, pow_succ]
  omega

theorem mult_bound {x : ℚ} (h : F.Rep x) : ∃ m : Int, x = m * 2 ^ F.expo x ∧ |m| ≤ 2 ^ F.prec - 1 := by
  obtain ⟨m, hm⟩ := rep_multiple F h
  refine ⟨m, hm, ?_⟩
  have hi := lt_expo F x
  have hU := pow2_pos (F.expo x)
  have ehi : (2 : ℚ) ^ (F.prec : Int) = ((2 ^ F.prec : Int) : ℚ) := by push_cast; rw [zpow_natCast]
  have : |x| = |(m : ℚ)| * 2 ^ F.expo x := by
    conv_lhs => rw [hm]
    rw [abs_mul, abs_of_pos hU]
  rw [this, ehi] at hi
  have := lt_of_mul_lt_mul_right hi hU.le
  have : |m| < 2 ^ F.prec := by exact_mod_cast this
  omega

/-- The last case of the theorem below: everything in sight has the same last place `2 ^ k`, and the sum went to a neighbour. -/
theorem tie_impossible {u v w : ℚ} (hu : F.Rep u) (hw : w = F.rnd (u + v)) (hw0 : w ≠ 0)
    (hwv : w - v ≠ 0) {k : Int} (hk : F.emin < k) (ew : F.expo w = k) (ewv : F.expo (w - v) = k)
    {A W : Int} (hW : w = W * 2 ^ k) (δ : ℚ) (hδ : v = (W - A + δ) * 2 ^ k) (half : |δ| = 1 / 2) :
    W % 2 = 0 := by
  have hU := pow2_pos k
  by_cases hc : k ≤ F.expo u
  · obtain ⟨M, hM⟩ := rep_multiple_of_le F hu hc
    have euv : F.expo (u + v) ≤ k := by
      rw [← ew, hw]
      exact expo_le_rnd F _
    have sum : u + v = (((M + W - A : Int) : ℚ) + δ) * 2 ^ k := by rw [hM, hδ]; push_cast; ring
    rcases lt_or_eq_of_le euv with hlt | heq
    · -- the sum is below a power of two and its rounding is not
      have b1 : |w| ≤ 2 ^ ((F.prec : Int) - 1 + k) := by
        rw [hw]
        refine abs_rnd_le F ?_ (rep_pow2 F _ (by have := F.hprec; omega))
        refine le_trans (lt_expo F _).le ?_
        rw [← pow2_add]
        exact pow2_le (by omega)
      have b2 := abs_ge_full F hw0 ew.ge hk
      have b3 := le_antisymm b1 b2
      rw [pow2_scale, hW, abs_mul, abs_of_pos hU] at b3
      have b4 := mul_right_cancel₀ hU.ne' b3
      have b5 : |W| = 2 ^ (F.prec - 1) := by exact_mod_cast b4
      have b6 := even_half F
      rw [← b5] at b6
      rcases abs_cases W with ⟨q, -⟩ | ⟨q, -⟩ <;> rw [q] at b6 <;> omega
    · have r : F.rnd (u + v) = (rne (((M + W - A : Int) : ℚ) + δ) : Int) * 2 ^ k :=
        rnd_of_expo F heq (by rw [sum, mul_div_assoc, div_self hU.ne', mul_one])
      rw [← hw, hW] at r
      have r' : W = rne (((M + W - A : Int) : ℚ) + δ) := by exact_mod_cast mul_right_cancel₀ hU.ne' r
      rw [r']
      exact rne_half_abs _ half
  · exfalso
    have s1 : |u| < 2 ^ ((F.prec : Int) - 1 + k) := by
      refine lt_of_lt_of_le (lt_expo F u) ?_
      rw [← pow2_add]
      exact pow2_le (by omega)
    have euv : F.expo (u + v) ≤ k := by
      rw [← ew, hw]
      exact expo_le_rnd F _
    have s2 : |w - (u + v)| ≤ 2 ^ k / 2 := by
      rw [hw]
      have := rnd_err_ulp F (u + v)
      have := pow2_le euv
      linarith
    have s3 : |w - v| < 2 ^ ((F.prec : Int) - 1 + k) + 2 ^ k / 2 := by
      have : w - v = u + (w - (u + v)) := by ring
      rw [this]
      have := abs_add_le u (w - (u + v))
      linarith
    have s4 := abs_ge_full F hwv ewv.ge hk
    have e : w - v = (A - δ) * 2 ^ k := by rw [hW, hδ]; ring
    rw [e, abs_mul, abs_of_pos hU, pow2_scale] at s3 s4
    have s3' : |(A : ℚ) - δ| < ((2 ^ (F.prec - 1) : Int) : ℚ) + 1 / 2 := by
      by_contra hn
      have := mul_le_mul_of_nonneg_right (not_lt.1 hn) hU.le
      linarith
    have s4' := le_of_mul_le_mul_right s4 hU
    generalize (2 ^ (F.prec - 1) : Int) = P at *
    rcases (abs_eq (by norm_num)).1 half with rfl | rfl
    · rcases abs_cases ((A : ℚ) - 1 / 2) with ⟨q, -⟩ | ⟨q, -⟩ <;> rw [q] at s3' s4'
      · have a1 : (A : ℚ) < P + 1 := by linarith
        have a2 : (P : ℚ) < A := by linarith
        have a1' : A < P + 1 := by exact_mod_cast a1
        have a2' : P < A := by exact_mod_cast a2
        omega
      · have a1 : (-A : ℚ) < P := by linarith
        have a2 : (P : ℚ) < -A + 1 := by linarith
        have a1' : -A < P := by exact_mod_cast a1
        have a2' : P < -A + 1 := by exact_mod_cast a2
        omega
    · rcases abs_cases ((A : ℚ) - -(1 / 2)) with ⟨q, -⟩ | ⟨q, -⟩ <;> rw [q] at s3' s4'
      · have a1 : (A : ℚ) < P := by linarith
        have a2 : (P : ℚ) < A + 1 := by linarith
        have a1' : A < P := by exact_mod_cast a1
        have a2' : P < A + 1 := by exact_mod_cast a2
        omega
      · have a1 : (-A : ℚ) < P + 1 := by linarith
        have a2 : (P : ℚ) < -A := by linarith
        have a1' : -A < P + 1 := by exact_mod_cast a1
        have a2' : P < -A := by exact_mod_cast a2
        omega

/-- **Reiser and Knuth.** Adding a number and taking it away again, a second time, changes nothing more. -/
theorem no_drift {u v : ℚ} (hu : F.Rep u) (hv : F.Rep v) :
    F.rnd (F.rnd (F.rnd (F.rnd (u + v) - v) + v) - v) = F.rnd (F.rnd (u + v) - v) := by
  obtain ⟨w, hw⟩ : ∃ w, w = F.rnd (u + v) := ⟨_, rfl⟩
  obtain ⟨u', hu'⟩ : ∃ u', u' = F.rnd (w - v) := ⟨_, rfl⟩
  rw [← hw, ← hu']
  have Rw : F.Rep w := hw ▸ rep_rnd F _
  have Ru' : F.Rep u' := hu' ▸ rep_rnd F _
  -- exact steps
  have exact0 : F.Rep (w - v) → F.rnd (F.rnd (u' + v) - v) = u' := by
    intro h
    have : u' = w - v := by rw [hu', rnd_rep F h]
    rw [this, sub_add_cancel, rnd_rep F Rw, rnd_rep F h]
  have exact1 : F.Rep (u' + v) → F.rnd (F.rnd (u' + v) - v) = u' := by
    intro h
    rw [rnd_rep F h, add_sub_cancel_right, rnd_rep F Ru']
  by_cases huv : u + v = 0
  · apply exact0
    rw [hw, huv, rnd_zero, show (0 : ℚ) - v = u by linarith]
    exact hu
  by_cases hu0 : u = 0
  · apply exact0
    rw [hw, hu0, zero_add, rnd_rep F hv, sub_self]
    exact rep_zero F
  by_cases hwv : w - v = 0
  · apply exact0
    rw [hwv]
    exact rep_zero F
  by_cases hu'v : u' + v = 0
  · apply exact1
    rw [hu'v]
    exact rep_zero F
  have hw0 : w ≠ 0 := by
    intro h
    rw [h] at hw
    exact huv (rnd_sum_zero F hu hv hw.symm)
  have hu'0 : u' ≠ 0 := by
    intro h
    rw [h] at hu'
    rw [sub_eq_add_neg] at hu'
    exact hwv (by rw [sub_eq_add_neg]; exact rnd_sum_zero F Rw (rep_neg F hv) hu'.symm)
  have back : F.rnd (u' + v) = w → F.rnd (F.rnd (u' + v) - v) = u' := fun h => by rw [h, ← hu']
  have err : |u' - (w - v)| ≤ 2 ^ F.expo (w - v) / 2 := by rw [hu']; exact rnd_err_ulp F _
  by_cases g1 : F.expo (w - v) < F.expo w
  · apply back
    have : u' + v = w + (u' - (w - v)) := by ring
    rw [this]
    refine hold F Rw hw0 (lt_of_le_of_lt (emin_le_expo F _) g1) (err.trans ?_)
    have := pow2_le (show F.expo (w - v) ≤ F.expo w - 1 by omega)
    have := pow2_pred (F.expo w)
    linarith
  by_cases g2 : F.expo (u' + v) < F.expo u'
  · have : F.rnd (u' + v) - v = u' + (F.rnd (u' + v) - (u' + v)) := by ring
    rw [this]
    refine hold F Ru' hu'0 (lt_of_le_of_lt (emin_le_expo F _) g2) ((rnd_err_ulp F _).trans ?_)
    have := pow2_le (show F.expo (u' + v) ≤ F.expo u' - 1 by omega)
    have := pow2_pred (F.expo u')
    linarith
  obtain ⟨k, hk⟩ : ∃ k, k = F.expo (w - v) := ⟨_, rfl⟩
  have ku' : k ≤ F.expo u' := by rw [hk, hu']; exact expo_le_rnd F _
  rw [← hk] at g1 err
  have hU := pow2_pos k
  rcases Int.lt_or_eq_of_le (hk ▸ emin_le_expo F (w - v)) with hmin | hmin
  swap
  · apply exact0
    obtain ⟨m, hm⟩ := rep_multiple_min F Rw
    obtain ⟨n, hn⟩ := rep_multiple_min F hv
    have e : w - v = ((m - n : Int) : ℚ) * 2 ^ F.emin := by rw [hm, hn]; push_cast; ring
    have := lt_expo F (w - v)
    rw [← hk, ← hmin, e, abs_mul, abs_of_pos (pow2_pos _)] at this
    have h1 := lt_of_mul_lt_mul_right this (pow2_pos _).le
    refine ⟨m - n, F.emin, ?_, le_refl _, e⟩
    rw [zpow_natCast] at h1
    have : |m - n| < 2 ^ F.prec := by exact_mod_cast h1
    omega
  have big := abs_ge_full F hu'v (show k ≤ F.expo (u' + v) by omega) hmin
  have small : |u' + v| ≤ |w| + 2 ^ k / 2 := by
    have : u' + v = w + (u' - (w - v)) := by ring
    rw [this]
    exact (abs_add_le _ _).trans (by linarith)
  obtain ⟨m, hm, mb⟩ := mult_bound F Rw
  have wb : |w| ≤ ((2 ^ F.prec : Int) : ℚ) * 2 ^ F.expo w - 2 ^ F.expo w := by
    have : |w| = |(m : ℚ)| * 2 ^ F.expo w := by
      conv_lhs => rw [hm]
      rw [abs_mul, abs_of_pos (pow2_pos _)]
    rw [this]
    have q : (|m| : ℚ) ≤ ((2 ^ F.prec - 1 : Int) : ℚ) := by exact_mod_cast mb
    have := mul_le_mul_of_nonneg_right q (pow2_pos (F.expo w)).le
    push_cast at this ⊢
    linarith
  have two' : ((2 ^ F.prec : Int) : ℚ) = 2 * ((2 ^ (F.prec - 1) : Int) : ℚ) := by exact_mod_cast two_half F
  have one : (1 : ℚ) ≤ ((2 ^ (F.prec - 1) : Int) : ℚ) := by
    exact_mod_cast (one_le_pow₀ (by norm_num) : (1 : Int) ≤ 2 ^ (F.prec - 1))
  have ew : F.expo w = k ∨ F.rnd (F.rnd (u' + v) - v) = u' := by
    rcases Int.lt_or_eq_of_le (not_lt.1 g1) with hlt | heq
    · right
      apply exact1
      have hle : (2 : ℚ) ^ F.expo w ≤ 2 ^ (k - 1) := pow2_le (by omega)
      have hp := pow2_pred k
      have : ((2 ^ F.prec : Int) : ℚ) * 2 ^ F.expo w - 2 ^ F.expo w ≤ ((2 ^ F.prec : Int) : ℚ) * 2 ^ (k - 1) - 2 ^ (k - 1) := by
        have := mul_le_mul_of_nonneg_left hle (show (0 : ℚ) ≤ ((2 ^ F.prec : Int) : ℚ) - 1 by linarith)
        linarith
      have e : |u' + v| = 2 ^ ((F.prec : Int) - 1 + k) := by
        apply le_antisymm _ big
        rw [pow2_scale, hp]
        rw [two'] at this wb
        linarith
      have hp2 := F.hprec
      have R := rep_pow2 F ((F.prec : Int) - 1 + k) (by omega)
      rcases abs_cases (u' + v) with ⟨q, -⟩ | ⟨q, -⟩
      · rw [← q, e]; exact R
      · rw [show u' + v = -|u' + v| by rw [q]; ring, e]; exact rep_neg F R
    · exact Or.inl heq
  rcases ew with ew | done
  swap
  · exact done
  rw [ew] at wb hm
  have en : F.expo (u' + v) = k := by
    apply le_antisymm
    · refine expo_le_of_lt F hu'v hmin.le ?_
      rw [pow2_add, zpow_natCast]
      push_cast at wb
      linarith
    · omega
  have eu' : F.expo u' = k := by omega
  obtain ⟨A, hA⟩ := rep_multiple F Ru'
  rw [eu'] at hA
  obtain ⟨δ, hδ⟩ : ∃ δ : ℚ, δ = (u' - (w - v)) / 2 ^ k := ⟨_, rfl⟩
  have hδ' : δ * 2 ^ k = u' - (w - v) := by rw [hδ]; field_simp
  have hv' : v = (m - A + δ) * 2 ^ k := by
    have : (m - A + δ) * 2 ^ k = (m : ℚ) * 2 ^ k - A * 2 ^ k + δ * 2 ^ k := by ring
    rw [this, ← hm, ← hA, hδ']
    ring
  have dle : |δ| ≤ 1 / 2 := by
    rw [hδ, abs_div, abs_of_pos hU, div_le_iff₀ hU]
    linarith
  have sum : (u' + v) / 2 ^ k = m + δ := by
    rw [div_eq_iff hU.ne', add_mul, ← hm, hδ']
    ring
  have w' := rnd_of_expo F en (n := rne (m + δ)) (by rw [sum])
  have fin : rne (m + δ) = m := by
    rcases lt_or_eq_of_le dle with h | h
    · exact rne_strict m h
    · exact rne_even m (tie_impossible F hu hw hw0 hwv hmin ew hk.symm hm δ hv' h) dle
  apply back
  rw [w', fin]
  exact hm.symm

end
end Verif.Props

import Verif.Float.Greeks
import Verif.Props.FloatOrder
import Verif.Props.FloatLine
import Verif.Props.FloatBumps
/-!
# C147, C148: sensitivities in single precision
-/
set_option autoImplicit false
namespace Verif.Props
open Verif Verif.Float

/-- `x` is `y` times `k` factors between `1 - 2^-24` and `1 + 2^-24`. -/
def Rel (k : Nat) (x y : ℚ) : Prop := ∃ θ : ℚ, x = y * θ ∧ (1 - u24) ^ k ≤ θ ∧ θ ≤ (1 + u24) ^ k

theorem u24_pos : (0 : ℚ) < 1 - u24 := by norm_num

theorem Rel.refl (x : ℚ) : Rel 0 x x := ⟨1, by ring, by norm_num, by norm_num⟩

theorem Rel.mul {j k : Nat} {x y x' y' : ℚ} (h : Rel j x y) (h' : Rel k x' y') : Rel (j + k) (x * x') (y * y') := by
  obtain ⟨a, rfl, a1, a2⟩ := h
  obtain ⟨b, rfl, b1, b2⟩ := h'
  have p := pow_pos u24_pos j
  have q := pow_pos u24_pos k
  refine ⟨a * b, by ring, ?_, ?_⟩
  · rw [pow_add]; exact mul_le_mul a1 b1 q.le (p.le.trans a1)
  · rw [pow_add]; exact mul_le_mul a2 b2 (q.le.trans b1) (p.le.trans (a1.trans a2))

theorem Rel.trans {j k : Nat} {x y z : ℚ} (h : Rel j x y) (h' : Rel k y z) : Rel (j + k) x z := by
  obtain ⟨a, rfl, a1, a2⟩ := h
  have ha : Rel j a 1 := ⟨a, by ring, a1, a2⟩
  have := ha.mul h'
  rwa [mul_comm a y, one_mul] at this

theorem Rel.div {k : Nat} {x y : ℚ} (h : Rel k x y) (b : ℚ) : Rel k (x / b) (y / b) := by
  obtain ⟨a, rfl, a1, a2⟩ := h
  exact ⟨a, by ring, a1, a2⟩

theorem rel_of_err {x y : ℚ} (h : |x - y| ≤ |y| / 2 ^ 24) : Rel 1 x y := by
  by_cases h0 : y = 0
  · subst h0
    rw [abs_zero, zero_div, sub_zero] at h
    have : x = 0 := abs_eq_zero.1 (le_antisymm h (abs_nonneg _))
    exact ⟨1, by rw [this]; ring, by norm_num, by norm_num⟩
  · have hp := abs_pos.2 h0
    refine ⟨x / y, by field_simp, ?_⟩
    have e : |x / y - 1| ≤ u24 := by
      rw [show x / y - 1 = (x - y) / y by field_simp, abs_div, div_le_iff₀ hp]
      calc |x - y| ≤ |y| / 2 ^ 24 := h
        _ = u24 * |y| := by norm_num; ring
    obtain ⟨e1, e2⟩ := abs_le.1 e
    rw [pow_one, pow_one]
    constructor <;> linarith

/-- Rounding is one factor, unless the number is subnormal. -/
theorem rel_rnd (x : ℚ) (h : x = 0 ∨ (2 : ℚ) ^ (-126 : Int) ≤ |x|) : Rel 1 (f32.rnd x) x := rel_of_err (f32_err x h)

theorem rel_sub (a b : ℚ) (ha : f32.Rep a) (hb : f32.Rep b) : Rel 1 (f32.rnd (a - b)) (a - b) := by
  obtain ⟨δ, e, h⟩ := f32_sub_model a b ha hb
  obtain ⟨h1, h2⟩ := abs_le.1 h
  exact ⟨1 + δ, e, by rw [pow_one]; linarith, by rw [pow_one]; linarith⟩

theorem Rel.le {k : Nat} {x y : ℚ} (h : Rel k x y) (hk : k ≤ 16) : |x| ≤ |y| * 2 ∧ |y| / 2 ≤ |x| := by
  obtain ⟨θ, rfl, a, b⟩ := h
  have l : (1 / 2 : ℚ) ≤ θ := by
    refine le_trans ?_ a
    refine le_trans ?_ (pow_le_pow_of_le_one u24_pos.le (by norm_num) hk)
    norm_num
  have r : θ ≤ 2 := by
    refine b.trans ?_
    refine (pow_le_pow_right₀ (by norm_num) hk).trans ?_
    norm_num
  rw [abs_mul, abs_of_pos (by linarith : (0 : ℚ) < θ)]
  have := abs_nonneg y
  constructor
  · exact mul_le_mul_of_nonneg_left r this
  · calc |y| / 2 = |y| * (1 / 2) := by ring
      _ ≤ |y| * θ := mul_le_mul_of_nonneg_left l this

theorem Rel.zero {k : Nat} {x y : ℚ} (h : Rel k x y) (hy : y = 0) : x = 0 := by
  obtain ⟨θ, rfl, -, -⟩ := h; rw [hy, zero_mul]

theorem Rel.err {k : Nat} {x y : ℚ} (h : Rel k x y) (c : ℚ) (h1 : (1 + u24) ^ k ≤ 1 + c) (h2 : 1 - c ≤ (1 - u24) ^ k) : |x - y| ≤ c * |y| := by
  obtain ⟨θ, rfl, a, b⟩ := h
  rw [show y * θ - y = (θ - 1) * y by ring, abs_mul]
  refine mul_le_mul_of_nonneg_right (abs_le.2 ⟨by linarith, by linarith⟩) (abs_nonneg _)

/-- Zero, or of a size between two powers of two. -/
def Between (i j : Int) (x : ℚ) : Prop := x = 0 ∨ ((2 : ℚ) ^ i ≤ |x| ∧ |x| ≤ 2 ^ j)

theorem Between.mul {i j k l : Int} {x y : ℚ} (h : Between i j x) (h1 : (2 : ℚ) ^ k ≤ |y|) (h2 : |y| ≤ 2 ^ l) : Between (i + k) (j + l) (x * y) := by
  rcases h with rfl | ⟨a, b⟩
  · left; ring
  · right
    rw [abs_mul, pow2_add, pow2_add]
    exact ⟨mul_le_mul a h1 (pow2_pos _).le (abs_nonneg _), mul_le_mul b h2 (abs_nonneg _) (pow2_pos _).le⟩

theorem Between.div {i j k l : Int} {x y : ℚ} (h : Between i j x) (h1 : (2 : ℚ) ^ k ≤ |y|) (h2 : |y| ≤ 2 ^ l) : Between (i - l) (j - k) (x / y) := by
  have hy : 0 < |y| := (pow2_pos k).trans_le h1
  have e1 : (2 : ℚ) ^ (-l) ≤ |y⁻¹| := by
    rw [abs_inv, zpow_neg]; exact inv_anti₀ hy h2
  have e2 : |y⁻¹| ≤ (2 : ℚ) ^ (-k) := by
    rw [abs_inv, zpow_neg]; exact inv_anti₀ (pow2_pos k) h1
  have := h.mul e1 e2
  rw [div_eq_mul_inv]; exact this

theorem Between.rel {i j : Int} {k : Nat} {x y : ℚ} (h : Between i j y) (hr : Rel k x y) (hk : k ≤ 16) : Between (i - 1) (j + 1) x := by
  rcases h with h | ⟨a, b⟩
  · left; exact hr.zero h
  · right
    obtain ⟨r1, r2⟩ := hr.le hk
    constructor
    · refine le_trans ?_ r2
      rw [zpow_sub_one₀ (by norm_num)]
      calc (2 : ℚ) ^ i * 2⁻¹ = 2 ^ i / 2 := by ring
        _ ≤ |y| / 2 := by linarith
    · refine r1.trans ?_
      rw [zpow_add_one₀ (by norm_num)]
      linarith

theorem Between.weaken {i j i' j' : Int} {x : ℚ} (h : Between i j x) (hi : i' ≤ i) (hj : j ≤ j') : Between i' j' x := by
  rcases h with h | ⟨a, b⟩
  · exact Or.inl h
  · exact Or.inr ⟨(pow2_le hi).trans a, b.trans (pow2_le hj)⟩

theorem Between.rnd {i j : Int} {x : ℚ} (h : Between i j x) (hi : -126 ≤ i) (hj : j ≤ 100) : Rel 1 (f32.rnd x) x ∧ |x| ≤ f32.maxFin := by
  constructor
  · refine rel_rnd x ?_
    rcases h with h | ⟨a, -⟩
    · exact Or.inl h
    · exact Or.inr ((pow2_le hi).trans a)
  · refine le_f32_max ?_
    rcases h with h | ⟨-, b⟩
    · rw [h, abs_zero]; positivity
    · exact b.trans ((pow2_le hj).trans (by norm_num))

/-- **C147** (accuracy). Rho, vega and dividend delta are the difference quotient of the two prices, up to a relative error of six units
in the 24th bit. -/
theorem C147_slope {u n b m : Fl} {up npv bump unit pnl : ℚ} (hu : f32.Finite u up) (hn : f32.Finite n npv) (hb : f32.Finite b bump)
    (hm : f32.Finite m unit) (hp : pnl = 1 / 100 ∨ pnl = 1 / 10000) (u1 : |up| ≤ 2 ^ 40) (n1 : |npv| ≤ 2 ^ 40)
    (hd : up = npv ∨ (2 : ℚ) ^ (-60 : Int) ≤ |up - npv|) (b1 : (2 : ℚ) ^ (-20 : Int) ≤ bump) (b2 : bump ≤ 2 ^ 10)
    (m1 : (2 : ℚ) ^ (-20 : Int) ≤ unit) (m2 : unit ≤ 2 ^ 40) :
    ∃ r, f32.Finite (slopeF (f32.lit pnl) u n b m) r ∧
      |r - (up - npv) / bump * pnl * unit| ≤ 6 / 2 ^ 24 * |(up - npv) / bump * pnl * unit| := by
  have bp : 0 < bump := (pow2_pos _).trans_le b1
  have mp : 0 < unit := (pow2_pos _).trans_le m1
  have d0 : Between (-60) 41 (up - npv) := by
    rcases hd with h | h
    · left; rw [h, sub_self]
    · right; refine ⟨h, (abs_sub _ _).trans ?_⟩
      refine (add_le_add u1 n1).trans (by norm_num)
  have r1 := rel_sub up npv hu.rep hn.rep
  have f1 := finite_sub hu hn (d0.rnd (by norm_num) (by norm_num)).2
  have d1 := d0.rel r1 (by norm_num)
  have q0 : Between (-71) 62 (f32.rnd (up - npv) / bump) :=
    (d1.div (k := -20) (l := 10) (by rwa [abs_of_pos bp]) (by rw [abs_of_pos bp]; exact b2.trans (by norm_num))).weaken (by norm_num) (by norm_num)
  obtain ⟨r2, g2⟩ := q0.rnd (by norm_num) (by norm_num)
  have f2 := finite_div f1 hb bp.ne' g2
  have q1 := q0.rel r2 (by norm_num)
  have p0 : (2 : ℚ) ^ (-14 : Int) ≤ |pnl| ∧ |pnl| ≤ 2 ^ (-6 : Int) := by rcases hp with rfl | rfl <;> constructor <;> norm_num [abs_of_pos]
  have pb : Between (-14) (-6) pnl := Or.inr p0
  obtain ⟨r3, g3⟩ := pb.rnd (by norm_num) (by norm_num)
  have f3 : f32.Finite (f32.lit pnl) (f32.rnd pnl) := finite_of f32 false pnl g3
  have p1 : (2 : ℚ) ^ (-15 : Int) ≤ |f32.rnd pnl| ∧ |f32.rnd pnl| ≤ 2 ^ (-5 : Int) := by
    rcases pb.rel r3 (by norm_num) with h | h
    · rcases hp with rfl | rfl
      · exact absurd h (by decide +kernel)
      · exact absurd h (by decide +kernel)
    · exact h
  have s0 : Between (-87) 58 (f32.rnd (f32.rnd (up - npv) / bump) * f32.rnd pnl) := (q1.mul p1.1 p1.2).weaken (by norm_num) (by norm_num)
  obtain ⟨r4, g4⟩ := s0.rnd (by norm_num) (by norm_num)
  have f4 := finite_mul f2 f3 g4
  have s1 := s0.rel r4 (by norm_num)
  have t0 : Between (-108) 99 (f32.rnd (f32.rnd (f32.rnd (up - npv) / bump) * f32.rnd pnl) * unit) :=
    (s1.mul (k := -20) (l := 40) (by rwa [abs_of_pos mp]) (by rw [abs_of_pos mp]; exact m2.trans (by norm_num))).weaken (by norm_num) (by norm_num)
  obtain ⟨r5, g5⟩ := t0.rnd (by norm_num) (by norm_num)
  have f5 := finite_mul f4 hm g5
  refine ⟨_, f5, ?_⟩
  have R : Rel 5 (f32.rnd (f32.rnd (f32.rnd (f32.rnd (up - npv) / bump) * f32.rnd pnl) * unit)) ((up - npv) / bump * pnl * unit) :=
    r5.trans ((r4.trans ((r2.trans (r1.div bump)).mul r3)).mul (Rel.refl unit))
  exact R.err _ (by norm_num) (by norm_num)

/-- **C147** (monotone). A higher price in the bumped run never gives a lower sensitivity. -/
theorem C147_monotone {u u' n b p m : Fl} (hn : ∃ s v, n = .fin s v) (hb : PosF b) (hp : PosF p) (hm : PosF m) (h : u.le u' = true) :
    (slopeF p u n b m).le (slopeF p u' n b m) = true := by
  obtain ⟨s, v, rfl⟩ := hn
  exact mul_mono f32 hm (mul_mono f32 hp (div_mono f32 hb (sub_mono f32 s v h)))

theorem sub_self_f (s : Bool) (v : ℚ) : f32.sub (.fin s v) (.fin s v) = .fin false 0 := by
  have h0 : f32.maxFin < |f32.rnd 0| ↔ False := by rw [rnd_zero, abs_zero]; exact iff_false_intro (not_lt.2 (maxFin_pos f32).le)
  cases s <;> simp [Fmt.sub, Fl.neg, Fmt.add, Fmt.of, rnd_zero, not_lt.2 (maxFin_pos f32).le]

theorem of_zero (F : Fmt) (s : Bool) : F.of s 0 = .fin s 0 := by
  simp [Fmt.of, rnd_zero, not_lt.2 (maxFin_pos F).le]

theorem slope_zero (p : Fl) (s : Bool) (v : ℚ) {b m : Fl} (hb : PosF b) (hp : PosF p) (hm : PosF m) :
    slopeF p (.fin s v) (.fin s v) b m = .fin false 0 := by
  obtain ⟨bv, rfl, b0⟩ := hb
  obtain ⟨pv, rfl, p0⟩ := hp
  obtain ⟨mv, rfl, m0⟩ := hm
  unfold slopeF
  rw [sub_self_f]
  simp only [Fmt.div, if_neg b0.ne', zero_div, Fmt.mul, of_zero, zero_mul, bne_self_eq_false]

/-- **C147** (no move, no sensitivity; sign). If the bump does not change the price the sensitivity is exactly zero; if it raises (lowers)
the price, the sensitivity is not negative (not positive), and never not-a-number. -/
theorem C147_sign {u n b p m : Fl} (hn : ∃ s v, n = .fin s v) (hb : PosF b) (hp : PosF p) (hm : PosF m) :
    (u = n → slopeF p u n b m = .fin false 0) ∧
    (n.le u = true → (Fl.fin false 0).le (slopeF p u n b m) = true) ∧ (u.le n = true → (slopeF p u n b m).le (.fin false 0) = true) := by
  obtain ⟨s, v, rfl⟩ := hn
  have hz := slope_zero p s v hb hp hm
  refine ⟨fun h => h ▸ hz, fun h => ?_, fun h => ?_⟩
  · rw [← hz]; exact C147_monotone ⟨s, v, rfl⟩ hb hp hm h
  · rw [← hz]; exact C147_monotone ⟨s, v, rfl⟩ hb hp hm h

/-- **C147** (a bump of zero). With a bump of zero (the setters allow it) an unchanged price gives not-a-number, and a changed one infinity. -/
theorem C147_zero_bump (s t : Bool) (x y : ℚ) {p m : Fl} (hp : PosF p) (hm : PosF m) (z : Bool) :
    (x = y → slopeF p (.fin s x) (.fin t y) (.fin z 0) m = .nan) ∧
    (f32.rnd (x - y) ≠ 0 → ∃ w, slopeF p (.fin s x) (.fin t y) (.fin z 0) m = .inf w) := by
  obtain ⟨pv, rfl, p0⟩ := hp
  obtain ⟨mv, rfl, m0⟩ := hm
  constructor
  · rintro rfl
    unfold slopeF
    have : f32.sub (.fin s x) (.fin t x) = .fin (s && !t) 0 := by
      simp only [Fmt.sub, Fl.neg, Fmt.add, add_neg_cancel, of_zero]
    rw [this]
    simp [Fmt.div, Fmt.mul]
  · intro h
    unfold slopeF
    have : f32.sub (.fin s x) (.fin t y) = f32.of (s && !t) (x - y) := by
      simp only [Fmt.sub, Fl.neg, Fmt.add, ← sub_eq_add_neg]
    rw [this]
    unfold Fmt.of; dsimp only
    split
    · exact ⟨_, by simp only [Fmt.div, Fmt.mul, if_neg p0.ne', if_neg m0.ne']; rfl⟩
    · exact ⟨_, by simp only [Fmt.div, if_true, if_neg h, Fmt.mul, if_neg p0.ne', if_neg m0.ne']; rfl⟩

/-- **C147** (a delta ratio too small to see). With a ratio below `2 ^ -25` the price of the underlying is the same in both runs, so that
every delta is zero. -/
theorem C147_tiny_ratio {a q : Fl} {price ratio : ℚ} (ha : f32.Finite a price) (hq : f32.Finite q ratio) (h0 : 0 ≤ ratio) (h1 : ratio < 1 / 2 ^ 25)
    (hp : 0 < price) : upPriceF a q = a ∧ downPriceF a q = a := by
  have near : ∀ x : ℚ, |x - 1| < 1 / 2 ^ 25 → f32.rnd x = 1 := by
    intro x hx
    obtain ⟨x1, x2⟩ := abs_lt.1 hx
    have hl : (1 - 1 / 2 ^ 24 : ℚ) ≤ f32.rnd x ∧ f32.rnd x ≤ 1 + 1 / 2 ^ 23 :=
      ⟨le_rnd f32 (by norm_num at x1 ⊢; linarith) ⟨16777215, -24, by decide, by decide, by norm_num⟩,
       rnd_le f32 (by norm_num at x2 ⊢; linarith) ⟨8388609, -23, by decide, by decide, by norm_num⟩⟩
    have hn := rnd_nearest f32 x 1 ⟨1, 0, by decide, by decide, by norm_num⟩
    rw [abs_sub_comm 1 x] at hn
    obtain ⟨n1, n2⟩ := abs_lt.1 (lt_of_le_of_lt hn hx)
    obtain ⟨m, hm⟩ := rep_multiple_of_le f32 (rep_rnd f32 x) (k := -24) (by
      have : (2 : ℚ) ^ (-1 : Int) ≤ |f32.rnd x| := by
        rw [abs_of_nonneg (by norm_num at hl ⊢; linarith [hl.1])]; norm_num at hl ⊢; linarith [hl.1]
      have h2 : f32.rnd x ≠ 0 := by norm_num at hl; intro h; rw [h] at hl; norm_num at hl
      have h3 := (Int.zpow_le_iff_le_log (b := 2) (by norm_num) (abs_pos.2 h2)).1 (by exact_mod_cast this)
      unfold Fmt.expo; show -24 ≤ max (-149) (_ - ((24 : Nat) - 1 : Int)); omega)
    have l1 : (16777215 : ℚ) < m := by
      have : (m : ℚ) * 2 ^ (-24 : Int) > 1 - 1 / 2 ^ 24 := by rw [← hm]; norm_num at n1 x1 ⊢; linarith
      norm_num at this; linarith
    have l2 : (m : ℚ) < 16777217 := by
      have : (m : ℚ) * 2 ^ (-24 : Int) < 1 + 1 / 2 ^ 24 := by rw [← hm]; norm_num at n2 x2 ⊢; linarith
      norm_num at this; linarith
    have l3 : m = 16777216 := by
      have a1 : (16777215 : Int) < m := by exact_mod_cast l1
      have a2 : m < (16777217 : Int) := by exact_mod_cast l2
      omega
    rw [hm, l3]; norm_num
  have ru : f32.rnd (1 + ratio) = 1 := near _ (by rw [add_sub_cancel_left, abs_of_nonneg h0]; exact h1)
  have rd : f32.rnd (1 - ratio) = 1 := near _ (by rw [show 1 - ratio - 1 = -ratio by ring, abs_neg, abs_of_nonneg h0]; exact h1)
  have r1 : f32.Finite (f32.lit 1) 1 := f32_one
  have small : (1 / 2 ^ 25 : ℚ) ≤ 1 := by norm_num
  have fu := finite_add r1 hq (le_f32_max (by rw [abs_of_nonneg (by linarith)]; norm_num at h1 ⊢; linarith))
  have fd := finite_sub r1 hq (le_f32_max (by rw [abs_of_nonneg (by linarith)]; norm_num at h1 ⊢; linarith))
  rw [ru] at fu
  rw [rd] at fd
  have hmul : ∀ c, f32.Finite c 1 → f32.mul a c = a := by
    intro c hc
    have h := finite_mul ha hc (by rw [mul_one]; exact ha.le)
    rw [mul_one, rnd_rep f32 ha.rep] at h
    exact finite_eq h ha hp.ne'
  exact ⟨hmul _ fu, hmul _ fd⟩

/-- What `C147_slope` says of a whole delta: the difference quotient of the upper and the lower run. -/
theorem C147_delta {u d q m : Fl} {up down ratio unit : ℚ} (hu : f32.Finite u up) (hd : f32.Finite d down) (hq : f32.Finite q ratio)
    (hm : f32.Finite m unit) (u1 : |up| ≤ 2 ^ 40) (d1 : |down| ≤ 2 ^ 40) (hn : up = down ∨ (2 : ℚ) ^ (-60 : Int) ≤ |up - down|)
    (q1 : (2 : ℚ) ^ (-20 : Int) ≤ ratio) (q2 : ratio ≤ 2 ^ 9) (m1 : (2 : ℚ) ^ (-20 : Int) ≤ unit) (m2 : unit ≤ 2 ^ 40) :
    ∃ r, f32.Finite (deltaF u d q m) r ∧
      |r - (up - down) / (2 * ratio) * (1 / 100) * unit| ≤ 6 / 2 ^ 24 * |(up - down) / (2 * ratio) * (1 / 100) * unit| := by
  have q0 : 0 < ratio := (pow2_pos _).trans_le q1
  have two : f32.Finite (f32.lit 2) 2 := by have := f32_lit 2 (by norm_num); exact_mod_cast this
  have h2 := finite_mul two hq (le_f32_max (by rw [abs_of_pos (by linarith)]; norm_num at q2 ⊢; linarith))
  have hr : f32.Rep (2 * ratio) := by
    have := rep_scale f32 hq.rep 1
    rwa [pow_one, mul_comm] at this
  rw [rnd_rep f32 hr] at h2
  exact C147_slope hu hd h2 hm (Or.inl rfl) u1 d1 hn (by linarith) (by norm_num at q2 ⊢; linarith) m1 m2

/-- **C147** (zero from zero). A price that is the same in both runs has delta zero. -/
theorem C147_delta_zero {a q m : Fl} {ratio : ℚ} (ha : ∃ s v, a = .fin s v) (hq : f32.Finite q ratio) (hm : PosF m) (q0 : 0 < ratio) (q1 : ratio ≤ 2 ^ 9) :
    deltaF a a q m = .fin false 0 := by
  have two : f32.Finite (f32.lit 2) 2 := by have := f32_lit 2 (by norm_num); exact_mod_cast this
  have h2 := finite_mul two hq (le_f32_max (by rw [abs_of_pos (by linarith)]; norm_num at q1 ⊢; linarith))
  have hr : f32.Rep (2 * ratio) := by
    have := rep_scale f32 hq.rep 1
    rwa [pow_one, mul_comm] at this
  rw [rnd_rep f32 hr] at h2
  obtain ⟨s, e, -, -, -, hs⟩ := h2
  have hb : PosF (f32.mul (f32.lit 2) q) := ⟨2 * ratio, by rw [e, hs (by linarith)], by linarith⟩
  have hp : PosF deltaUnitF := ⟨f32.rnd (1 / 100), by decide +kernel, by decide +kernel⟩
  obtain ⟨s, v, rfl⟩ := ha
  exact slope_zero deltaUnitF s v hb hp hm

/-- **C147** (against the true prices). Even if both prices are the nearest floats to the true ones, the sensitivity may be off by the
rounding of the prices, divided by the bump: that is an error relative to the price, not to the sensitivity. -/
theorem C147_true_prices {b m : Fl} {U N bump unit pnl : ℚ} (hb : f32.Finite b bump) (hm : f32.Finite m unit) (hp : pnl = 1 / 100 ∨ pnl = 1 / 10000)
    (U1 : Between (-30) 39 U) (N1 : Between (-30) 39 N)
    (hd : f32.rnd U = f32.rnd N ∨ (2 : ℚ) ^ (-60 : Int) ≤ |f32.rnd U - f32.rnd N|) (b1 : (2 : ℚ) ^ (-20 : Int) ≤ bump) (b2 : bump ≤ 2 ^ 10)
    (m1 : (2 : ℚ) ^ (-20 : Int) ≤ unit) (m2 : unit ≤ 2 ^ 40) :
    ∃ r, f32.Finite (slopeF (f32.lit pnl) (f32.lit U) (f32.lit N) b m) r ∧
      |r - (U - N) / bump * pnl * unit| ≤ (6 * |U - N| + 2 * (|U| + |N|)) / 2 ^ 24 * (1 / bump * pnl * unit) := by
  have bp : 0 < bump := (pow2_pos _).trans_le b1
  have mp : 0 < unit := (pow2_pos _).trans_le m1
  have pp : 0 < pnl := by rcases hp with rfl | rfl <;> norm_num
  obtain ⟨rU, gU⟩ := U1.rnd (by norm_num) (by norm_num)
  obtain ⟨rN, gN⟩ := N1.rnd (by norm_num) (by norm_num)
  have fU : f32.Finite (f32.lit U) (f32.rnd U) := finite_of f32 false U gU
  have fN : f32.Finite (f32.lit N) (f32.rnd N) := finite_of f32 false N gN
  have size : ∀ z : ℚ, Between (-30) 39 z → Rel 1 (f32.rnd z) z → |f32.rnd z| ≤ 2 ^ 40 := by
    intro z hz hr
    rcases hz.rel hr (by norm_num) with h | h
    · rw [h, abs_zero]; positivity
    · exact h.2.trans (by norm_num)
  obtain ⟨r, hr, e⟩ := C147_slope fU fN hb hm hp (size U U1 rU) (size N N1 rN) hd b1 b2 m1 m2
  refine ⟨r, hr, ?_⟩
  set k := 1 / bump * pnl * unit with hk
  have kp : 0 < k := by positivity
  have ex : ∀ z : ℚ, z / bump * pnl * unit = z * k := fun z => by rw [hk]; ring
  rw [ex] at e ⊢
  rw [abs_mul, abs_of_pos kp] at e
  have eU := rU.err (1 / 2 ^ 24) (by norm_num) (by norm_num)
  have eN := rN.err (1 / 2 ^ 24) (by norm_num) (by norm_num)
  have eD : |(f32.rnd U - f32.rnd N) - (U - N)| ≤ (|U| + |N|) / 2 ^ 24 := by
    rw [show f32.rnd U - f32.rnd N - (U - N) = (f32.rnd U - U) - (f32.rnd N - N) by ring]
    refine (abs_sub _ _).trans ((add_le_add eU eN).trans (le_of_eq (by ring)))
  have eS := abs_sub_abs_le_abs_sub (f32.rnd U - f32.rnd N) (U - N)
  have e2 : |(f32.rnd U - f32.rnd N) * k - (U - N) * k| ≤ (|U| + |N|) / 2 ^ 24 * k := by
    rw [← sub_mul, abs_mul, abs_of_pos kp]; exact mul_le_mul_of_nonneg_right eD kp.le
  refine (abs_sub_le _ ((f32.rnd U - f32.rnd N) * k) _).trans ((add_le_add e e2).trans ?_)
  rw [← mul_assoc, ← add_mul]
  refine mul_le_mul_of_nonneg_right ?_ kp.le
  have := abs_nonneg U
  have := abs_nonneg N
  norm_num at eD eS ⊢
  linarith

/-- **C147** (a case). A claim on ten billion worth 0.98 whose price falls to 0.9799 for a basis point: rho comes out as -1000165.94 instead of
-1000000, although both prices are the floats nearest to the true ones. -/
theorem C147_case : slopeF rhoUnitF (f32.lit (9799 / 10000)) (f32.lit (98 / 100)) (f32.lit (1 / 10000)) (f32.lit 10000000000) =
    .fin true (-16002655 / 16) ∧ ((9799 / 10000 - 98 / 100 : ℚ) / (1 / 10000) * (1 / 10000) * 10000000000 = -1000000) :=
  ⟨by decide +kernel, by norm_num⟩

/-! ## Gamma -/

theorem log_ge {x : ℚ} {k : Int} (hx : x ≠ 0) (h : (2 : ℚ) ^ k ≤ |x|) : k ≤ Int.log 2 |x| :=
  (Int.zpow_le_iff_le_log (b := 2) (by norm_num) (abs_pos.2 hx)).1 (by exact_mod_cast h)

/-- Different numbers of at least the size `2 ^ k` differ by at least the last place of that size. -/
theorem rep_apart {x y : ℚ} {k : Int} (hx : f32.Rep x) (hy : f32.Rep y) (h1 : (2 : ℚ) ^ k ≤ |x|) (h2 : (2 : ℚ) ^ k ≤ |y|) (hne : x ≠ y) :
    (2 : ℚ) ^ (k - 23) ≤ |x - y| := by
  have p := pow2_pos k
  have e : ∀ {z : ℚ}, (2 : ℚ) ^ k ≤ |z| → k - 23 ≤ f32.expo z := by
    intro z hz
    have hz0 : z ≠ 0 := by rintro rfl; rw [abs_zero] at hz; linarith
    have := log_ge hz0 hz
    unfold Fmt.expo; show k - 23 ≤ max (-149) (_ - ((24 : Nat) - 1 : Int)); omega
  obtain ⟨m, hm⟩ := rep_multiple_of_le f32 hx (e h1)
  obtain ⟨n, hn⟩ := rep_multiple_of_le f32 hy (e h2)
  have hmn : m - n ≠ 0 := by
    intro h; exact hne (by rw [hm, hn, sub_eq_zero.1 h])
  have h3 : (1 : ℚ) ≤ |((m - n : Int) : ℚ)| := by exact_mod_cast Int.one_le_abs hmn
  have hp := pow2_pos (k - 23)
  have : x - y = ((m - n : Int) : ℚ) * 2 ^ (k - 23) := by push_cast; rw [sub_mul, ← hm, ← hn]
  rw [this, abs_mul, abs_of_pos hp]
  nlinarith

/-- Prices of the upper and the lower run within an eighth of the price. -/
structure NearPrices (up mid down : ℚ) : Prop where
  low : (2 : ℚ) ^ (-20 : Int) ≤ mid
  high : mid ≤ 2 ^ 40
  up : |up - mid| ≤ mid / 8
  down : |down - mid| ≤ mid / 8

theorem bend_value {u c d : Fl} {up mid down : ℚ} (hu : f32.Finite u up) (hc : f32.Finite c mid) (hd : f32.Finite d down) (h : NearPrices up mid down) :
    f32.Finite (bendF u c d) (f32.rnd (up - mid + down) - mid) ∧ |f32.rnd (up - mid + down) - (up - mid + down)| ≤ 5 / 4 * mid / 2 ^ 24 ∧
      (f32.rnd (up - mid + down) - mid = 0 ∨ (2 : ℚ) ^ (-44 : Int) ≤ |f32.rnd (up - mid + down) - mid|) := by
  obtain ⟨l, t, h1, h2⟩ := h
  obtain ⟨a1, a2⟩ := abs_le.1 h1
  obtain ⟨b1, b2⟩ := abs_le.1 h2
  have mp : 0 < mid := (pow2_pos _).trans_le l
  have s1 : f32.Rep (up - mid) := sterbenz f32 hu.rep hc.rep (by linarith) (by linarith)
  have m40 : ∀ z : ℚ, |z| ≤ 2 * mid → |z| ≤ f32.maxFin := fun z hz => le_f32_max (hz.trans (by norm_num at t ⊢; linarith))
  have f1 := finite_sub hu hc (m40 _ (h1.trans (by linarith)))
  rw [rnd_rep f32 s1] at f1
  have x1 : 3 / 4 * mid ≤ up - mid + down := by linarith
  have x2 : up - mid + down ≤ 5 / 4 * mid := by linarith
  have xp : 0 < up - mid + down := by linarith
  have f2 := finite_add f1 hd (m40 _ (by rw [abs_of_pos xp]; linarith))
  have c21 : (2 : ℚ) ^ (-21 : Int) = 1 / 2097152 := by norm_num
  have l' : (1 / 1048576 : ℚ) ≤ mid := by norm_num at l ⊢; exact l
  have big : (2 : ℚ) ^ (-21 : Int) ≤ 3 / 4 * mid := by rw [c21]; linarith
  have e2 := f32_err (up - mid + down) (Or.inr (by
    rw [abs_of_pos xp]; exact ((pow2_le (by norm_num)).trans big).trans x1))
  rw [abs_of_pos xp] at e2
  have e2' : |f32.rnd (up - mid + down) - (up - mid + down)| ≤ 5 / 4 * mid / 2 ^ 24 := e2.trans (by
    rw [div_le_div_iff_of_pos_right (by norm_num)]; exact x2)
  have small : 5 / 4 * mid / 2 ^ 24 ≤ mid / 1000 := by norm_num; linarith
  obtain ⟨c1, c2⟩ := abs_le.1 (e2'.trans small)
  set y := f32.rnd (up - mid + down) with hy
  have y1 : 7 / 10 * mid ≤ y := by linarith
  have y2 : y ≤ 13 / 10 * mid := by linarith
  have s3 : f32.Rep (y - mid) := sterbenz f32 (rep_rnd f32 _) hc.rep (by linarith) (by linarith)
  have f3 := finite_sub f2 hc (m40 _ (by rw [abs_le]; constructor <;> linarith))
  rw [rnd_rep f32 s3] at f3
  refine ⟨f3, e2', ?_⟩
  by_cases hz : y = mid
  · left; rw [hz, sub_self]
  · right
    have := rep_apart (k := -21) (rep_rnd f32 _) hc.rep (x := y) (y := mid) (by rw [abs_of_pos (by linarith), c21]; linarith)
      (by rw [abs_of_pos mp, c21]; linarith) hz
    exact this

/-- **C148** (sign of gamma). If the three prices lie on a convex (concave) curve, gamma is not negative (not positive), and never
not-a-number. -/
theorem C148_bend_sign {u c d : Fl} {up mid down : ℚ} (hu : f32.Finite u up) (hc : f32.Finite c mid) (hd : f32.Finite d down)
    (h : NearPrices up mid down) : ∃ r, f32.Finite (bendF u c d) r ∧ (2 * mid ≤ up + down → 0 ≤ r) ∧ (up + down ≤ 2 * mid → r ≤ 0) ∧
      (up + down = 2 * mid → r = 0) := by
  obtain ⟨h1, -, -⟩ := bend_value hu hc hd h
  have ge : 2 * mid ≤ up + down → 0 ≤ f32.rnd (up - mid + down) - mid := fun g => sub_nonneg.2 (le_rnd f32 (by linarith) hc.rep)
  have le : up + down ≤ 2 * mid → f32.rnd (up - mid + down) - mid ≤ 0 := fun g => sub_nonpos.2 (rnd_le f32 (by linarith) hc.rep)
  exact ⟨_, h1, ge, le, fun g => le_antisymm (le g.le) (ge g.ge)⟩

/-- **C148** (accuracy of gamma). Gamma is the second difference of the prices, times the unit and half the squared ratio of one percent to
the bump, up to an error that is relative to the price, not to gamma: `2 ^ -22` of the price. -/
theorem C148_gamma {u c d q m : Fl} {up mid down ratio unit : ℚ} (hu : f32.Finite u up) (hc : f32.Finite c mid) (hd : f32.Finite d down)
    (hq : f32.Finite q ratio) (hm : f32.Finite m unit) (h : NearPrices up mid down) (q1 : (2 : ℚ) ^ (-10 : Int) ≤ ratio) (q2 : ratio ≤ 1)
    (m1 : (2 : ℚ) ^ (-20 : Int) ≤ unit) (m2 : unit ≤ 2 ^ 40) :
    ∃ r, f32.Finite (gammaF u c d q m) r ∧
      |r - (up - 2 * mid + down) * ((1 / 100 / ratio) ^ 2 / 2 * unit)| ≤ mid / 2 ^ 22 * ((1 / 100 / ratio) ^ 2 / 2 * unit) ∧
      (2 * mid ≤ up + down → 0 ≤ r) ∧ (up + down ≤ 2 * mid → r ≤ 0) := by
  obtain ⟨f0, e0, z0⟩ := bend_value hu hc hd h
  obtain ⟨l, t, h1, h2⟩ := h
  have mp : 0 < mid := (pow2_pos _).trans_le l
  have qp : 0 < ratio := (pow2_pos _).trans_le q1
  have up0 : 0 < unit := (pow2_pos _).trans_le m1
  set y := f32.rnd (up - mid + down) - mid with hy
  have ye : |y - (up - 2 * mid + down)| ≤ 5 / 4 * mid / 2 ^ 24 := by
    rw [hy, show f32.rnd (up - mid + down) - mid - (up - 2 * mid + down) = f32.rnd (up - mid + down) - (up - mid + down) by ring]; exact e0
  have sgn1 : 2 * mid ≤ up + down → 0 ≤ y := fun g => sub_nonneg.2 (le_rnd f32 (by linarith) hc.rep)
  have sgn2 : up + down ≤ 2 * mid → y ≤ 0 := fun g => sub_nonpos.2 (rnd_le f32 (by linarith) hc.rep)
  have ey : |up - 2 * mid + down| ≤ mid / 4 := by
    rw [show up - 2 * mid + down = (up - mid) + (down - mid) by ring]
    exact (abs_add_le _ _).trans (by linarith)
  have yb : |y| ≤ mid * (251 / 1000) := by
    have := abs_sub_abs_le_abs_sub y (up - 2 * mid + down)
    have small : 5 / 4 * mid / 2 ^ 24 ≤ mid / 1000 := by norm_num; linarith
    linarith
  have y0 : Between (-44) 39 y := by
    rcases z0 with z0 | z0
    · exact Or.inl z0
    · exact Or.inr ⟨z0, yb.trans (by norm_num at t ⊢; linarith)⟩
  -- 0.01
  have k0 : Between (-7) (-6) (1 / 100 : ℚ) := Or.inr (by constructor <;> norm_num [abs_of_pos])
  obtain ⟨rk, gk⟩ := k0.rnd (by norm_num) (by norm_num)
  have fk : f32.Finite deltaUnitF (f32.rnd (1 / 100)) := finite_of f32 false _ gk
  have k1 := k0.rel rk (by norm_num)
  -- 0.01 / ratio
  have p0 : Between (-8) 5 (f32.rnd (1 / 100) / ratio) :=
    (k1.div (k := -10) (l := 0) (by rwa [abs_of_pos qp]) (by rw [abs_of_pos qp]; simpa using q2)).weaken (by norm_num) (by norm_num)
  obtain ⟨rp, gp⟩ := p0.rnd (by norm_num) (by norm_num)
  have fp := finite_div fk hq qp.ne' gp
  have p1 := p0.rel rp (by norm_num)
  have Rp : Rel 2 (f32.rnd (f32.rnd (1 / 100) / ratio)) (1 / 100 / ratio) := rp.trans (rk.div ratio)
  have ppos : 0 < f32.rnd (f32.rnd (1 / 100) / ratio) := by
    obtain ⟨θ, e, a, -⟩ := Rp
    rw [e]; exact mul_pos (by positivity) ((pow_pos u24_pos 2).trans_le a)
  have p2 : (2 : ℚ) ^ (-9 : Int) ≤ |f32.rnd (f32.rnd (1 / 100) / ratio)| ∧ |f32.rnd (f32.rnd (1 / 100) / ratio)| ≤ 2 ^ (6 : Int) := by
    rcases p1 with h | h
    · exact absurd h ppos.ne'
    · exact h
  set P := f32.rnd (f32.rnd (1 / 100) / ratio) with hP
  -- y * P
  have a0 : Between (-53) 45 (y * P) := (y0.mul p2.1 p2.2).weaken (by norm_num) (by norm_num)
  obtain ⟨ra, ga⟩ := a0.rnd (by norm_num) (by norm_num)
  have fa := finite_mul f0 fp ga
  have a1 := a0.rel ra (by norm_num)
  -- 0.5 * P
  have half : f32.Finite (f32.lit (1 / 2)) (1 / 2) := by
    have := finite_of f32 false (1 / 2) (le_f32_max (by norm_num [abs_of_pos]))
    rwa [rnd_rep f32 ⟨1, -1, by decide, by decide, by norm_num⟩] at this
  have b0 : Between (-10) 5 (1 / 2 * P) := by
    have : Between (-1) (-1) (1 / 2 : ℚ) := Or.inr (by constructor <;> norm_num [abs_of_pos])
    exact (this.mul p2.1 p2.2).weaken (by norm_num) (by norm_num)
  obtain ⟨rb, gb⟩ := b0.rnd (by norm_num) (by norm_num)
  have fb := finite_mul half fp gb
  have bpos : 0 < f32.rnd (1 / 2 * P) := by
    obtain ⟨θ, e, a, -⟩ := rb
    rw [e]; exact mul_pos (by linarith) ((pow_pos u24_pos 1).trans_le a)
  have b1 : (2 : ℚ) ^ (-11 : Int) ≤ |f32.rnd (1 / 2 * P)| ∧ |f32.rnd (1 / 2 * P)| ≤ 2 ^ (6 : Int) := by
    rcases b0.rel rb (by norm_num) with h | h
    · exact absurd h bpos.ne'
    · exact h
  have c0 : Between (-65) 52 (f32.rnd (y * P) * f32.rnd (1 / 2 * P)) := (a1.mul b1.1 b1.2).weaken (by norm_num) (by norm_num)
  obtain ⟨rc, gc⟩ := c0.rnd (by norm_num) (by norm_num)
  have fc := finite_mul fa fb gc
  have c1 := c0.rel rc (by norm_num)
  have d0 : Between (-86) 93 (f32.rnd (f32.rnd (y * P) * f32.rnd (1 / 2 * P)) * unit) :=
    (c1.mul (k := -20) (l := 40) (by rwa [abs_of_pos up0]) (by rw [abs_of_pos up0]; exact m2.trans (by norm_num))).weaken (by norm_num) (by norm_num)
  obtain ⟨rd, gd⟩ := d0.rnd (by norm_num) (by norm_num)
  have fd := finite_mul fc hm gd
  have R : Rel 8 (f32.rnd (f32.rnd (f32.rnd (y * P) * f32.rnd (1 / 2 * P)) * unit))
      (y * (1 / 100 / ratio) * (1 / 2 * (1 / 100 / ratio)) * unit) := by
    have q1 : Rel 3 (f32.rnd (y * P)) (y * (1 / 100 / ratio)) := ra.trans ((Rel.refl y).mul Rp)
    have q2 : Rel 3 (f32.rnd (1 / 2 * P)) (1 / 2 * (1 / 100 / ratio)) := rb.trans ((Rel.refl _).mul Rp)
    exact rd.trans ((rc.trans (q1.mul q2)).mul (Rel.refl unit))
  refine ⟨_, fd, ?_, ?_, ?_⟩
  · set K := (1 / 100 / ratio) ^ 2 / 2 * unit with hK
    have Kp : 0 < K := by positivity
    have eK : y * (1 / 100 / ratio) * (1 / 2 * (1 / 100 / ratio)) * unit = y * K := by rw [hK]; ring
    rw [eK] at R
    have e1 := R.err (9 / 2 ^ 24) (by norm_num) (by norm_num)
    rw [abs_mul, abs_of_pos Kp] at e1
    have e2 : |y * K - (up - 2 * mid + down) * K| ≤ 5 / 4 * mid / 2 ^ 24 * K := by
      rw [← sub_mul, abs_mul, abs_of_pos Kp]; exact mul_le_mul_of_nonneg_right ye Kp.le
    refine (abs_sub_le _ (y * K) _).trans ((add_le_add e1 e2).trans ?_)
    have yK : |y| * K ≤ mid * (251 / 1000) * K := mul_le_mul_of_nonneg_right yb Kp.le
    have mK : 0 < mid * K := mul_pos mp Kp
    norm_num
    nlinarith
  · intro g
    obtain ⟨θ, e, a, -⟩ := R
    rw [e]
    have := sgn1 g
    exact mul_nonneg (by positivity) ((pow_pos u24_pos 8).le.trans a)
  · intro g
    obtain ⟨θ, e, a, -⟩ := R
    rw [e]
    have := sgn2 g
    refine mul_nonpos_of_nonpos_of_nonneg ?_ ((pow_pos u24_pos 8).le.trans a)
    have k : 0 < (1 / 100 / ratio) * (1 / 2 * (1 / 100 / ratio)) * unit := by positivity
    have : y * (1 / 100 / ratio) * (1 / 2 * (1 / 100 / ratio)) * unit = y * ((1 / 100 / ratio) * (1 / 2 * (1 / 100 / ratio)) * unit) := by ring
    rw [this]
    exact mul_nonpos_of_nonpos_of_nonneg (sgn2 g) k.le

/-- **C148** (the error is real). Three prices with second difference `2 ^ -24` of the price whose gamma comes out as zero, because the sum is
taken in an order that rounds to the size of the price; with brackets around the two differences it would have been exact. -/
theorem C148_lost : ∃ u c d : ℚ, f32.Rep u ∧ f32.Rep c ∧ f32.Rep d ∧ u - 2 * c + d = 1 / 2 ^ 24 ∧ NearPrices u c d ∧
    gammaF (f32.lit u) (f32.lit c) (f32.lit d) (f32.lit (1 / 100)) (f32.lit 1) = .fin false 0 ∧
    f32.sub (f32.sub (f32.lit u) (f32.lit c)) (f32.sub (f32.lit c) (f32.lit d)) = .fin false (1 / 2 ^ 24) := by
  refine ⟨1 + 3 / 2 ^ 23, 1, 1 - 5 / 2 ^ 24, ⟨8388611, -23, by decide, by decide, by norm_num⟩, ⟨1, 0, by decide, by decide, by norm_num⟩,
    ⟨16777211, -24, by decide, by decide, by norm_num⟩, by norm_num, ⟨by norm_num, by norm_num, by norm_num [abs_of_pos], ?_⟩, by decide +kernel, by decide +kernel⟩
  rw [abs_le]; constructor <;> norm_num

/-! ## Theta -/

/-- **C148** (theta). A higher later value never gives a lower theta. -/
theorem C148_theta_monotone {l l' n c m t : Fl} (hn : ∃ s v, n = .fin s v) (hc : ∃ s v, c = .fin s v) (hm : PosF m) (ht : PosF t) (h : l.le l' = true) :
    (thetaF l n c m t).le (thetaF l' n c m t) = true := by
  obtain ⟨s, v, rfl⟩ := hn
  obtain ⟨s', v', rfl⟩ := hc
  have one : PosF (f32.lit 1) := ⟨1, by decide +kernel, by decide +kernel⟩
  have days : PosF (f32.lit 365) := ⟨365, by decide +kernel, by decide +kernel⟩
  exact mul_mono f32 one (div_mono f32 days (div_mono f32 ht (mul_mono f32 hm (add_mono f32 s' v' (sub_mono f32 s v h)))))

theorem rnd_grid {x : ℚ} {k : Int} (hk : f32.emin ≤ k) (h : ∃ m : Int, x = m * 2 ^ k) : ∃ m : Int, f32.rnd x = m * 2 ^ k := by
  by_cases he : f32.expo x ≤ k
  · obtain ⟨m, hm⟩ := h
    have : f32.rnd x = x := rnd_multiple f32 x (m * 2 ^ (k - f32.expo x).toNat) (by
      push_cast
      rw [mul_assoc, ← zpow_natCast, ← pow2_add, Int.toNat_of_nonneg (by omega), show k - f32.expo x + f32.expo x = k by ring]
      exact hm)
    exact ⟨m, by rw [this]; exact hm⟩
  · refine ⟨rne (x / 2 ^ f32.expo x) * 2 ^ (f32.expo x - k).toNat, ?_⟩
    push_cast
    rw [mul_assoc, ← zpow_natCast, ← pow2_add, Int.toNat_of_nonneg (by omega), show f32.expo x - k + k = f32.expo x by ring]
    rfl

theorem grid_of_size {x : ℚ} (hx : f32.Rep x) (h : x = 0 ∨ (2 : ℚ) ^ (-30 : Int) ≤ |x|) : ∃ m : Int, x = m * 2 ^ (-53 : Int) := by
  rcases h with h | h
  · exact ⟨0, by rw [h]; simp⟩
  · refine rep_multiple_of_le f32 hx ?_
    have h0 : x ≠ 0 := by rintro rfl; rw [abs_zero] at h; exact absurd h (not_le.2 (pow2_pos _))
    have := log_ge h0 h
    unfold Fmt.expo; show -53 ≤ max (-149) (_ - ((24 : Nat) - 1 : Int)); omega

/-- **C148** (accuracy of theta). Theta is the change of the value plus the cash paid in between, per day, up to an error relative to the change of
the value and to the sum. -/
theorem C148_theta {l n c m t : Fl} {later npv cash unit time : ℚ} (hl : f32.Finite l later) (hn : f32.Finite n npv) (hc : f32.Finite c cash)
    (hm : f32.Finite m unit) (ht : f32.Finite t time) (l1 : Between (-30) 38 later) (n1 : Between (-30) 38 npv) (c1 : Between (-30) 38 cash)
    (m1 : (2 : ℚ) ^ (-20 : Int) ≤ unit) (m2 : unit ≤ 2 ^ 30) (t1 : (2 : ℚ) ^ (-20 : Int) ≤ time) (t2 : time ≤ 2 ^ 10) :
    ∃ r, f32.Finite (thetaF l n c m t) r ∧
      |r - (later - npv + cash) * unit / time / 365| ≤ (2 * |later - npv| + 6 * |later - npv + cash|) / 2 ^ 24 * (unit / time / 365) := by
  have tp : 0 < time := (pow2_pos _).trans_le t1
  have mp : 0 < unit := (pow2_pos _).trans_le m1
  have sz : ∀ {z : ℚ}, Between (-30) 38 z → (z = 0 ∨ (2 : ℚ) ^ (-30 : Int) ≤ |z|) ∧ |z| ≤ 2 ^ 38 := by
    rintro z (h | h)
    · exact ⟨Or.inl h, by rw [h, abs_zero]; positivity⟩
    · exact ⟨Or.inr h.1, h.2.trans (by norm_num)⟩
  obtain ⟨l2, l3⟩ := sz l1
  obtain ⟨n2, n3⟩ := sz n1
  obtain ⟨c2, c3⟩ := sz c1
  -- the difference
  have dsz : |later - npv| ≤ 2 ^ 39 := (abs_sub _ _).trans ((add_le_add l3 n3).trans (by norm_num))
  have f1 := finite_sub hl hn (le_f32_max (dsz.trans (by norm_num)))
  have r1 := rel_sub later npv hl.rep hn.rep
  have s1sz := (r1.le (by norm_num)).1
  set s1 := f32.rnd (later - npv) with hs1
  have g1 : ∃ k : Int, s1 = k * 2 ^ (-53 : Int) := by
    obtain ⟨a, ha⟩ := grid_of_size hl.rep l2
    obtain ⟨b, hb⟩ := grid_of_size hn.rep n2
    exact rnd_grid (by decide) ⟨a - b, by push_cast; rw [sub_mul, ← ha, ← hb]⟩
  -- plus cash
  have xsz : |s1 + cash| ≤ 2 ^ 41 := (abs_add_le _ _).trans ((add_le_add (s1sz.trans (by linarith)) c3).trans (by norm_num : (2 : ℚ) ^ 39 * 2 + 2 ^ 38 ≤ 2 ^ 41))
  have f2 := finite_add f1 hc (le_f32_max (xsz.trans (by norm_num)))
  have r2 : Rel 1 (f32.rnd (s1 + cash)) (s1 + cash) := by
    have := rel_sub s1 (-cash) f1.rep (rep_neg f32 hc.rep)
    rwa [sub_neg_eq_add] at this
  have g2 : ∃ k : Int, f32.rnd (s1 + cash) = k * 2 ^ (-53 : Int) := by
    obtain ⟨a, ha⟩ := g1
    obtain ⟨b, hb⟩ := grid_of_size hc.rep c2
    exact rnd_grid (by decide) ⟨a + b, by push_cast; rw [add_mul, ← ha, ← hb]⟩
  have X0sz := (r2.le (by norm_num)).1
  set X := f32.rnd (s1 + cash) with hX
  have X0 : Between (-53) 42 X := by
    obtain ⟨k, hk⟩ := g2
    by_cases h0 : k = 0
    · left; rw [hk, h0]; simp
    · right
      constructor
      · rw [hk, abs_mul, abs_of_pos (pow2_pos _)]
        have : (1 : ℚ) ≤ |(k : ℚ)| := by exact_mod_cast Int.one_le_abs h0
        have := pow2_pos (-53)
        nlinarith
      · refine X0sz.trans ?_
        norm_num at xsz ⊢; linarith
  have a0 : Between (-73) 72 (X * unit) :=
    (X0.mul (k := -20) (l := 30) (by rwa [abs_of_pos mp]) (by rw [abs_of_pos mp]; exact m2.trans (by norm_num))).weaken (by norm_num) (by norm_num)
  obtain ⟨ra, ga⟩ := a0.rnd (by norm_num) (by norm_num)
  have fa := finite_mul f2 hm ga
  have b0 : Between (-84) 93 (f32.rnd (X * unit) / time) :=
    ((a0.rel ra (by norm_num)).div (k := -20) (l := 10) (by rwa [abs_of_pos tp]) (by rw [abs_of_pos tp]; exact t2.trans (by norm_num))).weaken (by norm_num) (by norm_num)
  obtain ⟨rb, gb⟩ := b0.rnd (by norm_num) (by norm_num)
  have fb := finite_div fa ht tp.ne' gb
  have f365 : f32.Finite (f32.lit 365) 365 := by have := f32_lit 365 (by norm_num); exact_mod_cast this
  have e0 : Between (-94) 86 (f32.rnd (f32.rnd (X * unit) / time) / 365) :=
    ((b0.rel rb (by norm_num)).div (k := 8) (l := 9) (by norm_num [abs_of_pos]) (by norm_num [abs_of_pos])).weaken (by norm_num) (by norm_num)
  obtain ⟨re, ge⟩ := e0.rnd (by norm_num) (by norm_num)
  have fe := finite_div fb f365 (by norm_num) ge
  have e1 := e0.rel re (by norm_num)
  have f1' : f32.Finite (f32.lit 1) 1 := f32_one
  obtain ⟨-, gz⟩ := e1.rnd (by norm_num) (by norm_num)
  have fz := finite_mul fe f1' (by rw [mul_one]; exact gz)
  rw [mul_one, rnd_rep f32 (rep_rnd f32 _)] at fz
  refine ⟨_, fz, ?_⟩
  have R : Rel 3 (f32.rnd (f32.rnd (f32.rnd (X * unit) / time) / 365)) (X * unit / time / 365) :=
    re.trans ((rb.trans (ra.div time)).div 365)
  set k := unit / time / 365 with hk
  have kp : 0 < k := by positivity
  have ek : ∀ z : ℚ, z * unit / time / 365 = z * k := fun z => by rw [hk]; ring
  rw [ek] at R ⊢
  have E1 := R.err (4 / 2 ^ 24) (by norm_num) (by norm_num)
  rw [abs_mul, abs_of_pos kp] at E1
  have E2 := r2.err (1 / 2 ^ 24) (by norm_num) (by norm_num)
  have E3 := r1.err (1 / 2 ^ 24) (by norm_num) (by norm_num)
  have A := abs_sub_abs_le_abs_sub (s1 + cash) (later - npv + cash)
  rw [show s1 + cash - (later - npv + cash) = s1 - (later - npv) by ring] at A
  have B := abs_sub_abs_le_abs_sub X (s1 + cash)
  have C : |X - (later - npv + cash)| ≤ |X - (s1 + cash)| + |s1 - (later - npv)| := by
    refine (abs_sub_le _ (s1 + cash) _).trans (le_of_eq ?_)
    rw [show s1 + cash - (later - npv + cash) = s1 - (later - npv) by ring]
  have E4 : |X * k - (later - npv + cash) * k| ≤ (|X - (s1 + cash)| + |s1 - (later - npv)|) * k := by
    rw [← sub_mul, abs_mul, abs_of_pos kp]; exact mul_le_mul_of_nonneg_right C kp.le
  refine (abs_sub_le _ (X * k) _).trans ((add_le_add E1 E4).trans ?_)
  rw [← mul_assoc, ← add_mul]
  refine mul_le_mul_of_nonneg_right ?_ kp.le
  have := abs_nonneg (later - npv)
  have := abs_nonneg (later - npv + cash)
  norm_num at E2 E3 ⊢
  linarith

/-- **C148** (no days). With zero days between the two evaluations (the setter allows it) theta is not-a-number or infinite. -/
theorem C148_theta_no_days (l n c m : Fl) (z : Bool) : thetaF l n c m (.fin z 0) = .nan ∨ ∃ w, thetaF l n c m (.fin z 0) = .inf w := by
  unfold thetaF
  have d365 : f32.lit 365 = .fin false 365 := by decide +kernel
  have d1 : f32.lit 1 = .fin false 1 := by decide +kernel
  rw [d365, d1]
  generalize f32.mul (f32.add (f32.sub l n) c) m = x
  cases x with
  | nan => left; rfl
  | inf s => right; exact ⟨_, rfl⟩
  | fin s v =>
    by_cases h : v = 0
    · left; subst h; rfl
    · right
      refine ⟨(((s != z) != false) != false), ?_⟩
      simp only [Fmt.div, if_true, if_neg h]
      rfl

/-- The hypotheses of `C147_slope` and `C147_delta` are met: prices 100.25 and 100, bump 1/4. -/
example : ∃ r, f32.Finite (slopeF (f32.lit (1 / 100)) (.fin false (401 / 4)) (.fin false 100) (.fin false (1 / 4)) (.fin false 1)) r ∧ |r - 1 / 100| ≤ 6 / 2 ^ 24 / 100 := by
  have f : ∀ (m : Int) (e : Int) (v : ℚ), |m| ≤ 2 ^ 24 → f32.emin ≤ e → v = m * 2 ^ e → 0 < v → v ≤ 2 ^ 40 → f32.Finite (.fin false v) v := by
    intro m e v h1 h2 h3 h4 h5
    have hr : f32.Rep v := ⟨m, e, h1, h2, h3⟩
    have h := finite_of f32 false v (le_f32_max (by rw [abs_of_pos h4]; exact h5.trans (by norm_num)))
    rw [rnd_rep f32 hr] at h
    obtain ⟨s, e, -, -, -, hs⟩ := id h
    rw [hs h4] at e; rwa [e] at h
  obtain ⟨r, h1, h2⟩ := C147_slope (pnl := 1 / 100) (f 401 (-2) (401 / 4) (by decide) (by decide) (by norm_num) (by norm_num) (by norm_num))
    (f 100 0 100 (by decide) (by decide) (by norm_num) (by norm_num) (by norm_num))
    (f 1 (-2) (1 / 4) (by decide) (by decide) (by norm_num) (by norm_num) (by norm_num))
    (f 1 0 1 (by decide) (by decide) (by norm_num) (by norm_num) (by norm_num)) (Or.inl rfl) (by norm_num [abs_of_pos]) (by norm_num [abs_of_pos])
    (Or.inr (by norm_num [abs_of_pos])) (by norm_num) (by norm_num) (by norm_num) (by norm_num)
  refine ⟨r, h1, ?_⟩
  norm_num [abs_of_pos] at h2 ⊢
  exact h2

/-- The hypotheses of `C148_theta` are met. -/
example : Between (-30) 38 (100 : ℚ) ∧ Between (-30) 38 (401 / 4 : ℚ) ∧ Between (-30) 38 (0 : ℚ) :=
  ⟨Or.inr ⟨by norm_num [abs_of_pos], by norm_num [abs_of_pos]⟩, Or.inr ⟨by norm_num [abs_of_pos], by norm_num [abs_of_pos]⟩, Or.inl rfl⟩

end Verif.Props

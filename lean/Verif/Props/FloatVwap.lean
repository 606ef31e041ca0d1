import Verif.Props.FloatAverage
/-!
# The volume-weighted price in floating point (C139)
-/
set_option autoImplicit false
namespace Verif.Props
open Verif Verif.Float

/-- Specification: two numbers that are not negative and within a factor `(1 + 2 ^ -52) ^ k` of each other. -/
def Near (k : Nat) (x y : ℚ) : Prop :=
  0 ≤ x ∧ 0 ≤ y ∧ y ≤ x * (1 + 1 / 2 ^ 52) ^ k ∧ x ≤ y * (1 + 1 / 2 ^ 52) ^ k

theorem c_pos (k : Nat) : (0 : ℚ) < (1 + 1 / 2 ^ 52) ^ k := by positivity

theorem c_one (k : Nat) : (1 : ℚ) ≤ (1 + 1 / 2 ^ 52) ^ k := one_le_pow₀ (by norm_num)

theorem Near.refl (x : ℚ) (h : 0 ≤ x) : Near 0 x x := ⟨h, h, by simp, by simp⟩

theorem Near.mono {j k : Nat} {x y : ℚ} (h : Near j x y) (hjk : j ≤ k) : Near k x y := by
  obtain ⟨h1, h2, h3, h4⟩ := h
  have : (1 + 1 / 2 ^ 52 : ℚ) ^ j ≤ (1 + 1 / 2 ^ 52) ^ k := pow_le_pow_right₀ (by norm_num) hjk
  exact ⟨h1, h2, h3.trans (mul_le_mul_of_nonneg_left this h1), h4.trans (mul_le_mul_of_nonneg_left this h2)⟩

theorem Near.trans {j k : Nat} {x y z : ℚ} (h : Near j x y) (h' : Near k y z) : Near (j + k) x z := by
  obtain ⟨h1, h2, h3, h4⟩ := h
  obtain ⟨g1, g2, g3, g4⟩ := h'
  refine ⟨h1, g2, ?_, ?_⟩
  · rw [pow_add, ← mul_assoc]
    exact g3.trans (mul_le_mul_of_nonneg_right h3 (c_pos k).le)
  · rw [pow_add, mul_comm (_ ^ j), ← mul_assoc]
    exact h4.trans (mul_le_mul_of_nonneg_right g4 (c_pos j).le)

theorem Near.add {k : Nat} {x y x' y' : ℚ} (h : Near k x y) (h' : Near k x' y') : Near k (x + x') (y + y') := by
  obtain ⟨h1, h2, h3, h4⟩ := h
  obtain ⟨g1, g2, g3, g4⟩ := h'
  exact ⟨by linarith, by linarith, by rw [add_mul]; linarith, by rw [add_mul]; linarith⟩

theorem Near.scale {k : Nat} {x y c : ℚ} (h : Near k x y) (hc : 0 ≤ c) : Near k (x * c) (y * c) := by
  obtain ⟨h1, h2, h3, h4⟩ := h
  refine ⟨by positivity, by positivity, ?_, ?_⟩
  · have := mul_le_mul_of_nonneg_right h3 hc; linarith
  · have := mul_le_mul_of_nonneg_right h4 hc; linarith

theorem Near.div {j k : Nat} {x y x' y' : ℚ} (h : Near j x y) (h' : Near k x' y') (hx : 0 < x') (hy : 0 < y') :
    Near (j + k) (x / x') (y / y') := by
  obtain ⟨h1, h2, h3, h4⟩ := h
  obtain ⟨g1, g2, g3, g4⟩ := h'
  refine ⟨by positivity, by positivity, ?_, ?_⟩
  · rw [div_le_iff₀ hy]
    calc y ≤ x * (1 + 1 / 2 ^ 52) ^ j := h3
      _ = x / x' * (1 + 1 / 2 ^ 52) ^ j * x' := by field_simp
      _ ≤ x / x' * (1 + 1 / 2 ^ 52) ^ j * (y' * (1 + 1 / 2 ^ 52) ^ k) := mul_le_mul_of_nonneg_left g4 (by positivity)
      _ = x / x' * (1 + 1 / 2 ^ 52) ^ (j + k) * y' := by rw [pow_add]; ring
  · rw [div_le_iff₀ hx]
    calc x ≤ y * (1 + 1 / 2 ^ 52) ^ j := h4
      _ = y / y' * (1 + 1 / 2 ^ 52) ^ j * y' := by field_simp
      _ ≤ y / y' * (1 + 1 / 2 ^ 52) ^ j * (x' * (1 + 1 / 2 ^ 52) ^ k) := mul_le_mul_of_nonneg_left g3 (by positivity)
      _ = y / y' * (1 + 1 / 2 ^ 52) ^ (j + k) * x' := by rw [pow_add]; ring

theorem near_rnd (x : ℚ) (h : x = 0 ∨ (2 : ℚ) ^ (-1022 : Int) ≤ x) : Near 1 x (f64.rnd x) := by
  have h0 : 0 ≤ x := by
    rcases h with rfl | h
    · exact le_refl _
    · exact (pow2_pos _).le.trans h
  have e := f64_err x (by rwa [abs_of_nonneg h0])
  rw [abs_of_nonneg h0, abs_le] at e
  have n : x / 2 ^ 53 = x * u53 := by norm_num; ring
  rw [n] at e
  refine ⟨h0, rnd_nonneg f64 h0, ?_, ?_⟩
  · rw [pow_one]
    have : (1 : ℚ) / 2 ^ 52 = 2 * u53 := by norm_num
    rw [this]
    have : 0 ≤ x * u53 := by positivity
    linarith
  · rw [pow_one]
    have : (1 : ℚ) / 2 ^ 52 = 2 * u53 := by norm_num
    rw [this]
    have h1 : x * (1 - u53) ≤ f64.rnd x := by linarith
    have h2 : x * (1 - u53) * (1 + 2 * u53) ≤ f64.rnd x * (1 + 2 * u53) := mul_le_mul_of_nonneg_right h1 (by norm_num)
    refine le_trans ?_ h2
    rw [mul_assoc]
    exact le_mul_of_one_le_right h0 (by norm_num)

theorem c_small (k : Nat) (h : k ≤ 2 ^ 42) : (1 + 1 / 2 ^ 52 : ℚ) ^ k ≤ 2 := by
  have key : ∀ n : Nat, (n : ℚ) ≤ 2 ^ 52 → (1 + 1 / 2 ^ 52 : ℚ) ^ n * (1 - n / 2 ^ 52) ≤ 1 := by
    intro n
    induction n with
    | zero => intro _; simp
    | succ n ih =>
      intro hn
      push_cast at hn ⊢
      have := ih (by linarith)
      have hp := (c_pos n)
      rw [pow_succ]
      have hnn : (0 : ℚ) ≤ n := by positivity
      have e : (1 + 1 / 2 ^ 52 : ℚ) * (1 - (n + 1) / 2 ^ 52) ≤ 1 - n / 2 ^ 52 := by
        norm_num
        linarith
      calc _ = (1 + 1 / 2 ^ 52 : ℚ) ^ n * ((1 + 1 / 2 ^ 52) * (1 - (n + 1) / 2 ^ 52)) := by ring
        _ ≤ (1 + 1 / 2 ^ 52 : ℚ) ^ n * (1 - n / 2 ^ 52) := mul_le_mul_of_nonneg_left e hp.le
        _ ≤ 1 := this
  have hk : (k : ℚ) ≤ 2 ^ 42 := by exact_mod_cast h
  have := key k (hk.trans (by norm_num))
  have h2 : (1 : ℚ) / 2 ≤ 1 - k / 2 ^ 52 := by
    have : (k : ℚ) / 2 ^ 52 ≤ 2 ^ 42 / 2 ^ 52 := div_le_div_of_nonneg_right hk (by norm_num)
    have : (2 : ℚ) ^ 42 / 2 ^ 52 ≤ 1 / 2 := by norm_num
    linarith
  have hp := (c_pos k)
  nlinarith

/-! ### The two sums -/

/-- A price or a quantity: zero, or between `2 ^ -100` and `2 ^ 100`. -/
def Plain (x : ℚ) : Prop := x = 0 ∨ (1 / 2 ^ 100 ≤ x ∧ x ≤ 2 ^ 100)

theorem Plain.nonneg {x : ℚ} (h : Plain x) : 0 ≤ x := by
  rcases h with rfl | ⟨h, -⟩
  · exact le_refl _
  · exact le_trans (by positivity) h

theorem Plain.le {x : ℚ} (h : Plain x) : x ≤ 2 ^ 100 := by
  rcases h with rfl | ⟨-, h⟩
  · positivity
  · exact h

/-- A level of the book with its numbers. -/
def PlainLevel (f : Fl × Fl) (r : ℚ × ℚ) : Prop := f64.Finite f.1 r.1 ∧ f64.Finite f.2 r.2 ∧ Plain r.1 ∧ Plain r.2

/-- Specification: the quantity and the value of levels. -/
def levelQty (l : List (ℚ × ℚ)) : ℚ := (l.map (·.2)).sum

def levelValue (l : List (ℚ × ℚ)) : ℚ := (l.map fun r => r.1 * r.2).sum

/-- Zero or at least `2 ^ -300`. -/
def NotTiny (x : ℚ) : Prop := x = 0 ∨ 1 / 2 ^ 250 ≤ x

theorem NotTiny.ok {x : ℚ} (h : NotTiny x) : x = 0 ∨ (2 : ℚ) ^ (-1022 : Int) ≤ x := by
  rcases h with h | h
  · exact Or.inl h
  · refine Or.inr (le_trans ?_ h)
    have : (1 : ℚ) / 2 ^ 250 = 2 ^ (-250 : Int) := by rw [one_div, zpow_neg]; rfl
    rw [this]
    exact pow2_le (by norm_num)

theorem NotTiny.nonneg {x : ℚ} (h : NotTiny x) : 0 ≤ x := by
  rcases h with rfl | h
  · exact le_refl _
  · exact le_trans (by positivity) h

theorem NotTiny.add {x y : ℚ} (h : NotTiny x) (h' : NotTiny y) : NotTiny (x + y) := by
  have a := h.nonneg
  have b := h'.nonneg
  rcases h with rfl | h
  · rwa [zero_add]
  · right; linarith

theorem NotTiny.rnd {x : ℚ} (h : NotTiny x) : NotTiny (f64.rnd x) := by
  rcases h with rfl | h
  · left; exact rnd_zero f64
  · right
    refine le_rnd f64 h ?_
    have : (1 : ℚ) / 2 ^ 250 = 2 ^ (-250 : Int) := by rw [one_div, zpow_neg]; rfl
    rw [this]
    exact rep_pow2 f64 _ (by decide)

theorem Plain.notTiny {x : ℚ} (h : Plain x) : NotTiny x := by
  rcases h with h | ⟨h, -⟩
  · exact Or.inl h
  · refine Or.inr (le_trans ?_ h)
    exact one_div_le_one_div_of_le (by positivity) (pow_le_pow_right₀ (by norm_num) (by norm_num))

theorem plain_mul {p q : ℚ} (hp : Plain p) (hq : Plain q) : p * q = 0 ∨ (1 / 2 ^ 200 ≤ p * q ∧ p * q ≤ 2 ^ 200) := by
  rcases hp with rfl | ⟨p1, p2⟩
  · left; rw [zero_mul]
  rcases hq with rfl | ⟨q1, q2⟩
  · left; rw [mul_zero]
  have a : (0 : ℚ) < 1 / 2 ^ 100 := by positivity
  right
  constructor
  · calc (1 : ℚ) / 2 ^ 200 = 1 / 2 ^ 100 * (1 / 2 ^ 100) := by norm_num
      _ ≤ p * q := mul_le_mul p1 q1 a.le (by linarith)
  · calc p * q ≤ 2 ^ 100 * 2 ^ 100 := mul_le_mul p2 q2 (by linarith) (by positivity)
      _ = 2 ^ 200 := by norm_num

theorem f64_lit100 : f64.Finite (f64.lit 100) 100 := by
  have := f64_int 100 (by norm_num)
  exact_mod_cast this

/-- One term of the value. -/
theorem term_value (fp fq : Fl) (p q : ℚ) (h : PlainLevel (fp, fq) (p, q)) :
    ∃ t, f64.Finite (f64.div (f64.mul fp fq) (f64.lit 100)) t ∧ Near 2 (p * q / 100) t ∧ NotTiny t ∧ t ≤ 2 ^ 200 := by
  obtain ⟨h1, h2, h3, h4⟩ := h
  simp only at h1 h2 h3 h4
  have hpq := plain_mul h3 h4
  have n0 : 0 ≤ p * q := mul_nonneg h3.nonneg h4.nonneg
  have big : (2 : ℚ) ^ 200 ≤ f64.maxFin := f64_big
  have hle : p * q ≤ 2 ^ 200 := by
    rcases hpq with h | h
    · rw [h]; positivity
    · exact h.2
  have f1 := finite_mul h1 h2 (by rw [abs_of_nonneg n0]; linarith)
  have m0 := rnd_nonneg f64 n0
  have rep200 : f64.Rep (2 ^ 200) := by exact_mod_cast rep_pow2 f64 200 (by decide)
  have m1 : f64.rnd (p * q) ≤ 2 ^ 200 := rnd_le f64 hle rep200
  have f2 := finite_div f1 f64_lit100 (by norm_num) (by
    rw [abs_of_nonneg (by positivity)]
    have : f64.rnd (p * q) / 100 ≤ f64.rnd (p * q) := div_le_self m0 (by norm_num)
    linarith)
  have ntq : p * q = 0 ∨ 1 / 2 ^ 200 ≤ p * q := hpq.imp id (·.1)
  have nt1 : f64.rnd (p * q) = 0 ∨ 1 / 2 ^ 200 ≤ f64.rnd (p * q) := by
    rcases ntq with h | h
    · left; rw [h, rnd_zero]
    · right
      refine le_rnd f64 h ?_
      have : (1 : ℚ) / 2 ^ 200 = 2 ^ (-200 : Int) := by rw [one_div, zpow_neg]; rfl
      rw [this]
      exact rep_pow2 f64 _ (by decide)
  have nt2 : NotTiny (f64.rnd (p * q) / 100) := by
    rcases nt1 with h | h
    · left; rw [h, zero_div]
    · right
      rw [le_div_iff₀ (by norm_num)]
      refine le_trans ?_ h
      norm_num
  refine ⟨_, f2, ?_, nt2.rnd, ?_⟩
  · have a : Near 1 (p * q) (f64.rnd (p * q)) := near_rnd _ (by
      refine NotTiny.ok (ntq.imp id fun h => le_trans ?_ h)
      norm_num)
    have b := a.scale (c := 1 / 100) (by norm_num)
    rw [← div_eq_mul_one_div, ← div_eq_mul_one_div] at b
    exact b.trans (near_rnd _ nt2.ok)
  · refine rnd_le f64 ?_ rep200
    exact (div_le_self m0 (by norm_num)).trans m1

/-- What the loop knows after `k` levels: the sums are near the exact ones. -/
structure Sums (k : Nat) (q v : ℚ) (a : Fl × Fl) (Q V : ℚ) : Prop where
  fq : f64.Finite a.1 Q
  fv : f64.Finite a.2 V
  nq : Near k q Q
  nv : Near (k + 2) v V
  tq : NotTiny Q
  tv : NotTiny V
  bq : q ≤ k * 2 ^ 100
  bv : v ≤ k * 2 ^ 200

theorem near_le {k : Nat} {x y : ℚ} (h : Near k x y) (hk : k ≤ 2 ^ 42) : y ≤ 2 * x := by
  obtain ⟨h1, h2, h3, h4⟩ := h
  have := c_small k hk
  nlinarith

theorem max300 : (2 : ℚ) ^ 250 ≤ f64.maxFin := by decide +kernel

theorem fin_add {a b : Fl} {x y : ℚ} (h : f64.Finite a x) (h' : f64.Finite b y) (h0 : 0 ≤ x + y) (h1 : x + y ≤ 2 ^ 250) :
    f64.Finite (f64.add a b) (f64.rnd (x + y)) :=
  finite_add h h' (by rw [abs_of_nonneg h0]; exact h1.trans max300)

theorem Sums.leQ {k : Nat} {q v Q V : ℚ} {a : Fl × Fl} (hs : Sums k q v a Q V) (hk : k ≤ 2 ^ 40) : Q ≤ 2 ^ 142 := by
  have hkq : (k : ℚ) ≤ 2 ^ 40 := by exact_mod_cast hk
  have h1 := near_le hs.nq (hk.trans (by norm_num))
  have h2 := hs.bq
  have h3 : (k : ℚ) * 2 ^ 100 ≤ 2 ^ 40 * 2 ^ 100 := mul_le_mul_of_nonneg_right hkq (by positivity)
  have h4 : (2 : ℚ) * (2 ^ 40 * 2 ^ 100) ≤ 2 ^ 142 := by norm_num
  exact h1.trans ((mul_le_mul_of_nonneg_left (h2.trans h3) (by norm_num)).trans h4)

theorem Sums.leV {k : Nat} {q v Q V : ℚ} {a : Fl × Fl} (hs : Sums k q v a Q V) (hk : k ≤ 2 ^ 40) : V ≤ 2 ^ 242 := by
  have hkq : (k : ℚ) ≤ 2 ^ 40 := by exact_mod_cast hk
  have h1 := near_le hs.nv (by norm_num at hk ⊢; omega)
  have h2 := hs.bv
  have h3 : (k : ℚ) * 2 ^ 200 ≤ 2 ^ 40 * 2 ^ 200 := mul_le_mul_of_nonneg_right hkq (by positivity)
  have h4 : (2 : ℚ) * (2 ^ 40 * 2 ^ 200) ≤ 2 ^ 242 := by norm_num
  exact h1.trans ((mul_le_mul_of_nonneg_left (h2.trans h3) (by norm_num)).trans h4)

theorem Sums.step {k : Nat} {q v Q V : ℚ} {a : Fl × Fl} (hs : Sums k q v a Q V) (hk : k ≤ 2 ^ 40) (fp fq : Fl) (p qq : ℚ)
    (hr : PlainLevel (fp, fq) (p, qq)) : ∃ Q' V', Sums (k + 1) (q + qq) (v + p * qq / 100)
      (f64.add a.1 fq, f64.add a.2 (f64.div (f64.mul fp fq) (f64.lit 100))) Q' V' ∧ Q ≤ Q' := by
  obtain ⟨t, t1, t2, t3, t4⟩ := term_value fp fq p qq hr
  obtain ⟨r1, r2, r3, r4⟩ := hr
  simp only at r1 r2 r3 r4
  have bQ := hs.leQ hk
  have bV := hs.leV hk
  have ntq := hs.tq.add r4.notTiny
  have ntv := hs.tv.add t3
  have g1 := fin_add hs.fq r2 ntq.nonneg ((add_le_add bQ r4.le).trans (by norm_num))
  have g2 := fin_add hs.fv t1 ntv.nonneg ((add_le_add bV t4).trans (by norm_num))
  have h1 : p * qq ≤ 2 ^ 200 := by
    rcases plain_mul r3 r4 with h | h
    · rw [h]; positivity
    · exact h.2
  have h2 : p * qq / 100 ≤ p * qq := div_le_self (mul_nonneg r3.nonneg r4.nonneg) (by norm_num)
  refine ⟨_, _, ⟨g1, g2, ?_, ?_, ntq.rnd, ntv.rnd, ?_, ?_⟩, le_rnd f64 (le_add_of_nonneg_right r4.nonneg) hs.fq.rep⟩
  · exact (hs.nq.add ((Near.refl qq r4.nonneg).mono (Nat.zero_le k))).trans (near_rnd _ ntq.ok)
  · have := (hs.nv.add (t2.mono (by omega))).trans (near_rnd _ ntv.ok)
    rwa [show k + 2 + 1 = k + 1 + 2 by omega] at this
  · rw [Nat.cast_succ, add_mul, one_mul]
    exact add_le_add hs.bq r4.le
  · rw [Nat.cast_succ, add_mul, one_mul]
    exact add_le_add hs.bv (h2.trans h1)

theorem vwap_sums (fl : List (Fl × Fl)) (l : List (ℚ × ℚ)) (h : List.Forall₂ PlainLevel fl l) :
    ∀ (k : Nat) (q v Q V : ℚ) (a : Fl × Fl), k + l.length ≤ 2 ^ 40 → Sums k q v a Q V →
      ∃ Q' V', Sums (k + l.length) (q + levelQty l) (v + levelValue l / 100) (vwapSumF fl a) Q' V' ∧ Q ≤ Q' := by
  induction h with
  | nil => intro k q v Q V a _ hs; exact ⟨Q, V, by simpa [levelQty, levelValue, vwapSumF] using hs, le_refl _⟩
  | @cons f r fl l hr hl ih =>
    obtain ⟨fp, fq⟩ := f
    obtain ⟨p, qq⟩ := r
    intro k q v Q V a hk hs
    rw [List.length_cons] at hk
    obtain ⟨Q1, V1, hs', hle⟩ := hs.step (by omega) fp fq p qq hr
    obtain ⟨Q', V', s1, s2⟩ := ih (k + 1) _ _ _ _ _ (by omega) hs'
    refine ⟨Q', V', ?_, ?_⟩
    · have e1 : q + levelQty ((p, qq) :: l) = q + qq + levelQty l := by simp only [levelQty, List.map_cons, List.sum_cons]; ring
      have e2 : v + levelValue ((p, qq) :: l) / 100 = v + p * qq / 100 + levelValue l / 100 := by
        simp only [levelValue, List.map_cons, List.sum_cons]; ring
      rw [List.length_cons, e1, e2, show k + (l.length + 1) = k + 1 + l.length by omega]
      exact s1
    · exact hle.trans s2

theorem f64_lit0 : f64.Finite (f64.lit 0) 0 := by
  have := f64_int 0 (by norm_num)
  exact_mod_cast this

theorem sums_zero : Sums 0 0 0 (f64.lit 0, f64.lit 0) 0 0 :=
  ⟨f64_lit0, f64_lit0, Near.refl 0 (le_refl _), (Near.refl 0 (le_refl _)).mono (by omega), Or.inl rfl, Or.inl rfl, by simp, by simp⟩

theorem f64_eps : f64.Finite (f64.lit (1 / 2 ^ 52)) (1 / 2 ^ 52) := by
  have := finite_of f64 false (1 / 2 ^ 52) (by decide +kernel)
  rwa [show f64.rnd (1 / 2 ^ 52) = 1 / 2 ^ 52 by decide +kernel] at this

theorem levelQty_append (a b : List (ℚ × ℚ)) : levelQty (a ++ b) = levelQty a + levelQty b := by simp [levelQty]
theorem levelValue_append (a b : List (ℚ × ℚ)) : levelValue (a ++ b) = levelValue a + levelValue b := by simp [levelValue]

/-- **C139** (accuracy). The volume-weighted price of a book of any depth, as it is computed, is within a factor
`(1 + 2 ^ -52) ^ (2 n + 4)` of the exact one, `n` the number of levels. -/
theorem C139_accuracy (asks bids : List (Fl × Fl)) (la lb : List (ℚ × ℚ)) (ha : List.Forall₂ PlainLevel asks la)
    (hb : List.Forall₂ PlainLevel bids lb) (hn : la.length + lb.length ≤ 2 ^ 40) (y : Fl) (hy : vwapF asks bids = some y) :
    ∃ x, f64.Finite y x ∧ 0 < levelQty (la ++ lb) ∧
      Near (2 * (la.length + lb.length) + 4) (levelValue (la ++ lb) / levelQty (la ++ lb)) x := by
  unfold vwapF at hy
  dsimp only at hy
  split_ifs at hy with h1 h2
  obtain ⟨Qa, Va, sa, -⟩ := vwap_sums asks la ha 0 0 0 0 0 _ (by omega) sums_zero
  obtain ⟨Q, V, sb, -⟩ := vwap_sums bids lb hb _ _ _ _ _ _ (by omega) sa
  rw [Nat.zero_add, zero_add, zero_add, ← levelQty_append, ← add_div, ← levelValue_append] at sb
  have hy := Option.some.inj hy
  generalize vwapSumF bids (vwapSumF asks (f64.lit 0, f64.lit 0)) = b at *
  rw [finite_lt sb.fq f64_eps] at h2
  have hQ : 1 / 2 ^ 52 ≤ Q := by
    by_contra hc
    exact h2 (by rw [decide_eq_true_eq]; exact not_le.1 hc)
  have hQ0 : 0 < Q := lt_of_lt_of_le (by positivity) hQ
  have hq0 : 0 < levelQty (la ++ lb) := by
    have := sb.nq.2.2.1
    by_contra hc
    have h0 : levelQty (la ++ lb) = 0 := le_antisymm (not_lt.1 hc) sb.nq.1
    rw [h0, zero_mul] at this
    linarith
  have bQ := sb.leQ hn
  have bV := sb.leV hn
  have hV0 := sb.tv.nonneg
  have dq : V / Q ≤ 2 ^ 300 := by
    rw [div_le_iff₀ hQ0]
    calc V ≤ 2 ^ 242 := bV
      _ ≤ 2 ^ 300 * (1 / 2 ^ 52) := by decide +kernel
      _ ≤ 2 ^ 300 * Q := mul_le_mul_of_nonneg_left hQ (by positivity)
  have rep300 : f64.Rep (2 ^ 300) := by exact_mod_cast rep_pow2 f64 300 (by decide)
  have big : (2 : ℚ) ^ 300 * 100 ≤ f64.maxFin := by decide +kernel
  have f1 := finite_div sb.fv sb.fq hQ0.ne' (by
    rw [abs_of_nonneg (by positivity)]
    exact dq.trans (le_trans (le_mul_of_one_le_right (by positivity) (by norm_num)) big))
  have n1 : 0 ≤ f64.rnd (V / Q) := rnd_nonneg f64 (by positivity)
  have n2 : f64.rnd (V / Q) ≤ 2 ^ 300 := rnd_le f64 dq rep300
  have f2 := finite_mul f1 f64_lit100 (by
    rw [abs_of_nonneg (by positivity)]
    exact (mul_le_mul_of_nonneg_right n2 (by norm_num)).trans big)
  rw [hy] at f2
  refine ⟨_, f2, hq0, ?_⟩
  have notTinyDiv : V / Q = 0 ∨ (2 : ℚ) ^ (-500 : Int) ≤ V / Q := by
    rcases sb.tv with h | h
    · left; rw [h, zero_div]
    · right
      rw [le_div_iff₀ hQ0]
      calc (2 : ℚ) ^ (-500 : Int) * Q ≤ 2 ^ (-500 : Int) * 2 ^ 142 := mul_le_mul_of_nonneg_left bQ (pow2_pos _).le
        _ ≤ 1 / 2 ^ 250 := by decide +kernel
        _ ≤ V := h
  have s1022 : (2 : ℚ) ^ (-1022 : Int) ≤ 2 ^ (-500 : Int) := pow2_le (by norm_num)
  have near1 := (sb.nv.div sb.nq hq0 hQ0).trans (near_rnd (V / Q) (notTinyDiv.imp id fun h => s1022.trans h))
  have near2 := (near1.scale (c := 100) (by norm_num)).trans (near_rnd (f64.rnd (V / Q) * 100) (by
    rcases notTinyDiv with h | h
    · left; rw [h, rnd_zero, zero_mul]
    · right
      have := le_rnd f64 h (rep_pow2 f64 _ (by decide))
      have := pow2_pos (-500)
      linarith))
  have e : levelValue (la ++ lb) / 100 / levelQty (la ++ lb) * 100 = levelValue (la ++ lb) / levelQty (la ++ lb) := by
    field_simp
  rw [e] at near2
  exact near2.mono (by omega)

/-- **C139** (defined). There is a volume-weighted price if any ask has a quantity of at least one. -/
theorem C139_defined (asks bids : List (Fl × Fl)) (la lb : List (ℚ × ℚ)) (ha : List.Forall₂ PlainLevel asks la)
    (hb : List.Forall₂ PlainLevel bids lb) (hn : la.length + lb.length ≤ 2 ^ 40) (hq : ∃ r ∈ la, 1 ≤ r.2) :
    ∃ y, vwapF asks bids = some y := by
  have hone : ∀ (fl : List (Fl × Fl)) (l : List (ℚ × ℚ)), List.Forall₂ PlainLevel fl l → (∃ r ∈ l, 1 ≤ r.2) → l.length ≤ 2 ^ 40 →
      ∃ Q V, Sums l.length (levelQty l) (levelValue l / 100) (vwapSumF fl (f64.lit 0, f64.lit 0)) Q V ∧ 1 / 2 ^ 52 ≤ Q := by
    intro fl l h hr hl
    obtain ⟨Q, V, s, -⟩ := vwap_sums fl l h 0 0 0 0 0 _ (by omega) sums_zero
    rw [Nat.zero_add, zero_add, zero_add] at s
    refine ⟨Q, V, s, ?_⟩
    have h1 : 1 ≤ levelQty l := by
      have hnn : ∀ x ∈ l.map (·.2), 0 ≤ x := by
        intro x hx
        obtain ⟨r, hr, rfl⟩ := List.mem_map.1 hx
        obtain ⟨i, hi', e⟩ := List.mem_iff_getElem.1 hr
        have := (List.forall₂_iff_get.1 h).2 i (by rw [h.length_eq]; exact hi') hi'
        rw [List.get_eq_getElem, List.get_eq_getElem, e] at this
        exact this.2.2.2.nonneg
      obtain ⟨r, hr1, hr2⟩ := hr
      exact hr2.trans (List.single_le_sum hnn _ (List.mem_map.2 ⟨r, hr1, rfl⟩))
    have h2 := s.nq.2.2.2
    have h3 := c_small l.length (by omega)
    have h4 := s.nq.2.1
    have : 1 ≤ Q * 2 := h1.trans (h2.trans (mul_le_mul_of_nonneg_left h3 h4))
    have : (1 : ℚ) / 2 ^ 52 ≤ 1 / 2 := by norm_num
    linarith
  obtain ⟨Qa, Va, sa, hQa⟩ := hone asks la ha hq (by omega)
  obtain ⟨Q, V, sb, hle⟩ := vwap_sums bids lb hb _ _ _ _ _ _ (by omega) sa
  unfold vwapF
  dsimp only
  rw [finite_lt sa.fq f64_eps, finite_lt sb.fq f64_eps, if_neg (by rw [decide_eq_true_eq]; linarith),
    if_neg (by rw [decide_eq_true_eq]; linarith)]
  exact ⟨_, rfl⟩

/-- **C139** (range). If every price is between `lo` and `hi`, the price computed is too, up to that factor. -/
theorem C139_within (asks bids : List (Fl × Fl)) (la lb : List (ℚ × ℚ)) (ha : List.Forall₂ PlainLevel asks la)
    (hb : List.Forall₂ PlainLevel bids lb) (hn : la.length + lb.length ≤ 2 ^ 40) (y : Fl) (hy : vwapF asks bids = some y)
    (lo hi : ℚ) (hp : ∀ r ∈ la ++ lb, lo ≤ r.1 ∧ r.1 ≤ hi) :
    ∃ x, f64.Finite y x ∧ lo ≤ x * (1 + 1 / 2 ^ 52) ^ (2 * (la.length + lb.length) + 4) ∧
      x ≤ hi * (1 + 1 / 2 ^ 52) ^ (2 * (la.length + lb.length) + 4) := by
  obtain ⟨x, h1, h2, h3⟩ := C139_accuracy asks bids la lb ha hb hn y hy
  have hall : ∀ r ∈ la ++ lb, 0 ≤ r.2 := by
    intro r hr
    have := List.rel_append ha hb
    obtain ⟨i, hi', e⟩ := List.mem_iff_getElem.1 hr
    have hf := List.Forall₂.get this (i := i) (by rw [this.length_eq]; exact hi') hi'
    rw [List.get_eq_getElem, List.get_eq_getElem, e] at hf
    exact hf.2.2.2.nonneg
  have bounds : ∀ l : List (ℚ × ℚ), (∀ r ∈ l, 0 ≤ r.2) → (∀ r ∈ l, lo ≤ r.1 ∧ r.1 ≤ hi) →
      lo * levelQty l ≤ levelValue l ∧ levelValue l ≤ hi * levelQty l := by
    intro l
    induction l with
    | nil => intro _ _; simp [levelQty, levelValue]
    | cons r l ih =>
      intro a b
      obtain ⟨i1, i2⟩ := ih (fun r hr => a r (List.mem_cons_of_mem _ hr)) (fun r hr => b r (List.mem_cons_of_mem _ hr))
      obtain ⟨b1, b2⟩ := b r (by simp)
      have a1 := a r (by simp)
      simp only [levelQty, levelValue, List.map_cons, List.sum_cons] at *
      constructor <;> nlinarith
  obtain ⟨v1, v2⟩ := bounds (la ++ lb) hall hp
  refine ⟨x, h1, ?_, ?_⟩
  · refine le_trans ?_ h3.2.2.2
    rw [le_div_iff₀ h2]; exact v1
  · refine h3.2.2.1.trans (mul_le_mul_of_nonneg_right ?_ (c_pos _).le)
    rw [div_le_iff₀ h2]; exact v2

/-! ### Concrete cases -/

/-- One level of 7 at 0.92: the price computed is not 0.92. -/
theorem fault_vwap_one_level : vwapF [(f64.lit 0.92, f64.ofInt 7)] [] = some (f64.lit 0.9199999999999999) ∧
    f64.lit 0.92 ≠ f64.lit 0.9199999999999999 := by decide +kernel

example : vwapF [(f64.ofInt 100, f64.ofInt 3)] [(f64.ofInt 100, f64.ofInt 1)] = some (f64.lit 100) := by decide +kernel

example : List.Forall₂ PlainLevel [(f64.ofInt 101, f64.ofInt 3)] [(101, 3)] := by
  have a1 : f64.Finite (f64.ofInt 101) 101 := by have := f64_int 101 (by norm_num); exact_mod_cast this
  have a2 : f64.Finite (f64.ofInt 3) 3 := by have := f64_int 3 (by norm_num); exact_mod_cast this
  exact .cons ⟨a1, a2, Or.inr (by norm_num), Or.inr (by norm_num)⟩ .nil

end Verif.Props

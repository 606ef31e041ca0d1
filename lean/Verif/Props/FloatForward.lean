import Verif.Float.Forward
import Verif.Props.FloatGreeks
/-!
# C170: futures, currency futures and stocks in single precision
-/
set_option autoImplicit false
namespace Verif.Props
open Verif Verif.Float

/-! ## Positive numbers known up to `k` roundings -/

/-- The floating-point number `a` is the positive number `X` (between `2^i` and `2^j`) up to `k` roundings. -/
def Acc (k : Nat) (i j : Int) (a : Fl) (X : ℚ) : Prop := ∃ x, f32.Finite a x ∧ Rel k x X ∧ (2 : ℚ) ^ i ≤ X ∧ X ≤ 2 ^ j

theorem Acc.exact {a : Fl} {x : ℚ} {i j : Int} (h : f32.Finite a x) (h1 : (2 : ℚ) ^ i ≤ x) (h2 : x ≤ 2 ^ j) : Acc 0 i j a x := ⟨x, h, Rel.refl x, h1, h2⟩

theorem rel_pos {k : Nat} {x y : ℚ} (h : Rel k x y) (hy : 0 < y) : 0 < x := by
  obtain ⟨θ, rfl, h1, -⟩ := h
  exact mul_pos hy (lt_of_lt_of_le (pow_pos u24_pos k) h1)

theorem Acc.range {k : Nat} {i j : Int} {a : Fl} {X x : ℚ} (h1 : Rel k x X) (h2 : (2 : ℚ) ^ i ≤ X) (h3 : X ≤ 2 ^ j) (hk : k ≤ 16) :
    0 < x ∧ (2 : ℚ) ^ (i - 1) ≤ |x| ∧ |x| ≤ 2 ^ (j + 1) := by
  have hX : 0 < X := (pow2_pos _).trans_le h2
  have hx := rel_pos h1 hX
  have hb : Between i j X := Or.inr ⟨by rwa [abs_of_pos hX], by rwa [abs_of_pos hX]⟩
  rcases hb.rel h1 hk with h | h
  · exact absurd h hx.ne'
  · exact ⟨hx, h⟩

theorem Acc.mul {k l : Nat} {i j i' j' : Int} {a b : Fl} {X Y : ℚ} (ha : Acc k i j a X) (hb : Acc l i' j' b Y) (hk : k ≤ 16) (hl : l ≤ 16) (hi : -124 ≤ i + i') (hj : j + j' ≤ 98) :
    Acc (k + l + 1) (i + i') (j + j') (f32.mul a b) (X * Y) := by
  obtain ⟨x, fx, rx, x1, x2⟩ := ha
  obtain ⟨y, fy, ry, y1, y2⟩ := hb
  obtain ⟨px, ax, bx⟩ := Acc.range (a := a) rx x1 x2 hk
  obtain ⟨py, ay, by'⟩ := Acc.range (a := b) ry y1 y2 hl
  have hxy : Between (i - 1 + (i' - 1)) (j + 1 + (j' + 1)) (x * y) := Between.mul (Or.inr ⟨ax, bx⟩) ay by'
  obtain ⟨r, g⟩ := hxy.rnd (by omega) (by omega)
  have hY : 0 < Y := (pow2_pos _).trans_le y1
  have hX : 0 < X := (pow2_pos _).trans_le x1
  refine ⟨_, finite_mul fx fy g, ?_, ?_, ?_⟩
  · have := r.trans (rx.mul ry)
    rwa [Nat.add_comm 1 (k + l)] at this
  · rw [pow2_add]
    exact mul_le_mul x1 y1 (pow2_pos _).le hX.le
  · rw [pow2_add]
    exact mul_le_mul x2 y2 hY.le (pow2_pos _).le

theorem Acc.div {k : Nat} {i j i' j' : Int} {a b : Fl} {X y : ℚ} (ha : Acc k i j a X) (fy : f32.Finite b y) (y1 : (2 : ℚ) ^ i' ≤ y) (y2 : y ≤ 2 ^ j') (hk : k ≤ 16) (hi : -124 ≤ i - j')
    (hj : j - i' ≤ 98) : Acc (k + 1) (i - j') (j - i') (f32.div a b) (X / y) := by
  obtain ⟨x, fx, rx, x1, x2⟩ := ha
  obtain ⟨px, ax, bx⟩ := Acc.range (a := a) rx x1 x2 hk
  have hy : 0 < y := (pow2_pos _).trans_le y1
  have hX : 0 < X := (pow2_pos _).trans_le x1
  have hxy : Between (i - 1 - j') (j + 1 - i') (x / y) := Between.div (Or.inr ⟨ax, bx⟩) (by rwa [abs_of_pos hy]) (by rwa [abs_of_pos hy])
  obtain ⟨r, g⟩ := hxy.rnd (by omega) (by omega)
  refine ⟨_, finite_div fx fy hy.ne' g, ?_, ?_, ?_⟩
  · have := r.trans (rx.div y)
    rwa [Nat.add_comm 1 k] at this
  · rw [zpow_sub₀ (by norm_num), div_le_div_iff₀ (pow2_pos _) hy]
    exact mul_le_mul x1 y2 hy.le hX.le
  · rw [zpow_sub₀ (by norm_num), div_le_div_iff₀ hy (pow2_pos _)]
    exact mul_le_mul x2 y1 (pow2_pos _).le (pow2_pos _).le

theorem Acc.err {k : Nat} {i j : Int} {a : Fl} {X : ℚ} (h : Acc k i j a X) (c : ℚ) (h1 : (1 + u24) ^ k ≤ 1 + c) (h2 : 1 - c ≤ (1 - u24) ^ k) :
    ∃ x, f32.Finite a x ∧ 0 < x ∧ |x - X| ≤ c * X := by
  obtain ⟨x, fx, rx, x1, -⟩ := h
  have hX : 0 < X := (pow2_pos _).trans_le x1
  refine ⟨x, fx, rel_pos rx hX, ?_⟩
  have := rx.err c h1 h2
  rwa [abs_of_pos hX] at this

/-! ## Specification -/

/-- The number `a`: a price, rate or quote, between `2^-30` and `2^30` -/
structure Quote (a : Fl) (x : ℚ) : Prop where
  fin : f32.Finite a x
  low : (2 : ℚ) ^ (-30 : Int) ≤ x
  high : x ≤ (2 : ℚ) ^ (30 : Int)

/-- A discount factor or ratio between 1/256 and 256 -/
structure Factor (a : Fl) (x : ℚ) : Prop where
  fin : f32.Finite a x
  low : (2 : ℚ) ^ (-8 : Int) ≤ x
  high : x ≤ (2 : ℚ) ^ (8 : Int)

/-- A notional between `2^-20` and `2^40` -/
structure Unit' (a : Fl) (x : ℚ) : Prop where
  fin : f32.Finite a x
  low : (2 : ℚ) ^ (-20 : Int) ≤ x
  high : x ≤ (2 : ℚ) ^ (40 : Int)

theorem forward_acc {s b c d : Fl} {S B C D : ℚ} (hs : Quote s S) (hb : Factor b B) (hc : Factor c C) (hd : Factor d D) : Acc 3 (-54) 54 (forwardF s b c d) (S * B / C * D) := by
  have a1 := (Acc.exact hs.fin hs.low hs.high).mul (Acc.exact hb.fin hb.low hb.high) (by norm_num) (by norm_num) (by norm_num) (by norm_num)
  have a2 := a1.div hc.fin hc.low hc.high (by norm_num) (by norm_num) (by norm_num)
  exact a2.mul (Acc.exact hd.fin hd.low hd.high) (by norm_num) (by norm_num) (by norm_num) (by norm_num)

theorem fx_acc {s b c : Fl} {S B C : ℚ} (hs : Quote s S) (hb : Factor b B) (hc : Factor c C) : Acc 2 (-46) 46 (fxForwardF s b c) (S * B / C) := by
  have a1 := (Acc.exact hs.fin hs.low hs.high).mul (Acc.exact hb.fin hb.low hb.high) (by norm_num) (by norm_num) (by norm_num) (by norm_num)
  exact a1.div hc.fin hc.low hc.high (by norm_num) (by norm_num) (by norm_num)

theorem cent_acc : Acc 1 (-7) (-6) deltaUnitF (1 / 100) := by
  refine ⟨f32.rnd (1 / 100), ?_, rel_rnd _ (Or.inr ?_), by norm_num, by norm_num⟩
  · exact finite_of f32 false _ (((show Between (-7) (-6) (1 / 100 : ℚ) from Or.inr (by constructor <;> norm_num [abs_of_pos])).rnd (by norm_num) (by norm_num)).2)
  · rw [abs_of_pos (by norm_num)]
    exact le_trans (pow2_le (show (-126 : Int) ≤ -7 by norm_num)) (by norm_num)

/-! ## C170 -/

/-- **C170.** The forward of a future is positive and within four units in the 24th bit of the exact price × borrowing / collateral × dividend ratio; its value with the notional within
five; its delta within seven. -/
theorem C170_future {s b c d n : Fl} {S B C D N : ℚ} (hs : Quote s S) (hb : Factor b B) (hc : Factor c C) (hd : Factor d D) (hn : Unit' n N) :
    (∃ x, f32.Finite (forwardF s b c d) x ∧ 0 < x ∧ |x - S * B / C * D| ≤ 4 / 2 ^ 24 * (S * B / C * D)) ∧
    (∃ x, f32.Finite (valueF (forwardF s b c d) n) x ∧ 0 < x ∧ |x - S * B / C * D * N| ≤ 5 / 2 ^ 24 * (S * B / C * D * N)) ∧
    (∃ x, f32.Finite (plainDeltaF (forwardF s b c d) n) x ∧ 0 < x ∧ |x - S * B / C * D * (1 / 100) * N| ≤ 7 / 2 ^ 24 * (S * B / C * D * (1 / 100) * N)) := by
  have a := forward_acc hs hb hc hd
  have u := Acc.exact hn.fin hn.low hn.high
  refine ⟨a.err _ (by norm_num) (by norm_num), (a.mul u (by norm_num) (by norm_num) (by norm_num) (by norm_num)).err _ (by norm_num) (by norm_num), ?_⟩
  exact ((a.mul cent_acc (by norm_num) (by norm_num) (by norm_num) (by norm_num)).mul u (by norm_num) (by norm_num) (by norm_num) (by norm_num)).err _ (by norm_num) (by norm_num)

/-- The same for a currency future, within three, four and six, and for a stock (whose price is its quote), within one and three. -/
theorem C170_fx_and_stock {s b c n : Fl} {S B C N : ℚ} (hs : Quote s S) (hb : Factor b B) (hc : Factor c C) (hn : Unit' n N) :
    (∃ x, f32.Finite (fxForwardF s b c) x ∧ 0 < x ∧ |x - S * B / C| ≤ 3 / 2 ^ 24 * (S * B / C)) ∧
    (∃ x, f32.Finite (valueF (fxForwardF s b c) n) x ∧ 0 < x ∧ |x - S * B / C * N| ≤ 4 / 2 ^ 24 * (S * B / C * N)) ∧
    (∃ x, f32.Finite (valueF s n) x ∧ 0 < x ∧ |x - S * N| ≤ 1 / 2 ^ 24 * (S * N)) ∧
    (∃ x, f32.Finite (plainDeltaF s n) x ∧ 0 < x ∧ |x - S * (1 / 100) * N| ≤ 4 / 2 ^ 24 * (S * (1 / 100) * N)) := by
  have a := fx_acc hs hb hc
  have q := Acc.exact hs.fin hs.low hs.high
  have u := Acc.exact hn.fin hn.low hn.high
  refine ⟨a.err _ (by norm_num) (by norm_num), (a.mul u (by norm_num) (by norm_num) (by norm_num) (by norm_num)).err _ (by norm_num) (by norm_num),
    (q.mul u (by norm_num) (by norm_num) (by norm_num) (by norm_num)).err _ (by norm_num) (by norm_num), ?_⟩
  exact ((q.mul cent_acc (by norm_num) (by norm_num) (by norm_num) (by norm_num)).mul u (by norm_num) (by norm_num) (by norm_num) (by norm_num)).err _ (by norm_num) (by norm_num)

/-- A higher quote never gives a lower forward, value or delta, for all positive factors and notionals, also where numbers overflow. -/
theorem C170_monotone {s s' b c d n : Fl} (h : s.le s' = true) (hb : PosF b) (hc : PosF c) (hd : PosF d) (hn : PosF n) :
    (forwardF s b c d).le (forwardF s' b c d) = true ∧ (valueF (forwardF s b c d) n).le (valueF (forwardF s' b c d) n) = true ∧
      (plainDeltaF (forwardF s b c d) n).le (plainDeltaF (forwardF s' b c d) n) = true ∧ (fxForwardF s b c).le (fxForwardF s' b c) = true := by
  have f1 := mul_mono f32 hd (div_mono f32 hc (mul_mono f32 hb h))
  have hcent : PosF deltaUnitF := ⟨f32.rnd (1 / 100), by decide +kernel, by decide +kernel⟩
  exact ⟨f1, mul_mono f32 hn f1, mul_mono f32 hn (mul_mono f32 hcent f1), div_mono f32 hc (mul_mono f32 hb h)⟩

/-- The exposure of a future has the sign of price less trade price, is zero exactly if they are the same number, and is within three units in the 24th bit of the exact product. -/
theorem C170_exposure {p a n : Fl} {P A N : ℚ} (hp : f32.Finite p P) (ha : f32.Finite a A) (hn : Unit' n N) (p1 : |P| ≤ 2 ^ (50 : Int)) (a1 : |A| ≤ 2 ^ (50 : Int)) (p2 : P = A ∨ (2 : ℚ) ^ (-60 : Int) ≤ |P - A|) :
    ∃ x, f32.Finite (exposureF p a n) x ∧ |x - (P - A) * N| ≤ 3 / 2 ^ 24 * (|P - A| * N) ∧ (0 < x ↔ A < P) ∧ (x < 0 ↔ P < A) := by
  have hN : 0 < N := (pow2_pos _).trans_le hn.low
  have d0 : Between (-60) 51 (P - A) := by
    rcases p2 with h | h
    · left; rw [h, sub_self]
    · right; refine ⟨h, (abs_sub _ _).trans ?_⟩
      refine (add_le_add p1 a1).trans (by norm_num)
  have r1 := rel_sub P A hp.rep ha.rep
  have f1 := finite_sub hp ha (d0.rnd (by norm_num) (by norm_num)).2
  have d1 := d0.rel r1 (by norm_num)
  have e0 : Between (-81) 92 (f32.rnd (P - A) * N) := (d1.mul (k := -20) (l := 40) (by rw [abs_of_pos hN]; exact hn.low) (by rw [abs_of_pos hN]; exact hn.high)).weaken (by norm_num) (by norm_num)
  obtain ⟨r2, g2⟩ := e0.rnd (by norm_num) (by norm_num)
  have R : Rel 2 (f32.rnd (f32.rnd (P - A) * N)) ((P - A) * N) := r2.trans (r1.mul (Rel.refl N))
  refine ⟨_, finite_mul f1 hn.fin g2, ?_, ?_, ?_⟩
  · have := R.err (3 / 2 ^ 24) (by norm_num) (by norm_num)
    rwa [abs_mul, abs_of_pos hN] at this
  all_goals
    obtain ⟨θ, e, t1, -⟩ := R
    have hθ : 0 < θ := lt_of_lt_of_le (pow_pos u24_pos 2) t1
    rw [e]
    constructor
  · intro h
    by_contra hc
    have h0 : (P - A) * N ≤ 0 := mul_nonpos_of_nonpos_of_nonneg (by linarith) hN.le
    have := mul_nonpos_of_nonpos_of_nonneg h0 hθ.le
    linarith
  · intro h
    exact mul_pos (mul_pos (by linarith) hN) hθ
  · intro h
    by_contra hc
    have h0 : 0 ≤ (P - A) * N := mul_nonneg (by linarith) hN.le
    have := mul_nonneg h0 hθ.le
    linarith
  · intro h
    exact mul_neg_of_neg_of_pos (mul_neg_of_neg_of_pos (by linarith) hN) hθ

/-- The exposures of a currency future: minus the discounted trade price, within one unit in the 24th bit, and exactly the discount factor of the underlying. -/
theorem C170_fx_exposure {c b a : Fl} {C B A : ℚ} (hc : Factor c C) (hb : Factor b B) (ha : Quote a A) :
    (∃ x, f32.Finite (fxExposureF c b a).1 x ∧ x < 0 ∧ |x + C * A| ≤ 1 / 2 ^ 24 * (C * A)) ∧ f32.Finite (fxExposureF c b a).2 B := by
  refine ⟨?_, hb.fin⟩
  have hC : 0 < C := (pow2_pos _).trans_le hc.low
  have hA : 0 < A := (pow2_pos _).trans_le ha.low
  have h0 : Between (-38) 38 (-C * A) := (show Between (-8) 8 (-C) from Or.inr (by rw [abs_neg, abs_of_pos hC]; exact ⟨hc.low, hc.high⟩)).mul (by rw [abs_of_pos hA]; exact ha.low) (by rw [abs_of_pos hA]; exact ha.high)
  obtain ⟨r, g⟩ := h0.rnd (by norm_num) (by norm_num)
  refine ⟨_, finite_mul hc.fin.neg ha.fin g, ?_, ?_⟩
  · obtain ⟨θ, e, t1, -⟩ := r
    have hθ : 0 < θ := lt_of_lt_of_le (pow_pos u24_pos 1) t1
    rw [e]
    have := mul_pos hC hA
    exact mul_neg_of_neg_of_pos (by linarith) hθ
  · have := r.err (1 / 2 ^ 24) (by norm_num) (by norm_num)
    rw [show |(-C * A)| = C * A by rw [neg_mul, abs_neg, abs_of_pos (mul_pos hC hA)]] at this
    rwa [show f32.rnd (-C * A) - -C * A = f32.rnd (-C * A) + C * A by ring] at this

/-- Without interest or dividends the forward is the quote exactly; -/
theorem C170_flat {s : Fl} {S : ℚ} (hs : Quote s S) : ∃ x, f32.Finite (forwardF s (f32.lit 1) (f32.lit 1) (f32.lit 1)) x ∧ x = S := by
  have one : f32.Finite (f32.lit 1) 1 := by
    have := finite_of f32 false 1 (by rw [abs_one]; decide +kernel)
    rwa [show f32.rnd 1 = 1 by decide +kernel] at this
  have h1 : f32.Finite (f32.mul s (f32.lit 1)) S := by
    have := finite_mul hs.fin one (by rw [mul_one]; exact hs.fin.le)
    rwa [mul_one, rnd_rep f32 hs.fin.rep] at this
  have h2 : f32.Finite (f32.div (f32.mul s (f32.lit 1)) (f32.lit 1)) S := by
    have := finite_div h1 one one_ne_zero (by rw [div_one]; exact hs.fin.le)
    rwa [div_one, rnd_rep f32 hs.fin.rep] at this
  have h3 := finite_mul h2 one (by rw [mul_one]; exact hs.fin.le)
  rw [mul_one, rnd_rep f32 hs.fin.rep] at h3
  exact ⟨S, h3, rfl⟩

/-- with the same curve for borrowing and collateral it need not be: a quote of 101 with discount factor 0.9 gives 100.99999. -/
theorem fault_not_the_quote : forwardF (f32.lit 101) (f32.lit (9 / 10)) (f32.lit (9 / 10)) (f32.lit 1) = .fin false (13238271 / 131072) ∧ (13238271 / 131072 : ℚ) < 101 := by
  constructor
  · decide +kernel
  · norm_num

/-- Numbers in the ranges -/
theorem forward_witness : (∃ x, Quote (f32.lit 350) x) ∧ (∃ x, Factor (f32.lit (97 / 100)) x) ∧ (∃ x, Unit' (f32.lit 250000) x) := by
  have key : ∀ q : ℚ, |q| ≤ f32.maxFin → f32.Finite (f32.lit q) (f32.rnd q) := fun q h => finite_of f32 false q h
  refine ⟨⟨_, key 350 (by decide +kernel), ?_, ?_⟩, ⟨_, key (97 / 100) (by decide +kernel), ?_, ?_⟩, ⟨_, key 250000 (by decide +kernel), ?_, ?_⟩⟩ <;> decide +kernel

end Verif.Props

import Verif.Float.Sums
import Verif.Props.FloatGreeks
/-!
# C165: bonds and swaps in single precision, whatever the order of their cash flows
-/
set_option autoImplicit false
namespace Verif.Props
open Verif Verif.Float

/-! ## Specification -/

/-- A cash flow and its discount factor as numbers: the amount zero or of a size between `2^-60` and `2^60`, the discount factor between `2^-40` and `2^10` -/
structure FlowOf (p : Fl × Fl) (q : ℚ × ℚ) : Prop where
  amount : f32.Finite p.1 q.1
  factor : f32.Finite p.2 q.2
  size : Between (-60) 60 q.1
  low : (2 : ℚ) ^ (-40 : Int) ≤ q.2
  high : q.2 ≤ (2 : ℚ) ^ (10 : Int)

/-- The exact sum of the discounted amounts -/
def legSum (l : List (ℚ × ℚ)) : ℚ := (l.map fun q => q.1 * q.2).sum

/-- The sum of their sizes: the same if no amount is negative -/
def legSize (l : List (ℚ × ℚ)) : ℚ := (l.map fun q => |q.1 * q.2|).sum

/-! ## Accuracy of the sum -/

theorem legSize_nonneg (l : List (ℚ × ℚ)) : 0 ≤ legSize l := by
  induction l with
  | nil => simp [legSize]
  | cons q l ih =>
    have : legSize (q :: l) = |q.1 * q.2| + legSize l := by simp [legSize]
    rw [this]
    have := abs_nonneg (q.1 * q.2)
    linarith

theorem legSum_perm {l l' : List (ℚ × ℚ)} (h : l.Perm l') : legSum l = legSum l' := (h.map _).sum_eq

theorem legSize_perm {l l' : List (ℚ × ℚ)} (h : l.Perm l') : legSize l = legSize l' := (h.map _).sum_eq

theorem legSize_eq (l : List (ℚ × ℚ)) (h : ∀ q ∈ l, 0 ≤ q.1 * q.2) : legSize l = legSum l := by
  unfold legSize legSum
  congr 1
  exact List.map_congr_left fun q hq => abs_of_nonneg (h q hq)

/-- The growth of the error -/
abbrev growth (k : Nat) : ℚ := (1 + u24) ^ k

theorem growth_one (k : Nat) : 1 ≤ growth k := one_le_pow₀ (by norm_num)

theorem growth_small (k : Nat) (h : k ≤ 4000) : growth k ≤ 1 + (k + 1) * u24 ∧ growth k ≤ 2 := by
  have key : ∀ n : Nat, n ≤ 4000 → growth n * (1 - n * u24) ≤ 1 := by
    intro n
    induction n with
    | zero => intro _; simp
    | succ n ih =>
      intro hn
      have := ih (by omega)
      have hp : 0 < growth n := lt_of_lt_of_le one_pos (growth_one n)
      have hnn : (0 : ℚ) ≤ n := by positivity
      have e : (1 + u24) * (1 - ((n + 1 : Nat) : ℚ) * u24) ≤ 1 - n * u24 := by
        push_cast
        norm_num
        linarith
      show (1 + u24) ^ (n + 1) * _ ≤ 1
      rw [pow_succ]
      calc (1 + u24) ^ n * (1 + u24) * (1 - ((n + 1 : Nat) : ℚ) * u24) = (1 + u24) ^ n * ((1 + u24) * (1 - ((n + 1 : Nat) : ℚ) * u24)) := by ring
        _ ≤ (1 + u24) ^ n * (1 - n * u24) := mul_le_mul_of_nonneg_left e hp.le
        _ ≤ 1 := this
  have h1 := key k h
  have hk : (k : ℚ) ≤ 4000 := by exact_mod_cast h
  have hk0 : (0 : ℚ) ≤ k := by positivity
  have hp : 0 < growth k := lt_of_lt_of_le one_pos (growth_one k)
  have e : 1 ≤ (1 + (k + 1) * u24) * (1 - k * u24) := by
    have : (1 + (k + 1) * u24) * (1 - k * u24) = 1 + u24 * (1 - k * (k + 1) * u24) := by ring
    rw [this]
    have h2 : (k : ℚ) * (k + 1) ≤ 4000 * 4001 := mul_le_mul hk (by linarith) (by linarith) (by norm_num)
    have h3 : (k : ℚ) * (k + 1) * u24 ≤ 1 := by
      have := mul_le_mul_of_nonneg_right h2 (by norm_num : (0 : ℚ) ≤ u24)
      refine this.trans (by norm_num)
    have : 0 ≤ u24 * (1 - k * (k + 1) * u24) := mul_nonneg (by norm_num) (by linarith)
    linarith
  have d : (1 : ℚ) / 2 ≤ 1 - k * u24 := by
    have := mul_le_mul_of_nonneg_right hk (by norm_num : (0 : ℚ) ≤ u24)
    have : (4000 : ℚ) * u24 ≤ 1 / 2 := by norm_num
    linarith
  have first : growth k ≤ 1 + (k + 1) * u24 := by
    by_contra hn
    push Not at hn
    have : (1 + (k + 1) * u24) * (1 - k * u24) < growth k * (1 - k * u24) := mul_lt_mul_of_pos_right hn (lt_of_lt_of_le (by norm_num) d)
    linarith
  refine ⟨first, first.trans ?_⟩
  have := mul_le_mul_of_nonneg_right (show (k : ℚ) + 1 ≤ 4001 by linarith) (by norm_num : (0 : ℚ) ≤ u24)
  have : (4001 : ℚ) * u24 ≤ 1 := by norm_num
  linarith

/-- One more cash flow -/
theorem leg_step {s : Fl} {v S A : ℚ} {k : Nat} (hk : k + 1 ≤ 4000) (hs : f32.Finite s v) (he : |v - S| ≤ (growth k - 1) * A) (hS : |S| ≤ A)
    (hA : A ≤ k * 2 ^ 70) (k1 : 1 ≤ k) {p : Fl × Fl} {q : ℚ × ℚ} (h : FlowOf p q) :
    ∃ w, f32.Finite (f32.add s (f32.mul p.1 p.2)) w ∧ |w - (S + q.1 * q.2)| ≤ (growth (k + 1) - 1) * (A + |q.1 * q.2|) ∧ |q.1 * q.2| ≤ 2 ^ 70 := by
  have dpos : 0 < q.2 := (pow2_pos _).trans_le h.low
  have ab : |q.2| = q.2 := abs_of_pos dpos
  have b := h.size.mul (by rw [ab]; exact h.low) (by rw [ab]; exact h.high)
  obtain ⟨r1, r2⟩ := b.rnd (by norm_num) (by norm_num)
  have hm := finite_mul h.amount h.factor r2
  have size : |q.1 * q.2| ≤ 2 ^ 70 := by
    rcases b with b | ⟨-, b⟩
    · rw [b, abs_zero]; positivity
    · refine b.trans (le_of_eq (by norm_num))
  have em : |f32.rnd (q.1 * q.2) - q.1 * q.2| ≤ u24 * |q.1 * q.2| := r1.err u24 (by rw [pow_one]) (by rw [pow_one])
  generalize hx : q.1 * q.2 = x at *
  generalize hy : f32.rnd x = y at *
  have hA0 : 0 ≤ A := (abs_nonneg _).trans hS
  obtain ⟨-, g2⟩ := growth_small k (by omega)
  have g1 := growth_one k
  have bv : |v| ≤ 2 * A := by
    have := mul_le_mul_of_nonneg_right (show growth k - 1 ≤ 1 by linarith) hA0
    have e : v = (v - S) + S := by ring
    rw [e]
    refine (abs_add_le _ _).trans ?_
    linarith
  have by' : |y| ≤ 2 * 2 ^ 70 := by
    have e : y = (y - x) + x := by ring
    rw [e]
    refine (abs_add_le _ _).trans ?_
    have : u24 * |x| ≤ 1 * |x| := mul_le_mul_of_nonneg_right (by norm_num) (abs_nonneg _)
    linarith
  have fit : |v + y| ≤ f32.maxFin := by
    refine le_f32_max ((abs_add_le _ _).trans ?_)
    have hk' : (k : ℚ) ≤ 4000 := by have : k ≤ 4000 := by omega
                                    exact_mod_cast this
    have : (k : ℚ) * 2 ^ 70 ≤ 4000 * 2 ^ 70 := mul_le_mul_of_nonneg_right hk' (by positivity)
    have : (2 : ℚ) * (4000 * 2 ^ 70) + 2 * 2 ^ 70 ≤ 2 ^ 100 := by norm_num
    linarith
  have ha := finite_add hs hm fit
  refine ⟨_, ha, ?_, size⟩
  have rs : Rel 1 (f32.rnd (v + y)) (v + y) := by
    have := rel_sub v (-y) hs.rep (rep_neg f32 hm.rep)
    rwa [sub_neg_eq_add] at this
  have es : |f32.rnd (v + y) - (v + y)| ≤ u24 * |v + y| := rs.err u24 (by rw [pow_one]) (by rw [pow_one])
  have bs : |v + y| ≤ growth k * A + (1 + u24) * |x| := by
    have e : v + y = (v - S) + S + ((y - x) + x) := by ring
    rw [e]
    have t1 := abs_add_le ((v - S) + S) ((y - x) + x)
    have t2 := abs_add_le (v - S) S
    have t3 := abs_add_le (y - x) x
    linarith
  have fin : |f32.rnd (v + y) - (S + x)| ≤ u24 * (growth k * A + (1 + u24) * |x|) + (growth k - 1) * A + u24 * |x| := by
    have e : f32.rnd (v + y) - (S + x) = (f32.rnd (v + y) - (v + y)) + (v - S) + (y - x) := by ring
    rw [e]
    have t1 := abs_add_le (f32.rnd (v + y) - (v + y) + (v - S)) (y - x)
    have t2 := abs_add_le (f32.rnd (v + y) - (v + y)) (v - S)
    have := mul_le_mul_of_nonneg_left bs (by norm_num : (0 : ℚ) ≤ u24)
    linarith
  refine fin.trans ?_
  have gk : 1 + u24 ≤ growth k := by
    calc (1 + u24 : ℚ) = (1 + u24) ^ 1 := by ring
      _ ≤ (1 + u24) ^ k := pow_le_pow_right₀ (by norm_num) k1
  have e : (growth (k + 1) - 1) * (A + |x|) = u24 * growth k * A + (growth k - 1) * A + ((growth k) * (1 + u24) - 1) * |x| := by
    show ((1 + u24) ^ (k + 1) - 1) * _ = _
    rw [pow_succ]
    ring
  rw [e]
  have hx0 := abs_nonneg x
  have : (u24 * (1 + u24) + u24) * |x| ≤ (growth k * (1 + u24) - 1) * |x| := by
    refine mul_le_mul_of_nonneg_right ?_ hx0
    nlinarith [show (0 : ℚ) < u24 by norm_num]
  linarith

theorem leg_run {fl : List (Fl × Fl)} {l : List (ℚ × ℚ)} (h : List.Forall₂ FlowOf fl l) : ∀ {s : Fl} {v S A : ℚ} {k : Nat}, 1 ≤ k → k + l.length ≤ 4000 →
    f32.Finite s v → |v - S| ≤ (growth k - 1) * A → |S| ≤ A → A ≤ k * 2 ^ 70 →
    ∃ w, f32.Finite (fl.foldl (fun s p => f32.add s (f32.mul p.1 p.2)) s) w ∧ |w - (S + legSum l)| ≤ (growth (k + l.length) - 1) * (A + legSize l) ∧
      A + legSize l ≤ (k + l.length) * 2 ^ 70 := by
  induction h with
  | nil =>
    intro s v S A k k1 hk hs he hS hA
    exact ⟨v, hs, by simpa [legSum, legSize] using he, by simpa [legSize] using hA⟩
  | @cons p q fl l hp _ ih =>
    intro s v S A k k1 hk hs he hS hA
    rw [List.length_cons] at hk
    obtain ⟨w, hw, ew, bw⟩ := leg_step (by omega) hs he hS hA k1 hp
    have hS' : |S + q.1 * q.2| ≤ A + |q.1 * q.2| := (abs_add_le _ _).trans (by linarith)
    obtain ⟨w', hw', ew', bw'⟩ := ih (k := k + 1) (by omega) (by omega) hw ew hS' (by push_cast; linarith)
    have e1 : legSum (q :: l) = q.1 * q.2 + legSum l := by simp [legSum]
    have e2 : legSize (q :: l) = |q.1 * q.2| + legSize l := by simp [legSize]
    refine ⟨w', hw', ?_, ?_⟩
    · rw [e1, e2, List.length_cons, show k + (l.length + 1) = k + 1 + l.length by omega, ← add_assoc, ← add_assoc A]
      exact ew'
    · rw [e2, ← add_assoc, List.length_cons]
      push_cast at bw' ⊢
      linarith

/-- The sum of the discounted amounts, in any order, is off by at most `n + 2` parts in `2^24` of their sizes. -/
theorem leg_value {fl : List (Fl × Fl)} {l : List (ℚ × ℚ)} (h : List.Forall₂ FlowOf fl l) (hn : l.length ≤ 3999) :
    ∃ v, f32.Finite (legF fl) v ∧ |v - legSum l| ≤ (l.length + 2) * u24 * legSize l ∧ legSize l ≤ (l.length + 1) * 2 ^ 70 := by
  obtain ⟨v, hv, ev, bv⟩ := leg_run h (s := f32.lit 0) (v := 0) (S := 0) (A := 0) (k := 1) (le_refl _) (by omega) f32_zero (by simp) (by simp) (by positivity)
  refine ⟨v, hv, ?_, ?_⟩
  · rw [zero_add, zero_add] at ev
    obtain ⟨g, -⟩ := growth_small (1 + l.length) (by omega)
    push_cast at g
    refine ev.trans (mul_le_mul_of_nonneg_right ?_ (legSize_nonneg l))
    linarith
  · push_cast at bv
    linarith

/-! ## C165 -/

/-- **C165.** However the map orders the cash flows, the value of a bond in single precision is a number and off from the exact sum, divided by the discount factor of the
pricing date, by at most `n + 4` parts in `2^24` of the (discounted) sizes of the `n` cash flows. -/
theorem C165_bond {fl : List (Fl × Fl)} {l : List (ℚ × ℚ)} (h : List.Forall₂ FlowOf fl l) (hn : l.length ≤ 3999) {d : Fl} {δ : ℚ} (hd : f32.Finite d δ)
    (d1 : (2 : ℚ) ^ (-10 : Int) ≤ δ) :
    ∃ v, f32.Finite (bondF fl d) v ∧ |v - legSum l / δ| ≤ (l.length + 4) * u24 * (legSize l / δ) + 2 ^ (-150 : Int) := by
  obtain ⟨v, hv, ev, bv⟩ := leg_value h hn
  have dpos : 0 < δ := (pow2_pos _).trans_le d1
  have hS : |legSum l| ≤ legSize l := by
    clear ev bv hv hn
    have : ∀ l : List (ℚ × ℚ), |legSum l| ≤ legSize l := by
      intro l
      induction l with
      | nil => simp [legSum, legSize]
      | cons q l ih =>
        have e1 : legSum (q :: l) = q.1 * q.2 + legSum l := by simp [legSum]
        have e2 : legSize (q :: l) = |q.1 * q.2| + legSize l := by simp [legSize]
        rw [e1, e2]
        exact (abs_add_le _ _).trans (by linarith)
    exact this l
  have hn' : (l.length : ℚ) ≤ 3999 := by exact_mod_cast hn
  have hn0 : (0 : ℚ) ≤ l.length := by positivity
  have z0 := legSize_nonneg l
  have small : (l.length + 2 : ℚ) * u24 ≤ 1 / 4 := by
    have := mul_le_mul_of_nonneg_right (show (l.length : ℚ) + 2 ≤ 4001 by linarith) (by norm_num : (0 : ℚ) ≤ u24)
    refine this.trans (by norm_num)
  have av : |v| ≤ 5 / 4 * legSize l := by
    have e : v = (v - legSum l) + legSum l := by ring
    rw [e]
    have r1 := mul_le_mul_of_nonneg_right small z0
    have r2 := abs_add_le (v - legSum l) (legSum l)
    have r3 := ev.trans r1
    linarith only [r2, r3, hS]
  have fit : |v / δ| ≤ f32.maxFin := by
    refine le_f32_max ?_
    rw [abs_div, abs_of_pos dpos, div_le_iff₀ dpos]
    have e1 : legSize l ≤ 4000 * 2 ^ 70 := bv.trans (mul_le_mul_of_nonneg_right (by linarith) (by positivity))
    have e2 : (2 : ℚ) ^ 100 * 2 ^ (-10 : Int) ≤ 2 ^ 100 * δ := mul_le_mul_of_nonneg_left d1 (by positivity)
    have e3 : (5 : ℚ) / 4 * (4000 * 2 ^ 70) ≤ 2 ^ 100 * 2 ^ (-10 : Int) := by norm_num
    exact (av.trans (mul_le_mul_of_nonneg_left e1 (by norm_num))).trans (e3.trans e2)
  have hq := finite_div hv hd dpos.ne' fit
  refine ⟨_, hq, ?_⟩
  obtain ⟨ε, η, e, b1, b2⟩ := f32_model (v / δ)
  have t0 : 0 ≤ legSize l / δ := div_nonneg z0 dpos.le
  have e1 : |v / δ - legSum l / δ| ≤ (l.length + 2) * u24 * (legSize l / δ) := by
    rw [← sub_div, abs_div, abs_of_pos dpos, ← mul_div_assoc]
    exact div_le_div_of_nonneg_right ev dpos.le
  have e2 : |v / δ| ≤ 5 / 4 * (legSize l / δ) := by
    rw [abs_div, abs_of_pos dpos, div_le_iff₀ dpos, mul_assoc, div_mul_cancel₀ _ dpos.ne']
    exact av
  have e3 : f32.rnd (v / δ) - legSum l / δ = v / δ * ε + η + (v / δ - legSum l / δ) := by rw [e]; ring
  rw [e3]
  have m1 : |v / δ * ε| ≤ 5 / 4 * (legSize l / δ) * u24 := by
    rw [abs_mul]
    exact mul_le_mul e2 b1 (abs_nonneg _) (by linarith)
  have t1 := abs_add_le (v / δ * ε + η) (v / δ - legSum l / δ)
  have t2 := abs_add_le (v / δ * ε) η
  have p0 : 0 ≤ u24 * (legSize l / δ) := mul_nonneg (by norm_num) t0
  have x1 : (l.length + 4 : ℚ) * u24 * (legSize l / δ) = (l.length + 2) * u24 * (legSize l / δ) + 2 * (u24 * (legSize l / δ)) := by ring
  have x2 : 5 / 4 * (legSize l / δ) * u24 = 5 / 4 * (u24 * (legSize l / δ)) := by ring
  rw [x1]
  rw [x2] at m1
  have t3 := t1.trans (add_le_add (t2.trans (add_le_add m1 b2)) e1)
  refine t3.trans ?_
  generalize u24 * (legSize l / δ) = a at p0
  generalize (l.length + 2 : ℚ) * u24 * (legSize l / δ) = b
  linarith only [p0]

/-- So two valuations of one bond in one market, whose maps order the cash flows differently, agree up to twice that, -/
theorem C165_order {fl fl' : List (Fl × Fl)} {l l' : List (ℚ × ℚ)} (h : List.Forall₂ FlowOf fl l) (h' : List.Forall₂ FlowOf fl' l') (hp : l.Perm l') (hn : l.length ≤ 3999)
    {d : Fl} {δ : ℚ} (hd : f32.Finite d δ) (d1 : (2 : ℚ) ^ (-10 : Int) ≤ δ) :
    ∃ v v', f32.Finite (bondF fl d) v ∧ f32.Finite (bondF fl' d) v' ∧ |v - v'| ≤ 2 * ((l.length + 4) * u24 * (legSize l / δ) + 2 ^ (-150 : Int)) := by
  obtain ⟨v, hv, ev⟩ := C165_bond h hn hd d1
  obtain ⟨v', hv', ev'⟩ := C165_bond h' (by rw [← hp.length_eq]; exact hn) hd d1
  refine ⟨v, v', hv, hv', ?_⟩
  rw [← hp.length_eq, ← legSum_perm hp, ← legSize_perm hp] at ev'
  have e : v - v' = (v - legSum l / δ) - (v' - legSum l / δ) := by ring
  rw [e]
  refine (abs_sub _ _).trans ?_
  linarith

/-- and exactly if there are no more than two of them. -/
theorem C165_two {p p' : Fl × Fl} {q q' : ℚ × ℚ} (h : FlowOf p q) (h' : FlowOf p' q') : ∃ v, f32.Finite (legF [p, p']) v ∧ f32.Finite (legF [p', p]) v := by
  have term : ∀ {p : Fl × Fl} {q : ℚ × ℚ}, FlowOf p q → f32.Finite (f32.mul p.1 p.2) (f32.rnd (q.1 * q.2)) ∧ |f32.rnd (q.1 * q.2)| ≤ 2 ^ 71 := by
    intro p q h
    have dpos : 0 < q.2 := (pow2_pos _).trans_le h.low
    have ab : |q.2| = q.2 := abs_of_pos dpos
    have b := h.size.mul (by rw [ab]; exact h.low) (by rw [ab]; exact h.high)
    obtain ⟨r1, r2⟩ := b.rnd (by norm_num) (by norm_num)
    refine ⟨finite_mul h.amount h.factor r2, ?_⟩
    have := (r1.le (by norm_num)).1
    have hs : |q.1 * q.2| ≤ 2 ^ 70 := by
      rcases b with b | ⟨-, b⟩
      · rw [b, abs_zero]; positivity
      · exact b.trans (le_of_eq (by norm_num))
    have : (2 : ℚ) ^ 71 = 2 ^ 70 * 2 := by norm_num
    linarith
  obtain ⟨a1, a2⟩ := term h
  obtain ⟨b1, b2⟩ := term h'
  have zero : ∀ {t : Fl} {y : ℚ}, f32.Finite t y → |y| ≤ 2 ^ 71 → f32.Finite (f32.add (f32.lit 0) t) y := by
    intro t y ht hy
    have := finite_add f32_zero ht (le_f32_max (by rw [zero_add]; exact hy.trans (by norm_num)))
    rwa [zero_add, rnd_rep f32 ht.rep] at this
  have fit : |f32.rnd (q.1 * q.2) + f32.rnd (q'.1 * q'.2)| ≤ f32.maxFin := le_f32_max ((abs_add_le _ _).trans (by
    have : (2 : ℚ) ^ 71 + 2 ^ 71 ≤ 2 ^ 100 := by norm_num
    linarith))
  refine ⟨_, finite_add (zero a1 a2) b1 fit, ?_⟩
  rw [add_comm]
  exact finite_add (zero b1 b2) a1 (by rw [add_comm]; exact fit)

/-! ### Monotonicity -/

/-- The same amounts, none negative, in the same order, with discount factors not lower -/
inductive Raised : List (Fl × Fl) → List (Fl × Fl) → List (ℚ × ℚ) → List (ℚ × ℚ) → Prop
  | nil : Raised [] [] [] []
  | cons {a d d' : Fl} {x δ δ' : ℚ} {fl fl' l l'} : FlowOf (a, d) (x, δ) → FlowOf (a, d') (x, δ') → 0 ≤ x → δ ≤ δ' → Raised fl fl' l l' →
      Raised ((a, d) :: fl) ((a, d') :: fl') ((x, δ) :: l) ((x, δ') :: l')

theorem Raised.left {fl fl' : List (Fl × Fl)} {l l' : List (ℚ × ℚ)} (h : Raised fl fl' l l') : List.Forall₂ FlowOf fl l ∧ List.Forall₂ FlowOf fl' l' := by
  induction h with
  | nil => exact ⟨.nil, .nil⟩
  | cons h1 h2 _ _ _ ih => exact ⟨.cons h1 ih.1, .cons h2 ih.2⟩

theorem raised_run {fl fl' : List (Fl × Fl)} {l l' : List (ℚ × ℚ)} (h : Raised fl fl' l l') : ∀ {s s' : Fl} {v v' S S' : ℚ} {k : Nat}, 1 ≤ k → k + l.length ≤ 4000 →
    f32.Finite s v → f32.Finite s' v' → |v - S| ≤ (growth k - 1) * S → |v' - S'| ≤ (growth k - 1) * S' → 0 ≤ S → 0 ≤ S' → S ≤ k * 2 ^ 70 → S' ≤ k * 2 ^ 70 → v ≤ v' →
    ∃ w w', f32.Finite (fl.foldl (fun s p => f32.add s (f32.mul p.1 p.2)) s) w ∧ f32.Finite (fl'.foldl (fun s p => f32.add s (f32.mul p.1 p.2)) s') w' ∧ w ≤ w' := by
  induction h with
  | nil =>
    intro s s' v v' S S' k _ _ hs hs' _ _ _ _ _ _ hv
    exact ⟨v, v', hs, hs', hv⟩
  | @cons a d d' x δ δ' fl fl' l l' h1 h2 hx hd _ ih =>
    intro s s' v v' S S' k k1 hk hs hs' he he' hS hS' hA hA' hv
    rw [List.length_cons] at hk
    obtain ⟨w, hw, ew, bw⟩ := leg_step (by omega) hs he (abs_of_nonneg hS).le hA k1 h1
    obtain ⟨w', hw', ew', bw'⟩ := leg_step (by omega) hs' he' (abs_of_nonneg hS').le hA' k1 h2
    have dpos : 0 < δ := (pow2_pos _).trans_le h1.low
    have p1 : |x * δ| = x * δ := abs_of_nonneg (mul_nonneg hx dpos.le)
    have p2 : |x * δ'| = x * δ' := abs_of_nonneg (mul_nonneg hx (dpos.le.trans hd))
    have n1 : 0 ≤ x * δ := mul_nonneg hx dpos.le
    have n2 : 0 ≤ x * δ' := mul_nonneg hx (dpos.le.trans hd)
    dsimp only at ew ew' bw bw'
    rw [p1] at ew bw
    rw [p2] at ew' bw'
    -- the values
    have val : ∀ {s d : Fl} {v δ : ℚ} {w : ℚ}, f32.Finite s v → FlowOf (a, d) (x, δ) → f32.Finite (f32.add s (f32.mul a d)) w → w = f32.rnd (v + f32.rnd (x * δ)) := by
      intro s d v δ w hs hf hw
      have dpos : 0 < δ := (pow2_pos _).trans_le hf.low
      have ab : |δ| = δ := abs_of_pos dpos
      have b := hf.size.mul (by show _ ≤ |δ|; rw [ab]; exact hf.low) (by show |δ| ≤ _; rw [ab]; exact hf.high)
      obtain ⟨-, r2⟩ := b.rnd (by norm_num) (by norm_num)
      have hm := finite_mul hf.amount hf.factor r2
      obtain ⟨b1, e1, -⟩ := hs
      obtain ⟨b2, e2, -⟩ := hm
      rw [e1, show f32.mul a d = _ from e2] at hw
      exact of_finite f32 _ _ _ hw
    have le : w ≤ w' := by
      rw [val hs h1 hw, val hs' h2 hw']
      have : f32.rnd (x * δ) ≤ f32.rnd (x * δ') := rnd_mono f32 (mul_le_mul_of_nonneg_left hd hx)
      exact rnd_mono f32 (by linarith)
    exact ih (k := k + 1) (S := S + x * δ) (S' := S' + x * δ') (by omega) (by omega) hw hw' ew ew' (by linarith) (by linarith) (by push_cast; linarith) (by push_cast; linarith) le

/-- In one and the same order the value never falls when discount factors rise (that of the pricing date being the same), to the last bit. -/
theorem C165_monotone {fl fl' : List (Fl × Fl)} {l l' : List (ℚ × ℚ)} (h : Raised fl fl' l l') (hn : l.length ≤ 3999) {d : Fl} {δ : ℚ} (hd : f32.Finite d δ)
    (d1 : (2 : ℚ) ^ (-10 : Int) ≤ δ) : (bondF fl d).le (bondF fl' d) = true := by
  obtain ⟨w, w', hw, hw', hle⟩ := raised_run h (s := f32.lit 0) (s' := f32.lit 0) (v := 0) (v' := 0) (S := 0) (S' := 0) (k := 1) (le_refl _) (by omega) f32_zero f32_zero (by simp)
    (by simp) (le_refl _) (le_refl _) (by positivity) (by positivity) (le_refl _)
  have hpos : PosF d := by
    have dpos : 0 < δ := (pow2_pos _).trans_le d1
    obtain ⟨s, e, -, -, -, h0⟩ := hd
    exact ⟨δ, by rw [e, h0 dpos], dpos⟩
  exact div_mono f32 hpos (by
    show (legF fl).le (legF fl') = true
    rw [finite_le (show f32.Finite (legF fl) w from hw) (show f32.Finite (legF fl') w' from hw')]
    exact decide_eq_true hle)

/-! ### Swaps -/

/-- A swap: each leg as above, the sum off by at most `n + m + 8` parts in `2^24` of the sizes. -/
theorem C165_swap {fl fm : List (Fl × Fl)} {l m : List (ℚ × ℚ)} (h : List.Forall₂ FlowOf fl l) (h' : List.Forall₂ FlowOf fm m) (hn : l.length ≤ 1999) (hm : m.length ≤ 1999)
    {x : Fl} {ξ : ℚ} (hx : f32.Finite x ξ) (x0 : 0 ≤ ξ) (x2 : ξ ≤ 2 ^ 14) :
    ∃ v, f32.Finite (swapF fl fm x) v ∧
      |v - (legSum l + legSum m * ξ)| ≤ (l.length + m.length + 8) * u24 * (legSize l + legSize m * ξ) + 2 ^ (-149 : Int) := by
  obtain ⟨v, hv, ev, bv⟩ := leg_value h (by omega)
  obtain ⟨w, hw, ew, bw⟩ := leg_value h' (by omega)
  have sum_le : ∀ l : List (ℚ × ℚ), |legSum l| ≤ legSize l := by
    intro l
    induction l with
    | nil => simp [legSum, legSize]
    | cons q l ih =>
      have e1 : legSum (q :: l) = q.1 * q.2 + legSum l := by simp [legSum]
      have e2 : legSize (q :: l) = |q.1 * q.2| + legSize l := by simp [legSize]
      rw [e1, e2]
      exact (abs_add_le _ _).trans (by linarith)
  have c1 : (l.length : ℚ) ≤ 1999 := by exact_mod_cast hn
  have c2 : (m.length : ℚ) ≤ 1999 := by exact_mod_cast hm
  have c3 : (0 : ℚ) ≤ l.length := by positivity
  have c4 : (0 : ℚ) ≤ m.length := by positivity
  have z1 := legSize_nonneg l
  have z2 := legSize_nonneg m
  have s1 := sum_le l
  have s2 := sum_le m
  have u0 : (0 : ℚ) < u24 := by norm_num
  have u1 : (2001 : ℚ) * u24 ≤ 1 / 4 := by norm_num
  -- sizes of the legs as computed
  have av : |v| ≤ 5 / 4 * legSize l := by
    have e : v = (v - legSum l) + legSum l := by ring
    rw [e]
    have t := abs_add_le (v - legSum l) (legSum l)
    have r : (l.length + 2 : ℚ) * u24 * legSize l ≤ 1 / 4 * legSize l := by
      refine mul_le_mul_of_nonneg_right ?_ z1
      exact (mul_le_mul_of_nonneg_right (show (l.length + 2 : ℚ) ≤ 2001 by linarith only [c1]) u0.le).trans u1
    linarith only [t, ev.trans r, s1]
  have aw : |w| ≤ 5 / 4 * legSize m := by
    have e : w = (w - legSum m) + legSum m := by ring
    rw [e]
    have t := abs_add_le (w - legSum m) (legSum m)
    have r : (m.length + 2 : ℚ) * u24 * legSize m ≤ 1 / 4 * legSize m := by
      refine mul_le_mul_of_nonneg_right ?_ z2
      exact (mul_le_mul_of_nonneg_right (show (m.length + 2 : ℚ) ≤ 2001 by linarith only [c2]) u0.le).trans u1
    linarith only [t, ew.trans r, s2]
  have b1 : legSize l ≤ 2000 * 2 ^ 70 := bv.trans (mul_le_mul_of_nonneg_right (by linarith) (by positivity))
  have b2 : legSize m ≤ 2000 * 2 ^ 70 := bw.trans (mul_le_mul_of_nonneg_right (by linarith) (by positivity))
  have awx : |w * ξ| ≤ 5 / 4 * (legSize m * ξ) := by
    rw [abs_mul, abs_of_nonneg x0]
    have := mul_le_mul_of_nonneg_right aw x0
    linarith
  have zx : 0 ≤ legSize m * ξ := mul_nonneg z2 x0
  have bx : legSize m * ξ ≤ 2000 * 2 ^ 70 * 2 ^ 14 := mul_le_mul b2 x2 x0 (by positivity)
  have fitm : |w * ξ| ≤ f32.maxFin := le_f32_max (awx.trans (by
    have : (5 : ℚ) / 4 * (2000 * 2 ^ 70 * 2 ^ 14) ≤ 2 ^ 100 := by norm_num
    linarith))
  have hmul := finite_mul hw hx fitm
  obtain ⟨ε, η, e, k1, k2⟩ := f32_model (w * ξ)
  have em : |f32.rnd (w * ξ) - w * ξ| ≤ 5 / 4 * (legSize m * ξ) * u24 + 2 ^ (-150 : Int) := by
    have : f32.rnd (w * ξ) - w * ξ = w * ξ * ε + η := by rw [e]; ring
    rw [this]
    refine (abs_add_le _ _).trans ?_
    have : |w * ξ * ε| ≤ 5 / 4 * (legSize m * ξ) * u24 := by
      rw [abs_mul]
      exact mul_le_mul awx k1 (abs_nonneg _) (by linarith)
    exact add_le_add this k2
  generalize hy : f32.rnd (w * ξ) = y at *
  have tiny : (2 : ℚ) ^ (-150 : Int) ≤ 1 := by norm_num
  have ay : |y| ≤ 2 * (legSize m * ξ) + 2 ^ (-150 : Int) := by
    have e : y = (y - w * ξ) + w * ξ := by ring
    rw [e]
    refine (abs_add_le _ _).trans ?_
    have r : 5 / 4 * (legSize m * ξ) * u24 ≤ 5 / 4 * (legSize m * ξ) * (3 / 5) := mul_le_mul_of_nonneg_left (by norm_num) (by linarith only [zx])
    refine (add_le_add (em.trans (add_le_add r (le_refl _))) awx).trans (le_of_eq ?_)
    ring
  have fit : |v + y| ≤ f32.maxFin := by
    refine le_f32_max ((abs_add_le _ _).trans ?_)
    have : (5 : ℚ) / 4 * (2000 * 2 ^ 70) + 2 * (2000 * 2 ^ 70 * 2 ^ 14) + 1 ≤ 2 ^ 100 := by norm_num
    linarith
  have ha := finite_add hv hmul fit
  refine ⟨_, ha, ?_⟩
  have rs : Rel 1 (f32.rnd (v + y)) (v + y) := by
    have := rel_sub v (-y) hv.rep (rep_neg f32 hmul.rep)
    rwa [sub_neg_eq_add] at this
  have es : |f32.rnd (v + y) - (v + y)| ≤ u24 * |v + y| := rs.err u24 (by rw [pow_one]) (by rw [pow_one])
  have bs : |v + y| ≤ 5 / 4 * legSize l + 2 * (legSize m * ξ) + 2 ^ (-150 : Int) := (abs_add_le _ _).trans (by
    refine (add_le_add av ay).trans (le_of_eq ?_)
    ring)
  have ewx : |w * ξ - legSum m * ξ| ≤ (m.length + 2) * u24 * (legSize m * ξ) := by
    rw [← sub_mul, abs_mul, abs_of_nonneg x0]
    refine (mul_le_mul_of_nonneg_right ew x0).trans (le_of_eq ?_)
    ring
  have fin : f32.rnd (v + y) - (legSum l + legSum m * ξ) = (f32.rnd (v + y) - (v + y)) + (v - legSum l) + (y - w * ξ) + (w * ξ - legSum m * ξ) := by ring
  rw [fin]
  have t1 := abs_add_le (f32.rnd (v + y) - (v + y) + (v - legSum l) + (y - w * ξ)) (w * ξ - legSum m * ξ)
  have t2 := abs_add_le (f32.rnd (v + y) - (v + y) + (v - legSum l)) (y - w * ξ)
  have t3 := abs_add_le (f32.rnd (v + y) - (v + y)) (v - legSum l)
  have t4 := mul_le_mul_of_nonneg_left bs u0.le
  have p1 : (0 : ℚ) ≤ u24 * legSize l := mul_nonneg u0.le z1
  have p2 : (0 : ℚ) ≤ u24 * (legSize m * ξ) := mul_nonneg u0.le zx
  have q1 : (0 : ℚ) ≤ m.length * (u24 * legSize l) := mul_nonneg c4 p1
  have q2 : (0 : ℚ) ≤ l.length * (u24 * (legSize m * ξ)) := mul_nonneg c3 p2
  have pt : u24 * (2 : ℚ) ^ (-150 : Int) + 2 ^ (-150 : Int) ≤ 2 ^ (-149 : Int) := by norm_num
  have expand : (l.length + m.length + 8 : ℚ) * u24 * (legSize l + legSize m * ξ) =
      l.length * (u24 * legSize l) + m.length * (u24 * legSize l) + 8 * (u24 * legSize l) + l.length * (u24 * (legSize m * ξ)) + m.length * (u24 * (legSize m * ξ)) +
        8 * (u24 * (legSize m * ξ)) := by ring
  rw [expand]
  have g1 : (l.length + 2 : ℚ) * u24 * legSize l = l.length * (u24 * legSize l) + 2 * (u24 * legSize l) := by ring
  have g2 : (m.length + 2 : ℚ) * u24 * (legSize m * ξ) = m.length * (u24 * (legSize m * ξ)) + 2 * (u24 * (legSize m * ξ)) := by ring
  have g3 : 5 / 4 * (legSize m * ξ) * u24 = 5 / 4 * (u24 * (legSize m * ξ)) := by ring
  have g4 : u24 * (5 / 4 * legSize l + 2 * (legSize m * ξ) + 2 ^ (-150 : Int)) = 5 / 4 * (u24 * legSize l) + 2 * (u24 * (legSize m * ξ)) + u24 * 2 ^ (-150 : Int) := by ring
  rw [g1] at ev
  rw [g2] at ewx
  rw [g3] at em
  rw [g4] at t4
  have es' := es.trans t4
  generalize u24 * (2 : ℚ) ^ (-150 : Int) = o1 at *
  generalize (2 : ℚ) ^ (-150 : Int) = o2 at *
  generalize (2 : ℚ) ^ (-149 : Int) = o3 at *
  generalize (l.length : ℚ) * (u24 * legSize l) = r1 at *
  generalize (m.length : ℚ) * (u24 * (legSize m * ξ)) = r2 at *
  generalize (m.length : ℚ) * (u24 * legSize l) = r3 at *
  generalize (l.length : ℚ) * (u24 * (legSize m * ξ)) = r4 at *
  generalize u24 * legSize l = r5 at *
  generalize u24 * (legSize m * ξ) = r6 at *
  linarith only [es', t1, t2, t3, ev, ewx, em, q1, q2, p1, p2, pt]

/-! ### A three-year bond -/

/-- Three per cent once a year for three years, discounted with 0.97, 0.94 and 0.91 -/
def threeYears : List (Fl × Fl) := [(f32.lit (3 / 100), f32.lit (97 / 100)), (f32.lit (3 / 100), f32.lit (94 / 100)), (f32.lit (103 / 100), f32.lit (91 / 100))]

/-- The same cash flows as another map gives them -/
def threeYears' : List (Fl × Fl) := [(f32.lit (103 / 100), f32.lit (91 / 100)), (f32.lit (3 / 100), f32.lit (97 / 100)), (f32.lit (3 / 100), f32.lit (94 / 100))]

/-- The two orders give different values of one bond in one market; as the rho by tenor of a tenor that does not touch the bond (the curve at its cash flows being the
same), 10 billion of it get a rho of about 596, and of about -596 the other way round, instead of 0. -/
theorem fault_order : threeYears.Perm threeYears' ∧ (bondF threeYears' (f32.lit 1)).lt (bondF threeYears (f32.lit 1)) = true ∧
    (f32.lit 596).lt (slopeF rhoUnitF (bondF threeYears (f32.lit 1)) (bondF threeYears' (f32.lit 1)) (f32.lit (1 / 10000)) (f32.lit 10000000000)) = true ∧
    (slopeF rhoUnitF (bondF threeYears' (f32.lit 1)) (bondF threeYears (f32.lit 1)) (f32.lit (1 / 10000)) (f32.lit 10000000000)).lt (f32.lit (-596)) = true := by
  refine ⟨?_, by decide +kernel, by decide +kernel, by decide +kernel⟩
  decide +kernel

/-- The three-year bond meets the hypotheses: its flows are numbers of the sizes asked for (and so does the other order) -/
theorem flowOf_lit {a d : ℚ} (a1 : (1 : ℚ) / 64 ≤ a) (a2 : a ≤ 64) (d1 : (1 : ℚ) / 64 ≤ d) (d2 : d ≤ 64) :
    FlowOf (f32.lit a, f32.lit d) (f32.rnd a, f32.rnd d) := by
  have lo : ∀ x : ℚ, (1 : ℚ) / 64 ≤ x → (1 : ℚ) / 64 ≤ f32.rnd x := fun x h => by
    have r : f32.Rep (1 / 64 : ℚ) := ⟨1, -6, by decide, by decide, by norm_num⟩
    have := rnd_mono f32 h
    rwa [rnd_rep f32 r] at this
  have hi : ∀ x : ℚ, x ≤ 64 → f32.rnd x ≤ 64 := fun x h => by
    have r : f32.Rep (64 : ℚ) := ⟨64, 0, by decide, by decide, by norm_num⟩
    have := rnd_mono f32 h
    rwa [rnd_rep f32 r] at this
  have fin : ∀ x : ℚ, (1 : ℚ) / 64 ≤ x → x ≤ 64 → f32.Finite (f32.lit x) (f32.rnd x) := fun x h1 h2 =>
    f32_lit_value x (by rw [abs_of_nonneg (by linarith)]; exact h2.trans (by norm_num))
  have pos : 0 < f32.rnd a := lt_of_lt_of_le (by norm_num) (lo a a1)
  refine ⟨fin a a1 a2, fin d d1 d2, Or.inr ⟨?_, ?_⟩, ?_, ?_⟩
  · show _ ≤ |f32.rnd a|
    rw [abs_of_pos pos]
    exact le_trans (by norm_num) (lo a a1)
  · show |f32.rnd a| ≤ _
    rw [abs_of_pos pos]
    exact (hi a a2).trans (by norm_num)
  · exact le_trans (by norm_num) (lo d d1)
  · exact (hi d d2).trans (by norm_num)

/-- So its value, in any order, is off by at most 7 parts in 16777216 of the bond -/
example : ∃ v v', f32.Finite (bondF threeYears (f32.lit 1)) v ∧ f32.Finite (bondF threeYears' (f32.lit 1)) v' ∧ v' < v ∧
    ∃ l : List (ℚ × ℚ), List.Forall₂ FlowOf threeYears l ∧ |v - v'| ≤ 2 * ((3 + 4) * u24 * (legSize l / 1) + 2 ^ (-150 : Int)) := by
  have c1 : FlowOf (f32.lit (3 / 100), f32.lit (97 / 100)) _ := flowOf_lit (by norm_num) (by norm_num) (by norm_num) (by norm_num)
  have c2 : FlowOf (f32.lit (3 / 100), f32.lit (94 / 100)) _ := flowOf_lit (by norm_num) (by norm_num) (by norm_num) (by norm_num)
  have c3 : FlowOf (f32.lit (103 / 100), f32.lit (91 / 100)) _ := flowOf_lit (by norm_num) (by norm_num) (by norm_num) (by norm_num)
  have h : List.Forall₂ FlowOf threeYears [_, _, _] := .cons c1 (.cons c2 (.cons c3 .nil))
  have h' : List.Forall₂ FlowOf threeYears' [_, _, _] := .cons c3 (.cons c1 (.cons c2 .nil))
  have perm : ∀ a b c : ℚ × ℚ, List.Perm [a, b, c] [c, a, b] := fun a b c => by
    have := (List.perm_append_comm (l₁ := [a, b]) (l₂ := [c])); simpa using this
  obtain ⟨v, v', hv, hv', e⟩ := C165_order h h' (perm _ _ _) (by simp) f32_one (by norm_num)
  refine ⟨v, v', hv, hv', ?_, _, h, by simpa using e⟩
  have := fault_order.2.1
  rw [finite_lt hv' hv] at this
  exact of_decide_eq_true this

end Verif.Props

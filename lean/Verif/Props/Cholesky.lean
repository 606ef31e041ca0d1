import Verif.QL.Cholesky
import Mathlib.Algebra.BigOperators.Group.Finset.Basic
import Mathlib.Algebra.BigOperators.Ring.Finset
import Mathlib.Algebra.Order.BigOperators.Group.Finset
import Mathlib.Algebra.Order.Ring.Rat
import Mathlib.Analysis.Real.Sqrt
import Mathlib.Tactic.Ring
import Mathlib.Tactic.Linarith
import Mathlib.Tactic.LinearCombination
import Mathlib.Tactic.NormNum

/-! # C49: the Cholesky factor reproduces the matrix -/

set_option autoImplicit false
set_option linter.unusedSectionVars false

namespace Verif.Props

open Verif Verif.QL Finset

variable {K : Type} [Field K] [LinearOrder K] [IsStrictOrderedRing K]

/-! ## Specification -/

/-- `sq` is the positive square root of positive numbers. -/
def IsRoot (sq : K → K) : Prop := ∀ x, 0 < x → 0 < sq x ∧ sq x * sq x = x

/-- The leading `n × n` block is positive definite. -/
def PosDef (n : Nat) (a : Nat → Nat → K) : Prop :=
  ∀ x : Nat → K, (∃ i < n, x i ≠ 0) → 0 < ∑ i ∈ range n, ∑ j ∈ range n, x i * a i j * x j

/-- Symmetric `n × n` block. -/
def SymmetricM (n : Nat) (a : Nat → Nat → K) : Prop := ∀ i j, i < n → j < n → a i j = a j i

/-- `l` is a Cholesky factor of the `n × n` block of `a`: lower triangular, positive diagonal, `l lᵀ = a`. -/
def IsFactor (n : Nat) (a l : Nat → Nat → K) : Prop :=
  (∀ i j, i < n → j < n → i < j → l i j = 0) ∧ (∀ i, i < n → 0 < l i i) ∧
  ∀ i j, i < n → j < n → ∑ k ∈ range n, l i k * l j k = a i j

/-! ## Invariant of the loops -/

theorem dotLoop_sum (l : Nat → Nat → K) (i j m : Nat) : dotLoop l i j m = ∑ k ∈ range m, l i k * l j k := by
  induction m with
  | zero => rfl
  | succ m ih => rw [dotLoop, sum_range_succ, ih]

/-- The entries computed before `(i, j)`. -/
def CellDone (i j p q : Nat) : Prop := q ≤ p ∧ (p < i ∨ p = i ∧ q < j)

def CholInv (a : Nat → Nat → K) (i j : Nat) (l : Nat → Nat → K) : Prop :=
  (∀ p q, CellDone i j p q → ∑ k ∈ range (q + 1), l p k * l q k = a p q) ∧
  (∀ p, CellDone i j p p → 0 < l p p) ∧
  (∀ p q, ¬ CellDone i j p q → l p q = 0)

theorem chol_set (a : Nat → Nat → K) (i j : Nat) (hj : j ≤ i) (l : Nat → Nat → K) (h : CholInv a i j l) (v : K)
    (hv : ∑ k ∈ range j, l i k * l j k + v * (if i = j then v else l j j) = a i j) (hp : i = j → 0 < v) :
    CholInv a i (j + 1) (setEntry l i j v) := by
  obtain ⟨h1, h2, h3⟩ := h
  have keep : ∀ p q, CellDone i j p q → ∀ k ≤ q, setEntry l i j v p k = l p k := by
    intro p q hd k hk
    unfold setEntry
    rw [if_neg]
    unfold CellDone at hd
    omega
  have keep' : ∀ p q, CellDone i j p q → ∀ k ≤ q, setEntry l i j v q k = l q k := by
    intro p q hd k hk
    unfold setEntry
    rw [if_neg]
    unfold CellDone at hd
    omega
  have cases' : ∀ p q, CellDone i (j + 1) p q → CellDone i j p q ∨ p = i ∧ q = j := by
    intro p q hd
    unfold CellDone at *
    omega
  refine ⟨?_, ?_, ?_⟩
  · intro p q hd
    rcases cases' p q hd with hd | ⟨rfl, rfl⟩
    · rw [← h1 p q hd]
      refine sum_congr rfl fun k hk => ?_
      have hk : k ≤ q := by simp at hk; omega
      rw [keep p q hd k hk, keep' p q hd k hk]
    · rw [sum_range_succ, ← hv]
      congr 1
      · refine sum_congr rfl fun k hk => ?_
        have hk : k < q := by simpa using hk
        unfold setEntry
        rw [if_neg (by omega), if_neg (by omega)]
      · unfold setEntry
        rw [if_pos ⟨rfl, rfl⟩]
        by_cases e : p = q
        · subst e; simp
        · rw [if_neg (by omega), if_neg e]
  · intro p hd
    rcases cases' p p hd with hd | ⟨rfl, e⟩
    · rw [keep p p hd p (le_refl _)]
      exact h2 p hd
    · subst e
      unfold setEntry
      rw [if_pos ⟨rfl, rfl⟩]
      exact hp rfl
  · intro p q hd
    unfold setEntry
    rw [if_neg, h3]
    · unfold CellDone at *; omega
    · unfold CellDone at hd; omega

/-- One entry. -/
theorem cholCell_inv (sq : K → K) (hsq : IsRoot sq) (a : Nat → Nat → K) (i j : Nat) (hj : j ≤ i) (l : Nat → Nat → K)
    (h : CholInv a i j l) :
    (∃ l', cholCell sq a i j l = .ok l' ∧ CholInv a i (j + 1) l') ∨
    (cholCell sq a i j l = .error .err ∧ i = j ∧ a i i ≤ ∑ k ∈ range i, l i k * l i k) := by
  unfold cholCell
  rw [dotLoop_sum]
  by_cases e : i = j
  · subst e
    rw [if_pos rfl]
    by_cases hd : a i i - ∑ k ∈ range i, l i k * l i k ≤ 0
    · rw [if_pos hd]
      exact .inr ⟨rfl, rfl, by linarith⟩
    · rw [if_neg hd]
      obtain ⟨r1, r2⟩ := hsq _ (not_le.1 hd)
      exact .inl ⟨_, rfl, chol_set a i i (le_refl _) l h _ (by rw [if_pos rfl, r2]; ring) fun _ => r1⟩
  · rw [if_neg e]
    have hpos : 0 < l j j := h.2.1 j (by unfold CellDone; omega)
    unfold divK
    rw [if_neg (ne_of_gt hpos), Res.bind_ok]
    refine .inl ⟨_, rfl, chol_set a i j hj l h _ ?_ fun h => absurd h e⟩
    rw [if_neg e, div_mul_cancel₀ _ (ne_of_gt hpos)]
    ring

/-- One row. -/
theorem cholRow_inv (sq : K → K) (hsq : IsRoot sq) (a : Nat → Nat → K) (i : Nat) (l : Nat → Nat → K)
    (h : CholInv a i 0 l) :
    (∃ l', cholRow sq a i l = .ok l' ∧ CholInv a (i + 1) 0 l') ∨
    (cholRow sq a i l = .error .err ∧ ∃ l', CholInv a i i l' ∧ a i i ≤ ∑ k ∈ range i, l' i k * l' i k) := by
  unfold cholRow
  have key : ∀ c j l, c + j = i + 1 → CholInv a i j l →
      (∃ l', loopRes (fun j l => cholCell sq a i j l) c j l = .ok l' ∧ CholInv a i (i + 1) l') ∨
      (loopRes (fun j l => cholCell sq a i j l) c j l = .error .err ∧
        ∃ l', CholInv a i i l' ∧ a i i ≤ ∑ k ∈ range i, l' i k * l' i k) := by
    intro c
    induction c with
    | zero =>
      intro j l e h
      have : j = i + 1 := by omega
      subst this
      exact .inl ⟨l, rfl, h⟩
    | succ c ih =>
      intro j l e h
      rw [loopRes]
      rcases cholCell_inv sq hsq a i j (by omega) l h with ⟨l', e1, h'⟩ | ⟨e1, e2, e3⟩
      · rw [e1, Res.bind_ok]
        exact ih (j + 1) l' (by omega) h'
      · subst e2
        rw [e1]
        exact .inr ⟨rfl, l, h, e3⟩
  rcases key (i + 1) 0 l (by omega) h with ⟨l', e, h1, h2, h3⟩ | h'
  · refine .inl ⟨l', e, ?_, ?_, ?_⟩
    · exact fun p q hd => h1 p q (by unfold CellDone at *; omega)
    · exact fun p hd => h2 p (by unfold CellDone at *; omega)
    · exact fun p q hd => h3 p q (by unfold CellDone at *; omega)
  · exact .inr h'

/-- All rows. -/
theorem chol_inv (sq : K → K) (hsq : IsRoot sq) (a : Nat → Nat → K) (n : Nat) :
    (∃ l, loopRes (cholRow sq a) n 0 (fun _ _ => 0) = .ok l ∧ CholInv a n 0 l) ∨
    (loopRes (cholRow sq a) n 0 (fun _ _ => 0) = .error .err ∧
      ∃ i l, i < n ∧ CholInv a i i l ∧ a i i ≤ ∑ k ∈ range i, l i k * l i k) := by
  have key : ∀ c i l, c + i = n → CholInv a i 0 l →
      (∃ l', loopRes (cholRow sq a) c i l = .ok l' ∧ CholInv a n 0 l') ∨
      (loopRes (cholRow sq a) c i l = .error .err ∧
        ∃ i l, i < n ∧ CholInv a i i l ∧ a i i ≤ ∑ k ∈ range i, l i k * l i k) := by
    intro c
    induction c with
    | zero =>
      intro i l e h
      have : i = n := by omega
      subst this
      exact .inl ⟨l, rfl, h⟩
    | succ c ih =>
      intro i l e h
      rw [loopRes]
      rcases cholRow_inv sq hsq a i l h with ⟨l', e1, h'⟩ | ⟨e1, l', e2⟩
      · rw [e1, Res.bind_ok]
        exact ih (i + 1) l' (by omega) h'
      · rw [e1]
        exact .inr ⟨rfl, i, l', by omega, e2⟩
  refine key n 0 _ (by omega) ⟨?_, ?_, fun _ _ _ => rfl⟩
  · intro p q hd; unfold CellDone at hd; omega
  · intro p hd; unfold CellDone at hd; omega

/-! ## From the invariant to the factor -/

theorem sum_cut (n m : Nat) (h : m ≤ n) (f : Nat → K) (hf : ∀ k, m ≤ k → k < n → f k = 0) :
    ∑ k ∈ range n, f k = ∑ k ∈ range m, f k := by
  symm
  refine sum_subset (fun x hx => ?_) fun x hx hx' => ?_
  · simp at *; omega
  · simp at *; exact hf x hx' hx

/-- The finished factor: lower triangle reproduced. -/
theorem inv_lower (a l : Nat → Nat → K) (n : Nat) (h : CholInv a n 0 l) (i j : Nat) (hi : i < n) (hj : j ≤ i) :
    ∑ k ∈ range n, l i k * l j k = a i j := by
  rw [← h.1 i j (by unfold CellDone; omega)]
  refine sum_cut n (j + 1) (by omega) _ fun k h1 h2 => ?_
  rw [h.2.2 j k (by unfold CellDone; omega), mul_zero]

/-- A quadratic form with a factor is a sum of squares. -/
theorem quad_factor (n : Nat) (a l : Nat → Nat → K) (h : ∀ i j, i < n → j < n → ∑ k ∈ range n, l i k * l j k = a i j)
    (x : Nat → K) :
    ∑ i ∈ range n, ∑ j ∈ range n, x i * a i j * x j = ∑ k ∈ range n, (∑ i ∈ range n, x i * l i k) ^ 2 := by
  have e : ∀ i ∈ range n, ∑ j ∈ range n, x i * a i j * x j
      = ∑ j ∈ range n, ∑ k ∈ range n, (x i * l i k) * (x j * l j k) := by
    intro i hi
    refine sum_congr rfl fun j hj => ?_
    rw [← h i j (by simpa using hi) (by simpa using hj), mul_sum, sum_mul]
    exact sum_congr rfl fun k _ => by ring
  rw [sum_congr rfl e]
  have e2 : ∀ i ∈ range n, ∑ j ∈ range n, ∑ k ∈ range n, (x i * l i k) * (x j * l j k)
      = ∑ k ∈ range n, ∑ j ∈ range n, (x i * l i k) * (x j * l j k) := fun i _ => sum_comm
  rw [sum_congr rfl e2, sum_comm]
  refine sum_congr rfl fun k _ => ?_
  rw [pow_two, sum_mul_sum]

/-- A matrix with a factor is positive definite. -/
theorem factor_posDef (n : Nat) (a l : Nat → Nat → K) (h : IsFactor n a l) : PosDef n a := by
  obtain ⟨h1, h2, h3⟩ := h
  intro x hx
  rw [quad_factor n a l h3]
  -- the last non-zero coordinate
  obtain ⟨i, hi, hxi, hmax⟩ : ∃ i, i < n ∧ x i ≠ 0 ∧ ∀ j, i < j → j < n → x j = 0 := by
    have : ∀ m, m ≤ n → (∃ i, i < n ∧ n - m ≤ i ∧ x i ≠ 0) → ∃ i, i < n ∧ x i ≠ 0 ∧ ∀ j, i < j → j < n → x j = 0 := by
      intro m
      induction m with
      | zero => rintro _ ⟨i, h1, h2, _⟩; omega
      | succ m ih =>
        intro hm hex
        by_cases hh : ∃ i, i < n ∧ n - m ≤ i ∧ x i ≠ 0
        · exact ih (by omega) hh
        · obtain ⟨i, c1, c2, c3⟩ := hex
          refine ⟨i, c1, c3, fun j hj hjn => ?_⟩
          by_contra hne
          exact hh ⟨j, hjn, by omega, hne⟩
    obtain ⟨i, hi, hx⟩ := hx
    exact this n (le_refl _) ⟨i, hi, by omega, hx⟩
  have hterm : ∑ j ∈ range n, x j * l j i = x i * l i i := by
    refine sum_eq_single i (fun j hj hne => ?_) fun hn => absurd (by simpa using hi) hn
    have hj : j < n := by simpa using hj
    rcases lt_or_gt_of_ne hne with hlt | hgt
    · rw [h1 j i hj hi hlt, mul_zero]
    · rw [hmax j hgt hj, zero_mul]
  refine sum_pos' (fun k _ => sq_nonneg _) ⟨i, by simpa using hi, ?_⟩
  rw [hterm]
  exact pow_pos_of_ne _ (mul_ne_zero hxi (ne_of_gt (h2 i hi)))
where
  pow_pos_of_ne (y : K) (h : y ≠ 0) : 0 < y ^ 2 := by positivity

/-- Back substitution: a lower triangular system with non-zero diagonal, transposed, has a solution. -/
theorem back_substitution (l : Nat → Nat → K) (m : Nat) (hd : ∀ i, i < m → l i i ≠ 0)
    (ht : ∀ i j, i < m → j < m → i < j → l i j = 0) (t : Nat → K) :
    ∃ y : Nat → K, ∀ k < m, ∑ j ∈ range m, l j k * y j = t k := by
  induction m generalizing t with
  | zero => exact ⟨fun _ => 0, fun k hk => by omega⟩
  | succ m ih =>
    obtain ⟨y, hy⟩ := ih (fun i hi => hd i (by omega)) (fun i j h1 h2 h3 => ht i j (by omega) (by omega) h3)
      (fun k => t k - l m k * (t m / l m m))
    refine ⟨fun j => if j = m then t m / l m m else y j, fun k hk => ?_⟩
    rw [sum_range_succ]
    simp only [if_true]
    have e : ∑ j ∈ range m, l j k * (if j = m then t m / l m m else y j) = ∑ j ∈ range m, l j k * y j :=
      sum_congr rfl fun j hj => by rw [if_neg (by simp at hj; omega)]
    rw [e]
    by_cases hkm : k = m
    · subst hkm
      rw [sum_eq_zero fun j hj => by rw [ht j k (by simp at hj; omega) (by omega) (by simpa using hj), zero_mul], zero_add,
        mul_div_cancel₀ _ (hd k (by omega))]
    · rw [hy k (by omega)]
      ring

/-- A stuck diagonal refutes positive definiteness. -/
theorem stuck_not_posDef (n : Nat) (a : Nat → Nat → K) (hs : SymmetricM n a) (i : Nat) (hi : i < n) (l : Nat → Nat → K)
    (h : CholInv a i i l) (hle : a i i ≤ ∑ k ∈ range i, l i k * l i k) : ¬ PosDef n a := by
  obtain ⟨h1, h2, h3⟩ := h
  intro hp
  obtain ⟨y, hy⟩ := back_substitution l i (fun p hp => ne_of_gt (h2 p (by unfold CellDone; omega)))
    (fun p q _ _ hpq => h3 p q (by unfold CellDone; omega)) (fun k => - l i k)
  -- `l i i = 0` at this point, so the factor of the leading block with the remainder on the diagonal is
  have hii : l i i = 0 := h3 i i (by unfold CellDone; omega)
  have hblock : ∀ p q, p < i + 1 → q < i + 1 → ∑ k ∈ range (i + 1), l p k * l q k
      = a p q - (if p = i ∧ q = i then a i i - ∑ k ∈ range i, l i k * l i k else 0) := by
    have low : ∀ p q, q ≤ p → p < i + 1 → ∑ k ∈ range (i + 1), l p k * l q k
        = a p q - (if p = i ∧ q = i then a i i - ∑ k ∈ range i, l i k * l i k else 0) := by
      intro p q hqp hpi
      by_cases hq : q = i
      · have : p = i := by omega
        subst hq; subst this
        rw [if_pos ⟨rfl, rfl⟩, sum_range_succ, hii]
        ring
      · rw [if_neg (by omega), sub_zero, ← h1 p q (by unfold CellDone; omega)]
        refine sum_cut (i + 1) (q + 1) (by omega) _ fun k hk hk' => ?_
        rw [h3 q k (by unfold CellDone; omega), mul_zero]
    intro p q hp hq
    rcases le_total q p with hqp | hqp
    · exact low p q hqp hp
    · have := low q p hqp hq
      rw [hs q p (by omega) (by omega)] at this
      have e : ∑ k ∈ range (i + 1), l p k * l q k = ∑ k ∈ range (i + 1), l q k * l p k :=
        sum_congr rfl fun k _ => mul_comm _ _
      rw [e, this]
      simp only [and_comm]
  let x : Nat → K := fun j => if j < i then y j else if j = i then 1 else 0
  have hxi : x i = 1 := by simp [x]
  have hxgt : ∀ j, i < j → x j = 0 := by
    intro j hj
    simp only [x]
    rw [if_neg (by omega), if_neg (by omega)]
  have hpos := hp x ⟨i, hi, by rw [hxi]; exact one_ne_zero⟩
  have hinner : ∀ p, ∑ j ∈ range n, x p * a p j * x j = ∑ j ∈ range (i + 1), x p * a p j * x j := fun p =>
    sum_cut n (i + 1) (by omega) _ fun k hk _ => by rw [hxgt k (by omega), mul_zero]
  have hquad : ∑ p ∈ range n, ∑ j ∈ range n, x p * a p j * x j
      = ∑ p ∈ range (i + 1), ∑ j ∈ range (i + 1), x p * a p j * x j := by
    rw [sum_congr rfl fun p _ => hinner p]
    refine sum_cut n (i + 1) (by omega) _ fun k hk _ => ?_
    exact sum_eq_zero fun j _ => by rw [hxgt k (by omega), zero_mul, zero_mul]
  let a' : Nat → Nat → K := fun p q => a p q - (if p = i ∧ q = i then a i i - ∑ k ∈ range i, l i k * l i k else 0)
  have hq' := quad_factor (i + 1) a' l (fun p q hp hq => hblock p q hp hq) x
  have hsplit : ∑ p ∈ range (i + 1), ∑ j ∈ range (i + 1), x p * a' p j * x j
      = ∑ p ∈ range (i + 1), ∑ j ∈ range (i + 1), x p * a p j * x j - (a i i - ∑ k ∈ range i, l i k * l i k) := by
    have : ∀ p ∈ range (i + 1), ∑ j ∈ range (i + 1), x p * a' p j * x j
        = ∑ j ∈ range (i + 1), x p * a p j * x j - (if p = i then a i i - ∑ k ∈ range i, l i k * l i k else 0) := by
      intro p _
      have e : ∀ j ∈ range (i + 1), x p * a' p j * x j = x p * a p j * x j
          - (if j = i then (if p = i then a i i - ∑ k ∈ range i, l i k * l i k else 0) else 0) := by
        intro j _
        simp only [a']
        by_cases hj : j = i
        · subst hj
          by_cases hpj : p = j
          · subst hpj; simp [hxi]
          · simp [hpj]
        · simp [hj]
      rw [sum_congr rfl e, sum_sub_distrib]
      congr 1
      rw [sum_ite_eq' (range (i + 1)) i]
      simp
    rw [sum_congr rfl this, sum_sub_distrib]
    congr 1
    rw [sum_ite_eq' (range (i + 1)) i]
    simp
  have hzero : ∀ k ∈ range (i + 1), (∑ p ∈ range (i + 1), x p * l p k) ^ 2 = 0 := by
    intro k hk
    have hk : k < i + 1 := by simpa using hk
    rw [sum_range_succ, hxi]
    by_cases hki : k = i
    · subst hki
      rw [hii, sum_eq_zero fun p hp => by rw [h3 p k (by unfold CellDone; simp at hp; omega), mul_zero]]
      ring
    · have : ∑ p ∈ range i, x p * l p k = ∑ p ∈ range i, l p k * y p :=
        sum_congr rfl fun p hp => by
          have : x p = y p := by simp only [x]; rw [if_pos (by simpa using hp)]
          rw [this, mul_comm]
      rw [this, hy k (by omega)]
      ring
  rw [sum_eq_zero hzero, hsplit] at hq'
  rw [hquad] at hpos
  linarith

/-! ## The theorems -/

/-- C49. A returned matrix is the Cholesky factor of the lower triangle (the upper triangle of the input is never
read): of the matrix itself when that is symmetric. -/
theorem C49_factor (sq : K → K) (hsq : IsRoot sq) (m l : Mat K) (h : cholesky sq m = .ok l) :
    m.rows = m.cols ∧ l.rows = m.rows ∧ l.cols = m.rows ∧
    (∀ i j, i < j → l.entry i j = 0) ∧ (∀ i, i < m.rows → 0 < l.entry i i) ∧
    (∀ i j, i < m.rows → j ≤ i → ∑ k ∈ range m.rows, l.entry i k * l.entry j k = m.entry i j) ∧
    (SymmetricM m.rows m.entry → IsFactor m.rows m.entry l.entry) := by
  unfold cholesky at h
  by_cases hr : m.rows ≠ m.cols
  · rw [if_pos hr] at h; cases h
  · rw [if_neg hr] at h
    rcases chol_inv sq hsq m.entry m.rows with ⟨l', e, hi⟩ | ⟨e, _⟩
    · rw [e, Res.bind_ok] at h
      cases h
      have tri : ∀ i j, i < j → l' i j = 0 := fun i j hij => hi.2.2 i j (by unfold CellDone; omega)
      have pos : ∀ i, i < m.rows → 0 < l' i i := fun i hin => hi.2.1 i (by unfold CellDone; omega)
      have low := inv_lower m.entry l' m.rows hi
      refine ⟨not_not.1 hr, rfl, rfl, tri, pos, fun i j h1 h2 => low i j h1 h2, fun hs => ⟨fun i j _ _ => tri i j, pos, ?_⟩⟩
      intro i j h1 h2
      rcases le_total j i with hji | hij
      · exact low i j h1 hji
      · rw [hs i j h1 h2, ← low j i h2 hij]
        exact sum_congr rfl fun k _ => mul_comm _ _
    · rw [e] at h; cases h

/-- C49. For a symmetric matrix a factor is returned exactly when the matrix is positive definite; in every other case,
and for a matrix that is not square, the answer is an error (never a division by zero or a root of a negative number). -/
theorem C49_accepts (sq : K → K) (hsq : IsRoot sq) (m : Mat K) :
    (m.rows ≠ m.cols → cholesky sq m = .error .err) ∧
    (m.rows = m.cols → SymmetricM m.rows m.entry →
      ((∃ l, cholesky sq m = .ok l) ↔ PosDef m.rows m.entry) ∧
      (¬ PosDef m.rows m.entry → cholesky sq m = .error .err)) := by
  refine ⟨fun h => by unfold cholesky; rw [if_pos h], fun hr hs => ?_⟩
  have main : (∃ l, cholesky sq m = .ok l) ∨ cholesky sq m = .error .err ∧ ¬ PosDef m.rows m.entry := by
    unfold cholesky
    rw [if_neg (not_not.2 hr)]
    rcases chol_inv sq hsq m.entry m.rows with ⟨l', e, hi⟩ | ⟨e, i, l, h1, h2, h3⟩
    · rw [e]; exact .inl ⟨_, rfl⟩
    · rw [e]; exact .inr ⟨rfl, stuck_not_posDef m.rows m.entry hs i h1 l h2 h3⟩
  have fwd : (∃ l, cholesky sq m = .ok l) → PosDef m.rows m.entry := by
    rintro ⟨l, h⟩
    exact factor_posDef _ _ _ ((C49_factor sq hsq m l h).2.2.2.2.2.2 hs)
  refine ⟨⟨fwd, fun h => main.resolve_right fun h' => h'.2 h⟩, fun h => ?_⟩
  rcases main with h' | h'
  · exact absurd (fwd h') h
  · exact h'.1

/-- C49. The Cholesky factor is unique, so the returned matrix is *the* factor. -/
theorem C49_unique (n : Nat) (a l l' : Nat → Nat → K) (h : IsFactor n a l) (h' : IsFactor n a l') :
    ∀ i j, i < n → j < n → l' i j = l i j := by
  obtain ⟨h1, h2, h3⟩ := h
  obtain ⟨g1, g2, g3⟩ := h'
  have cut : ∀ (r : Nat → Nat → K), (∀ i j, i < n → j < n → i < j → r i j = 0) → ∀ i j, i < n → j < n → j ≤ i →
      ∑ k ∈ range n, r i k * r j k = ∑ k ∈ range j, r i k * r j k + r i j * r j j := by
    intro r hr i j hi hj hji
    rw [sum_cut n (j + 1) (by omega) _ fun k hk hk' => by rw [hr j k hj hk' (by omega), mul_zero], sum_range_succ]
  have col : ∀ j, j < n → ∀ i, i < n → j ≤ i → l' i j = l i j := by
    intro j
    induction j using Nat.strong_induction_on with
    | _ j ih =>
      intro hj
      have same : ∀ i, i < n → j ≤ i → ∑ k ∈ range j, l' i k * l' j k = ∑ k ∈ range j, l i k * l j k := by
        intro i hi hji
        refine sum_congr rfl fun k hk => ?_
        have hk : k < j := by simpa using hk
        rw [ih k hk (by omega) i hi (by omega), ih k hk (by omega) j hj (by omega)]
      have prod : ∀ i, i < n → j ≤ i → l' i j * l' j j = l i j * l j j := by
        intro i hi hji
        have e1 := cut l h1 i j hi hj hji
        have e2 := cut l' g1 i j hi hj hji
        rw [h3 i j hi hj] at e1
        rw [g3 i j hi hj, same i hi hji] at e2
        linear_combination e1 - e2
      have diag : l' j j = l j j := by
        have hp := prod j hj (le_refl _)
        have p1 := h2 j hj
        have p2 := g2 j hj
        have : (l' j j - l j j) * (l' j j + l j j) = 0 := by linear_combination hp
        rcases mul_eq_zero.1 this with h | h
        · linarith
        · linarith
      intro i hi hji
      have hp := prod i hi hji
      rw [diag] at hp
      exact mul_right_cancel₀ (ne_of_gt (h2 j hj)) hp
  intro i j hi hj
  rcases le_or_gt j i with hji | hij
  · exact col j hj i hi hji
  · rw [h1 i j hi hj hij, g1 i j hi hj hij]

theorem loopRes_congr {S : Type} (f g : Nat → S → Res S) (c i : Nat) (s : S)
    (h : ∀ k, i ≤ k → k < i + c → f k = g k) : loopRes f c i s = loopRes g c i s := by
  induction c generalizing i s with
  | zero => rfl
  | succ c ih =>
    rw [loopRes, loopRes, h i (le_refl _) (by omega)]
    cases g i s with
    | error _ => rfl
    | ok s' => exact ih (i + 1) s' fun k h1 h2 => h k (by omega) (by omega)

/-- C49. Only the lower triangle of the input is read: symmetry is never checked. -/
theorem C49_lower_only (sq : K → K) (m m' : Mat K) (hr : m.rows = m'.rows) (hc : m.cols = m'.cols)
    (h : ∀ i j, i < m.rows → j ≤ i → m.entry i j = m'.entry i j) : cholesky sq m = cholesky sq m' := by
  have e : loopRes (cholRow sq m.entry) m.rows 0 (fun _ _ => 0) = loopRes (cholRow sq m'.entry) m'.rows 0 (fun _ _ => 0) := by
    rw [← hr]
    refine loopRes_congr _ _ _ _ _ fun i _ hi => ?_
    funext l
    unfold cholRow
    refine loopRes_congr _ _ _ _ _ fun j _ hj => ?_
    funext l
    unfold cholCell
    rw [h i i (by omega) (le_refl _), h i j (by omega) (by omega)]
  unfold cholesky
  rw [e, hr, hc]

/-! ## Concrete cases -/

/-- The real square root is such a root function. -/
theorem sqrt_isRoot : IsRoot Real.sqrt := fun _ hx => ⟨Real.sqrt_pos.2 hx, Real.mul_self_sqrt (le_of_lt hx)⟩

/-- Correlation 3/5 and its factor `[1, 0; 3/5, 4/5]`. -/
noncomputable def someCorrelation : Nat → Nat → ℝ := fun i j => if i = j then 1 else 3 / 5

theorem someCorrelation_factor : IsFactor 2 someCorrelation
    (fun i j => if i = 0 then (if j = 0 then 1 else 0) else if j = 0 then 3 / 5 else 4 / 5) := by
  unfold someCorrelation
  refine ⟨?_, ?_, ?_⟩
  · intro i j _ _ h
    have : i = 0 := by omega
    have : j = 1 := by omega
    simp [*]
  · intro i _
    by_cases h : i = 0 <;> simp [h]
  · intro i j hi hj
    rcases (by omega : i = 0 ∨ i = 1) with rfl | rfl <;> rcases (by omega : j = 0 ∨ j = 1) with rfl | rfl <;>
      norm_num [sum_range_succ]

/-- The function accepts it (over the real numbers with the real square root) and returns that factor. -/
example : ∃ l, cholesky Real.sqrt ⟨2, 2, someCorrelation⟩ = .ok l ∧ l.entry 1 1 = 4 / 5 := by
  have hs : SymmetricM 2 someCorrelation := fun i j _ _ => by unfold someCorrelation; simp only [eq_comm]
  obtain ⟨l, h⟩ := ((C49_accepts Real.sqrt sqrt_isRoot ⟨2, 2, someCorrelation⟩).2 rfl hs).1.2
    (factor_posDef _ _ _ someCorrelation_factor)
  refine ⟨l, h, ?_⟩
  have hf := (C49_factor Real.sqrt sqrt_isRoot _ l h).2.2.2.2.2.2 hs
  rw [C49_unique 2 someCorrelation _ _ someCorrelation_factor hf 1 1 (by omega) (by omega)]
  simp

/-- A matrix that is not symmetric is accepted: the upper triangle is not read. -/
example : ∃ l, cholesky Real.sqrt ⟨2, 2, fun i j => if i < j then 7 else someCorrelation i j⟩ = .ok l := by
  have hs : SymmetricM 2 someCorrelation := fun i j _ _ => by unfold someCorrelation; simp only [eq_comm]
  rw [C49_lower_only Real.sqrt ⟨2, 2, fun i j => if i < j then 7 else someCorrelation i j⟩ ⟨2, 2, someCorrelation⟩ rfl rfl fun i j _ h => by simp only; rw [if_neg (by omega)]]
  exact ((C49_accepts Real.sqrt sqrt_isRoot ⟨2, 2, someCorrelation⟩).2 rfl hs).1.2
    (factor_posDef _ _ _ someCorrelation_factor)

end Verif.Props

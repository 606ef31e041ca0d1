import Verif.QL.Path
import Verif.Props.Cholesky
import Mathlib.Algebra.Module.LinearMap.Basic
import Mathlib.Algebra.Module.LinearMap.Defs
import Mathlib.Algebra.Module.Pi
/-!
# C131: correlated paths

An expectation is any linear functional on the random variables over any sample space.
-/
set_option autoImplicit false
set_option linter.unusedSectionVars false
namespace Verif.Props
open Verif Verif.QL Finset

variable {K : Type} [Field K] [LinearOrder K] [IsStrictOrderedRing K]

theorem rowTimes_sum (l z : Nat → Nat → K) (i t c : Nat) : rowTimes l z i t c = ∑ k ∈ range c, l i k * z k t := by
  induction c with
  | zero => rfl
  | succ c ih => rw [rowTimes, sum_range_succ, ih]

/-- The path for a factor. -/
theorem path_of_factor (sq : K → K) (hsq : IsRoot sq) (steps : Nat) (corr p : Mat K) (z : Nat → Nat → K)
    (hs : SymmetricM corr.rows corr.entry) :
    correlatedPath sq steps corr z = .ok p ↔ ∃ l, cholesky sq corr = .ok l ∧ IsFactor corr.rows corr.entry l.entry ∧
      (∀ i j, i < j → l.entry i j = 0) ∧
      p = { rows := corr.rows, cols := steps, entry := fun i t => ∑ k ∈ range corr.rows, l.entry i k * z k t } := by
  unfold correlatedPath unwrapChol
  cases hc : cholesky sq corr with
  | error e =>
    constructor
    · intro h; cases e <;> cases h
    · rintro ⟨l, h, -⟩; cases h
  | ok l =>
    obtain ⟨h1, h2, h3, h4, -, -, h7⟩ := C49_factor sq hsq corr l hc
    dsimp only
    rw [Res.bind_ok]
    unfold Mat.dot
    rw [if_neg (by simp [h3])]
    simp only [rowTimes_sum, h2, h3]
    constructor
    · intro h
      exact ⟨l, rfl, h7 hs, h4, (Except.ok.inj h).symm⟩
    · rintro ⟨l', e, -, -, rfl⟩
      obtain rfl := Except.ok.inj e
      rfl

/-- **C131** (when). For a symmetric correlation a path is returned exactly if it is positive definite; otherwise the
function panics. The path has one row for each object and one column for each step. -/
theorem C131_when (sq : K → K) (hsq : IsRoot sq) (steps : Nat) (corr : Mat K) (z : Nat → Nat → K) :
    (corr.rows ≠ corr.cols → correlatedPath sq steps corr z = .error .unwrapNone) ∧
    (corr.rows = corr.cols → SymmetricM corr.rows corr.entry →
      (PosDef corr.rows corr.entry → ∃ p, correlatedPath sq steps corr z = .ok p ∧ p.rows = corr.rows ∧ p.cols = steps) ∧
      (¬ PosDef corr.rows corr.entry → correlatedPath sq steps corr z = .error .unwrapNone)) := by
  obtain ⟨a1, a2⟩ := C49_accepts sq hsq corr
  refine ⟨fun h => ?_, fun hr hs => ⟨fun hp => ?_, fun hp => ?_⟩⟩
  · unfold correlatedPath unwrapChol; rw [a1 h]; rfl
  · obtain ⟨l, hl⟩ := (a2 hr hs).1.2 hp
    obtain ⟨-, -, -, h4, -, -, h7⟩ := C49_factor sq hsq corr l hl
    exact ⟨_, (path_of_factor sq hsq steps corr _ z hs).2 ⟨l, hl, h7 hs, h4, rfl⟩, rfl, rfl⟩
  · unfold correlatedPath unwrapChol; rw [(a2 hr hs).2 hp]; rfl

/-- A sum whose terms are linear. -/
theorem expect_sum {Ω : Type} (E : (Ω → K) →ₗ[K] K) (n : Nat) (f : Nat → Ω → K) :
    E (fun ω => ∑ k ∈ range n, f k ω) = ∑ k ∈ range n, E (f k) := by
  rw [← map_sum]
  congr 1
  funext ω
  rw [sum_apply]

theorem expect_mul {Ω : Type} (E : (Ω → K) →ₗ[K] K) (c : K) (f : Ω → K) : E (fun ω => c * f ω) = c * E f := by
  rw [← smul_eq_mul, ← map_smul]
  rfl

/-- **C131** (distribution). If the numbers drawn have mean zero, variance one and no correlation, then the path has mean
zero, the covariance of two objects at the same step is the entry of the matrix given, and different steps are not
correlated. -/
theorem C131_covariance {Ω : Type} (E : (Ω → K) →ₗ[K] K) (sq : K → K) (hsq : IsRoot sq) (steps : Nat) (corr : Mat K)
    (hs : SymmetricM corr.rows corr.entry) (Z : Ω → Nat → Nat → K) (P : Ω → Mat K)
    (hP : ∀ ω, correlatedPath sq steps corr (Z ω) = .ok (P ω))
    (hmean : ∀ i t, i < corr.rows → t < steps → E (fun ω => Z ω i t) = 0)
    (hvar : ∀ i j s t, i < corr.rows → j < corr.rows → s < steps → t < steps →
      E (fun ω => Z ω i s * Z ω j t) = if i = j ∧ s = t then 1 else 0)
    (i j s t : Nat) (hi : i < corr.rows) (hj : j < corr.rows) (hs' : s < steps) (ht : t < steps) :
    E (fun ω => (P ω).entry i s) = 0 ∧
    E (fun ω => (P ω).entry i s * (P ω).entry j t) = if s = t then corr.entry i j else 0 := by
  by_cases hΩ : Nonempty Ω
  · obtain ⟨ω0⟩ := hΩ
    obtain ⟨l, hl, ⟨-, -, hf⟩, -, -⟩ := (path_of_factor sq hsq steps corr _ _ hs).1 (hP ω0)
    have hp : ∀ ω i s, (P ω).entry i s = ∑ k ∈ range corr.rows, l.entry i k * Z ω k s := by
      intro ω i s
      obtain ⟨l', hl', -, -, e⟩ := (path_of_factor sq hsq steps corr _ _ hs).1 (hP ω)
      rw [hl] at hl'
      obtain rfl := Except.ok.inj hl'
      rw [e]
    constructor
    · simp only [hp]
      rw [expect_sum E corr.rows fun k ω => l.entry i k * Z ω k s]
      refine sum_eq_zero fun k hk => ?_
      rw [expect_mul E (l.entry i k) fun ω => Z ω k s, hmean k s (mem_range.1 hk) hs', mul_zero]
    · have e1 : (fun ω => (P ω).entry i s * (P ω).entry j t) = fun ω => ∑ a ∈ range corr.rows, ∑ b ∈ range corr.rows,
          (l.entry i a * l.entry j b) * (Z ω a s * Z ω b t) := by
        funext ω
        rw [hp, hp, sum_mul_sum]
        refine sum_congr rfl fun a _ => sum_congr rfl fun b _ => ?_
        ring
      rw [e1, expect_sum E corr.rows fun a ω => ∑ b ∈ range corr.rows, (l.entry i a * l.entry j b) * (Z ω a s * Z ω b t)]
      have e2 : ∀ a ∈ range corr.rows, E (fun ω => ∑ b ∈ range corr.rows, (l.entry i a * l.entry j b) * (Z ω a s * Z ω b t)) =
          if s = t then l.entry i a * l.entry j a else 0 := by
        intro a ha
        rw [expect_sum E corr.rows fun b ω => (l.entry i a * l.entry j b) * (Z ω a s * Z ω b t)]
        have e3 : ∀ b ∈ range corr.rows, E (fun ω => (l.entry i a * l.entry j b) * (Z ω a s * Z ω b t)) =
            if a = b then (if s = t then l.entry i a * l.entry j b else 0) else 0 := by
          intro b hb
          rw [expect_mul E (l.entry i a * l.entry j b) fun ω => Z ω a s * Z ω b t,
            hvar a b s t (mem_range.1 ha) (mem_range.1 hb) hs' ht]
          by_cases q1 : a = b <;> by_cases q2 : s = t <;> simp [q1, q2]
        rw [sum_congr rfl e3, sum_ite_eq, if_pos ha]
      rw [sum_congr rfl e2]
      by_cases q : s = t
      · simp only [if_pos q]; exact hf i j hi hj
      · simp only [if_neg q]; simp
  · have h0 : ∀ f : Ω → K, E f = 0 := by
      intro f
      have : f = 0 := by funext ω; exact absurd ⟨ω⟩ hΩ
      rw [this, map_zero]
    have := hvar i i s s hi hi hs' hs'
    rw [h0, if_pos ⟨rfl, rfl⟩] at this
    exact absurd this.symm one_ne_zero

/-- **C131** (sample). For any numbers drawn: the matrix of products of the path over the steps is the factor applied to that
of the numbers drawn; if the draws are orthogonal with square `steps`, it is exactly `steps` times the correlation. -/
theorem C131_sample (sq : K → K) (hsq : IsRoot sq) (steps : Nat) (corr p : Mat K) (hs : SymmetricM corr.rows corr.entry)
    (z : Nat → Nat → K) (hp : correlatedPath sq steps corr z = .ok p)
    (hz : ∀ i j, i < corr.rows → j < corr.rows → ∑ t ∈ range steps, z i t * z j t = if i = j then (steps : K) else 0)
    (i j : Nat) (hi : i < corr.rows) (hj : j < corr.rows) :
    ∑ t ∈ range steps, p.entry i t * p.entry j t = steps * corr.entry i j := by
  obtain ⟨l, -, ⟨-, -, hf⟩, -, rfl⟩ := (path_of_factor sq hsq steps corr _ _ hs).1 hp
  dsimp only
  have e1 : ∀ t, (∑ k ∈ range corr.rows, l.entry i k * z k t) * (∑ k ∈ range corr.rows, l.entry j k * z k t) =
      ∑ a ∈ range corr.rows, ∑ b ∈ range corr.rows, (l.entry i a * l.entry j b) * (z a t * z b t) := by
    intro t
    rw [sum_mul_sum]
    exact sum_congr rfl fun a _ => sum_congr rfl fun b _ => by ring
  simp only [e1]
  rw [sum_comm]
  have e2 : ∀ a ∈ range corr.rows, ∑ t ∈ range steps, ∑ b ∈ range corr.rows, (l.entry i a * l.entry j b) * (z a t * z b t) =
      steps * (l.entry i a * l.entry j a) := by
    intro a ha
    rw [sum_comm]
    have e3 : ∀ b ∈ range corr.rows, ∑ t ∈ range steps, (l.entry i a * l.entry j b) * (z a t * z b t) =
        if a = b then (l.entry i a * l.entry j b) * steps else 0 := by
      intro b hb
      rw [← mul_sum, hz a b (mem_range.1 ha) (mem_range.1 hb)]
      split <;> simp
    rw [sum_congr rfl e3, sum_ite_eq, if_pos ha, mul_comm]
  rw [sum_congr rfl e2, ← mul_sum, hf i j hi hj]

/-- **C131** (order of objects). The path of an object depends only on the numbers drawn for it and for the objects before
it; the path of the first object is its draws times the square root of its variance. -/
theorem C131_causal (sq : K → K) (hsq : IsRoot sq) (steps : Nat) (corr p p' : Mat K) (hs : SymmetricM corr.rows corr.entry)
    (z z' : Nat → Nat → K) (hp : correlatedPath sq steps corr z = .ok p) (hp' : correlatedPath sq steps corr z' = .ok p')
    (i t : Nat) (hi : i < corr.rows) (hz : ∀ k, k ≤ i → z k t = z' k t) :
    p.entry i t = p'.entry i t ∧ (i = 0 → ∃ r, 0 < r ∧ r * r = corr.entry 0 0 ∧ p.entry 0 t = r * z 0 t) := by
  obtain ⟨l, hl, ⟨-, hf1, hf⟩, hlow, rfl⟩ := (path_of_factor sq hsq steps corr _ _ hs).1 hp
  obtain ⟨l', hl', -, -, rfl⟩ := (path_of_factor sq hsq steps corr _ _ hs).1 hp'
  rw [hl] at hl'
  obtain rfl := Except.ok.inj hl'
  dsimp only
  constructor
  · refine sum_congr rfl fun k hk => ?_
    by_cases hki : k ≤ i
    · rw [hz k hki]
    · rw [hlow i k (by omega), zero_mul, zero_mul]
  · rintro rfl
    have one : ∀ f : Nat → K, (∀ k, 0 < k → f k = 0) → ∑ k ∈ range corr.rows, f k = f 0 := by
      intro f hf0
      rw [sum_eq_single 0 (fun k _ hk => hf0 k (by omega)) (fun h => absurd (mem_range.2 hi) h)]
    refine ⟨l.entry 0 0, hf1 0 hi, ?_, ?_⟩
    · rw [← hf 0 0 hi hi, one _ fun k hk => by rw [hlow 0 k hk, zero_mul]]
    · rw [one _ fun k hk => by rw [hlow 0 k hk, zero_mul]]

/-- Non-vacuity: two objects with correlation 3/5, one step, the four equally likely pairs of signs. -/
theorem path_witness : ∃ (E : (Bool × Bool → ℝ) →ₗ[ℝ] ℝ) (Z : Bool × Bool → Nat → Nat → ℝ),
    (∀ ω, ∃ p, correlatedPath Real.sqrt 1 ⟨2, 2, someCorrelation⟩ (Z ω) = .ok p) ∧
    (∀ i t, i < 2 → t < 1 → E (fun ω => Z ω i t) = 0) ∧
    (∀ i j s t, i < 2 → j < 2 → s < 1 → t < 1 → E (fun ω => Z ω i s * Z ω j t) = if i = j ∧ s = t then 1 else 0) := by
  have hs : SymmetricM 2 someCorrelation := fun i j _ _ => by unfold someCorrelation; simp only [eq_comm]
  refine ⟨{ toFun := fun f => (f (true, true) + f (true, false) + f (false, true) + f (false, false)) / 4
            map_add' := fun f g => by simp only [Pi.add_apply]; ring
            map_smul' := fun c f => by simp only [Pi.smul_apply, smul_eq_mul, RingHom.id_apply]; ring },
    fun ω i _ => if (if i = 0 then ω.1 else ω.2) then 1 else -1, fun ω => ?_, ?_, ?_⟩
  · obtain ⟨p, hp, -⟩ := ((C131_when Real.sqrt sqrt_isRoot 1 ⟨2, 2, someCorrelation⟩ _).2 rfl hs).1
      (factor_posDef _ _ _ someCorrelation_factor)
    exact ⟨p, hp⟩
  · intro i t hi ht
    rcases (by omega : i = 0 ∨ i = 1) with rfl | rfl <;> norm_num [LinearMap.coe_mk]
  · intro i j s t hi hj hs ht
    obtain rfl : s = 0 := by omega
    obtain rfl : t = 0 := by omega
    rcases (by omega : i = 0 ∨ i = 1) with rfl | rfl <;> rcases (by omega : j = 0 ∨ j = 1) with rfl | rfl <;>
      norm_num [LinearMap.coe_mk]

end Verif.Props

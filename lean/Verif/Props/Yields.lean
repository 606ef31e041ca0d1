import Verif.Props.Quotes
import Mathlib.Algebra.BigOperators.Intervals
/-!
# C70, C71: the virtual bond of a KTB future, and the price of a bond from its yield by the KRX rule
-/
set_option autoImplicit false
set_option linter.unusedSectionVars false
namespace Verif.Props
open Verif Verif.QL Verif.Civil

/-! ### C70: the virtual bond -/

theorem ktbfLoop_eq (c y : ℝ) (h : 1 + y ≠ 0) (i n : Nat) (acc : ℝ) :
    ktbfLoop c y i n acc = .ok (acc + ∑ j ∈ Finset.range n, c / (1 + y) ^ (i + j)) := by
  induction n generalizing i acc with
  | zero => simp [ktbfLoop]
  | succ n ih =>
    unfold ktbfLoop
    have : divK c ((1 + y) ^ i) = .ok (c / (1 + y) ^ i) := by
      unfold divK; rw [if_neg (pow_ne_zero _ h)]
    rw [this, Res.bind_ok, ih, Finset.sum_range_succ']
    refine congrArg Except.ok ?_
    simp only [add_zero]
    rw [show (∑ j ∈ Finset.range n, c / (1 + y) ^ (i + 1 + j)) = ∑ j ∈ Finset.range n, c / (1 + y) ^ (i + (j + 1)) from
      Finset.sum_congr rfl fun j _ => by rw [show i + 1 + j = i + (j + 1) by ring]]
    ring

/-- Specification: the value of `n` coupons of `c` per period and 1 at the end, at the rate `y` per period. -/
noncomputable def annuityValue (c y : ℝ) (n : Nat) : ℝ := (∑ i ∈ Finset.range n, c / (1 + y) ^ (i + 1)) + 1 / (1 + y) ^ n

/-- **C70** (value). The virtual bond of `years` years is worth its notional times the value of its coupons and its
principal at the yield. -/
theorem C70_value (md : Mode) (years : Nat) (coupon : ℝ) (freq : Freq) (notional yld : ℝ) (hf : freq ≠ .none)
    (hn : years * freq.perYear < 2 ^ 31) (hy : 1 + yld / freq.perYear ≠ 0) :
    ktbfNpv md years coupon freq notional yld
      = .ok (annuityValue (coupon / freq.perYear) (yld / freq.perYear) (years * freq.perYear) * notional) := by
  have hf0 : ((freq.perYear : Nat) : ℝ) ≠ 0 := by
    cases freq <;> first | exact absurd rfl hf | simp [Freq.perYear]
  have hck : ckI32 md ((years : Int) * (freq.perYear : Nat)) = .ok ((years * freq.perYear : Nat) : Int) := by
    unfold ckI32
    rw [if_pos]
    · push_cast; rfl
    · have h1 : ((years * freq.perYear : Nat) : Int) < 2 ^ 31 := by exact_mod_cast hn
      unfold I32
      push_cast at h1
      constructor
      · have : (0 : Int) ≤ (years : Int) * (freq.perYear : Nat) := by positivity
        omega
      · omega
  have d1 : ∀ x : ℝ, divK x ((freq.perYear : Nat) : ℝ) = .ok (x / freq.perYear) := by
    intro x; unfold divK; rw [if_neg hf0]
  unfold ktbfNpv
  rw [hck, Res.bind_ok, d1, Res.bind_ok, d1, Res.bind_ok, ktbfLoop_eq _ _ hy, Res.bind_ok, if_pos (by omega)]
  have : divK (1 : ℝ) ((1 + yld / freq.perYear) ^ (((years * freq.perYear : Nat) : Int)).toNat)
      = .ok (1 / (1 + yld / freq.perYear) ^ (years * freq.perYear)) := by
    unfold divK
    rw [if_neg (pow_ne_zero _ hy), Int.toNat_natCast]
  rw [this, Res.bind_ok, Int.toNat_natCast]
  refine congrArg Except.ok ?_
  unfold annuityValue
  rw [zero_add]
  have hs : (∑ j ∈ Finset.range (years * freq.perYear), coupon / freq.perYear / (1 + yld / freq.perYear) ^ (1 + j))
      = ∑ i ∈ Finset.range (years * freq.perYear), coupon / freq.perYear / (1 + yld / freq.perYear) ^ (i + 1) :=
    Finset.sum_congr rfl fun i _ => by rw [add_comm 1 i]
  rw [hs]

theorem annuity_par (c y : ℝ) (h : 1 + y ≠ 0) (n : Nat) :
    annuityValue c y n = 1 + (c - y) * ∑ i ∈ Finset.range n, 1 / (1 + y) ^ (i + 1) := by
  unfold annuityValue
  induction n with
  | zero => simp
  | succ n ih =>
    rw [Finset.sum_range_succ, Finset.sum_range_succ]
    have e : 1 / (1 + y) ^ n = (1 + y) * (1 / (1 + y) ^ (n + 1)) := by
      rw [pow_succ]; field_simp
    have hc : c / (1 + y) ^ (n + 1) = c * (1 / (1 + y) ^ (n + 1)) := by ring
    rw [e] at ih
    rw [hc]
    linear_combination ih

/-- **C70** (par). At a yield equal to the coupon rate the virtual bond is worth its notional; at a lower yield (above
-frequency) it is worth more, at a higher one less. -/
theorem C70_par (md : Mode) (years : Nat) (coupon : ℝ) (freq : Freq) (notional yld v : ℝ) (hf : freq ≠ .none) (h0 : 0 < years)
    (hn : years * freq.perYear < 2 ^ 31) (hy : -(freq.perYear : ℝ) < yld) (hp : 0 < notional)
    (h : ktbfNpv md years coupon freq notional yld = .ok v) :
    (yld = coupon → v = notional) ∧ (yld < coupon → notional < v) ∧ (coupon < yld → v < notional) := by
  have hf0 : 0 < freq.perYear := by
    cases freq <;> first | exact absurd rfl hf | simp [Freq.perYear]
  have hf1 : (0 : ℝ) < (freq.perYear : ℝ) := by exact_mod_cast hf0
  have hy1 : 0 < 1 + yld / freq.perYear := by
    have : -1 < yld / freq.perYear := by rw [lt_div_iff₀ hf1]; linarith
    linarith
  rw [C70_value md years coupon freq notional yld hf hn hy1.ne'] at h
  have hv := Except.ok.inj h
  rw [annuity_par _ _ hy1.ne'] at hv
  set S := ∑ i ∈ Finset.range (years * freq.perYear), 1 / (1 + yld / (freq.perYear : ℝ)) ^ (i + 1) with hS
  have hpos : 0 < S := by
    apply Finset.sum_pos
    · intro i _; positivity
    · rw [Finset.nonempty_range_iff]
      exact Nat.mul_ne_zero (by omega) (by omega)
  have hd : coupon / (freq.perYear : ℝ) - yld / freq.perYear = (coupon - yld) / freq.perYear := by ring
  rw [hd] at hv
  refine ⟨fun e => ?_, fun e => ?_, fun e => ?_⟩
  · rw [← hv, e]; simp
  · rw [← hv]
    have : 0 < (coupon - yld) / freq.perYear * S := mul_pos (div_pos (by linarith) hf1) hpos
    nlinarith
  · rw [← hv]
    have : (coupon - yld) / freq.perYear * S < 0 := mul_neg_of_neg_of_pos (div_neg_of_neg_of_pos (by linarith) hf1) hpos
    nlinarith

/-- **C70** (yield). With coupons that are not negative the price falls as the yield rises, so a price belongs to one yield
only. -/
theorem C70_decreasing (md : Mode) (years : Nat) (coupon : ℝ) (freq : Freq) (notional y1 y2 v1 v2 : ℝ) (hf : freq ≠ .none)
    (h0 : 0 < years) (hn : years * freq.perYear < 2 ^ 31) (hc : 0 ≤ coupon) (hp : 0 < notional)
    (hy : -(freq.perYear : ℝ) < y1) (hlt : y1 < y2) (h1 : ktbfNpv md years coupon freq notional y1 = .ok v1)
    (h2 : ktbfNpv md years coupon freq notional y2 = .ok v2) : v2 < v1 := by
  have hf0 : 0 < freq.perYear := by
    cases freq <;> first | exact absurd rfl hf | simp [Freq.perYear]
  have hf1 : (0 : ℝ) < (freq.perYear : ℝ) := by exact_mod_cast hf0
  have p1 : 0 < 1 + y1 / freq.perYear := by
    have : -1 < y1 / freq.perYear := by rw [lt_div_iff₀ hf1]; linarith
    linarith
  have p12 : 1 + y1 / freq.perYear < 1 + y2 / freq.perYear := by
    have := (div_lt_div_iff_of_pos_right hf1).2 hlt
    linarith
  rw [C70_value md years coupon freq notional y1 hf hn p1.ne'] at h1
  rw [C70_value md years coupon freq notional y2 hf hn (by linarith)] at h2
  rw [← Except.ok.inj h1, ← Except.ok.inj h2]
  apply mul_lt_mul_of_pos_right _ hp
  unfold annuityValue
  apply add_lt_add_of_le_of_lt
  · apply Finset.sum_le_sum
    intro i _
    apply div_le_div_of_nonneg_left (by positivity) (by positivity)
    exact pow_le_pow_left₀ p1.le p12.le _
  · apply one_div_lt_one_div_of_lt (by positivity)
    exact pow_lt_pow_left₀ p12 p1.le (Nat.mul_ne_zero (by omega) (by omega))

/-- Without a coupon frequency there is no number. -/
theorem C70_refused (md : Mode) (years : Nat) (coupon notional yld : ℝ) :
    ktbfNpv md years coupon .none notional yld = .error .nonfinite := by
  unfold ktbfNpv
  have : ckI32 md ((years : Int) * ((Freq.none.perYear : Nat) : Int)) = .ok 0 := by
    have e : (years : Int) * ((Freq.none.perYear : Nat) : Int) = 0 := by simp [Freq.perYear]
    rw [e]
    unfold ckI32
    rw [if_pos (by unfold I32; omega)]
  rw [this, Res.bind_ok]
  have h : divK yld ((Freq.none.perYear : Nat) : ℝ) = .error .nonfinite := by
    unfold divK; rw [if_pos (by simp [Freq.perYear])]
  rw [h]
  rfl

/-- Three years, 5 %, half-yearly: at a yield of 5 % the notional of 100. -/
example : ktbfNpv .checked 3 0.05 .semiAnnually 100 0.05 = .ok 100 := by
  have h := C70_value .checked 3 0.05 .semiAnnually 100 0.05 (by decide) (by decide) (by norm_num [Freq.perYear])
  rw [annuity_par _ _ (by norm_num [Freq.perYear])] at h
  rw [show ((3 : Nat) : Int) = 3 from rfl] at h
  rw [h]
  simp

/-! ### C71: the KRX yield price -/

/-- Specification: the value of the payments after the pricing day, discounted to the next payment date `first` at the
yield per period. -/
noncomputable def yieldSum (pricing first : DT) (ey freq : ℝ) (m : Flows) : ℝ :=
  (m.map fun x => if pricing.day < x.1.day then x.2 / (1 + ey) ^ (valOf (frac first x.1 .streetConvention) * freq) else 0).sum

theorem krxLoop_iff (pricing first : DT) (ey freq : ℝ) (h : 0 < 1 + ey) (m : Flows) (acc v : ℝ) :
    krxLoop pricing first ey freq m acc = .ok v ↔
      (∀ x ∈ m, pricing.day < x.1.day → ∃ q, frac first x.1 .streetConvention = .ok q) ∧ v = acc + yieldSum pricing first ey freq m := by
  induction m generalizing acc with
  | nil => simp [krxLoop, yieldSum, eq_comm]
  | cons x m ih =>
    obtain ⟨d, a⟩ := x
    unfold krxLoop
    have hsum : yieldSum pricing first ey freq ((d, a) :: m) = (if pricing.day < d.day then a / (1 + ey) ^ (valOf (frac first d .streetConvention) * freq) else 0)
        + yieldSum pricing first ey freq m := by simp [yieldSum]
    rw [hsum]
    by_cases hd : d.day ≤ pricing.day
    · rw [if_pos hd, ih, if_neg (by omega), zero_add]
      constructor
      · rintro ⟨e1, e2⟩
        refine ⟨fun x hx hl => ?_, e2⟩
        rcases List.mem_cons.1 hx with q | q
        · rw [q] at hl; simp only at hl; omega
        · exact e1 x q hl
      · rintro ⟨e1, e2⟩
        exact ⟨fun x hx => e1 x (List.mem_cons_of_mem _ hx), e2⟩
    · rw [if_neg hd, if_pos (by omega)]
      cases hf : frac first d .streetConvention with
      | error e =>
        simp only [Res.bind_error]
        refine ⟨fun q => (by cases q), fun q => ?_⟩
        obtain ⟨z, hz⟩ := q.1 (d, a) (List.mem_cons_self ..) (by simp only; omega)
        simp only [hf] at hz
        cases hz
      | ok q =>
        have hpw : (0 : ℝ) < (1 + ey) ^ (q * freq) := Real.rpow_pos_of_pos h _
        simp only [Res.bind_ok, powK, if_neg (not_le.2 h), divK, if_neg hpw.ne', ih, valOf]
        constructor
        · rintro ⟨e1, e2⟩
          refine ⟨fun x hx hl => ?_, by rw [e2]; ring⟩
          rcases List.mem_cons.1 hx with k | k
          · rw [k]; exact ⟨q, hf⟩
          · exact e1 x k hl
        · rintro ⟨e1, e2⟩
          exact ⟨fun x hx => e1 x (List.mem_cons_of_mem _ hx), by rw [e2]; ring⟩

/-- Specification: `first` is the earliest payment date after the pricing day, and maturity if there is none. -/
def NextPayment (b : Bond) (pricing : DT) (m : Flows) (first : DT) : Prop :=
  ((∀ x ∈ m, x.1.day ≤ pricing.day) ∧ first = b.maturity) ∨
  (∃ x ∈ m, x.1 = first ∧ pricing.day < first.day ∧ ∀ y ∈ m, pricing.day < y.1.day → first.instant ≤ y.1.instant)

/-- Specification: `prev` is the latest payment date of the schedule not after the pricing day, and the issue date if there
is none. -/
def PreviousPayment (b : Bond) (issue pricing prev : DT) : Prop :=
  ((∀ c ∈ b.schedule, pricing.day < c.1.payment.day) ∧ prev = issue) ∨
  (∃ c ∈ b.schedule, c.1.payment = prev ∧ prev.day ≤ pricing.day ∧
    ∀ c' ∈ b.schedule, c'.1.payment.day ≤ pricing.day → c'.1.payment.instant ≤ prev.instant)

theorem nextFlow_spec (pricing : DT) (m : Flows) :
    (nextFlow pricing m = none → ∀ x ∈ m, x.1.day ≤ pricing.day) ∧
    ∀ e, nextFlow pricing m = some e → ∃ x ∈ m, x.1 = e ∧ pricing.day < e.day ∧ ∀ y ∈ m, pricing.day < y.1.day → e.instant ≤ y.1.instant := by
  induction m with
  | nil => simp [nextFlow]
  | cons x m ih =>
    obtain ⟨d, a⟩ := x
    obtain ⟨i1, i2⟩ := ih
    unfold nextFlow
    cases hn : nextFlow pricing m with
    | none =>
      have h1 := i1 hn
      simp only
      by_cases hd : pricing.day < d.day
      · rw [if_pos hd]
        refine ⟨fun q => (by cases q), fun e q => ?_⟩
        cases q
        refine ⟨(d, a), List.mem_cons_self .., rfl, hd, fun y hy hl => ?_⟩
        rcases List.mem_cons.1 hy with k | k
        · rw [k]
        · exact absurd hl (by have := h1 y k; omega)
      · rw [if_neg hd]
        refine ⟨fun _ y hy => ?_, fun e q => (by cases q)⟩
        rcases List.mem_cons.1 hy with k | k
        · rw [k]; simp only; omega
        · exact h1 y k
    | some e =>
      obtain ⟨z, hz, e1, e2, e3⟩ := i2 e hn
      simp only
      by_cases hd : pricing.day < d.day ∧ d.instant ≤ e.instant
      · rw [if_pos hd]
        refine ⟨fun q => (by cases q), fun e' q => ?_⟩
        cases q
        refine ⟨(d, a), List.mem_cons_self .., rfl, hd.1, fun y hy hl => ?_⟩
        rcases List.mem_cons.1 hy with k | k
        · rw [k]
        · exact le_trans hd.2 (e3 y k hl)
      · rw [if_neg hd]
        refine ⟨fun q => (by cases q), fun e' q => ?_⟩
        cases q
        refine ⟨z, List.mem_cons_of_mem _ hz, e1, e2, fun y hy hl => ?_⟩
        rcases List.mem_cons.1 hy with k | k
        · rw [k] at hl ⊢
          simp only at hl ⊢
          by_contra hcon
          exact hd ⟨hl, by omega⟩
        · exact e3 y k hl

theorem lastPaid_spec (pricing : DT) (l : List DT) :
    (lastPaid pricing l = none → ∀ d ∈ l, pricing.day < d.day) ∧
    ∀ e, lastPaid pricing l = some e → e ∈ l ∧ e.day ≤ pricing.day ∧ ∀ d ∈ l, d.day ≤ pricing.day → d.instant ≤ e.instant := by
  induction l with
  | nil => simp [lastPaid]
  | cons d l ih =>
    obtain ⟨i1, i2⟩ := ih
    unfold lastPaid
    cases hn : lastPaid pricing l with
    | none =>
      have h1 := i1 hn
      simp only
      by_cases hd : d.day ≤ pricing.day
      · rw [if_pos hd]
        refine ⟨fun q => (by cases q), fun e q => ?_⟩
        cases q
        refine ⟨List.mem_cons_self .., hd, fun y hy hl => ?_⟩
        rcases List.mem_cons.1 hy with k | k
        · rw [k]
        · exact absurd hl (by have := h1 y k; omega)
      · rw [if_neg hd]
        refine ⟨fun _ y hy => ?_, fun e q => (by cases q)⟩
        rcases List.mem_cons.1 hy with k | k
        · rw [k]; omega
        · exact h1 y k
    | some e =>
      obtain ⟨e1, e2, e3⟩ := i2 e hn
      simp only
      by_cases hd : d.day ≤ pricing.day ∧ e.instant < d.instant
      · rw [if_pos hd]
        refine ⟨fun q => (by cases q), fun e' q => ?_⟩
        cases q
        refine ⟨List.mem_cons_self .., hd.1, fun y hy hl => ?_⟩
        rcases List.mem_cons.1 hy with k | k
        · rw [k]
        · have := e3 y k hl; omega
      · rw [if_neg hd]
        refine ⟨fun q => (by cases q), fun e' q => ?_⟩
        cases q
        refine ⟨List.mem_cons_of_mem _ e1, e2, fun y hy hl => ?_⟩
        rcases List.mem_cons.1 hy with k | k
        · rw [k] at hl ⊢
          by_contra hcon
          exact hd ⟨hl, by omega⟩
        · exact e3 y k hl

theorem perYear_pos (freq : Freq) (hf : freq ≠ .none) : (0 : ℝ) < (freq.perYear : ℝ) := by
  have : 0 < freq.perYear := by
    cases freq <;> first | exact absurd rfl hf | simp [Freq.perYear]
  exact_mod_cast this

theorem krx_core (md : Mode) (eval : DT) (mk : Market) (yld : ℝ) (freq : Freq) (issue : DT) (b : Bond) (hf : freq ≠ .none)
    (hy : -(freq.perYear : ℝ) < yld) (v : ℝ) (h : krxNpv md eval mk yld freq issue b = .ok v) :
    ∃ m, b.flows md mk (b.pricing.getD eval) = .ok m ∧
      ∀ first prev, first = (nextFlow (b.pricing.getD eval) m).getD b.maturity →
      prev = (lastPaid (b.pricing.getD eval) (b.schedule.map fun c => c.1.payment)).getD issue →
      (∀ x ∈ m, (b.pricing.getD eval).day < x.1.day → ∃ q, frac first x.1 .streetConvention = .ok q) ∧
      first.day ≠ prev.day ∧
      v * (1 + yld / freq.perYear * (((first.day - (b.pricing.getD eval).day : Int) : ℝ) / ((first.day - prev.day : Int) : ℝ)))
        = yieldSum (b.pricing.getD eval) first (yld / freq.perYear) freq.perYear m := by
  have hf1 := perYear_pos freq hf
  have hy1 : 0 < 1 + yld / freq.perYear := by
    have : -1 < yld / freq.perYear := by rw [lt_div_iff₀ hf1]; linarith
    linarith
  unfold krxNpv at h
  simp only [bind_ok_iff, divK_ok_iff] at h
  obtain ⟨ey, ⟨-, rfl⟩, m, hm, s, hs, w, ⟨hw0, rfl⟩, hv0, hv⟩ := h
  obtain ⟨hfr, rfl⟩ := (krxLoop_iff _ _ _ _ hy1 _ _ _).1 hs
  refine ⟨m, hm, ?_⟩
  rintro first prev rfl rfl
  refine ⟨hfr, ?_, ?_⟩
  · intro e
    apply hw0
    rw [e]; simp
  · rw [hv, zero_add, div_mul_cancel₀ _ hv0]

theorem nextPayment_of (b : Bond) (pricing : DT) (m : Flows) : NextPayment b pricing m ((nextFlow pricing m).getD b.maturity) := by
  obtain ⟨n1, n2⟩ := nextFlow_spec pricing m
  unfold NextPayment
  cases hn : nextFlow pricing m with
  | none => left; exact ⟨n1 hn, rfl⟩
  | some e => right; exact n2 e hn

theorem previousPayment_of (b : Bond) (issue pricing : DT) :
    PreviousPayment b issue pricing ((lastPaid pricing (b.schedule.map fun c => c.1.payment)).getD issue) := by
  obtain ⟨n1, n2⟩ := lastPaid_spec pricing (b.schedule.map fun c => c.1.payment)
  unfold PreviousPayment
  cases hn : lastPaid pricing (b.schedule.map fun c => c.1.payment) with
  | none => left; exact ⟨fun c hc => n1 hn _ (List.mem_map.2 ⟨c, hc, rfl⟩), rfl⟩
  | some e =>
    right
    obtain ⟨a1, a2, a3⟩ := n2 e hn
    obtain ⟨c, hc, ec⟩ := List.mem_map.1 a1
    exact ⟨c, hc, ec, a2, fun c' hc' hl => a3 _ (List.mem_map.2 ⟨c', hc', rfl⟩) hl⟩

/-- **C71** (value). For a yield above -frequency: the payments after the pricing day are discounted to the next payment
date with compound interest, by 30/360 street periods, and from there to the pricing day with simple interest for the part
of the coupon period that is left. -/
theorem C71_value (md : Mode) (eval : DT) (mk : Market) (yld : ℝ) (freq : Freq) (issue : DT) (b : Bond) (hf : freq ≠ .none)
    (hy : -(freq.perYear : ℝ) < yld) (v : ℝ) (h : krxNpv md eval mk yld freq issue b = .ok v) :
    ∃ m first prev, b.flows md mk (b.pricing.getD eval) = .ok m ∧ NextPayment b (b.pricing.getD eval) m first ∧
      PreviousPayment b issue (b.pricing.getD eval) prev ∧
      (∀ x ∈ m, (b.pricing.getD eval).day < x.1.day → ∃ q, frac first x.1 .streetConvention = .ok q) ∧
      first.day ≠ prev.day ∧
      v * (1 + yld / freq.perYear * (((first.day - (b.pricing.getD eval).day : Int) : ℝ) / ((first.day - prev.day : Int) : ℝ)))
        = yieldSum (b.pricing.getD eval) first (yld / freq.perYear) freq.perYear m := by
  obtain ⟨m, hm, hk⟩ := krx_core md eval mk yld freq issue b hf hy v h
  obtain ⟨k1, k2, k3⟩ := hk _ _ rfl rfl
  exact ⟨m, _, _, hm, nextPayment_of b _ m, previousPayment_of b issue _, k1, k2, k3⟩

/-- **C71** (yield). If nothing owed is negative, something is, the bond was issued by the pricing day, and no payment is
discounted backwards (see `C71_forwards`), the price falls as the yield rises: a price belongs to at most one yield above
-frequency, so there is at most one for the search to find. -/
theorem C71_decreasing (md : Mode) (eval : DT) (mk : Market) (y1 y2 : ℝ) (freq : Freq) (issue : DT) (b : Bond) (hf : freq ≠ .none)
    (hy : -(freq.perYear : ℝ) < y1) (hlt : y1 < y2) (v1 v2 : ℝ)
    (h1 : krxNpv md eval mk y1 freq issue b = .ok v1) (h2 : krxNpv md eval mk y2 freq issue b = .ok v2)
    (hissue : issue.day ≤ (b.pricing.getD eval).day) (m : Flows) (hm : b.flows md mk (b.pricing.getD eval) = .ok m)
    (hpos : ∀ x ∈ m, (b.pricing.getD eval).day < x.1.day → 0 ≤ x.2)
    (hex : ∃ x ∈ m, (b.pricing.getD eval).day < x.1.day ∧ 0 < x.2)
    (hfw : ∀ x ∈ m, ∀ y ∈ m, (b.pricing.getD eval).day < x.1.day → (b.pricing.getD eval).day < y.1.day →
      x.1.instant ≤ y.1.instant → ∀ q, frac x.1 y.1 .streetConvention = .ok q → 0 ≤ q) : v2 < v1 := by
  have hf1 := perYear_pos freq hf
  obtain ⟨m', em, hk1⟩ := krx_core md eval mk y1 freq issue b hf hy v1 h1
  rw [hm] at em
  obtain rfl := Except.ok.inj em
  obtain ⟨m'', em', hk2⟩ := krx_core md eval mk y2 freq issue b hf (by linarith) v2 h2
  rw [hm] at em'
  obtain rfl := Except.ok.inj em'
  obtain ⟨k1, k2, k3⟩ := hk1 _ _ rfl rfl
  obtain ⟨-, -, l3⟩ := hk2 _ _ rfl rfl
  have hn := nextPayment_of b (b.pricing.getD eval) m
  have hp := previousPayment_of b issue (b.pricing.getD eval)
  generalize (nextFlow (b.pricing.getD eval) m).getD b.maturity = first at *
  generalize (lastPaid (b.pricing.getD eval) (b.schedule.map fun c => c.1.payment)).getD issue = prev at *
  generalize b.pricing.getD eval = pr at *
  have ey1 : 0 < 1 + y1 / freq.perYear := by
    have : -1 < y1 / freq.perYear := by rw [lt_div_iff₀ hf1]; linarith
    linarith
  have ey12 : y1 / freq.perYear < y2 / freq.perYear := (div_lt_div_iff_of_pos_right hf1).2 hlt
  obtain ⟨x0, hx0, hx0d, hx0p⟩ := hex
  obtain ⟨xf, hxf, rfl, hfd, hmin⟩ : ∃ x ∈ m, x.1 = first ∧ pr.day < first.day ∧ ∀ y ∈ m, pr.day < y.1.day → first.instant ≤ y.1.instant := by
    rcases hn with ⟨q, -⟩ | q
    · exact absurd (q x0 hx0) (by omega)
    · exact q
  have hprev : prev.day ≤ pr.day := by
    rcases hp with ⟨-, q⟩ | ⟨c, -, -, q, -⟩
    · rw [q]; exact hissue
    · exact q
  have hw0 : (0 : ℝ) < ((xf.1.day - pr.day : Int) : ℝ) / ((xf.1.day - prev.day : Int) : ℝ) := by
    apply div_pos <;> exact_mod_cast (by omega)
  have hw1 : ((xf.1.day - pr.day : Int) : ℝ) / ((xf.1.day - prev.day : Int) : ℝ) ≤ 1 := by
    have : (0 : ℝ) < ((xf.1.day - prev.day : Int) : ℝ) := by exact_mod_cast (by omega)
    rw [div_le_one this]
    exact_mod_cast (by omega)
  generalize ((xf.1.day - pr.day : Int) : ℝ) / ((xf.1.day - prev.day : Int) : ℝ) = w at *
  generalize y1 / (freq.perYear : ℝ) = e1 at *
  generalize y2 / (freq.perYear : ℝ) = e2 at *
  have d1 : 0 < 1 + e1 * w := by nlinarith
  have d12 : 1 + e1 * w < 1 + e2 * w := by nlinarith
  have term : ∀ e : ℝ, 0 < 1 + e → ∀ x ∈ m, pr.day < x.1.day → 0 < (1 + e) ^ (valOf (frac xf.1 x.1 .streetConvention) * (freq.perYear : ℝ)) :=
    fun e he x _ _ => Real.rpow_pos_of_pos he _
  have expo : ∀ x ∈ m, pr.day < x.1.day → 0 ≤ valOf (frac xf.1 x.1 .streetConvention) * (freq.perYear : ℝ) := by
    intro x hx hd
    obtain ⟨q, hq⟩ := k1 x hx hd
    have := hfw xf hxf x hx hfd hd (hmin x hx hd) q hq
    rw [hq]
    exact mul_nonneg this hf1.le
  have hs12 : yieldSum pr xf.1 e2 freq.perYear m ≤ yieldSum pr xf.1 e1 freq.perYear m := by
    unfold yieldSum
    apply List.sum_le_sum
    intro x hx
    by_cases hd : pr.day < x.1.day
    · rw [if_pos hd, if_pos hd]
      apply div_le_div_of_nonneg_left (hpos x hx hd) (term e1 ey1 x hx hd)
      exact Real.rpow_le_rpow ey1.le (by linarith) (expo x hx hd)
    · rw [if_neg hd, if_neg hd]
  have hs0 : 0 < yieldSum pr xf.1 e1 freq.perYear m := by
    unfold yieldSum
    have hnn : ∀ z ∈ m.map (fun x => if pr.day < x.1.day then x.2 / (1 + e1) ^ (valOf (frac xf.1 x.1 .streetConvention) * (freq.perYear : ℝ)) else 0), 0 ≤ z := by
      intro z hz
      obtain ⟨x, hx, rfl⟩ := List.mem_map.1 hz
      by_cases hd : pr.day < x.1.day
      · simp only [if_pos hd]
        exact div_nonneg (hpos x hx hd) (term e1 ey1 x hx hd).le
      · simp only [if_neg hd]; exact le_refl _
    have := List.single_le_sum hnn _ (List.mem_map.2 ⟨x0, hx0, rfl⟩)
    simp only [if_pos hx0d] at this
    exact lt_of_lt_of_le (div_pos hx0p (term e1 ey1 x0 hx0 hx0d)) this
  have q1 : v1 = yieldSum pr xf.1 e1 freq.perYear m / (1 + e1 * w) := by
    rw [eq_div_iff d1.ne']; exact k3
  have q2 : v2 = yieldSum pr xf.1 e2 freq.perYear m / (1 + e2 * w) := by
    rw [eq_div_iff (by linarith)]; exact l3
  rw [q1, q2]
  calc _ ≤ yieldSum pr xf.1 e1 freq.perYear m / (1 + e2 * w) := by
        apply div_le_div_of_nonneg_right hs12; linarith
    _ < _ := by apply div_lt_div_of_pos_left hs0 d1 d12

/-- **C71** (periods). The number of periods from one payment to a later one is not negative, unless both are the same
31st. -/
theorem C71_forwards (s e : DT) (hs : s.Valid) (he : e.Valid) (ho : s.off = e.off) (h : s.instant ≤ e.instant)
    (h31 : s.ymd.d = 31 → s.day ≠ e.day) : ∃ q, frac s e .streetConvention = .ok q ∧ 0 ≤ q := by
  refine ⟨_, by unfold frac; rw [C45_street s e h, Res.bind_ok], ?_⟩
  have hd := day_le_of_instant hs he ho h
  have hmono := index360_mono _ _ hd
  have va := ofOrd_valid s.day
  have vb := ofOrd_valid e.day
  have da := dim_le (ofOrd s.day).y (ofOrd s.day).m
  have db := dim_le (ofOrd e.day).y (ofOrd e.day).m
  have key : 0 ≤ bondBasis s.ymd e.ymd +
      (if e.ymd.d = 31 then (if s.ymd.d = 31 then -30 else if s.ymd.d = 30 then 1 else 0) else 0) := by
    have l := ord_lt_iff (ofOrd s.day) (ofOrd e.day) va vb
    rw [ord_ofOrd, ord_ofOrd] at l
    unfold Ymd.lt at l
    unfold index360 at hmono
    unfold bondBasis
    unfold DT.ymd at *
    obtain ⟨m1, m2, m3, m4⟩ := va
    obtain ⟨n1, n2, n3, n4⟩ := vb
    dsimp only
    by_cases a1 : (ofOrd s.day).d = 31
    · by_cases a2 : (ofOrd e.day).d = 31
      · have := h31 a1
        have hlt : s.day < e.day := by omega
        have := l.1 hlt
        simp only [a1, a2, if_true, true_and]
        omega
      · simp only [a1, a2, if_true, if_false, false_and]
        omega
    · by_cases a2 : (ofOrd e.day).d = 31
      · by_cases a3 : (ofOrd s.day).d = 30
        · simp [a2, a3]
          omega
        · simp [a1, a2, a3]
          omega
      · simp only [a1, a2, if_false, false_and]
        omega
  have : (0 : ℚ) ≤ ((bondBasis s.ymd e.ymd +
      (if e.ymd.d = 31 then (if s.ymd.d = 31 then -30 else if s.ymd.d = 30 then 1 else 0) else 0) : Int) : ℚ) / 360 := by
    apply div_nonneg _ (by norm_num)
    exact_mod_cast key
  exact_mod_cast this

/-- A bond that pays 1 at maturity and nothing before. -/
noncomputable def zeroBond (mat : DT) : Bond :=
  { strip := false, schedule := [], fixedRate := some 0, spread := none, index := none, comp := none, pricing := none
    maturity := mat, hol := fun _ => .ok false, dcc := .actual365Fixed, fixGap := 0 }

theorem zeroBond_price (md : Mode) (eval issue mat : DT) (mk : Market) (yld q : ℝ) (hy : -2 < yld) (h1 : eval.day < mat.day)
    (h2 : issue.day ≤ eval.day) (hq : frac mat mat .streetConvention = .ok q)
    (hw : 1 + yld / 2 * (((mat.day - eval.day : Int) : ℝ) / ((mat.day - issue.day : Int) : ℝ)) ≠ 0) :
    krxNpv md eval mk yld .semiAnnually issue (zeroBond mat) =
      .ok (1 / (1 + yld / 2) ^ (q * 2) / (1 + yld / 2 * (((mat.day - eval.day : Int) : ℝ) / ((mat.day - issue.day : Int) : ℝ)))) := by
  have hb : ¬ (1 + yld / 2 ≤ 0) := by linarith [not_le.2 (by linarith : 0 < 1 + yld / 2)]
  have hpw : (0 : ℝ) < (1 + yld / 2) ^ (q * 2) := Real.rpow_pos_of_pos (not_le.1 hb) _
  have hm : (zeroBond mat).flows md mk eval = .ok [(mat, 1)] := by
    unfold Bond.flows
    simp only [zeroBond, flowLoop, Res.bind_ok, true_and, ge_iff_le]
    rw [if_pos (le_of_lt h1)]
    rfl
  unfold krxNpv
  have e1 : ((zeroBond mat).pricing.getD eval) = eval := rfl
  dsimp only
  rw [e1, hm]
  have e2 : (zeroBond mat).schedule = [] := rfl
  have hden : ((mat.day - issue.day : Int) : ℝ) ≠ 0 := by exact_mod_cast (by omega : mat.day - issue.day ≠ 0)
  simp only [Res.bind_ok, nextFlow, if_pos h1, Option.getD_some, e2, List.map_nil, lastPaid, Option.getD_none, Freq.perYear, divK,
    Nat.cast_ofNat, OfNat.ofNat_ne_zero, if_false, krxLoop, if_neg (not_le.2 h1), hq, powK, if_neg hb, if_neg hpw.ne', if_neg hden,
    if_neg hw, zero_add, one_mul]

/-- A payment of 1 on a 31st, half-way through the period, at a yield of 4 % (see `fault_krx_31st`). -/
example : krxNpv .checked (day0 2021 7 1) { fwd := none, close := none } 0.04 .semiAnnually (day0 2021 6 1) (zeroBond (day0 2021 7 31)) =
    .ok ((1.02 : ℝ) ^ (1 / 6 : ℝ) / 1.01) := by
  have hq : frac (day0 2021 7 31) (day0 2021 7 31) .streetConvention = .ok (((-30 / 360 : ℚ)) : ℝ) := by
    unfold frac
    rw [show yearFraction (day0 2021 7 31) (day0 2021 7 31) .streetConvention = .ok (-30 / 360) from by decide +kernel]
    rfl
  have d1 : (day0 2021 7 31).day - (day0 2021 7 1).day = 30 := by decide +kernel
  have d2 : (day0 2021 7 31).day - (day0 2021 6 1).day = 60 := by decide +kernel
  rw [zeroBond_price _ _ _ _ _ _ _ (by norm_num) (by omega) (by decide +kernel) hq (by rw [d1, d2]; norm_num), d1, d2]
  refine congrArg Except.ok ?_
  norm_num [Real.rpow_neg]

/-- If the next payment is on a 31st, the exponent is -30/360 periods a year instead of 0: at any positive yield a bond
that pays 1 in thirty days' time is worth more than the simple discount of 1, and at a yield of 4 % half-way through a period
the price is 1.02 ^ (1/6) / 1.01 instead of 1 / 1.01. -/
theorem fault_krx_31st (yld : ℝ) (hy : 0 < yld) :
    ∃ v, krxNpv .checked (day0 2021 7 1) { fwd := none, close := none } yld .semiAnnually (day0 2021 6 1) (zeroBond (day0 2021 7 31)) = .ok v ∧
      1 / (1 + yld / 2 * (1 / 2)) < v ∧
    ∃ w, krxNpv .checked (day0 2021 6 30) { fwd := none, close := none } yld .semiAnnually (day0 2021 5 31) (zeroBond (day0 2021 7 30)) = .ok w ∧
      w = 1 / (1 + yld / 2 * (1 / 2)) := by
  have hq : frac (day0 2021 7 31) (day0 2021 7 31) .streetConvention = .ok (((-30 / 360 : ℚ)) : ℝ) := by
    unfold frac
    rw [show yearFraction (day0 2021 7 31) (day0 2021 7 31) .streetConvention = .ok (-30 / 360) from by decide +kernel]
    rfl
  have hq' : frac (day0 2021 7 30) (day0 2021 7 30) .streetConvention = .ok (((0 : ℚ)) : ℝ) := by
    unfold frac
    rw [show yearFraction (day0 2021 7 30) (day0 2021 7 30) .streetConvention = .ok 0 from by decide +kernel]
    rfl
  have d1 : (day0 2021 7 31).day - (day0 2021 7 1).day = 30 := by decide +kernel
  have d2 : (day0 2021 7 31).day - (day0 2021 6 1).day = 60 := by decide +kernel
  have d3 : (day0 2021 7 30).day - (day0 2021 6 30).day = 30 := by decide +kernel
  have d4 : (day0 2021 7 30).day - (day0 2021 5 31).day = 60 := by decide +kernel
  have hw : 1 + yld / 2 * (((30 : Int) : ℝ) / ((60 : Int) : ℝ)) = 1 + yld / 2 * (1 / 2) := by norm_num
  have hw0 : 0 < 1 + yld / 2 * (1 / 2) := by positivity
  refine ⟨_, zeroBond_price _ _ _ _ _ yld _ (by linarith) (by omega) (by decide +kernel) hq (by rw [d1, d2, hw]; exact hw0.ne'), ?_,
    _, zeroBond_price _ _ _ _ _ yld _ (by linarith) (by omega) (by decide +kernel) hq' (by rw [d3, d4, hw]; exact hw0.ne'), ?_⟩
  · rw [d1, d2, hw]
    apply div_lt_div_of_pos_right _ hw0
    rw [lt_one_div (by norm_num) (Real.rpow_pos_of_pos (by linarith) _), one_div_one]
    apply Real.rpow_lt_one_of_one_lt_of_neg (by linarith) (by norm_num)
  · rw [d3, d4, hw]
    norm_num

end Verif.Props

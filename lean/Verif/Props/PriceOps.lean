import Verif.QL.PriceOps
import Verif.Props.Dividend
/-!
# C187: the arithmetic on a market price and moves of the evaluation date
-/
set_option autoImplicit false
set_option linter.unusedSectionVars false
namespace Verif.Props
open Verif Verif.Civil Verif.QL

variable {K : Type} [Field K] [LinearOrder K] [IsStrictOrderedRing K]

/-! ## Specification -/

/-- What a price keeps of itself after all the dividends going ex up to `d`. -/
def keepTo (l : List (DT × K)) (d : DT) : K := keep (fun x => decide (x.instant ≤ d.instant)) l

/-- Specification. A price is described by its date and its gross level, the price as it would be without the
dividends up to that date. A move of the date leaves the gross level; multiplying and dividing act on it directly;
amounts added, subtracted or set are grossed up by the dividends at the date of the price. -/
def grossAfter (l : List (DT × K)) : DT × K → PriceOp K → DT × K
  | (d, _), .set x => (d, x / keepTo l d)
  | (d, g), .add x => (d, g + x / keepTo l d)
  | (d, g), .sub x => (d, g - x / keepTo l d)
  | (d, g), .mul x => (d, g * x)
  | (d, g), .div x => (d, g / x)
  | (_, g), .date e => (e, g)

/-! ## C187 -/

theorem keepTo_ne (l : List (DT × K)) (hl : ∀ q ∈ l, q.2 ≠ 1) (d : DT) : keepTo l d ≠ 0 := keep_ne_zero _ _ hl

theorem keepTo_split (l : List (DT × K)) (a b : DT) (h : a.instant ≤ b.instant) :
    keepTo l b = keepTo l a * keep (between a b) l := by
  unfold keepTo
  induction l with
  | nil => simp [keep]
  | cons p l ih =>
    rw [keep_cons, keep_cons, keep_cons, ih]
    have e : (if decide (p.1.instant ≤ b.instant) then 1 - p.2 else 1 : K)
        = (if decide (p.1.instant ≤ a.instant) then 1 - p.2 else 1) * (if between a b p.1 then 1 - p.2 else 1) := by
      simp only [between, decide_eq_true_eq]
      by_cases ha : p.1.instant ≤ a.instant
      · rw [if_pos (by omega), if_pos ha, if_neg (by omega), mul_one]
      · rw [if_neg ha, one_mul]
        by_cases hb : p.1.instant ≤ b.instant
        · rw [if_pos hb, if_pos (by omega)]
        · rw [if_neg hb, if_neg (by omega)]
    rw [e]
    ring

theorem equivalent_gross (l : List (DT × K)) (hl : ∀ q ∈ l, q.2 ≠ 1) (v w : K) (a b : DT) (h : Equivalent l v a w b) :
    w = v / keepTo l a * keepTo l b := by
  unfold Equivalent at h
  rcases le_total a.instant b.instant with ab | ab
  · rw [keep_empty b a ab, mul_one] at h
    rw [keepTo_split l a b ab, ← h]
    have := keepTo_ne l hl a
    field_simp
  · rw [keep_empty a b ab, mul_one] at h
    rw [keepTo_split l b a ab, h]
    have h1 := keepTo_ne l hl b
    have h2 : keep (between b a) l ≠ 0 := keep_ne_zero _ _ hl
    field_simp

theorem op_gross (p : Price K) (divs : List (Dividend K)) (i : Nat) (v : Dividend K) (hi : p.div = some i)
    (hv : divs[i]? = some v) (hl : ∀ q ∈ v.pairs, q.2 ≠ 1) (o : PriceOp K) (ho : o ≠ .div 0) :
    ∃ p', p.op divs o = .ok p' ∧ p'.div = p.div ∧
      (p'.at_, p'.value / keepTo v.pairs p'.at_) = grossAfter v.pairs (p.at_, p.value / keepTo v.pairs p.at_) o := by
  have hk := keepTo_ne v.pairs hl p.at_
  cases o with
  | set x => exact ⟨_, rfl, rfl, rfl⟩
  | add x => exact ⟨_, rfl, rfl, by simp [grossAfter, add_div]⟩
  | sub x => exact ⟨_, rfl, rfl, by simp [grossAfter, sub_div]⟩
  | mul x => exact ⟨_, rfl, rfl, by simp [grossAfter]; ring⟩
  | div x =>
    have hx : x ≠ 0 := fun e => ho (by rw [e])
    refine ⟨{ p with value := p.value / x }, ?_, rfl, ?_⟩
    · simp only [Price.op]
      unfold divK
      rw [if_neg hx, Res.bind_ok]
    · simp only [grossAfter, Prod.mk.injEq, true_and]
      field_simp
  | date d =>
    obtain ⟨p', h, ha, hd, he⟩ := price_update p divs i v hi hv hl d
    refine ⟨p', h, hd, ?_⟩
    have := equivalent_gross _ hl _ _ _ _ he
    have h2 := keepTo_ne v.pairs hl d
    simp only [grossAfter, ha, Prod.mk.injEq, true_and]
    rw [this]
    field_simp

/-- C187. After any history of settings, additions, subtractions, multiplications, divisions (not by zero) and moves of
the evaluation date the price has the date of the last move, and is the gross level of the specification less the
dividends up to that date. -/
theorem C187_history (divs : List (Dividend K)) (i : Nat) (v : Dividend K) (hv : divs[i]? = some v)
    (hl : ∀ q ∈ v.pairs, q.2 ≠ 1) (os : List (PriceOp K)) (ho : ∀ o ∈ os, o ≠ .div 0) (p : Price K)
    (hi : p.div = some i) : ∃ p', p.ops divs os = .ok p' ∧ p'.div = p.div ∧
      p'.at_ = (os.foldl (grossAfter v.pairs) (p.at_, p.value / keepTo v.pairs p.at_)).1 ∧
      p'.value = (os.foldl (grossAfter v.pairs) (p.at_, p.value / keepTo v.pairs p.at_)).2 * keepTo v.pairs p'.at_ := by
  induction os generalizing p with
  | nil =>
    have := keepTo_ne v.pairs hl p.at_
    exact ⟨p, rfl, rfl, rfl, by simp only [List.foldl_nil]; field_simp⟩
  | cons o os ih =>
    obtain ⟨p1, h1, d1, g1⟩ := op_gross p divs i v hi hv hl o (ho o (by simp))
    obtain ⟨p', h, d, ha, hx⟩ := ih (fun o h => ho o (List.mem_cons_of_mem _ h)) p1 (by rw [d1, hi])
    refine ⟨p', ?_, by rw [d, d1], ?_, ?_⟩
    · unfold Price.ops
      rw [h1, Res.bind_ok, h]
    · rw [ha, g1, List.foldl_cons]
    · rw [hx, g1, List.foldl_cons]

/-- C187. A history with a division by zero leaves a price that is not a number. -/
theorem C187_by_zero (divs : List (Dividend K)) (i : Nat) (v : Dividend K) (hv : divs[i]? = some v)
    (hl : ∀ q ∈ v.pairs, q.2 ≠ 1) (os : List (PriceOp K)) (ho : .div 0 ∈ os) (p : Price K) (hi : p.div = some i) :
    p.ops divs os = .error .nonfinite := by
  induction os generalizing p with
  | nil => simp at ho
  | cons o os ih =>
    unfold Price.ops
    by_cases h : o = .div 0
    · subst h
      simp [Price.op, divK, Res.bind_error]
    · obtain ⟨p1, h1, d1, -⟩ := op_gross p divs i v hi hv hl o h
      rw [h1, Res.bind_ok]
      refine ih ?_ p1 (by rw [d1, hi])
      rcases List.mem_cons.1 ho with e | e
      · exact absurd e.symm h
      · exact e

theorem ops_eq (divs : List (Dividend K)) (i : Nat) (v : Dividend K) (hv : divs[i]? = some v)
    (hl : ∀ q ∈ v.pairs, q.2 ≠ 1) (os ps : List (PriceOp K)) (ho : ∀ o ∈ os, o ≠ .div 0) (hp : ∀ o ∈ ps, o ≠ .div 0)
    (p : Price K) (hi : p.div = some i) (h : os.foldl (grossAfter v.pairs) (p.at_, p.value / keepTo v.pairs p.at_)
      = ps.foldl (grossAfter v.pairs) (p.at_, p.value / keepTo v.pairs p.at_)) : p.ops divs os = p.ops divs ps := by
  obtain ⟨a, ha, da, ta, va⟩ := C187_history divs i v hv hl os ho p hi
  obtain ⟨b, hb, db, tb, vb⟩ := C187_history divs i v hv hl ps hp p hi
  rw [ha, hb]
  have t : a.at_ = b.at_ := by rw [ta, tb, h]
  have x : a.value = b.value := by rw [va, vb, h, t]
  have d : a.div = b.div := by rw [da, db]
  cases a; cases b
  simp only at t x d
  subst t x d
  rfl

/-- C187. Multiplying commutes with moves of the date: it does not matter whether the price is scaled before or after. -/
theorem C187_scale (divs : List (Dividend K)) (i : Nat) (v : Dividend K) (hv : divs[i]? = some v)
    (hl : ∀ q ∈ v.pairs, q.2 ≠ 1) (k : K) (ds : List DT) (p : Price K) (hi : p.div = some i) :
    p.ops divs (.mul k :: ds.map .date) = p.ops divs (ds.map .date ++ [.mul k]) ∧
    (k ≠ 0 → p.ops divs (.div k :: ds.map .date) = p.ops divs (ds.map .date ++ [.div k])) ∧
    (k ≠ 0 → p.ops divs (.mul k :: ds.map .date ++ [.div k]) = p.ops divs (ds.map .date)) := by
  have F : ∀ (ds : List DT) (d : DT) (g : K), (ds.map PriceOp.date).foldl (grossAfter v.pairs) (d, g)
      = ((ds.map PriceOp.date).foldl (grossAfter v.pairs) (d, (0 : K)) |>.1, g) := by
    intro ds
    induction ds with
    | nil => intro d g; rfl
    | cons e ds ih =>
      intro d g
      simp only [List.map_cons, List.foldl_cons, grossAfter]
      exact ih e g
  have nd : ∀ o ∈ ds.map (PriceOp.date (K := K)), o ≠ .div 0 := by
    intro o h e
    rw [e] at h
    obtain ⟨d, -, he⟩ := List.mem_map.1 h
    cases he
  refine ⟨ops_eq divs i v hv hl _ _ ?_ ?_ p hi ?_, fun hk => ops_eq divs i v hv hl _ _ ?_ ?_ p hi ?_,
    fun hk => ops_eq divs i v hv hl _ _ ?_ nd p hi ?_⟩
  · intro o h
    rcases List.mem_cons.1 h with rfl | h
    · intro e; cases e
    · exact nd o h
  · intro o h
    rcases List.mem_append.1 h with h | h
    · exact nd o h
    · rw [List.mem_singleton.1 h]
      intro e; cases e
  · rw [List.foldl_cons, List.foldl_append, F ds p.at_ (p.value / keepTo v.pairs p.at_)]
    simp only [grossAfter]
    rw [F ds p.at_ (_ * k)]
    rfl
  · intro o h
    rcases List.mem_cons.1 h with rfl | h
    · intro e; cases e; exact hk rfl
    · exact nd o h
  · intro o h
    rcases List.mem_append.1 h with h | h
    · exact nd o h
    · rw [List.mem_singleton.1 h]
      intro e; cases e; exact hk rfl
  · rw [List.foldl_cons, List.foldl_append, F ds p.at_ (p.value / keepTo v.pairs p.at_)]
    simp only [grossAfter]
    rw [F ds p.at_ (_ / k)]
    rfl
  · intro o h
    rcases List.mem_append.1 h with h | h
    · rcases List.mem_cons.1 h with rfl | h
      · intro e; cases e
      · exact nd o h
    · rw [List.mem_singleton.1 h]
      intro e; cases e; exact hk rfl
  · rw [List.foldl_append]
    simp only [List.foldl_cons, List.foldl_nil, grossAfter]
    rw [F ds p.at_ (_ * k), F ds p.at_ (p.value / keepTo v.pairs p.at_)]
    simp only [Prod.mk.injEq, true_and]
    rw [mul_div_assoc, div_self hk, mul_one]

/-- C187. Adding does not: an amount added before a move counts after it as the amount less the dividends in between.
Adding before and after the move is the same exactly if nothing is added or no dividend is passed. -/
theorem C187_add (divs : List (Dividend K)) (i : Nat) (v : Dividend K) (hv : divs[i]? = some v)
    (hl : ∀ q ∈ v.pairs, q.2 ≠ 1) (a b : K) (d : DT) (p : Price K) (hi : p.div = some i) :
    (p.ops divs [.add a, .date d] = p.ops divs [.date d, .add b] ↔ b * keepTo v.pairs p.at_ = a * keepTo v.pairs d) ∧
    (p.ops divs [.add a, .date d] = p.ops divs [.date d, .add a] ↔ a = 0 ∨ keepTo v.pairs p.at_ = keepTo v.pairs d) := by
  have h1 := keepTo_ne v.pairs hl p.at_
  have h2 := keepTo_ne v.pairs hl d
  have main : ∀ b : K, (p.ops divs [.add a, .date d] = p.ops divs [.date d, .add b] ↔
      b * keepTo v.pairs p.at_ = a * keepTo v.pairs d) := by
    intro b
    obtain ⟨x, hx, -, tx, vx⟩ := C187_history divs i v hv hl [.add a, .date d] (by simp) p hi
    obtain ⟨y, hy, -, ty, vy⟩ := C187_history divs i v hv hl [.date d, .add b] (by simp) p hi
    simp only [List.foldl_cons, List.foldl_nil, grossAfter] at tx vx ty vy
    constructor
    · intro h
      rw [hx, hy] at h
      injection h with h
      have e : x.value = y.value := by rw [h]
      rw [vx, vy, tx, ty] at e
      have e := mul_right_cancel₀ h2 e
      have e : a / keepTo v.pairs p.at_ = b / keepTo v.pairs d := by linear_combination e
      rw [div_eq_div_iff h1 h2] at e
      exact e.symm
    · intro h
      refine ops_eq divs i v hv hl _ _ (by simp) (by simp) p hi ?_
      simp only [List.foldl_cons, List.foldl_nil, grossAfter, Prod.mk.injEq, true_and]
      rw [add_right_inj, div_eq_div_iff h1 h2]
      exact h.symm
  refine ⟨main b, (main a).trans ?_⟩
  constructor
  · intro h
    by_cases ha : a = 0
    · exact Or.inl ha
    · exact Or.inr (mul_left_cancel₀ ha h)
  · rintro (h | h)
    · rw [h, zero_mul, zero_mul]
    · rw [h]

/-- C187. A price that is set forgets what it was: only the new price and its date count. -/
theorem C187_set (divs : List (Dividend K)) (x : K) (os : List (PriceOp K)) (p q : Price K) (hd : p.div = q.div)
    (ha : p.at_ = q.at_) : p.ops divs (.set x :: os) = q.ops divs (.set x :: os) := by
  unfold Price.ops Price.op
  simp only [Res.bind_ok]
  rw [show ({ p with value := x } : Price K) = { q with value := x } by cases p; cases q; simp_all]

/-- C187. A price without dividends does not move with the date, and does not even note it. -/
theorem C187_no_dividend (divs : List (Dividend K)) (os : List (PriceOp K)) (p : Price K) (h : p.div = none) :
    p.ops divs os = p.ops divs (os.filter fun o => match o with | .date _ => false | _ => true) := by
  induction os generalizing p with
  | nil => rfl
  | cons o os ih =>
    cases o with
    | date d =>
      rw [List.filter_cons_of_neg (by simp), ← ih p h]
      conv => lhs; unfold Price.ops
      simp [Price.op, Price.update, h, Res.bind_ok]
    | set x =>
      rw [List.filter_cons_of_pos rfl]
      unfold Price.ops
      simp only [Price.op, Res.bind_ok]
      exact ih _ h
    | add x =>
      rw [List.filter_cons_of_pos rfl]
      unfold Price.ops
      simp only [Price.op, Res.bind_ok]
      exact ih _ h
    | sub x =>
      rw [List.filter_cons_of_pos rfl]
      unfold Price.ops
      simp only [Price.op, Res.bind_ok]
      exact ih _ h
    | mul x =>
      rw [List.filter_cons_of_pos rfl]
      unfold Price.ops
      simp only [Price.op, Res.bind_ok]
      exact ih _ h
    | div x =>
      rw [List.filter_cons_of_pos rfl]
      unfold Price.ops
      simp only [Price.op]
      unfold divK
      by_cases hx : x = 0
      · rw [if_pos hx]; rfl
      · rw [if_neg hx]
        simp only [Res.bind_ok]
        exact ih _ h

/-- A price of 100 before the first of two dividends (1 % and 2 %): doubled and moved past the first it is 198, with one
added before the move it has 0.99 of it left, and set there to 99 it is 100 again on the way back. -/
theorem price_ops_witness :
    let p : Price ℚ := ⟨100, utc 2024 1 2, some 0⟩
    (p.ops [twoDividends] [.mul 2, .date (utc 2024 4 1)]).map Price.value = .ok 198 ∧
    (p.ops [twoDividends] [.add 1, .date (utc 2024 4 1), .sub 1]).map Price.value = .ok (9899 / 100) ∧
    (p.ops [twoDividends] [.date (utc 2024 4 1), .set 99, .date (utc 2024 1 2)]).map Price.value = .ok 100 ∧
    (p.ops [twoDividends] [.date (utc 2024 4 1), .div 0]).map Price.value = .error .nonfinite ∧
    ∀ q ∈ twoDividends.pairs, q.2 ≠ 1 := by
  decide +kernel

end Verif.Props

import Verif.TE.Level
import Verif.TE.BookSpec
/-!
# Lemmas about one price level
-/
namespace Verif.TE
open Verif Verif.Spec

/-- Sum of the quantities of a queue. -/
def sumQ (os : List (Nat × Nat)) : Nat := (os.map (·.2)).sum

/-- All quantities positive. -/
def Pos (os : List (Nat × Nat)) : Prop := ∀ o ∈ os, 0 < o.2

@[simp] theorem sumQ_nil : sumQ [] = 0 := rfl
@[simp] theorem sumQ_cons (o : Nat × Nat) (os) : sumQ (o :: os) = o.2 + sumQ os := by simp [sumQ]
@[simp] theorem sumQ_append (a b) : sumQ (a ++ b) = sumQ a + sumQ b := by
  induction a with
  | nil => simp
  | cons x xs ih => simp [ih]; omega
@[simp] theorem sumQ_reverse (a) : sumQ a.reverse = sumQ a := by
  induction a with
  | nil => simp
  | cons x xs ih => simp [ih]; omega

theorem Pos.sum_eq_zero {os} (h : Pos os) : sumQ os = 0 ↔ os = [] := by
  cases os with
  | nil => simp
  | cons o os =>
    have := h o (by simp)
    simp; omega

theorem Pos.tail {o os} (h : Pos (o :: os)) : Pos os := fun x hx => h x (by simp [hx])

theorem pos_append {a b} : Pos (a ++ b) ↔ Pos a ∧ Pos b := by
  constructor
  · intro h; exact ⟨fun o ho => h o (by simp [ho]), fun o ho => h o (by simp [ho])⟩
  · rintro ⟨h1, h2⟩ o ho
    rcases List.mem_append.1 ho with h | h
    · exact h1 o h
    · exact h2 o h

theorem pos_reverse {a} : Pos a.reverse ↔ Pos a := by
  constructor <;> intro h o ho <;> exact h o (by simpa using ho)

namespace Level

/-- Queue part of `tradeLoop`: remaining queue, remaining quantity, ids fully traded. -/
def fillQ : List (Nat × Nat) → Nat → List (Nat × Nat) × Nat × List Nat
  | [], r => ([], r, [])
  | (id, q) :: rest, r =>
    if r = 0 then ((id, q) :: rest, 0, [])
    else if q > r then ((id, q - r) :: rest, 0, [])
    else ((fillQ rest (r - q)).1, (fillQ rest (r - q)).2.1, id :: (fillQ rest (r - q)).2.2)

theorem fillQ_rem (os) : ∀ r, (fillQ os r).2.1 = r - sumQ os := by
  induction os with
  | nil => intro r; simp [fillQ]
  | cons o os ih =>
    intro r
    obtain ⟨id, q⟩ := o
    simp only [fillQ]
    split
    · simp; omega
    · split
      · simp; omega
      · simp [ih]; omega

theorem fillQ_sum (os) : ∀ r, sumQ (fillQ os r).1 = sumQ os - r := by
  induction os with
  | nil => intro r; simp [fillQ]
  | cons o os ih =>
    intro r
    obtain ⟨id, q⟩ := o
    simp only [fillQ]
    split
    · simp; omega
    · split
      · simp; omega
      · simp [ih]; omega

theorem fillQ_ids (os) : ∀ r, (fillQ os r).2.2 ++ (fillQ os r).1.map (·.1) = os.map (·.1) := by
  induction os with
  | nil => intro r; simp [fillQ]
  | cons o os ih =>
    intro r
    obtain ⟨id, q⟩ := o
    simp only [fillQ]
    split
    · simp
    · split
      · simp
      · simp [ih]

theorem fillQ_pos (os) : ∀ r, Pos os → Pos (fillQ os r).1 := by
  induction os with
  | nil => intro r h; simpa [fillQ] using h
  | cons o os ih =>
    intro r h
    obtain ⟨id, q⟩ := o
    simp only [fillQ]
    split
    · exact h
    · split
      · intro x hx
        rcases List.mem_cons.1 hx with rfl | hx
        · simp; omega
        · exact h x (by simp [hx])
      · exact ih _ h.tail

/-- `tradeLoop` never faults when the running total covers the queue. -/
theorem tradeLoop_eq (m : Mode) (os) : ∀ total rem ids, sumQ os ≤ total →
    tradeLoop m os total rem ids =
      .ok ((fillQ os rem).1, total - (rem - (fillQ os rem).2.1), (fillQ os rem).2.1,
        ids ++ (fillQ os rem).2.2) := by
  induction os with
  | nil => intro total rem ids h; simp [tradeLoop, fillQ]
  | cons o os ih =>
    intro total rem ids h
    obtain ⟨id, q⟩ := o
    simp at h
    simp only [tradeLoop, fillQ]
    split
    · subst_vars; simp
    · split
      · rw [subU_ok (by omega)]; simp
      · rw [subU_ok (by omega)]
        simp only [Res.bind_ok]
        rw [ih _ _ _ (by omega)]
        simp [fillQ_rem]
        omega

/-- `Level::trade` on a consistent level. -/
theorem trade_eq (m : Mode) (l : Level) (q : Nat) (h : l.total = sumQ l.orders) :
    l.trade m q = .ok ({ l with orders := (fillQ l.orders q).1, total := sumQ (fillQ l.orders q).1 },
      (fillQ l.orders q).2.2, (fillQ l.orders q).2.1) := by
  unfold trade
  rw [tradeLoop_eq m _ _ _ _ (by omega)]
  simp [fillQ_rem, fillQ_sum, h]
  omega

/-! ### Removal and update of one entry -/

theorem removeFirst_none {id os} : removeFirst id os = none ↔ ∀ o ∈ os, o.1 ≠ id := by
  induction os with
  | nil => simp [removeFirst]
  | cons o os ih =>
    obtain ⟨k, q⟩ := o
    simp only [removeFirst]
    split
    · simp_all
    · cases hr : removeFirst id os with
      | none => simp_all; exact ih
      | some v => simp_all

theorem removeFirst_some {id os q rest} (h : removeFirst id os = some (q, rest)) :
    ∃ a b, os = a ++ (id, q) :: b ∧ rest = a ++ b ∧ ∀ o ∈ a, o.1 ≠ id := by
  induction os generalizing q rest with
  | nil => simp [removeFirst] at h
  | cons o os ih =>
    obtain ⟨k, q'⟩ := o
    simp only [removeFirst] at h
    split at h
    · simp at h; obtain ⟨rfl, rfl⟩ := h
      refine ⟨[], os, ?_, ?_, ?_⟩ <;> simp_all
    · cases hr : removeFirst id os with
      | none => simp [hr] at h
      | some v =>
        obtain ⟨q'', r''⟩ := v
        simp [hr] at h
        obtain ⟨rfl, rfl⟩ := h
        obtain ⟨a, b, rfl, rfl, hab⟩ := ih hr
        refine ⟨(k, q') :: a, b, by simp, by simp, ?_⟩
        intro o ho
        rcases List.mem_cons.1 ho with rfl | ho
        · assumption
        · exact hab o ho

theorem removeFirst_split {id os} (h : id ∈ os.map (·.1)) :
    ∃ a q b, os = a ++ (id, q) :: b ∧ removeFirst id os = some (q, a ++ b) ∧ ∀ o ∈ a, o.1 ≠ id := by
  cases hr : removeFirst id os with
  | none =>
    rw [removeFirst_none] at hr
    obtain ⟨o, ho, he⟩ := List.mem_map.1 h
    exact absurd he (hr o ho)
  | some v =>
    obtain ⟨q, rest⟩ := v
    obtain ⟨a, b, h1, h2, h3⟩ := removeFirst_some hr
    exact ⟨a, q, b, h1, by rw [h2], h3⟩

theorem setFirst_none {id n os} : setFirst id n os = none ↔ ∀ o ∈ os, o.1 ≠ id := by
  induction os with
  | nil => simp [setFirst]
  | cons o os ih =>
    obtain ⟨k, q⟩ := o
    simp only [setFirst]
    split
    · simp_all
    · cases hr : setFirst id n os with
      | none => simp_all; exact ih
      | some v => simp_all

theorem setFirst_some {id n os q rest} (h : setFirst id n os = some (q, rest)) :
    ∃ a b, os = a ++ (id, q) :: b ∧ rest = a ++ (id, n) :: b ∧ ∀ o ∈ a, o.1 ≠ id := by
  induction os generalizing q rest with
  | nil => simp [setFirst] at h
  | cons o os ih =>
    obtain ⟨k, q'⟩ := o
    simp only [setFirst] at h
    split at h
    · simp at h; obtain ⟨rfl, rfl⟩ := h
      refine ⟨[], os, ?_, ?_, ?_⟩ <;> simp_all
    · cases hr : setFirst id n os with
      | none => simp [hr] at h
      | some v =>
        obtain ⟨q'', r''⟩ := v
        simp [hr] at h
        obtain ⟨rfl, rfl⟩ := h
        obtain ⟨a, b, rfl, rfl, hab⟩ := ih hr
        refine ⟨(k, q') :: a, b, by simp, by simp, ?_⟩
        intro o ho
        rcases List.mem_cons.1 ho with rfl | ho
        · assumption
        · exact hab o ho

theorem setFirst_of_split {id n q} {a b : List (Nat × Nat)} (h : ∀ o ∈ a, o.1 ≠ id) :
    setFirst id n (a ++ (id, q) :: b) = some (q, a ++ (id, n) :: b) := by
  induction a with
  | nil => simp [setFirst]
  | cons o a ih =>
    obtain ⟨k, v⟩ := o
    have : k ≠ id := h (k, v) (by simp)
    simp [setFirst, this, ih (fun o ho => h o (by simp [ho]))]

theorem setFirst_split {id n os} (h : id ∈ os.map (·.1)) :
    ∃ a q b, os = a ++ (id, q) :: b ∧ setFirst id n os = some (q, a ++ (id, n) :: b) ∧
      ∀ o ∈ a, o.1 ≠ id := by
  cases hr : setFirst id n os with
  | none =>
    rw [setFirst_none] at hr
    obtain ⟨o, ho, he⟩ := List.mem_map.1 h
    exact absurd he (hr o ho)
  | some v =>
    obtain ⟨q, rest⟩ := v
    obtain ⟨a, b, h1, h2, h3⟩ := setFirst_some hr
    exact ⟨a, q, b, h1, by rw [h2], h3⟩

end Level

/-- A queue entry as a resting order at price `p`. -/
def toR (p : Int) (o : Nat × Nat) : Resting := ⟨o.1, p, o.2⟩

@[simp] theorem toR_id (p o) : (toR p o).id = o.1 := rfl
@[simp] theorem toR_price (p o) : (toR p o).price = p := rfl
@[simp] theorem toR_qty (p o) : (toR p o).qty = o.2 := rfl

theorem volume_map_toR (p os) : volume (os.map (toR p)) = sumQ os := by
  simp [volume, sumQ, Function.comp_def]

/-- Sweeping the orders of one level is `fillQ`. -/
theorem sweep_level (ok : Int → Bool) (p : Int) (hp : ok p = true) (os) : ∀ r,
    (sweep ok r (os.map (toR p))).queue = (Level.fillQ os r).1.map (toR p) ∧
    (sweep ok r (os.map (toR p))).rem = (Level.fillQ os r).2.1 := by
  induction os with
  | nil => intro r; simp [sweep, Level.fillQ]
  | cons o os ih =>
    intro r
    obtain ⟨id, q⟩ := o
    simp only [List.map_cons, sweep, Level.fillQ, toR_price, toR_qty, toR_id, hp]
    by_cases h0 : r = 0
    · subst h0; simp [toR]
    · simp only [h0, decide_false, Bool.not_true, Bool.or_self, Bool.false_eq_true, if_false]
      by_cases hq : r < q
      · simp [hq, toR]
      · simp [hq, ih]

end Verif.TE

import Verif.QL.Pricers
import Verif.Props.ZeroCurve
import Verif.Props.Schedule
import Verif.Props.DayCount
/-!
# C61, C62: the cash flows and the value of a bond

A cash-flow map is a list of dated amounts. `dueAt m i` is the money it promises at the instant `i`; `worth w m` weighs every
amount with a weight of its date. Both are independent of the order of the list.
-/
set_option autoImplicit false
set_option linter.unusedSectionVars false
namespace Verif.Props
open Verif Verif.QL Verif.Civil

/-- Specification: the money due at an instant. -/
noncomputable def dueAt (m : Flows) (i : Int) : ℝ := ((m.filter fun x => decide (x.1.instant = i)).map fun x => x.2).sum

/-- Specification: the weighted sum of a map. -/
noncomputable def worth (w : DT → ℝ) (m : Flows) : ℝ := (m.map fun x => x.2 * w x.1).sum

/-- Specification: no instant occurs twice. -/
def Keyed (m : Flows) : Prop := (m.map fun x => x.1.instant).Nodup

/-- Specification: dates at the same instant are written with the same clock. It holds when all dates have the same UTC
offset (`coherent_of_offset`). -/
def Coherent (l : List DT) : Prop := ∀ d ∈ l, ∀ d' ∈ l, d.instant = d'.instant → d = d'

theorem coherent_of_offset (l : List DT) (off : Int) (h : ∀ d ∈ l, d.off = off ∧ (d.tod : Int) < dayNs) : Coherent l := by
  intro d hd d' hd' e
  obtain ⟨o, t⟩ := h d hd
  obtain ⟨o', t'⟩ := h d' hd'
  have hp := dayNs_pos'
  unfold DT.instant DT.localNs at e
  rw [o, o'] at e
  obtain ⟨a, b, c⟩ := d
  obtain ⟨a', b', c'⟩ := d'
  simp only at o o' t t' e
  have h1 : a * dayNs + b = a' * dayNs + b' := by omega
  have h2 : a = a' := by
    by_contra hne
    rcases lt_or_gt_of_ne hne with hlt | hlt
    · nlinarith [Int.natCast_nonneg b']
    · nlinarith [Int.natCast_nonneg b]
  subst h2
  have : b = b' := by omega
  subst this
  rw [o, o']

/-- The value of a computation that succeeds. -/
noncomputable def valOf (r : Res ℝ) : ℝ := match r with
  | .ok a => a
  | .error _ => 0

theorem valOf_ok (a : ℝ) : valOf (.ok a) = a := rfl

/-! ### maps -/

theorem dueAt_nil (i : Int) : dueAt [] i = 0 := rfl

theorem dueAt_cons (x : DT × ℝ) (m : Flows) (i : Int) : dueAt (x :: m) i = (if x.1.instant = i then x.2 else 0) + dueAt m i := by
  unfold dueAt
  rw [List.filter_cons]
  by_cases h : x.1.instant = i
  · simp [h]
  · simp [h]

theorem dueAt_perm {m m' : Flows} (h : m.Perm m') (i : Int) : dueAt m i = dueAt m' i := by
  unfold dueAt
  exact ((h.filter _).map _).sum_eq

theorem worth_perm {m m' : Flows} (h : m.Perm m') (w : DT → ℝ) : worth w m = worth w m' := by
  unfold worth
  exact (h.map _).sum_eq

theorem worth_cons (w : DT → ℝ) (x : DT × ℝ) (m : Flows) : worth w (x :: m) = x.2 * w x.1 + worth w m := by simp [worth]

theorem dueAt_addTo (k : DT) (a : ℝ) (m : Flows) (i : Int) :
    dueAt (addTo k a m) i = dueAt m i + if k.instant = i then a else 0 := by
  induction m with
  | nil => simp [addTo, dueAt_cons, dueAt_nil]
  | cons x m ih =>
    obtain ⟨d, v⟩ := x
    unfold addTo
    by_cases h : d.instant = k.instant
    · rw [if_pos h, dueAt_cons, dueAt_cons]
      simp only [h]
      by_cases h2 : k.instant = i
      · simp only [h2, if_true]; ring
      · simp only [h2, if_false]; ring
    · rw [if_neg h, dueAt_cons, dueAt_cons, ih]; ring

theorem addTo_keys (k : DT) (a : ℝ) (m : Flows) : ∀ x ∈ addTo k a m, x.1 = k ∨ x.1 ∈ m.map Prod.fst := by
  induction m with
  | nil => intro x hx; simp [addTo] at hx; left; rw [hx]
  | cons y m ih =>
    obtain ⟨d, v⟩ := y
    intro x hx
    unfold addTo at hx
    by_cases h : d.instant = k.instant
    · rw [if_pos h] at hx
      right
      rcases List.mem_cons.1 hx with e | e
      · rw [e]; simp
      · exact List.mem_map.2 ⟨x, List.mem_cons_of_mem _ e, rfl⟩
    · rw [if_neg h] at hx
      rcases List.mem_cons.1 hx with e | e
      · right; rw [e]; simp
      · rcases ih x e with q | q
        · exact Or.inl q
        · right; rw [List.map_cons]; exact List.mem_cons_of_mem _ q

theorem addTo_instants (k : DT) (a : ℝ) (m : Flows) :
    (addTo k a m).map (fun x => x.1.instant) = if k.instant ∈ m.map (fun x => x.1.instant) then m.map (fun x => x.1.instant)
      else m.map (fun x => x.1.instant) ++ [k.instant] := by
  induction m with
  | nil => simp [addTo]
  | cons y m ih =>
    obtain ⟨d, v⟩ := y
    unfold addTo
    by_cases h : d.instant = k.instant
    · rw [if_pos h]; simp [h]
    · rw [if_neg h, List.map_cons, ih]
      have h' : ¬ k.instant = d.instant := fun e => h e.symm
      by_cases h2 : k.instant ∈ m.map (fun x => x.1.instant)
      · rw [if_pos h2, if_pos (by rw [List.map_cons]; exact List.mem_cons_of_mem _ h2)]; rfl
      · rw [if_neg h2, if_neg (by
          rw [List.map_cons]
          intro hh
          rcases List.mem_cons.1 hh with e | e
          · exact h' e
          · exact h2 e)]
        rfl

theorem addTo_keyed (k : DT) (a : ℝ) (m : Flows) (h : Keyed m) : Keyed (addTo k a m) := by
  unfold Keyed at *
  rw [addTo_instants]
  split
  · exact h
  · rename_i hn
    rw [List.nodup_append]
    refine ⟨h, by simp, ?_⟩
    intro x hx y hy e
    rw [List.mem_singleton.1 hy] at e
    exact hn (e ▸ hx)

theorem worth_addTo (w : DT → ℝ) (k : DT) (a : ℝ) (m : Flows) (h : ∀ x ∈ m, x.1.instant = k.instant → x.1 = k) :
    worth w (addTo k a m) = worth w m + a * w k := by
  induction m with
  | nil => simp [addTo, worth]
  | cons y m ih =>
    obtain ⟨d, v⟩ := y
    unfold addTo
    by_cases hd : d.instant = k.instant
    · rw [if_pos hd, worth_cons, worth_cons]
      have := h (d, v) (List.mem_cons_self ..) hd
      simp only at this
      rw [this]; ring
    · rw [if_neg hd, worth_cons, worth_cons, ih (fun x hx => h x (List.mem_cons_of_mem _ hx))]; ring

theorem dueAt_absent (m : Flows) (i : Int) (h : i ∉ m.map fun x => x.1.instant) : dueAt m i = 0 := by
  unfold dueAt
  rw [List.filter_eq_nil_iff.2]
  · rfl
  · intro x hx e
    exact h (List.mem_map.2 ⟨x, hx, by simpa using e⟩)

theorem dueAt_putAt (k : DT) (a : ℝ) (m : Flows) (hm : Keyed m) (i : Int) :
    dueAt (putAt k a m) i = if k.instant = i then a else dueAt m i := by
  induction m with
  | nil => simp [putAt, dueAt_cons, dueAt_nil]
  | cons y m ih =>
    obtain ⟨d, v⟩ := y
    unfold Keyed at hm
    rw [List.map_cons, List.nodup_cons] at hm
    unfold putAt
    by_cases h : d.instant = k.instant
    · rw [if_pos h, dueAt_cons, dueAt_cons]
      simp only [h]
      by_cases h2 : k.instant = i
      · simp only [h2, if_true]
        rw [dueAt_absent m i (by rw [← h2, ← h]; exact hm.1)]; ring
      · simp only [h2, if_false]
    · rw [if_neg h, dueAt_cons, dueAt_cons, ih hm.2]
      by_cases h2 : k.instant = i
      · have : ¬ d.instant = i := by rw [← h2]; exact h
        simp only [h2, if_true, this, if_false]; ring
      · simp only [h2, if_false]

theorem putAt_instants (k : DT) (a : ℝ) (m : Flows) :
    (putAt k a m).map (fun x => x.1.instant) = if k.instant ∈ m.map (fun x => x.1.instant) then m.map (fun x => x.1.instant)
      else m.map (fun x => x.1.instant) ++ [k.instant] := by
  rw [← addTo_instants k a m]
  induction m with
  | nil => rfl
  | cons y m ih =>
    obtain ⟨d, v⟩ := y
    unfold addTo putAt
    split
    · rfl
    · rw [List.map_cons, List.map_cons, ih]

theorem putAt_keyed (k : DT) (a : ℝ) (m : Flows) (h : Keyed m) : Keyed (putAt k a m) := by
  unfold Keyed
  rw [putAt_instants, ← addTo_instants k a m]
  exact addTo_keyed k a m h

theorem putAt_new (k : DT) (a : ℝ) (m : Flows) (h : ∀ x ∈ m, x.1.instant ≠ k.instant) : putAt k a m = m ++ [(k, a)] := by
  induction m with
  | nil => rfl
  | cons y m ih =>
    obtain ⟨d, v⟩ := y
    unfold putAt
    rw [if_neg (h (d, v) (List.mem_cons_self ..)), ih fun x hx => h x (List.mem_cons_of_mem _ hx)]
    rfl

/-! ### the loop over a schedule -/

variable {α : Type}

/-- What the loop adds up. -/
noncomputable def flowFold (pay : α → DT) (amount : α → Res ℝ) (pricing : DT) (xs : List α) (m : Flows) : Flows :=
  xs.foldl (fun m x => if (pay x).day < pricing.day then m else addTo (pay x) (valOf (amount x)) m) m

theorem flowLoop_iff (pay : α → DT) (amount : α → Res ℝ) (pricing : DT) (xs : List α) (m m' : Flows) :
    flowLoop pay amount pricing xs m = .ok m' ↔
      (∀ x ∈ xs, pricing.day ≤ (pay x).day → ∃ a, amount x = .ok a) ∧ m' = flowFold pay amount pricing xs m := by
  induction xs generalizing m with
  | nil => simp [flowLoop, flowFold, eq_comm]
  | cons x xs ih =>
    unfold flowLoop
    by_cases h : (pay x).day < pricing.day
    · rw [if_pos h, ih]
      constructor
      · rintro ⟨a, b⟩
        refine ⟨fun y hy hd => ?_, ?_⟩
        · rcases List.mem_cons.1 hy with e | e
          · rw [e] at hd; omega
          · exact a y e hd
        · rw [b]; simp [flowFold, h]
      · rintro ⟨a, b⟩
        refine ⟨fun y hy => a y (List.mem_cons_of_mem _ hy), ?_⟩
        rw [b]; simp [flowFold, h]
    · rw [if_neg h, bind_ok_iff]
      constructor
      · rintro ⟨v, hv, e⟩
        rw [ih] at e
        refine ⟨fun y hy hd => ?_, ?_⟩
        · rcases List.mem_cons.1 hy with e' | e'
          · rw [e']; exact ⟨v, hv⟩
          · exact e.1 y e' hd
        · rw [e.2]; simp [flowFold, h, hv, valOf]
      · rintro ⟨a, b⟩
        obtain ⟨v, hv⟩ := a x (List.mem_cons_self ..) (by omega)
        refine ⟨v, hv, (ih _).2 ⟨fun y hy => a y (List.mem_cons_of_mem _ hy), ?_⟩⟩
        rw [b]; simp [flowFold, h, hv, valOf]

theorem flowFold_cons (pay : α → DT) (amount : α → Res ℝ) (pricing : DT) (x : α) (xs : List α) (m : Flows) :
    flowFold pay amount pricing (x :: xs) m = flowFold pay amount pricing xs
      (if (pay x).day < pricing.day then m else addTo (pay x) (valOf (amount x)) m) := rfl

theorem flowFold_dueAt (pay : α → DT) (amount : α → Res ℝ) (pricing : DT) (xs : List α) (m : Flows) (i : Int) :
    dueAt (flowFold pay amount pricing xs m) i = dueAt m i
      + (xs.map fun x => if pricing.day ≤ (pay x).day ∧ (pay x).instant = i then valOf (amount x) else 0).sum := by
  induction xs generalizing m with
  | nil => simp [flowFold]
  | cons x xs ih =>
    rw [flowFold_cons, ih, List.map_cons, List.sum_cons]
    by_cases h : (pay x).day < pricing.day
    · rw [if_pos h, if_neg (by omega)]; ring
    · rw [if_neg h, dueAt_addTo]
      have h' : pricing.day ≤ (pay x).day := by omega
      by_cases h2 : (pay x).instant = i
      · rw [if_pos h2, if_pos ⟨h', h2⟩]; ring
      · rw [if_neg h2, if_neg (by tauto)]; ring

theorem flowFold_keyed (pay : α → DT) (amount : α → Res ℝ) (pricing : DT) (xs : List α) (m : Flows) (h : Keyed m) :
    Keyed (flowFold pay amount pricing xs m) := by
  induction xs generalizing m with
  | nil => exact h
  | cons x xs ih =>
    rw [flowFold_cons]
    apply ih
    split
    · exact h
    · exact addTo_keyed _ _ _ h

theorem flowFold_keys (pay : α → DT) (amount : α → Res ℝ) (pricing : DT) (xs : List α) (m : Flows) :
    ∀ y ∈ flowFold pay amount pricing xs m, y.1 ∈ m.map Prod.fst ∨ ∃ x ∈ xs, pricing.day ≤ (pay x).day ∧ y.1 = pay x := by
  induction xs generalizing m with
  | nil => intro y hy; exact Or.inl (List.mem_map.2 ⟨y, hy, rfl⟩)
  | cons x xs ih =>
    intro y hy
    rw [flowFold_cons] at hy
    rcases ih _ y hy with q | ⟨z, hz, e⟩
    · by_cases h : (pay x).day < pricing.day
      · rw [if_pos h] at q; exact Or.inl q
      · rw [if_neg h] at q
        obtain ⟨u, hu, e⟩ := List.mem_map.1 q
        rcases addTo_keys _ _ _ u hu with k | k
        · exact Or.inr ⟨x, List.mem_cons_self .., by omega, by rw [← e, k]⟩
        · exact Or.inl (e ▸ k)
    · exact Or.inr ⟨z, List.mem_cons_of_mem _ hz, e⟩

theorem flowFold_worth (w : DT → ℝ) (pay : α → DT) (amount : α → Res ℝ) (pricing : DT) (xs : List α) (m : Flows)
    (hc : Coherent (m.map Prod.fst ++ xs.map pay)) :
    worth w (flowFold pay amount pricing xs m) = worth w m
      + (xs.map fun x => if pricing.day ≤ (pay x).day then valOf (amount x) * w (pay x) else 0).sum := by
  induction xs generalizing m with
  | nil => simp [flowFold]
  | cons x xs ih =>
    rw [flowFold_cons, List.map_cons, List.sum_cons]
    by_cases h : (pay x).day < pricing.day
    · rw [if_pos h, if_neg (by omega), ih m]
      · ring
      · intro d hd d' hd'
        refine hc d ?_ d' ?_
        · rw [List.mem_append] at hd ⊢
          exact hd.imp id fun q => by rw [List.map_cons]; exact List.mem_cons_of_mem _ q
        · rw [List.mem_append] at hd' ⊢
          exact hd'.imp id fun q => by rw [List.map_cons]; exact List.mem_cons_of_mem _ q
    · rw [if_neg h, if_pos (by omega)]
      have sub : ∀ d ∈ (addTo (pay x) (valOf (amount x)) m).map Prod.fst ++ xs.map pay,
          d ∈ m.map Prod.fst ++ (x :: xs).map pay := by
        intro d hd
        rw [List.mem_append] at hd ⊢
        rcases hd with q | q
        · obtain ⟨u, hu, e⟩ := List.mem_map.1 q
          rcases addTo_keys _ _ _ u hu with k | k
          · right; rw [← e, k]; simp
          · left; exact e ▸ k
        · right; rw [List.map_cons]; exact List.mem_cons_of_mem _ q
      rw [ih _ fun d hd d' hd' => hc d (sub d hd) d' (sub d' hd'), worth_addTo]
      · ring
      · intro y hy e
        refine hc _ ?_ _ ?_ e
        · exact List.mem_append_left _ (List.mem_map.2 ⟨y, hy, rfl⟩)
        · exact List.mem_append_right _ (by simp)

/-! ### C61: the cash flows of a bond -/

/-- Does the principal come back at `d` or later? -/
def Repays (b : Bond) (pricing : DT) : Prop := b.strip = false ∧ pricing.day ≤ b.maturity.day

/-- **C61** (map). The cash flows of a bond are one entry per instant; what is due at an instant is the sum of the coupons
paid then, of those not paid before the pricing day, and the principal 1 at maturity unless only the coupons are owned. -/
theorem C61_bond_flows (md : Mode) (b : Bond) (mk : Market) (pricing : DT) (m : Flows) (h : b.flows md mk pricing = .ok m) :
    Keyed m ∧ ∀ i, dueAt m i =
      (b.schedule.map fun c => if pricing.day ≤ c.1.payment.day ∧ c.1.payment.instant = i
        then valOf (b.amount md mk pricing c) else 0).sum
      + (open Classical in if Repays b pricing ∧ b.maturity.instant = i then 1 else 0) := by
  unfold Bond.flows at h
  obtain ⟨f, hf, e⟩ := (bind_ok_iff _ _ _).1 h
  cases e
  rw [flowLoop_iff] at hf
  obtain ⟨-, rfl⟩ := hf
  have hk := flowFold_keyed (fun c : Coupon × Option ℝ => c.1.payment) (b.amount md mk pricing) pricing b.schedule []
    (by simp [Keyed])
  unfold Repays
  split
  · rename_i hs
    refine ⟨addTo_keyed _ _ _ hk, fun i => ?_⟩
    rw [dueAt_addTo, flowFold_dueAt, dueAt_nil, zero_add]
    congr 1
    have : pricing.day ≤ b.maturity.day := hs.2
    by_cases h2 : b.maturity.instant = i
    · rw [if_pos h2, if_pos ⟨⟨hs.1, this⟩, h2⟩]
    · rw [if_neg h2, if_neg (by tauto)]
  · rename_i hs
    refine ⟨hk, fun i => ?_⟩
    rw [flowFold_dueAt, dueAt_nil, zero_add, if_neg, add_zero]
    rintro ⟨⟨q, q'⟩, -⟩
    exact hs ⟨q, q'⟩

/-- **C61** (when). The map exists exactly when the amount of every coupon not yet paid does. -/
theorem C61_defined (md : Mode) (b : Bond) (mk : Market) (pricing : DT) :
    (∃ m, b.flows md mk pricing = .ok m) ↔
      ∀ c ∈ b.schedule, pricing.day ≤ c.1.payment.day → ∃ a, b.amount md mk pricing c = .ok a := by
  unfold Bond.flows
  constructor
  · rintro ⟨m, h⟩
    obtain ⟨f, hf, -⟩ := (bind_ok_iff _ _ _).1 h
    exact ((flowLoop_iff _ _ _ _ _ _).1 hf).1
  · intro h
    refine ⟨_, (bind_ok_iff _ _ _).2 ⟨_, (flowLoop_iff _ _ _ _ _ _).2 ⟨h, rfl⟩, rfl⟩⟩

/-- **C61** (fixed coupons). A coupon pays its given amount or, on a fixed-rate bond, the rate times the year fraction of
its period; it exists when the period is not reversed and the day counter is a real one. -/
theorem C61_fixed_amount (md : Mode) (b : Bond) (mk : Market) (pricing : DT) (r : ℝ) (hr : b.fixedRate = some r)
    (hi : b.index = none) (c : Coupon) :
    (∀ a, b.amount md mk pricing (c, some a) = .ok a) ∧
    (∀ q, yearFraction c.start c.stop b.dcc = .ok q → b.amount md mk pricing (c, none) = .ok ((q : ℝ) * r)) ∧
    ((∃ a, b.amount md mk pricing (c, none) = .ok a) ↔ c.start.instant ≤ c.stop.instant ∧ b.dcc ≠ .dummy) := by
  refine ⟨fun a => rfl, fun q hq => ?_, ?_⟩
  · unfold Bond.amount frac
    simp only [hi, hr, hq, Res.bind_ok]
  · have hd : b.amount md mk pricing (c, none) = (do let q ← yearFraction c.start c.stop b.dcc; .ok ((q : ℝ) * r)) := by
      unfold Bond.amount frac
      simp only [hi, hr]
      cases yearFraction c.start c.stop b.dcc <;> rfl
    rw [hd]
    have he := C45_error c.start c.stop b.dcc
    constructor
    · rintro ⟨a, h⟩
      obtain ⟨q, hq, -⟩ := (bind_ok_iff _ _ _).1 h
      by_contra hcon
      have : yearFraction c.start c.stop b.dcc = .error .err := by
        unfold yearFraction
        by_cases h1 : c.start.instant > c.stop.instant
        · rw [if_pos h1]
        · rw [if_neg h1]
          have : b.dcc = .dummy := by
            by_contra h2
            exact hcon ⟨by omega, h2⟩
          rw [this]
      rw [this] at hq
      cases hq
    · rintro ⟨h1, h2⟩
      have : ∃ q, yearFraction c.start c.stop b.dcc = .ok q := by
        unfold yearFraction
        rw [if_neg (by omega)]
        cases hb : b.dcc <;> simp_all
      obtain ⟨q, hq⟩ := this
      exact ⟨_, (bind_ok_iff _ _ _).2 ⟨q, hq, rfl⟩⟩

/-- **C61** (acceptance). A bond is accepted exactly when it has a fixed rate or a rate index, and not both. -/
theorem C61_accepts (b : Bond) : b.new = .ok b ↔ (b.fixedRate.isSome ↔ ¬ b.index.isSome) := by
  unfold Bond.new
  cases b.fixedRate <;> cases b.index <;> simp

/-- A bond made from conventions is not checked: without a rate and without an index, or floating without a forward curve,
the first coupon that is not yet paid stops the program. -/
theorem fault_bond_panics (md : Mode) (b : Bond) (mk : Market) (pricing : DT) (c : Coupon) (rest : List (Coupon × Option ℝ))
    (hs : b.schedule = (c, none) :: rest) (hp : pricing.day ≤ c.payment.day)
    (h : (b.fixedRate = none ∧ b.index = none ∧ c.start.instant ≤ c.stop.instant ∧ b.dcc ≠ .dummy)
      ∨ (b.index.isSome ∧ mk.fwd = none)) :
    b.flows md mk pricing = .error .unwrapNone := by
  have ha : b.amount md mk pricing (c, none) = .error .unwrapNone := by
    rcases h with ⟨h1, h2, h3, h4⟩ | ⟨h1, h2⟩
    · have : ∃ q, yearFraction c.start c.stop b.dcc = .ok q := by
        unfold yearFraction
        rw [if_neg (by omega)]
        cases hb : b.dcc <;> simp_all
      obtain ⟨q, hq⟩ := this
      unfold Bond.amount frac
      simp only [h1, h2, hq, Res.bind_ok]
    · obtain ⟨t, ht⟩ := Option.isSome_iff_exists.1 h1
      unfold Bond.amount
      simp only [ht, h2]
  unfold Bond.flows
  rw [hs]
  unfold flowLoop
  rw [if_neg (by simp only; omega), ha]
  rfl

/-! ### C62: the value of a bond -/

/-- The discount factor of a date. -/
noncomputable def dfOf (l : Live) (d : DT) : ℝ := valOf (l.df d)

theorem discounted_iff (l : Live) (pricing : DT) (m : Flows) (acc v : ℝ) :
    discounted l pricing m acc = .ok v ↔ (∀ x ∈ m, pricing.day < x.1.day → ∃ y, l.df x.1 = .ok y) ∧
      v = acc + worth (fun d => if pricing.day < d.day then dfOf l d else 0) m := by
  induction m generalizing acc with
  | nil => simp [discounted, worth, eq_comm]
  | cons x m ih =>
    obtain ⟨d, a⟩ := x
    unfold discounted
    rw [worth_cons]
    by_cases h : pricing.day < d.day
    · rw [if_pos h, bind_ok_iff]
      constructor
      · rintro ⟨y, hy, e⟩
        obtain ⟨e1, e2⟩ := (ih _).1 e
        refine ⟨fun x hx => ?_, ?_⟩
        · rcases List.mem_cons.1 hx with q | q
          · rw [q]; exact fun _ => ⟨y, hy⟩
          · exact e1 x q
        · rw [e2]; simp only [h, if_true, dfOf, hy, valOf]; ring
      · rintro ⟨h1, h2⟩
        obtain ⟨y, hy⟩ := h1 (d, a) (List.mem_cons_self ..) h
        refine ⟨y, hy, (ih _).2 ⟨fun x hx => h1 x (List.mem_cons_of_mem _ hx), ?_⟩⟩
        rw [h2]; simp only at hy; simp only [h, if_true, dfOf, hy, valOf]; ring
    · rw [if_neg h, ih]
      constructor
      · rintro ⟨e1, e2⟩
        refine ⟨fun x hx hd => ?_, ?_⟩
        · rcases List.mem_cons.1 hx with q | q
          · rw [q] at hd; exact absurd hd h
          · exact e1 x q hd
        · rw [e2]; simp only [h, if_false]; ring
      · rintro ⟨h1, h2⟩
        refine ⟨fun x hx => h1 x (List.mem_cons_of_mem _ hx), ?_⟩
        rw [h2]; simp only [h, if_false]; ring

/-- **C62** (order). The value does not depend on the order in which the map is walked. -/
theorem C62_order (l : Live) (pricing : DT) (m m' : Flows) (hp : m.Perm m') (v : ℝ) :
    discounted l pricing m 0 = .ok v ↔ discounted l pricing m' 0 = .ok v := by
  rw [discounted_iff, discounted_iff, worth_perm hp]
  constructor
  · rintro ⟨a, b⟩; exact ⟨fun x hx => a x (hp.mem_iff.2 hx), b⟩
  · rintro ⟨a, b⟩; exact ⟨fun x hx => a x (hp.mem_iff.1 hx), b⟩

/-- The dates at which a bond pays. -/
def Bond.dates (b : Bond) : List DT := b.schedule.map (fun c => c.1.payment) ++ [b.maturity]

theorem bond_worth (md : Mode) (b : Bond) (mk : Market) (pricing : DT) (m : Flows) (h : b.flows md mk pricing = .ok m)
    (hc : Coherent (Bond.dates b)) (w : DT → ℝ) :
    worth w m = (b.schedule.map fun c => if pricing.day ≤ c.1.payment.day
        then valOf (b.amount md mk pricing c) * w c.1.payment else 0).sum
      + (open Classical in if Repays b pricing then w b.maturity else 0) := by
  unfold Bond.flows at h
  obtain ⟨f, hf, e⟩ := (bind_ok_iff _ _ _).1 h
  cases e
  rw [flowLoop_iff] at hf
  obtain ⟨-, rfl⟩ := hf
  have hw := flowFold_worth w (fun c : Coupon × Option ℝ => c.1.payment) (b.amount md mk pricing) pricing b.schedule [] (by
    intro d hd d' hd'
    exact hc d (List.mem_append_left _ (by simpa using hd)) d' (List.mem_append_left _ (by simpa using hd')))
  have h0 : worth w [] = 0 := rfl
  rw [h0, zero_add] at hw
  unfold Repays
  split
  · rename_i hs
    rw [worth_addTo, hw]
    · ring
    · intro x hx e
      rcases flowFold_keys _ _ _ _ _ x hx with q | ⟨c, hcm, -, q⟩
      · simp at q
      · refine hc _ ?_ _ (by simp [Bond.dates]) e
        rw [q]
        exact List.mem_append_left _ (List.mem_map.2 ⟨c, hcm, rfl⟩)
  · rename_i hs
    rw [hw, add_zero]

theorem bond_flow_days (md : Mode) (b : Bond) (mk : Market) (pricing : DT) (m : Flows) (h : b.flows md mk pricing = .ok m) :
    ∀ x ∈ m, pricing.day ≤ x.1.day ∧ x.1 ∈ Bond.dates b := by
  unfold Bond.flows at h
  obtain ⟨f, hf, e⟩ := (bind_ok_iff _ _ _).1 h
  cases e
  rw [flowLoop_iff] at hf
  obtain ⟨-, rfl⟩ := hf
  have hk : ∀ x ∈ flowFold (fun c : Coupon × Option ℝ => c.1.payment) (b.amount md mk pricing) pricing b.schedule [],
      pricing.day ≤ x.1.day ∧ x.1 ∈ Bond.dates b := by
    intro x hx
    rcases flowFold_keys _ _ _ _ _ x hx with q | ⟨c, hcm, hd, q⟩
    · simp at q
    · rw [q]
      exact ⟨hd, List.mem_append_left _ (List.mem_map.2 ⟨c, hcm, rfl⟩)⟩
  split
  · rename_i hs
    intro x hx
    rcases addTo_keys _ _ _ x hx with q | q
    · rw [q]; exact ⟨hs.2, by simp [Bond.dates]⟩
    · obtain ⟨y, hy, e⟩ := List.mem_map.1 q
      rw [← e]; exact hk y hy
  · exact hk

/-- Specification: the value of what the bond still pays after the pricing day, discounted to today. -/
noncomputable def bondValue (md : Mode) (l : Live) (b : Bond) (mk : Market) (pricing : DT) : ℝ :=
  (b.schedule.map fun c => if pricing.day < c.1.payment.day
      then valOf (b.amount md mk pricing c) * dfOf l c.1.payment else 0).sum
    + (open Classical in if b.strip = false ∧ pricing.day < b.maturity.day then dfOf l b.maturity else 0)

/-- Specification: the day a bond is priced at: its own pricing date, if it has one, otherwise the evaluation date. -/
def pricedAt (b : Bond) (eval : DT) : DT :=
  match b.pricing with
  | some d => d
  | none => eval

theorem pricing_eq (p : BondPricer) (b : Bond) : p.pricing b = pricedAt b p.eval := by
  unfold BondPricer.pricing pricedAt
  cases b.pricing <;> rfl

theorem bond_npv_iff (md : Mode) (p : BondPricer) (b : Bond) (v : ℝ) :
    p.npv md b = .ok v ↔ ∃ m s d, b.flows md p.mkt (p.pricing b) = .ok m ∧
      discounted { curve := p.disc, eval := p.eval } (p.pricing b) m 0 = .ok s ∧
      Live.df { curve := p.disc, eval := p.eval } (p.pricing b) = .ok d ∧ divK s d = .ok v := by
  unfold BondPricer.npv
  simp only [bind_ok_iff]
  constructor
  · rintro ⟨m, a, s, c, d, e, f⟩; exact ⟨m, s, d, a, c, e, f⟩
  · rintro ⟨m, s, d, a, c, e, f⟩; exact ⟨m, a, s, c, d, e, f⟩

theorem bond_npv_value (md : Mode) (p : BondPricer) (b : Bond) (v : ℝ) (h : p.npv md b = .ok v) (hc : Coherent (Bond.dates b)) :
    ∃ d, Live.df { curve := p.disc, eval := p.eval } (p.pricing b) = .ok d ∧ d ≠ 0 ∧
      v = bondValue md { curve := p.disc, eval := p.eval } b p.mkt (p.pricing b) / d := by
  obtain ⟨m, s, d, hm, hs, hd, hv⟩ := (bond_npv_iff md p b v).1 h
  refine ⟨d, hd, ?_⟩
  rw [discounted_iff, zero_add, bond_worth md b _ _ m hm hc] at hs
  obtain ⟨-, hs⟩ := hs
  unfold divK at hv
  split at hv
  · cases hv
  · rename_i h0
    cases hv
    refine ⟨h0, ?_⟩
    rw [hs]
    unfold bondValue Repays
    congr 2
    · congr 1
      apply List.map_congr_left
      intro c _
      by_cases h1 : (p.pricing b).day < c.1.payment.day
      · rw [if_pos (by omega), if_pos h1, if_pos h1]
      · simp only [if_neg h1]; split <;> simp
    · by_cases h1 : b.strip = false
      · by_cases h2 : (p.pricing b).day < b.maturity.day
        · rw [if_pos ⟨h1, by omega⟩, if_pos h2, if_pos ⟨h1, h2⟩]
        · have e2 : ¬ (b.strip = false ∧ (p.pricing b).day < b.maturity.day) := fun q => h2 q.2
          simp only [if_neg h2, if_neg e2]
          split <;> rfl
      · rw [if_neg (fun q => h1 q.1), if_neg (fun q => h1 q.1)]

/-- **C62** (value). The price of a bond is the sum of its payments after the pricing day, each times the discount factor
of its date, and of the principal, divided by the discount factor of the pricing date. -/
theorem C62_npv (md : Mode) (p : BondPricer) (b : Bond) (v : ℝ) (h : p.npv md b = .ok v) (hc : Coherent (Bond.dates b)) :
    ∃ d, Live.df { curve := p.disc, eval := p.eval } (pricedAt b p.eval) = .ok d ∧ d ≠ 0 ∧
      v = bondValue md { curve := p.disc, eval := p.eval } b p.mkt (pricedAt b p.eval) / d := by
  rw [← pricing_eq]
  exact bond_npv_value md p b v h hc

theorem reported_eq (pricing : DT) (m : Flows) (h : ∀ x ∈ m, pricing.day ≤ x.1.day) (i : Nat) :
    reported pricing i m = (m.zipIdx i).map fun x => (x.2, x.1) := by
  induction m generalizing i with
  | nil => rfl
  | cons x m ih =>
    obtain ⟨d, a⟩ := x
    unfold reported
    rw [if_pos (h (d, a) (List.mem_cons_self ..)), ih fun y hy => h y (List.mem_cons_of_mem _ hy)]
    rfl

theorem bond_result (md : Mode) (p : BondPricer) (b : Bond) :
    (∀ v, p.npv md b = .ok v ↔ ∃ r, p.result md b = .ok r ∧ r.npv = v) ∧
    ∀ r, p.result md b = .ok r → ∃ m, b.flows md p.mkt (p.pricing b) = .ok m ∧ r.amounts.map (fun x => x.2) = m ∧
      (r.amounts.map fun x => x.1).Nodup ∧ r.probs = r.amounts.map fun x => (x.1, x.2.1, 1) := by
  have hr : ∀ r, p.result md b = .ok r ↔ ∃ m s d v, b.flows md p.mkt (p.pricing b) = .ok m ∧
      discounted { curve := p.disc, eval := p.eval } (p.pricing b) m 0 = .ok s ∧
      Live.df { curve := p.disc, eval := p.eval } (p.pricing b) = .ok d ∧ divK s d = .ok v ∧
      r = { npv := v, amounts := reported (p.pricing b) 0 m, probs := certain (reported (p.pricing b) 0 m) } := by
    intro r
    unfold BondPricer.result
    simp only [bind_ok_iff]
    constructor
    · rintro ⟨m, a, s, c, d, e, v, f, g⟩; cases g; exact ⟨m, s, d, v, a, c, e, f, rfl⟩
    · rintro ⟨m, s, d, v, a, c, e, f, g⟩; exact ⟨m, a, s, c, d, e, v, f, by rw [g]⟩
  constructor
  · intro v
    rw [bond_npv_iff]
    constructor
    · rintro ⟨m, s, d, a, c, e, f⟩
      exact ⟨_, (hr _).2 ⟨m, s, d, v, a, c, e, f, rfl⟩, rfl⟩
    · rintro ⟨r, h, e⟩
      obtain ⟨m, s, d, v', a, c, f, g, e'⟩ := (hr r).1 h
      subst e'
      simp only at e
      subst e
      exact ⟨m, s, d, a, c, f, g⟩
  · intro r h
    obtain ⟨m, s, d, v, a, -, -, -, e⟩ := (hr r).1 h
    subst e
    refine ⟨m, a, ?_, ?_, rfl⟩
    · simp only
      rw [reported_eq _ _ fun x hx => (bond_flow_days md b _ _ m a x hx).1, List.map_map]
      change (m.zipIdx 0).map Prod.fst = m
      simp
    · simp only
      rw [reported_eq _ _ fun x hx => (bond_flow_days md b _ _ m a x hx).1, List.map_map]
      change ((m.zipIdx 0).map Prod.snd).Nodup
      rw [List.zipIdx_map_snd]
      exact List.nodup_range'

/-- **C62** (report). The detailed result exists exactly when the price does, carries the same price, and reports every
entry of the cash-flow map once, with probability one. -/
theorem C62_result (md : Mode) (p : BondPricer) (b : Bond) :
    (∀ v, p.npv md b = .ok v ↔ ∃ r, p.result md b = .ok r ∧ r.npv = v) ∧
    ∀ r, p.result md b = .ok r → ∃ m, b.flows md p.mkt (pricedAt b p.eval) = .ok m ∧ r.amounts.map (fun x => x.2) = m ∧
      (r.amounts.map fun x => x.1).Nodup ∧ r.probs = r.amounts.map fun x => (x.1, x.2.1, 1) := by
  rw [← pricing_eq]
  exact bond_result md p b

/-- **C62** (coupon rate). The price of a fixed-rate bond is an affine function of its coupon rate. -/
theorem C62_linear (md : Mode) (p : BondPricer) (b : Bond) (hi : b.index = none) (v0 : ℝ)
    (h : p.npv md b = .ok v0) (hc : Coherent (Bond.dates b)) :
    ∃ A B : ℝ, ∀ r, p.npv md { b with fixedRate := some r } = .ok (A + r * B) := by
  obtain ⟨m, s, d, hm, hs, hd, hv⟩ := (bond_npv_iff md p b v0).1 h
  have hd0 : d ≠ 0 := by
    intro e
    rw [e] at hv
    simp [divK] at hv
  have hdef := (C61_defined md b p.mkt (p.pricing b)).1 ⟨m, hm⟩
  set pr := p.pricing b with hpr
  set l : Live := { curve := p.disc, eval := p.eval } with hl
  -- the amount of a coupon at rate `r`
  let am : ℝ → Coupon × Option ℝ → ℝ := fun r c => match c.2 with
    | some a => a
    | none => valOf (frac c.1.start c.1.stop b.dcc) * r
  have ham : ∀ r, ∀ c ∈ b.schedule, pr.day ≤ c.1.payment.day →
      Bond.amount md { b with fixedRate := some r } p.mkt pr c = .ok (am r c) := by
    intro r c hcm hcd
    obtain ⟨a, ha⟩ := hdef c hcm hcd
    obtain ⟨cc, o⟩ := c
    cases o with
    | some x => rfl
    | none =>
      unfold Bond.amount at ha ⊢
      simp only [hi] at ha ⊢
      obtain ⟨q, hq, -⟩ := (bind_ok_iff _ _ _).1 ha
      simp only [hq, Res.bind_ok, am, valOf]
  have hfl : ∀ r, ∃ m', Bond.flows md { b with fixedRate := some r } p.mkt pr = .ok m' := by
    intro r
    rw [C61_defined]
    exact fun c hcm hcd => ⟨_, ham r c hcm hcd⟩
  -- every date that counts has a discount factor
  have hdfs : ∀ r m', Bond.flows md { b with fixedRate := some r } p.mkt pr = .ok m' →
      ∀ x ∈ m', pr.day < x.1.day → ∃ y, l.df x.1 = .ok y := by
    intro r m' hm' x hx hxd
    -- the date occurs in the map of `b` as well
    obtain ⟨k1, k2⟩ := bond_flow_days md _ _ _ m' hm' x hx
    have hdates : Bond.dates ({ b with fixedRate := some r } : Bond) = Bond.dates b := rfl
    rw [hdates] at k2
    have hsame : m'.map (fun y => y.1) = m.map (fun y => y.1) := by
      have keyeq : ∀ (k : DT) (a a' : ℝ) (n n' : Flows), n.map (fun y => y.1) = n'.map (fun y => y.1) →
          (addTo k a n).map (fun y => y.1) = (addTo k a' n').map (fun y => y.1) := by
        intro k a a' n
        induction n with
        | nil => intro n' e; cases n' with
          | nil => rfl
          | cons y n' => simp at e
        | cons y n ih =>
          intro n' e
          cases n' with
          | nil => simp at e
          | cons y' n' =>
            obtain ⟨yd, ya⟩ := y
            obtain ⟨zd, za⟩ := y'
            rw [List.map_cons, List.map_cons, List.cons.injEq] at e
            simp only at e
            obtain ⟨e1, e2⟩ := e
            subst e1
            unfold addTo
            split
            · simp [e2]
            · rw [List.map_cons, List.map_cons, ih n' e2]
      have foldeq : ∀ (f g : Coupon × Option ℝ → Res ℝ) (xs : List (Coupon × Option ℝ)) (n n' : Flows),
          n.map (fun y => y.1) = n'.map (fun y => y.1) →
          (flowFold (fun c : Coupon × Option ℝ => c.1.payment) f pr xs n).map (fun y => y.1)
            = (flowFold (fun c : Coupon × Option ℝ => c.1.payment) g pr xs n').map (fun y => y.1) := by
        intro f g xs
        induction xs with
        | nil => intro n n' e; exact e
        | cons x xs ih =>
          intro n n' e
          rw [flowFold_cons, flowFold_cons]
          apply ih
          split
          · exact e
          · exact keyeq _ _ _ _ _ e
      unfold Bond.flows at hm hm'
      obtain ⟨f, hf, e⟩ := (bind_ok_iff _ _ _).1 hm
      obtain ⟨f', hf', e'⟩ := (bind_ok_iff _ _ _).1 hm'
      rw [flowLoop_iff] at hf hf'
      obtain ⟨-, rfl⟩ := hf
      obtain ⟨-, rfl⟩ := hf'
      cases e
      cases e'
      simp only
      split
      · exact keyeq _ _ _ _ _ (foldeq _ _ _ _ _ rfl)
      · exact foldeq _ _ _ _ _ rfl
    have : x.1 ∈ m.map (fun y => y.1) := by rw [← hsame]; exact List.mem_map.2 ⟨x, hx, rfl⟩
    obtain ⟨y, hy, e⟩ := List.mem_map.1 this
    rw [discounted_iff] at hs
    have := hs.1 y hy (by rw [e]; exact hxd)
    rw [e] at this
    exact this
  refine ⟨((b.schedule.map fun c => if pr.day < c.1.payment.day ∧ c.2.isSome then am 0 c * dfOf l c.1.payment else 0).sum
      + (open Classical in if b.strip = false ∧ pr.day < b.maturity.day then dfOf l b.maturity else 0)) / d,
    ((b.schedule.map fun c => if pr.day < c.1.payment.day ∧ c.2.isNone
        then valOf (frac c.1.start c.1.stop b.dcc) * dfOf l c.1.payment else 0).sum) / d, fun r => ?_⟩
  obtain ⟨m', hm'⟩ := hfl r
  have hs' : discounted l pr m' 0 = .ok (0 + worth (fun d => if pr.day < d.day then dfOf l d else 0) m') :=
    (discounted_iff _ _ _ _ _).2 ⟨hdfs r m' hm', rfl⟩
  have hnpv : p.npv md { b with fixedRate := some r }
      = .ok ((0 + worth (fun d => if pr.day < d.day then dfOf l d else 0) m') / d) := by
    rw [bond_npv_iff]
    exact ⟨m', _, d, hm', hs', hd, by unfold divK; rw [if_neg hd0]⟩
  obtain ⟨d', hd', -, hval⟩ := bond_npv_value md p _ _ hnpv hc
  have hpr' : p.pricing ({ b with fixedRate := some r } : Bond) = pr := rfl
  rw [hpr'] at hd' hval
  rw [hd] at hd'
  cases hd'
  rw [hnpv]
  refine congrArg Except.ok ?_
  rw [hval]
  unfold bondValue
  simp only
  have key : ∀ xs : List (Coupon × Option ℝ), (∀ c ∈ xs, c ∈ b.schedule) →
      (xs.map fun c => if pr.day < c.1.payment.day then valOf (Bond.amount md { b with fixedRate := some r } p.mkt pr c)
        * dfOf l c.1.payment else 0).sum
      = (xs.map fun c => if pr.day < c.1.payment.day ∧ c.2.isSome then am 0 c * dfOf l c.1.payment else 0).sum
        + r * (xs.map fun c => if pr.day < c.1.payment.day ∧ c.2.isNone
            then valOf (frac c.1.start c.1.stop b.dcc) * dfOf l c.1.payment else 0).sum := by
    intro xs
    induction xs with
    | nil => intro _; simp
    | cons c xs ih =>
      intro hsub
      simp only [List.map_cons, List.sum_cons]
      rw [ih fun y hy => hsub y (List.mem_cons_of_mem _ hy)]
      have hcm := hsub c (List.mem_cons_self ..)
      by_cases hlt : pr.day < c.1.payment.day
      · have := ham r c hcm (by omega)
        obtain ⟨cc, o⟩ := c
        cases o with
        | some x =>
          simp only [hlt, if_true, this, valOf, Option.isSome_some, Option.isNone_some, and_true, and_false, if_false, am,
            Bool.false_eq_true]
          ring
        | none =>
          simp only [hlt, if_true, this, valOf, Option.isSome_none, Option.isNone_none, and_true, and_false, if_false, am,
            Bool.false_eq_true]
          ring
      · simp only [hlt, if_false, false_and]; ring
  rw [key b.schedule fun _ hq => hq]
  ring

/-! ### A concrete curve and a concrete bond -/

/-- Midnight UTC of a day. -/
def day0 (y : Int) (m d : Nat) : DT := { day := (Ymd.mk y m d).ord, tod := 0, off := 0 }

theorem sample_curve (r : ℝ) : ∃ c, Curve.new .checked (day0 2021 1 1) [1] [r] = .ok c ∧ CurveOk c ∧
    (∃ tl, c.times[c.times.length - 1]? = some tl ∧ 99 ≤ tl) ∧ ∀ t, 0 ≤ t → t < 99 → ∃ y, c.df t = .ok y ∧ 0 < y := by
  have hv : (day0 2021 1 1).Valid := by refine ⟨?_, ?_, ?_⟩ <;> decide +kernel
  obtain ⟨c, ds, e, ok, l, hds, et, -⟩ := C57_new .checked (day0 2021 1 1) hv (by decide +kernel) [1] [r] rfl (by simp) (by simp)
  have hlen : ds.length = 29 := by rw [← l, et, List.length_map]
  have hlast : ∃ tl, c.times[c.times.length - 1]? = some tl ∧ 99 ≤ tl := by
    have h28 := (List.forall₂_iff_get.1 hds).2 28 (by decide) (by omega)
    have e28 : addPeriod .checked (day0 2021 1 1) ['1', '0', '0', 'Y'] = .ok (day0 2121 1 1) := by decide +kernel
    have hx : ds.get ⟨28, by omega⟩ = day0 2121 1 1 := by
      have : addPeriod .checked (day0 2021 1 1) (tenors.get ⟨28, by decide⟩) = .ok (day0 2121 1 1) := e28
      rw [this] at h28
      exact (Except.ok.inj h28).symm
    refine ⟨((timeDifference (day0 2021 1 1) (day0 2121 1 1) : ℚ) : ℝ), ?_, ?_⟩
    · rw [l, et, List.getElem?_map]
      have : ds[28]? = some (day0 2121 1 1) := by
        rw [List.getElem?_eq_getElem (by omega)]
        exact congrArg some hx
      rw [this]
      rfl
    · have : (99 : ℚ) ≤ timeDifference (day0 2021 1 1) (day0 2121 1 1) := by decide +kernel
      exact_mod_cast this
  obtain ⟨tl, htl, h99⟩ := hlast
  obtain ⟨-, -, h, -⟩ := C57_range c ok tl htl
  refine ⟨c, e, ok, ⟨tl, htl, h99⟩, ?_⟩
  intro t h0 h1
  obtain ⟨y, a, b⟩ := h t h0 (by linarith)
  exact ⟨y, a, b⟩

/-- A 5 % bond with two half-year coupons and its principal in 2022, on a flat 3 % curve seen from 2021-01-01: it has a
price, so the hypotheses of the theorems on bonds are met. -/
noncomputable def sampleBond : Bond :=
  { strip := false
    schedule := [({ fixing := day0 2021 7 1, start := day0 2021 7 1, stop := day0 2022 1 1, payment := day0 2022 1 1 }, none),
      ({ fixing := day0 2022 1 1, start := day0 2022 1 1, stop := day0 2022 7 1, payment := day0 2022 7 1 }, none)]
    fixedRate := some 0.05, spread := none, index := none, comp := none, pricing := none, maturity := day0 2022 7 1
    hol := fun _ => .ok false, dcc := .actual365Fixed, fixGap := 0 }

theorem bond_witness : ∃ c v, Curve.new .checked (day0 2021 1 1) [1] [0.03] = .ok c ∧
    BondPricer.npv .checked { eval := day0 2021 1 1, disc := c, mkt := { fwd := none, close := none } } sampleBond = .ok v ∧
    Coherent (Bond.dates sampleBond) ∧ (sampleBond.new = .ok sampleBond) := by
  obtain ⟨c, e, ok, -, hdf⟩ := sample_curve 0.03
  have hco : Coherent (Bond.dates sampleBond) := coherent_of_offset _ 0 (by decide +kernel)
  have hdef : ∃ m, sampleBond.flows .checked { fwd := none, close := none } (day0 2021 1 1) = .ok m := by
    rw [C61_defined]
    intro x hx _
    rcases List.mem_cons.1 hx with q | hx
    · rw [q]
      exact ((C61_fixed_amount .checked sampleBond { fwd := none, close := none } (day0 2021 1 1) 0.05 rfl rfl _).2.2).2
        ⟨by decide +kernel, by decide⟩
    · rw [List.mem_singleton.1 hx]
      exact ((C61_fixed_amount .checked sampleBond { fwd := none, close := none } (day0 2021 1 1) 0.05 rfl rfl _).2.2).2
        ⟨by decide +kernel, by decide⟩
  obtain ⟨m, hm⟩ := hdef
  have hall : ∀ d ∈ Bond.dates sampleBond ++ [day0 2021 1 1], ∃ y, Live.df { curve := c, eval := day0 2021 1 1 } d = .ok y ∧ 0 < y := by
    intro d hd
    have ht : ((0 : ℚ) ≤ timeDifference (day0 2021 1 1) d ∧ timeDifference (day0 2021 1 1) d < 99) := by
      revert d
      decide +kernel
    unfold Live.df
    rw [(C57_at_date c ok _ d).1]
    exact hdf _ (by exact_mod_cast ht.1) (by exact_mod_cast ht.2)
  obtain ⟨d, hd, hpos⟩ := hall (day0 2021 1 1) (by simp)
  have hs := (discounted_iff { curve := c, eval := day0 2021 1 1 } (day0 2021 1 1) m 0 _).2 ⟨fun x hx _ => by
    obtain ⟨y, hy, -⟩ := hall x.1 (List.mem_append_left _ (bond_flow_days _ _ _ _ m hm x hx).2)
    exact ⟨y, hy⟩, rfl⟩
  refine ⟨c, _, e, (bond_npv_iff _ _ _ _).2 ⟨m, _, d, hm, hs, hd, if_neg (ne_of_gt hpos)⟩, hco, ?_⟩
  · rw [C61_accepts]; simp [sampleBond]

end Verif.Props

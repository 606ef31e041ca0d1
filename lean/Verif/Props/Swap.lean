import Verif.Props.Cashflow
/-!
# C63 - C66: swaps

The kind of a swap, the cash flows of its legs, its value, its exposure by currency and the report of its payments.
-/
set_option autoImplicit false
set_option linter.unusedSectionVars false
namespace Verif.Props
open Verif Verif.QL Verif.Civil

/-! ### C63: the kind of a swap -/

/-- Specification: nothing is exchanged at the start. -/
def NoInitial (s : Swap) : Prop := s.initFixed = none ∧ s.initFloat = none
/-- Specification: both sides exchange an amount at the start. -/
def Initial (s : Swap) : Prop := s.initFixed ≠ none ∧ s.initFloat ≠ none
/-- Specification: nothing is exchanged at the end. -/
def NoFinal (s : Swap) : Prop := s.lastFixed = none ∧ s.lastFloat = none
/-- Specification: both sides exchange an amount at the end. -/
def Final (s : Swap) : Prop := s.lastFixed ≠ none ∧ s.lastFloat ≠ none
/-- Specification: there is a fixed rate and a floating rate. -/
def Rates (s : Swap) : Prop := s.fixedRate ≠ none ∧ s.index ≠ none
/-- Specification: there are no rates and no coupons. -/
def Bare (s : Swap) : Prop := s.fixedRate = none ∧ s.index = none ∧ s.fixedLegs = [] ∧ s.floatLegs = []

/-- Specification: what each kind of swap is. -/
def IsKind (s : Swap) : SwapType → Prop
  | .irs => NoInitial s ∧ NoFinal s ∧ Rates s ∧ s.fixedCcy = s.floatCcy
  | .crs => Initial s ∧ Final s ∧ Rates s ∧ s.fixedCcy ≠ s.floatCcy
  | .fxSwap => Initial s ∧ Final s ∧ Bare s ∧ s.fixedCcy ≠ s.floatCcy
  | .fxSpot => NoInitial s ∧ Final s ∧ Bare s ∧ s.fixedCcy ≠ s.floatCcy ∧ s.maturity.day ≤ s.issue.day + 2
  | .fxForward => NoInitial s ∧ Final s ∧ Bare s ∧ s.fixedCcy ≠ s.floatCcy ∧ s.issue.day + 2 < s.maturity.day

theorem addDays_two (s : Swap) (hv : minDay ≤ s.issue.day ∧ s.issue.day + 2 ≤ maxDay) :
    QL.addDays s.issue.day 2 = .ok (s.issue.day + 2) := by
  unfold QL.addDays checkDay
  rw [if_pos ⟨by omega, hv.2⟩]

/-- **C63** (kind). `new` gives a swap a kind exactly when it meets the definition of that kind, and refuses it with an
error exactly when it meets none; the kinds exclude each other. The issue date must lie two days before the end of the
calendar. -/
theorem C63_kind (s : Swap) (hv : minDay ≤ s.issue.day ∧ s.issue.day + 2 ≤ maxDay) :
    (∀ t, s.classify true = .ok t ↔ IsKind s t) ∧ (s.classify true = .error .err ↔ ∀ t, ¬ IsKind s t) ∧
    ∀ t t', IsKind s t → IsKind s t' → t = t' := by
  have h1 : ∀ t, s.classify true = .ok t ↔ IsKind s t := by
    intro t
    unfold Swap.classify
    rw [addDays_two s hv]
    simp only [Res.bind_ok]
    simp only [Option.isNone_iff_eq_none, Option.isSome_iff_ne_none, true_implies]
    constructor
    · split
      · rename_i g; intro e; cases e
        obtain ⟨a, b, c, d, e, f, g⟩ := g
        exact ⟨⟨a, b⟩, ⟨c, d⟩, ⟨f, e⟩, g⟩
      split
      · rename_i g; intro e; cases e
        obtain ⟨a, b, c, d, e, f, g⟩ := g
        exact ⟨⟨a, b⟩, ⟨c, d⟩, ⟨f, e⟩, g⟩
      split
      · rename_i g; intro e; cases e
        obtain ⟨a, b, c, d, x, y, e, f, g⟩ := g
        exact ⟨⟨a, b⟩, ⟨c, d⟩, ⟨f, e, x, y⟩, g⟩
      split
      · rename_i g
        obtain ⟨a, b, c, d, x, y, e, f, g⟩ := g
        split
        · rename_i hle; intro e'; cases e'
          exact ⟨⟨a, b⟩, ⟨c, d⟩, ⟨f, e, x, y⟩, g, hle⟩
        · rename_i hle; intro e'; cases e'
          exact ⟨⟨a, b⟩, ⟨c, d⟩, ⟨f, e, x, y⟩, g, by omega⟩
      · intro e; cases e
    · intro h
      cases t with
      | irs =>
        obtain ⟨⟨a, b⟩, ⟨c, d⟩, ⟨f, e⟩, g⟩ := h
        rw [if_pos ⟨a, b, c, d, e, f, g⟩]
      | crs =>
        obtain ⟨⟨a, b⟩, ⟨c, d⟩, ⟨f, e⟩, g⟩ := h
        rw [if_neg (fun q => a q.1), if_pos ⟨a, b, c, d, e, f, g⟩]
      | fxSwap =>
        obtain ⟨⟨a, b⟩, ⟨c, d⟩, ⟨f, e, x, y⟩, g⟩ := h
        rw [if_neg (fun q => a q.1), if_neg (fun q => q.2.2.2.2.1 e), if_pos ⟨a, b, c, d, x, y, e, f, g⟩]
      | fxSpot =>
        obtain ⟨⟨a, b⟩, ⟨c, d⟩, ⟨f, e, x, y⟩, g, z⟩ := h
        rw [if_neg (fun q => c q.2.2.1), if_neg (fun q => q.1 a), if_neg (fun q => q.1 a),
          if_pos ⟨a, b, c, d, x, y, e, f, g⟩, if_pos z]
      | fxForward =>
        obtain ⟨⟨a, b⟩, ⟨c, d⟩, ⟨f, e, x, y⟩, g, z⟩ := h
        rw [if_neg (fun q => c q.2.2.1), if_neg (fun q => q.1 a), if_neg (fun q => q.1 a),
          if_pos ⟨a, b, c, d, x, y, e, f, g⟩, if_neg (by omega)]
  have h2 : ∀ e, s.classify true = .error e → e = .err := by
    intro e
    unfold Swap.classify
    rw [addDays_two s hv]
    simp only [Res.bind_ok]
    split
    · intro h; cases h
    split
    · intro h; cases h
    split
    · intro h; cases h
    split
    · split <;> intro h <;> cases h
    · intro h; cases h; rfl
  refine ⟨h1, ?_, ?_⟩
  · constructor
    · intro h t ht
      rw [(h1 t).2 ht] at h
      cases h
    · intro h
      cases e : s.classify true with
      | ok t => exact absurd ((h1 t).1 e) (h t)
      | error e' => rw [h2 e' e]
  · intro t t' ht ht'
    have a := (h1 t).2 ht
    have b := (h1 t').2 ht'
    rw [a] at b
    exact Except.ok.inj b

theorem build_nonempty (md : Mode) (hol : DT → Res Bool) (forward : Bool) (eff mat : DT) (he : eff.Valid) (hm : mat.Valid)
    (conv : BDC) (f : Freq) (fixGap payGap : Int) (cs : List Coupon)
    (hok : buildSchedule md hol forward eff mat conv f fixGap payGap = .ok cs) (hlt : eff.instant < mat.instant) : cs ≠ [] := by
  cases ht : tenor f with
  | none =>
    have hf : f = .none := by cases f <;> simp [tenor] at ht ⊢
    subst hf
    by_cases hg : 0 ≤ fixGap ∧ 0 ≤ payGap
    · rw [(C46_refused md hol forward eff mat conv .none fixGap payGap).2.2 hg.1 hg.2 hlt] at hok
      cases hok
    · rw [(C46_refused md hol forward eff mat conv .none fixGap payGap).1 (by omega)] at hok
      cases hok
  | some p =>
    obtain ⟨h, u⟩ := p
    intro e
    cases forward with
    | true =>
      have := (C46_forward_starts md hol eff mat he hm conv f h u ht fixGap payGap cs hok).1.1 e
      omega
    | false =>
      have := (C46_backward_starts md hol eff mat he hm conv f h u ht fixGap payGap cs hok).1.1 e
      omega

/-- **C63** (conventions). Made from conventions, with an effective date before maturity, a swap has the schedules built
from the conventions and can only be an interest rate or a currency swap; the currencies of an interest rate swap are not
compared. -/
theorem C63_conventions (md : Mode) (s : Swap) (forward : Bool) (fc gc : BDC) (ff gf : Freq) (payGap : Int)
    (he : s.eff.Valid) (hm : s.maturity.Valid) (hlt : s.eff.instant < s.maturity.instant) (s' : Swap) (t : SwapType)
    (h : s.fromConventions md forward fc gc ff gf payGap = .ok (s', t)) :
    buildSchedule md s.hol forward s.eff s.maturity fc ff s.fixGap payGap = .ok s'.fixedLegs ∧
    buildSchedule md s.hol forward s.eff s.maturity gc gf s.fixGap payGap = .ok s'.floatLegs ∧
    s' = { s with fixedLegs := s'.fixedLegs, floatLegs := s'.floatLegs } ∧
    ((t = .irs ∧ NoInitial s ∧ NoFinal s ∧ Rates s) ∨ (t = .crs ∧ IsKind s .crs)) := by
  unfold Swap.fromConventions at h
  obtain ⟨f, hf, h⟩ := (bind_ok_iff _ _ _).1 h
  obtain ⟨g, hg, h⟩ := (bind_ok_iff _ _ _).1 h
  obtain ⟨t', ht, h⟩ := (bind_ok_iff _ _ _).1 h
  cases h
  have hne := build_nonempty md _ _ _ _ he hm _ _ _ _ _ hf hlt
  refine ⟨hf, hg, rfl, ?_⟩
  unfold Swap.classify at ht
  simp only [Bool.false_eq_true, false_implies, and_true, hne, false_and, and_false, if_false] at ht
  split at ht
  · rename_i hc
    cases ht
    left
    simp only [Option.isNone_iff_eq_none, Option.isSome_iff_ne_none] at hc
    exact ⟨rfl, ⟨hc.1, hc.2.1⟩, ⟨hc.2.2.1, hc.2.2.2.1⟩, ⟨hc.2.2.2.2.2, hc.2.2.2.2.1⟩⟩
  · split at ht
    · rename_i hc
      cases ht
      right
      simp only [Option.isSome_iff_ne_none] at hc
      exact ⟨rfl, ⟨hc.1, hc.2.1⟩, ⟨hc.2.2.1, hc.2.2.2.1⟩, ⟨hc.2.2.2.2.2.1, hc.2.2.2.2.1⟩, hc.2.2.2.2.2.2⟩
    · cases ht

/-- An exchange of two amounts without coupons (FX swap, forward or spot) cannot be made from conventions when its
effective date is before maturity: the schedules built are never empty. -/
theorem fault_fx_from_conventions (md : Mode) (s : Swap) (forward : Bool) (fc gc : BDC) (ff gf : Freq) (payGap : Int)
    (he : s.eff.Valid) (hm : s.maturity.Valid) (hlt : s.eff.instant < s.maturity.instant)
    (hr : s.fixedRate = none ∨ s.index = none) : ∀ r, s.fromConventions md forward fc gc ff gf payGap ≠ .ok r := by
  rintro ⟨s', t⟩ h
  rcases (C63_conventions md s forward fc gc ff gf payGap he hm hlt s' t h).2.2.2 with ⟨-, -, -, q⟩ | ⟨-, -, -, q, -⟩
  · rcases hr with hr | hr
    · exact q.1 hr
    · exact q.2 hr
  · rcases hr with hr | hr
    · exact q.1 hr
    · exact q.2 hr

/-! ### C64: the cash flows of the legs -/

/-- Specification: an amount exchanged at `d`, unless it was paid before the pricing day. -/
noncomputable def exchange (pricing d : DT) (x : Option ℝ) : ℝ := if pricing.day ≤ d.day then x.getD 0 else 0

/-- The two exchanges of a leg. -/
noncomputable def exchanges (eff mat pricing : DT) (x y : Option ℝ) : Flows :=
  let m : Flows := match x with
    | some x => if eff.day ≥ pricing.day then putAt eff x [] else []
    | none => []
  match y with
  | some y => if mat.day ≥ pricing.day then putAt mat y m else m
  | none => m

theorem fixedPrincipal_eq (s : Swap) (pricing : DT) :
    s.fixedPrincipal pricing = exchanges s.eff s.maturity pricing s.initFixed (s.lastFixed.map fun y => -y) := by
  unfold Swap.fixedPrincipal exchanges
  cases s.initFixed <;> cases s.lastFixed <;> rfl

theorem floatPrincipal_eq (s : Swap) (pricing : DT) :
    s.floatPrincipal pricing = exchanges s.eff s.maturity pricing (s.initFloat.map fun y => -y) s.lastFloat := by
  unfold Swap.floatPrincipal exchanges
  cases s.initFloat <;> cases s.lastFloat <;> rfl

theorem exchanges_spec (eff mat pricing : DT) (x y : Option ℝ) (hne : eff.instant ≠ mat.instant) :
    Keyed (exchanges eff mat pricing x y) ∧
    (∀ z ∈ exchanges eff mat pricing x y, (z.1 = eff ∨ z.1 = mat) ∧ pricing.day ≤ z.1.day) ∧
    (∀ i, dueAt (exchanges eff mat pricing x y) i = (if eff.instant = i then exchange pricing eff x else 0)
      + (if mat.instant = i then exchange pricing mat y else 0)) ∧
    ∀ w, worth w (exchanges eff mat pricing x y) = exchange pricing eff x * w eff + exchange pricing mat y * w mat := by
  unfold exchanges exchange
  cases x with
  | none =>
    cases y with
    | none => simp [Keyed, dueAt_nil, worth]
    | some y =>
      by_cases h : pricing.day ≤ mat.day
      · simp [h, putAt, Keyed, dueAt_cons, dueAt_nil, worth]
      · simp [h, Keyed, dueAt_nil, worth]
  | some x =>
    by_cases h1 : pricing.day ≤ eff.day
    · cases y with
      | none => simp [h1, putAt, Keyed, dueAt_cons, dueAt_nil, worth]
      | some y =>
        by_cases h : pricing.day ≤ mat.day
        · simp [h1, h, putAt, Keyed, dueAt_cons, dueAt_nil, worth, hne]
        · simp [h1, h, putAt, Keyed, dueAt_cons, dueAt_nil, worth]
    · cases y with
      | none => simp [h1, Keyed, dueAt_nil, worth]
      | some y =>
        by_cases h : pricing.day ≤ mat.day
        · simp [h1, h, putAt, Keyed, dueAt_cons, dueAt_nil, worth]
        · simp [h1, h, Keyed, dueAt_nil, worth]

/-- Specification: the amount of a fixed coupon, paid by the owner of the swap: rate times year fraction on the initial
amount (on 1 without one). -/
noncomputable def fixedCoupon (s : Swap) (c : Coupon) : ℝ :=
  match s.fixedRate with
  | none => 0
  | some r => -(r * valOf (frac c.start c.stop s.fixedDcc) * s.initFixed.getD 1)

/-- What a floating coupon is made from. -/
noncomputable def floatEnv (s : Swap) (mk : Market) (f : Live) (pricing : DT) (tenor : List Char) : FloatEnv :=
  { fwd := f, close := mk.close.getD fun _ => none, pricing := pricing, tenor := tenor, hol := s.hol, dcc := s.floatDcc, fixDays := s.fixGap }

/-- Specification: the amount of a floating coupon (see C66) on the initial amount, but on 1 once the effective date is
past. -/
noncomputable def floatCoupon (md : Mode) (s : Swap) (mk : Market) (pricing : DT) (c : Coupon) : ℝ :=
  match s.index, mk.fwd with
  | some tenor, some f => valOf ((floatEnv s mk f pricing tenor).amount md s.comp none c)
      * (if pricing.day ≤ s.eff.day then s.initFloat.getD 1 else 1)
  | _, _ => 0

/-- Specification: the money a leg promises at an instant. -/
noncomputable def legDue (s : Swap) (pricing : DT) (first last : Option ℝ) (legs : List Coupon) (amount : Coupon → ℝ) (i : Int) : ℝ :=
  (if s.eff.instant = i then exchange pricing s.eff first else 0) + (if s.maturity.instant = i then exchange pricing s.maturity last else 0)
    + (legs.map fun c => if pricing.day ≤ c.payment.day ∧ c.payment.instant = i then amount c else 0).sum

theorem fixed_amount_val (s : Swap) (r : ℝ) (hr : s.fixedRate = some r) (c : Coupon) :
    valOf (s.fixedAmount r c) = fixedCoupon s c := by
  unfold Swap.fixedAmount fixedCoupon
  rw [hr]
  cases hf : frac c.start c.stop s.fixedDcc with
  | error e => simp [valOf, bind, Except.bind]
  | ok q => simp only [Res.bind_ok, valOf]; ring

/-- **C64** (fixed leg). One entry per instant; what is due at an instant is the initial amount (received) at the effective
date, the final amount (paid) at maturity and the coupons paid then, leaving out what was paid before the pricing day. -/
theorem C64_fixed (s : Swap) (pricing : DT) (m : Flows) (hne : s.eff.instant ≠ s.maturity.instant)
    (h : s.fixedFlows pricing = .ok m) :
    Keyed m ∧ ∀ i, dueAt m i = legDue s pricing s.initFixed (s.lastFixed.map fun y => -y) s.fixedLegs (fixedCoupon s) i := by
  obtain ⟨e1, -, e3, -⟩ := exchanges_spec s.eff s.maturity pricing s.initFixed (s.lastFixed.map fun y => -y) hne
  unfold Swap.fixedFlows at h
  rw [fixedPrincipal_eq] at h
  unfold legDue
  cases hr : s.fixedRate with
  | none =>
    rw [hr] at h
    cases h
    refine ⟨e1, fun i => ?_⟩
    rw [e3]
    have : ∀ c, fixedCoupon s c = 0 := by intro c; unfold fixedCoupon; rw [hr]
    simp [this]
  | some r =>
    rw [hr] at h
    simp only at h
    rw [flowLoop_iff] at h
    obtain ⟨-, rfl⟩ := h
    refine ⟨flowFold_keyed _ _ _ _ _ e1, fun i => ?_⟩
    rw [flowFold_dueAt, e3]
    simp only [fixed_amount_val s r hr]

theorem float_amount_val (md : Mode) (s : Swap) (mk : Market) (pricing : DT) (tenor : List Char) (hi : s.index = some tenor) (c : Coupon) :
    valOf (s.floatAmount md mk pricing tenor c) = floatCoupon md s mk pricing c := by
  unfold Swap.floatAmount floatCoupon
  rw [hi]
  cases hf : mk.fwd with
  | none => rfl
  | some f =>
    simp only
    unfold floatEnv
    cases ha : FloatEnv.amount md { fwd := f, close := mk.close.getD fun _ => none, pricing := pricing, tenor := tenor, hol := s.hol, dcc := s.floatDcc, fixDays := s.fixGap } s.comp none c with
    | error e => simp [valOf, bind, Except.bind]
    | ok q =>
      simp only [Res.bind_ok, valOf]
      unfold Swap.floatBase
      cases s.initFloat with
      | none => simp
      | some x => rfl

/-- **C64** (floating leg). The same with the signs exchanged: the initial amount is paid, the final one received. -/
theorem C64_floating (md : Mode) (s : Swap) (mk : Market) (pricing : DT) (m : Flows)
    (hne : s.eff.instant ≠ s.maturity.instant) (h : s.floatFlows md mk pricing = .ok m) :
    Keyed m ∧ ∀ i, dueAt m i = legDue s pricing (s.initFloat.map fun y => -y) s.lastFloat s.floatLegs (floatCoupon md s mk pricing) i := by
  obtain ⟨e1, -, e3, -⟩ := exchanges_spec s.eff s.maturity pricing (s.initFloat.map fun y => -y) s.lastFloat hne
  unfold Swap.floatFlows at h
  rw [floatPrincipal_eq] at h
  unfold legDue
  cases hr : s.index with
  | none =>
    rw [hr] at h
    cases h
    refine ⟨e1, fun i => ?_⟩
    rw [e3]
    have : ∀ c, floatCoupon md s mk pricing c = 0 := by intro c; unfold floatCoupon; rw [hr]
    simp [this]
  | some r =>
    rw [hr] at h
    simp only at h
    rw [flowLoop_iff] at h
    obtain ⟨-, rfl⟩ := h
    refine ⟨flowFold_keyed _ _ _ _ _ e1, fun i => ?_⟩
    rw [flowFold_dueAt, e3]
    simp only [float_amount_val md s mk pricing r hr]

/-- **C64** (when). The maps exist exactly when the amount of every coupon not yet paid does; a leg without a rate always
has one. A floating leg without a forward curve panics at the first open coupon. -/
theorem C64_defined (md : Mode) (s : Swap) (mk : Market) (pricing : DT) :
    ((∃ m, s.fixedFlows pricing = .ok m) ↔ (s.fixedRate = none ∨ ∀ c ∈ s.fixedLegs, pricing.day ≤ c.payment.day →
      c.start.instant ≤ c.stop.instant ∧ s.fixedDcc ≠ .dummy)) ∧
    ((∃ m, s.floatFlows md mk pricing = .ok m) ↔ ∀ tenor, s.index = some tenor → ∀ c ∈ s.floatLegs, pricing.day ≤ c.payment.day →
      ∃ f a, mk.fwd = some f ∧ (floatEnv s mk f pricing tenor).amount md s.comp none c = .ok a) := by
  constructor
  · unfold Swap.fixedFlows
    cases hr : s.fixedRate with
    | none => simp
    | some r =>
      simp only [reduceCtorEq, false_or]
      have key : ∀ c, (∃ a, s.fixedAmount r c = .ok a) ↔ c.start.instant ≤ c.stop.instant ∧ s.fixedDcc ≠ .dummy := by
        intro c
        unfold Swap.fixedAmount frac
        constructor
        · rintro ⟨a, h⟩
          obtain ⟨q, hq, -⟩ := (bind_ok_iff _ _ _).1 h
          obtain ⟨q', hq', -⟩ := (bind_ok_iff _ _ _).1 hq
          unfold yearFraction at hq'
          split at hq'
          · cases hq'
          · refine ⟨by omega, ?_⟩
            intro hd
            rw [hd] at hq'
            cases hq'
        · rintro ⟨h1, h2⟩
          have : ∃ q, yearFraction c.start c.stop s.fixedDcc = .ok q := by
            unfold yearFraction
            rw [if_neg (by omega)]
            cases hb : s.fixedDcc <;> simp_all
          obtain ⟨q, hq⟩ := this
          rw [hq]
          exact ⟨_, rfl⟩
      constructor
      · rintro ⟨m, h⟩ c hc hp
        exact (key c).1 (((flowLoop_iff _ _ _ _ _ _).1 h).1 c hc hp)
      · intro h
        exact ⟨_, (flowLoop_iff _ _ _ _ _ _).2 ⟨fun c hc hp => (key c).2 (h c hc hp), rfl⟩⟩
  · unfold Swap.floatFlows
    cases hr : s.index with
    | none => simp
    | some t =>
      simp only [Option.some.injEq, forall_eq']
      have key : ∀ c, (∃ a, s.floatAmount md mk pricing t c = .ok a) ↔
          ∃ f a, mk.fwd = some f ∧ (floatEnv s mk f pricing t).amount md s.comp none c = .ok a := by
        intro c
        unfold Swap.floatAmount
        cases mk.fwd with
        | none => simp
        | some f =>
          simp only [Option.some.injEq]
          constructor
          · rintro ⟨a, h⟩
            obtain ⟨q, hq, -⟩ := (bind_ok_iff _ _ _).1 h
            exact ⟨f, q, rfl, hq⟩
          · rintro ⟨f', a, rfl, h⟩
            exact ⟨_, (bind_ok_iff _ _ _).2 ⟨a, h, rfl⟩⟩
      constructor
      · rintro ⟨m, h⟩ c hc hp
        exact (key c).1 (((flowLoop_iff _ _ _ _ _ _).1 h).1 c hc hp)
      · intro h
        exact ⟨_, (flowLoop_iff _ _ _ _ _ _).2 ⟨fun c hc hp => (key c).2 (h c hc hp), rfl⟩⟩

/-! ### C65: the value of a swap -/

/-- The dates at which a leg pays. -/
def legDates (s : Swap) (legs : List Coupon) : List DT := [s.eff, s.maturity] ++ legs.map Coupon.payment

theorem leg_worth (s : Swap) (pricing : DT) (first last : Option ℝ) (legs : List Coupon) (amount : Coupon → Res ℝ) (m : Flows)
    (hne : s.eff.instant ≠ s.maturity.instant) (hc : Coherent (legDates s legs))
    (h : flowLoop Coupon.payment amount pricing legs (exchanges s.eff s.maturity pricing first last) = .ok m) (w : DT → ℝ) :
    (worth w m = exchange pricing s.eff first * w s.eff + exchange pricing s.maturity last * w s.maturity
      + (legs.map fun c => if pricing.day ≤ c.payment.day then valOf (amount c) * w c.payment else 0).sum) ∧
    ∀ x ∈ m, pricing.day ≤ x.1.day := by
  obtain ⟨e1, e2, -, e4⟩ := exchanges_spec s.eff s.maturity pricing first last hne
  rw [flowLoop_iff] at h
  obtain ⟨-, rfl⟩ := h
  constructor
  · rw [flowFold_worth, e4]
    intro d hd d' hd'
    have sub : ∀ d ∈ (exchanges s.eff s.maturity pricing first last).map Prod.fst ++ legs.map Coupon.payment, d ∈ legDates s legs := by
      intro d hd
      rcases List.mem_append.1 hd with q | q
      · obtain ⟨u, hu, e⟩ := List.mem_map.1 q
        rcases (e2 u hu).1 with k | k
        · rw [← e, k]; simp [legDates]
        · rw [← e, k]; simp [legDates]
      · exact List.mem_append_right _ q
    exact hc d (sub d hd) d' (sub d' hd')
  · intro x hx
    rcases flowFold_keys _ _ _ _ _ x hx with q | ⟨c, -, hd, e⟩
    · obtain ⟨u, hu, e⟩ := List.mem_map.1 q
      rw [← e]
      exact (e2 u hu).2
    · rw [e]; exact hd

/-- Specification: the value of a leg seen from `l`: what it pays after the pricing day, discounted. -/
noncomputable def legValue (l : Live) (s : Swap) (first last : Option ℝ) (legs : List Coupon) (amount : Coupon → ℝ) : ℝ :=
  (if l.eval.day < s.eff.day then first.getD 0 * dfOf l s.eff else 0)
    + (if l.eval.day < s.maturity.day then last.getD 0 * dfOf l s.maturity else 0)
    + (legs.map fun c => if l.eval.day < c.payment.day then amount c * dfOf l c.payment else 0).sum

/-- Specification: the value of the fixed leg, in its own currency. -/
noncomputable def fixedValue (p : SwapPricer) (s : Swap) : ℝ :=
  legValue { curve := p.fixedCurve, eval := p.eval } s s.initFixed (s.lastFixed.map fun y => -y) s.fixedLegs (fixedCoupon s)

/-- Specification: the value of the floating leg, in its own currency. -/
noncomputable def floatValue (md : Mode) (p : SwapPricer) (s : Swap) : ℝ :=
  legValue { curve := p.floatCurve, eval := p.eval } s (s.initFloat.map fun y => -y) s.lastFloat s.floatLegs (floatCoupon md s p.mkt p.eval)

theorem legValue_eq (l : Live) (s : Swap) (first last : Option ℝ) (legs : List Coupon) (amount : Coupon → Res ℝ) (am : Coupon → ℝ)
    (ham : ∀ c, valOf (amount c) = am c) (m : Flows)
    (hne : s.eff.instant ≠ s.maturity.instant) (hc : Coherent (legDates s legs))
    (h : flowLoop Coupon.payment amount l.eval legs (exchanges s.eff s.maturity l.eval first last) = .ok m) :
    worth (fun d => if l.eval.day < d.day then dfOf l d else 0) m = legValue l s first last legs am := by
  rw [(leg_worth s l.eval first last legs amount m hne hc h _).1]
  unfold legValue exchange
  congr 1
  · congr 1
    · by_cases h1 : l.eval.day < s.eff.day
      · rw [if_pos (by omega), if_pos h1, if_pos h1]
      · simp [if_neg h1]
    · by_cases h1 : l.eval.day < s.maturity.day
      · rw [if_pos (by omega), if_pos h1, if_pos h1]
      · simp [if_neg h1]
  · congr 1
    apply List.map_congr_left
    intro c _
    by_cases h1 : l.eval.day < c.payment.day
    · rw [if_pos (by omega), if_pos h1, if_pos h1, ham]
    · simp [if_neg h1]

theorem fixed_flows_loop (s : Swap) (pricing : DT) (m : Flows) (h : s.fixedFlows pricing = .ok m) :
    ∃ amount legs, (∀ c, valOf (amount c) = fixedCoupon s c) ∧ (legs = s.fixedLegs ∨ (legs = [] ∧ ∀ c, fixedCoupon s c = 0)) ∧
    flowLoop Coupon.payment amount pricing legs (exchanges s.eff s.maturity pricing s.initFixed (s.lastFixed.map fun y => -y)) = .ok m := by
  unfold Swap.fixedFlows at h
  rw [fixedPrincipal_eq] at h
  cases hr : s.fixedRate with
  | none =>
    rw [hr] at h
    have : ∀ c, fixedCoupon s c = 0 := by intro c; unfold fixedCoupon; rw [hr]
    exact ⟨fun _ => .ok 0, [], fun c => by rw [this]; rfl, Or.inr ⟨rfl, this⟩, h⟩
  | some r =>
    rw [hr] at h
    exact ⟨s.fixedAmount r, s.fixedLegs, fixed_amount_val s r hr, Or.inl rfl, h⟩

theorem float_flows_loop (md : Mode) (s : Swap) (mk : Market) (pricing : DT) (m : Flows) (h : s.floatFlows md mk pricing = .ok m) :
    ∃ amount legs, (∀ c, valOf (amount c) = floatCoupon md s mk pricing c) ∧
      (legs = s.floatLegs ∨ (legs = [] ∧ ∀ c, floatCoupon md s mk pricing c = 0)) ∧
    flowLoop Coupon.payment amount pricing legs (exchanges s.eff s.maturity pricing (s.initFloat.map fun y => -y) s.lastFloat) = .ok m := by
  unfold Swap.floatFlows at h
  rw [floatPrincipal_eq] at h
  cases hr : s.index with
  | none =>
    rw [hr] at h
    have : ∀ c, floatCoupon md s mk pricing c = 0 := by intro c; unfold floatCoupon; rw [hr]
    exact ⟨fun _ => .ok 0, [], fun c => by rw [this]; rfl, Or.inr ⟨rfl, this⟩, h⟩
  | some r =>
    rw [hr] at h
    exact ⟨s.floatAmount md mk pricing r, s.floatLegs, float_amount_val md s mk pricing r hr, Or.inl rfl, h⟩

theorem legValue_nil (l : Live) (s : Swap) (first last : Option ℝ) (legs : List Coupon) (am : Coupon → ℝ) (h : ∀ c, am c = 0) :
    legValue l s first last [] am = legValue l s first last legs am := by
  unfold legValue
  simp [h]

theorem coherent_nil (s : Swap) (legs : List Coupon) (h : Coherent (legDates s legs)) : Coherent (legDates s []) := by
  intro d hd d' hd'
  have sub : ∀ d ∈ legDates s [], d ∈ legDates s legs := by
    intro d hd
    simp only [legDates, List.map_nil, List.append_nil] at hd
    exact List.mem_append_left _ hd
  exact h d (sub d hd) d' (sub d' hd')

theorem fixed_worth (p : SwapPricer) (s : Swap) (m : Flows) (hne : s.eff.instant ≠ s.maturity.instant)
    (hc : Coherent (legDates s s.fixedLegs)) (h : s.fixedFlows p.eval = .ok m) :
    worth (fun d => if p.eval.day < d.day then dfOf { curve := p.fixedCurve, eval := p.eval } d else 0) m = fixedValue p s ∧
    ∀ x ∈ m, p.eval.day ≤ x.1.day := by
  obtain ⟨amount, legs, ha, hl, hf⟩ := fixed_flows_loop s p.eval m h
  unfold fixedValue
  rcases hl with rfl | ⟨rfl, h0⟩
  · exact ⟨legValue_eq { curve := p.fixedCurve, eval := p.eval } s _ _ _ amount _ ha m hne hc hf, (leg_worth s p.eval _ _ _ amount m hne hc hf fun _ => 0).2⟩
  · have hc' := coherent_nil s _ hc
    rw [← legValue_nil _ s _ _ s.fixedLegs _ h0]
    exact ⟨legValue_eq { curve := p.fixedCurve, eval := p.eval } s _ _ _ amount _ ha m hne hc' hf, (leg_worth s p.eval _ _ _ amount m hne hc' hf fun _ => 0).2⟩

theorem float_worth (md : Mode) (p : SwapPricer) (s : Swap) (m : Flows) (hne : s.eff.instant ≠ s.maturity.instant)
    (hc : Coherent (legDates s s.floatLegs)) (h : s.floatFlows md p.mkt p.eval = .ok m) :
    worth (fun d => if p.eval.day < d.day then dfOf { curve := p.floatCurve, eval := p.eval } d else 0) m = floatValue md p s ∧
    ∀ x ∈ m, p.eval.day ≤ x.1.day := by
  obtain ⟨amount, legs, ha, hl, hf⟩ := float_flows_loop md s p.mkt p.eval m h
  unfold floatValue
  rcases hl with rfl | ⟨rfl, h0⟩
  · exact ⟨legValue_eq { curve := p.floatCurve, eval := p.eval } s _ _ _ amount _ ha m hne hc hf, (leg_worth s p.eval _ _ _ amount m hne hc hf fun _ => 0).2⟩
  · have hc' := coherent_nil s _ hc
    rw [← legValue_nil _ s _ _ s.floatLegs _ h0]
    exact ⟨legValue_eq { curve := p.floatCurve, eval := p.eval } s _ _ _ amount _ ha m hne hc' hf, (leg_worth s p.eval _ _ _ amount m hne hc' hf fun _ => 0).2⟩

/-- What every computation on a swap starts with. -/
def SwapParts (md : Mode) (p : SwapPricer) (s : Swap) (m n : Flows) (x y : ℝ) : Prop :=
  s.fixedFlows p.eval = .ok m ∧ s.floatFlows md p.mkt p.eval = .ok n ∧
  discounted { curve := p.fixedCurve, eval := p.eval } p.eval m 0 = .ok x ∧
  discounted { curve := p.floatCurve, eval := p.eval } p.eval n 0 = .ok y

theorem swap_npv_iff (md : Mode) (p : SwapPricer) (s : Swap) (v : ℝ) :
    p.npv md s = .ok v ↔ ∃ m n x y, SwapParts md p s m n x y ∧ v = x + y * p.fx.getD 1 := by
  unfold SwapPricer.npv SwapParts
  simp only [bind_ok_iff]
  constructor
  · rintro ⟨m, a, n, b, x, c, y, d, e⟩; cases e; exact ⟨m, n, x, y, ⟨a, b, c, d⟩, rfl⟩
  · rintro ⟨m, n, x, y, ⟨a, b, c, d⟩, e⟩; exact ⟨m, a, n, b, x, c, y, d, by rw [e]⟩

theorem parts_values (md : Mode) (p : SwapPricer) (s : Swap) (hne : s.eff.instant ≠ s.maturity.instant)
    (hc : Coherent (legDates s s.fixedLegs)) (hc' : Coherent (legDates s s.floatLegs)) (m n : Flows) (x y : ℝ)
    (h : SwapParts md p s m n x y) : x = fixedValue p s ∧ y = floatValue md p s := by
  obtain ⟨a, b, c, d⟩ := h
  rw [discounted_iff, zero_add] at c d
  rw [c.2, d.2]
  exact ⟨(fixed_worth p s m hne hc a).1, (float_worth md p s n hne hc' b).1⟩

/-- **C65** (value). The value of a swap, in the currency of the fixed leg, is the value of its fixed leg plus the exchange
rate (1 without one) times the value of its floating leg. -/
theorem C65_npv (md : Mode) (p : SwapPricer) (s : Swap) (hne : s.eff.instant ≠ s.maturity.instant)
    (hc : Coherent (legDates s s.fixedLegs)) (hc' : Coherent (legDates s s.floatLegs)) (v : ℝ) (h : p.npv md s = .ok v) :
    v = fixedValue p s + p.fx.getD 1 * floatValue md p s := by
  obtain ⟨m, n, x, y, hp, e⟩ := (swap_npv_iff md p s v).1 h
  obtain ⟨hx, hy⟩ := parts_values md p s hne hc hc' m n x y hp
  rw [e, hx, hy]; ring

theorem swap_result_iff (md : Mode) (p : SwapPricer) (s : Swap) (r : NpvResult) :
    p.result md s = .ok r ↔ ∃ m n x y, SwapParts md p s m n x y ∧
      r = { npv := x + y * p.fx.getD 1,
            amounts := counted p.eval 1 0 m ++ counted p.eval (p.fx.getD 1) (counted p.eval 1 0 m).length n,
            probs := certain (counted p.eval 1 0 m ++ counted p.eval (p.fx.getD 1) (counted p.eval 1 0 m).length n) } := by
  unfold SwapPricer.result SwapParts
  simp only [bind_ok_iff]
  constructor
  · rintro ⟨m, a, n, b, x, c, y, d, e⟩; cases e; exact ⟨m, n, x, y, ⟨a, b, c, d⟩, rfl⟩
  · rintro ⟨m, n, x, y, ⟨a, b, c, d⟩, e⟩; exact ⟨m, a, n, b, x, c, y, d, by rw [e]⟩

theorem counted_eq (pricing : DT) (fx : ℝ) (m : Flows) (h : ∀ x ∈ m, pricing.day ≤ x.1.day) (i : Nat) :
    (counted pricing fx i m).map (fun x => x.2) = m.map (fun x => (x.1, x.2 * fx)) ∧
    (counted pricing fx i m).map (fun x => x.1) = List.range' i m.length := by
  induction m generalizing i with
  | nil => exact ⟨rfl, rfl⟩
  | cons x m ih =>
    obtain ⟨d, a⟩ := x
    unfold counted
    rw [if_pos (h (d, a) (List.mem_cons_self ..))]
    obtain ⟨e1, e2⟩ := ih (fun y hy => h y (List.mem_cons_of_mem _ hy)) (i + 1)
    rw [List.map_cons, List.map_cons, List.map_cons, e1, e2]
    exact ⟨rfl, by rw [List.length_cons, List.range'_succ]⟩

/-- **C65** (report). The detailed result exists exactly when the price does, carries the same price, and reports each
entry of both cash-flow maps once, under its own number and with probability one; those of the floating leg converted. -/
theorem C65_result (md : Mode) (p : SwapPricer) (s : Swap) (hne : s.eff.instant ≠ s.maturity.instant)
    (hc : Coherent (legDates s s.fixedLegs)) (hc' : Coherent (legDates s s.floatLegs)) :
    (∀ v, p.npv md s = .ok v ↔ ∃ r, p.result md s = .ok r ∧ r.npv = v) ∧
    ∀ r, p.result md s = .ok r → ∃ m n, s.fixedFlows p.eval = .ok m ∧ s.floatFlows md p.mkt p.eval = .ok n ∧
      r.amounts.map (fun x => x.2) = m ++ n.map (fun x => (x.1, x.2 * p.fx.getD 1)) ∧
      (r.amounts.map fun x => x.1).Nodup ∧ r.probs = r.amounts.map fun x => (x.1, x.2.1, 1) := by
  constructor
  · intro v
    rw [swap_npv_iff]
    constructor
    · rintro ⟨m, n, x, y, hp, e⟩
      exact ⟨_, (swap_result_iff md p s _).2 ⟨m, n, x, y, hp, rfl⟩, e.symm⟩
    · rintro ⟨r, h, e⟩
      obtain ⟨m, n, x, y, hp, e'⟩ := (swap_result_iff md p s r).1 h
      rw [e'] at e
      exact ⟨m, n, x, y, hp, e.symm⟩
  · intro r h
    obtain ⟨m, n, x, y, ⟨a, b, -, -⟩, e⟩ := (swap_result_iff md p s r).1 h
    subst e
    have d1 := (fixed_worth p s m hne hc a).2
    have d2 := (float_worth md p s n hne hc' b).2
    obtain ⟨c1, c2⟩ := counted_eq p.eval 1 m d1 0
    obtain ⟨c3, c4⟩ := counted_eq p.eval (p.fx.getD 1) n d2 (counted p.eval 1 0 m).length
    have hl : (counted p.eval 1 0 m).length = m.length := by
      rw [← List.length_map (f := fun x => x.1), c2, List.length_range']
    refine ⟨m, n, a, b, ?_, ?_, rfl⟩
    · simp only [List.map_append, c1, c3]
      simp
    · simp only [List.map_append]
      rw [c2, c4, hl]
      have := List.range'_append (s := 0) (m := m.length) (n := n.length) (step := 1)
      simp only [Nat.zero_add, Nat.one_mul] at this
      rw [this]
      exact List.nodup_range'

/-- **C65** (exposure). The exposure exists exactly when the price does. With two currencies it is the value of each leg in
its own currency times the unit notional, so that converting at the exchange rate gives the price times the notional; with
one currency and no exchange rate it is the price times the notional. No other currency appears. -/
theorem C65_exposure (md : Mode) (p : SwapPricer) (s : Swap) (hne : s.eff.instant ≠ s.maturity.instant)
    (hc : Coherent (legDates s s.fixedLegs)) (hc' : Coherent (legDates s s.floatLegs)) :
    ((∃ v, p.npv md s = .ok v) ↔ ∃ e, p.exposure md s = .ok e) ∧
    ∀ v e, p.npv md s = .ok v → p.exposure md s = .ok e →
      (s.fixedCcy ≠ s.floatCcy → Exposure.of s.fixedCcy e = fixedValue p s * s.notional ∧
        Exposure.of s.floatCcy e = floatValue md p s * s.notional ∧
        Exposure.of s.fixedCcy e + p.fx.getD 1 * Exposure.of s.floatCcy e = v * s.notional) ∧
      (s.fixedCcy = s.floatCcy → p.fx = none → Exposure.of s.fixedCcy e = v * s.notional) ∧
      ∀ k, k ≠ s.fixedCcy → k ≠ s.floatCcy → Exposure.of k e = 0 := by
  have hexp : ∀ e, p.exposure md s = .ok e ↔ ∃ m n x y, SwapParts md p s m n x y ∧
      e = Exposure.add s.floatCcy (y * s.notional) (Exposure.add s.fixedCcy (x * s.notional) []) := by
    intro e
    unfold SwapPricer.exposure SwapParts
    simp only [bind_ok_iff]
    constructor
    · rintro ⟨m, a, n, b, x, c, y, d, e⟩; cases e; exact ⟨m, n, x, y, ⟨a, b, c, d⟩, rfl⟩
    · rintro ⟨m, n, x, y, ⟨a, b, c, d⟩, e⟩; exact ⟨m, a, n, b, x, c, y, d, by rw [e]⟩
  constructor
  · constructor
    · rintro ⟨v, h⟩
      obtain ⟨m, n, x, y, hp, -⟩ := (swap_npv_iff md p s v).1 h
      exact ⟨_, (hexp _).2 ⟨m, n, x, y, hp, rfl⟩⟩
    · rintro ⟨e, h⟩
      obtain ⟨m, n, x, y, hp, -⟩ := (hexp e).1 h
      exact ⟨_, (swap_npv_iff md p s _).2 ⟨m, n, x, y, hp, rfl⟩⟩
  · intro v e hv he
    have hval := C65_npv md p s hne hc hc' v hv
    obtain ⟨m, n, x, y, hp, rfl⟩ := (hexp e).1 he
    obtain ⟨rfl, rfl⟩ := parts_values md p s hne hc hc' m n x y hp
    refine ⟨fun hd => ?_, fun hd hfx => ?_, fun k h1 h2 => ?_⟩
    · have hd' : s.floatCcy ≠ s.fixedCcy := fun q => hd q.symm
      have e1 : Exposure.of s.fixedCcy (Exposure.add s.floatCcy (floatValue md p s * s.notional) (Exposure.add s.fixedCcy (fixedValue p s * s.notional) [])) = fixedValue p s * s.notional := by
        simp [Exposure.add, Exposure.of, hd]
      have e2 : Exposure.of s.floatCcy (Exposure.add s.floatCcy (floatValue md p s * s.notional) (Exposure.add s.fixedCcy (fixedValue p s * s.notional) [])) = floatValue md p s * s.notional := by
        simp [Exposure.add, Exposure.of, hd]
      refine ⟨e1, e2, ?_⟩
      rw [e1, e2, hval]; ring
    · rw [hval, hfx, ← hd]
      simp [Exposure.add, Exposure.of]; ring
    · simp only [Exposure.add]
      split
      · simp [Exposure.of, Ne.symm h1]
      · simp [Exposure.of, Ne.symm h1, Ne.symm h2]

end Verif.Props

import Verif.QL.Schedule
import Verif.Props.Period
import Verif.Props.Adjust
/-!
# C46: coupon schedules
-/
set_option autoImplicit false
namespace Verif.Props
open Verif Verif.Civil Verif.QL

/-! ## Specification -/

/-- The tenor of a frequency: one coupon every so many units. -/
def tenor : Freq → Option (Nat × PerUnit)
  | .daily => some (1, .D)
  | .weekly => some (1, .W)
  | .biWeekly => some (2, .W)
  | .semiMonthly => some (2, .W)
  | .monthly => some (1, .M)
  | .semiQuarterly => some (2, .M)
  | .quarterly => some (3, .M)
  | .triAnnually => some (4, .M)
  | .semiAnnually => some (6, .M)
  | .annually => some (1, .Y)
  | .none => none

/-- Forward roll: the first date is the effective date, the `k`-th is `k` tenors after the *effective date* (so the day
of the month is not lost in a short month), and the last is the first one on or after the maturity. -/
structure RolledForward (eff mat : DT) (h : Nat) (u : PerUnit) (dates : List DT) : Prop where
  first : dates[0]? = some eff
  step : ∀ k d, dates[k + 1]? = some d → Shifted eff ((k + 1 : Nat) * h : Nat) u d
  before : ∀ k d, k + 1 < dates.length → dates[k]? = some d → d.instant < mat.instant
  last : ∀ d, dates[dates.length - 1]? = some d → mat.instant ≤ d.instant

/-- Backward roll: the last date is the maturity, the `k`-th before it is `k` tenors back from the maturity (as
`sub_period` counts them, `ShiftedBack`), and the first is the first one found on or before the effective date. -/
structure RolledBackward (eff mat : DT) (h : Nat) (u : PerUnit) (dates : List DT) : Prop where
  final : dates[dates.length - 1]? = some mat
  step : ∀ k d, k + 1 < dates.length → dates[dates.length - 1 - (k + 1)]? = some d →
    ShiftedBack mat ((k + 1 : Nat) * h : Nat) u d
  after : ∀ k d, 0 < k → dates[k]? = some d → eff.instant < d.instant
  first : ∀ d, dates[0]? = some d → d.instant ≤ eff.instant

/-- `x` is the date-time `n` days from `d`, same time of day and offset. -/
def DaysFrom (d : DT) (n : Int) (x : DT) : Prop := x = onDay d (d.day + n) ∧ minDay ≤ x.day ∧ x.day ≤ maxDay

/-- Coupon `i` of `n`, given the adjusted dates `adj` (`n + 1` of them). -/
structure IsCoupon (hol : DT → Res Bool) (conv : BDC) (fixGap payGap : Int) (eff mat : DT) (adj : List DT) (n i : Nat)
    (c : Coupon) : Prop where
  start : if i = 0 then c.start = eff else adj[i]? = some c.start
  stop : if i + 1 = n ∧ 2 ≤ n then c.stop = mat else adj[i + 1]? = some c.stop
  order : c.start.instant < c.stop.instant
  fixing : ∃ x, DaysFrom c.start (-fixGap) x ∧ adjust hol x .preceding = .ok c.fixing
  payment : if i + 1 = n ∧ 2 ≤ n then c.payment = mat
    else ∃ x, DaysFrom c.stop payGap x ∧ adjust hol x conv = .ok c.payment

/-! ## The period strings -/

theorem value_toDigits (n : Nat) (u : PerUnit) : (Piece.mk (Nat.toDigits 10 n) u).value = n := by
  unfold Piece.value
  exact (Nat.ofDigitChars_eq_foldl.symm.trans Nat.ofDigitChars_ten_toDigits)

theorem toDigits_ok (n : Nat) (u : PerUnit) : (Piece.mk (Nat.toDigits 10 n) u).Ok true := by
  refine ⟨Nat.toDigits_ne_nil, ?_, Or.inl rfl⟩
  intro c hc
  exact Nat.isDigit_of_mem_toDigits (by norm_num) (by norm_num) hc

/-- `to_string_with_multiple` renders the tenor times the multiple. -/
theorem withMultiple_eq (f : Freq) (h : Nat) (u : PerUnit) (ht : tenor f = some (h, u)) (k : Nat) :
    f.withMultiple k = if h * k < 2 ^ 31 then .ok (periodText [⟨Nat.toDigits 10 (h * k), u⟩]) else .error .overflow := by
  cases f <;> simp only [tenor, Option.some.injEq, Prod.mk.injEq, reduceCtorEq] at ht <;> obtain ⟨rfl, rfl⟩ := ht <;>
    simp [Freq.withMultiple, Freq.asStr, parseHead, digitsVal, periodText, unitText]

theorem withMultiple_none (k : Nat) : Freq.withMultiple .none k = .error .unwrapNone := by
  simp [Freq.withMultiple, Freq.asStr, parseHead]

theorem tenor_pos {f : Freq} {h : Nat} {u : PerUnit} (ht : tenor f = some (h, u)) : 1 ≤ h ∧ h ≤ 6 := by
  cases f <;> simp only [tenor, Option.some.injEq, Prod.mk.injEq, reduceCtorEq] at ht <;> omega

theorem tenor_unit {f : Freq} {h : Nat} {u : PerUnit} (ht : tenor f = some (h, u)) : ¬ isClock u := by
  cases f <;> simp only [tenor, Option.some.injEq, Prod.mk.injEq, reduceCtorEq] at ht <;>
    obtain ⟨rfl, rfl⟩ := ht <;> exact id

/-- A shift by a whole number of calendar units between two supported dates is by fewer than ten million units. -/
theorem shifted_small {a b : DT} {n : Int} {u : PerUnit} (ha : a.Valid) (hu : ¬ isClock u) (h : Shifted a n u b) :
    -10000000 < n ∧ n < 10000000 := by
  obtain ⟨h1, h2, h3⟩ := h
  have e1 := minDay_eq
  have e2 := maxDay_eq
  have ya := year_bounds (day := a.day) ⟨ha.1, ha.2.1⟩
  have yb := year_bounds (day := b.day) ⟨h1.1, h1.2.1⟩
  have va := ofOrd_valid a.day
  have vb := ofOrd_valid b.day
  obtain ⟨a1, a2, a3⟩ := ha
  obtain ⟨b1, b2, b3⟩ := h1
  cases u
  · obtain ⟨-, -, h4, -⟩ := h3
    unfold monthIdx DT.ymd at h4
    have := va.1; have := va.2.1; have := vb.1; have := vb.2.1
    omega
  · obtain ⟨-, -, h4, -⟩ := h3
    unfold monthIdx DT.ymd at h4
    have := va.1; have := va.2.1; have := vb.1; have := vb.2.1
    omega
  · simp only [unitSeconds] at h3
    unfold DT.localNs dayNs at *
    omega
  · simp only [unitSeconds] at h3
    unfold DT.localNs dayNs at *
    omega
  all_goals exact absurd trivial hu

theorem shiftedBack_small {a b : DT} {n : Int} {u : PerUnit} (ha : a.Valid) (hu : ¬ isClock u)
    (h : ShiftedBack a n u b) : -20000000 < n ∧ n < 20000000 := by
  unfold ShiftedBack at h
  split at h
  · have := shifted_small ha hu h
    unfold monthsBack at this
    split at this <;> omega
  · have := shifted_small ha hu h
    omega

theorem addPeriod_tenor (md : Mode) (d : DT) (hd : d.Valid) (n : Nat) (u : PerUnit) (hn : n < 2 ^ 31) (b : DT) :
    addPeriod md d (periodText [⟨Nat.toDigits 10 n, u⟩]) = .ok b ↔ Shifted d n u b := by
  rw [C41_add_period md d hd _ (by simp) (by simpa using toDigits_ok n u)
    (by simp only [List.mem_singleton, forall_eq, Piece.Fits, value_toDigits]; exact ⟨by omega, fun _ => hn⟩)
    (by simp [CalendarFirst])]
  simp [ShiftedAll, value_toDigits]

theorem subPeriod_tenor (md : Mode) (d : DT) (hd : d.Valid) (n : Nat) (u : PerUnit) (hn : n < 2 ^ 31) (b : DT) :
    subPeriod md d (periodText [⟨Nat.toDigits 10 n, u⟩]) = .ok b ↔ ShiftedBack d n u b := by
  rw [C42_sub_period md d hd _ (by simp) (by simpa using toDigits_ok n u)
    (by simp only [List.mem_singleton, forall_eq, Piece.Fits, value_toDigits]; exact ⟨by omega, fun _ => hn⟩)
    (by simp [CalendarFirst])]
  simp [ShiftedBackAll, value_toDigits]

/-! ## The rolls -/

/-- What the forward loop appends. -/
def FwdTail (eff mat : DT) (h : Nat) (u : PerUnit) : Nat → DT → List DT → Prop
  | _, raw, [] => mat.instant ≤ raw.instant
  | c, raw, r :: rs => raw.instant < mat.instant ∧ Shifted eff (h * c : Nat) u r ∧ FwdTail eff mat h u (c + 1) r rs

theorem rollForward_iff (md : Mode) (eff mat : DT) (he : eff.Valid) (f : Freq) (h : Nat) (u : PerUnit)
    (ht : tenor f = some (h, u)) (c : Nat) (raw : DT) (ds : List DT) :
    rollForward md eff mat f c raw = .ok ds ↔ FwdTail eff mat h u c raw ds := by
  fun_induction rollForward md eff mat f c raw generalizing ds with
  | case1 c raw hlt hc ih =>
    rw [withMultiple_eq f h u ht]
    have hpos := tenor_pos ht
    by_cases hn : h * c < 2 ^ 31
    · rw [if_pos hn, Res.bind_ok]
      have key := addPeriod_tenor md eff he (h * c) u hn
      constructor
      · intro e
        cases ha : addPeriod md eff (periodText [⟨Nat.toDigits 10 (h * c), u⟩]) with
        | error x => rw [ha] at e; cases e
        | ok r =>
          rw [ha, Res.bind_ok] at e
          cases hr : rollForward md eff mat f (c + 1) r with
          | error x => rw [hr] at e; cases e
          | ok rs =>
            rw [hr, Res.bind_ok] at e
            cases e
            exact ⟨hlt, (key r).1 ha, (ih r rs).1 hr⟩
      · intro e
        cases ds with
        | nil => exact absurd e (by simp only [FwdTail]; omega)
        | cons r rs =>
          obtain ⟨-, e2, e3⟩ := e
          rw [(key r).2 e2, Res.bind_ok, (ih r rs).2 e3, Res.bind_ok]
    · rw [if_neg hn, Res.bind_error]
      refine ⟨fun e => (by cases e), fun e => ?_⟩
      cases ds with
      | nil => exact absurd e (by simp only [FwdTail]; omega)
      | cons r rs =>
        have := shifted_small he (tenor_unit ht) e.2.1
        omega
  | case2 c raw hlt hc =>
    refine ⟨fun e => (by cases e), fun e => ?_⟩
    cases ds with
    | nil => exact absurd e (by simp only [FwdTail]; omega)
    | cons r rs =>
      have h1 := shifted_small he (tenor_unit ht) e.2.1
      have h2 := tenor_pos ht
      have : c ≤ h * c := Nat.le_mul_of_pos_left c (by omega)
      omega
  | case3 c raw hlt =>
    constructor
    · intro e
      cases e
      simp only [FwdTail]
      omega
    · intro e
      cases ds with
      | nil => rfl
      | cons r rs => exact absurd e.1 hlt

/-- What the backward loop puts in front, in the order of generation. -/
def BwdTail (eff mat : DT) (h : Nat) (u : PerUnit) : Nat → DT → List DT → Prop
  | _, raw, [] => raw.instant ≤ eff.instant
  | c, raw, r :: rs => eff.instant < raw.instant ∧ ShiftedBack mat (h * c : Nat) u r ∧ BwdTail eff mat h u (c + 1) r rs

theorem rollBackward_iff (md : Mode) (eff mat : DT) (he : mat.Valid) (f : Freq) (h : Nat) (u : PerUnit)
    (ht : tenor f = some (h, u)) (c : Nat) (raw : DT) (ds : List DT) :
    rollBackward md eff mat f c raw = .ok ds ↔ BwdTail eff mat h u c raw ds.reverse := by
  fun_induction rollBackward md eff mat f c raw generalizing ds with
  | case1 c raw hlt hc ih =>
    rw [withMultiple_eq f h u ht]
    have hpos := tenor_pos ht
    by_cases hn : h * c < 2 ^ 31
    · rw [if_pos hn, Res.bind_ok]
      have key := subPeriod_tenor md mat he (h * c) u hn
      constructor
      · intro e
        cases ha : subPeriod md mat (periodText [⟨Nat.toDigits 10 (h * c), u⟩]) with
        | error x => rw [ha] at e; cases e
        | ok r =>
          rw [ha, Res.bind_ok] at e
          cases hr : rollBackward md eff mat f (c + 1) r with
          | error x => rw [hr] at e; cases e
          | ok rs =>
            rw [hr, Res.bind_ok] at e
            cases e
            rw [List.reverse_append]
            exact ⟨hlt, (key r).1 ha, (ih r rs).1 hr⟩
      · intro e
        generalize hg : ds.reverse = gs at e
        cases gs with
        | nil => exact absurd e (by simp only [BwdTail]; omega)
        | cons r rs =>
          obtain ⟨-, e2, e3⟩ := e
          have hds : ds = rs.reverse ++ [r] := by rw [← List.reverse_reverse ds, hg]; simp
          rw [(key r).2 e2, Res.bind_ok, (ih r rs.reverse).2 (by rw [List.reverse_reverse]; exact e3), Res.bind_ok, hds]
    · rw [if_neg hn, Res.bind_error]
      refine ⟨fun e => (by cases e), fun e => ?_⟩
      generalize ds.reverse = gs at e
      cases gs with
      | nil => exact absurd e (by simp only [BwdTail]; omega)
      | cons r rs =>
        have := shiftedBack_small he (tenor_unit ht) e.2.1
        omega
  | case2 c raw hlt hc =>
    refine ⟨fun e => (by cases e), fun e => ?_⟩
    generalize ds.reverse = gs at e
    cases gs with
    | nil => exact absurd e (by simp only [BwdTail]; omega)
    | cons r rs =>
      have h1 := shiftedBack_small he (tenor_unit ht) e.2.1
      have h2 := tenor_pos ht
      have : c ≤ h * c := Nat.le_mul_of_pos_left c (by omega)
      omega
  | case3 c raw hlt =>
    constructor
    · intro e
      cases e
      simp only [List.reverse_nil, BwdTail]
      omega
    · intro e
      generalize hg : ds.reverse = gs at e
      cases gs with
      | nil => rw [List.reverse_eq_nil_iff] at hg; rw [hg]
      | cons r rs => exact absurd e.1 hlt

theorem fwdTail_iff (eff mat : DT) (h : Nat) (u : PerUnit) (c : Nat) (raw : DT) (ds : List DT) :
    FwdTail eff mat h u c raw ds ↔
      (∀ k d, ds[k]? = some d → Shifted eff (h * (c + k) : Nat) u d) ∧
      (∀ k d, k < ds.length → (raw :: ds)[k]? = some d → d.instant < mat.instant) ∧
      (∀ d, (raw :: ds)[ds.length]? = some d → mat.instant ≤ d.instant) := by
  induction ds generalizing c raw with
  | nil => simp [FwdTail]
  | cons r rs ih =>
    rw [FwdTail, ih]
    constructor
    · rintro ⟨h1, h2, h3, h4, h5⟩
      refine ⟨?_, ?_, ?_⟩
      · intro k d hk
        cases k with
        | zero => simp only [List.getElem?_cons_zero, Option.some.injEq] at hk; subst hk; simpa using h2
        | succ k =>
          rw [List.getElem?_cons_succ] at hk
          have := h3 k d hk
          rwa [show c + 1 + k = c + (k + 1) by omega] at this
      · intro k d hk hd
        cases k with
        | zero => simp only [List.getElem?_cons_zero, Option.some.injEq] at hd; subst hd; exact h1
        | succ k =>
          rw [List.getElem?_cons_succ] at hd
          exact h4 k d (by simpa using hk) hd
      · intro d hd
        rw [List.length_cons, List.getElem?_cons_succ] at hd
        exact h5 d hd
    · rintro ⟨h1, h2, h3⟩
      refine ⟨h2 0 raw (by simp) rfl, by simpa using h1 0 r rfl, ?_, ?_, ?_⟩
      · intro k d hk
        have := h1 (k + 1) d (by simpa using hk)
        rwa [show c + (k + 1) = c + 1 + k by omega] at this
      · intro k d hk hd
        exact h2 (k + 1) d (by simpa using hk) (by simpa using hd)
      · intro d hd
        exact h3 d (by simpa using hd)

theorem bwdTail_iff (eff mat : DT) (h : Nat) (u : PerUnit) (c : Nat) (raw : DT) (ds : List DT) :
    BwdTail eff mat h u c raw ds ↔
      (∀ k d, ds[k]? = some d → ShiftedBack mat (h * (c + k) : Nat) u d) ∧
      (∀ k d, k < ds.length → (raw :: ds)[k]? = some d → eff.instant < d.instant) ∧
      (∀ d, (raw :: ds)[ds.length]? = some d → d.instant ≤ eff.instant) := by
  induction ds generalizing c raw with
  | nil => simp [BwdTail]
  | cons r rs ih =>
    rw [BwdTail, ih]
    constructor
    · rintro ⟨h1, h2, h3, h4, h5⟩
      refine ⟨?_, ?_, ?_⟩
      · intro k d hk
        cases k with
        | zero => simp only [List.getElem?_cons_zero, Option.some.injEq] at hk; subst hk; simpa using h2
        | succ k =>
          rw [List.getElem?_cons_succ] at hk
          have := h3 k d hk
          rwa [show c + 1 + k = c + (k + 1) by omega] at this
      · intro k d hk hd
        cases k with
        | zero => simp only [List.getElem?_cons_zero, Option.some.injEq] at hd; subst hd; exact h1
        | succ k =>
          rw [List.getElem?_cons_succ] at hd
          exact h4 k d (by simpa using hk) hd
      · intro d hd
        rw [List.length_cons, List.getElem?_cons_succ] at hd
        exact h5 d hd
    · rintro ⟨h1, h2, h3⟩
      refine ⟨h2 0 raw (by simp) rfl, by simpa using h1 0 r rfl, ?_, ?_, ?_⟩
      · intro k d hk
        have := h1 (k + 1) d (by simpa using hk)
        rwa [show c + (k + 1) = c + 1 + k by omega] at this
      · intro k d hk hd
        exact h2 (k + 1) d (by simpa using hk) (by simpa using hd)
      · intro d hd
        exact h3 d (by simpa using hd)

theorem rolledForward_iff (eff mat : DT) (h : Nat) (u : PerUnit) (dates : List DT) :
    RolledForward eff mat h u dates ↔ ∃ ds, dates = eff :: ds ∧ FwdTail eff mat h u 1 eff ds := by
  constructor
  · rintro ⟨h1, h2, h3, h4⟩
    cases dates with
    | nil => simp at h1
    | cons e ds =>
      simp only [List.getElem?_cons_zero, Option.some.injEq] at h1
      subst h1
      refine ⟨ds, rfl, (fwdTail_iff e mat h u 1 e ds).2 ⟨?_, ?_, ?_⟩⟩
      · intro k d hk
        have := h2 k d (by simpa using hk)
        rwa [show (k + 1) * h = h * (1 + k) by ring] at this
      · intro k d hk hd
        exact h3 k d (by simpa using hk) hd
      · intro d hd
        exact h4 d (by simpa using hd)
  · rintro ⟨ds, rfl, hf⟩
    obtain ⟨h1, h2, h3⟩ := (fwdTail_iff eff mat h u 1 eff ds).1 hf
    refine ⟨rfl, ?_, ?_, ?_⟩
    · intro k d hk
      have := h1 k d (by simpa using hk)
      rwa [show h * (1 + k) = (k + 1) * h by ring] at this
    · intro k d hk hd
      exact h2 k d (by simpa using hk) hd
    · intro d hd
      exact h3 d (by simpa using hd)

theorem rolledBackward_iff (eff mat : DT) (h : Nat) (u : PerUnit) (dates : List DT) :
    RolledBackward eff mat h u dates ↔ ∃ ds, dates = ds ++ [mat] ∧ BwdTail eff mat h u 1 mat ds.reverse := by
  -- index from the end
  have idx : ∀ (ds : List DT) (k : Nat), k ≤ ds.length → (ds ++ [mat])[ds.length - k]? = (mat :: ds.reverse)[k]? := by
    intro ds k hk
    have e : mat :: ds.reverse = (ds ++ [mat]).reverse := by simp
    rw [e, List.getElem?_reverse (by simp; omega)]
    congr 1
    simp only [List.length_append, List.length_singleton]
    omega
  constructor
  · rintro ⟨h1, h2, h3, h4⟩
    obtain ⟨ds, x, rfl⟩ : ∃ ds x, dates = ds ++ [x] := by
      rcases List.eq_nil_or_concat dates with h | ⟨ds, x, h⟩
      · rw [h] at h1; simp at h1
      · exact ⟨ds, x, by simpa using h⟩
    have : x = mat := by simpa using h1
    subst this
    refine ⟨ds, rfl, (bwdTail_iff eff x h u 1 x ds.reverse).2 ⟨?_, ?_, ?_⟩⟩
    · intro k d hk
      have hlt : k < ds.reverse.length := (List.getElem?_eq_some_iff.1 hk).1
      rw [List.length_reverse] at hlt
      have := h2 k d (by simp; omega) (by
        simp only [List.length_append, List.length_singleton]
        rw [show ds.length + 1 - 1 - (k + 1) = ds.length - (k + 1) by omega, idx ds (k + 1) (by omega)]
        simpa using hk)
      rwa [show (k + 1) * h = h * (1 + k) by ring] at this
    · intro k d hk hd
      rw [List.length_reverse] at hk
      exact h3 (ds.length - k) d (by omega) (by rw [idx ds k (by omega)]; exact hd)
    · intro d hd
      rw [List.length_reverse] at hd
      refine h4 d ?_
      have := idx ds ds.length (le_refl _)
      rw [Nat.sub_self] at this
      rw [this]
      exact hd
  · rintro ⟨ds, rfl, hf⟩
    obtain ⟨h1, h2, h3⟩ := (bwdTail_iff eff mat h u 1 mat ds.reverse).1 hf
    rw [List.length_reverse] at h2 h3
    refine ⟨by simp, ?_, ?_, ?_⟩
    · intro k d hk hd
      simp only [List.length_append, List.length_singleton] at hk hd
      rw [show ds.length + 1 - 1 - (k + 1) = ds.length - (k + 1) by omega, idx ds (k + 1) (by omega)] at hd
      have := h1 k d (by simpa using hd)
      rwa [show h * (1 + k) = (k + 1) * h by ring] at this
    · intro k d hk hd
      have hlt : k < (ds ++ [mat]).length := (List.getElem?_eq_some_iff.1 hd).1
      simp only [List.length_append, List.length_singleton] at hlt
      refine h2 (ds.length - k) d (by omega) ?_
      rw [← idx ds (ds.length - k) (by omega), show ds.length - (ds.length - k) = k by omega]
      exact hd
    · intro d hd
      refine h3 d ?_
      rw [← idx ds ds.length (le_refl _), Nat.sub_self]
      exact hd

/-! ## The coupons -/

theorem mapRes_iff {α β : Type} (f : α → Res β) (l : List α) (r : List β) :
    mapRes f l = .ok r ↔ r.length = l.length ∧ ∀ (i : Nat) x y, l[i]? = some x → r[i]? = some y → f x = .ok y := by
  induction l generalizing r with
  | nil =>
    simp only [mapRes, List.length_nil]
    constructor
    · intro h; cases h; simp
    · rintro ⟨h, -⟩; rw [List.length_eq_zero_iff] at h; rw [h]
  | cons a l ih =>
    simp only [mapRes]
    constructor
    · intro h
      cases ha : f a with
      | error e => rw [ha] at h; cases h
      | ok b =>
        rw [ha, Res.bind_ok] at h
        cases hl : mapRes f l with
        | error e => rw [hl] at h; cases h
        | ok bs =>
          rw [hl, Res.bind_ok] at h
          cases h
          obtain ⟨h1, h2⟩ := (ih bs).1 hl
          refine ⟨by simp [h1], ?_⟩
          intro i x y hx hy
          cases i with
          | zero => simp only [List.getElem?_cons_zero, Option.some.injEq] at hx hy; rw [← hx, ← hy]; exact ha
          | succ i => exact h2 i x y (by simpa using hx) (by simpa using hy)
    · rintro ⟨h1, h2⟩
      cases r with
      | nil => simp at h1
      | cons b bs =>
        rw [h2 0 a b rfl rfl, Res.bind_ok, (ih bs).2 ⟨by simpa using h1, fun i x y hx hy =>
          h2 (i + 1) x y (by simpa using hx) (by simpa using hy)⟩, Res.bind_ok]

theorem dtAddDays_iff (d : DT) (n : Int) (x : DT) : d.addDays n = .ok x ↔ DaysFrom d n x := by
  unfold DT.addDays QL.addDays checkDay DaysFrom onDay
  constructor
  · intro h
    split at h
    · rename_i hr
      rw [Res.bind_ok] at h
      cases h
      exact ⟨rfl, hr⟩
    · cases h
  · rintro ⟨rfl, hr⟩
    rw [if_pos hr, Res.bind_ok]

theorem bind_ok_iff {α β : Type} (r : Res α) (f : α → Res β) (b : β) :
    (r >>= f) = .ok b ↔ ∃ a, r = .ok a ∧ f a = .ok b := by
  cases r with
  | error e => simp
  | ok a => simp

theorem coupon_iff (hol : DT → Res Bool) (conv : BDC) (fixGap payGap : Int) (eff mat : DT) (vec : List DT) (i : Nat)
    (hi : i + 1 < vec.length) (c : Coupon) :
    coupon hol conv fixGap payGap eff mat vec i = .ok c ↔
      IsCoupon hol conv fixGap payGap eff mat vec (vec.length - 1) i c := by
  have g0 : vec[i]? = some vec[i] := List.getElem?_eq_getElem (by omega)
  have g1 : vec[i + 1]? = some vec[i + 1] := List.getElem?_eq_getElem hi
  have e0 : ∀ d, vec.getD i d = vec[i] := by intro d; simp [List.getD, g0]
  have e1 : ∀ d, vec.getD (i + 1) d = vec[i + 1] := by intro d; simp [List.getD, g1]
  unfold coupon
  dsimp only
  rw [e0, e1]
  have hl : (i ≠ 0 ∧ i = vec.length - 1 - 1) ↔ (i + 1 = vec.length - 1 ∧ 2 ≤ vec.length - 1) := by omega
  have hstop : (if i = 0 then vec[i + 1] else if i = vec.length - 1 - 1 then mat else vec[i + 1])
      = if i + 1 = vec.length - 1 ∧ 2 ≤ vec.length - 1 then mat else vec[i + 1] := by
    by_cases h0 : i = 0
    · rw [if_pos h0, if_neg (by omega)]
    · rw [if_neg h0]
      by_cases h1 : i = vec.length - 1 - 1
      · rw [if_pos h1, if_pos (by omega)]
      · rw [if_neg h1, if_neg (by omega)]
  rw [hstop]
  constructor
  · intro h
    obtain ⟨f, hf, h⟩ := (bind_ok_iff _ _ _).1 h
    obtain ⟨fx, hfx, h⟩ := (bind_ok_iff _ _ _).1 h
    obtain ⟨py, hpy, h⟩ := (bind_ok_iff _ _ _).1 h
    by_cases hord : (if i + 1 = vec.length - 1 ∧ 2 ≤ vec.length - 1 then mat else vec[i + 1]).instant
        ≤ (if i = 0 then eff else vec[i]).instant
    · rw [if_pos hord] at h
      cases h
    · rw [if_neg hord] at h
      cases h
      refine ⟨?_, ?_, ?_, ⟨f, (dtAddDays_iff _ _ _).1 hf, hfx⟩, ?_⟩
      · simp only
        split
        · rfl
        · exact g0
      · simp only
        split
        · rfl
        · exact g1
      · simp only; omega
      · by_cases hx : i + 1 = vec.length - 1 ∧ 2 ≤ vec.length - 1
        · rw [if_pos hx]
          rw [payDate, if_pos (by simpa using hl.2 hx)] at hpy
          cases hpy
          rfl
        · rw [if_neg hx]
          rw [payDate, if_neg (by rw [decide_eq_true_iff]; exact fun h => hx (hl.1 h)), if_neg hx] at hpy
          obtain ⟨x, hx1, hx2⟩ := (bind_ok_iff _ _ _).1 hpy
          rw [if_neg hx]
          exact ⟨x, (dtAddDays_iff _ _ _).1 hx1, hx2⟩
  · rintro ⟨h1, h2, h3, ⟨x, hx1, hx2⟩, h5⟩
    have hs : (if i = 0 then eff else vec[i]) = c.start := by
      split at h1
      · rename_i h; rw [if_pos h, h1]
      · rename_i h; rw [if_neg h]; rw [g0] at h1; exact Option.some.inj h1
    have ht : (if i + 1 = vec.length - 1 ∧ 2 ≤ vec.length - 1 then mat else vec[i + 1]) = c.stop := by
      split at h2
      · rename_i h; rw [if_pos h, h2]
      · rename_i h; rw [if_neg h]; rw [g1] at h2; exact Option.some.inj h2
    rw [hs, ht, (dtAddDays_iff _ _ _).2 hx1, Res.bind_ok, hx2, Res.bind_ok]
    have hp : payDate hol conv payGap mat c.stop (i ≠ 0 ∧ i = vec.length - 1 - 1) = .ok c.payment := by
      unfold payDate
      by_cases hx : i + 1 = vec.length - 1 ∧ 2 ≤ vec.length - 1
      · rw [if_pos (by simpa using hl.2 hx)]
        rw [if_pos hx] at h5
        rw [h5]
      · rw [if_neg (by rw [decide_eq_true_iff]; exact fun h => hx (hl.1 h))]
        rw [if_neg hx] at h5
        obtain ⟨p, hp1, hp2⟩ := h5
        rw [(dtAddDays_iff _ _ _).2 hp1, Res.bind_ok, hp2]
    rw [hp, Res.bind_ok, if_neg (by omega)]

/-! ## C46 -/

/-- The adjusted dates: each rolled date moved by the convention. -/
def Adjusted (hol : DT → Res Bool) (conv : BDC) (dates adj : List DT) : Prop :=
  adj.length = dates.length ∧ ∀ (k : Nat) d a, dates[k]? = some d → adj[k]? = some a → adjust hol d conv = .ok a

/-- C46 (exact behaviour). `build_schedule` returns the coupons `cs` iff the gaps are not negative and `cs` are the
coupons between consecutive adjusted roll dates: rolled from the effective date or back from the maturity, the first
start replaced by the effective date and (with two or more coupons) the last end and its payment date by the maturity.
Anything else is an error or a panic. Debug and release builds agree. -/
theorem C46_schedule (md : Mode) (hol : DT → Res Bool) (forward : Bool) (eff mat : DT) (he : eff.Valid)
    (hm : mat.Valid) (conv : BDC) (f : Freq) (h : Nat) (u : PerUnit) (ht : tenor f = some (h, u)) (fixGap payGap : Int)
    (cs : List Coupon) :
    buildSchedule md hol forward eff mat conv f fixGap payGap = .ok cs ↔
      0 ≤ fixGap ∧ 0 ≤ payGap ∧ ∃ dates adj,
        (if forward then RolledForward eff mat h u dates else RolledBackward eff mat h u dates) ∧
        Adjusted hol conv dates adj ∧ cs.length + 1 = dates.length ∧
        ∀ i c, cs[i]? = some c → IsCoupon hol conv fixGap payGap eff mat adj cs.length i c := by
  unfold buildSchedule
  by_cases hg : payGap < 0 ∨ fixGap < 0
  · rw [if_pos hg]
    refine ⟨fun h => (by cases h), fun h => ?_⟩
    omega
  rw [if_neg hg]
  -- the raw dates
  have raw : ∀ dates, rawDates md forward eff mat f = .ok dates ↔
      (if forward then RolledForward eff mat h u dates else RolledBackward eff mat h u dates) := by
    intro dates
    unfold rawDates
    cases forward
    · simp only [Bool.false_eq_true, if_false]
      rw [rolledBackward_iff, bind_ok_iff]
      constructor
      · rintro ⟨ds, h1, h2⟩
        cases h2
        exact ⟨ds, rfl, (rollBackward_iff md eff mat hm f h u ht 1 mat ds).1 h1⟩
      · rintro ⟨ds, rfl, h1⟩
        exact ⟨ds, (rollBackward_iff md eff mat hm f h u ht 1 mat ds).2 h1, rfl⟩
    · simp only [if_true]
      rw [rolledForward_iff, bind_ok_iff]
      constructor
      · rintro ⟨ds, h1, h2⟩
        cases h2
        exact ⟨ds, rfl, (rollForward_iff md eff mat he f h u ht 1 eff ds).1 h1⟩
      · rintro ⟨ds, rfl, h1⟩
        exact ⟨ds, (rollForward_iff md eff mat he f h u ht 1 eff ds).2 h1, rfl⟩
  have ne : ∀ dates, (if forward then RolledForward eff mat h u dates else RolledBackward eff mat h u dates) →
      dates ≠ [] := by
    intro dates hd
    cases forward
    · simp only [Bool.false_eq_true, if_false] at hd
      obtain ⟨ds, rfl, -⟩ := (rolledBackward_iff _ _ _ _ _).1 hd
      simp
    · simp only [if_true] at hd
      obtain ⟨ds, rfl, -⟩ := (rolledForward_iff _ _ _ _ _).1 hd
      simp
  rw [bind_ok_iff]
  constructor
  · rintro ⟨dates, h1, h2⟩
    obtain ⟨adj, h3, h4⟩ := (bind_ok_iff _ _ _).1 h2
    have hr := (raw dates).1 h1
    obtain ⟨a1, a2⟩ := (mapRes_iff _ _ _).1 h3
    obtain ⟨b1, b2⟩ := (mapRes_iff _ _ _).1 h4
    have hpos : 0 < dates.length := List.length_pos_of_ne_nil (ne dates hr)
    rw [List.length_range] at b1
    refine ⟨by omega, by omega, dates, adj, hr, ⟨a1, a2⟩, by omega, ?_⟩
    intro i c hc
    have hi : i < cs.length := (List.getElem?_eq_some_iff.1 hc).1
    have := b2 i i c (by rw [List.getElem?_range (by omega)]) hc
    rw [coupon_iff hol conv fixGap payGap eff mat adj i (by omega)] at this
    rw [b1]
    exact this
  · rintro ⟨-, -, dates, adj, hr, ⟨a1, a2⟩, hlen, hall⟩
    refine ⟨dates, (raw dates).2 hr, ?_⟩
    rw [(mapRes_iff _ _ _).2 ⟨a1, a2⟩, Res.bind_ok, mapRes_iff]
    refine ⟨by rw [List.length_range]; omega, ?_⟩
    intro i x c hx hc
    have hi : i < cs.length := (List.getElem?_eq_some_iff.1 hc).1
    rw [List.getElem?_range (by omega)] at hx
    cases hx
    rw [coupon_iff hol conv fixGap payGap eff mat adj i (by omega)]
    rw [show adj.length - 1 = cs.length by omega]
    exact hall i c hc

/-- C46. The coupons tile the life of the instrument: the first starts at the effective date, each starts where the one
before ended, every start precedes its end, and, with two or more coupons, the last ends (and is paid) at maturity. -/
theorem C46_tiles (md : Mode) (hol : DT → Res Bool) (forward : Bool) (eff mat : DT) (he : eff.Valid)
    (hm : mat.Valid) (conv : BDC) (f : Freq) (hf : f ≠ .none) (fixGap payGap : Int) (cs : List Coupon)
    (hok : buildSchedule md hol forward eff mat conv f fixGap payGap = .ok cs) :
    (∀ c, cs[0]? = some c → c.start = eff) ∧
    (∀ i c c', cs[i]? = some c → cs[i + 1]? = some c' → c'.start = c.stop) ∧
    (∀ c ∈ cs, c.start.instant < c.stop.instant) ∧
    (∀ c, 2 ≤ cs.length → cs.getLast? = some c → c.stop = mat ∧ c.payment = mat) := by
  obtain ⟨h, u, ht⟩ : ∃ h u, tenor f = some (h, u) := by
    cases f <;> first | exact absurd rfl hf | exact ⟨_, _, rfl⟩
  obtain ⟨-, -, dates, adj, hr, ha, hlen, hall⟩ :=
    (C46_schedule md hol forward eff mat he hm conv f h u ht fixGap payGap cs).1 hok
  refine ⟨?_, ?_, ?_, ?_⟩
  · intro c hc
    have := (hall 0 c hc).start
    simpa using this
  · intro i c c' hc hc'
    have hi : i + 1 < cs.length := (List.getElem?_eq_some_iff.1 hc').1
    have h1 := (hall i c hc).stop
    have h2 := (hall (i + 1) c' hc').start
    rw [if_neg (by omega)] at h1 h2
    rw [h1] at h2
    exact (Option.some.inj h2).symm
  · intro c hc
    obtain ⟨i, hi⟩ := List.getElem?_of_mem hc
    exact (hall i c hi).order
  · intro c h2 hc
    rw [List.getLast?_eq_getElem?] at hc
    have h1 := (hall _ c hc).stop
    have h3 := (hall _ c hc).payment
    rw [if_pos (by omega)] at h1 h3
    exact ⟨h1, h3⟩

/-- C46 (number of coupons and starts, forward). With `n` coupons, `n` tenors after the effective date is on or after
the maturity and no smaller multiple is; coupon `i ≥ 1` starts `i` tenors after the effective date, adjusted. -/
theorem C46_forward_starts (md : Mode) (hol : DT → Res Bool) (eff mat : DT) (he : eff.Valid)
    (hm : mat.Valid) (conv : BDC) (f : Freq) (h : Nat) (u : PerUnit) (ht : tenor f = some (h, u)) (fixGap payGap : Int)
    (cs : List Coupon) (hok : buildSchedule md hol true eff mat conv f fixGap payGap = .ok cs) :
    (cs = [] ↔ mat.instant ≤ eff.instant) ∧
    (cs ≠ [] → ∃ d, Shifted eff (cs.length * h : Nat) u d ∧ mat.instant ≤ d.instant) ∧
    (∀ i c, cs[i + 1]? = some c → ∃ d, Shifted eff ((i + 1) * h : Nat) u d ∧ d.instant < mat.instant ∧
      adjust hol d conv = .ok c.start) := by
  obtain ⟨-, -, dates, adj, hr, ⟨ha1, ha2⟩, hlen, hall⟩ :=
    (C46_schedule md hol true eff mat he hm conv f h u ht fixGap payGap cs).1 hok
  simp only [if_true] at hr
  obtain ⟨r1, r2, r3, r4⟩ := hr
  refine ⟨?_, ?_, ?_⟩
  · constructor
    · intro e
      subst e
      simp only [List.length_nil] at hlen
      exact r4 eff (by rw [← hlen]; exact r1)
    · intro e
      by_contra hne
      have hpos := List.length_pos_of_ne_nil hne
      have := r3 0 eff (by omega) r1
      omega
  · intro hne
    have hpos := List.length_pos_of_ne_nil hne
    have g : dates[cs.length]? = some (dates[cs.length]'(by omega)) := List.getElem?_eq_getElem (by omega)
    refine ⟨_, ?_, r4 _ (by rw [show dates.length - 1 = cs.length by omega]; exact g)⟩
    have := r2 (cs.length - 1) _ (by rw [show cs.length - 1 + 1 = cs.length by omega]; exact g)
    rwa [show cs.length - 1 + 1 = cs.length by omega] at this
  · intro i c hc
    have hi : i + 1 < cs.length := (List.getElem?_eq_some_iff.1 hc).1
    have g : dates[i + 1]? = some (dates[i + 1]'(by omega)) := List.getElem?_eq_getElem (by omega)
    have h1 := (hall (i + 1) c hc).start
    rw [if_neg (by omega)] at h1
    exact ⟨_, r2 i _ g, r3 (i + 1) _ (by omega) g, ha2 (i + 1) _ _ g h1⟩

/-- C46 (backward). With `n` coupons, coupon `i ≥ 1` starts `n - i` tenors before the maturity, adjusted (tenors in
months counted as `sub_period` does, see C42). -/
theorem C46_backward_starts (md : Mode) (hol : DT → Res Bool) (eff mat : DT) (he : eff.Valid)
    (hm : mat.Valid) (conv : BDC) (f : Freq) (h : Nat) (u : PerUnit) (ht : tenor f = some (h, u)) (fixGap payGap : Int)
    (cs : List Coupon) (hok : buildSchedule md hol false eff mat conv f fixGap payGap = .ok cs) :
    (cs = [] ↔ mat.instant ≤ eff.instant) ∧
    (cs ≠ [] → ∃ d, ShiftedBack mat (cs.length * h : Nat) u d ∧ d.instant ≤ eff.instant) ∧
    (∀ i c, cs[i + 1]? = some c → ∃ d, ShiftedBack mat ((cs.length - (i + 1)) * h : Nat) u d ∧
      eff.instant < d.instant ∧ adjust hol d conv = .ok c.start) := by
  obtain ⟨-, -, dates, adj, hr, ⟨ha1, ha2⟩, hlen, hall⟩ :=
    (C46_schedule md hol false eff mat he hm conv f h u ht fixGap payGap cs).1 hok
  simp only [Bool.false_eq_true, if_false] at hr
  obtain ⟨r1, r2, r3, r4⟩ := hr
  refine ⟨?_, ?_, ?_⟩
  · constructor
    · intro e
      subst e
      simp only [List.length_nil] at hlen
      exact r4 mat (by rw [← r1, ← hlen])
    · intro e
      by_contra hne
      have hpos := List.length_pos_of_ne_nil hne
      have := r3 (dates.length - 1) mat (by omega) r1
      omega
  · intro hne
    have hpos := List.length_pos_of_ne_nil hne
    have g : dates[0]? = some (dates[0]'(by omega)) := List.getElem?_eq_getElem (by omega)
    refine ⟨_, ?_, r4 _ g⟩
    have := r2 (cs.length - 1) (dates[0]'(by omega)) (by omega)
      (by rw [show dates.length - 1 - (cs.length - 1 + 1) = 0 by omega]; exact g)
    rwa [show cs.length - 1 + 1 = cs.length by omega] at this
  · intro i c hc
    have hi : i + 1 < cs.length := (List.getElem?_eq_some_iff.1 hc).1
    have g : dates[i + 1]? = some (dates[i + 1]'(by omega)) := List.getElem?_eq_getElem (by omega)
    have h1 := (hall (i + 1) c hc).start
    rw [if_neg (by omega)] at h1
    refine ⟨_, ?_, r3 (i + 1) _ (by omega) g, ha2 (i + 1) _ _ g h1⟩
    have := r2 (cs.length - (i + 1) - 1) (dates[i + 1]'(by omega)) (by omega)
      (by rw [show dates.length - 1 - (cs.length - (i + 1) - 1 + 1) = i + 1 by omega]; exact g)
    rwa [show cs.length - (i + 1) - 1 + 1 = cs.length - (i + 1) by omega] at this

/-- C46 (fixing and payment). Every fixing date is the last business day on or before the start minus the fixing gap;
every payment date, except at the maturity of a schedule of several coupons, is the end plus the payment gap moved by
the convention. -/
theorem C46_fixing_payment (md : Mode) (hol : DT → Res Bool) (forward : Bool) (eff mat : DT) (he : eff.Valid)
    (hm : mat.Valid) (conv : BDC) (f : Freq) (hf : f ≠ .none) (fixGap payGap : Int) (cs : List Coupon)
    (hok : buildSchedule md hol forward eff mat conv f fixGap payGap = .ok cs) (i : Nat) (c : Coupon)
    (hc : cs[i]? = some c) :
    (∃ x, DaysFrom c.start (-fixGap) x ∧ LastOnOrBefore hol x c.fixing) ∧
    (i + 1 < cs.length ∨ cs.length = 1 → ∃ x, DaysFrom c.stop payGap x ∧ adjust hol x conv = .ok c.payment) := by
  obtain ⟨h, u, ht⟩ : ∃ h u, tenor f = some (h, u) := by
    cases f <;> first | exact absurd rfl hf | exact ⟨_, _, rfl⟩
  obtain ⟨-, -, dates, adj, hr, ha, hlen, hall⟩ :=
    (C46_schedule md hol forward eff mat he hm conv f h u ht fixGap payGap cs).1 hok
  obtain ⟨h1, h2, h3, ⟨x, hx1, hx2⟩, h5⟩ := hall i c hc
  refine ⟨⟨x, hx1, ?_⟩, ?_⟩
  · exact (preceding_iff hol x hx1.2.1 c.fixing).1 hx2
  · intro hi
    rw [if_neg (by omega)] at h5
    exact h5

/-- C46 (one coupon). A schedule of one coupon does not end at maturity: generated forward it ends at the adjusted date
one tenor after the effective date, which is on or after the maturity; generated backward at the adjusted maturity. -/
theorem C46_one_coupon (md : Mode) (hol : DT → Res Bool) (forward : Bool) (eff mat : DT) (he : eff.Valid)
    (hm : mat.Valid) (conv : BDC) (f : Freq) (h : Nat) (u : PerUnit) (ht : tenor f = some (h, u)) (fixGap payGap : Int)
    (c : Coupon) (hok : buildSchedule md hol forward eff mat conv f fixGap payGap = .ok [c]) :
    c.start = eff ∧ if forward then ∃ d, Shifted eff h u d ∧ mat.instant ≤ d.instant ∧ adjust hol d conv = .ok c.stop
      else adjust hol mat conv = .ok c.stop := by
  obtain ⟨-, -, dates, adj, hr, ⟨ha1, ha2⟩, hlen, hall⟩ :=
    (C46_schedule md hol forward eff mat he hm conv f h u ht fixGap payGap [c]).1 hok
  have hc := hall 0 c rfl
  have h1 := hc.start
  have h2 := hc.stop
  rw [if_pos rfl] at h1
  simp only [List.length_singleton] at h2 hlen
  rw [if_neg (by omega)] at h2
  refine ⟨h1, ?_⟩
  cases forward
  · simp only [Bool.false_eq_true, if_false] at hr ⊢
    have := hr.final
    rw [← hlen] at this
    exact ha2 1 _ _ this h2
  · simp only [if_true] at hr ⊢
    have g : dates[1]? = some (dates[1]'(by omega)) := List.getElem?_eq_getElem (by omega)
    refine ⟨_, by simpa using hr.step 0 _ g, hr.last _ (by rw [show dates.length - 1 = 1 by omega]; exact g), ha2 1 _ _ g h2⟩

/-- C46 (refusals). Negative gaps and the convention `Dummy` are refused; the frequency `None` panics unless the
maturity is not after the effective date. -/
theorem C46_refused (md : Mode) (hol : DT → Res Bool) (forward : Bool) (eff mat : DT) (conv : BDC) (f : Freq) (fixGap payGap : Int) :
    (fixGap < 0 ∨ payGap < 0 → buildSchedule md hol forward eff mat conv f fixGap payGap = .error .err) ∧
    (conv = .dummy → ∀ cs, buildSchedule md hol forward eff mat conv f fixGap payGap ≠ .ok cs) ∧
    (0 ≤ fixGap → 0 ≤ payGap → eff.instant < mat.instant →
      buildSchedule md hol forward eff mat conv .none fixGap payGap = .error .unwrapNone) := by
  refine ⟨?_, ?_, ?_⟩
  · intro h
    unfold buildSchedule
    rw [if_pos (by omega)]
  · rintro rfl cs hcs
    unfold buildSchedule at hcs
    split at hcs
    · cases hcs
    · obtain ⟨dates, h1, h2⟩ := (bind_ok_iff _ _ _).1 hcs
      obtain ⟨adj, h3, -⟩ := (bind_ok_iff _ _ _).1 h2
      have : dates ≠ [] := by
        unfold rawDates at h1
        cases forward
        · simp only [Bool.false_eq_true, if_false] at h1
          obtain ⟨ds, -, h⟩ := (bind_ok_iff _ _ _).1 h1
          cases h
          simp
        · simp only [if_true] at h1
          obtain ⟨ds, -, h⟩ := (bind_ok_iff _ _ _).1 h1
          cases h
          simp
      cases dates with
      | nil => exact this rfl
      | cons d ds => simp [mapRes, adjust] at h3
  · intro h1 h2 hlt
    unfold buildSchedule rawDates
    rw [if_neg (by omega)]
    cases forward
    · rw [if_neg (by simp), rollBackward, if_pos hlt, if_pos (by norm_num), withMultiple_none]
      rfl
    · rw [if_pos rfl, rollForward, if_pos hlt, if_pos (by norm_num), withMultiple_none]
      rfl

/-! ## When the schedule exists -/

theorem instant_lt_of_day {a b : DT} (ho : b.off = a.off) (ht : b.tod = a.tod) (h : a.day < b.day) :
    a.instant < b.instant := by
  unfold DT.instant DT.localNs dayNs
  rw [ho, ht]
  omega

theorem monthShift_lt {x z w : Ymd} {m n : Int} (hz : MonthShift x m z) (hw : MonthShift x n w) (h : m < n) :
    z.ord < w.ord := by
  rw [ord_lt_iff z w hz.1 hw.1]
  obtain ⟨⟨a1, a2, -, -⟩, h1, -⟩ := hz
  obtain ⟨⟨b1, b2, -, -⟩, h2, -⟩ := hw
  unfold monthIdx at h1 h2
  unfold Ymd.lt
  omega

/-- More tenors, later date. -/
theorem shifted_strict {a b c : DT} {m n : Int} {u : PerUnit} (h1 : Shifted a m u b) (h2 : Shifted a n u c)
    (h : m < n) : b.instant < c.instant := by
  obtain ⟨-, o1, s1⟩ := h1
  obtain ⟨-, o2, s2⟩ := h2
  have cal : b.tod = a.tod → c.tod = a.tod → b.ymd.ord < c.ymd.ord → b.instant < c.instant := by
    intro t1 t2 hlt
    unfold DT.ymd at hlt
    rw [ord_ofOrd, ord_ofOrd] at hlt
    exact instant_lt_of_day (by rw [o1, o2]) (by rw [t1, t2]) hlt
  unfold DT.instant at *
  cases u
  · exact cal s1.1 s2.1 (monthShift_lt s1.2 s2.2 (by omega))
  · exact cal s1.1 s2.1 (monthShift_lt s1.2 s2.2 h)
  all_goals
    simp only [unitSeconds] at s1 s2
    rw [s1, s2, o1, o2]
    omega

theorem shifted_zero {a : DT} (ha : a.Valid) (u : PerUnit) : Shifted a 0 u a := by
  refine ⟨ha, rfl, ?_⟩
  cases u <;> simp [MonthShift, ofOrd_valid, DT.ymd]

/-- C46 (existence). Without adjustment, a forward schedule is never refused: if the roll dates, the dates shifted by
the gaps and the fixing adjustments stay within the supported years, `build_schedule` returns a schedule. -/
theorem C46_forward_unadjusted (md : Mode) (hol : DT → Res Bool) (eff mat : DT) (he : eff.Valid)
    (hm : mat.Valid) (f : Freq) (h : Nat) (u : PerUnit) (ht : tenor f = some (h, u)) (fixGap payGap : Int)
    (h1 : 0 ≤ fixGap) (h2 : 0 ≤ payGap) (dates : List DT) (hr : RolledForward eff mat h u dates)
    (hfix : ∀ d ∈ dates, ∃ x r, DaysFrom d (-fixGap) x ∧ adjust hol x .preceding = .ok r)
    (hpay : ∀ d ∈ dates, ∃ x, DaysFrom d payGap x) :
    ∃ cs, buildSchedule md hol true eff mat .unadjusted f fixGap payGap = .ok cs ∧ cs.length + 1 = dates.length := by
  have hpos : 0 < dates.length := by
    have := hr.first
    exact (List.getElem?_eq_some_iff.1 this).1
  have hst : ∀ k (hk : k < dates.length), Shifted eff (k * h : Nat) u dates[k] := by
    intro k hk
    cases k with
    | zero =>
      have := hr.first
      rw [List.getElem?_eq_getElem hpos] at this
      rw [Option.some.inj this]
      simpa using shifted_zero he u
    | succ k => exact hr.step k _ (List.getElem?_eq_getElem hk)
  have hpos' := (tenor_pos ht).1
  -- coupon i
  have hc : ∀ i, i < dates.length - 1 → ∃ c, IsCoupon hol .unadjusted fixGap payGap eff mat dates (dates.length - 1) i c := by
    intro i hi
    obtain ⟨x, r, hx, hxr⟩ := hfix (dates[i]'(by omega)) (List.getElem_mem _)
    obtain ⟨p, hp⟩ := hpay (dates[i + 1]'(by omega)) (List.getElem_mem _)
    have g0 : dates[i]? = some (dates[i]'(by omega)) := List.getElem?_eq_getElem (by omega)
    have g1 : dates[i + 1]? = some (dates[i + 1]'(by omega)) := List.getElem?_eq_getElem (by omega)
    have hstart : if i = 0 then dates[i]'(by omega) = eff else dates[i]? = some (dates[i]'(by omega)) := by
      split
      · rename_i h0
        subst h0
        rw [hr.first] at g0
        exact (Option.some.inj g0).symm
      · exact g0
    by_cases hl : i + 1 = dates.length - 1 ∧ 2 ≤ dates.length - 1
    · refine ⟨⟨r, dates[i]'(by omega), mat, mat⟩, hstart, by rw [if_pos hl], ?_, ⟨x, hx, hxr⟩, by rw [if_pos hl]⟩
      exact hr.before i _ (by omega) g0
    · refine ⟨⟨r, dates[i]'(by omega), dates[i + 1]'(by omega), p⟩, hstart, by rw [if_neg hl]; exact g1, ?_,
        ⟨x, hx, hxr⟩, by rw [if_neg hl]; exact ⟨p, hp, rfl⟩⟩
      refine shifted_strict (hst i (by omega)) (hst (i + 1) (by omega)) ?_
      have : i * h < (i + 1) * h := Nat.mul_lt_mul_of_pos_right (Nat.lt_succ_self i) (by omega)
      exact_mod_cast this
  have : Inhabited Coupon := ⟨⟨eff, eff, eff, eff⟩⟩
  choose! g hg using hc
  refine ⟨(List.range (dates.length - 1)).map g, ?_, by simp; omega⟩
  rw [C46_schedule md hol true eff mat he hm .unadjusted f h u ht]
  refine ⟨h1, h2, dates, dates, by rw [if_pos rfl]; exact hr, ⟨rfl, ?_⟩, by simp; omega, ?_⟩
  · intro k d a hd ha
    rw [hd] at ha
    rw [Option.some.inj ha]
    rfl
  · intro i c hc
    have hi : i < dates.length - 1 := by
      have := (List.getElem?_eq_some_iff.1 hc).1
      simpa using this
    have : c = g i := by
      rw [List.getElem?_map, List.getElem?_range hi] at hc
      exact (Option.some.inj hc).symm
    rw [this, List.length_map, List.length_range]
    exact hg i hi

/-! ## Concrete cases and limits -/

/-- Weekends only (`NullCalendar`). -/
def weekendsOnly (d : DT) : Res Bool := Calendar.isHoliday .null d

/-- A date at midnight UTC. -/
def utc (y : Int) (m d : Nat) : DT := { day := (Ymd.mk y m d).ord, tod := 0, off := 0 }

/-- Half a year of quarterly coupons. -/
example : buildSchedule .checked weekendsOnly true (utc 2024 1 15) (utc 2024 7 15) .modifiedFollowing .quarterly 1 0
    = .ok [⟨utc 2024 1 12, utc 2024 1 15, utc 2024 4 15, utc 2024 4 15⟩,
           ⟨utc 2024 4 12, utc 2024 4 15, utc 2024 7 15, utc 2024 7 15⟩] := by decide +kernel

/-- The same generated backward. -/
example : buildSchedule .checked weekendsOnly false (utc 2024 1 15) (utc 2024 7 15) .modifiedFollowing .quarterly 1 0
    = .ok [⟨utc 2024 1 12, utc 2024 1 15, utc 2024 4 15, utc 2024 4 15⟩,
           ⟨utc 2024 4 12, utc 2024 4 15, utc 2024 7 15, utc 2024 7 15⟩] := by decide +kernel

/-- An instrument of one month with quarterly coupons: its only coupon ends two months after the maturity. -/
theorem fault_one_coupon_beyond_maturity :
    buildSchedule .checked weekendsOnly true (utc 2024 1 1) (utc 2024 2 1) .following .quarterly 0 0
      = .ok [⟨utc 2024 1 1, utc 2024 1 1, utc 2024 4 1, utc 2024 4 1⟩] := by decide +kernel

/-- Backward generation over more than about a year and a half fails for monthly tenors, because `sub_period` loses a
year (C42): three years of quarterly coupons to 2024-07-31 are refused. -/
theorem fault_backward_refused :
    buildSchedule .checked weekendsOnly false (utc 2021 7 31) (utc 2024 7 31) .unadjusted .quarterly 0 0
      = .error .err := by decide +kernel

/-- The same schedule generated forward has its twelve coupons. -/
theorem fault_backward_refused_forward :
    (buildSchedule .checked weekendsOnly true (utc 2021 7 31) (utc 2024 7 31) .unadjusted .quarterly 0 0).map List.length
      = .ok 12 := by decide +kernel

/-- A daily schedule across a weekend is refused under `Following`: Saturday and Sunday both move to Monday. -/
theorem fault_daily_weekend :
    buildSchedule .checked weekendsOnly true (utc 2024 1 5) (utc 2024 1 10) .following .daily 0 0
      = .error .err := by decide +kernel

/-- A stub over a weekend is refused: the last coupon would start on Saturday 2024-06-01, moved to the maturity Monday
2024-06-03. -/
theorem fault_weekend_stub :
    buildSchedule .checked weekendsOnly true (utc 2024 3 1) (utc 2024 6 3) .following .quarterly 0 0
      = .error .err := by decide +kernel

end Verif.Props

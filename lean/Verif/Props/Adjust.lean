import Verif.QL.Calendar
import Mathlib.Tactic
/-!
# C43, C44, C51: business-day adjustment, joint calendars, the holiday rule
-/
set_option autoImplicit false
namespace Verif.Props
open Verif Verif.Civil Verif.QL

/-! ## Specification -/

/-- The date-time `d` moved to day `k`: time of day and offset kept. -/
def onDay (d : DT) (k : Int) : DT := { d with day := k }

/-- Day `k` (at the time and offset of `d`) is a business day / a holiday of the calendar `hol`. -/
def Business (hol : DT → Res Bool) (d : DT) (k : Int) : Prop := hol (onDay d k) = .ok false
def Holiday (hol : DT → Res Bool) (d : DT) (k : Int) : Prop := hol (onDay d k) = .ok true

/-- `r` is the first business day on or after `d`. -/
def FirstOnOrAfter (hol : DT → Res Bool) (d r : DT) : Prop :=
  ∃ k, r = onDay d k ∧ d.day ≤ k ∧ k ≤ maxDay ∧ Business hol d k ∧ ∀ j, d.day ≤ j → j < k → Holiday hol d j

/-- `r` is the last business day on or before `d`. -/
def LastOnOrBefore (hol : DT → Res Bool) (d r : DT) : Prop :=
  ∃ k, r = onDay d k ∧ k ≤ d.day ∧ minDay ≤ k ∧ Business hol d k ∧ ∀ j, k < j → j ≤ d.day → Holiday hol d j

/-- Two days are in the same month of the same year. -/
def SameMonth (a b : Int) : Prop := (ofOrd a).y = (ofOrd b).y ∧ (ofOrd a).m = (ofOrd b).m

/-! ## Lemmas -/

theorem onDay_self (d : DT) : onDay d d.day = d := rfl

theorem onDay_onDay (d : DT) (a b : Int) : onDay (onDay d a) b = onDay d b := rfl

theorem SameMonth.refl (a : Int) : SameMonth a a := ⟨rfl, rfl⟩

theorem SameMonth.between {a b j : Int} (h : SameMonth a b) (h1 : a ≤ j) (h2 : j ≤ b) : SameMonth a j := by
  have va := ofOrd_valid a
  have vb := ofOrd_valid b
  have vj := ofOrd_valid j
  have l1 := ord_lt_iff (ofOrd j) (ofOrd a) vj va
  have l2 := ord_lt_iff (ofOrd b) (ofOrd j) vb vj
  rw [ord_ofOrd, ord_ofOrd] at l1 l2
  unfold Ymd.lt at l1 l2
  obtain ⟨h3, h4⟩ := h
  unfold SameMonth
  omega

/-- The same month of another year is at least 335 days away. -/
theorem same_month_far (a b : Int) (h : a < b) (hm : (ofOrd a).m = (ofOrd b).m) (hb : b < a + 335) :
    SameMonth a b := by
  refine ⟨?_, hm⟩
  obtain ⟨a1, a2, a3, a4⟩ := ofOrd_valid a
  obtain ⟨b1, b2, b3, b4⟩ := ofOrd_valid b
  have ea := ord_ofOrd a
  have eb := ord_ofOrd b
  unfold Ymd.ord at ea eb
  by_contra hne
  rcases Int.lt_or_gt_of_ne hne with hlt | hgt
  · have := dby_mono _ _ hlt
    rw [← hm] at eb b4
    have hdim := dim_le (ofOrd a).y (ofOrd a).m
    have key : (dbm (ofOrd a).y (ofOrd a).m : Int) + 365 ≤ dbm (ofOrd b).y (ofOrd a).m + yearLen (ofOrd a).y := by
      generalize (ofOrd a).m = m at a1 a2
      generalize (ofOrd a).y = ya
      generalize (ofOrd b).y = yb
      interval_cases m <;> simp only [dbm, dim, yearLen] <;> cases leap ya <;> cases leap yb <;> simp
    omega
  · have := dby_mono _ _ hgt
    have k1 := doy_bounds (ofOrd a) (ofOrd_valid a)
    have k2 := doy_bounds (ofOrd b) (ofOrd_valid b)
    omega

/-! ## C43 -/

theorem following_iff (hol : DT → Res Bool) (d : DT) (hd : d.day ≤ maxDay) (r : DT) :
    adjustFollowing hol d = .ok r ↔ FirstOnOrAfter hol d r := by
  fun_induction adjustFollowing hol d with
  | case1 d ih =>
    cases hh : hol d with
    | error e =>
      simp only [Res.bind_error]
      refine ⟨fun h => (by cases h), ?_⟩
      rintro ⟨k, rfl, hk, hk2, hb, hall⟩
      rcases Int.lt_or_eq_of_le hk with h | h
      · have := hall d.day (le_refl _) h
        unfold Holiday at this
        rw [onDay_self, hh] at this
        cases this
      · unfold Business at hb
        rw [← h, onDay_self, hh] at hb
        cases hb
    | ok b =>
      simp only [Res.bind_ok]
      cases b with
      | false =>
        simp only [Bool.false_eq_true, if_false]
        constructor
        · intro h
          have e : d = r := by injection h
          rw [← e]
          exact ⟨d.day, rfl, le_refl _, hd, hh, fun j h1 h2 => absurd h1 (by omega)⟩
        · rintro ⟨k, rfl, hk, hk2, hb, hall⟩
          rcases Int.lt_or_eq_of_le hk with h | h
          · have := hall d.day (le_refl _) h
            unfold Holiday at this
            rw [onDay_self, hh] at this
            cases this
          · rw [← h, onDay_self]
      | true =>
        simp only [if_true]
        split
        · rename_i hlt
          rw [ih hlt (by simp only; omega)]
          constructor
          · rintro ⟨k, rfl, hk, hk2, hb, hall⟩
            simp only at hk hall
            refine ⟨k, rfl, by omega, hk2, hb, fun j h1 h2 => ?_⟩
            rcases Int.lt_or_eq_of_le h1 with h | h
            · exact hall j (by omega) h2
            · rw [← h]; exact hh
          · rintro ⟨k, rfl, hk, hk2, hb, hall⟩
            have hne : d.day ≠ k := by
              rintro rfl
              unfold Business at hb
              rw [onDay_self, hh] at hb
              cases hb
            exact ⟨k, rfl, by simp only; omega, hk2, hb, fun j h1 h2 => hall j (by simp only at h1; omega) h2⟩
        · rename_i hlt
          refine ⟨fun h => (by cases h), ?_⟩
          rintro ⟨k, rfl, hk, hk2, hb, hall⟩
          have : k = d.day := by omega
          unfold Business at hb
          rw [this, onDay_self, hh] at hb
          cases hb

theorem preceding_iff (hol : DT → Res Bool) (d : DT) (hd : minDay ≤ d.day) (r : DT) :
    adjustPreceding hol d = .ok r ↔ LastOnOrBefore hol d r := by
  fun_induction adjustPreceding hol d with
  | case1 d ih =>
    cases hh : hol d with
    | error e =>
      simp only [Res.bind_error]
      refine ⟨fun h => (by cases h), ?_⟩
      rintro ⟨k, rfl, hk, hk2, hb, hall⟩
      rcases Int.lt_or_eq_of_le hk with h | h
      · have := hall d.day h (le_refl _)
        unfold Holiday at this
        rw [onDay_self, hh] at this
        cases this
      · unfold Business at hb
        rw [h, onDay_self, hh] at hb
        cases hb
    | ok b =>
      simp only [Res.bind_ok]
      cases b with
      | false =>
        simp only [Bool.false_eq_true, if_false]
        constructor
        · intro h
          have e : d = r := by injection h
          rw [← e]
          exact ⟨d.day, rfl, le_refl _, hd, hh, fun j h1 h2 => absurd h1 (by omega)⟩
        · rintro ⟨k, rfl, hk, hk2, hb, hall⟩
          rcases Int.lt_or_eq_of_le hk with h | h
          · have := hall d.day h (le_refl _)
            unfold Holiday at this
            rw [onDay_self, hh] at this
            cases this
          · rw [h, onDay_self]
      | true =>
        simp only [if_true]
        split
        · rename_i hlt
          rw [ih hlt (by simp only; omega)]
          constructor
          · rintro ⟨k, rfl, hk, hk2, hb, hall⟩
            simp only at hk hall
            refine ⟨k, rfl, by omega, hk2, hb, fun j h1 h2 => ?_⟩
            rcases Int.lt_or_eq_of_le h2 with h | h
            · exact hall j h1 (by omega)
            · rw [h]; exact hh
          · rintro ⟨k, rfl, hk, hk2, hb, hall⟩
            have hne : d.day ≠ k := by
              rintro rfl
              unfold Business at hb
              rw [onDay_self, hh] at hb
              cases hb
            exact ⟨k, rfl, by simp only; omega, hk2, hb, fun j h1 h2 => hall j h1 (by simp only at h2; omega)⟩
        · rename_i hlt
          refine ⟨fun h => (by cases h), ?_⟩
          rintro ⟨k, rfl, hk, hk2, hb, hall⟩
          have : k = d.day := by omega
          unfold Business at hb
          rw [this, onDay_self, hh] at hb
          cases hb

/-- C43 (Following). The result is the first business day on or after the date, with the time of day and the offset
kept; there is a result iff such a day exists up to 9999-12-31 (otherwise a panic). -/
theorem C43_following (hol : DT → Res Bool) (d : DT) (hd : d.Valid) (r : DT) :
    adjust hol d .following = .ok r ↔ FirstOnOrAfter hol d r := following_iff hol d hd.2.1 r

/-- C43 (Preceding). The last business day on or before the date. -/
theorem C43_preceding (hol : DT → Res Bool) (d : DT) (hd : d.Valid) (r : DT) :
    adjust hol d .preceding = .ok r ↔ LastOnOrBefore hol d r := preceding_iff hol d hd.1 r

/-- C43. A business day is returned unchanged by every convention (but `Dummy`, which is refused). -/
theorem C43_business_day (hol : DT → Res Bool) (d : DT) (hd : d.Valid) (h : hol d = .ok false) (c : BDC) :
    adjust hol d c = if c = .dummy then .error .err else .ok d := by
  have h1 : adjustFollowing hol d = .ok d :=
    (following_iff hol d hd.2.1 d).2 ⟨d.day, rfl, le_refl _, hd.2.1, h, fun j h1 h2 => absurd h1 (by omega)⟩
  have h2 : adjustPreceding hol d = .ok d :=
    (preceding_iff hol d hd.1 d).2 ⟨d.day, rfl, le_refl _, hd.1, h, fun j h1 h2 => absurd h1 (by omega)⟩
  cases c <;> simp [adjust, h1, h2, adjustModifiedFollowing, adjustModifiedPreceding]

/-- C43. `Unadjusted` returns the date, holiday or not. -/
theorem C43_unadjusted (hol : DT → Res Bool) (d : DT) : adjust hol d .unadjusted = .ok d := rfl

/-- C43. Whatever the convention (but `Unadjusted`), a returned date is a business day at the same time of day and
offset. -/
theorem C43_returns_business_day (hol : DT → Res Bool) (d : DT) (hd : d.Valid) (c : BDC) (hc : c ≠ .unadjusted) (r : DT)
    (h : adjust hol d c = .ok r) : hol r = .ok false ∧ r.tod = d.tod ∧ r.off = d.off := by
  have F : ∀ r, adjustFollowing hol d = .ok r → hol r = .ok false ∧ r.tod = d.tod ∧ r.off = d.off := by
    intro r h
    obtain ⟨k, rfl, _, _, hb, _⟩ := (following_iff hol d hd.2.1 r).1 h
    exact ⟨hb, rfl, rfl⟩
  have P : ∀ r, adjustPreceding hol d = .ok r → hol r = .ok false ∧ r.tod = d.tod ∧ r.off = d.off := by
    intro r h
    obtain ⟨k, rfl, _, _, hb, _⟩ := (preceding_iff hol d hd.1 r).1 h
    exact ⟨hb, rfl, rfl⟩
  cases c with
  | unadjusted => exact absurd rfl hc
  | following => exact F r h
  | preceding => exact P r h
  | dummy => cases h
  | modifiedFollowing =>
    simp only [adjust, adjustModifiedFollowing] at h
    cases hf : adjustFollowing hol d with
    | error e => rw [hf] at h; cases h
    | ok f =>
      rw [hf, Res.bind_ok] at h
      split at h
      · exact P r h
      · cases h; exact F _ hf
  | modifiedPreceding =>
    simp only [adjust, adjustModifiedPreceding] at h
    cases hf : adjustPreceding hol d with
    | error e => rw [hf] at h; cases h
    | ok f =>
      rw [hf, Res.bind_ok] at h
      split at h
      · exact F r h
      · cases h; exact P _ hf

/-- The first business day found when there is one. -/
theorem exists_first (hol : DT → Res Bool) (d : DT) (n : Nat) (hmax : d.day + n ≤ maxDay)
    (tot : ∀ j, d.day ≤ j → j ≤ d.day + n → Business hol d j ∨ Holiday hol d j) (hb : Business hol d (d.day + n)) :
    ∃ k, d.day ≤ k ∧ k ≤ d.day + n ∧ FirstOnOrAfter hol d (onDay d k) := by
  classical
  have hex : ∃ i : Nat, Business hol d (d.day + i) := ⟨n, hb⟩
  have hle : Nat.find hex ≤ n := Nat.find_le hb
  refine ⟨d.day + Nat.find hex, by omega, by omega, d.day + Nat.find hex, rfl, by omega, by omega, Nat.find_spec hex, ?_⟩
  intro j h1 h2
  obtain ⟨i, rfl⟩ : ∃ i : Nat, j = d.day + i := ⟨(j - d.day).toNat, by omega⟩
  rcases tot (d.day + i) h1 (by omega) with h | h
  · exact absurd h (Nat.find_min hex (by omega))
  · exact h

theorem exists_last (hol : DT → Res Bool) (d : DT) (n : Nat) (hmin : minDay ≤ d.day - n)
    (tot : ∀ j, d.day - n ≤ j → j ≤ d.day → Business hol d j ∨ Holiday hol d j) (hb : Business hol d (d.day - n)) :
    ∃ k, d.day - n ≤ k ∧ k ≤ d.day ∧ LastOnOrBefore hol d (onDay d k) := by
  classical
  have hex : ∃ i : Nat, Business hol d (d.day - i) := ⟨n, hb⟩
  have hle : Nat.find hex ≤ n := Nat.find_le hb
  refine ⟨d.day - Nat.find hex, by omega, by omega, d.day - Nat.find hex, rfl, by omega, by omega, Nat.find_spec hex, ?_⟩
  intro j h1 h2
  obtain ⟨i, rfl⟩ : ∃ i : Nat, j = d.day - i := ⟨(d.day - j).toNat, by omega⟩
  rcases tot (d.day - i) (by omega) h2 with h | h
  · exact absurd h (Nat.find_min hex (by omega))
  · exact h

theorem business_not_holiday {hol : DT → Res Bool} {d : DT} {k : Int} (h1 : Business hol d k) (h2 : Holiday hol d k) :
    False := by
  unfold Business at h1
  unfold Holiday at h2
  rw [h1] at h2
  cases h2

/-- C43 (Modified Following). If the month of the date has a business day (`a`), and the next business day is less
than 335 days away (`b`; a calendar closed for eleven months defeats the code, see `fault_modified_following`), the
result is in the month of the date: the first business day on or after the date if the month has one, else the last one
before. -/
theorem C43_modified_following (hol : DT → Res Bool) (d : DT) (hd : d.Valid) (a b : Int)
    (ha : SameMonth d.day a) (ha' : minDay ≤ a ∧ a ≤ maxDay) (hab : Business hol d a)
    (hb0 : d.day ≤ b) (hb1 : b < d.day + 335) (hb2 : b ≤ maxDay) (hbb : Business hol d b)
    (tot : ∀ j, min a d.day ≤ j → j ≤ max a b → Business hol d j ∨ Holiday hol d j) :
    ∃ r, adjust hol d .modifiedFollowing = .ok r ∧ SameMonth d.day r.day ∧
      ((∃ k, d.day ≤ k ∧ SameMonth d.day k ∧ k ≤ max a b ∧ Business hol d k) → FirstOnOrAfter hol d r) ∧
      ((∀ k, d.day ≤ k → SameMonth d.day k → k ≤ max a b → Holiday hol d k) → LastOnOrBefore hol d r) := by
  obtain ⟨f, f1, f2, hF⟩ := exists_first hol d (b - d.day).toNat (by omega)
    (fun j h1 h2 => tot j (by omega) (by omega)) (by rw [show d.day + ((b - d.day).toNat : Int) = b by omega]; exact hbb)
  have eF := (following_iff hol d hd.2.1 _).2 hF
  obtain ⟨f', ef', _, _, hfb, hfall⟩ := hF
  have : f' = f := by have := congrArg DT.day ef'; simpa [onDay] using this.symm
  subst this
  have key : SameMonth d.day f' ↔ d.ymd.m = (onDay d f').ymd.m := by
    constructor
    · intro h; exact h.2
    · intro h
      rcases Int.lt_or_eq_of_le f1 with h' | h'
      · exact same_month_far _ _ h' h (by omega)
      · rw [h']; exact SameMonth.refl _
  by_cases hs : SameMonth d.day f'
  · refine ⟨onDay d f', ?_, hs, fun _ => ⟨f', rfl, f1, by omega, hfb, hfall⟩, fun h => ?_⟩
    · simp only [adjust, adjustModifiedFollowing]
      rw [eF, Res.bind_ok, if_neg (by simpa using key.1 hs)]
    · exact absurd (h f' f1 hs (by omega)) (fun h => business_not_holiday hfb h)
  · -- no business day of the month on or after the date
    have hnone : ∀ k, d.day ≤ k → SameMonth d.day k → k < f' := by
      intro k h1 h2
      by_contra hlt
      exact hs (h2.between f1 (by omega))
    have had : a < d.day := by
      by_contra hlt
      exact business_not_holiday hab (hfall a (by omega) (hnone a (by omega) ha))
    obtain ⟨p, p1, p2, hP⟩ := exists_last hol d (d.day - a).toNat (by omega)
      (fun j h1 h2 => tot j (by omega) (by omega))
      (by rw [show d.day - ((d.day - a).toNat : Int) = a by omega]; exact hab)
    have eP := (preceding_iff hol d hd.1 _).2 hP
    refine ⟨onDay d p, ?_, ?_, ?_, fun _ => hP⟩
    · simp only [adjust, adjustModifiedFollowing]
      rw [eF, Res.bind_ok, if_pos (by rw [ne_eq, ← key]; exact hs)]
      exact eP
    · have h1 : SameMonth a d.day := ⟨ha.1.symm, ha.2.symm⟩
      have h2 := h1.between (j := p) (by omega) p2
      exact ⟨h1.1.symm.trans h2.1, h1.2.symm.trans h2.2⟩
    · rintro ⟨k, h1, h2, _, h4⟩
      exact absurd (hfall k h1 (hnone k h1 h2)) (fun h => business_not_holiday h4 h)

/-- C43 (Modified Preceding). The mirror image. -/
theorem C43_modified_preceding (hol : DT → Res Bool) (d : DT) (hd : d.Valid) (a b : Int)
    (ha : SameMonth d.day a) (ha' : minDay ≤ a ∧ a ≤ maxDay) (hab : Business hol d a)
    (hb0 : b ≤ d.day) (hb1 : d.day < b + 335) (hb2 : minDay ≤ b) (hbb : Business hol d b)
    (tot : ∀ j, min a b ≤ j → j ≤ max a d.day → Business hol d j ∨ Holiday hol d j) :
    ∃ r, adjust hol d .modifiedPreceding = .ok r ∧ SameMonth d.day r.day ∧
      ((∃ k, k ≤ d.day ∧ SameMonth d.day k ∧ min a b ≤ k ∧ Business hol d k) → LastOnOrBefore hol d r) ∧
      ((∀ k, k ≤ d.day → SameMonth d.day k → min a b ≤ k → Holiday hol d k) → FirstOnOrAfter hol d r) := by
  obtain ⟨f, f1, f2, hF⟩ := exists_last hol d (d.day - b).toNat (by omega)
    (fun j h1 h2 => tot j (by omega) (by omega)) (by rw [show d.day - ((d.day - b).toNat : Int) = b by omega]; exact hbb)
  have eF := (preceding_iff hol d hd.1 _).2 hF
  obtain ⟨f', ef', _, _, hfb, hfall⟩ := hF
  have : f' = f := by have := congrArg DT.day ef'; simpa [onDay] using this.symm
  subst this
  have key : SameMonth d.day f' ↔ d.ymd.m = (onDay d f').ymd.m := by
    constructor
    · intro h; exact h.2
    · intro h
      rcases Int.lt_or_eq_of_le f2 with h' | h'
      · have := same_month_far f' d.day h' h.symm (by omega)
        exact ⟨this.1.symm, this.2.symm⟩
      · rw [h']; exact SameMonth.refl _
  by_cases hs : SameMonth d.day f'
  · refine ⟨onDay d f', ?_, hs, fun _ => ⟨f', rfl, f2, by omega, hfb, hfall⟩, fun h => ?_⟩
    · simp only [adjust, adjustModifiedPreceding]
      rw [eF, Res.bind_ok, if_neg (by simpa using key.1 hs)]
    · exact absurd (h f' f2 hs (by omega)) (fun h => business_not_holiday hfb h)
  · have hnone : ∀ k, k ≤ d.day → SameMonth d.day k → f' < k := by
      intro k h1 h2
      by_contra hlt
      have h3 : SameMonth k d.day := ⟨h2.1.symm, h2.2.symm⟩
      have h4 := h3.between (j := f') (by omega) f2
      exact hs ⟨h3.1.symm.trans h4.1, h3.2.symm.trans h4.2⟩
    have had : d.day < a := by
      by_contra hlt
      exact business_not_holiday hab (hfall a (hnone a (by omega) ha) (by omega))
    obtain ⟨p, p1, p2, hP⟩ := exists_first hol d (a - d.day).toNat (by omega)
      (fun j h1 h2 => tot j (by omega) (by omega))
      (by rw [show d.day + ((a - d.day).toNat : Int) = a by omega]; exact hab)
    have eP := (following_iff hol d hd.2.1 _).2 hP
    refine ⟨onDay d p, ?_, ?_, ?_, fun _ => hP⟩
    · simp only [adjust, adjustModifiedPreceding]
      rw [eF, Res.bind_ok, if_pos (by rw [ne_eq, ← key]; exact hs)]
      exact eP
    · exact SameMonth.between (j := p) ha p1 (by omega)
    · rintro ⟨k, h1, h2, _, h4⟩
      exact absurd (hfall k (hnone k h1 h2) h1) (fun h => business_not_holiday h4 h)

/-! ## C51: which days are holidays -/

/-- The local calendar day on which the instant of `d` falls: in Seoul (UTC+9) for Korean calendars, at UTC-5 for those
of the United States, at the date's own offset for the null calendar. -/
def localDay (c : Calendar) (d : DT) : Int :=
  match c with
  | .null => d.day
  | .korea _ _ _ => (d.instant + 9 * 3600 * 1000000000) / dayNs
  | .us _ _ _ => (d.instant - 5 * 3600 * 1000000000) / dayNs

/-- The calendar's own holidays, and the user's additions and removals. -/
def baseDay (c : Calendar) (day : Int) : Bool :=
  match c with
  | .null => false
  | .korea t _ _ => krBase t day
  | .us t _ _ => usBase t day
def addedDays : Calendar → List Int
  | .null => []
  | .korea _ a _ => a
  | .us _ a _ => a
def removedDays : Calendar → List Int
  | .null => []
  | .korea _ _ r => r
  | .us _ _ r => r

/-- Saturdays and Sundays (0001-01-01 was a Monday). -/
def Weekend (day : Int) : Prop := (day - 1) % 7 = 5 ∨ (day - 1) % 7 = 6

theorem isWeekendDay_iff (day : Int) : isWeekendDay day = true ↔ Weekend day := by
  simp [isWeekendDay, Weekend, weekday]

theorem toOffset_day (d : DT) (o : Int) (h1 : minDay ≤ (d.instant + o * 1000000000) / dayNs)
    (h2 : (d.instant + o * 1000000000) / dayNs ≤ maxDay) :
    ∃ x, d.toOffset o = .ok x ∧ x.day = (d.instant + o * 1000000000) / dayNs ∧ x.off = o ∧
      (x.tod : Int) = (d.instant + o * 1000000000) % dayNs := by
  have e : d.localNs + (o - d.off) * 1000000000 = d.instant + o * 1000000000 := by unfold DT.instant; ring
  have hpos : (0 : Int) < dayNs := by unfold dayNs; norm_num
  unfold DT.toOffset checkDay
  rw [e, if_pos ⟨h1, h2⟩]
  exact ⟨_, rfl, rfl, rfl, Int.toNat_of_nonneg (Int.emod_nonneg _ (by omega))⟩

theorem toOffset_self (x : DT) (hx : x.Valid) : x.toOffset x.off = .ok x := by
  obtain ⟨h1, h2, h3⟩ := hx
  have hpos : (0 : Int) < dayNs := by unfold dayNs; norm_num
  have e : x.localNs + (x.off - x.off) * 1000000000 = x.tod + x.day * dayNs := by unfold DT.localNs; ring
  have e1 : (x.localNs + (x.off - x.off) * 1000000000) / dayNs = x.day := by
    rw [e, Int.add_mul_ediv_right _ _ (by omega), Int.ediv_eq_zero_of_lt (by omega) h3]; omega
  have e2 : (x.localNs + (x.off - x.off) * 1000000000) % dayNs = x.tod := by
    rw [e, Int.add_mul_emod_self_right, Int.emod_eq_of_lt (by omega) h3]
  unfold DT.toOffset checkDay
  rw [e1, e2, if_pos ⟨h1, h2⟩]
  rfl

/-- C51. A day is a holiday iff its local day is a weekend, or is not removed and is a holiday of the calendar or an
added one. (`h`: the local day is one the date type can hold; otherwise the conversion panics.) -/
theorem C51_rule (c : Calendar) (d : DT) (h1 : minDay ≤ localDay c d) (h2 : localDay c d ≤ maxDay) :
    ∃ b, c.isHoliday d = .ok b ∧
      (b = true ↔ Weekend (localDay c d) ∨
        (localDay c d ∉ removedDays c ∧ (baseDay c (localDay c d) = true ∨ localDay c d ∈ addedDays c))) := by
  have core : ∀ x : DT, c.convert x = .ok x →
      ∃ b, c.isHoliday' x = .ok b ∧ (b = true ↔ Weekend x.day ∨
        (x.day ∉ removedDays c ∧ (baseDay c x.day = true ∨ x.day ∈ addedDays c))) := by
    intro x hx
    unfold Calendar.isHoliday' Calendar.isWeekend
    simp only [hx, Res.bind_ok]
    have hw := isWeekendDay_iff x.day
    cases hb : isWeekendDay x.day with
    | true => exact ⟨true, rfl, by simp [hw.1 hb]⟩
    | false =>
      have hw' : ¬ Weekend x.day := fun h => by rw [hw.2 h] at hb; cases hb
      simp only [hw', false_or, Bool.false_eq_true, if_false]
      cases c with
      | null =>
        exact ⟨false, by simp [Calendar.isRemoved, Calendar.isBase, Calendar.isAdded], by simp [baseDay, addedDays]⟩
      | korea t a r =>
        by_cases hr : x.day ∈ r
        · exact ⟨false, by simp [Calendar.isRemoved, hr], by simp [removedDays, hr]⟩
        · by_cases hk : krBase t x.day = true
          · exact ⟨true, by simp [Calendar.isRemoved, Calendar.isBase, hr, hk], by simp [removedDays, baseDay, hr, hk]⟩
          · by_cases ha : x.day ∈ a
            · exact ⟨true, by simp [Calendar.isRemoved, Calendar.isAdded, hr, ha],
                by simp [removedDays, addedDays, hr, ha]⟩
            · exact ⟨false, by simp [Calendar.isRemoved, Calendar.isBase, Calendar.isAdded, hr, hk, ha],
                by simp [baseDay, addedDays, hk, ha]⟩
      | us t a r =>
        by_cases hr : x.day ∈ r
        · exact ⟨false, by simp [Calendar.isRemoved, hr], by simp [removedDays, hr]⟩
        · by_cases hk : usBase t x.day = true
          · exact ⟨true, by simp [Calendar.isRemoved, Calendar.isBase, hr, hk], by simp [removedDays, baseDay, hr, hk]⟩
          · by_cases ha : x.day ∈ a
            · exact ⟨true, by simp [Calendar.isRemoved, Calendar.isAdded, hr, ha],
                by simp [removedDays, addedDays, hr, ha]⟩
            · exact ⟨false, by simp [Calendar.isRemoved, Calendar.isBase, Calendar.isAdded, hr, hk, ha],
                by simp [baseDay, addedDays, hk, ha]⟩
  have hpos : (0 : Int) < dayNs := by unfold dayNs; norm_num
  unfold Calendar.isHoliday
  cases c with
  | null => exact core d rfl
  | korea t a r =>
    have e : d.instant + 9 * 3600 * 1000000000 = d.instant + 32400 * 1000000000 := by ring
    simp only [localDay, e] at h1 h2 ⊢
    obtain ⟨x, hx, hday, hoff, htod⟩ := toOffset_day d 32400 h1 h2
    have hv : x.Valid := ⟨by rw [hday]; exact h1, by rw [hday]; exact h2, by rw [htod]; exact Int.emod_lt_of_pos _ hpos⟩
    have hself : (Calendar.korea t a r).convert x = .ok x := by
      have := toOffset_self x hv
      rw [hoff] at this
      exact this
    rw [show (Calendar.korea t a r).convert d = .ok x from hx, Res.bind_ok, ← hday]
    exact core x hself
  | us t a r =>
    have e : d.instant - 5 * 3600 * 1000000000 = d.instant + (-18000) * 1000000000 := by ring
    simp only [localDay, e] at h1 h2 ⊢
    obtain ⟨x, hx, hday, hoff, htod⟩ := toOffset_day d (-18000) h1 h2
    have hv : x.Valid := ⟨by rw [hday]; exact h1, by rw [hday]; exact h2, by rw [htod]; exact Int.emod_lt_of_pos _ hpos⟩
    have hself : (Calendar.us t a r).convert x = .ok x := by
      have := toOffset_self x hv
      rw [hoff] at this
      exact this
    rw [show (Calendar.us t a r).convert d = .ok x from hx, Res.bind_ok, ← hday]
    exact core x hself

/-- C51. For the Korean and United States calendars the answer depends on the instant only, not on the offset in which
the date-time is written. -/
theorem C51_instant (c : Calendar) (hc : c ≠ .null) (d e : DT) (h : d.instant = e.instant) :
    c.isHoliday d = c.isHoliday e := by
  have key : ∀ o, d.toOffset o = e.toOffset o := by
    intro o
    unfold DT.toOffset
    have : d.localNs + (o - d.off) * 1000000000 = e.localNs + (o - e.off) * 1000000000 := by
      unfold DT.instant at h
      linarith
    rw [this]
  cases c with
  | null => exact absurd rfl hc
  | korea t a r => simp only [Calendar.isHoliday, Calendar.convert, key]
  | us t a r => simp only [Calendar.isHoliday, Calendar.convert, key]

/-- Adding or removing a day does not move the local day. -/
theorem localDay_add (c : Calendar) (k : Int) (d : DT) : localDay (c.addHoliday k) d = localDay c d := by
  cases c <;> rfl
theorem localDay_remove (c : Calendar) (k : Int) (d : DT) : localDay (c.removeHoliday k) d = localDay c d := by
  cases c <;> rfl

/-- Two calendars with the same answer to the defining condition give the same result. -/
theorem isHoliday_congr (c c' : Calendar) (d : DT) (h1 : minDay ≤ localDay c d)
    (h2 : localDay c d ≤ maxDay) (hl : localDay c' d = localDay c d)
    (h : (Weekend (localDay c d) ∨ (localDay c d ∉ removedDays c ∧ (baseDay c (localDay c d) = true ∨ localDay c d ∈ addedDays c)))
      ↔ (Weekend (localDay c d) ∨ (localDay c d ∉ removedDays c' ∧ (baseDay c' (localDay c d) = true ∨ localDay c d ∈ addedDays c')))) :
    c'.isHoliday d = c.isHoliday d := by
  obtain ⟨b, e, hb⟩ := C51_rule c d h1 h2
  obtain ⟨b', e', hb'⟩ := C51_rule c' d (by omega) (by omega)
  rw [e, e']
  rw [hl] at hb'
  have : b' = true ↔ b = true := hb'.trans (h.symm.trans hb.symm)
  cases b <;> cases b' <;> simp at this <;> rfl

/-- C51. After `add_holidays(k)` day `k` is a holiday, unless it was removed; every other day is as before. -/
theorem C51_add (c : Calendar) (hc : c ≠ .null) (k : Int) (d : DT) (h1 : minDay ≤ localDay c d)
    (h2 : localDay c d ≤ maxDay) :
    (localDay c d = k → k ∉ removedDays c → (c.addHoliday k).isHoliday d = .ok true) ∧
    (localDay c d ≠ k ∨ k ∈ removedDays c → (c.addHoliday k).isHoliday d = c.isHoliday d) := by
  have hadd : addedDays (c.addHoliday k) = addedDays c ++ [k] := by cases c <;> first | rfl | exact absurd rfl hc
  have hrem : removedDays (c.addHoliday k) = removedDays c := by cases c <;> rfl
  have hbase : ∀ x, baseDay (c.addHoliday k) x = baseDay c x := by intro x; cases c <;> rfl
  constructor
  · intro hk hr
    obtain ⟨b, e, hb⟩ := C51_rule (c.addHoliday k) d (by rw [localDay_add]; exact h1) (by rw [localDay_add]; exact h2)
    rw [e, hb.2 (Or.inr ?_)]
    rw [localDay_add, hadd, hrem, hk]
    exact ⟨hr, Or.inr (by simp)⟩
  · intro h
    refine isHoliday_congr c _ d h1 h2 (localDay_add c k d) ?_
    rw [hadd, hrem, hbase]
    rcases h with h | h
    · simp [h]
    · by_cases hk : localDay c d = k
      · simp [hk, h]
      · simp [hk]

/-- C51. After `remove_holidays(k)` day `k` is a business day unless it is a weekend - also if it is added, before or
afterwards; every other day is as before. -/
theorem C51_remove (c : Calendar) (hc : c ≠ .null) (k : Int) (d : DT) (h1 : minDay ≤ localDay c d)
    (h2 : localDay c d ≤ maxDay) :
    (localDay c d = k → ¬ Weekend k → (c.removeHoliday k).isHoliday d = .ok false ∧
      ((c.removeHoliday k).addHoliday k).isHoliday d = .ok false) ∧
    (localDay c d ≠ k → (c.removeHoliday k).isHoliday d = c.isHoliday d) := by
  have hadd : addedDays (c.removeHoliday k) = addedDays c := by cases c <;> rfl
  have hrem : removedDays (c.removeHoliday k) = removedDays c ++ [k] := by cases c <;> first | rfl | exact absurd rfl hc
  have hbase : ∀ x, baseDay (c.removeHoliday k) x = baseDay c x := by intro x; cases c <;> rfl
  have hc' : c.removeHoliday k ≠ .null := by cases c <;> simp [Calendar.removeHoliday] at *
  constructor
  · intro hk hw
    have first : (c.removeHoliday k).isHoliday d = .ok false := by
      obtain ⟨b, e, hb⟩ := C51_rule (c.removeHoliday k) d (by rw [localDay_remove]; exact h1)
        (by rw [localDay_remove]; exact h2)
      rw [e]
      cases b with
      | false => rfl
      | true =>
        rw [localDay_remove, hrem, hk] at hb
        simp [hw] at hb
    refine ⟨first, ?_⟩
    rw [(C51_add (c.removeHoliday k) hc' k d (by rw [localDay_remove]; exact h1)
      (by rw [localDay_remove]; exact h2)).2 (Or.inr (by rw [hrem]; simp))]
    exact first
  · intro h
    refine isHoliday_congr c _ d h1 h2 (localDay_remove c k d) ?_
    rw [hadd, hrem, hbase]
    simp [h]

/-- C51. Every date at least two days away from the ends of the supported range can be asked, at any UTC offset the
crate allows (up to 25:59:59). -/
theorem C51_total (c : Calendar) (d : DT) (hd : d.Valid) (ho : -93599 ≤ d.off ∧ d.off ≤ 93599)
    (h1 : minDay + 2 ≤ d.day) (h2 : d.day ≤ maxDay - 2) : ∃ b, c.isHoliday d = .ok b := by
  have key : minDay ≤ localDay c d ∧ localDay c d ≤ maxDay := by
    obtain ⟨_, _, h3⟩ := hd
    cases c with
    | null => exact ⟨by simp only [localDay]; omega, by simp only [localDay]; omega⟩
    | korea t a r =>
      simp only [localDay, DT.instant, DT.localNs, dayNs] at h3 ⊢
      omega
    | us t a r =>
      simp only [localDay, DT.instant, DT.localNs, dayNs] at h3 ⊢
      omega
  obtain ⟨b, e, _⟩ := C51_rule c d key.1 key.2
  exact ⟨b, e⟩

/-! ## C44: joint calendars -/

theorem anyRes_false {α : Type} (f : α → Res Bool) (l : List α) :
    anyRes f l = .ok false ↔ ∀ x ∈ l, f x = .ok false := by
  induction l with
  | nil => simp [anyRes]
  | cons x xs ih =>
    unfold anyRes
    cases h : f x with
    | error e => simp [h]
    | ok b => cases b <;> simp [h, ih]

theorem anyRes_true {α : Type} (f : α → Res Bool) (l : List α) (h : anyRes f l = .ok true) : ∃ x ∈ l, f x = .ok true := by
  induction l with
  | nil => simp [anyRes] at h
  | cons x xs ih =>
    unfold anyRes at h
    cases hx : f x with
    | error e => rw [hx] at h; cases h
    | ok b =>
      rw [hx] at h
      cases b with
      | true => exact ⟨x, by simp, hx⟩
      | false =>
        obtain ⟨y, hy, e⟩ := ih (by simpa using h)
        exact ⟨y, by simp [hy], e⟩

theorem anyRes_total {α : Type} (f : α → Res Bool) (l : List α) (h : ∀ x ∈ l, ∃ b, f x = .ok b) :
    ∃ b, anyRes f l = .ok b := by
  induction l with
  | nil => exact ⟨false, rfl⟩
  | cons x xs ih =>
    obtain ⟨b, hb⟩ := h x (by simp)
    obtain ⟨b', hb'⟩ := ih (fun y hy => h y (by simp [hy]))
    unfold anyRes
    rw [hb]
    cases b
    · exact ⟨b', by simpa using hb'⟩
    · exact ⟨true, by simp⟩

/-- C44. For a joint calendar of any members, whenever the members can be asked: a day is a holiday iff it is one for
some member, a business day iff it is one for all, a weekend iff it is one for some; the two answers are opposite. -/
theorem C44_joint (cs : List Calendar) (d : DT) (h : ∀ c ∈ cs, ∃ b, c.isHoliday d = .ok b) :
    (jointIsHoliday cs d = .ok true ↔ ∃ c ∈ cs, c.isHoliday d = .ok true) ∧
    (jointIsHoliday cs d = .ok false ↔ ∀ c ∈ cs, c.isHoliday d = .ok false) ∧
    (jointIsBusinessDay cs d = .ok true ↔ ∀ c ∈ cs, c.isHoliday d = .ok false) ∧
    (jointIsBusinessDay cs d = .ok false ↔ ∃ c ∈ cs, c.isHoliday d = .ok true) := by
  have hf := anyRes_false (fun c => Calendar.isHoliday c d) cs
  have ht : anyRes (fun c => Calendar.isHoliday c d) cs = .ok true ↔ ∃ c ∈ cs, c.isHoliday d = .ok true := by
    refine ⟨anyRes_true _ cs, ?_⟩
    rintro ⟨c, hc, e⟩
    obtain ⟨b, hb⟩ := anyRes_total (fun c => Calendar.isHoliday c d) cs h
    rw [hb]
    cases b with
    | true => rfl
    | false => have := hf.1 hb c hc; rw [e] at this; cases this
  have hall : ∃ b, anyRes (fun c => Calendar.isHoliday c d) cs = .ok b ∧
      allRes (fun c => c.isBusinessDay d) cs = .ok (!b) := by
    clear hf ht
    induction cs with
    | nil => exact ⟨false, rfl, rfl⟩
    | cons c cs ih =>
      obtain ⟨b, hb⟩ := h c (by simp)
      obtain ⟨b', e1, e2⟩ := ih (fun y hy => h y (by simp [hy]))
      unfold anyRes allRes
      simp only [Calendar.isBusinessDay, hb, Res.bind_ok]
      cases b with
      | true => exact ⟨true, rfl, rfl⟩
      | false => exact ⟨b', e1, e2⟩
  obtain ⟨b, e1, e2⟩ := hall
  refine ⟨ht, hf, ?_, ?_⟩
  · unfold jointIsBusinessDay
    rw [e2, ← hf, e1]
    cases b <;> simp
  · unfold jointIsBusinessDay
    rw [e2, ← ht, e1]
    cases b <;> simp

/-- C44. A joint calendar without members is refused. -/
theorem C44_empty (cs : List Calendar) : jointNew cs = .error .err ↔ cs = [] := by
  cases cs <;> simp [jointNew]

/-! ### Concrete cases and limits -/

/-- Friday 2024-02-09 was the lunar new year holiday, Monday 12 a substitute: Following goes to Tuesday 13. -/
example : adjust (Calendar.korea .krx [] []).isHoliday { day := (Ymd.mk 2024 2 9).ord, tod := 0, off := 32400 } .following
    = .ok { day := (Ymd.mk 2024 2 13).ord, tod := 0, off := 32400 } := by decide +kernel

/-- Sunday 2024-06-30: Following leaves the month, Modified Following goes back to Friday 28. -/
example : adjust Calendar.null.isHoliday { day := (Ymd.mk 2024 6 30).ord, tod := 0, off := 0 } .modifiedFollowing
    = .ok { day := (Ymd.mk 2024 6 28).ord, tod := 0, off := 0 } := by decide +kernel

/-- 2024-07-04 20:00 in New York is a holiday at any offset it is written in; in Seoul it is already the fifth. -/
example : (Calendar.us .nyse [] []).isHoliday { day := (Ymd.mk 2024 7 5).ord, tod := 10 * 3600 * 1000000000, off := 32400 }
    = .ok true ∧ localDay (.us .nyse [] []) { day := (Ymd.mk 2024 7 5).ord, tod := 10 * 3600 * 1000000000, off := 32400 }
    = (Ymd.mk 2024 7 4).ord := by decide +kernel

example : jointIsHoliday [.korea .krx [] [], .us .nyse [] []] { day := (Ymd.mk 2024 7 4).ord, tod := 43200000000000, off := 0 }
    = .ok true ∧ jointIsHoliday [.korea .krx [] []] { day := (Ymd.mk 2024 7 4).ord, tod := 43200000000000, off := 0 }
    = .ok false := by decide +kernel

/-- A calendar closed from 2024-01-15 to 2025-01-05. -/
def longClosing (d : DT) : Res Bool :=
  .ok (decide ((Ymd.mk 2024 1 15).ord ≤ d.day ∧ d.day ≤ (Ymd.mk 2025 1 5).ord))

/-- `adjust_modified_following` compares months but not years: if the calendar is closed for almost a year it returns a
day of the following January although the month of the date has business days. -/
theorem fault_modified_following :
    adjust longClosing { day := (Ymd.mk 2024 1 20).ord, tod := 0, off := 0 } .modifiedFollowing
      = .ok { day := (Ymd.mk 2025 1 6).ord, tod := 0, off := 0 } ∧
    Business longClosing { day := (Ymd.mk 2024 1 20).ord, tod := 0, off := 0 } (Ymd.mk 2024 1 14).ord := by
  refine ⟨?_, by unfold Business; decide⟩
  have h : adjustFollowing longClosing { day := (Ymd.mk 2024 1 20).ord, tod := 0, off := 0 }
      = .ok { day := (Ymd.mk 2025 1 6).ord, tod := 0, off := 0 } := by
    rw [following_iff _ _ (by decide)]
    refine ⟨(Ymd.mk 2025 1 6).ord, rfl, by decide, by decide, by unfold Business; decide, fun j h1 h2 => ?_⟩
    unfold Holiday longClosing onDay
    simp only [Except.ok.injEq, decide_eq_true_eq]
    have e1 : (Ymd.mk 2024 1 20).ord = 738905 := by decide
    have e2 : (Ymd.mk 2025 1 6).ord = 739257 := by decide
    have e3 : (Ymd.mk 2024 1 15).ord = 738900 := by decide
    have e4 : (Ymd.mk 2025 1 5).ord = 739256 := by decide
    simp only at h1
    omega
  simp only [adjust, adjustModifiedFollowing, h, Res.bind_ok]
  decide +kernel

end Verif.Props

import Verif.QL.Display
import Verif.Props.Adjust
/-!
# C164: the holidays displayed
-/
set_option autoImplicit false
namespace Verif.Props
open Verif Verif.QL Verif.Civil

/-! ## Specification -/

/-- The days a calendar is closed (C51): weekends, its own holidays and added days but for removed ones -/
def ClosedOn (c : Calendar) (day : Int) : Prop := Weekend day ∨ (day ∉ removedDays c ∧ (baseDay c day = true ∨ day ∈ addedDays c))

/-- `k` days after `d` -/
def daysAfter (d : DT) (k : Int) : Int := d.instant + k * dayNs

/-! ## The loop -/

theorem onDay_instant (d : DT) (k : Int) : (onDay d k).instant = daysAfter d (k - d.day) := by
  unfold onDay daysAfter DT.instant DT.localNs
  ring

theorem displayLoop_spec (hol wk : DT → Res Bool) (incl : Bool) (upto : DT) (n : Nat) : ∀ d : DT, (maxDay - d.day).toNat = n → d.day ≤ maxDay →
    (∀ k, d.day ≤ k → k ≤ maxDay → (onDay d k).instant ≤ upto.instant → ∃ b, printed hol wk incl (onDay d k) = .ok b) →
    ((displayLoop hol wk incl upto d).1.Pairwise fun x y => x.day < y.day) ∧
    (∀ e, e ∈ (displayLoop hol wk incl upto d).1 ↔
      ∃ k, d.day ≤ k ∧ k ≤ maxDay ∧ e = onDay d k ∧ e.instant ≤ upto.instant ∧ printed hol wk incl e = .ok true) ∧
    (displayLoop hol wk incl upto d).2 = if (onDay d maxDay).instant ≤ upto.instant then .error .overflow else .ok () := by
  have pos : (0 : Int) < dayNs := by unfold dayNs; norm_num
  induction n with
  | zero =>
    intro d hn hd ans
    have e : d.day = maxDay := by omega
    have e' : onDay d maxDay = d := by rw [← e]; rfl
    rw [e']
    rw [displayLoop]
    by_cases h : d.instant ≤ upto.instant
    · rw [if_pos h, if_pos h]
      obtain ⟨b, hb⟩ := ans d.day (le_refl _) hd h
      rw [onDay_self] at hb
      rw [hb]
      dsimp only
      rw [if_neg (by omega)]
      refine ⟨by cases b <;> simp, fun x => ?_, rfl⟩
      constructor
      · intro hx
        cases b with
        | false => simp at hx
        | true =>
          have : x = d := by simpa using hx
          subst this
          exact ⟨x.day, le_refl _, hd, rfl, h, hb⟩
      · rintro ⟨k, k1, k2, rfl, -, hp⟩
        have : k = d.day := by omega
        subst this
        rw [onDay_self] at hp ⊢
        rw [hb] at hp
        injection hp with hp
        subst hp
        simp
    · rw [if_neg h, if_neg h]
      refine ⟨List.Pairwise.nil, fun x => ⟨by simp, ?_⟩, rfl⟩
      rintro ⟨k, k1, k2, rfl, hi, -⟩
      have : k = d.day := by omega
      subst this
      exact absurd hi h
  | succ n ih =>
    intro d hn hd ans
    rw [displayLoop]
    by_cases h : d.instant ≤ upto.instant
    · rw [if_pos h]
      obtain ⟨b, hb⟩ := ans d.day (le_refl _) hd h
      rw [onDay_self] at hb
      rw [hb]
      dsimp only
      rw [if_pos (by omega)]
      obtain ⟨i1, i2, i3⟩ := ih { d with day := d.day + 1 } (by show (maxDay - (d.day + 1)).toNat = n; omega) (by show d.day + 1 ≤ maxDay; omega)
        (fun k k1 k2 hi => ans k (by have : d.day + 1 ≤ k := k1; omega) k2 hi)
      refine ⟨?_, fun x => ?_, i3⟩
      · cases b with
        | false => exact i1
        | true =>
          refine List.Pairwise.cons (fun x hx => ?_) i1
          obtain ⟨k, k1, -, rfl, -⟩ := (i2 x).1 hx
          have : d.day + 1 ≤ k := k1
          show d.day < k
          omega
      · have tail : (∃ k, d.day + 1 ≤ k ∧ k ≤ maxDay ∧ x = onDay d k ∧ x.instant ≤ upto.instant ∧ printed hol wk incl x = .ok true) ↔
            x ∈ (displayLoop hol wk incl upto { d with day := d.day + 1 }).1 := (i2 x).symm
        constructor
        · intro hx
          cases b with
          | false =>
            obtain ⟨k, k1, r⟩ := tail.2 hx
            exact ⟨k, by omega, r⟩
          | true =>
            rcases List.mem_cons.1 hx with rfl | hx
            · exact ⟨x.day, le_refl _, hd, rfl, h, hb⟩
            · obtain ⟨k, k1, r⟩ := tail.2 hx
              exact ⟨k, by omega, r⟩
        · rintro ⟨k, k1, k2, rfl, hi, hp⟩
          by_cases hk : k = d.day
          · subst hk
            rw [onDay_self] at hp ⊢
            rw [hb] at hp
            injection hp with hp
            subst hp
            simp
          · have := tail.1 ⟨k, by omega, k2, rfl, hi, hp⟩
            cases b with
            | false => exact this
            | true => exact List.mem_cons_of_mem _ this
    · rw [if_neg h]
      have far : ∀ k, d.day ≤ k → ¬ (onDay d k).instant ≤ upto.instant := by
        intro k hk hi
        rw [onDay_instant, daysAfter] at hi
        have : 0 ≤ (k - d.day) * dayNs := mul_nonneg (by omega) (le_of_lt pos)
        omega
      refine ⟨List.Pairwise.nil, fun x => ⟨by simp, ?_⟩, by rw [if_neg (far _ hd)]⟩
      rintro ⟨k, k1, k2, rfl, hi, -⟩
      exact absurd hi (far k k1)

/-! ## One calendar -/

theorem isWeekend_rule (c : Calendar) (d : DT) (h1 : minDay ≤ localDay c d) (h2 : localDay c d ≤ maxDay) :
    c.isWeekend d = .ok (isWeekendDay (localDay c d)) := by
  unfold Calendar.isWeekend
  cases c with
  | null => rfl
  | korea t a r =>
    obtain ⟨x, hx, hday, -⟩ := toOffset_day d 32400 h1 h2
    rw [show (Calendar.korea t a r).convert d = .ok x from hx, Res.bind_ok, hday]
    rfl
  | us t a r =>
    have e : (d.instant + -18000 * 1000000000) / dayNs = localDay (.us t a r) d := rfl
    obtain ⟨x, hx, hday, -⟩ := toOffset_day d (-18000) (by rw [e]; exact h1) (by rw [e]; exact h2)
    rw [show (Calendar.us t a r).convert d = .ok x from hx, Res.bind_ok, hday, e]

theorem printed_rule (c : Calendar) (incl : Bool) (d : DT) (h1 : minDay ≤ localDay c d) (h2 : localDay c d ≤ maxDay) :
    ∃ b, printed c.isHoliday c.isWeekend incl d = .ok b ∧ (b = true ↔ ClosedOn c (localDay c d) ∧ (incl = true ∨ ¬ Weekend (localDay c d))) := by
  obtain ⟨b, hb, hr⟩ := C51_rule c d h1 h2
  have hw := isWeekend_rule c d h1 h2
  have hi := isWeekendDay_iff (localDay c d)
  unfold printed
  rw [hb, Res.bind_ok]
  cases b with
  | false =>
    refine ⟨false, rfl, ?_⟩
    have : ¬ ClosedOn c (localDay c d) := fun h => by have := hr.2 h; cases this
    simp [this]
  | true =>
    have hc : ClosedOn c (localDay c d) := hr.1 rfl
    cases incl with
    | true => exact ⟨true, rfl, by simp [hc]⟩
    | false =>
      simp only [if_true, Bool.false_eq_true, if_false, hw, Res.bind_ok]
      refine ⟨_, rfl, ?_⟩
      rw [← hi]
      simp [hc]

/-- A date at the offset of the calendar: the day it is written with is the local day. -/
theorem converted (c : Calendar) (d : DT) (hd : (d.tod : Int) < dayNs) (h1 : minDay ≤ localDay c d) (h2 : localDay c d ≤ maxDay) :
    ∃ x, c.convert d = .ok x ∧ x.day = localDay c d ∧ x.instant = d.instant ∧ (x.tod : Int) < dayNs ∧ ∀ k, localDay c (onDay x k) = k := by
  have pos : (0 : Int) < dayNs := by unfold dayNs; norm_num
  have key : ∀ o : Int, minDay ≤ (d.instant + o * 1000000000) / dayNs → (d.instant + o * 1000000000) / dayNs ≤ maxDay →
      ∃ x, d.toOffset o = .ok x ∧ x.day = (d.instant + o * 1000000000) / dayNs ∧ x.instant = d.instant ∧ (x.tod : Int) < dayNs ∧
        ∀ k, ((onDay x k).instant + o * 1000000000) / dayNs = k := by
    intro o h1 h2
    obtain ⟨x, hx, hday, hoff, htod⟩ := toOffset_day d o h1 h2
    have hlt : (x.tod : Int) < dayNs := by rw [htod]; exact Int.emod_lt_of_pos _ pos
    refine ⟨x, hx, hday, ?_, hlt, fun k => ?_⟩
    · unfold DT.instant DT.localNs
      rw [hday, htod, hoff]
      have := Int.mul_ediv_add_emod (d.instant + o * 1000000000) dayNs
      have e : d.instant = d.localNs - d.off * 1000000000 := rfl
      have e' : d.localNs = d.day * dayNs + d.tod := rfl
      rw [mul_comm] at this
      rw [this]
      rw [e, e']
      ring
    · have : (onDay x k).instant + o * 1000000000 = x.tod + k * dayNs := by
        unfold DT.instant DT.localNs onDay
        show k * dayNs + (x.tod : Int) - x.off * 1000000000 + o * 1000000000 = _
        rw [hoff]
        ring
      rw [this, Int.add_mul_ediv_right _ _ (by omega), Int.ediv_eq_zero_of_lt (by omega) hlt]
      omega
  cases c with
  | null => exact ⟨d, rfl, rfl, rfl, hd, fun k => rfl⟩
  | korea t a r => exact key 32400 h1 h2
  | us t a r => exact key (-18000) h1 h2

/-- **C164.** The dates displayed are by the calendar's own days: in order, a day exactly once if it is one of those on or after the local day of the first date which the
first date, moved to it, reaches no later than the last date, and the calendar is closed on it and it is not a weekend (unless weekends are included). Each is written as the
first date moved by whole days. The display ends without a panic exactly if the last date is before the last day of the year 9999. -/
theorem C164_display (c : Calendar) (start upto : DT) (incl : Bool) (hs : (start.tod : Int) < dayNs) (hu : (upto.tod : Int) < dayNs)
    (s1 : minDay ≤ localDay c start) (s2 : localDay c start ≤ maxDay) (u1 : minDay ≤ localDay c upto) (u2 : localDay c upto ≤ maxDay) :
    ((c.display start upto incl).1.Pairwise fun x y => x.day < y.day) ∧
    (∀ day, (∃ e ∈ (c.display start upto incl).1, e.day = day) ↔
      localDay c start ≤ day ∧ day ≤ maxDay ∧ daysAfter start (day - localDay c start) ≤ upto.instant ∧ ClosedOn c day ∧ (incl = true ∨ ¬ Weekend day)) ∧
    (∀ e ∈ (c.display start upto incl).1, localDay c e = e.day ∧ e.instant = daysAfter start (e.day - localDay c start)) ∧
    ((c.display start upto incl).2 = .ok () ↔ upto.instant < daysAfter start (maxDay - localDay c start)) := by
  obtain ⟨x, hx, xd, xi, xt, xl⟩ := converted c start hs s1 s2
  obtain ⟨y, hy, -, yi, -⟩ := converted c upto hu u1 u2
  have e : c.display start upto incl = displayLoop c.isHoliday c.isWeekend incl y x := by
    unfold Calendar.display
    rw [hx, hy]
  rw [e]
  have inst : ∀ k, (onDay x k).instant = daysAfter start (k - localDay c start) := by
    intro k
    rw [onDay_instant, daysAfter, daysAfter, xi, xd]
  have rule : ∀ k, x.day ≤ k → k ≤ maxDay → ∃ b, printed c.isHoliday c.isWeekend incl (onDay x k) = .ok b ∧ (b = true ↔ ClosedOn c k ∧ (incl = true ∨ ¬ Weekend k)) := by
    intro k k1 k2
    have := printed_rule c incl (onDay x k) (by rw [xl]; omega) (by rw [xl]; exact k2)
    rw [xl] at this
    exact this
  obtain ⟨a1, a2, a3⟩ := displayLoop_spec c.isHoliday c.isWeekend incl y _ x rfl (by omega) (fun k k1 k2 _ => by
    obtain ⟨b, hb, -⟩ := rule k k1 k2
    exact ⟨b, hb⟩)
  refine ⟨a1, fun day => ?_, fun z hz => ?_, ?_⟩
  · constructor
    · rintro ⟨z, hz, rfl⟩
      obtain ⟨k, k1, k2, rfl, hi, hp⟩ := (a2 z).1 hz
      obtain ⟨b, hb, hr⟩ := rule k k1 k2
      rw [hb] at hp
      injection hp with hp
      rw [inst, yi] at hi
      exact ⟨by show localDay c start ≤ k; omega, k2, hi, hr.1 hp⟩
    · rintro ⟨k1, k2, hi, hc⟩
      obtain ⟨b, hb, hr⟩ := rule day (by omega) k2
      refine ⟨onDay x day, (a2 _).2 ⟨day, by omega, k2, rfl, by rw [inst, yi]; exact hi, by rw [hb, hr.2 hc]⟩, rfl⟩
  · obtain ⟨k, -, -, rfl, -⟩ := (a2 z).1 hz
    exact ⟨xl k, inst k⟩
  · rw [a3, inst, yi]
    by_cases h : daysAfter start (maxDay - localDay c start) ≤ upto.instant
    · rw [if_pos h]
      constructor
      · intro h'; cases h'
      · intro h'; omega
    · rw [if_neg h]
      exact ⟨fun _ => by omega, fun _ => rfl⟩

/-! ## Joint calendars -/

theorem joint_weekend (cs : List Calendar) (d : DT) (h : ∀ c ∈ cs, minDay ≤ localDay c d ∧ localDay c d ≤ maxDay) :
    ∃ b, jointIsWeekend cs d = .ok b ∧ (b = true ↔ ∃ c ∈ cs, Weekend (localDay c d)) := by
  induction cs with
  | nil => exact ⟨false, rfl, by simp⟩
  | cons c cs ih =>
    obtain ⟨b, hb, hr⟩ := ih fun c' h' => h c' (List.mem_cons_of_mem _ h')
    have hc := h c (by simp)
    have hi := isWeekendDay_iff (localDay c d)
    unfold jointIsWeekend anyRes
    rw [isWeekend_rule c d hc.1 hc.2, Res.bind_ok]
    cases hw : isWeekendDay (localDay c d) with
    | true => exact ⟨true, rfl, by simp [hi.1 hw]⟩
    | false =>
      refine ⟨b, hb, ?_⟩
      have : ¬ Weekend (localDay c d) := fun h => by rw [hi.2 h] at hw; cases hw
      rw [hr]
      simp [this]

theorem joint_holiday (cs : List Calendar) (d : DT) (h : ∀ c ∈ cs, minDay ≤ localDay c d ∧ localDay c d ≤ maxDay) :
    ∃ b, jointIsHoliday cs d = .ok b ∧ (b = true ↔ ∃ c ∈ cs, ClosedOn c (localDay c d)) := by
  induction cs with
  | nil => exact ⟨false, rfl, by simp⟩
  | cons c cs ih =>
    obtain ⟨b, hb, hr⟩ := ih fun c' h' => h c' (List.mem_cons_of_mem _ h')
    have hc := h c (by simp)
    obtain ⟨w, hw, hi⟩ := C51_rule c d hc.1 hc.2
    unfold jointIsHoliday anyRes
    rw [hw, Res.bind_ok]
    cases w with
    | true => exact ⟨true, rfl, by simp [show ClosedOn c (localDay c d) from hi.1 rfl]⟩
    | false =>
      refine ⟨b, hb, ?_⟩
      have : ¬ ClosedOn c (localDay c d) := fun h => by have := hi.2 h; cases this
      rw [hr]
      simp [this]

/-- Away from the ends of the range of dates every calendar can be asked. -/
theorem localDay_range (c : Calendar) (d : DT) (hd : (d.tod : Int) < dayNs) (ho : -93599 ≤ d.off ∧ d.off ≤ 93599) (h1 : minDay + 2 ≤ d.day)
    (h2 : d.day ≤ maxDay - 2) : minDay ≤ localDay c d ∧ localDay c d ≤ maxDay := by
  cases c with
  | null => exact ⟨by simp only [localDay]; omega, by simp only [localDay]; omega⟩
  | korea t a r =>
    simp only [localDay, DT.instant, DT.localNs, dayNs] at hd ⊢
    omega
  | us t a r =>
    simp only [localDay, DT.instant, DT.localNs, dayNs] at hd ⊢
    omega

/-- For a joint calendar (dates not within two days of the ends of the range) the dates displayed are, in order, exactly the first date moved by whole days up to the last
date on which some member is closed, and which is for no member a weekend (unless weekends are included); the display never panics. Each member judges by its own local
day. -/
theorem C164_joint (cs : List Calendar) (start upto : DT) (incl : Bool) (hs : (start.tod : Int) < dayNs) (ho : -93599 ≤ start.off ∧ start.off ≤ 93599)
    (h1 : minDay + 2 ≤ start.day) (h2 : upto.instant < daysAfter start (maxDay - 1 - start.day)) (h3 : start.day ≤ maxDay) :
    ((jointDisplay cs start upto incl).1.Pairwise fun x y => x.day < y.day) ∧
    (∀ e, e ∈ (jointDisplay cs start upto incl).1 ↔
      (∃ k, start.day ≤ k ∧ e = onDay start k) ∧ e.instant ≤ upto.instant ∧ (∃ c ∈ cs, ClosedOn c (localDay c e)) ∧
        (incl = true ∨ ∀ c ∈ cs, ¬ Weekend (localDay c e))) ∧
    (jointDisplay cs start upto incl).2 = .ok () := by
  have pos : (0 : Int) < dayNs := by unfold dayNs; norm_num
  have near : ∀ k, (onDay start k).instant ≤ upto.instant → k ≤ maxDay - 2 := by
    intro k hk
    rw [onDay_instant, daysAfter] at hk
    unfold daysAfter at h2
    by_contra hn
    have : (maxDay - 1 - start.day) * dayNs ≤ (k - start.day) * dayNs := mul_le_mul_of_nonneg_right (by omega) (le_of_lt pos)
    omega
  have rule : ∀ k, start.day ≤ k → (onDay start k).instant ≤ upto.instant →
      ∃ b, printed (jointIsHoliday cs) (jointIsWeekend cs) incl (onDay start k) = .ok b ∧
        (b = true ↔ (∃ c ∈ cs, ClosedOn c (localDay c (onDay start k))) ∧ (incl = true ∨ ∀ c ∈ cs, ¬ Weekend (localDay c (onDay start k)))) := by
    intro k k1 hi
    have rg : ∀ c ∈ cs, minDay ≤ localDay c (onDay start k) ∧ localDay c (onDay start k) ≤ maxDay := fun c _ =>
      localDay_range c (onDay start k) hs ho (by show minDay + 2 ≤ k; omega) (near k hi)
    obtain ⟨b, hb, hr⟩ := joint_holiday cs _ rg
    obtain ⟨w, hw, hi⟩ := joint_weekend cs _ rg
    unfold printed
    rw [hb, Res.bind_ok, ← hr]
    cases b with
    | false => exact ⟨false, rfl, by simp⟩
    | true =>
      cases incl with
      | true => exact ⟨true, rfl, by simp⟩
      | false =>
        simp only [if_true, Bool.false_eq_true, if_false, hw, Res.bind_ok]
        refine ⟨_, rfl, ?_⟩
        cases w with
        | true =>
          obtain ⟨c, hc, hw⟩ := hi.1 rfl
          simp only [Bool.not_true, Bool.false_eq_true, false_or, true_and, false_iff]
          exact fun h => h c hc hw
        | false =>
          simp only [Bool.not_false, false_or, true_and, true_iff]
          intro c hc hw
          have := hi.2 ⟨c, hc, hw⟩
          cases this
  obtain ⟨a1, a2, a3⟩ := displayLoop_spec (jointIsHoliday cs) (jointIsWeekend cs) incl upto _ start rfl h3 (fun k k1 _ hi => by
    obtain ⟨b, hb, -⟩ := rule k k1 hi
    exact ⟨b, hb⟩)
  refine ⟨a1, fun e => ?_, ?_⟩
  · rw [jointDisplay, a2]
    constructor
    · rintro ⟨k, k1, k2, rfl, hi, hp⟩
      obtain ⟨b, hb, hr⟩ := rule k k1 hi
      rw [hb] at hp
      injection hp with hp
      exact ⟨⟨k, k1, rfl⟩, hi, hr.1 hp⟩
    · rintro ⟨⟨k, k1, rfl⟩, hi, hc⟩
      obtain ⟨b, hb, hr⟩ := rule k k1 hi
      exact ⟨k, k1, by have := near k hi; omega, rfl, hi, by rw [hb, hr.2 hc]⟩
  · rw [jointDisplay, a3, if_neg]
    intro h
    have := near maxDay h
    omega

/-- Days cannot be added to or removed from a joint calendar. -/
theorem C164_fixed (cs : List Calendar) (day : Int) : jointAddHoliday cs day = .error .err ∧ jointRemoveHoliday cs day = .error .err := ⟨rfl, rfl⟩

/-! ### Concrete cases -/

/-- The afternoon of 24 December 2024 and the morning of the 26th, in Seoul -/
def eveAfternoon : DT := ⟨(⟨2024, 12, 24⟩ : Ymd).ord, 15 * 3600 * 1000000000, 32400⟩
def afterMorning : DT := ⟨(⟨2024, 12, 26⟩ : Ymd).ord, 9 * 3600 * 1000000000, 32400⟩
def christmasMorning : DT := ⟨(⟨2024, 12, 25⟩ : Ymd).ord, 9 * 3600 * 1000000000, 32400⟩

/-- Christmas is displayed from the 24th in the afternoon to the 26th in the morning, -/
theorem display_witness : ∃ e ∈ ((Calendar.korea .krx [] []).display eveAfternoon afterMorning false).1, e.day = (⟨2024, 12, 25⟩ : Ymd).ord := by
  refine ((C164_display (.korea .krx [] []) eveAfternoon afterMorning false (by decide) (by decide) (by decide +kernel) (by decide +kernel) (by decide +kernel) (by decide +kernel)).2.1 _).2 ?_
  refine ⟨by decide +kernel, by decide +kernel, by decide +kernel, Or.inr ⟨by simp [removedDays], Or.inl (by decide +kernel)⟩, Or.inr ?_⟩
  rw [← isWeekendDay_iff]
  decide +kernel

/-- but not from the 24th in the afternoon to the morning of Christmas itself. -/
theorem fault_display_time_of_day : ¬ ∃ e ∈ ((Calendar.korea .krx [] []).display eveAfternoon christmasMorning false).1, e.day = (⟨2024, 12, 25⟩ : Ymd).ord := by
  intro h
  have := ((C164_display (.korea .krx [] []) eveAfternoon christmasMorning false (by decide) (by decide) (by decide +kernel) (by decide +kernel) (by decide +kernel) (by decide +kernel)).2.1 _).1 h
  exact absurd this.2.2.1 (by decide +kernel)

example : (jointDisplay [.korea .krx [] [], .us .nyse [] []] eveAfternoon afterMorning false).2 = .ok () :=
  (C164_joint _ eveAfternoon afterMorning false (by decide) (by decide) (by decide +kernel) (by decide +kernel) (by decide +kernel)).2.2

end Verif.Props

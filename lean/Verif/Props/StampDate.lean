import Verif.TE.StampDate
import Verif.Props.Timer
import Mathlib.Tactic.Linarith
import Mathlib.Algebra.GCDMonoid.Nat
/-! # Dates of time stamps (C174) -/
set_option autoImplicit false
namespace Verif.Props
open Verif Verif.Civil Verif.QL Verif.TE.Clock

theorem stampNanos_eq (t : Nat) (ht : t < 18446744073709551616) :
    ofNanos t = .ok ⟨epoch + (t : Int) / dayNs, ((t : Int) % dayNs).toNat, 0⟩ := by
  unfold ofNanos
  rw [if_pos]
  rw [minDay_eq, maxDay_eq]
  unfold epoch dayNs
  omega

theorem toNat_emod_cast (x p q : Int) (h : p = q) (hq : 0 < q) : (((x % p).toNat : Nat) : Int) = x % q := by
  subst h
  have := Int.emod_nonneg x (by omega : p ≠ 0)
  omega

theorem ofDate_cast (day : Int) (now : Nat) : ((Gen.ofDate day now).date : Int) = (day - 719163) * 86400000000000 % 18446744073709551616 := by
  unfold Gen.ofDate
  rw [toNat_emod_cast _ _ 18446744073709551616 (by norm_num) (by norm_num)]
  have e : (719163 : Int) = epoch := rfl
  have e' : (86400000000000 : Int) = dayNs := rfl
  rw [e, e']

theorem notMidnight (j k n : Int) (h0 : j ≠ 0) (h1 : -21 ≤ j) (h2 : j ≤ 21) (h : n = k * 86400000000000 - j * 18446744073709551616) :
    n % 86400000000000 ≠ 0 := by
  intro hz
  obtain ⟨q, hq⟩ := Int.dvd_of_emod_eq_zero hz
  have e : j * 281474976710656 = (k - q) * 1318359375 := by linarith
  have hd : (1318359375 : Int) ∣ j * 281474976710656 := ⟨k - q, by rw [e, mul_comm]⟩
  have hj : (1318359375 : Int) ∣ j := Int.dvd_of_dvd_mul_left_of_gcd_one hd (by decide +kernel)
  obtain ⟨x, hx⟩ := hj
  clear h hz hq e hd
  omega

/-- C174 (date-time). Every time stamp has a date-time: that of UTC at exactly so many nanoseconds after 1970-01-01T00:00, none before that and none after
2554-07-21. -/
theorem C174_datetime (t : Nat) (ht : t < 2 ^ 64) :
    ∃ d, toDatetime t = .ok d ∧ toDateUtc t = .ok d.day ∧ d.Valid ∧ d.off = 0 ∧
      d.instant = (⟨(⟨1970, 1, 1⟩ : Ymd).ord, 0, 0⟩ : DT).instant + t ∧
      (⟨1970, 1, 1⟩ : Ymd).ord ≤ d.day ∧ d.day ≤ (⟨2554, 7, 21⟩ : Ymd).ord := by
  have e1 : (⟨2554, 7, 21⟩ : Ymd).ord = 932666 := by decide
  have e0 : (⟨1970, 1, 1⟩ : Ymd).ord = 719163 := by decide
  have ht' : t < 18446744073709551616 := by norm_num at ht; exact ht
  clear ht
  refine ⟨_, by unfold toDatetime; rw [stampNanos_eq t ht']; rfl, by unfold toDateUtc; rw [stampNanos_eq t ht']; rfl, ?_, rfl, ?_, ?_, ?_⟩
  · unfold DT.Valid
    rw [minDay_eq, maxDay_eq]
    unfold epoch dayNs
    simp only
    omega
  · rw [e0]
    unfold DT.instant DT.localNs epoch dayNs
    simp only
    omega
  · rw [e0]; unfold epoch dayNs; simp only; omega
  · rw [e1]; unfold epoch dayNs; simp only; omega

/-- C174 (order). Later stamps have later date-times and no earlier dates. -/
theorem C174_order (s t : Nat) (hs : s < 2 ^ 64) (ht : t < 2 ^ 64) (h : s < t) :
    ∃ a b, toDatetime s = .ok a ∧ toDatetime t = .ok b ∧ a.instant < b.instant ∧
      ∃ x y, toDateUtc s = .ok x ∧ toDateUtc t = .ok y ∧ x ≤ y := by
  obtain ⟨a, a1, a2, -, a3, a4, -⟩ := C174_datetime s hs
  obtain ⟨b, b1, b2, -, b3, b4, -⟩ := C174_datetime t ht
  have hs' : s < 18446744073709551616 := by norm_num at hs; exact hs
  have ht' : t < 18446744073709551616 := by norm_num at ht; exact ht
  clear hs ht
  refine ⟨a, b, a1, b1, by omega, a.day, b.day, a2, b2, ?_⟩
  have h1 : toDateUtc s = .ok (epoch + (s : Int) / dayNs) := by unfold toDateUtc; rw [stampNanos_eq s hs']; rfl
  have h2 : toDateUtc t = .ok (epoch + (t : Int) / dayNs) := by unfold toDateUtc; rw [stampNanos_eq t ht']; rfl
  rw [h1] at a2
  rw [h2] at b2
  simp only [Except.ok.injEq] at a2 b2
  unfold dayNs at a2 b2
  omega

/-- C174 (generators). A generator made from a time stamp, one set to it, and one made from the UTC date of the stamp start from the same midnight, which is at or
before the stamp by less than a day. -/
theorem C174_generators (t now : Nat) (g : Gen) (ht : t < 2 ^ 64) :
    ∃ day, toDateUtc t = .ok day ∧ (Gen.ofDate day now).date = (Gen.fromUnixNano t now).date ∧ (g.setTimestamp t).date = (Gen.fromUnixNano t now).date ∧
      (Gen.fromUnixNano t now).date ≤ t ∧ t < (Gen.fromUnixNano t now).date + 86400000000000 ∧
      toDateUtc (Gen.fromUnixNano t now).date = .ok day ∧
      toDatetime (Gen.fromUnixNano t now).date = .ok ⟨day, 0, 0⟩ := by
  have ht' : t < 18446744073709551616 := by norm_num at ht; exact ht
  clear ht
  have hd : (t : Int) / dayNs = ((t / DAY : Nat) : Int) := by unfold dayNs DAY; omega
  have hm : t / DAY * DAY ≤ t ∧ t < t / DAY * DAY + 86400000000000 := by unfold DAY; omega
  have hm' : t / DAY * DAY < 18446744073709551616 := by omega
  have hq : ((t / DAY * DAY : Nat) : Int) / dayNs = ((t / DAY : Nat) : Int) := by unfold dayNs DAY; omega
  have hr : (((t / DAY * DAY : Nat) : Int) % dayNs).toNat = 0 := by unfold dayNs DAY; omega
  refine ⟨epoch + (t : Int) / dayNs, by unfold toDateUtc; rw [stampNanos_eq t ht']; rfl, ?_, rfl, hm.1, hm.2, ?_, ?_⟩
  · have h := ofDate_cast (epoch + (t : Int) / dayNs) now
    generalize (Gen.ofDate (epoch + (t : Int) / dayNs) now).date = n at *
    show n = t / DAY * DAY
    rw [hd] at h
    have e : epoch + ((t / DAY : Nat) : Int) - 719163 = ((t / DAY : Nat) : Int) := by unfold epoch; omega
    have hk : t / DAY * DAY = t / DAY * 86400000000000 := rfl
    rw [hk] at hm' ⊢
    clear hq hr hd hm hk
    generalize t / DAY = a at *
    rw [e, Int.emod_eq_of_lt (by omega) (by omega)] at h
    omega
  · show toDateUtc (t / DAY * DAY) = _
    unfold toDateUtc
    rw [stampNanos_eq _ hm', hq, hd]
    rfl
  · show toDatetime (t / DAY * DAY) = _
    unfold toDatetime
    rw [stampNanos_eq _ hm', hq, hr, hd]
    rfl

/-- C174 (dates that fit). A generator made from a date is at the midnight of that date exactly for the dates from 1970-01-01 to 2554-07-21. For all others (the type
holds the years -9999 to 9999) it is at another date, and not even at a midnight. -/
theorem C174_fit (day : Int) (now : Nat) (h1 : (⟨-9999, 1, 1⟩ : Ymd).ord ≤ day) (h2 : day ≤ (⟨9999, 12, 31⟩ : Ymd).ord) :
    (Gen.ofDate day now).date < 2 ^ 64 ∧
    (if (⟨1970, 1, 1⟩ : Ymd).ord ≤ day ∧ day ≤ (⟨2554, 7, 21⟩ : Ymd).ord then toDatetime (Gen.ofDate day now).date = .ok ⟨day, 0, 0⟩
     else ∃ d, toDatetime (Gen.ofDate day now).date = .ok d ∧ d.day ≠ day ∧ d.tod ≠ 0) := by
  have e1 : (⟨2554, 7, 21⟩ : Ymd).ord = 932666 := by decide
  have e0 : (⟨1970, 1, 1⟩ : Ymd).ord = 719163 := by decide
  have em : (⟨-9999, 1, 1⟩ : Ymd).ord = -3652424 := by decide
  have eM : (⟨9999, 12, 31⟩ : Ymd).ord = 3652059 := by decide
  rw [em] at h1
  rw [eM] at h2
  have hx := ofDate_cast day now
  have hlt : (Gen.ofDate day now).date < 18446744073709551616 := by omega
  refine ⟨lt_of_lt_of_eq hlt (by norm_num), ?_⟩
  rw [e0, e1]
  clear e1 e0 em eM
  generalize (Gen.ofDate day now).date = n at *
  have hn : toDatetime n = .ok ⟨epoch + (n : Int) / dayNs, ((n : Int) % dayNs).toNat, 0⟩ := by unfold toDatetime; rw [stampNanos_eq n hlt]; rfl
  rw [hn]
  split
  · rename_i h
    have hn' : (n : Int) = (day - 719163) * 86400000000000 := by
      rw [hx, Int.emod_eq_of_lt] <;> omega
    have a1 : epoch + (n : Int) / dayNs = day := by unfold epoch dayNs; omega
    have a2 : ((n : Int) % dayNs).toNat = 0 := by unfold dayNs; omega
    rw [a1, a2]
  · rename_i h
    refine ⟨_, rfl, ?_, ?_⟩
    · simp only
      unfold epoch dayNs
      omega
    · simp only
      obtain ⟨j, hj⟩ : ∃ j : Int, (n : Int) = (day - 719163) * 86400000000000 - j * 18446744073709551616 :=
        ⟨(day - 719163) * 86400000000000 / 18446744073709551616, by omega⟩
      have hj0 : j ≠ 0 := by rintro rfl; omega
      have hjb : -21 ≤ j ∧ j ≤ 21 := by omega
      intro hz
      have hz' : (n : Int) % 86400000000000 = 0 := by
        have hnn : (0 : Int) ≤ (n : Int) % dayNs := Int.emod_nonneg _ (by decide)
        have : (n : Int) % dayNs = 0 := by omega
        exact this
      exact notMidnight j (day - 719163) n hj0 hjb.1 hjb.2 hj hz'

/-- C174 (debug output). Printing a generator or a time stamp never panics. -/
theorem C174_shown (g : Gen) (h1 : g.date < 2 ^ 64) (h2 : g.prev < 2 ^ 64) (h3 : g.update < 2 ^ 64) :
    ∃ day p u, g.shown = .ok (day, p, u) ∧ toDateUtc g.date = .ok day ∧ toDatetime g.prev = .ok p ∧ toDatetime g.update = .ok u := by
  have hpn : (2 : Nat) ^ 64 = 18446744073709551616 := by norm_num
  rw [hpn] at h1 h2 h3
  obtain ⟨a, ha⟩ : ∃ a, ofNanos g.date = .ok a := ⟨_, stampNanos_eq _ h1⟩
  obtain ⟨b, hb⟩ : ∃ a, ofNanos g.prev = .ok a := ⟨_, stampNanos_eq _ h2⟩
  obtain ⟨c, hc⟩ : ∃ a, ofNanos g.update = .ok a := ⟨_, stampNanos_eq _ h3⟩
  exact ⟨a.day, b, c, by unfold Gen.shown; rw [ha, hb, hc], by unfold toDateUtc; rw [ha]; rfl, by unfold toDatetime; rw [hb]; rfl, by unfold toDatetime; rw [hc]; rfl⟩

/-- C174 (two conversions). The date printed by the timer for a stamp, without offset, is the UTC date of the stamp, and the time of day the rest. -/
theorem C174_timer (m : Mode) (t : Nat) (ht : t < 2 ^ 64) :
    ∃ s d, Verif.TE.Timer.stampOf m t 0 = .ok s ∧ toDatetime t = .ok d ∧ d.ymd = ⟨s.year, s.month, s.day⟩ ∧
      (d.tod : Int) = ((s.hours * 60 + s.minutes) * 60 + s.seconds) * 1000000000 + s.millis * 1000000 + s.micros * 1000 + s.nanos := by
  obtain ⟨s, t', hs, he, hl⟩ := C33_convert m t 0 (by unfold U64; exact ht) (by decide) (by decide) (by simp)
  obtain ⟨d, hd, -, -, ho, hi, -⟩ := C174_datetime t ht
  have ht' : t < 18446744073709551616 := by norm_num at ht; exact ht
  clear ht
  have hdd : d = ⟨epoch + (t : Int) / dayNs, ((t : Int) % dayNs).toNat, 0⟩ := by
    unfold toDatetime at hd; rw [stampNanos_eq t ht'] at hd; exact (Except.ok.inj hd).symm
  refine ⟨s, d, hs, hd, ?_⟩
  clear hs hd
  obtain ⟨v, l1, l2, l3, l4, l5, l6, l7, l8⟩ := hl
  rw [← ofOrd_ord _ v]
  generalize (Ymd.mk s.year s.month s.day).ord = o at *
  unfold DT.ymd
  subst hdd
  simp only
  unfold dayNs epoch at *
  constructor
  · congr 1
    omega
  · omega

/-- Cases: the last stamp; a date before 1970. -/
theorem C174_example : toDatetime 18446744073709551615 = .ok ⟨(⟨2554, 7, 21⟩ : Ymd).ord, 84873709551615, 0⟩ ∧
    toDateUtc (Gen.ofDate (⟨1969, 12, 31⟩ : Ymd).ord 0).date = .ok (⟨2554, 7, 20⟩ : Ymd).ord ∧
    toDateUtc (Gen.ofDate (⟨2024, 12, 25⟩ : Ymd).ord 0).date = .ok (⟨2024, 12, 25⟩ : Ymd).ord := by
  refine ⟨by decide +kernel, by decide +kernel, by decide +kernel⟩
end Verif.Props

import Verif.QL.Period
import Mathlib.Tactic.Ring
import Mathlib.Tactic.Linarith
import Mathlib.Tactic.NormNum
/-!
# C41, C42: period strings
-/
set_option autoImplicit false
namespace Verif.Props
open Verif Verif.QL Verif.Civil

/-- Specification: months counted from year 0. -/
def monthIdx (x : Ymd) : Int := 12 * x.y + ((x.m : Int) - 1)

/-- Specification: `z` is the date `n` months after `x`: it lies in the month `n` months later, on the same day of the
month, or on the last day of that month if it is shorter. -/
def MonthShift (x : Ymd) (n : Int) (z : Ymd) : Prop :=
  z.Valid ∧ monthIdx z = monthIdx x + n ∧ (z.d = x.d ∨ (z.d < x.d ∧ z.d = dim z.y z.m))

/-- There is exactly one such date. -/
theorem monthShift_unique (x : Ymd) (n : Int) (z w : Ymd) (hz : MonthShift x n z)
    (hw : MonthShift x n w) : z = w := by
  obtain ⟨⟨a1, a2, a3, a4⟩, a5, a6⟩ := hz
  obtain ⟨⟨b1, b2, b3, b4⟩, b5, b6⟩ := hw
  obtain ⟨zy, zm, zd⟩ := z
  obtain ⟨wy, wm, wd⟩ := w
  simp only [monthIdx] at *
  have hy : zy = wy := by omega
  have hm : zm = wm := by omega
  subst hy; subst hm
  have : zd = wd := by omega
  rw [this]

/-- The last supported month is December 9999, the first January -9999. -/
def lastMonth : Int := 12 * 9999 + 11
def firstMonth : Int := 12 * (-9999)

theorem clampDate_ok (y : Int) (m d : Nat) (h1 : -9999 ≤ y) (h2 : y ≤ 9999) (hm1 : 1 ≤ m) (hm2 : m ≤ 12)
    (hd : 1 ≤ d) : clampDate y m d = .ok (Ymd.mk y m (min d (dim y m))).ord ∧ (Ymd.mk y m (min d (dim y m))).Valid := by
  have hdim := dim_pos y m hm1 hm2
  have e1 : fromCalendarDate y m (dim y m) = .ok (Ymd.mk y m (dim y m)).ord := by
    unfold fromCalendarDate; rw [if_pos ⟨h1, h2, hm1, hm2, by omega, Nat.le_refl _⟩]
  have e2 : (if d > dim y m then dim y m else d) = min d (dim y m) := by
    split <;> omega
  have hv : (Ymd.mk y m (min d (dim y m))).Valid := by
    refine ⟨hm1, hm2, ?_, ?_⟩ <;> simp only <;> omega
  refine ⟨?_, hv⟩
  unfold clampDate lastDayOfMonth
  rw [e1]
  simp only [Res.bind_ok]
  rw [e2]
  unfold fromCalendarDate
  rw [if_pos ⟨h1, h2, hm1, hm2, by omega, by omega⟩]

theorem clampDate_err (y : Int) (m d : Nat) (h : y < -9999 ∨ 9999 < y) : clampDate y m d = .error .unwrapNone := by
  unfold clampDate lastDayOfMonth fromCalendarDate
  rw [if_neg (by omega)]
  rfl

/-- The result of a month or year branch: the shifted date, or a panic when the year leaves the supported range. -/
def ShiftOr (day n : Int) (r : Res Int) : Prop :=
  if firstMonth ≤ monthIdx (ofOrd day) + n ∧ monthIdx (ofOrd day) + n ≤ lastMonth then
    ∃ day', r = .ok day' ∧ MonthShift (ofOrd day) n (ofOrd day') ∧ minDay ≤ day' ∧ day' ≤ maxDay
  else ∃ e, r = .error e

theorem year_bounds {day : Int} (h : minDay ≤ day ∧ day ≤ maxDay) : -9999 ≤ (ofOrd day).y ∧ (ofOrd day).y ≤ 9999 := by
  have := (day_range (ofOrd day) (ofOrd_valid day)).1
  rw [ord_ofOrd] at this
  exact this h

theorem clamp_shift (day n y : Int) (m : Nat) (hm1 : 1 ≤ m) (hm2 : m ≤ 12)
    (hk : 12 * y + ((m : Int) - 1) = monthIdx (ofOrd day) + n) : ShiftOr day n (clampDate y m (ofOrd day).d) := by
  obtain ⟨v1, v2, v3, v4⟩ := ofOrd_valid day
  unfold ShiftOr firstMonth lastMonth
  rw [← hk]
  by_cases h : -9999 ≤ y ∧ y ≤ 9999
  · rw [if_pos (by omega)]
    obtain ⟨e, hv⟩ := clampDate_ok y m (ofOrd day).d h.1 h.2 hm1 hm2 v3
    have hr := (day_range _ hv).2 h
    refine ⟨_, e, ?_, hr⟩
    rw [ofOrd_ord _ hv]
    refine ⟨hv, hk, ?_⟩
    simp only
    omega
  · rw [if_neg (by omega)]
    exact ⟨_, clampDate_err y m _ (by omega)⟩

theorem addMonths_spec (md : Mode) (day v : Int) (hd : minDay ≤ day ∧ day ≤ maxDay) (h0 : 0 ≤ v) (h1 : v < I32) :
    ShiftOr day v (addMonths md day v) := by
  obtain ⟨v1, v2, v3, v4⟩ := ofOrd_valid day
  have hy := year_bounds hd
  unfold addMonths
  dsimp only
  by_cases hov : ((ofOrd day).m : Int) - 1 + v < I32
  · rw [ckI32_ok (by unfold I32 at *; omega) hov]
    simp only [Res.bind_ok]
    have e1 : (((ofOrd day).m : Int) - 1 + v).tmod 12 = (((ofOrd day).m : Int) - 1 + v) % 12 :=
      Int.tmod_eq_emod_of_nonneg (by omega)
    have e2 : (((ofOrd day).m : Int) - 1 + v).tdiv 12 = (((ofOrd day).m : Int) - 1 + v) / 12 :=
      Int.tdiv_eq_ediv_of_nonneg (by omega)
    rw [e1, e2]
    unfold monthOfI32
    rw [if_pos (by omega)]
    simp only [Res.bind_ok]
    rw [ckI32_ok (by unfold I32 at *; omega) (by unfold I32 at *; omega)]
    simp only [Res.bind_ok]
    apply clamp_shift day v _ _ (by omega) (by omega)
    unfold monthIdx
    omega
  · -- the month number overflows: the year is far out of range
    unfold ShiftOr lastMonth monthIdx
    rw [if_neg (by unfold I32 at *; omega)]
    unfold ckI32
    rw [if_neg (by omega)]
    cases md with
    | checked => exact ⟨_, rfl⟩
    | wrapping =>
      simp only [Res.bind_ok]
      generalize hs : wrapI32 (((ofOrd day).m : Int) - 1 + v) = s
      have hs1 : -I32 ≤ s ∧ s < -I32 + 11 := by
        unfold wrapI32 I32 at *
        omega
      by_cases h12 : 0 ≤ s.tmod 12
      · have hmo : ∃ nm, monthOfI32 (s.tmod 12) = .ok nm := by
          unfold monthOfI32
          have := Int.tmod_lt_of_pos s (b := 12) (by omega)
          rw [if_pos (by omega)]
          exact ⟨_, rfl⟩
        obtain ⟨nm, hnm⟩ := hmo
        rw [hnm]
        simp only [Res.bind_ok]
        have hq : s.tdiv 12 = -((-s) / 12) := by
          rw [← Int.tdiv_eq_ediv_of_nonneg (by unfold I32 at *; omega), Int.neg_tdiv]; omega
        rw [hq, if_pos (by unfold I32 at *; omega)]
        simp only [Res.bind_ok]
        exact ⟨_, clampDate_err _ _ _ (by unfold I32 at *; omega)⟩
      · unfold monthOfI32
        rw [if_neg (by omega)]
        exact ⟨_, rfl⟩

theorem addYears_spec (md : Mode) (day v : Int) (hd : minDay ≤ day ∧ day ≤ maxDay) (h0 : 0 ≤ v) (h1 : v < I32) :
    ShiftOr day (12 * v) (addYears md day v) := by
  obtain ⟨v1, v2, v3, v4⟩ := ofOrd_valid day
  have hy := year_bounds hd
  unfold addYears
  dsimp only
  by_cases hov : (ofOrd day).y + v < I32
  · rw [ckI32_ok (by unfold I32 at *; omega) hov]
    simp only [Res.bind_ok]
    apply clamp_shift day _ _ _ v1 v2
    unfold monthIdx
    omega
  · unfold ShiftOr lastMonth monthIdx
    rw [if_neg (by unfold I32 at *; omega)]
    unfold ckI32
    rw [if_neg (by omega)]
    cases md with
    | checked => exact ⟨_, rfl⟩
    | wrapping =>
      simp only [Res.bind_ok]
      exact ⟨_, clampDate_err _ _ _ (by unfold wrapI32 I32 at *; omega)⟩

theorem subYears_spec (md : Mode) (day v : Int) (hd : minDay ≤ day ∧ day ≤ maxDay) (h0 : 0 ≤ v) (h1 : v < I32) :
    ShiftOr day (-(12 * v)) (subYears md day v) := by
  obtain ⟨v1, v2, v3, v4⟩ := ofOrd_valid day
  have hy := year_bounds hd
  unfold subYears
  dsimp only
  by_cases hov : -I32 ≤ (ofOrd day).y - v
  · rw [ckI32_ok hov (by unfold I32 at *; omega)]
    simp only [Res.bind_ok]
    apply clamp_shift day _ _ _ v1 v2
    unfold monthIdx
    omega
  · unfold ShiftOr firstMonth monthIdx
    rw [if_neg (by unfold I32 at *; omega)]
    unfold ckI32
    rw [if_neg (by omega)]
    cases md with
    | checked => exact ⟨_, rfl⟩
    | wrapping =>
      simp only [Res.bind_ok]
      exact ⟨_, clampDate_err _ _ _ (by unfold wrapI32 I32 at *; omega)⟩

/-- What `sub` with `v` months really does: the right date as long as it does not go back beyond January of the
previous year, or if the result is a January; one year too late otherwise. -/
def subShift (day v : Int) : Int :=
  if v ≤ ((ofOrd day).m : Int) - 1 + 12 ∨ (((ofOrd day).m : Int) - 1 - v) % 12 = 0 then -v else -v + 12

theorem subMonths_spec (md : Mode) (day v : Int) (hd : minDay ≤ day ∧ day ≤ maxDay) (h0 : 0 ≤ v)
    (h1 : v ≤ 120000000) : ShiftOr day (subShift day v) (subMonths md day v) := by
  obtain ⟨v1, v2, v3, v4⟩ := ofOrd_valid day
  have hy := year_bounds hd
  unfold subMonths
  dsimp only
  rw [ckI32_ok (by unfold I32 at *; omega) (by unfold I32 at *; omega)]
  simp only [Res.bind_ok]
  rw [ckI32_ok (by unfold I32 at *; omega) (by unfold I32 at *; omega)]
  simp only [Res.bind_ok]
  rw [Int.tmod_eq_emod_of_nonneg (by omega)]
  unfold monthOfI32
  rw [if_pos (by omega)]
  simp only [Res.bind_ok]
  rw [ckI32_ok (by unfold I32 at *; omega) (by unfold I32 at *; omega)]
  simp only [Res.bind_ok]
  have key : ((ofOrd day).m - 1 - v + 12 : Int).tdiv 12
      = if 0 ≤ ((ofOrd day).m - 1 - v + 12 : Int) then ((ofOrd day).m - 1 - v + 12 : Int) / 12
        else -((-((ofOrd day).m - 1 - v + 12 : Int)) / 12) := by
    split
    · exact Int.tdiv_eq_ediv_of_nonneg (by assumption)
    · rw [← Int.tdiv_eq_ediv_of_nonneg (by omega), Int.neg_tdiv]; omega
  rw [key]
  rw [ckI32_ok (by unfold I32 at *; split <;> omega) (by unfold I32 at *; split <;> omega)]
  simp only [Res.bind_ok]
  apply clamp_shift day _ _ _ (by omega) (by omega)
  unfold monthIdx subShift
  split <;> split <;> omega

/-! ### The text -/

/-- The text of a unit. -/
def unitText : PerUnit → List Char
  | .Y => ['Y'] | .M => ['M'] | .W => ['W'] | .D => ['D'] | .h => ['h']
  | .min => ['m', 'i', 'n'] | .sec => ['s', 'e', 'c']

/-- A piece of a period string: a run of ASCII digits and a unit. -/
structure Piece where
  digits : List Char
  unit : PerUnit

def Piece.Ok (full : Bool) (p : Piece) : Prop :=
  p.digits ≠ [] ∧ (∀ c ∈ p.digits, c.isDigit = true) ∧ (full = true ∨ p.unit = .Y ∨ p.unit = .M ∨ p.unit = .W ∨ p.unit = .D)

/-- The number a piece stands for. -/
def Piece.value (p : Piece) : Nat := p.digits.foldl (fun a c => 10 * a + (c.toNat - 48)) 0

/-- The period string made of the pieces. -/
def periodText : List Piece → List Char
  | [] => []
  | p :: ps => p.digits ++ unitText p.unit ++ periodText ps

theorem moreUnits_stop (full : Bool) (u : PerUnit) (rest : List Char)
    (h : ∀ c, rest.head? = some c → c.isDigit = true) : moreUnits full u rest = (u, rest) := by
  unfold moreUnits
  split
  all_goals first
    | rfl
    | (have := h _ rfl; exact absurd this (by decide))

theorem unitGroup_text (full : Bool) (u : PerUnit) (rest : List Char)
    (hf : full = true ∨ u = .Y ∨ u = .M ∨ u = .W ∨ u = .D)
    (h : ∀ c, rest.head? = some c → c.isDigit = true) : unitGroup full (unitText u ++ rest) = some (u, rest) := by
  cases u <;> simp only [unitText, List.cons_append, List.nil_append, unitGroup] <;>
    (try rw [moreUnits_stop full _ rest h])
  all_goals
    rcases hf with rfl | hf
    · simp
    · rcases hf with h | h | h | h <;> cases h

theorem scan_digits (full : Bool) (ds acc rest : List Char) (h : ∀ c ∈ ds, c.isDigit = true) :
    scan full acc (ds ++ rest) = scan full (acc ++ ds) rest := by
  induction ds generalizing acc with
  | nil => simp
  | cons c cs ih =>
    rw [List.cons_append, scan]
    rw [if_pos (h c (by simp)), ih (acc ++ [c]) fun x hx => h x (List.mem_cons_of_mem _ hx)]
    simp

theorem scan_unit (full : Bool) (acc rest : List Char) (u : PerUnit) (ha : acc ≠ [])
    (hf : full = true ∨ u = .Y ∨ u = .M ∨ u = .W ∨ u = .D)
    (h : ∀ c, rest.head? = some c → c.isDigit = true) :
    scan full acc (unitText u ++ rest) = (digitsVal acc, u) :: scan full [] rest := by
  have hg := unitGroup_text full u rest hf h
  obtain ⟨c, cs, hc, hnd⟩ : ∃ c cs, unitText u ++ rest = c :: cs ∧ c.isDigit = false := by
    cases u <;> simp only [unitText, List.cons_append, List.nil_append] <;> exact ⟨_, _, rfl, by decide⟩
  rw [hc] at hg ⊢
  rw [scan]
  rw [if_neg (by simp [hnd]), if_neg ha]
  split
  · rename_i p hp
    rw [hg] at hp
    cases hp
    rfl
  · rename_i hp
    rw [hg] at hp
    cases hp

theorem periodText_head (full : Bool) (ps : List Piece) (h : ∀ p ∈ ps, p.Ok full) :
    ∀ c, (periodText ps).head? = some c → c.isDigit = true := by
  cases ps with
  | nil => intro c hc; simp [periodText] at hc
  | cons p ps =>
    intro c hc
    obtain ⟨h1, h2, -⟩ := h p (by simp)
    unfold periodText at hc
    cases hd : p.digits with
    | nil => exact absurd hd h1
    | cons d ds =>
      rw [hd] at hc
      simp at hc
      subst hc
      exact h2 d (by rw [hd]; simp)

/-- The scanner reads a period string as the pieces it was made of. -/
theorem scan_periodText (full : Bool) (ps : List Piece) (h : ∀ p ∈ ps, p.Ok full) :
    scan full [] (periodText ps) = ps.map fun p => (p.value, p.unit) := by
  induction ps with
  | nil => simp [periodText, scan]
  | cons p ps ih =>
    obtain ⟨h1, h2, h3⟩ := h p (by simp)
    have ih' := ih fun q hq => h q (List.mem_cons_of_mem _ hq)
    unfold periodText
    rw [List.append_assoc, scan_digits full _ _ _ h2, List.nil_append,
      scan_unit full _ _ _ h1 h3 (periodText_head full ps fun q hq => h q (List.mem_cons_of_mem _ hq)), ih']
    rfl

/-! ### C41 -/

theorem wrapI32_small (v : Int) (h0 : 0 ≤ v) (h1 : v < I32) : wrapI32 v = v := by
  unfold wrapI32 I32 at *; omega


theorem subMonths_huge (md : Mode) (day v : Int) (hd : minDay ≤ day ∧ day ≤ maxDay) (h0 : 120000000 < v)
    (h1 : v < I32) : ∃ e, subMonths md day v = .error e := by
  obtain ⟨v1, v2, v3, v4⟩ := ofOrd_valid day
  have hy := year_bounds hd
  unfold subMonths
  dsimp only
  rw [ckI32_ok (by unfold I32 at *; omega) (by unfold I32 at *; omega)]
  simp only [Res.bind_ok]
  rw [ckI32_ok (by unfold I32 at *; omega) (by unfold I32 at *; omega)]
  simp only [Res.bind_ok]
  cases hm : monthOfI32 (((ofOrd day).m - 1 - v + 120000000 : Int).tmod 12) with
  | error e => exact ⟨e, rfl⟩
  | ok nm =>
    simp only [Res.bind_ok]
    rw [ckI32_ok (by unfold I32 at *; omega) (by unfold I32 at *; omega)]
    simp only [Res.bind_ok]
    have key : ((ofOrd day).m - 1 - v + 12 : Int).tdiv 12 = -((-((ofOrd day).m - 1 - v + 12 : Int)) / 12) := by
      rw [← Int.tdiv_eq_ediv_of_nonneg (by omega), Int.neg_tdiv]; omega
    rw [key, ckI32_ok (by unfold I32 at *; omega) (by unfold I32 at *; omega)]
    simp only [Res.bind_ok]
    exact ⟨_, clampDate_err _ _ _ (by omega)⟩

theorem subMonths_spec' (md : Mode) (day v : Int) (hd : minDay ≤ day ∧ day ≤ maxDay) (h0 : 0 ≤ v)
    (h1 : v < I32) : ShiftOr day (subShift day v) (subMonths md day v) := by
  by_cases h : v ≤ 120000000
  · exact subMonths_spec md day v hd h0 h
  · have hy := year_bounds hd
    obtain ⟨v1, v2, -, -⟩ := ofOrd_valid day
    unfold ShiftOr
    rw [if_neg (by unfold firstMonth monthIdx subShift; split <;> omega)]
    exact subMonths_huge md day v hd (by omega) h1

theorem shiftOr_iff {day n : Int} {r : Res Int} (h : ShiftOr day n r) (day' : Int) :
    r = .ok day' ↔ MonthShift (ofOrd day) n (ofOrd day') ∧ minDay ≤ day' ∧ day' ≤ maxDay := by
  unfold ShiftOr at h
  constructor
  · intro e
    split at h
    · obtain ⟨d, h1, h2, h3⟩ := h
      rw [e] at h1
      cases h1
      exact ⟨h2, h3⟩
    · obtain ⟨x, hx⟩ := h
      rw [e] at hx
      cases hx
  · rintro ⟨hm, hr⟩
    have hy := year_bounds hr
    have hidx := hm.2.1
    rw [if_pos] at h
    · obtain ⟨d, h1, h2, -⟩ := h
      have := monthShift_unique _ _ _ _ hm h2
      rw [h1, ← ord_ofOrd d, ← this, ord_ofOrd]
    · obtain ⟨b1, b2, -⟩ := hm.1
      unfold firstMonth lastMonth
      rw [← hidx]
      unfold monthIdx
      omega

/-- Specification: seconds in the units of fixed length. -/
def unitSeconds : PerUnit → Int
  | .W => 7 * 24 * 3600
  | .D => 24 * 3600
  | .h => 3600
  | .min => 60
  | .sec => 1
  | _ => 0

/-- A unit of the clock: hours, minutes, seconds. -/
def isClock : PerUnit → Prop
  | .h => True | .min => True | .sec => True | _ => False

/-- A unit of varying length: years and months. -/
def isCalendar : PerUnit → Prop
  | .Y => True | .M => True | _ => False

/-- Specification: `b` is the date-time `n` units after `a` (before, for negative `n`). Years and months move the date
and keep the time of day; the other units move the clock by their exact length. The offset never changes. -/
def Shifted (a : DT) (n : Int) (u : PerUnit) (b : DT) : Prop :=
  b.Valid ∧ b.off = a.off ∧
  match u with
  | .Y => b.tod = a.tod ∧ MonthShift a.ymd (12 * n) b.ymd
  | .M => b.tod = a.tod ∧ MonthShift a.ymd n b.ymd
  | u => b.localNs = a.localNs + n * unitSeconds u * 1000000000

theorem dayNs_pos : (0 : Int) < dayNs := by unfold dayNs; norm_num

theorem localNs_inj {a b : DT} (ha : (a.tod : Int) < dayNs) (hb : (b.tod : Int) < dayNs)
    (h : a.localNs = b.localNs) : a.day = b.day ∧ a.tod = b.tod := by
  unfold DT.localNs dayNs at *
  omega

theorem addNs_iff (d : DT) (ns : Int) (r : DT) :
    d.addNs ns = .ok r ↔ r.Valid ∧ r.off = d.off ∧ r.localNs = d.localNs + ns := by
  unfold DT.addNs checkDay
  have hp := dayNs_pos
  have h1 := Int.emod_nonneg (d.localNs + ns) (ne_of_gt hp)
  have h2 := Int.emod_lt_of_pos (d.localNs + ns) hp
  have h3 := Int.mul_ediv_add_emod (d.localNs + ns) dayNs
  constructor
  · intro h
    split at h
    · rename_i hr
      simp only [Res.bind_ok] at h
      cases h
      refine ⟨⟨hr.1, hr.2, ?_⟩, rfl, ?_⟩
      · simp only; omega
      · unfold DT.localNs at *
        simp only
        rw [Int.mul_comm]
        omega
    · simp at h
  · rintro ⟨⟨v1, v2, v3⟩, ho, hl⟩
    have e : r.day = (d.localNs + ns) / dayNs ∧ (r.tod : Int) = (d.localNs + ns) % dayNs := by
      rw [← hl]
      unfold DT.localNs
      rw [Int.add_comm, Int.add_mul_ediv_right _ _ (ne_of_gt hp), Int.add_mul_emod_self_right,
        Int.ediv_eq_zero_of_lt (by omega) v3, Int.emod_eq_of_lt (by omega) v3]
      omega
    rw [if_pos (by rw [← e.1]; exact ⟨v1, v2⟩)]
    simp only [Res.bind_ok]
    refine congrArg Except.ok ?_
    obtain ⟨rd, rt, ro⟩ := r
    simp only at e ho
    rw [← e.1, ← e.2, ho]
    simp

theorem addNs_tod (d r : DT) (k : Int) (hd : (d.tod : Int) < dayNs) (hr : (r.tod : Int) < dayNs)
    (h : r.localNs = d.localNs + k * dayNs) : r.tod = d.tod := by
  unfold DT.localNs dayNs at *
  omega

theorem Shifted.tod {a b : DT} {n : Int} {u : PerUnit} (h : Shifted a n u b) (ha : a.Valid) (hu : ¬ isClock u) :
    b.tod = a.tod := by
  obtain ⟨h1, h2, h3⟩ := h
  cases u
  · exact h3.1
  · exact h3.1
  · exact addNs_tod a b (7 * n) ha.2.2 h1.2.2 (by rw [h3]; unfold unitSeconds dayNs; ring)
  · exact addNs_tod a b n ha.2.2 h1.2.2 (by rw [h3]; unfold unitSeconds dayNs; ring)
  all_goals exact absurd trivial hu

theorem calendar_step (orig cur : DT) (ho : cur.off = orig.off) (ht : cur.tod = orig.tod) (hv : cur.Valid) (n : Int)
    (r : Res Int) (hr : ShiftOr cur.day n r) (b : DT) :
    (r >>= fun day => .ok { day := day, tod := orig.tod, off := orig.off }) = .ok b ↔
      b.Valid ∧ b.off = cur.off ∧ b.tod = cur.tod ∧ MonthShift cur.ymd n b.ymd := by
  have key := shiftOr_iff hr
  constructor
  · intro h
    cases hres : r with
    | error e => rw [hres] at h; simp at h
    | ok day =>
      rw [hres] at h
      simp only [Res.bind_ok] at h
      cases h
      obtain ⟨hm, h1, h2⟩ := (key day).1 hres
      refine ⟨⟨h1, h2, ?_⟩, ho.symm, ht.symm, hm⟩
      simp only
      rw [← ht]
      exact hv.2.2
  · rintro ⟨h1, h2, h3, h4⟩
    rw [(key b.day).2 ⟨h4, h1.1, h1.2.1⟩]
    simp only [Res.bind_ok]
    refine congrArg Except.ok ?_
    obtain ⟨bd, bt, bo⟩ := b
    simp only at h2 h3
    rw [h2, h3, ho, ht]

/-- The values a piece may have: below 2^31 for years and months, below 2^63 otherwise. -/
def Piece.Fits (p : Piece) : Prop := p.value < 2 ^ 63 ∧ (isCalendar p.unit → p.value < 2 ^ 31)

theorem addStep_iff (md : Mode) (orig cur : DT) (p : Piece) (hf : p.Fits) (hv : cur.Valid)
    (ho : cur.off = orig.off) (ht : isCalendar p.unit → cur.tod = orig.tod) (b : DT) :
    addStep md orig cur (p.value, p.unit) = .ok b ↔ Shifted cur p.value p.unit b := by
  obtain ⟨hf1, hf2⟩ := hf
  have fixed : ∀ u, ¬ isCalendar u → unitNs u = unitSeconds u * 1000000000 := by
    intro u hu
    cases u <;> first | exact absurd trivial hu | (simp only [unitNs, unitSeconds, dayNs] <;> norm_num)
  unfold addStep
  rw [if_neg (by simp only; omega)]
  cases hu : p.unit <;> simp only [Shifted]
  · rw [hu] at hf2 ht
    have hs := hf2 trivial
    rw [wrapI32_small _ (by omega) (by unfold I32; omega)]
    exact calendar_step orig cur ho (ht trivial) hv _ _
      (addYears_spec md cur.day p.value ⟨hv.1, hv.2.1⟩ (by omega) (by unfold I32; omega)) b
  · rw [hu] at hf2 ht
    have hs := hf2 trivial
    rw [wrapI32_small _ (by omega) (by unfold I32; omega)]
    exact calendar_step orig cur ho (ht trivial) hv _ _
      (addMonths_spec md cur.day p.value ⟨hv.1, hv.2.1⟩ (by omega) (by unfold I32; omega)) b
  all_goals
    rw [addNs_iff, fixed _ (by intro h; exact h), Int.mul_assoc]

/-- Specification: `b` results from `a` by shifting by each piece of the period in turn. -/
def ShiftedAll (s : Int) : DT → List Piece → DT → Prop
  | a, [], b => a = b
  | a, p :: ps, b => ∃ c, Shifted a (s * p.value) p.unit c ∧ ShiftedAll s c ps b

/-- Years and months come before hours, minutes and seconds. -/
def CalendarFirst : List Piece → Prop
  | [] => True
  | p :: ps => (isClock p.unit → ∀ q ∈ ps, ¬ isCalendar q.unit) ∧ CalendarFirst ps

theorem addLoop_iff (md : Mode) (orig : DT) (ps : List Piece) (hf : ∀ p ∈ ps, p.Fits) (hc : CalendarFirst ps)
    (cur : DT) (hv : cur.Valid) (ho : cur.off = orig.off)
    (ht : (∃ p ∈ ps, isCalendar p.unit) → cur.tod = orig.tod) (b : DT) :
    addLoop md orig cur (ps.map fun p => (p.value, p.unit)) = .ok b ↔ ShiftedAll 1 cur ps b := by
  induction ps generalizing cur with
  | nil =>
    simp only [List.map_nil, addLoop, ShiftedAll]
    exact ⟨fun h => by cases h; rfl, fun h => by rw [h]⟩
  | cons p ps ih =>
    obtain ⟨hc1, hc2⟩ := hc
    have step := addStep_iff md orig cur p (hf p (by simp)) hv ho (fun h => ht ⟨p, by simp, h⟩)
    simp only [List.map_cons, addLoop, ShiftedAll, Int.one_mul]
    have tail : ∀ c, Shifted cur p.value p.unit c →
        (addLoop md orig c (ps.map fun p => (p.value, p.unit)) = .ok b ↔ ShiftedAll 1 c ps b) := by
      intro c hc'
      refine ih (fun q hq => hf q (List.mem_cons_of_mem _ hq)) hc2 c hc'.1 (hc'.2.1.trans ho) ?_
      rintro ⟨q, hq, hcal⟩
      have hnc : ¬ isClock p.unit := fun h => hc1 h q hq hcal
      rw [hc'.tod hv hnc]
      exact ht ⟨q, List.mem_cons_of_mem _ hq, hcal⟩
    constructor
    · intro h
      cases hs : addStep md orig cur (p.value, p.unit) with
      | error e => rw [hs] at h; simp at h
      | ok c =>
        rw [hs] at h
        have h1 := (step c).1 hs
        exact ⟨c, h1, (tail c h1).1 h⟩
    · rintro ⟨c, h1, h2⟩
      rw [(step c).2 h1]
      exact (tail c h1).2 h2

/-- C41 (any period). For a period string with years and months before hours, minutes and seconds, `add_period` returns
`b` iff `b` results from shifting by each piece in turn (exact for the fixed units; same day or end of month for years
and months, time of day kept), and panics iff some intermediate date leaves the years -9999..9999. Debug and release
builds agree. -/
theorem C41_add_period (md : Mode) (d : DT) (hd : d.Valid) (ps : List Piece) (hne : ps ≠ [])
    (hok : ∀ p ∈ ps, p.Ok true) (hf : ∀ p ∈ ps, p.Fits) (hc : CalendarFirst ps) (b : DT) :
    addPeriod md d (periodText ps) = .ok b ↔ ShiftedAll 1 d ps b := by
  unfold addPeriod
  rw [scan_periodText true ps hok]
  cases ps with
  | nil => exact absurd rfl hne
  | cons p ps => exact addLoop_iff md d (p :: ps) hf hc d hd rfl (fun _ => rfl) b

/-- C41 (months). Adding `n` months, for every `n` below 2^31 written with any number of leading zeros: the date `n`
months later with the same time of day and offset; a panic exactly when that is after the year 9999. -/
theorem C41_add_months (md : Mode) (d : DT) (hd : d.Valid) (p : Piece) (hp : p.Ok true) (hu : p.unit = .M)
    (hv : p.value < 2 ^ 31) :
    (monthIdx d.ymd + p.value ≤ lastMonth → ∃ d', addPeriod md d (periodText [p]) = .ok d' ∧ d'.Valid ∧
      MonthShift d.ymd p.value d'.ymd ∧ d'.tod = d.tod ∧ d'.off = d.off) ∧
    (lastMonth < monthIdx d.ymd + p.value → ∃ e, addPeriod md d (periodText [p]) = .error e) := by
  have hs := scan_periodText true [p] (by simpa using hp)
  have hlow : firstMonth ≤ monthIdx d.ymd := by
    have := year_bounds (day := d.day) ⟨hd.1, hd.2.1⟩
    have hv' := ofOrd_valid d.day
    unfold firstMonth monthIdx DT.ymd
    have := hv'.1
    omega
  have key := addMonths_spec md d.day p.value ⟨hd.1, hd.2.1⟩ (by omega) (by unfold I32; omega)
  unfold ShiftOr at key
  unfold addPeriod
  rw [hs]
  simp only [List.map_cons, List.map_nil, addLoop, addStep, hu]
  rw [if_neg (by omega), wrapI32_small _ (by omega) (by unfold I32; omega)]
  change (monthIdx (ofOrd d.day) + p.value ≤ lastMonth → _) ∧ (lastMonth < monthIdx (ofOrd d.day) + p.value → _)
  change firstMonth ≤ monthIdx (ofOrd d.day) at hlow
  constructor
  · intro h
    rw [if_pos ⟨by omega, h⟩] at key
    obtain ⟨day', e, hsft, hr⟩ := key
    rw [e]
    exact ⟨_, rfl, ⟨hr.1, hr.2, hd.2.2⟩, hsft, rfl, rfl⟩
  · intro h
    rw [if_neg (by omega)] at key
    obtain ⟨e, he⟩ := key
    rw [he]
    exact ⟨_, rfl⟩

/-- A string without any digit-unit match panics. -/
theorem C41_no_match (md : Mode) (d : DT) (s : List Char) (h : scan true [] s = []) :
    addPeriod md d s = .error .assertion ∧ subPeriod md d s = .error .assertion := by
  unfold addPeriod subPeriod
  rw [h]
  exact ⟨rfl, rfl⟩

/-! ### Dates -/

/-- Specification for dates, as `Shifted`. -/
def ShiftedDate (a : Int) (n : Int) (u : PerUnit) (b : Int) : Prop :=
  minDay ≤ b ∧ b ≤ maxDay ∧
  match u with
  | .Y => MonthShift (ofOrd a) (12 * n) (ofOrd b)
  | .M => MonthShift (ofOrd a) n (ofOrd b)
  | .W => b = a + 7 * n
  | .D => b = a + n
  | _ => False

def ShiftedDateAll (s : Int) : Int → List Piece → Int → Prop
  | a, [], b => a = b
  | a, p :: ps, b => ∃ c, ShiftedDate a (s * p.value) p.unit c ∧ ShiftedDateAll s c ps b

theorem addDays_iff (a n b : Int) : addDays a n = .ok b ↔ minDay ≤ b ∧ b ≤ maxDay ∧ b = a + n := by
  unfold addDays checkDay
  constructor
  · intro h
    split at h
    · cases h; rename_i h; exact ⟨h.1, h.2, rfl⟩
    · cases h
  · rintro ⟨h1, h2, rfl⟩
    rw [if_pos ⟨h1, h2⟩]

theorem addStepDate_iff (md : Mode) (cur : Int) (p : Piece) (hok : p.Ok false) (hf : p.value < 2 ^ 31)
    (hv : minDay ≤ cur ∧ cur ≤ maxDay) (b : Int) :
    addStepDate md cur (p.value, p.unit) = .ok b ↔ ShiftedDate cur p.value p.unit b := by
  have hu := hok.2.2
  unfold addStepDate ShiftedDate
  rw [if_neg (by simp only; omega)]
  cases hpu : p.unit <;> simp only
  · rw [shiftOr_iff (addYears_spec md cur p.value hv (by omega) (by unfold I32; omega)) b]
    tauto
  · rw [shiftOr_iff (addMonths_spec md cur p.value hv (by omega) (by unfold I32; omega)) b]
    tauto
  · exact addDays_iff _ _ _
  · exact addDays_iff _ _ _
  all_goals
    rw [hpu] at hu
    simp at hu

theorem addLoopDate_iff (md : Mode) (ps : List Piece) (hok : ∀ p ∈ ps, p.Ok false) (hf : ∀ p ∈ ps, p.value < 2 ^ 31)
    (cur : Int) (hv : minDay ≤ cur ∧ cur ≤ maxDay) (b : Int) :
    addLoopDate md cur (ps.map fun p => (p.value, p.unit)) = .ok b ↔ ShiftedDateAll 1 cur ps b := by
  induction ps generalizing cur with
  | nil =>
    simp only [List.map_nil, addLoopDate, ShiftedDateAll]
    exact ⟨fun h => by cases h; rfl, fun h => by rw [h]⟩
  | cons p ps ih =>
    have step := addStepDate_iff md cur p (hok p (by simp)) (hf p (by simp)) hv
    have ih' := ih (fun q hq => hok q (List.mem_cons_of_mem _ hq)) (fun q hq => hf q (List.mem_cons_of_mem _ hq))
    simp only [List.map_cons, addLoopDate, ShiftedDateAll, Int.one_mul]
    constructor
    · intro h
      cases hs : addStepDate md cur (p.value, p.unit) with
      | error e => rw [hs] at h; simp at h
      | ok c =>
        rw [hs] at h
        have h1 := (step c).1 hs
        exact ⟨c, h1, (ih' c ⟨h1.1, h1.2.1⟩).1 h⟩
    · rintro ⟨c, h1, h2⟩
      rw [(step c).2 h1]
      exact (ih' c ⟨h1.1, h1.2.1⟩).2 h2

/-- C41 (dates). `add_period_date` returns `b` iff `b` results from shifting by each piece in turn; it panics iff some
intermediate date leaves the years -9999..9999. -/
theorem C41_add_period_date (md : Mode) (a : Int) (ha : minDay ≤ a ∧ a ≤ maxDay) (ps : List Piece) (hne : ps ≠ [])
    (hok : ∀ p ∈ ps, p.Ok false) (hf : ∀ p ∈ ps, p.value < 2 ^ 31) (b : Int) :
    addPeriodDate md a (periodText ps) = .ok b ↔ ShiftedDateAll 1 a ps b := by
  unfold addPeriodDate
  rw [scan_periodText false ps hok]
  cases ps with
  | nil => exact absurd rfl hne
  | cons p ps => exact addLoopDate_iff md (p :: ps) hok hf a ha b

/-! ### C42 -/

/-- The number of months `sub_period` really goes back for a piece of `n` months from the date `day`: `n`, except
when that is more than one year boundary back and not to a January, where it is twelve too few. -/
def monthsBack (day : Int) (n : Int) : Int :=
  if n ≤ ((ofOrd day).m : Int) - 1 + 12 ∨ (((ofOrd day).m : Int) - 1 - n) % 12 = 0 then n else n - 12

theorem subShift_eq (day v : Int) : subShift day v = -(monthsBack day v) := by
  unfold subShift monthsBack; split <;> omega

/-- C42 (dates). `sub_period_date` with `n` months, exactly: it returns the date `monthsBack` months earlier (same day
or end of month), or panics when that is before the year -9999. -/
theorem C42_sub_months_date (md : Mode) (a : Int) (ha : minDay ≤ a ∧ a ≤ maxDay) (p : Piece) (hok : p.Ok false)
    (hu : p.unit = .M) (hf : p.value < 2 ^ 31) (b : Int) :
    subPeriodDate md a (periodText [p]) = .ok b ↔
      MonthShift (ofOrd a) (-(monthsBack a p.value)) (ofOrd b) ∧ minDay ≤ b ∧ b ≤ maxDay := by
  unfold subPeriodDate
  rw [scan_periodText false [p] (by simpa using hok)]
  simp only [List.map_cons, List.map_nil, subLoopDate, subStepDate, hu]
  rw [if_neg (by omega)]
  have key := shiftOr_iff (subMonths_spec' md a p.value ha (by omega) (by unfold I32; omega)) b
  rw [subShift_eq] at key
  rw [← key]
  cases subMonths md a p.value <;> simp

/-- C42 (the correct cases). As long as the result is in the same or the previous calendar year, or in a January,
subtracting `n` months goes back exactly `n` months. -/
theorem C42_correct (a n : Int) (h : n ≤ ((ofOrd a).m : Int) - 1 + 12 ∨ (monthIdx (ofOrd a) - n) % 12 = 0) :
    monthsBack a n = n := by
  unfold monthsBack
  rw [if_pos]
  unfold monthIdx at h
  omega

/-- C42 (the wrong cases). In every other case the result is exactly twelve months too late. -/
theorem C42_wrong (a n : Int) (h1 : ((ofOrd a).m : Int) - 1 + 12 < n) (h2 : (monthIdx (ofOrd a) - n) % 12 ≠ 0) :
    monthsBack a n = n - 12 := by
  unfold monthsBack
  rw [if_neg]
  unfold monthIdx at h2
  omega

/-- Specification of `sub_period` pieces with the real number of months. -/
def ShiftedBack (a : DT) (n : Int) (u : PerUnit) (b : DT) : Prop :=
  match u with
  | .M => Shifted a (-(monthsBack a.day n)) .M b
  | u => Shifted a (-n) u b

theorem subStep_iff (md : Mode) (orig cur : DT) (p : Piece) (hf : p.Fits) (hv : cur.Valid)
    (ho : cur.off = orig.off) (ht : isCalendar p.unit → cur.tod = orig.tod) (b : DT) :
    subStep md orig cur (p.value, p.unit) = .ok b ↔ ShiftedBack cur p.value p.unit b := by
  obtain ⟨hf1, hf2⟩ := hf
  have fixed : ∀ u, ¬ isCalendar u → unitNs u = unitSeconds u * 1000000000 := by
    intro u hu
    cases u <;> first | exact absurd trivial hu | (simp only [unitNs, unitSeconds, dayNs] <;> norm_num)
  unfold subStep
  rw [if_neg (by simp only; omega)]
  cases hu : p.unit <;> simp only [ShiftedBack, Shifted]
  · rw [hu] at hf2 ht
    have hs := hf2 trivial
    rw [wrapI32_small _ (by omega) (by unfold I32; omega)]
    have := subYears_spec md cur.day p.value ⟨hv.1, hv.2.1⟩ (by omega) (by unfold I32; omega)
    rw [show -(12 * (p.value : Int)) = 12 * -p.value by omega] at this
    exact calendar_step orig cur ho (ht trivial) hv _ _ this b
  · rw [hu] at hf2 ht
    have hs := hf2 trivial
    rw [wrapI32_small _ (by omega) (by unfold I32; omega)]
    have := subMonths_spec' md cur.day p.value ⟨hv.1, hv.2.1⟩ (by omega) (by unfold I32; omega)
    rw [subShift_eq] at this
    exact calendar_step orig cur ho (ht trivial) hv _ _ this b
  all_goals
    rw [addNs_iff, fixed _ (by intro h; exact h)]
    rw [show ∀ x : Int, -((p.value : Int) * (x * 1000000000)) = -↑p.value * x * 1000000000 from fun x => by ring]

/-- Each piece in turn. -/
def ShiftedBackAll : DT → List Piece → DT → Prop
  | a, [], b => a = b
  | a, p :: ps, b => ∃ c, ShiftedBack a p.value p.unit c ∧ ShiftedBackAll c ps b

theorem subLoop_iff (md : Mode) (orig : DT) (ps : List Piece) (hf : ∀ p ∈ ps, p.Fits) (hc : CalendarFirst ps)
    (cur : DT) (hv : cur.Valid) (ho : cur.off = orig.off)
    (ht : (∃ p ∈ ps, isCalendar p.unit) → cur.tod = orig.tod) (b : DT) :
    subLoop md orig cur (ps.map fun p => (p.value, p.unit)) = .ok b ↔ ShiftedBackAll cur ps b := by
  induction ps generalizing cur with
  | nil =>
    simp only [List.map_nil, subLoop, ShiftedBackAll]
    exact ⟨fun h => by cases h; rfl, fun h => by rw [h]⟩
  | cons p ps ih =>
    obtain ⟨hc1, hc2⟩ := hc
    have step := subStep_iff md orig cur p (hf p (by simp)) hv ho (fun h => ht ⟨p, by simp, h⟩)
    simp only [List.map_cons, subLoop, ShiftedBackAll]
    have tail : ∀ c, ShiftedBack cur p.value p.unit c →
        (subLoop md orig c (ps.map fun p => (p.value, p.unit)) = .ok b ↔ ShiftedBackAll c ps b) := by
      intro c hc'
      obtain ⟨n, hsh⟩ : ∃ n, Shifted cur n p.unit c := by
        unfold ShiftedBack at hc'
        cases hu : p.unit <;> rw [hu] at hc' <;> exact ⟨_, hc'⟩
      refine ih (fun q hq => hf q (List.mem_cons_of_mem _ hq)) hc2 c hsh.1 (hsh.2.1.trans ho) ?_
      rintro ⟨q, hq, hcal⟩
      have hnc : ¬ isClock p.unit := fun h => hc1 h q hq hcal
      rw [hsh.tod hv hnc]
      exact ht ⟨q, List.mem_cons_of_mem _ hq, hcal⟩
    constructor
    · intro h
      cases hs : subStep md orig cur (p.value, p.unit) with
      | error e => rw [hs] at h; simp at h
      | ok c =>
        rw [hs] at h
        have h1 := (step c).1 hs
        exact ⟨c, h1, (tail c h1).1 h⟩
    · rintro ⟨c, h1, h2⟩
      rw [(step c).2 h1]
      exact (tail c h1).2 h2

/-- C42 (any period). For a period string with years and months before hours, minutes and seconds, `sub_period` returns
`b` iff `b` results from going back by each piece in turn, where a piece of `n` months goes back `monthsBack` months. -/
theorem C42_sub_period (md : Mode) (d : DT) (hd : d.Valid) (ps : List Piece) (hne : ps ≠ [])
    (hok : ∀ p ∈ ps, p.Ok true) (hf : ∀ p ∈ ps, p.Fits) (hc : CalendarFirst ps) (b : DT) :
    subPeriod md d (periodText ps) = .ok b ↔ ShiftedBackAll d ps b := by
  unfold subPeriod
  rw [scan_periodText true ps hok]
  cases ps with
  | nil => exact absurd rfl hne
  | cons p ps => exact subLoop_iff md d (p :: ps) hf hc d hd rfl (fun _ => rfl) b

/-- Going back by a piece, for dates. -/
def ShiftedDateBack (a : Int) (n : Int) (u : PerUnit) (b : Int) : Prop :=
  match u with
  | .M => ShiftedDate a (-(monthsBack a n)) .M b
  | u => ShiftedDate a (-n) u b

def ShiftedDateBackAll : Int → List Piece → Int → Prop
  | a, [], b => a = b
  | a, p :: ps, b => ∃ c, ShiftedDateBack a p.value p.unit c ∧ ShiftedDateBackAll c ps b

theorem subStepDate_iff (md : Mode) (cur : Int) (p : Piece) (hok : p.Ok false) (hf : p.value < 2 ^ 31)
    (hv : minDay ≤ cur ∧ cur ≤ maxDay) (b : Int) :
    subStepDate md cur (p.value, p.unit) = .ok b ↔ ShiftedDateBack cur p.value p.unit b := by
  have hu := hok.2.2
  unfold subStepDate
  rw [if_neg (by simp only; omega)]
  cases hpu : p.unit <;> simp only [ShiftedDateBack, ShiftedDate]
  · have := subYears_spec md cur p.value hv (by omega) (by unfold I32; omega)
    rw [show -(12 * (p.value : Int)) = 12 * -p.value by omega] at this
    rw [shiftOr_iff this b]
    tauto
  · have := subMonths_spec' md cur p.value hv (by omega) (by unfold I32; omega)
    rw [subShift_eq] at this
    rw [shiftOr_iff this b]
    tauto
  · rw [addDays_iff, show -(7 * (p.value : Int)) = 7 * -p.value by omega]
  · exact addDays_iff _ _ _
  all_goals
    rw [hpu] at hu
    simp at hu

theorem subLoopDate_iff (md : Mode) (ps : List Piece) (hok : ∀ p ∈ ps, p.Ok false) (hf : ∀ p ∈ ps, p.value < 2 ^ 31)
    (cur : Int) (hv : minDay ≤ cur ∧ cur ≤ maxDay) (b : Int) :
    subLoopDate md cur (ps.map fun p => (p.value, p.unit)) = .ok b ↔ ShiftedDateBackAll cur ps b := by
  induction ps generalizing cur with
  | nil =>
    simp only [List.map_nil, subLoopDate, ShiftedDateBackAll]
    exact ⟨fun h => by cases h; rfl, fun h => by rw [h]⟩
  | cons p ps ih =>
    have step := subStepDate_iff md cur p (hok p (by simp)) (hf p (by simp)) hv
    have ih' := ih (fun q hq => hok q (List.mem_cons_of_mem _ hq)) (fun q hq => hf q (List.mem_cons_of_mem _ hq))
    have rng : ∀ c, ShiftedDateBack cur p.value p.unit c → minDay ≤ c ∧ c ≤ maxDay := by
      intro c h
      unfold ShiftedDateBack at h
      cases hu : p.unit <;> rw [hu] at h <;> exact ⟨h.1, h.2.1⟩
    simp only [List.map_cons, subLoopDate, ShiftedDateBackAll]
    constructor
    · intro h
      cases hs : subStepDate md cur (p.value, p.unit) with
      | error e => rw [hs] at h; simp at h
      | ok c =>
        rw [hs] at h
        have h1 := (step c).1 hs
        exact ⟨c, h1, (ih' c (rng c h1)).1 h⟩
    · rintro ⟨c, h1, h2⟩
      rw [(step c).2 h1]
      exact (ih' c (rng c h1)).2 h2

/-- C42 (dates, any period). `sub_period_date` returns `b` iff `b` results from going back by each piece in turn, where
a piece of `n` months goes back `monthsBack` months; otherwise it panics. -/
theorem C42_sub_period_date (md : Mode) (a : Int) (ha : minDay ≤ a ∧ a ≤ maxDay) (ps : List Piece) (hne : ps ≠ [])
    (hok : ∀ p ∈ ps, p.Ok false) (hf : ∀ p ∈ ps, p.value < 2 ^ 31) (b : Int) :
    subPeriodDate md a (periodText ps) = .ok b ↔ ShiftedDateBackAll a ps b := by
  unfold subPeriodDate
  rw [scan_periodText false ps hok]
  cases ps with
  | nil => exact absurd rfl hne
  | cons p ps => exact subLoopDate_iff md (p :: ps) hok hf a ha b

/-! ### Concrete cases and limits -/

/-- 2021-01-31 00:00 UTC plus "1Y1M1D1h1min1sec" (the unit test). -/
example : addPeriod .checked { day := (Ymd.mk 2021 1 31).ord, tod := 0, off := 0 } "1Y1M1D1h1min1sec".toList
    = .ok { day := (Ymd.mk 2022 3 1).ord, tod := 3661000000000, off := 0 } := by decide +kernel

example : CalendarFirst [⟨['1'], .Y⟩, ⟨['1'], .M⟩, ⟨['1'], .D⟩, ⟨['1'], .h⟩] ∧
    (∀ p ∈ [(⟨['1'], .Y⟩ : Piece), ⟨['1'], .M⟩, ⟨['1'], .D⟩, ⟨['1'], .h⟩], p.Ok true ∧ p.Fits) := by
  simp [CalendarFirst, isClock, isCalendar, Piece.Ok, Piece.Fits, Piece.value]

/-- Eighteen months before 2020-01-31 should be 2018-07-31; the result is 2019-07-31. The unit test
`test_sub_period_date` pins this wrong value. -/
theorem fault_sub_18_months :
    subPeriodDate .checked (Ymd.mk 2020 1 31).ord "18M".toList = .ok (Ymd.mk 2019 7 31).ord ∧
    MonthShift (Ymd.mk 2020 1 31) (-18) (Ymd.mk 2018 7 31) := by
  refine ⟨by decide +kernel, by decide, by decide, Or.inl rfl⟩

/-- A month after an hour throws the hour away: "1h1M" adds one month only. -/
theorem fault_clock_before_calendar :
    addPeriod .checked { day := (Ymd.mk 2021 1 15).ord, tod := 0, off := 0 } "1h1M".toList
      = .ok { day := (Ymd.mk 2021 2 15).ord, tod := 0, off := 0 } := by decide +kernel

/-- Numbers of 2^31 or more wrap in `add_period`: 2^32 + 1 months are one month. -/
theorem fault_period_wraps :
    addPeriod .checked { day := (Ymd.mk 2021 1 15).ord, tod := 0, off := 0 } "4294967297M".toList
      = .ok { day := (Ymd.mk 2021 2 15).ord, tod := 0, off := 0 } := by decide +kernel

/-- Several units after one number: only the last counts, "1YM" is one month. Text between pieces is ignored. -/
theorem fault_period_garbage :
    addPeriod .checked { day := (Ymd.mk 2021 1 15).ord, tod := 0, off := 0 } "1YM and 1D".toList
      = .ok { day := (Ymd.mk 2021 2 16).ord, tod := 0, off := 0 } := by decide +kernel

end Verif.Props

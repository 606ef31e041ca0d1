import Verif.QL.EvalDate
import Verif.Props.Period
import Verif.Props.Dividend
/-!
# The evaluation date and its operators (C133)
-/
set_option autoImplicit false
namespace Verif.Props
open Verif Verif.QL Verif.Civil

variable {K : Type} [Field K] [LinearOrder K] [IsStrictOrderedRing K]

/-- **C133** (`+=`). Adding a period moves the date by each piece in turn and tells every observer the new date; it is what
`set_date` with the date shifted would do, and `+` gives that date and moves nothing. -/
theorem C133_add (md : Mode) (w w' : World K) (hd : w.date.Valid) (ps : List Piece) (hne : ps ≠ [])
    (hok : ∀ p ∈ ps, p.Ok true) (hf : ∀ p ∈ ps, p.Fits) (hc : CalendarFirst ps) :
    (w.addAssign md (periodText ps) = .ok w' ↔ ∃ d, ShiftedAll 1 w.date ps d ∧ w.setDate d = .ok w') ∧
    (∀ d, w.plus md (periodText ps) = .ok d ↔ ShiftedAll 1 w.date ps d) ∧
    (w.addAssign md (periodText ps) = .ok w' → w.plus md (periodText ps) = .ok w'.date) := by
  have key := C41_add_period md w.date hd ps hne hok hf hc
  have h1 : w.addAssign md (periodText ps) = .ok w' ↔ ∃ d, ShiftedAll 1 w.date ps d ∧ w.setDate d = .ok w' := by
    unfold World.addAssign
    rw [bind_ok_iff]
    simp only [key]
  refine ⟨h1, fun d => key d, fun h => ?_⟩
  obtain ⟨d, hs, hw⟩ := h1.1 h
  rw [(setDate_ok w w' d hw).1]
  exact (key d).2 hs

/-- **C133** (`-=`). -/
theorem C133_sub (md : Mode) (w w' : World K) (hd : w.date.Valid) (ps : List Piece) (hne : ps ≠ [])
    (hok : ∀ p ∈ ps, p.Ok true) (hf : ∀ p ∈ ps, p.Fits) (hc : CalendarFirst ps) :
    (w.subAssign md (periodText ps) = .ok w' ↔ ∃ d, ShiftedBackAll w.date ps d ∧ w.setDate d = .ok w') ∧
    (∀ d, w.minus md (periodText ps) = .ok d ↔ ShiftedBackAll w.date ps d) ∧
    (w.subAssign md (periodText ps) = .ok w' → w.minus md (periodText ps) = .ok w'.date) := by
  have key := C42_sub_period md w.date hd ps hne hok hf hc
  have h1 : w.subAssign md (periodText ps) = .ok w' ↔ ∃ d, ShiftedBackAll w.date ps d ∧ w.setDate d = .ok w' := by
    unfold World.subAssign
    rw [bind_ok_iff]
    simp only [key]
  refine ⟨h1, fun d => key d, fun h => ?_⟩
  obtain ⟨d, hs, hw⟩ := h1.1 h
  rw [(setDate_ok w w' d hw).1]
  exact (key d).2 hs

/-- The nanoseconds of pieces of fixed length. -/
def piecesNs : List Piece → Int
  | [] => 0
  | p :: ps => p.value * unitSeconds p.unit * 1000000000 + piecesNs ps

theorem piece_nonneg (p : Piece) : 0 ≤ (p.value : Int) * unitSeconds p.unit * 1000000000 := by
  have : (0 : Int) ≤ unitSeconds p.unit := by cases p.unit <;> simp [unitSeconds]
  positivity

theorem piecesNs_nonneg (ps : List Piece) : 0 ≤ piecesNs ps := by
  induction ps with
  | nil => exact le_refl _
  | cons p ps ih => unfold piecesNs; have := piece_nonneg p; omega

theorem dt_ext_local (a b : DT) (ha : a.Valid) (hb : b.Valid) (ho : a.off = b.off) (hl : a.localNs = b.localNs) : a = b := by
  obtain ⟨ad, at_, ao⟩ := a
  obtain ⟨bd, bt, bo⟩ := b
  obtain ⟨-, -, h1⟩ := ha
  obtain ⟨-, -, h2⟩ := hb
  unfold DT.localNs at hl
  simp only at *
  unfold dayNs at *
  have : ad = bd := by omega
  have : at_ = bt := by omega
  subst_vars
  rfl

theorem shifted_fixed {a b : DT} {n : Int} {u : PerUnit} (hu : ¬ isCalendar u) :
    Shifted a n u b ↔ b.Valid ∧ b.off = a.off ∧ b.localNs = a.localNs + n * unitSeconds u * 1000000000 := by
  cases u <;> first | exact absurd trivial hu | exact Iff.rfl

theorem shiftedBack_fixed {a b : DT} {n : Int} {u : PerUnit} (hu : ¬ isCalendar u) :
    ShiftedBack a n u b ↔ b.Valid ∧ b.off = a.off ∧ b.localNs = a.localNs - n * unitSeconds u * 1000000000 := by
  have : ShiftedBack a n u b ↔ Shifted a (-n) u b := by
    cases u <;> first | exact absurd trivial hu | exact Iff.rfl
  rw [this, shifted_fixed hu, show -n * unitSeconds u * 1000000000 = -(n * unitSeconds u * 1000000000) by ring, sub_eq_add_neg]

theorem shiftedAll_fixed (ps : List Piece) (hu : ∀ p ∈ ps, ¬ isCalendar p.unit) (a b : DT) (ha : a.Valid)
    (h : ShiftedAll 1 a ps b) : b.Valid ∧ b.off = a.off ∧ b.localNs = a.localNs + piecesNs ps := by
  induction ps generalizing a with
  | nil => simp only [ShiftedAll] at h; subst h; exact ⟨ha, rfl, by simp [piecesNs]⟩
  | cons p ps ih =>
    obtain ⟨c, h1, h2⟩ := h
    rw [Int.one_mul, shifted_fixed (hu p (by simp))] at h1
    obtain ⟨e1, e2, e3⟩ := ih (fun q hq => hu q (List.mem_cons_of_mem _ hq)) c h1.1 h2
    refine ⟨e1, e2.trans h1.2.1, ?_⟩
    rw [e3, h1.2.2]
    simp only [piecesNs]
    ring

theorem exists_between (a b : DT) (ha : a.Valid) (hb : b.Valid) (t : Int) (h1 : a.localNs ≤ t) (h2 : t ≤ b.localNs) :
    ∃ c : DT, c.Valid ∧ c.off = b.off ∧ c.localNs = t := by
  refine ⟨{ day := t / dayNs, tod := (t % dayNs).toNat, off := b.off }, ⟨?_, ?_, ?_⟩, rfl, ?_⟩
  · have := ha.1
    unfold DT.localNs dayNs at *
    show minDay ≤ t / 86400000000000
    omega
  · have := hb.2.1
    have := hb.2.2
    unfold DT.localNs dayNs at *
    show t / 86400000000000 ≤ maxDay
    omega
  · show (((t % dayNs).toNat : Nat) : Int) < dayNs
    unfold dayNs
    omega
  · unfold DT.localNs dayNs
    show t / 86400000000000 * 86400000000000 + (((t % 86400000000000).toNat : Nat) : Int) = t
    omega

theorem shiftedBack_of_total (ps : List Piece) (hu : ∀ p ∈ ps, ¬ isCalendar p.unit) (a b : DT) (ha : a.Valid) (hb : b.Valid)
    (ho : b.off = a.off) (h : b.localNs = a.localNs + piecesNs ps) : ShiftedBackAll b ps a := by
  induction ps generalizing b with
  | nil =>
    show b = a
    exact dt_ext_local b a hb ha ho (by simpa [piecesNs] using h)
  | cons p ps ih =>
    unfold piecesNs at h
    have n1 := piece_nonneg p
    have n2 := piecesNs_nonneg ps
    obtain ⟨c, c1, c2, c3⟩ := exists_between a b ha hb (b.localNs - p.value * unitSeconds p.unit * 1000000000) (by omega) (by omega)
    refine ⟨c, (shiftedBack_fixed (hu p (by simp))).2 ⟨c1, c2, c3⟩, ?_⟩
    exact ih (fun q hq => hu q (List.mem_cons_of_mem _ hq)) c c1 (c2.trans ho) (by omega)

theorem calendarFirst_fixed (ps : List Piece) (hu : ∀ p ∈ ps, ¬ isCalendar p.unit) : CalendarFirst ps := by
  induction ps with
  | nil => trivial
  | cons p ps ih =>
    have h' : ∀ q ∈ ps, ¬ isCalendar q.unit := fun q hq => hu q (List.mem_cons_of_mem _ hq)
    exact ⟨fun _ => h', ih h'⟩

/-- **C133** (there and back). A period of weeks, days, hours, minutes and seconds added and subtracted again leads back to the
very same date, and every price that was at the evaluation date has its value again, whatever dividends were passed. -/
theorem C133_round_trip (md : Mode) (w w1 : World K) (hd : w.date.Valid) (ps : List Piece) (hne : ps ≠ [])
    (hok : ∀ p ∈ ps, p.Ok true) (hf : ∀ p ∈ ps, p.value < 2 ^ 63) (hu : ∀ p ∈ ps, ¬ isCalendar p.unit)
    (h1 : w.addAssign md (periodText ps) = .ok w1) :
    w1.minus md (periodText ps) = .ok w.date ∧
    ∀ w2, w1.subAssign md (periodText ps) = .ok w2 → w2.date = w.date ∧
      ∀ (j : Nat) (p p' : Price K), w.prices[j]? = some p → w2.prices[j]? = some p' → p.at_ = w.date →
        (∀ q ∈ pairsOf w p, q.2 ≠ 1) → p'.value = p.value := by
  have hf' : ∀ p ∈ ps, p.Fits := fun p hp => ⟨hf p hp, fun h => absurd h (hu p hp)⟩
  have hc := calendarFirst_fixed ps hu
  obtain ⟨d, hs, hw⟩ := (C133_add md w w1 hd ps hne hok hf' hc).1.1 h1
  have e := (setDate_ok w w1 d hw).1
  obtain ⟨v1, v2, v3⟩ := shiftedAll_fixed ps hu w.date d hd hs
  have back : ShiftedBackAll d ps w.date := shiftedBack_of_total ps hu w.date d hd v1 v2 v3
  have hm : w1.minus md (periodText ps) = .ok w.date := by
    unfold World.minus
    rw [e]
    exact (C42_sub_period md d v1 ps hne hok hf' hc w.date).2 back
  refine ⟨hm, fun w2 h2 => ?_⟩
  have h2' : w1.setDate w.date = .ok w2 := by
    unfold World.subAssign at h2
    unfold World.minus at hm
    rw [hm, Res.bind_ok] at h2
    exact h2
  refine ⟨(setDate_ok w1 w2 _ h2').1, fun j p p' hp hp' ha hl => ?_⟩
  refine C47_round_trip w w2 [d, w.date] ?_ j p p' hp hp' hl (by rw [ha]; rfl)
  simp only [World.moves, hw, Res.bind_ok, h2']

/-- **C133** (comparison). The evaluation date equals a date with time exactly if it is the same instant, and comes before or
after it as its instant does, whatever the offsets; with a calendar date it is compared by its own local day. -/
theorem C133_compare (w : World K) (d : DT) (day : Int) :
    (w.eqDateTime d = true ↔ w.cmpDateTime d = .eq) ∧ (w.cmpDateTime d = .eq ↔ w.date.instant = d.instant) ∧
    (w.cmpDateTime d = .lt ↔ w.date.instant < d.instant) ∧ (w.cmpDateTime d = .gt ↔ d.instant < w.date.instant) ∧
    (w.eqDate day = true ↔ w.cmpDate day = .eq) ∧ (w.cmpDate day = .eq ↔ w.date.day = day) ∧
    (w.cmpDate day = .lt ↔ w.date.day < day) ∧ (w.cmpDate day = .gt ↔ day < w.date.day) := by
  unfold World.eqDateTime World.cmpDateTime World.eqDate World.cmpDate
  simp only [decide_eq_true_eq, compare_eq_iff_eq, compare_lt_iff_lt, compare_gt_iff_gt, and_self, iff_self]

/-! ### Concrete cases -/

/-- 31 January, one month on and one month back is the 28th. -/
theorem fault_month_round_trip :
    (do let w ← (World.mk (K := ℚ) (utc 2023 1 31) [] []).addAssign .checked "1M".toList
        let w ← w.subAssign .checked "1M".toList
        .ok w.date) = .ok (utc 2023 1 28) := by
  decide +kernel

/-- Ten weeks and two days on from 2 January 2024, past the first dividend, and back: the price is 99 in between and 100
again. -/
example : ((someWorld true).addAssign .checked "11W2D".toList).map (fun w => (w.prices.map Price.value, w.date)) =
      .ok ([99], utc 2024 3 21) ∧
    (do let w ← (someWorld true).addAssign .checked "11W2D".toList
        let w ← w.subAssign .checked "11W2D".toList
        .ok (w.prices.map Price.value, w.date)) = .ok ([100], utc 2024 1 2) := by
  decide +kernel

example : periodText [⟨['1', '1'], .W⟩, ⟨['2'], .D⟩] = "11W2D".toList ∧ (someWorld true).date.Valid ∧
    (∀ p ∈ [Piece.mk ['1', '1'] .W, ⟨['2'], .D⟩], p.Ok true ∧ p.value < 2 ^ 63 ∧ ¬ isCalendar p.unit) := by
  refine ⟨by decide +kernel, ⟨by decide +kernel, by decide +kernel, by decide +kernel⟩, ?_⟩
  intro p hp
  simp only [List.mem_cons, List.not_mem_nil, or_false] at hp
  rcases hp with rfl | rfl <;>
    exact ⟨⟨by simp, by decide, Or.inl rfl⟩, by decide, fun h => h⟩

end Verif.Props

import Verif.Props.FloatVec
import Verif.Props.FloatDiscount
/-!
# Construction of curves, dates and forward factors in single precision (C144), refused bumps (C145)
-/
set_option autoImplicit false
namespace Verif.Props
open Verif Verif.Float Verif.QL Verif.Civil

/-- **C144** (refused). A curve without rates or with another number of times is refused. -/
theorem C144_refused (E : Fl → Fl) (md : Mode) (eval : DT) (times rates : List Fl) (h : times.length ≠ rates.length ∨ rates = []) :
    CurveF.new E md eval times rates = .error .err := by
  unfold CurveF.new
  by_cases hl : times.length ≠ rates.length
  · rw [if_pos hl]
  · rw [if_neg hl, h.resolve_left hl]; rfl

theorem mapM_values {f : Fl → Res Fl} (R : ℚ → ℚ → Prop) : ∀ (xs : List Fl) (qs : List ℚ), Values xs qs →
    (∀ x q, f32.Finite x q → ∃ y w, f x = .ok y ∧ f32.Finite y w ∧ R q w) →
    ∃ ys ws, xs.mapM f = .ok ys ∧ Values ys ws ∧ List.Forall₂ R qs ws := by
  intro xs qs h hf
  unfold Values at h
  induction h with
  | nil => exact ⟨[], [], rfl, .nil, .nil⟩
  | cons h1 h2 ih =>
    obtain ⟨ys, ws, e, v, r⟩ := ih
    obtain ⟨y, w, e1, v1, r1⟩ := hf _ _ h1
    exact ⟨y :: ys, w :: ws, by rw [List.mapM_cons, e1, e]; rfl, .cons v1 v, .cons r1 r⟩

/-- **C144** (the cached rates). A curve given by two or more rates, at times at most `2 ^ 30` in size and `2 ^ -30` apart, is
accepted, and the rate it caches for each of its 29 times is the linear interpolation of the given ones, flat at both ends, up to 14
parts in `2 ^ 24` of the largest. -/
theorem C144_cached (E : Fl → Fl) (md : Mode) (eval : DT) (ha : eval.Valid) (ao : OffOk eval) (hy : eval.ymd.y ≤ 9899)
    {times rates : List Fl} {tq rq : List ℚ} {B : ℚ} (ht : Values times tq) (hr : Values rates rq) (h : PlainKnots tq rq B) (h2 : 1 < rq.length)
    (g : Lin ℚ) (hg : Lin.new tq rq .flat true = .ok g) :
    ∃ c cq kq, CurveF.new E md eval times rates = .ok c ∧ CurveOn E md eval c ∧ Values c.times kq ∧ Values c.rates cq ∧
      List.Forall₂ (fun t r => ∃ v, g.interp t = .ok v ∧ |r - v| ≤ 14 * B / 2 ^ 24 + (1 / 2) ^ 100) kq cq := by
  obtain ⟨ds, kq, e, tv, hlen, h0, gap, -⟩ := knot_values md eval ha ao hy
  have l1 := ht.length
  have l2 := hr.length
  have l3 := h.len
  have hf := newF_ok ht hr h .flat true
  set f : Lin Fl := { dom := times, val := rates, der := slopesF times rates, extra := .flat, allow := true } with hfd
  have pw : kq.Pairwise (· ≤ ·) := gap.imp fun h => by linarith
  have vec := C143_vectorised ht hr h .flat true f hf tv pw
  have pos := List.length_pos_iff.2 h.some
  have tot : ∀ x q, f32.Finite x q → ∃ y w, linInterpF f x = .ok y ∧ f32.Finite y w ∧
      (∃ v, g.interp q = .ok v ∧ |w - v| ≤ 14 * B / 2 ^ 24 + (1 / 2) ^ 100) := by
    intro x q hx
    rcases C143_accuracy ht hr h .flat true f hf (by simp) g hg hx with ⟨er, e1, -⟩ | ⟨r, y, w, e1, e2, e3, e4⟩
    · exfalso
      obtain ⟨c1, c2⟩ := C38_flat tq rq g hg h.sorted l3 pos q
      rcases interp_trichotomy tq h.sorted pos q with hq | ⟨i, hi, i1, i2⟩ | hq
      · rw [c1 hq] at e1; cases e1
      · rw [C38_inside tq rq .flat true g hg h.sorted l3 i hi q i1 i2] at e1; cases e1
      · rw [c2 hq] at e1; cases e1
    · exact ⟨y, w, e2, e3, r, e1, e4⟩
  obtain ⟨ys, ws, em, yv, rel⟩ := mapM_values _ _ _ tv tot
  have sorted : isSorted (ds.map (timeDifferenceF eval)) = .ok true := by
    rw [sorted_agree tv]
    have pw : kq.Pairwise (· < ·) := gap.imp fun h => lt_of_lt_of_le (by linarith) h
    have hne : kq ≠ [] := by rintro rfl; simp at h0
    obtain ⟨f, hf⟩ := (C38_new kq kq .none false).2.2.2 rfl hne pw
    unfold Lin.new at hf
    rw [if_neg (by omega)] at hf
    cases hq : isSorted kq with
    | error e => rw [hq] at hf; cases hf
    | ok b =>
      rw [hq] at hf
      cases b
      · cases hf
      · rfl
  have ly : ys.length = ds.length := by
    have a1 := yv.length
    have a2 := rel.length_eq
    have a3 := tv.length
    rw [List.length_map] at a3
    omega
  have hnew : ∃ c, CurveF.new E md eval times rates = .ok c ∧ c.rates = ys ∧ c.times = ds.map (timeDifferenceF eval) := by
    unfold CurveF.new mkRatesF
    rw [if_neg (by omega), if_neg (by rw [List.isEmpty_iff_length_eq_zero]; omega), if_neg (by omega), hf, e]
    simp only [Res.bind_ok, RateInterpF.vec]
    rw [vec, em]
    simp only [Res.bind_ok]
    unfold CurveF.of linNewF
    rw [if_neg (by
      unfold discountsF
      simp [ly]), sorted]
    exact ⟨_, rfl, rfl, rfl⟩
  obtain ⟨c, n1, n2, n3⟩ := hnew
  exact ⟨c, ws, kq, n1, new_on E md eval _ _ c n1, by rw [n3]; exact tv, by rw [n2]; exact yv, rel⟩

theorem same_year (s e : DT) (h : e.ymd.y = s.ymd.y) : timeDifference s e = inDays (e.instant - s.instant) / daysInYear s.ymd.y := by
  unfold timeDifference yearLoop
  rw [h, show (s.ymd.y + 1 - s.ymd.y).toNat = 1 by omega]
  simp [timePart, h]

/-- **C144** (dates). Today the discount factor is one. Every date earlier than now by at least a minute within the same year is refused; but
before that year every date has discount factor one. -/
theorem C144_dates {E : Fl → Fl} (hE : ExpSpec E) (md : Mode) (eval : DT) (ha : eval.Valid) (ao : OffOk eval) (hy : eval.ymd.y ≤ 9899)
    (c : CurveF) (hc : CurveOn E md eval c) (rq : List ℚ) (hr : RatesIn c rq) :
    (∃ y, c.dfAt eval eval = .ok y ∧ f32.Finite y 1) ∧
    (∀ d : DT, d.Valid → OffOk d → d.ymd.y = eval.ymd.y → d.instant + 60000000000 ≤ eval.instant → c.dfAt eval d = .error .err) ∧
    (∀ d : DT, d.Valid → OffOk d → d.ymd.y = eval.ymd.y → eval.instant ≤ d.instant → c.dfAt eval d = c.df (timeDifferenceF eval d)) ∧
    (∀ d : DT, d.ymd.y < eval.ymd.y → ∃ y, c.dfAt eval d = .ok y ∧ f32.Finite y 1) := by
  have z0 : f32.lit 0 = .fin false 0 := by decide +kernel
  have fz : f32.Finite (f32.lit 0) 0 := f32_zero
  refine ⟨?_, ?_, ?_, ?_⟩
  · unfold CurveF.dfAt
    dsimp only
    have hz := C141_zero eval
    rw [if_neg (by rw [fl_lt hz fz]; exact lt_irrefl _)]
    obtain ⟨s, e, -⟩ := hz
    rw [e]
    exact C144_today hE md eval ha ao hy c hc rq hr s
  · intro d hd od hyd hlt
    obtain ⟨x, x1, x2⟩ := C141_accuracy eval d ha hd ao od
    rw [hyd, sub_self, abs_zero, same_year _ _ hyd] at x2
    unfold CurveF.dfAt
    dsimp only
    rw [if_pos]
    rw [fl_lt x1 fz]
    have l1 : (daysInYear eval.ymd.y : ℚ) ≤ 366 ∧ (365 : ℚ) ≤ daysInYear eval.ymd.y := by
      unfold daysInYear
      by_cases hl : isLeapYear eval.ymd.y = true
      · rw [if_pos hl]; norm_num
      · rw [if_neg hl]; norm_num
    have l2 : inDays (d.instant - eval.instant) ≤ -(60000000000 / 86400000000000) := by
      unfold inDays dayNs
      rw [div_le_iff₀ (by norm_num)]
      have : ((d.instant - eval.instant : Int) : ℚ) ≤ ((-60000000000 : Int) : ℚ) := by exact_mod_cast (by omega : d.instant - eval.instant ≤ -60000000000)
      refine this.trans (by norm_num)
    have l3 : inDays (d.instant - eval.instant) / daysInYear eval.ymd.y ≤ -(60000000000 / 86400000000000) / 366 := by
      rw [div_le_div_iff₀ (by linarith [l1.2]) (by norm_num)]
      nlinarith [l1.1, l1.2]
    have := (abs_le.1 x2).2
    norm_num at this l3
    linarith
  · intro d hd od hyd hle
    unfold CurveF.dfAt
    dsimp only
    rw [if_neg]
    have ho := C141_order eval eval d ha ha hd ao ao od hyd.symm hle
    obtain ⟨x, x1, -⟩ := C141_accuracy eval d ha hd ao od
    have := (fl_le (C141_zero eval) x1).1 ho
    rw [fl_lt x1 fz]
    exact not_lt.2 this
  · intro d hlt
    have e : timeDifferenceF eval d = f32.lit 0 := by
      unfold timeDifferenceF
      exact yearLoopF_empty _ _ _ hlt
    unfold CurveF.dfAt
    dsimp only
    rw [e, if_neg (by rw [fl_lt fz fz]; exact lt_irrefl _), z0]
    exact C144_today hE md eval ha ao hy c hc rq hr false

/-- **C144** (forward factors). Between two times in the right order the factor is the quotient of the two discount factors, correctly
rounded; in the wrong order it is refused. -/
theorem C144_between (c : CurveF) {a b ya yb : Fl} {p q v w : ℚ} (ha : f32.Finite a p) (hb : f32.Finite b q)
    (h1 : c.df a = .ok ya) (h2 : c.df b = .ok yb) (fa : f32.Finite ya v) (fb : f32.Finite yb w) (v1 : (2 : ℚ) ^ (-60 : Int) ≤ v) (w1 : |w| ≤ 2 ^ 30) :
    (p ≤ q → ∃ y, c.dfBetween a b = .ok y ∧ f32.Finite y (f32.rnd (w / v))) ∧ (q < p → c.dfBetween a b = .error .err) := by
  have vp : 0 < v := (pow2_pos _).trans_le v1
  unfold CurveF.dfBetween
  constructor
  · intro hle
    rw [if_pos ((fl_le ha hb).2 hle), h1, h2]
    refine ⟨_, rfl, finite_div fb fa vp.ne' (le_f32_max ?_)⟩
    rw [abs_div, abs_of_pos vp, div_le_iff₀ vp]
    refine w1.trans ?_
    have := mul_le_mul_of_nonneg_left v1 (by norm_num : (0 : ℚ) ≤ 2 ^ 100)
    refine le_trans ?_ this
    norm_num
  · intro hlt
    rw [if_neg (by rw [fl_le ha hb]; exact not_le.2 hlt)]

/-- **C145** (dividends, bounds in the wrong order). An interval of dates that is empty or reversed is refused. -/
theorem C145_dividends_refused (d1 d2 : Int) (b : Fl) (dates : List Int) (amounts : List Fl) :
    (d2 ≤ d1 → dividendBumpF d1 d2 b dates amounts = .error .err) ∧ (d1 < d2 → ∃ m, dividendBumpF d1 d2 b dates amounts = .ok m) := by
  unfold dividendBumpF
  exact ⟨fun h => if_pos h, fun h => by rw [if_neg (by omega)]; exact ⟨_, rfl⟩⟩

/-- Concrete case: a curve of three rates on 30 December 2024 meets the hypotheses of `C144_cached`. -/
example : ∃ c, CurveF.new hyperbola .wrapping (utcAt 2024 12 30 43200) [f32.lit 0, f32.lit 7, f32.lit 10]
    [f32.lit (35 / 100), f32.lit (94 / 100), f32.lit (1 / 2)] = .ok c ∧ c.rates.length = 29 := by
  obtain ⟨h1, h2, h3⟩ := sample_knots
  obtain ⟨g, hg⟩ := (C38_new [0, 7, 10] [f32.rnd (35 / 100), f32.rnd (94 / 100), f32.rnd (1 / 2)] .flat true).2.2.2 h3.len h3.some h3.sorted
  obtain ⟨c, cq, kq, n1, n2, n3, n4, n5⟩ := C144_cached hyperbola .wrapping (utcAt 2024 12 30 43200)
    (by refine ⟨?_, ?_, ?_⟩ <;> decide +kernel) (by unfold OffOk; decide +kernel) (by decide +kernel) h1 h2 h3 (by simp) g hg
  obtain ⟨ds, e, ht, -⟩ := n2
  have := (mapRes_forall₂ _ _ _ e).length_eq
  refine ⟨c, n1, ?_⟩
  rw [n4.length, ← n5.length_eq, ← n3.length, ht, List.length_map, ← this]
  decide +kernel

end Verif.Props

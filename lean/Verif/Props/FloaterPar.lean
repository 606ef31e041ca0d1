import Verif.Props.EngineFloaters
/-!
# C185: a floating-rate note on its own curve is worth less than par
-/
set_option autoImplicit false
namespace Verif.Props
open Verif Verif.QL Verif.Civil

/-! ## Specification -/

/-- Coupons that follow one another from `start` to `finish`: each is fixed when it starts, runs for the period of the index, and is paid when it ends, after the day `today`; its
year fraction is the time of the curve. -/
inductive Rolls (md : Mode) (tenor : List Char) (dcc : DCC) (eval : DT) (finish : DT) : DT → List Coupon → Prop
  | done : Rolls md tenor dcc eval finish finish []
  | step (start : DT) (c : Coupon) (cs : List Coupon) (hfix : c.fixing = start) (hstart : c.start = start) (hstop : addPeriod md start tenor = .ok c.stop) (hpay : c.payment = c.stop)
      (hday : eval.day < c.stop.day) (hle : eval.instant ≤ start.instant) (hlong : 1e-6 < timeFrom eval c.stop - timeFrom eval start)
      (hfrac : frac c.start c.stop dcc = .ok (timeFrom eval c.stop - timeFrom eval start)) (rest : Rolls md tenor dcc eval finish c.stop cs) :
      Rolls md tenor dcc eval finish start (c :: cs)

/-- What the coupons together fall short of par, for discount factors `D`. -/
noncomputable def shortfall (D : DT → ℝ) (cs : List Coupon) : ℝ := (cs.map fun c => (D c.start - D c.stop) ^ 2 / D c.start).sum

/-! ## One coupon -/

theorem fwd_simple (c : Curve) (hc : CurveOk c) (s e r : ℝ) (hlong : 1e-6 < e - s) (h : c.fwd s e .simple = .ok r) :
    ∃ x y, c.df s = .ok x ∧ c.df e = .ok y ∧ 0 < x ∧ 0 < y ∧ r * (e - s) = 1 - y / x := by
  have hp : (0 : ℝ) < e - s := lt_trans (by norm_num) hlong
  unfold Curve.fwd at h
  rw [if_pos (by linarith), if_pos (by rw [abs_of_pos hp]; exact hlong)] at h
  obtain ⟨d, hd, g⟩ := (bind_ok_iff _ _ _).1 h
  unfold Curve.dfBetween at hd
  rw [if_pos (by linarith)] at hd
  simp only [bind_ok_iff, divK_ok_iff] at hd
  obtain ⟨y, hy, x, hx, hx0, rfl⟩ := hd
  unfold rateOf at g
  simp only [divK_ok_iff] at g
  obtain ⟨g0, rfl⟩ := g
  refine ⟨x, y, hx, hy, df_positive c hc _ _ hx, df_positive c hc _ _ hy, ?_⟩
  field_simp

/-- **C185** (one coupon). A coupon fixed when it starts, over the period of its index and paid when it ends, is worth the difference of the two discount factors, as it would be with a
simple forward rate, less the square of that difference over the first. -/
theorem C185_coupon (md : Mode) (v : FloatEnv) (k : Curve) (hk : CurveOk k) (eval : DT) (hv : v.fwd = { curve := k, eval := eval }) (sp : Option ℝ) (c : Coupon)
    (hfix : v.pricing.instant ≤ c.fixing.instant) (hs : c.fixing = c.start) (hstop : addPeriod md c.start v.tenor = .ok c.stop)
    (hlong : 1e-6 < timeFrom eval c.stop - timeFrom eval c.start) (hfrac : frac c.start c.stop v.dcc = .ok (timeFrom eval c.stop - timeFrom eval c.start)) (x : ℝ)
    (hx : v.amount md none sp c = .ok x) :
    ∃ p q, k.df (timeFrom eval c.start) = .ok p ∧ k.df (timeFrom eval c.stop) = .ok q ∧ 0 < p ∧ 0 < q ∧
      x * q = p - q - (p - q) ^ 2 / p + sp.getD 0 * (timeFrom eval c.stop - timeFrom eval c.start) * q := by
  obtain ⟨r, f, ⟨stop, s1, s2, -⟩, hf, rfl⟩ := (C66_simple md v sp c x).1 hx
  rw [hfrac] at hf
  obtain rfl := Except.ok.inj hf
  rw [hs, hstop] at s1
  obtain rfl := Except.ok.inj s1
  have h2 := s2 hfix
  rw [hv, hs] at h2
  unfold Live.fwd Curve.fwdDates at h2
  dsimp only at h2
  split at h2
  · cases h2
  · obtain ⟨p, q, e1, e2, hp, hq, e3⟩ := fwd_simple k hk _ _ r hlong h2
    refine ⟨p, q, e1, e2, hp, hq, ?_⟩
    have e3' : r * (timeFrom eval c.stop - timeFrom eval c.start) = 1 - q / p := e3
    have : (r + sp.getD 0) * (timeFrom eval c.stop - timeFrom eval c.start) * q =
        (r * (timeFrom eval c.stop - timeFrom eval c.start)) * q + sp.getD 0 * (timeFrom eval c.stop - timeFrom eval c.start) * q := by ring
    rw [this, e3']
    field_simp
    ring

/-! ## The note -/

/-- The coupons of a chain together -/
theorem chain_worth (md : Mode) (b : Bond) (tenor : List Char) (hi : b.index = some tenor) (hcomp : b.comp = none) (hsp : b.spread = none) (k : Curve) (hk : CurveOk k) (eval : DT)
    (close : Option (Int → Option ℝ)) (start : DT) (cs : List Coupon) (h : Rolls md tenor b.dcc eval b.maturity start cs)
    (hdef : ∀ c ∈ cs, ∃ a, b.amount md ⟨some { curve := k, eval := eval }, close⟩ eval (c, none) = .ok a) :
    (cs.map fun c => if eval.day < c.payment.day then valOf (b.amount md ⟨some { curve := k, eval := eval }, close⟩ eval (c, none)) * dfOf { curve := k, eval := eval } c.payment else 0).sum
      + dfOf { curve := k, eval := eval } b.maturity = dfOf { curve := k, eval := eval } start - shortfall (dfOf { curve := k, eval := eval }) cs ∧
    ∀ c ∈ cs, 0 < dfOf { curve := k, eval := eval } c.start ∧ 0 < dfOf { curve := k, eval := eval } c.stop := by
  induction h with
  | done => simp [shortfall]
  | step start c cs hfix hstart hstop hpay hday hle hlong hfrac rest ih =>
    obtain ⟨i1, i2⟩ := ih fun c hc => hdef c (List.mem_cons_of_mem _ hc)
    obtain ⟨a, ha⟩ := hdef c (List.mem_cons_self ..)
    have ha' := ha
    unfold Bond.amount at ha'
    dsimp only at ha'
    rw [hi, hcomp, hsp] at ha'
    dsimp only at ha'
    subst hstart
    obtain ⟨p, q, e1, e2, hp, hq, e3⟩ := C185_coupon md _ k hk eval rfl none c (by rw [hfix]; exact hle) hfix hstop hlong hfrac a ha'
    have d1 : dfOf { curve := k, eval := eval } c.start = p := by rw [dfOf_eq k hk, e1]; rfl
    have d2 : dfOf { curve := k, eval := eval } c.stop = q := by rw [dfOf_eq k hk, e2]; rfl
    refine ⟨?_, ?_⟩
    · rw [List.map_cons, List.sum_cons, if_pos (by rw [hpay]; exact hday), ha, hpay, d2, add_assoc, i1, d2]
      show a * q + (q - _) = _
      unfold shortfall
      rw [List.map_cons, List.sum_cons, d1, d2, e3]
      simp only [Option.getD_none]
      ring
    · intro c' hc'
      rcases List.mem_cons.1 hc' with rfl | hc'
      · rw [d1, d2]; exact ⟨hp, hq⟩
      · exact i2 c' hc'

theorem shortfall_nonneg (D : DT → ℝ) (cs : List Coupon) (h : ∀ c ∈ cs, 0 < D c.start) : 0 ≤ shortfall D cs := by
  unfold shortfall
  refine List.sum_nonneg fun z hz => ?_
  obtain ⟨c, hc, rfl⟩ := List.mem_map.1 hz
  exact div_nonneg (sq_nonneg _) (h c hc).le

theorem shortfall_pos (D : DT → ℝ) (cs : List Coupon) (h : ∀ c ∈ cs, 0 < D c.start) (c : Coupon) (hc : c ∈ cs) (hne : D c.start ≠ D c.stop) : 0 < shortfall D cs := by
  unfold shortfall
  induction cs with
  | nil => cases hc
  | cons a cs ih =>
    rw [List.map_cons, List.sum_cons]
    have h0 : 0 ≤ (D a.start - D a.stop) ^ 2 / D a.start := div_nonneg (sq_nonneg _) (h a (List.mem_cons_self ..)).le
    have hr : 0 ≤ (cs.map fun c => (D c.start - D c.stop) ^ 2 / D c.start).sum := shortfall_nonneg D cs fun c hc => h c (List.mem_cons_of_mem _ hc)
    rcases List.mem_cons.1 hc with rfl | hc
    · have : 0 < (D c.start - D c.stop) ^ 2 / D c.start := div_pos (pow_pos_of_ne _ (sub_ne_zero.2 hne)) (h c (List.mem_cons_self ..))
      linarith
    · have := ih (fun c hc => h c (List.mem_cons_of_mem _ hc)) hc
      linarith
where
  pow_pos_of_ne (x : ℝ) (hx : x ≠ 0) : 0 < x ^ 2 := by positivity

/-- **C185** (worth). A floating-rate note discounted on its own index curve, with no spread, is worth its earlier coupons plus the discount factor of its next reset - which is all it
would be worth at a simple forward rate - less a shortfall, exactly. -/
theorem C185_worth (md : Mode) (f : Fixed) (M : Mkt) (hM : GoodCurves M) (b : Bond) (k q : String) (x : ℝ) (h : NoteWorth md f M b k k q x)
    (tenor : List Char) (hi : b.index = some tenor) (hcomp : b.comp = none) (hsp : b.spread = none) (hst : b.strip = false) (hmat : M.w.date.day < b.maturity.day)
    (old : List (Coupon × Option ℝ)) (cs : List Coupon) (start : DT) (hsch : b.schedule = old ++ cs.map fun c => (c, none)) (hr : Rolls md tenor b.dcc M.w.date b.maturity start cs) :
    ∃ c, M.curves k = some c ∧
      x = (old.map fun s => if M.w.date.day < s.1.payment.day then valOf (b.amount md (M.fixings f (some k) (some q)) M.w.date s) * dfOf { curve := c, eval := M.w.date } s.1.payment else 0).sum
        + (dfOf { curve := c, eval := M.w.date } start - shortfall (dfOf { curve := c, eval := M.w.date }) cs) ∧
      0 ≤ shortfall (dfOf { curve := c, eval := M.w.date }) cs ∧
      ((∃ a ∈ cs, dfOf { curve := c, eval := M.w.date } a.start ≠ dfOf { curve := c, eval := M.w.date } a.stop) → 0 < shortfall (dfOf { curve := c, eval := M.w.date }) cs) := by
  obtain ⟨c, h1, rfl, hdef⟩ := h
  have hc := (hM k c h1).1
  have f1 : M.fixings f (some k) (some q) = ⟨some { curve := c, eval := M.w.date }, f.past q⟩ := by
    unfold Mkt.fixings
    simp only [Option.bind_some, h1, Option.map_some]
  have hday : ∀ (s : DT) (cs : List Coupon), Rolls md tenor b.dcc M.w.date b.maturity s cs → ∀ a ∈ cs, M.w.date.day < a.payment.day := by
    intro s cs hr
    induction hr with
    | done => intro a ha; cases ha
    | step start c cs hfix hstart hstop hpay hday hle hlong hfrac rest ih =>
      intro a ha
      rcases List.mem_cons.1 ha with rfl | ha
      · rw [hpay]; exact hday
      · exact ih a ha
  obtain ⟨w1, w2⟩ := chain_worth md b tenor hi hcomp hsp c hc M.w.date (f.past q) start cs hr (fun a ha => by
    have := hdef (a, none) (by rw [hsch]; exact List.mem_append_right _ (List.mem_map.2 ⟨a, ha, rfl⟩)) (hday _ _ hr a ha).le
    rwa [f1] at this)
  have hp : ∀ a ∈ cs, 0 < dfOf { curve := c, eval := M.w.date } a.start := fun a ha => (w2 a ha).1
  refine ⟨c, h1, ?_, shortfall_nonneg _ _ hp, fun ⟨a, ha, hne⟩ => shortfall_pos _ _ hp a ha hne⟩
  unfold bondValue
  rw [if_pos ⟨hst, hmat⟩, hsch, List.map_append, List.sum_append, add_assoc]
  congr 1
  rw [← w1, List.map_map, f1]
  rfl

end Verif.Props

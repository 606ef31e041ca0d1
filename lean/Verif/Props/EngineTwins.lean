import Verif.Props.EngineParity
/-!
# C156: a concrete engine with a call and a put

The market of `engine_witness` with real pricers.
-/
set_option autoImplicit false
namespace Verif.Props
open Verif Verif.QL Verif.Civil

/-- A call and a put, a future, the stock and cash -/
noncomputable def twinInsts : List Instr :=
  [⟨"O", .option true "A" .krw false, .krw, 10, day0 2022 1 1, 0⟩, ⟨"P", .option false "A" .krw false, .krw, 10, day0 2022 1 1, 0⟩,
   ⟨"F", .futures "A" .krw, .krw, 5, day0 2021 12 1, 0⟩, ⟨"A", .stock "A", .krw, 3, day0 2021 1 1, 0⟩, ⟨"M", .cash, .krw, 2, day0 2021 1 1, 0⟩]

/-- No exchange rates, quanto parameters or fixings -/
noncomputable def twinFixed : Fixed where
  fx := fun _ => none
  quanto := fun _ => none
  past := fun _ => none
  search := fun _ _ _ => .ok none
  num := fun _ => 0

def twinLoaded : Loaded where
  fxs := fun _ => false
  equities := fun u => u == "A"
  curves := fun n => n == "C"
  vols := fun u => u == "A"
  quantos := fun _ => false
  pasts := fun _ => false

/-- The strike is 50 -/
noncomputable def twinOption : Vanilla := { strike := 50, maturity := day0 2022 1 1, call := true, ccy := 0, undCcy := 0 }

def twinPlan : Plan := .option "A" "A" "C" "C" "C" none

/-- The engine -/
noncomputable def twinEngine : EngCfg where
  md := .checked
  pricers := fun c =>
    if c = "O" then some (twinPlan.pricer .checked twinFixed (.option { twinOption with call := true }))
    else if c = "P" then some (twinPlan.pricer .checked twinFixed (.option { twinOption with call := false }))
    else if c = "F" then some (Plan.pricer .checked twinFixed (.futures (day0 2021 12 1) 0) (.futures "A" "C" "C"))
    else if c = "A" then some (Plan.pricer .checked twinFixed .stock (.stock "A"))
    else if c = "M" then some (Plan.pricer .checked twinFixed .cash .cash) else none
  p := { collateral := fun u => if u = "A" then some "C" else none, borrowing := fun u => if u = "A" then some "C" else none, bondDiscount := fun _ => none
         rateForward := fun _ => none, crs := fun _ => none, funding := fun c => if c = .krw then some "C" else none }
  conf := demoConf
  insts := twinInsts

/-- What the pricers need of a market -/
structure Usable (m : Mkt) : Prop where
  price : ∃ p v, m.price "A" = some (0, p) ∧ 60 < p.value ∧ m.divOf p = some v ∧ ∀ d, d.day < (day0 2023 6 1).day → v.ratio d = .ok 1
  curve : ∃ c, m.curves "C" = some c ∧ CurveOk c ∧ ∃ tl, c.times[c.times.length - 1]? = some tl ∧ 99 ≤ tl
  vol : ∃ w, m.vols "A" = some w ∧ ∀ t x, ∃ y, w.value t x = .ok y
  date : m.w.date = day0 2021 1 1 ∨ m.w.date = day0 2021 1 2

theorem usable_forward (m : Mkt) (h : Usable m) (d : DT) (h1 : ∀ e, e = day0 2021 1 1 ∨ e = day0 2021 1 2 → (0 : ℚ) ≤ timeDifference e d ∧ timeDifference e d < 99)
    (h2 : d.day < (day0 2023 6 1).day) : ∃ env c F, m.carry "A" "C" "C" = .ok env ∧ m.curves "C" = some c ∧ env.eval = m.w.date ∧ env.forward d = .ok F ∧ 60 < F ∧
      ∃ y, c.df (timeFrom m.w.date d) = .ok y := by
  obtain ⟨p, v, p1, p2, p3, p4⟩ := h.price
  obtain ⟨c, c1, c2, tl, c3, c4⟩ := h.curve
  obtain ⟨g1, g2⟩ := h1 _ h.date
  obtain ⟨-, -, hr, -⟩ := C57_range c c2 tl c3
  obtain ⟨y, hy, hpos⟩ := hr ((timeDifference m.w.date d : ℚ) : ℝ) (by exact_mod_cast g1) (lt_of_lt_of_le (by exact_mod_cast g2) c4)
  have hat : Live.df { curve := c, eval := m.w.date } d = .ok y := ((C57_at_date c c2 _ _).1).trans hy
  refine ⟨{ eval := m.w.date, spot := p.value, dividend := some v, coll := c, borrow := c }, c, p.value, ?_, c1, rfl,
    (C68_forward _ _ _).2 ⟨y, y, 1, hat, hat, p4 d h2, hpos.ne', by show p.value * y = p.value * y * 1; ring⟩, p2, y, hy⟩
  unfold Mkt.carry
  rw [p1, c1]
  show (Except.ok _ : Res FuturesPricer) = _
  rw [p3]

theorem usable_option (m : Mkt) (h : Usable m) (call : Bool) : ∃ x, twinPlan.npv .checked twinFixed (.option { twinOption with call := call }) m = .ok x := by
  have hq : ∀ e, e = day0 2021 1 1 ∨ e = day0 2021 1 2 → (0 : ℚ) < timeDifference e (day0 2022 1 1) ∧ timeDifference e (day0 2022 1 1) < 99 := by
    rintro e (rfl | rfl) <;> decide +kernel
  obtain ⟨env, c, F, e1, e2, e3, e4, e5, D, e6⟩ := usable_forward m h (day0 2022 1 1) (fun e he => ⟨(hq e he).1.le, (hq e he).2⟩) (by decide +kernel)
  obtain ⟨w, w1, w2⟩ := h.vol
  obtain ⟨s, hs⟩ := w2 (timeFrom m.w.date (day0 2022 1 1)) (50 / F)
  have ht : 0 < timeFrom m.w.date (day0 2022 1 1) := by
    have := (hq _ h.date).1
    show (0 : ℝ) < ((timeDifference m.w.date (day0 2022 1 1) : ℚ) : ℝ)
    exact_mod_cast this
  let P : OptionPricer := { env := env, disc := c, vol := w, quanto := none }
  have hP : m.optionPricer twinFixed "A" "A" "C" "C" "C" none = .ok P := by
    unfold Mkt.optionPricer
    rw [e1, w1, e2]
    rfl
  have hnpv := option_npv_eq P { twinOption with call := call } F (timeFrom m.w.date (day0 2022 1 1)) s D 0 ⟨e4, by rw [← e3]; rfl, hs, e6⟩ ht.le (by linarith) (by show (0 : ℝ) < 50; norm_num)
    (Or.inl rfl) rfl
  have : ∃ n, normals (-Real.log (50 / F) + s * s * timeFrom m.w.date (day0 2022 1 1) / 2 - 0) (s * Real.sqrt (timeFrom m.w.date (day0 2022 1 1))) = .ok n := by
    unfold normals
    by_cases hd : s * Real.sqrt (timeFrom m.w.date (day0 2022 1 1)) = 0
    · have hs0 : s = 0 := (mul_eq_zero.1 hd).resolve_right (Real.sqrt_pos.2 ht).ne'
      have hlog : Real.log (50 / F) < 0 := Real.log_neg (by positivity) ((div_lt_one (by linarith)).2 (by linarith))
      have hnum : 0 < -Real.log (50 / F) + s * s * timeFrom m.w.date (day0 2022 1 1) / 2 - 0 := by rw [hs0]; linarith
      rw [if_pos hd, if_neg hnum.ne', if_pos hnum]
      exact ⟨_, rfl⟩
    · rw [if_neg hd]
      exact ⟨_, rfl⟩
  obtain ⟨n, hn⟩ := this
  have hnpv' : P.npv { twinOption with call := call } = _ := hnpv
  rw [show (normals (-Real.log (({ twinOption with call := call } : Vanilla).strike / F) + s * s * timeFrom m.w.date (day0 2022 1 1) / 2 - 0)
    (s * Real.sqrt (timeFrom m.w.date (day0 2022 1 1)))) = .ok n from hn, Res.bind_ok] at hnpv'
  have hx : ∃ x, P.npv { twinOption with call := call } = .ok x := ⟨_, hnpv'⟩
  obtain ⟨x, hx⟩ := hx
  refine ⟨x, ?_⟩
  show (do let x ← m.optionPricer twinFixed "A" "A" "C" "C" "C" none; x.npv { twinOption with call := call }) = _
  rw [hP, Res.bind_ok]
  exact hx

theorem usable_future (m : Mkt) (h : Usable m) : ∃ x, Plan.npv .checked twinFixed (.futures "A" "C" "C") (.futures (day0 2021 12 1) 0) m = .ok x := by
  have hq : ∀ e, e = day0 2021 1 1 ∨ e = day0 2021 1 2 → (0 : ℚ) ≤ timeDifference e (day0 2021 12 1) ∧ timeDifference e (day0 2021 12 1) < 99 := by
    rintro e (rfl | rfl) <;> decide +kernel
  obtain ⟨env, c, F, e1, e2, e3, e4, e5, D, e6⟩ := usable_forward m h (day0 2021 12 1) hq (by decide +kernel)
  refine ⟨F, ?_⟩
  show (do let x ← m.carry "A" "C" "C"; x.forward (day0 2021 12 1)) = _
  rw [e1, Res.bind_ok, e4]

theorem goodVols_value (m : Mkt) (h : GoodVols m) (u : String) (w : Vol) (hw : m.vols u = some w) : ∀ t x, ∃ y, w.value t x = .ok y := by
  obtain ⟨s, env, fs, rfl, -, g1, g2, g3⟩ := h u w hw
  obtain ⟨s', b1, -, b3⟩ := C74_value env s g1 fs g3
  rw [g2] at b1
  obtain rfl := Except.ok.inj b1
  exact fun t x => (b3 t x).1

/-- The same engine holding the instruments `L` -/
noncomputable def twinOf (L : List Instr) : EngCfg := { twinEngine with insts := L }

/-- The market of `engine_witness`, perhaps with a second curve `D` that nobody uses -/
def twinMkt (c : Curve) (v : Dividend ℝ) (s : Surf) (x : Bool) : Mkt :=
  { demoMarket c v s with curves := fun n => if n = "C" ∨ (x = true ∧ n = "D") then some c else none }

/-- The engine can be calculated: `C97_succeeds_in` applies to it. -/
theorem twin_markets (vs : List (List ℝ)) (hlen : vs.length = 3) (hcols : ∀ r ∈ vs, r.length = 3) : ∃ c v s, s.vols = vs ∧ Dividend.new (day0 2021 1 1) (some [day0 2023 6 1]) [(2 : ℝ)] 100 = .ok v ∧ ∀ (x : Bool) (L : List Instr), (∀ i ∈ L, i ∈ twinInsts) →
    (L.map Instr.code).Nodup → OwnCodes (twinOf L) ∧ OneZone (twinOf L) ∧ SoundMkt (twinOf L) [day0 2021 7 1, day0 2022 1 1, day0 2023 1 1] (twinMkt c v s x) ∧
    ∃ e', calculate (twinOf L) ["A"] { mkt := twinMkt c v s x, action := L, results := freshResults L fun _ => none } = .ok e' := by
  obtain ⟨c, v, s, hcn, hvn, -, hM0, -, -, -, hvs⟩ := engine_market vs hlen hcols
  obtain ⟨c', hcn', ok, ⟨tl, htl, htl'⟩, hdf⟩ := sample_curve 0.03
  rw [hcn] at hcn'
  obtain rfl := Except.ok.inj hcn'
  obtain ⟨v', hvn', hgd, hvd, hvp, hvr⟩ := demo_dividend
  rw [hvn] at hvn'
  obtain rfl := Except.ok.inj hvn'
  refine ⟨c.blank, v, s, hvs, hvn, fun dd L hL hnd => ?_⟩
  have hM : SoundMkt (twinOf L) [day0 2021 7 1, day0 2022 1 1, day0 2023 1 1] (twinMkt c.blank v s dd) := by
    refine ⟨?_, ?_, hM0.3, hM0.4, hM0.5, hM0.6⟩
    · intro n c0 h0
      obtain ⟨-, e⟩ := (Option.ite_none_right_eq_some).1 h0
      obtain rfl := Option.some.inj e
      exact hM0.1 "C" _ rfl
    · intro u w hw
      obtain ⟨a, e⟩ := (Option.ite_none_right_eq_some).1 hw
      subst a
      exact hM0.2 "A" w hw
  have hg : OwnCodes (twinOf L) := by
    exact hnd
  have hmem : ∀ i ∈ (twinOf L).insts, (i.typeName ≠ "Stock" ∧ i.typeName ≠ "Cash" ∧ i.unds = ["A"] ∧ (∀ x ∈ curveRoles (twinOf L).p i, x = some "C") ∧
        (i.maturity = some (day0 2022 1 1) ∨ i.maturity = some (day0 2021 12 1))) ∨
      (i.typeName = "Stock" ∧ i.unds = ["A"] ∧ curveRoles (twinOf L).p i = [some "C"] ∧ i.maturity = none) ∨
      (i.typeName = "Cash" ∧ i.unds = [] ∧ curveRoles (twinOf L).p i = [] ∧ i.maturity = none) := by
    intro i hi
    replace hi := hL i hi
    simp only [twinInsts, List.mem_cons, List.not_mem_nil, or_false] at hi
    rcases hi with rfl | rfl | rfl | rfl | rfl
    · left; simp [Instr.typeName, Instr.unds, curveRoles, Instr.maturity, twinOf, twinEngine]
    · left; simp [Instr.typeName, Instr.unds, curveRoles, Instr.maturity, twinOf, twinEngine]
    · left; simp [Instr.typeName, Instr.unds, curveRoles, Instr.maturity, twinOf, twinEngine]
    · right; left; simp [Instr.typeName, Instr.unds, curveRoles, Instr.maturity, twinOf, twinEngine]
    · right; right; simp [Instr.typeName, Instr.unds, curveRoles, Instr.maturity]
  have hundA : ∀ i ∈ (twinOf L).insts, ∀ u ∈ i.unds, u = "A" := by
    intro i hi u hu
    rcases hmem i hi with ⟨-, -, h, -⟩ | ⟨-, h, -⟩ | ⟨-, h, -⟩ <;> rw [h] at hu <;> simp at hu <;> exact hu
  have hcurv : ∀ i ∈ (twinOf L).insts, ∀ x ∈ curveRoles (twinOf L).p i, x = some "C" := by
    intro i hi x hx
    rcases hmem i hi with ⟨-, -, -, h, -⟩ | ⟨-, -, h, -⟩ | ⟨-, -, h, -⟩
    · exact h x hx
    · rw [h] at hx; simpa using hx
    · rw [h] at hx; cases hx
  have hmat : ∀ i ∈ (twinOf L).insts, ∀ m, i.maturity = some m → m = day0 2022 1 1 ∨ m = day0 2021 12 1 := by
    intro i hi m hm
    rcases hmem i hi with ⟨-, -, -, -, h⟩ | ⟨-, -, -, h⟩ | ⟨-, -, -, h⟩
    · rcases h with h | h <;> rw [h] at hm
      · left; exact (Option.some.inj hm).symm
      · right; exact (Option.some.inj hm).symm
    · rw [h] at hm; cases hm
    · rw [h] at hm; cases hm
  have hz : OneZone (twinOf L) := by
    intro i hi j hj a b ha hb hab
    rcases hmat i hi a ha with rfl | rfl <;> rcases hmat j hj b hb with rfl | rfl
    · rfl
    · exact absurd hab (by decide +kernel)
    · exact absurd hab (by decide +kernel)
    · rfl
  have hb : (day0 2021 1 1).addNs (1 * dayNs) = .ok (day0 2021 1 2) := by decide +kernel
  have hlate : ∀ i ∈ (twinOf L).insts, ∀ m, i.maturity = some m → (day0 2021 1 2).instant < m.instant := by
    intro i hi m hm
    rcases hmat i hi m hm with rfl | rfl <;> decide +kernel
  have hC : Complete (twinOf L) ["A"] (twinMkt c.blank v s dd) := by
    refine ⟨?_, ?_, ?_, ?_, ?_, ?_, ?_, ?_, ?_, ?_⟩
    · intro i hi u hu
      rw [hundA i hi u hu]
      exact ⟨0, _, rfl, rfl⟩
    · intro i hi
      unfold CurvesNamed
      intro x
      cases hcurv i hi _ x
    · intro i hi n hn
      have : n = "C" := Option.some.inj (hcurv i hi _ hn.2)
      rw [this]
      exact ⟨_, rfl⟩
    · intro i hi _ u hu
      rw [hundA i hi u hu]
      exact ⟨_, rfl⟩
    · intro i hi _ u hu
      rw [hundA i hi u hu]
      exact ⟨_, rfl⟩
    · intro u hu
      simp only [List.mem_cons, List.not_mem_nil, or_false] at hu
      rw [hu]
      exact ⟨_, rfl⟩
    · refine ⟨?_, ?_, ?_, ?_, ?_⟩ <;> simp [twinOf, twinEngine, demoConf] <;> norm_num
    · have t1 : timeFrom (day0 2021 1 1) (day0 2021 7 1) = 181 / 365 := by
        have : timeDifference (day0 2021 1 1) (day0 2021 7 1) = 181 / 365 := by decide +kernel
        unfold timeFrom; rw [this]; norm_num
      have t2 : timeFrom (day0 2021 1 1) (day0 2022 1 1) = 1 := by
        have : timeDifference (day0 2021 1 1) (day0 2022 1 1) = 1 := by decide +kernel
        unfold timeFrom; rw [this]; norm_num
      have hr : calcDates .checked (day0 2021 1 1) [['6', 'M'], ['1', 'Y']] = .ok [day0 2021 7 1, day0 2022 1 1] := by decide +kernel
      refine ⟨[day0 2021 7 1, day0 2022 1 1], hr, fun k hk => ?_⟩
      show (startOf [timeFrom (day0 2021 1 1) (day0 2021 7 1), timeFrom (day0 2021 1 1) (day0 2022 1 1)] k).getD (-99999999)
        ≤ ([timeFrom (day0 2021 1 1) (day0 2021 7 1), timeFrom (day0 2021 1 1) (day0 2022 1 1)][k]?).getD 99999999
      rw [t1, t2]
      have hk : k < 2 := hk
      interval_cases k
      · simp [startOf]; norm_num
      · simp [startOf]; norm_num
    · have hr : calcDates .checked (day0 2021 1 1) [['1', 'Y'], ['3', 'Y']] = .ok [day0 2022 1 1, day0 2024 1 1] := by decide +kernel
      refine ⟨[day0 2022 1 1, day0 2024 1 1], hr, fun k hk => ?_⟩
      have hk : k < 2 := hk
      unfold WindowOk
      interval_cases k <;> decide +kernel
    · refine ⟨day0 2021 1 2, hb, fun i hi ht d hd => ?_⟩
      rcases hd with ⟨-, rfl⟩ | ⟨⟨m, hm, hle⟩, -⟩
      · refine ⟨(C47_move_succeeds _ hM.date.wf _ hM.date.part ?_).2 ?_, ?_⟩
        · intro x hx _
          simp only [twinMkt, demoMarket, List.mem_cons, List.not_mem_nil, or_false] at hx
          subst hx
          refine ⟨?_, by rw [hvd]; simp, hgd.ordered⟩
          rw [hgd.yields, List.length_map]
          exact hgd.len
        · intro x hx _
          simp only [twinMkt, demoMarket, List.mem_cons, List.not_mem_nil, or_false] at hx
          subst hx
          refine ⟨day0 2023 6 1, by rw [hvd]; simp, by decide +kernel⟩
        · have : timeDifference (day0 2021 1 1) (day0 2021 1 2) = 1 / 365 := by decide +kernel
          show ((timeDifference (day0 2021 1 1) (day0 2021 1 2) : ℚ) : ℝ) ≠ 0
          rw [this]
          norm_num
      · have := hlate i hi m hm
        omega
  have ubase : Usable (twinMkt c.blank v s dd) :=
    ⟨⟨{ value := 100, at_ := day0 2021 1 1, div := some 0 }, v, rfl, by norm_num, rfl, hvr⟩, ⟨c.blank, rfl, curveOk_blank c ok, tl, htl, htl'⟩,
      ⟨.surface s, rfl, goodVols_value _ hM.vols "A" _ rfl⟩, Or.inl rfl⟩
  have hdiv : ∀ (e : DT) (w w' : Dividend ℝ), (e = day0 2021 1 1 ∨ e = day0 2021 1 2) → w.dates = [day0 2023 6 1] → w.yields.length = 1 → w.update e = .ok w' →
      ∀ d, d.day < (day0 2023 6 1).day → w'.ratio d = .ok 1 := by
    intro e w w' he hd hy hw d hlt
    obtain ⟨w'', q1, -, -, -, -, q6⟩ := (C48_update w (by rw [hd, hy]; rfl) (by rw [hd]; simp) (by rw [hd]; exact ⟨by simp, by simp⟩) e).1
      ⟨day0 2023 6 1, by rw [hd]; simp, by rcases he with rfl | rfl <;> decide +kernel⟩
    rw [hw] at q1
    obtain rfl := Except.ok.inj q1
    rw [q6 d]
    unfold keep
    have : (w.pairs.filter fun p => due e d p.1) = [] := by
      rw [List.filter_eq_nil_iff]
      intro p hp
      have hp1 : p.1 ∈ w.dates := by
        unfold Dividend.pairs at hp
        exact (List.of_mem_zip hp).1
      rw [hd, List.mem_singleton] at hp1
      rw [hp1]
      unfold due
      simp only [decide_eq_true_eq]
      rintro ⟨-, q⟩
      omega
    rw [this]
    simp
  have hvy : v.yields.length = 1 := by
    rw [hgd.yields, List.length_map, ← hgd.len, hvd]; rfl
  have hR : Visits (twinOf L) [day0 2021 7 1, day0 2022 1 1, day0 2023 1 1] (twinMkt c.blank v s dd) Usable := by
    refine ⟨ubase, ?_, ?_, ?_, ?_, ?_, ?_⟩
    · rintro u k m hk ⟨j, p, hj, hp, rfl⟩
      have hj' : u = "A" ∧ j = 0 := by
        obtain ⟨a, e⟩ := (Option.ite_none_right_eq_some).1 hj
        exact ⟨a, (Option.some.inj e).symm⟩
      obtain ⟨rfl, rfl⟩ := hj'
      obtain rfl := Option.some.inj hp
      refine ⟨⟨{ value := 100 * k, at_ := day0 2021 1 1, div := some 0 }, v, rfl, ?_, rfl, hvr⟩, ubase.curve, ubase.vol, ubase.date⟩
      show (60 : ℝ) < 100 * k
      rcases hk with rfl | rfl
      · show (60 : ℝ) < 100 * (1 + 0.01); norm_num
      · show (60 : ℝ) < 100 * (1 - 0.01); norm_num
    · rintro n win m ⟨c0, c1, h0, h1, -, h3, -, rfl⟩
      obtain ⟨rfl | ⟨-, rfl⟩, e⟩ := (Option.ite_none_right_eq_some).1 h0
      · obtain rfl := Option.some.inj e
        refine ⟨ubase.price, ⟨c1, by show ((twinMkt c.blank v s dd).curves.put "C" c1) "C" = _; exact put_self _ _ _, h1, tl, ?_, htl'⟩, ubase.vol, ubase.date⟩
        rw [h3]
        exact htl
      · refine ⟨ubase.price, ?_, ubase.vol, ubase.date⟩
        obtain ⟨c2, k1, k2⟩ := ubase.curve
        exact ⟨c2, by show ((twinMkt c.blank v s dd).curves.put "D" c1) "C" = _; rw [put_other _ _ _ _ (by decide)]; exact k1, k2⟩
    · rintro u win b m - ⟨s0, s1, env, h0, h1, h2, h3, h4, -, rfl⟩
      obtain ⟨rfl, e⟩ := (Option.ite_none_right_eq_some).1 h0
      obtain rfl := Vol.surface.inj (Option.some.inj e)
      refine ⟨ubase.price, ubase.curve, ⟨.surface s1, by show ((twinMkt c.blank v s dd).vols.put "A" (.surface s1)) "A" = _; exact put_self _ _ _, ?_⟩, ubase.date⟩
      obtain ⟨s2, env', fs, g0, g1, -, -, g4⟩ := hM.vols "A" (.surface s) rfl
      obtain rfl := Vol.surface.inj g0
      rw [h1] at g1
      obtain rfl := Except.ok.inj g1
      have g5 : Forwards env (builtAt env s1) s1.dates fs := by
        have e1 : s1.dates = s.dates := by rw [h4]
        have e2 : builtAt env s1 = builtAt env s := by rw [h4]; rfl
        rw [e1, e2]
        exact g4
      obtain ⟨s3, b1, -, b3⟩ := C74_value env s1 h2 fs g5
      rw [h3] at b1
      obtain rfl := Except.ok.inj b1
      exact fun t x => (b3 t x).1
    · rintro u win m ⟨k, w, w', f, h0, h1, h2, h3, h4, h5, h6, rfl⟩
      have hk : k = 0 := by
        obtain ⟨-, e⟩ := (Option.ite_none_right_eq_some).1 h0
        exact (Option.some.inj e).symm
      subst hk
      obtain ⟨rfl, rfl⟩ := Prod.mk.inj (Option.some.inj h1)
      refine ⟨⟨{ value := 100, at_ := day0 2021 1 1, div := some 0 }, w', rfl, by norm_num, rfl, ?_⟩, ubase.curve, ubase.vol, ubase.date⟩
      refine hdiv _ w' w' (Or.inl rfl) (h2.trans hvd) ?_ h6
      rw [h5, List.length_map, h4, List.length_zipWith, ← hgd.len, hvd]
      rfl
    · rintro b i d w hb' hi - hd hw
      have hbe : b = day0 2021 1 2 := by
        have := hb'.symm.trans hb
        exact Except.ok.inj this
      subst hbe
      have hde : d = day0 2021 1 2 := by
        rcases hd with ⟨-, rfl⟩ | ⟨⟨m, hm, hle⟩, -⟩
        · rfl
        · have := hlate i hi m hm
          omega
      subst hde
      unfold World.setDate at hw
      obtain ⟨ps, hps, hw⟩ := (bind_ok_iff _ _ _).1 hw
      obtain ⟨dv, hdv, hw⟩ := (bind_ok_iff _ _ _).1 hw
      obtain rfl := Except.ok.inj hw
      obtain ⟨a1, a2⟩ := (mapRes_iff _ _ _).1 hps
      obtain ⟨b1, b2⟩ := (mapRes_iff _ _ _).1 hdv
      have ha : ps.length = 1 := a1
      have hb1 : dv.length = 1 := b1
      have hx := a2 0 { value := 100, at_ := day0 2021 1 1, div := some 0 } (ps[0]'(by omega)) rfl (List.getElem?_eq_getElem (by omega))
      have hy := b2 0 (v, true) (dv[0]'(by omega)) rfl (List.getElem?_eq_getElem (by omega))
      rw [if_pos rfl] at hy
      obtain ⟨w', hw', hy⟩ := (bind_ok_iff _ _ _).1 hy
      have hy' := Except.ok.inj hy
      have hpv : ps[0]'(by omega) = { value := 100, at_ := day0 2021 1 2, div := some 0 } := by
        unfold Price.update at hx
        simp only [twinMkt, demoMarket, List.map_cons, List.getElem?_cons_zero] at hx
        rw [if_pos (by decide +kernel)] at hx
        rw [← Except.ok.inj hx, hvp]
        congr 1
      refine ⟨⟨{ value := 100, at_ := day0 2021 1 2, div := some 0 }, w', ?_, by norm_num, ?_, hdiv _ v w' (Or.inr rfl) hvd hvy hw'⟩, ubase.curve, ubase.vol, Or.inr rfl⟩
      · show (ps[0]?).map (fun p => (0, p)) = _
        rw [List.getElem?_eq_getElem (by omega), hpv]
        rfl
      · show (dv[0]?).map Prod.fst = _
        rw [List.getElem?_eq_getElem (by omega), ← hy']
        rfl
    · rintro m ⟨h1, h2, -, h4⟩
      obtain ⟨w, hw⟩ := h4 "A" ⟨_, rfl⟩
      rw [h1] at hw ⊢
      rw [h1] at h2
      exact ⟨ubase.price, ubase.curve, ⟨w, hw, goodVols_value _ h2 "A" w hw⟩, ubase.date⟩
  have hP : CanPriceIn (twinOf L) (twinMkt c.blank v s dd) Usable := by
    intro i hi
    have of : ∀ (pl : Plan) (t : Terms), (twinOf L).pricers i.code = some (pl.pricer .checked twinFixed t) → (∀ m, Usable m → ∃ x, pl.npv .checked twinFixed t m = .ok x) →
        (∀ x, pl.npv .checked twinFixed t (twinMkt c.blank v s dd) = .ok x → pl.result .checked twinFixed t (twinMkt c.blank v s dd) = .ok (NpvResult.ofNpv x)) →
        (∀ x, ∃ f, pl.exposure .checked twinFixed t i (twinMkt c.blank v s dd) x = .ok f) →
        ∃ p v' fl, (twinOf L).pricers i.code = some p ∧ (∀ m, Usable m → ∃ x, p.npv i m = .ok x) ∧ p.result i (twinMkt c.blank v s dd) = .ok v' ∧ v'.expected = .ok fl ∧
          ∃ f, p.exposure i (twinMkt c.blank v s dd) v'.npv = .ok f := by
      intro pl t h1 h2 h3 h4
      obtain ⟨x, hx⟩ := h2 _ ubase
      exact ⟨_, NpvResult.ofNpv x, [], h1, h2, h3 x hx, rfl, h4 _⟩
    have hi' : i ∈ twinInsts := hL i hi
    simp only [twinInsts, List.mem_cons, List.not_mem_nil, or_false] at hi'
    rcases hi' with rfl | rfl | rfl | rfl | rfl
    · refine of twinPlan _ rfl (fun m hm => usable_option m hm true) (fun x hx => ?_) (fun x => ⟨_, rfl⟩)
      unfold Plan.result
      dsimp only [twinPlan]
      rw [show Plan.npv .checked twinFixed (.option "A" "A" "C" "C" "C" none) (.option { twinOption with call := true }) (twinMkt c.blank v s dd) = .ok x from hx]
      rfl
    · refine of twinPlan _ rfl (fun m hm => usable_option m hm false) (fun x hx => ?_) (fun x => ⟨_, rfl⟩)
      unfold Plan.result
      dsimp only [twinPlan]
      rw [show Plan.npv .checked twinFixed (.option "A" "A" "C" "C" "C" none) (.option { twinOption with call := false }) (twinMkt c.blank v s dd) = .ok x from hx]
      rfl
    · refine of (.futures "A" "C" "C") (.futures (day0 2021 12 1) 0) rfl usable_future (fun x hx => ?_) (fun x => ?_)
      · unfold Plan.result
        dsimp only
        rw [hx]
        rfl
      · have hq : ∀ e, e = day0 2021 1 1 ∨ e = day0 2021 1 2 → (0 : ℚ) ≤ timeDifference e (day0 2021 12 1) ∧ timeDifference e (day0 2021 12 1) < 99 := by
          rintro e (rfl | rfl) <;> decide +kernel
        obtain ⟨env, c0, F, e1, e2, e3, e4, e5, D, e6⟩ := usable_forward _ ubase (day0 2021 12 1) hq (by decide +kernel)
        unfold Plan.exposure
        dsimp only
        rw [e1, Res.bind_ok]
        unfold FuturesPricer.exposure
        rw [e4]
        exact ⟨_, rfl⟩
    · refine of (.stock "A") .stock rfl (fun m hm => ?_) (fun x hx => ?_) (fun x => ⟨_, rfl⟩)
      · obtain ⟨p, w, p1, -⟩ := hm.price
        refine ⟨p.value, ?_⟩
        show (do let p ← orErr (m.price "A"); .ok p.2.value : Res ℝ) = _
        rw [p1]
        rfl
      · unfold Plan.result
        dsimp only
        rw [hx]
        rfl
    · refine of .cash .cash rfl (fun m hm => ⟨1, rfl⟩) (fun x hx => ?_) (fun x => ⟨_, rfl⟩)
      unfold Plan.result
      dsimp only
      rw [hx]
      rfl
  exact ⟨hg, hz, hM, C97_succeeds_in (twinOf L) hg ["A"] (by simp) _ _ hM hC Usable hR hP rfl⟩

/-- The engine with all the instruments -/
theorem twin_market (vs : List (List ℝ)) (hlen : vs.length = 3) (hcols : ∀ r ∈ vs, r.length = 3) : ∃ M, (∃ s, M.vols "A" = some (.surface s) ∧ s.vols = vs) ∧ OwnCodes twinEngine ∧ OneZone twinEngine ∧ SoundMkt twinEngine [day0 2021 7 1, day0 2022 1 1, day0 2023 1 1] M ∧
    Twins twinEngine twinFixed twinLoaded true ⟨"O", .option true "A" .krw false, .krw, 10, day0 2022 1 1, 0⟩ ⟨"P", .option false "A" .krw false, .krw, 10, day0 2022 1 1, 0⟩ "A" twinOption ∧
    ∃ e', calculate twinEngine ["A"] { mkt := M, action := twinInsts, results := freshResults twinInsts fun _ => none } = .ok e' := by
  obtain ⟨c, v, s, hvs, -, h⟩ := twin_markets vs hlen hcols
  obtain ⟨hg, hz, hM, he⟩ := h false twinInsts (fun _ h => h) (by simp [twinInsts])
  have hT : Twins twinEngine twinFixed twinLoaded true ⟨"O", .option true "A" .krw false, .krw, 10, day0 2022 1 1, 0⟩
      ⟨"P", .option false "A" .krw false, .krw, 10, day0 2022 1 1, 0⟩ "A" twinOption := by
    refine ⟨⟨?_, ?_⟩, ⟨.krw, false, rfl, rfl⟩, ⟨rfl, rfl, rfl⟩, ⟨twinPlan, ?_, ?_⟩, ⟨twinPlan, ?_, ?_⟩⟩
    · simp [twinEngine, twinInsts]
    · simp [twinEngine, twinInsts]
    · rfl
    · rfl
    · rfl
    · rfl
  exact ⟨_, ⟨s, rfl, hvs⟩, hg, hz, hM, hT, he⟩

/-- A case with a skew -/
theorem twin_witness : ∃ M, OwnCodes twinEngine ∧ OneZone twinEngine ∧ SoundMkt twinEngine [day0 2021 7 1, day0 2022 1 1, day0 2023 1 1] M ∧
    Twins twinEngine twinFixed twinLoaded true ⟨"O", .option true "A" .krw false, .krw, 10, day0 2022 1 1, 0⟩ ⟨"P", .option false "A" .krw false, .krw, 10, day0 2022 1 1, 0⟩ "A" twinOption ∧
    ∃ e', calculate twinEngine ["A"] { mkt := M, action := twinInsts, results := freshResults twinInsts fun _ => none } = .ok e' := by
  obtain ⟨M, -, h⟩ := twin_market [[0.2, 0.2, 0.3], [0.2, 0.25, 0.3], [0.3, 0.3, 0.3]] rfl (by simp)
  exact ⟨M, h⟩

end Verif.Props

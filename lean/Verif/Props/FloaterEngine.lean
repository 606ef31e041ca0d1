import Verif.Props.FloaterPar
/-!
# A concrete floating-rate note, for C184 and C185
-/
set_option autoImplicit false
namespace Verif.Props
open Verif Verif.QL Verif.Civil

/-! ## A concrete engine -/

/-- A floating-rate note of half a year on the index "I" -/
noncomputable def noteTerms : Bond :=
  { strip := false, schedule := [(irsCoupon, none)], fixedRate := none, spread := none, index := some ['6', 'M'], comp := none, pricing := none, maturity := day0 2022 1 1
    hol := fun _ => .ok false, dcc := .actual365Fixed, fixGap := 0 }

def noteInstr : Instr := ⟨"X", .bond "KTB" 0 0 (some ⟨"I", "N"⟩), .krw, 100, day0 2022 1 1, 0⟩

noncomputable def noteEngine : EngCfg where
  md := .checked
  pricers := fun c => if c = "X" then some (Plan.pricer .checked fxfFixed (.bond noteTerms) (.bond "D" (some "U") (some "N"))) else none
  p := { collateral := fun _ => none, borrowing := fun _ => none, bondDiscount := fun _ => some "D", rateForward := fun _ => some "U", crs := fun _ => none, funding := fun _ => none }
  conf := bondEngine.conf
  insts := [noteInstr]

/-- The curve of the index and the one that discounts -/
def noteMarket (a b : Curve) : Mkt where
  w := { date := day0 2021 1 1, prices := [], divs := [] }
  equity := fun _ => none
  dividend := fun _ => none
  curves := fun n => if n = "U" then some a else if n = "D" then some b else none
  vols := fun _ => none
  volCurves := fun _ => none

/-- What the pricer needs of a market -/
structure NoteCurves (m : Mkt) : Prop where
  a : ∃ c, m.curves "U" = some c ∧ CurveOk c ∧ ∃ tl, c.times[c.times.length - 1]? = some tl ∧ 99 ≤ tl
  b : ∃ c, m.curves "D" = some c ∧ CurveOk c ∧ ∃ tl, c.times[c.times.length - 1]? = some tl ∧ 99 ≤ tl
  date : m.w.date = day0 2021 1 1 ∨ m.w.date = day0 2021 1 2

theorem note_dates : Coherent (Bond.dates noteTerms) := coherent_of_offset _ 0 (by decide +kernel)

/-- The coupon, at a usable index curve -/
theorem note_amount (m : Mkt) (h : NoteCurves m) : ∃ s : ℝ, noteTerms.amount .checked (m.fixings fxfFixed (some "U") (some "N")) m.w.date (irsCoupon, none) = .ok ((s + 0) * (184 / 365)) ∧
    (∀ c, m.curves "U" = some c → c.fwd (timeFrom m.w.date (day0 2021 7 1)) (timeFrom m.w.date (day0 2022 1 1)) .simple = .ok s) := by
  obtain ⟨a, a1, a2, ta, a3, a4⟩ := h.a
  have ht : ((0 : ℚ) ≤ timeDifference m.w.date (day0 2021 7 1) ∧ (1 / 10 : ℚ) < timeDifference m.w.date (day0 2022 1 1) - timeDifference m.w.date (day0 2021 7 1)) ∧
      m.w.date.instant ≤ (day0 2021 7 1).instant ∧ timeDifference m.w.date (day0 2022 1 1) < 99 := by
    rcases h.date with e | e <;> rw [e] <;> decide +kernel
  obtain ⟨⟨t4, t5⟩, t6, t2⟩ := ht
  have t2' : ((timeDifference m.w.date (day0 2022 1 1) : ℚ) : ℝ) < 99 := by exact_mod_cast t2
  have t4' : (0 : ℝ) ≤ ((timeDifference m.w.date (day0 2021 7 1) : ℚ) : ℝ) := by exact_mod_cast t4
  have t5' : (1 / 10 : ℝ) < ((timeDifference m.w.date (day0 2022 1 1) : ℚ) : ℝ) - ((timeDifference m.w.date (day0 2021 7 1) : ℚ) : ℝ) := by
    have : (((1 / 10 : ℚ)) : ℝ) < (((timeDifference m.w.date (day0 2022 1 1) - timeDifference m.w.date (day0 2021 7 1) : ℚ)) : ℝ) := by exact_mod_cast t5
    push_cast at this
    linarith
  obtain ⟨-, -, -, s, -, -, -, es, -⟩ := C58_rates a a2 ta a3 _ _ t4' (by linarith [(by norm_num : (1e-6 : ℝ) < 1 / 10)]) (lt_of_lt_of_le t2' a4)
  have hs : Live.fwd { curve := a, eval := m.w.date } (day0 2021 7 1) (day0 2022 1 1) = .ok s := by
    unfold Live.fwd
    rw [(C58_dates a _ _ _ .simple).2.1 (by decide +kernel)]
    exact es
  have hm : m.fixings fxfFixed (some "U") (some "N") = { fwd := some { curve := a, eval := m.w.date }, close := fxfFixed.past "N" } := by
    unfold Mkt.fixings
    rw [Option.bind_some, a1]
    rfl
  refine ⟨s, ?_, fun c hc => ?_⟩
  · rw [hm]
    show FloatEnv.amount .checked _ none none irsCoupon = _
    rw [C66_simple]
    refine ⟨s, 184 / 365, ⟨day0 2022 1 1, by show addPeriod .checked (day0 2021 7 1) ['6', 'M'] = _; decide +kernel, fun _ => hs, fun q => absurd q ?_⟩, irs_frac, by simp⟩
    exact not_lt.2 t6
  · rw [a1] at hc
    obtain rfl := Option.some.inj hc
    exact es

theorem note_price (m : Mkt) (d : String) (hd : d = "U" ∨ d = "D") (h : NoteCurves m) : ∃ r fl ex, Plan.result .checked fxfFixed (.bond d (some "U") (some "N")) (.bond noteTerms) m = .ok r ∧
    r.expected = .ok fl ∧ Plan.npv .checked fxfFixed (.bond d (some "U") (some "N")) (.bond noteTerms) m = .ok r.npv ∧
    Plan.exposure .checked fxfFixed (.bond d (some "U") (some "N")) (.bond noteTerms) noteInstr m r.npv = .ok ex := by
  obtain ⟨c, c1, ok, tl, htl, h99⟩ : ∃ c, m.curves d = some c ∧ CurveOk c ∧ ∃ tl, c.times[c.times.length - 1]? = some tl ∧ 99 ≤ tl := by
    rcases hd with rfl | rfl
    · exact h.a
    · exact h.b
  let P : BondPricer := { eval := m.w.date, disc := c, mkt := m.fixings fxfFixed (some "U") (some "N") }
  have hP : m.bondPricer fxfFixed d (some "U") (some "N") = .ok P := by
    unfold Mkt.bondPricer
    rw [c1]
    rfl
  obtain ⟨-, -, hdf, -⟩ := C57_range c ok tl htl
  have hpr : P.pricing noteTerms = m.w.date := rfl
  have hdef : ∃ m', noteTerms.flows .checked (m.fixings fxfFixed (some "U") (some "N")) m.w.date = .ok m' := by
    rw [C61_defined]
    intro x hx _
    rw [List.mem_singleton.1 hx]
    obtain ⟨s, hs, -⟩ := note_amount m h
    exact ⟨_, hs⟩
  obtain ⟨fl, hfl⟩ := hdef
  have hall : ∀ e, e = day0 2021 1 1 ∨ e = day0 2021 1 2 → ∀ d ∈ Bond.dates noteTerms ++ [e], ∃ y, Live.df { curve := c, eval := e } d = .ok y ∧ 0 < y := by
    intro e he d hd
    have ht : ((0 : ℚ) ≤ timeDifference e d ∧ timeDifference e d < 99) := by
      rcases he with rfl | rfl <;> revert d <;> decide +kernel
    unfold Live.df
    rw [(C57_at_date c ok _ d).1]
    exact hdf _ (by exact_mod_cast ht.1) (lt_of_lt_of_le (by exact_mod_cast ht.2) h99)
  have hall := hall _ h.date
  obtain ⟨d0, hd0, hpos⟩ := hall m.w.date (by simp)
  have hs := (discounted_iff { curve := c, eval := m.w.date } m.w.date fl 0 _).2 ⟨fun x hx _ => by
    obtain ⟨y, hy, -⟩ := hall x.1 (List.mem_append_left _ (bond_flow_days _ _ _ _ fl hfl x hx).2)
    exact ⟨y, hy⟩, rfl⟩
  have hn : P.npv .checked noteTerms = .ok _ := (bond_npv_iff .checked P noteTerms _).2 ⟨fl, _, d0, hfl, hs, hd0, if_neg (ne_of_gt hpos)⟩
  obtain ⟨r, hr, hr'⟩ := ((C62_result .checked P noteTerms).1 _).1 hn
  have hex : ∃ e, r.expected = .ok e := by
    obtain ⟨-, e, -, he, -⟩ := C67_bond .checked P noteTerms r hr r.amounts (List.Perm.refl _)
    exact ⟨e, he⟩
  obtain ⟨e, he⟩ := hex
  refine ⟨r, e, _, ?_, he, ?_, rfl⟩
  · show (do let x ← m.bondPricer fxfFixed d (some "U") (some "N"); x.result .checked noteTerms) = _
    rw [hP, Res.bind_ok, hr]
  · show (do let x ← m.bondPricer fxfFixed d (some "U") (some "N"); x.npv .checked noteTerms) = _
    rw [hP, Res.bind_ok, hn, hr']

/-- The flat sample curve at the two dates of the coupon -/
theorem flat_nodes (r : ℝ) (c : Curve) (h : Curve.new .checked (day0 2021 1 1) [1] [r] = .ok c) (hc : CurveOk c) (x y : ℝ)
    (hx : c.df (timeFrom (day0 2021 1 1) (day0 2021 7 1)) = .ok x) (hy : c.df (timeFrom (day0 2021 1 1) (day0 2022 1 1)) = .ok y) :
    x = Real.exp (-(r * (181 / 365))) ∧ y = Real.exp (-(r * 1)) := by
  have hv : (day0 2021 1 1).Valid := by refine ⟨?_, ?_, ?_⟩ <;> decide +kernel
  obtain ⟨c', ds, e, ok, l, hds, et, hr⟩ := C57_new .checked (day0 2021 1 1) hv (by decide +kernel) [1] [r] rfl (by simp) (by simp)
  rw [h] at e
  obtain rfl := Except.ok.inj e
  have hlen : ds.length = 29 := by rw [← l, et, List.length_map]
  have node : ∀ (k : Nat) (hk : k < 29) (d : DT), addPeriod .checked (day0 2021 1 1) (tenors.get ⟨k, hk⟩) = .ok d → timeFrom (day0 2021 1 1) d ∈ c.times := by
    intro k hk d hd
    have hk' := (List.forall₂_iff_get.1 hds).2 k hk (by omega)
    rw [hd] at hk'
    rw [et, List.mem_map]
    exact ⟨ds.get ⟨k, by omega⟩, List.get_mem _ _, by rw [← Except.ok.inj hk']; rfl⟩
  have h6 := node 9 (by decide) (day0 2021 7 1) (show addPeriod .checked (day0 2021 1 1) ['6', 'M'] = .ok (day0 2021 7 1) by decide +kernel)
  have h12 := node 11 (by decide) (day0 2022 1 1) (show addPeriod .checked (day0 2021 1 1) ['1', 'Y'] = .ok (day0 2022 1 1) by decide +kernel)
  have hall : ∀ z ∈ c.rates, z = r := by
    intro z hz
    obtain ⟨k, hk, rfl⟩ := List.getElem_of_mem hz
    have hl : c.times.length = c.rates.length := hr.length_eq
    exact ((List.forall₂_iff_get.1 hr).2 k (by omega) hk).1 r rfl
  have t6 : timeFrom (day0 2021 1 1) (day0 2021 7 1) = 181 / 365 := by
    have : timeDifference (day0 2021 1 1) (day0 2021 7 1) = 181 / 365 := by decide +kernel
    unfold timeFrom; rw [this]; norm_num
  have t12 : timeFrom (day0 2021 1 1) (day0 2022 1 1) = 1 := by
    have : timeDifference (day0 2021 1 1) (day0 2022 1 1) = 1 := by decide +kernel
    unfold timeFrom; rw [this]; norm_num
  have a1 := (C57_flat_curve c hc r hall _ x hx).2 h6
  have a2 := (C57_flat_curve c hc r hall _ y hy).2 h12
  rw [t6] at a1
  rw [t12] at a2
  exact ⟨a1, a2⟩

/-- With a flat index curve of 3% the coupon is not negative. -/
theorem note_nonneg (a b : Curve) (ha : Curve.new .checked (day0 2021 1 1) [1] [0.03] = .ok a) (ok : CurveOk a) (h : NoteCurves (noteMarket a.blank b.blank)) :
    ∀ s ∈ noteTerms.schedule, (noteMarket a.blank b.blank).w.date.day < s.1.payment.day →
      ∀ z, noteTerms.amount .checked ((noteMarket a.blank b.blank).fixings fxfFixed (some "U") (some "N")) (noteMarket a.blank b.blank).w.date s = .ok z → 0 ≤ z := by
  intro s hs _ z hz
  have hs' : s ∈ [(irsCoupon, (none : Option ℝ))] := hs
  rw [List.mem_singleton] at hs'
  subst hs'
  obtain ⟨r, hr, hf⟩ := note_amount _ h
  rw [hr] at hz
  obtain rfl := Except.ok.inj hz
  have ht : (1 / 10 : ℚ) < timeDifference (day0 2021 1 1) (day0 2022 1 1) - timeDifference (day0 2021 1 1) (day0 2021 7 1) := by decide +kernel
  have ht' : (1 / 10 : ℝ) < timeFrom (day0 2021 1 1) (day0 2022 1 1) - timeFrom (day0 2021 1 1) (day0 2021 7 1) := by
    have : (((1 / 10 : ℚ)) : ℝ) < (((timeDifference (day0 2021 1 1) (day0 2022 1 1) - timeDifference (day0 2021 1 1) (day0 2021 7 1) : ℚ)) : ℝ) := by exact_mod_cast ht
    unfold timeFrom
    push_cast at this
    linarith
  obtain ⟨x, y, hx, hy, px, -, e⟩ := fwd_simple a.blank (curveOk_blank a ok) (timeFrom (day0 2021 1 1) (day0 2021 7 1)) (timeFrom (day0 2021 1 1) (day0 2022 1 1)) r (lt_trans (by norm_num) ht') (hf a.blank rfl)
  obtain ⟨ex, ey⟩ := flat_nodes 0.03 a ha ok x y hx hy
  have hle : y ≤ x := by
    rw [ex, ey]
    exact Real.exp_le_exp.2 (by norm_num)
  have h1 : 0 ≤ 1 - y / x := by
    rw [sub_nonneg, div_le_one px]
    exact hle
  have h2 : 0 ≤ r := by
    by_contra hneg
    have : r * (timeFrom (day0 2021 1 1) (day0 2022 1 1) - timeFrom (day0 2021 1 1) (day0 2021 7 1)) < 0 := mul_neg_of_neg_of_pos (not_le.1 hneg) (by linarith)
    have e' : r * (timeFrom (day0 2021 1 1) (day0 2022 1 1) - timeFrom (day0 2021 1 1) (day0 2021 7 1)) = 1 - y / x := e
    linarith
  positivity

/-- All hypotheses of `C184_rho` are met by this engine. -/
theorem note_witness : (∃ M, OwnCodes noteEngine ∧ SoundMkt noteEngine [day0 2021 7 1, day0 2022 1 1, day0 2023 1 1] M ∧
    PricedAs noteEngine fxfFixed { twinLoaded with pasts := fun _ => true, curves := fun _ => true } true noteInstr (.bond "D" (some "U") (some "N")) (.bond noteTerms) ∧
    noteInstr ∈ noteEngine.insts ∧ noteEngine.conf.npv = true ∧ noteEngine.conf.rho = true ∧ 0 < noteEngine.conf.rhoBump ∧
    (∀ s ∈ noteTerms.schedule, M.w.date.day < s.1.payment.day → ∀ a, noteTerms.amount .checked (M.fixings fxfFixed (some "U") (some "N")) M.w.date s = .ok a → 0 ≤ a) ∧
    ∃ e', calculate noteEngine [] { mkt := M, action := noteEngine.insts, results := freshResults noteEngine.insts fun _ => none } = .ok e') ∧
    noteTerms.pricing = none ∧ Coherent (Bond.dates noteTerms) ∧ noteEngine.p.rateForward "I" = some "U" ∧ noteEngine.p.bondDiscount ("KTB", 0, 0, .krw) = some "D" ∧ 0 ≤ noteInstr.notional ∧
    ∀ mk l d tenor, ∀ s ∈ noteTerms.schedule, CouponMild .checked (noteEnv noteTerms mk l d tenor) noteTerms.comp noteTerms.spread s.1 := by
  refine ⟨?_, rfl, note_dates, rfl, rfl, by show (0 : ℝ) ≤ 100; norm_num, ?_⟩
  rotate_left
  · intro mk l d tenor x hx
    have hx' : x ∈ [(irsCoupon, none)] := hx
    rw [List.mem_singleton] at hx'
    subst hx'
    refine ⟨fun f hf => ?_, fun cm h => ?_⟩
    · have hf' : frac (day0 2021 7 1) (day0 2022 1 1) .actual365Fixed = .ok f := hf
      rw [irs_frac] at hf'
      rw [← Except.ok.inj hf']
      norm_num
    · have h' : (none : Option (List Char)) = some cm := h
      cases h'
  obtain ⟨a, han, oka, ⟨ta, hta, hta'⟩, -⟩ := sample_curve 0.03
  obtain ⟨b, hbn, okb, ⟨tb, htb, htb'⟩, -⟩ := sample_curve 0.01
  have hcs : ∀ n c', (noteMarket a.blank b.blank).curves n = some c' → (n = "U" ∧ c' = a.blank) ∨ (n = "D" ∧ c' = b.blank) := by
    intro n c' h
    change (if n = "U" then some a.blank else if n = "D" then some b.blank else none) = some c' at h
    by_cases h1 : n = "U"
    · rw [if_pos h1] at h; exact Or.inl ⟨h1, (Option.some.inj h).symm⟩
    · rw [if_neg h1] at h
      by_cases h2 : n = "D"
      · rw [if_pos h2] at h; exact Or.inr ⟨h2, (Option.some.inj h).symm⟩
      · rw [if_neg h2] at h; cases h
  have hM : SoundMkt noteEngine [day0 2021 7 1, day0 2022 1 1, day0 2023 1 1] (noteMarket a.blank b.blank) := by
    refine ⟨?_, ?_, ?_, ⟨?_, ?_, ?_, ?_⟩, ?_, ?_⟩
    · intro n c' h
      rcases hcs n c' h with ⟨-, rfl⟩ | ⟨-, rfl⟩
      · exact ⟨curveOk_blank a oka, rfl, sample_times _ a han⟩
      · exact ⟨curveOk_blank b okb, rfl, sample_times _ b hbn⟩
    · intro u v h; cases h
    · intro u k h; cases h
    · intro p hp; cases hp
    · intro p hp; cases hp
    · intro p hp; cases hp
    · intro p hp; cases hp
    · show calcDates .checked (day0 2021 1 1) [['6', 'M'], ['1', 'Y'], ['2', 'Y']] = _
      decide +kernel
    · intro u s h; cases h
  have hg : OwnCodes noteEngine := by
    show ([_].map Instr.code).Nodup
    simp
  have hroles : ∀ i ∈ noteEngine.insts, curveRoles noteEngine.p i = [some "D", some "U"] ∧ i.unds = [] ∧ i.maturity = some (day0 2022 1 1) := by
    intro i hi
    have hi' : i ∈ [noteInstr] := hi
    rw [List.mem_singleton] at hi'
    subst hi'
    exact ⟨rfl, rfl, rfl⟩
  have hr : calcDates .checked (day0 2021 1 1) [['1', 'Y'], ['3', 'Y']] = .ok [day0 2022 1 1, day0 2024 1 1] := by decide +kernel
  have t1 : timeFrom (day0 2021 1 1) (day0 2022 1 1) = 1 := by
    have : timeDifference (day0 2021 1 1) (day0 2022 1 1) = 1 := by decide +kernel
    unfold timeFrom; rw [this]; norm_num
  have t3 : timeFrom (day0 2021 1 1) (day0 2024 1 1) = 400769 / 133590 := by
    have : timeDifference (day0 2021 1 1) (day0 2024 1 1) = 400769 / 133590 := by decide +kernel
    unfold timeFrom; rw [this]; norm_num
  have hb : (day0 2021 1 1).addNs (1 * dayNs) = .ok (day0 2021 1 2) := by decide +kernel
  have hlate : (day0 2021 1 2).instant < (day0 2022 1 1).instant := by decide +kernel
  have hsd : (noteMarket a.blank b.blank).w.setDate (day0 2021 1 2) = .ok { date := day0 2021 1 2, prices := [], divs := [] } := rfl
  have hC : Complete noteEngine [] (noteMarket a.blank b.blank) := by
    refine ⟨?_, ?_, ?_, ?_, ?_, ?_, ?_, ?_, ?_, ?_⟩
    · intro i hi u hu; rw [(hroles i hi).2.1] at hu; cases hu
    · intro i hi; unfold CurvesNamed; rw [(hroles i hi).1]; simp
    · rintro i hi n ⟨-, hn⟩
      rw [(hroles i hi).1] at hn
      simp at hn
      rcases hn with hn | hn
      · rw [hn]; exact ⟨b.blank, rfl⟩
      · rw [hn]; exact ⟨a.blank, rfl⟩
    · intro i hi _ u hu; rw [(hroles i hi).2.1] at hu; cases hu
    · intro i hi _ u hu; rw [(hroles i hi).2.1] at hu; cases hu
    · intro u hu; cases hu
    · refine ⟨?_, ?_, ?_, ?_, ?_⟩ <;> simp [noteEngine, bondEngine, demoConf] <;> norm_num
    · refine ⟨_, hr, fun k hk => ?_⟩
      show (startOf [timeFrom (day0 2021 1 1) (day0 2022 1 1), timeFrom (day0 2021 1 1) (day0 2024 1 1)] k).getD (-99999999)
        ≤ ([timeFrom (day0 2021 1 1) (day0 2022 1 1), timeFrom (day0 2021 1 1) (day0 2024 1 1)][k]?).getD 99999999
      rw [t1, t3]
      have hk : k < 2 := hk
      interval_cases k
      · simp [startOf]; norm_num
      · simp [startOf]; norm_num
    · refine ⟨_, hr, fun k hk => ?_⟩
      have hk : k < 2 := hk
      unfold WindowOk
      interval_cases k <;> decide +kernel
    · refine ⟨day0 2021 1 2, hb, fun i hi ht d hd => ?_⟩
      have hde : d = day0 2021 1 2 := by
        rcases hd with ⟨-, rfl⟩ | ⟨⟨m, hm, hle⟩, -⟩
        · rfl
        · rw [(hroles i hi).2.2] at hm
          obtain rfl := Option.some.inj hm
          omega
      subst hde
      refine ⟨⟨_, hsd⟩, ?_⟩
      have : timeDifference (day0 2021 1 1) (day0 2021 1 2) = 1 / 365 := by decide +kernel
      show ((timeDifference (day0 2021 1 1) (day0 2021 1 2) : ℚ) : ℝ) ≠ 0
      rw [this]
      norm_num
  have ubase : NoteCurves (noteMarket a.blank b.blank) := ⟨⟨a.blank, rfl, curveOk_blank a oka, ta, hta, hta'⟩, ⟨b.blank, rfl, curveOk_blank b okb, tb, htb, htb'⟩, Or.inl rfl⟩
  have hR : Visits noteEngine [day0 2021 7 1, day0 2022 1 1, day0 2023 1 1] (noteMarket a.blank b.blank) NoteCurves := by
    refine ⟨ubase, ?_, ?_, ?_, ?_, ?_, ?_⟩
    · rintro u k m hk ⟨j, p, hj, -⟩; cases hj
    · rintro n win m ⟨c0, c1, h0, h1, -, h3, -, rfl⟩
      rcases hcs _ _ h0 with ⟨rfl, rfl⟩ | ⟨rfl, rfl⟩
      · refine ⟨⟨c1, by show ((noteMarket a.blank b.blank).curves.put "U" c1) "U" = _; exact put_self _ _ _, h1, ta, ?_, hta'⟩,
          ⟨b.blank, by show ((noteMarket a.blank b.blank).curves.put "U" c1) "D" = _; rw [put_other _ _ _ _ (by decide)]; rfl, curveOk_blank b okb, tb, htb, htb'⟩, ubase.date⟩
        rw [h3]
        exact hta
      · refine ⟨⟨a.blank, by show ((noteMarket a.blank b.blank).curves.put "D" c1) "U" = _; rw [put_other _ _ _ _ (by decide)]; rfl, curveOk_blank a oka, ta, hta, hta'⟩,
          ⟨c1, by show ((noteMarket a.blank b.blank).curves.put "D" c1) "D" = _; exact put_self _ _ _, h1, tb, ?_, htb'⟩, ubase.date⟩
        rw [h3]
        exact htb
    · rintro u win b m - ⟨s0, s1, env, h0, -⟩; cases h0
    · rintro u win m ⟨k, w, w', f, h0, -⟩; cases h0
    · rintro b' i d w hb' hi - hd hw
      have hbe : b' = day0 2021 1 2 := Except.ok.inj (hb'.symm.trans hb)
      subst hbe
      have hde : d = day0 2021 1 2 := by
        rcases hd with ⟨-, rfl⟩ | ⟨⟨m, hm, hle⟩, -⟩
        · rfl
        · rw [(hroles i hi).2.2] at hm
          obtain rfl := Option.some.inj hm
          omega
      subst hde
      rw [hsd] at hw
      obtain rfl := Except.ok.inj hw
      exact ⟨ubase.a, ubase.b, Or.inr rfl⟩
    · rintro m ⟨h1, -, -, -⟩
      rw [h1]
      exact ⟨ubase.a, ubase.b, ubase.date⟩
  have hP : CanPriceIn noteEngine (noteMarket a.blank b.blank) NoteCurves := by
    intro i hi
    have hi' : i ∈ [noteInstr] := hi
    rw [List.mem_singleton] at hi'
    subst hi'
    obtain ⟨r, fl, ex, x1, x2, x3, x4⟩ := note_price _ "D" (Or.inr rfl) ubase
    refine ⟨_, r, fl, rfl, fun m hm => ?_, x1, x2, ex, x4⟩
    obtain ⟨r', -, -, -, -, x3', -⟩ := note_price m "D" (Or.inr rfl) hm
    exact ⟨_, x3'⟩
  exact ⟨noteMarket a.blank b.blank, hg, hM, ⟨rfl, rfl⟩, List.mem_singleton.2 rfl, rfl, rfl, by show (0 : ℝ) < 0.0001; norm_num, note_nonneg a b han oka ubase,
    C97_succeeds_in noteEngine hg [] List.nodup_nil _ _ hM hC NoteCurves hR hP rfl⟩

/-- A note with all hypotheses of `C185_worth`, and a shortfall: half a year at a flat curve of 3%. -/
theorem par_witness : ∃ M x c, GoodCurves M ∧ NoteWorth .checked fxfFixed M noteTerms "U" "U" "N" x ∧ noteTerms.strip = false ∧ M.w.date.day < noteTerms.maturity.day ∧
    noteTerms.index = some ['6', 'M'] ∧ noteTerms.comp = none ∧ noteTerms.spread = none ∧
    noteTerms.schedule = [] ++ [irsCoupon].map (fun c => (c, none)) ∧ Rolls .checked ['6', 'M'] noteTerms.dcc M.w.date noteTerms.maturity (day0 2021 7 1) [irsCoupon] ∧
    M.curves "U" = some c ∧ dfOf { curve := c, eval := M.w.date } irsCoupon.start ≠ dfOf { curve := c, eval := M.w.date } irsCoupon.stop := by
  obtain ⟨a, han, oka, ⟨ta, hta, hta'⟩, hdf⟩ := sample_curve 0.03
  have okb := curveOk_blank a oka
  have h : NoteCurves (noteMarket a.blank a.blank) := ⟨⟨a.blank, rfl, okb, ta, hta, hta'⟩, ⟨a.blank, rfl, okb, ta, hta, hta'⟩, Or.inl rfl⟩
  have hg : GoodCurves (noteMarket a.blank a.blank) := by
    intro n c' h
    have : c' = a.blank := by
      change (if n = "U" then some a.blank else if n = "D" then some a.blank else none) = some c' at h
      split at h
      · exact (Option.some.inj h).symm
      · split at h
        · exact (Option.some.inj h).symm
        · cases h
    subst this
    exact ⟨okb, rfl, sample_times _ a han⟩
  obtain ⟨r, -, -, -, -, h3, -⟩ := note_price _ "U" (Or.inl rfl) h
  have t6 : timeFrom (day0 2021 1 1) (day0 2021 7 1) = 181 / 365 := by
    have : timeDifference (day0 2021 1 1) (day0 2021 7 1) = 181 / 365 := by decide +kernel
    unfold timeFrom; rw [this]; norm_num
  have t12 : timeFrom (day0 2021 1 1) (day0 2022 1 1) = 1 := by
    have : timeDifference (day0 2021 1 1) (day0 2022 1 1) = 1 := by decide +kernel
    unfold timeFrom; rw [this]; norm_num
  have ets : timeFrom (day0 2021 1 1) irsCoupon.stop - timeFrom (day0 2021 1 1) (day0 2021 7 1) = 184 / 365 := by
    show timeFrom (day0 2021 1 1) (day0 2022 1 1) - _ = _
    rw [t6, t12]
    norm_num
  refine ⟨noteMarket a.blank a.blank, r.npv, a.blank, hg, note_at .checked fxfFixed _ "U" "U" "N" noteTerms rfl note_dates (fun c hc => (hg _ c hc).1) _ h3, rfl, (show (day0 2021 1 1).day < (day0 2022 1 1).day by decide +kernel), rfl, rfl, rfl, rfl,
    ?_, rfl, ?_⟩
  · refine .step (day0 2021 7 1) irsCoupon [] rfl rfl ?_ rfl ?_ ?_ ?_ ?_ .done
    · show addPeriod .checked (day0 2021 7 1) ['6', 'M'] = .ok (day0 2022 1 1)
      decide +kernel
    · show (day0 2021 1 1).day < (day0 2022 1 1).day
      decide +kernel
    · show (day0 2021 1 1).instant ≤ (day0 2021 7 1).instant
      decide +kernel
    · show (1e-6 : ℝ) < timeFrom (day0 2021 1 1) irsCoupon.stop - timeFrom (day0 2021 1 1) (day0 2021 7 1)
      rw [ets]
      norm_num
    · show frac (day0 2021 7 1) (day0 2022 1 1) .actual365Fixed = .ok (timeFrom (day0 2021 1 1) irsCoupon.stop - timeFrom (day0 2021 1 1) (day0 2021 7 1))
      rw [ets]
      exact irs_frac
  · rw [dfOf_eq _ okb, dfOf_eq _ okb]
    show valOf (a.blank.df (timeFrom (day0 2021 1 1) (day0 2021 7 1))) ≠ valOf (a.blank.df (timeFrom (day0 2021 1 1) (day0 2022 1 1)))
    obtain ⟨x, hx, -⟩ := hdf (timeFrom (day0 2021 1 1) (day0 2021 7 1)) (by rw [t6]; norm_num) (by rw [t6]; norm_num)
    obtain ⟨y, hy, -⟩ := hdf (timeFrom (day0 2021 1 1) (day0 2022 1 1)) (by rw [t12]; norm_num) (by rw [t12]; norm_num)
    obtain ⟨ex, ey⟩ := flat_nodes 0.03 a han oka x y hx hy
    have hx' : a.blank.df (timeFrom (day0 2021 1 1) (day0 2021 7 1)) = .ok x := hx
    have hy' : a.blank.df (timeFrom (day0 2021 1 1) (day0 2022 1 1)) = .ok y := hy
    rw [hx', hy']
    show x ≠ y
    rw [ex, ey]
    intro e
    have := Real.exp_injective e
    norm_num at this

end Verif.Props

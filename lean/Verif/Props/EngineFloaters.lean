import Verif.Props.EngineIndex
import Verif.Props.EngineWorth
/-!
# C184: rhos of floating-rate notes
-/
set_option autoImplicit false
namespace Verif.Props
open Verif Verif.QL Verif.Civil

/-! ## Specification -/

/-- In the market `m` the note `b`, discounted on the curve `d`, with coupons from the curve `k` and the fixings `q`, is worth `x` today; every coupon still to come has an amount. -/
def NoteWorth (md : Mode) (f : Fixed) (m : Mkt) (b : Bond) (d k q : String) (x : ℝ) : Prop :=
  ∃ c, m.curves d = some c ∧ x = bondValue md { curve := c, eval := m.w.date } b (m.fixings f (some k) (some q)) m.w.date ∧
    ∀ s ∈ b.schedule, m.w.date.day ≤ s.1.payment.day → ∃ a, b.amount md (m.fixings f (some k) (some q)) m.w.date s = .ok a

/-! ## Notes in the market -/

/-- The pricer of a floating-rate note is made of these names. -/
theorem note_plan (p : MatchParam) (L : Loaded) (an : Bool) (i : Instr) (n : String) (t : Nat) (r : Nat) (j : IndexId) (hk : i.kind = .bond n t r (some j)) (pl : Plan)
    (h : createPricer p L an i = .ok pl) : ∃ d k, pl = .bond d (some k) (some j.name) ∧ p.discountName i = .ok d ∧ p.rateForward j.code = some k := by
  unfold createPricer at h
  rw [hk] at h
  dsimp only at h
  obtain ⟨d, hd, h1⟩ := (bind_ok_iff _ _ _).1 h
  obtain ⟨d', hd', h2⟩ := (bind_ok_iff _ _ _).1 h1
  obtain ⟨fp, hf, h3⟩ := (bind_ok_iff _ _ _).1 h2
  obtain rfl := Except.ok.inj h3
  obtain rfl := need_eq _ _ _ hd'
  unfold indexParts at hf
  dsimp only at hf
  obtain ⟨k, hk1, h4⟩ := (bind_ok_iff _ _ _).1 hf
  obtain ⟨k', hk2, h5⟩ := (bind_ok_iff _ _ _).1 h4
  obtain ⟨z, hz, h6⟩ := (bind_ok_iff _ _ _).1 h5
  obtain rfl := Except.ok.inj h6
  obtain rfl := need_eq _ _ _ hk2
  obtain rfl := need_eq _ _ _ hz
  refine ⟨_, _, rfl, hd, ?_⟩
  unfold MatchParam.rateIndexName at hk1
  rw [hk] at hk1
  exact (orErr_eq _ _).1 hk1

/-- A note with no pricing date of its own, in a market. -/
theorem note_at (md : Mode) (f : Fixed) (m : Mkt) (d k q : String) (b : Bond) (hp : b.pricing = none) (hc : Coherent (Bond.dates b))
    (hg : ∀ c, m.curves d = some c → CurveOk c) (x : ℝ) (h : (Plan.bond d (some k) (some q)).npv md f (.bond b) m = .ok x) : NoteWorth md f m b d k q x := by
  unfold Plan.npv at h
  dsimp only at h
  obtain ⟨P, hP, h1⟩ := (bind_ok_iff _ _ _).1 h
  unfold Mkt.bondPricer at hP
  obtain ⟨c, hcv, hP1⟩ := (bind_ok_iff _ _ _).1 hP
  obtain rfl := Except.ok.inj hP1
  have hcv' := (orErr_eq _ _).1 hcv
  obtain ⟨y, hy, -, e⟩ := C62_npv md _ b x h1 hc
  have hpr : pricedAt b m.w.date = m.w.date := by unfold pricedAt; rw [hp]
  dsimp only at hy e
  rw [hpr] at hy e
  have hy1 : y = 1 := by
    have := (C57_at_date c (hg c hcv') m.w.date m.w.date).2
    unfold Live.df at hy
    rw [this] at hy
    exact (Except.ok.inj hy).symm
  refine ⟨c, hcv', by rw [e, hy1, div_one], ?_⟩
  obtain ⟨fl, s, dd, hm, -⟩ := (bond_npv_iff md _ b x).1 h1
  rw [pricing_eq] at hm
  dsimp only at hm
  rw [hpr] at hm
  unfold Bond.flows at hm
  obtain ⟨m0, hm0, -⟩ := (bind_ok_iff _ _ _).1 hm
  exact ((flowLoop_iff _ _ _ _ _ _).1 hm0).1

/-- **C184** (what the rhos are). The value of a floating-rate note is what its payments are worth; it has rhos to the curve that discounts it and to its index curve, and to no other -
none to "Dummy" - and they are its change of worth when that curve alone goes up. -/
theorem C184_notes (g : EngCfg) (hg : OwnCodes g) (names : List String) (hns : names.Nodup) (ds : List DT) (M : Mkt) (hM : SoundMkt g ds M) (hn : g.conf.npv = true)
    (f : Fixed) (L : Loaded) (an : Bool) (i : Instr) (hi : i ∈ g.insts) (n : String) (t : Nat) (r : Nat) (j : IndexId) (hk : i.kind = .bond n t r (some j)) (pl : Plan) (b : Bond)
    (hp : PricedAs g f L an i pl (.bond b)) (hbp : b.pricing = none) (hco : Coherent (Bond.dates b)) (e' : Eng)
    (h : calculate g names { mkt := M, action := g.insts, results := freshResults g.insts fun _ => none } = .ok e') :
    ∃ y d k v, e'.results i.code = some y ∧ d = (g.p.bondDiscount (n, t, r, i.ccy)).getD "Dummy" ∧ g.p.rateForward j.code = some k ∧ y.npv = some v ∧
      NoteWorth g.md f M b d k j.name v.npv ∧ (∀ k', k' = "Dummy" ∨ (k' ≠ d ∧ k' ≠ k) → NoRho y k') ∧
      ∀ k', k' ≠ "Dummy" → (k' = d ∨ k' = k) → RhosAre g M y k' fun win z => ∃ m up, CurveShifted k' win g.conf.rhoBump M m ∧ NoteWorth g.md f m b d k j.name up ∧
        z = (up - v.npv) / g.conf.rhoBump * 0.0001 * i.notional := by
  obtain ⟨-, hres⟩ := C97_new_engine g hg names hns ds M e' hM h
  obtain ⟨y, hy, ci⟩ := hres i hi
  obtain ⟨d, k, rfl, hd, hkf⟩ := note_plan g.p L an i n t r j hk pl hp.made
  obtain ⟨p, v, fl, c1, c2, -, c4, -⟩ := ci.npv hn
  rw [hp.held] at c1
  obtain rfl := Option.some.inj c1
  have hd' : d = (g.p.bondDiscount (n, t, r, i.ccy)).getD "Dummy" := by
    unfold MatchParam.discountName at hd
    rw [hk] at hd
    exact (Except.ok.inj hd).symm
  have tn : i.typeName ≠ "Stock" ∧ i.typeName ≠ "Cash" := by unfold Instr.typeName; rw [hk]; simp
  have hv : (Plan.bond d (some k) (some j.name)).npv g.md f (.bond b) M = .ok v.npv := by
    have c2' : (Plan.bond d (some k) (some j.name)).result g.md f (.bond b) M = .ok v := c2
    unfold Plan.result at c2'
    dsimp only at c2'
    obtain ⟨P, hP, h1⟩ := (bind_ok_iff _ _ _).1 c2'
    unfold Plan.npv
    dsimp only
    rw [hP, Res.bind_ok]
    exact ((C62_result g.md P b).1 v.npv).2 ⟨v, h1, rfl⟩
  have hu : ∀ k', UsesCurve g.p k' i ↔ k' ≠ "Dummy" ∧ (k' = d ∨ k' = k) := by
    intro k'
    unfold UsesCurve curveRoles
    rw [hk]
    dsimp only
    refine and_congr_right fun hkd => ?_
    rw [hd', hkf]
    have hkd' : k' ≠ "Dummy" := hkd
    cases g.p.bondDiscount (n, t, r, i.ccy) with
    | none => simp [hkd']
    | some z => simp
  refine ⟨y, d, k, v, hy, hd', hkf, c4, note_at g.md f M d k j.name b hbp hco (fun c hc => (hM.curves d c hc).1) v.npv hv, fun k' hkk => no_rho g names ds M _ i y ci k' fun hh => ?_,
    fun k' hkd hkk => ?_⟩
  · have := (hu k').1 hh
    rcases hkk with rfl | ⟨g1, g2⟩
    · exact this.1 rfl
    · tauto
  · refine rho_parts g names ds M _ i y ci tn k' ((hu k').2 ⟨hkd, hkk⟩) _ fun win m z hm hz => ?_
    obtain ⟨v', up, q1, q2, q3, q4⟩ := hz
    rw [c4] at q1
    obtain rfl := Option.some.inj q1
    have hup : (Plan.bond d (some k) (some j.name)).npv g.md f (.bond b) m = .ok up := by
      unfold EngCfg.npv at q2
      rw [hp.held] at q2
      exact q2
    refine ⟨m, up, hm, note_at g.md f m d k j.name b hbp hco (fun c hc => ?_) up hup, Option.some.inj q4⟩
    obtain ⟨c0, cB, m1, m2, m3, m4, m5, rfl⟩ := hm
    change (M.curves.put k' cB) d = some c at hc
    by_cases hdk : d = k'
    · subst hdk
      rw [put_self] at hc
      obtain rfl := Option.some.inj hc
      exact m2
    · rw [put_other _ _ _ _ hdk] at hc
      exact (hM.curves d c hc).1

/-! ## Signs -/

/-- **C184** (the curve that discounts). If the index curve is another one and no coupon to come is negative, no rise of rates of the curve that discounts, all or some, raises the worth. -/
theorem C184_discount (md : Mode) (f : Fixed) (M m : Mkt) (hM : GoodCurves M) (b : Bond) (d k q : String) (hdk : d ≠ k) (win : ℝ → Prop) (β : ℝ) (hβ : 0 ≤ β)
    (hm : CurveShifted d win β M m) (x x' : ℝ) (h : NoteWorth md f M b d k q x) (h' : NoteWorth md f m b d k q x')
    (hpos : ∀ s ∈ b.schedule, M.w.date.day < s.1.payment.day → ∀ a, b.amount md (M.fixings f (some k) (some q)) M.w.date s = .ok a → 0 ≤ a) : x' ≤ x := by
  obtain ⟨c, h1, rfl, hdef⟩ := h
  obtain ⟨c', h1', rfl, hdef'⟩ := h'
  obtain ⟨c0, cB, m1, m2, m3, m4, m5, rfl⟩ := hm
  rw [h1] at m1
  obtain rfl := Option.some.inj m1
  change (M.curves.put d cB) d = some c' at h1'
  rw [put_self] at h1'
  obtain rfl := Option.some.inj h1'
  have hc := (hM d c h1).1
  have hfix : ({ M with curves := M.curves.put d cB } : Mkt).fixings f (some k) (some q) = M.fixings f (some k) (some q) := by
    unfold Mkt.fixings
    simp only [Option.bind_some, put_other _ _ _ _ (Ne.symm hdk)]
  rw [hfix]
  have low : ∀ z, dfOf { curve := cB, eval := M.w.date } z ≤ dfOf { curve := c, eval := M.w.date } z := by
    intro z
    rw [dfOf_eq c hc, dfOf_eq cB m2]
    refine df_lower c cB hc m2 m4 (fun i r r' g1 g2 => ?_) _
    obtain ⟨hi, -⟩ := List.getElem?_eq_some_iff.1 g1
    have := m5 i _ r (List.getElem?_eq_getElem (by rw [← hc.len]; exact hi)) g1
    rw [g2] at this
    rw [Option.some.inj this]
    split <;> linarith
  unfold bondValue
  dsimp only
  refine add_le_add (List.sum_le_sum fun s hs => ?_) ?_
  · by_cases hp : M.w.date.day < s.1.payment.day
    · rw [if_pos hp, if_pos hp]
      obtain ⟨a, ha⟩ := hdef s hs hp.le
      rw [ha]
      exact mul_le_mul_of_nonneg_left (low _) (hpos s hs hp a ha)
    · rw [if_neg hp, if_neg hp]
  · by_cases hs : b.strip = false ∧ M.w.date.day < b.maturity.day
    · rw [if_pos hs, if_pos hs]; exact low _
    · rw [if_neg hs, if_neg hs]

/-- What a floating coupon of a note is computed from -/
noncomputable def noteEnv (b : Bond) (mk : Market) (l : Live) (pricing : DT) (tenor : List Char) : FloatEnv :=
  { fwd := l, close := mk.close.getD fun _ => none, pricing := pricing, tenor := tenor, hol := b.hol, dcc := b.dcc, fixDays := b.fixGap }

/-- **C184** (the index curve). If the note is discounted on another curve, a rise of all rates of the index curve does not lower the worth. -/
theorem C184_index (md : Mode) (f : Fixed) (M m : Mkt) (hM : GoodCurves M) (b : Bond) (d k q : String) (hdk : d ≠ k) (β : ℝ) (hβ : 0 ≤ β)
    (hm : CurveShifted k (fun _ => True) β M m) (x x' : ℝ) (h : NoteWorth md f M b d k q x) (h' : NoteWorth md f m b d k q x')
    (hmild : ∀ tenor l, b.index = some tenor → (M.fixings f (some k) (some q)).fwd = some l → ∀ s ∈ b.schedule, s.2 = none → M.w.date.day < s.1.payment.day →
      CouponMild md (noteEnv b (M.fixings f (some k) (some q)) l M.w.date tenor) b.comp b.spread s.1) : x ≤ x' := by
  obtain ⟨c, h1, rfl, hdef⟩ := h
  obtain ⟨c', h1', rfl, hdef'⟩ := h'
  obtain ⟨c0, cB, m1, m2, m3, m4, m5, rfl⟩ := hm
  change (M.curves.put k cB) d = some c' at h1'
  rw [put_other _ _ _ _ hdk, h1] at h1'
  obtain rfl := Option.some.inj h1'
  have hM0 := (hM k c0 m1).1
  have hup : AllUp c0 cB β := ⟨hM0, m2, m4, fun i r hr => by
    obtain ⟨hi, -⟩ := List.getElem?_eq_some_iff.1 hr
    have := m5 i _ r (List.getElem?_eq_getElem (by rw [← hM0.len]; exact hi)) hr
    rwa [if_pos trivial] at this⟩
  have f1 : M.fixings f (some k) (some q) = ⟨some { curve := c0, eval := M.w.date }, f.past q⟩ := by
    unfold Mkt.fixings
    simp only [Option.bind_some, m1, Option.map_some]
  have f2 : ({ M with curves := M.curves.put k cB } : Mkt).fixings f (some k) (some q) = ⟨some { curve := cB, eval := M.w.date }, f.past q⟩ := by
    unfold Mkt.fixings
    simp only [Option.bind_some, put_self, Option.map_some]
  rw [f1] at hdef hmild ⊢
  rw [f2] at hdef' ⊢
  unfold bondValue
  dsimp only at hdef' ⊢
  refine add_le_add (List.sum_le_sum fun s hs => ?_) (le_refl _)
  by_cases hp : M.w.date.day < s.1.payment.day
  · rw [if_pos hp, if_pos hp]
    have hdf : 0 ≤ dfOf { curve := c, eval := M.w.date } s.1.payment := by
      have hcb := (hM d c h1).1
      rw [dfOf_eq c hcb]
      cases hh : c.df (timeFrom M.w.date s.1.payment) with
      | error e => simp [valOf]
      | ok y => exact (df_positive c hcb _ _ hh).le
    refine mul_le_mul_of_nonneg_right ?_ hdf
    obtain ⟨a, ha⟩ := hdef s hs hp.le
    obtain ⟨a', ha'⟩ := hdef' s hs hp.le
    rw [ha, ha']
    show a ≤ a'
    unfold Bond.amount at ha ha'
    cases hs2 : s.2 with
    | some z =>
      rw [hs2] at ha ha'
      rw [← Except.ok.inj ha, ← Except.ok.inj ha']
    | none =>
      rw [hs2] at ha ha'
      cases hix : b.index with
      | none =>
        rw [hix] at ha ha'
        dsimp only at ha ha'
        rw [ha] at ha'
        exact (Except.ok.inj ha').le
      | some tenor =>
        rw [hix] at ha ha'
        dsimp only at ha ha'
        exact C182_coupon md _ b.comp b.spread s.1 (hmild tenor _ hix rfl s hs hs2 hp) c0 cB M.w.date rfl β hβ hup a a' ha ha'
  · rw [if_neg hp, if_neg hp]

/-- **C184**. The rhos of a floating-rate note discounted on another curve than its index: to the curve that discounts not positive, whole and by tenor, if no coupon to come is
negative; to the index curve not negative. -/
theorem C184_rho (g : EngCfg) (hg : OwnCodes g) (names : List String) (hns : names.Nodup) (ds : List DT) (M : Mkt) (hM : SoundMkt g ds M) (hn : g.conf.npv = true)
    (f : Fixed) (L : Loaded) (an : Bool) (i : Instr) (hi : i ∈ g.insts) (n : String) (t : Nat) (r : Nat) (j : IndexId) (hk : i.kind = .bond n t r (some j)) (pl : Plan) (b : Bond)
    (hp : PricedAs g f L an i pl (.bond b)) (hbp : b.pricing = none) (hco : Coherent (Bond.dates b)) (hN : 0 ≤ i.notional) (hβ : 0 < g.conf.rhoBump)
    (d k : String) (hd : g.p.bondDiscount (n, t, r, i.ccy) = some d) (hkj : g.p.rateForward j.code = some k) (hdk : d ≠ k) (e' : Eng)
    (h : calculate g names { mkt := M, action := g.insts, results := freshResults g.insts fun _ => none } = .ok e') :
    ∃ y, e'.results i.code = some y ∧
      (d ≠ "Dummy" → (∀ s ∈ b.schedule, M.w.date.day < s.1.payment.day → ∀ a, b.amount g.md (M.fixings f (some k) (some j.name)) M.w.date s = .ok a → 0 ≤ a) →
        RhosAre g M y d fun _ z => z ≤ 0) ∧
      (k ≠ "Dummy" → g.conf.rho = true → (∀ tenor l, b.index = some tenor → (M.fixings f (some k) (some j.name)).fwd = some l → ∀ s ∈ b.schedule, s.2 = none →
          M.w.date.day < s.1.payment.day → CouponMild g.md (noteEnv b (M.fixings f (some k) (some j.name)) l M.w.date tenor) b.comp b.spread s.1) →
        ∃ z, y.rho k = some z ∧ 0 ≤ z) := by
  obtain ⟨y, d', k', v, hy, e1, e2, -, w1, -, rh⟩ := C184_notes g hg names hns ds M hM hn f L an i hi n t r j hk pl b hp hbp hco e' h
  rw [hd] at e1
  obtain rfl : d' = d := e1
  rw [hkj] at e2
  obtain rfl := Option.some.inj e2
  refine ⟨y, hy, fun hdd hpos => ?_, fun hkd hr hmild => ?_⟩
  · have low : ∀ win z, (∃ m up, CurveShifted d' win g.conf.rhoBump M m ∧ NoteWorth g.md f m b d' k j.name up ∧ z = (up - v.npv) / g.conf.rhoBump * 0.0001 * i.notional) → z ≤ 0 := by
      rintro win z ⟨m, up, hm, w2, rfl⟩
      have hle := C184_discount g.md f M m hM.curves b d' k j.name hdk win _ hβ.le hm v.npv up w1 w2 hpos
      have h1 : 0 ≤ (v.npv - up) / g.conf.rhoBump * 0.0001 * i.notional := mul_nonneg (mul_nonneg (div_nonneg (by linarith) hβ.le) (by norm_num)) hN
      have h2 : (up - v.npv) / g.conf.rhoBump * 0.0001 * i.notional = -((v.npv - up) / g.conf.rhoBump * 0.0001 * i.notional) := by ring
      linarith
    obtain ⟨r1, r2⟩ := rh d' hdd (Or.inl rfl)
    refine ⟨fun hr => ?_, fun hr => ?_⟩
    · obtain ⟨z, z1, z2⟩ := r1 hr
      exact ⟨z, z1, low _ z z2⟩
    · obtain ⟨dr, l, l1, l2, l3, l4⟩ := r2 hr
      exact ⟨dr, l, l1, l2, l3, fun n z hz => ⟨fun q => low _ z ((l4 n z hz).1 q), (l4 n z hz).2⟩⟩
  · obtain ⟨z, z1, m, up, hm, w2, rfl⟩ := (rh k hkd (Or.inr rfl)).1 hr
    have hle := C184_index g.md f M m hM.curves b d' k j.name hdk _ hβ.le hm v.npv up w1 w2 hmild
    exact ⟨_, z1, mul_nonneg (mul_nonneg (div_nonneg (by linarith) hβ.le) (by norm_num)) hN⟩

end Verif.Props

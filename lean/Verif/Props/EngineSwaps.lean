import Verif.Props.EngineForwards
import Verif.Props.Swap
/-!
# C181: the rhos of swaps
-/
set_option autoImplicit false
namespace Verif.Props
open Verif Verif.QL Verif.Civil

/-! ## Specification -/

/-- The curve a leg in the currency `a` is discounted on: that of the currency, but the one called "Dummy" for an interest rate swap. -/
def LegCurve (p : MatchParam) (t : SwapType) (a : Currency) (n : String) : Prop := (t = .irs ∧ n = dummy) ∨ (t ≠ .irs ∧ p.crs a = some n)

/-- In the market `m` the fixed leg of `s`, discounted on the curve `c`, is worth `A`, and the floating leg, with coupons from the curve `w` and the fixings `q`, discounted on
the curve `u`, is worth `B`; each in its own currency. Every floating coupon to come has an amount. -/
def SwapWorth (md : Mode) (f : Fixed) (m : Mkt) (s : Swap) (c u : String) (w q : Option String) (A B : ℝ) : Prop :=
  ∃ a b, m.curves c = some a ∧ m.curves u = some b ∧
    A = legValue { curve := a, eval := m.w.date } s s.initFixed (s.lastFixed.map fun y => -y) s.fixedLegs (fixedCoupon s) ∧
    B = legValue { curve := b, eval := m.w.date } s (s.initFloat.map fun y => -y) s.lastFloat s.floatLegs (floatCoupon md s (m.fixings f w q) m.w.date) ∧
    ∀ tenor, s.index = some tenor → ∀ x ∈ s.floatLegs, m.w.date.day ≤ x.payment.day →
      ∃ l z, (m.fixings f w q).fwd = some l ∧ (floatEnv s (m.fixings f w q) l m.w.date tenor).amount md s.comp none x = .ok z

/-- Every amount of a leg that is still to come has `P`. -/
def AllLeft (P : ℝ → Prop) (date : DT) (s : Swap) (first last : Option ℝ) (legs : List Coupon) (amount : Coupon → ℝ) : Prop :=
  (date.day < s.eff.day → P (first.getD 0)) ∧ (date.day < s.maturity.day → P (last.getD 0)) ∧ ∀ c ∈ legs, date.day < c.payment.day → P (amount c)

/-! ## The pricer of a swap -/

/-- The pricer of a swap is made of these names. -/
theorem swap_plan (p : MatchParam) (L : Loaded) (an : Bool) (i : Instr) (t : SwapType) (a b : Currency) (x : Option IndexId) (hk : i.kind = .swap t a b x) (pl : Plan)
    (h : createPricer p L an i = .ok pl) : ∃ c u w q, pl = .swap c u w q (if a = b then none else some ⟨b, a⟩) ∧ LegCurve p t a c ∧ LegCurve p t b u ∧
      (x = none → w = none ∧ q = none) ∧ (∀ j, x = some j → w = p.rateForward j.code ∧ w ≠ none ∧ q = some j.name) := by
  unfold createPricer at h
  rw [hk] at h
  dsimp only at h
  have need_ok : ∀ {κ : Type} (f : κ → Bool) (k k' : κ), need f k = .ok k' → k' = k := by
    intro κ f k k' h
    unfold need at h
    split at h
    · exact (Except.ok.inj h).symm
    · cases h
  obtain ⟨c, hc, h1⟩ := (bind_ok_iff _ _ _).1 h
  obtain ⟨c', hc', h2⟩ := (bind_ok_iff _ _ _).1 h1
  obtain ⟨u, hu, h3⟩ := (bind_ok_iff _ _ _).1 h2
  obtain ⟨u', hu', h4⟩ := (bind_ok_iff _ _ _).1 h3
  obtain ⟨z, hz, h5⟩ := (bind_ok_iff _ _ _).1 h4
  obtain ⟨fx, hfx, h6⟩ := (bind_ok_iff _ _ _).1 h5
  obtain rfl := Except.ok.inj h6
  obtain rfl := need_ok _ _ _ hc'
  obtain rfl := need_ok _ _ _ hu'
  have e1 : fx = if a = b then none else some ⟨b, a⟩ := by
    unfold swapFxPart at hfx
    by_cases hab : a = b
    · rw [if_pos hab] at hfx ⊢
      exact (Except.ok.inj hfx).symm
    · rw [if_neg hab] at hfx ⊢
      obtain ⟨y, hy, hfx1⟩ := (bind_ok_iff _ _ _).1 hfx
      obtain rfl := need_ok _ _ _ hy
      exact (Except.ok.inj hfx1).symm
  have e2 : LegCurve p t a c' := by
    unfold MatchParam.crsName at hc
    rw [hk] at hc
    dsimp only at hc
    by_cases ht : t = .irs
    · rw [if_pos ht] at hc; exact Or.inl ⟨ht, (Except.ok.inj hc).symm⟩
    · rw [if_neg ht] at hc; exact Or.inr ⟨ht, (orErr_eq _ _).1 hc⟩
  have e3 : LegCurve p t b u' := by
    unfold MatchParam.floatCrsName at hu
    rw [hk] at hu
    dsimp only at hu
    by_cases ht : t = .irs
    · rw [if_pos ht] at hu; exact Or.inl ⟨ht, (Except.ok.inj hu).symm⟩
    · rw [if_neg ht] at hu; exact Or.inr ⟨ht, (orErr_eq _ _).1 hu⟩
  refine ⟨c', u', z.1, z.2, by rw [e1], e2, e3, fun hx => ?_, fun j hx => ?_⟩
  · subst hx
    obtain rfl := Except.ok.inj hz
    exact ⟨rfl, rfl⟩
  · subst hx
    obtain ⟨n, hn, z1⟩ := (bind_ok_iff _ _ _).1 hz
    obtain ⟨n', hn', z2⟩ := (bind_ok_iff _ _ _).1 z1
    obtain ⟨q, hq, z3⟩ := (bind_ok_iff _ _ _).1 z2
    obtain rfl := need_ok _ _ _ hn'
    obtain rfl := need_ok _ _ _ hq
    obtain rfl := Except.ok.inj z3
    unfold MatchParam.rateIndexName at hn
    rw [hk] at hn
    exact ⟨((orErr_eq _ _).1 hn).symm, Option.some_ne_none _, rfl⟩

/-- A swap in a market. -/
theorem swap_at (md : Mode) (f : Fixed) (m : Mkt) (s : Swap) (hne : s.eff.instant ≠ s.maturity.instant) (hc : Coherent (legDates s s.fixedLegs)) (hc' : Coherent (legDates s s.floatLegs))
    (c u : String) (w q : Option String) (fx : Option FxCode) (v : ℝ) (h : Plan.npv md f (.swap c u w q fx) (.swap s) m = .ok v) :
    ∃ A B, SwapWorth md f m s c u w q A B ∧ v = A + (fx.bind f.fx).getD 1 * B := by
  have h' : (do let x ← m.swapPricer f c u w q fx; x.npv md s) = .ok v := h
  obtain ⟨p, hp, hv⟩ := (bind_ok_iff _ _ _).1 h'
  unfold Mkt.swapPricer at hp
  obtain ⟨a, ha, hp1⟩ := (bind_ok_iff _ _ _).1 hp
  obtain ⟨b, hb, hp2⟩ := (bind_ok_iff _ _ _).1 hp1
  obtain rfl := Except.ok.inj hp2
  obtain ⟨_, n, _, _, ⟨-, hn, -, -⟩, -⟩ := (swap_npv_iff md _ s v).1 hv
  exact ⟨_, _, ⟨a, b, (orErr_eq _ _).1 ha, (orErr_eq _ _).1 hb, rfl, rfl, ((C64_defined md s _ _).2).1 ⟨n, hn⟩⟩, C65_npv md _ s hne hc hc' v hv⟩

theorem swap_worth_unique {md : Mode} {f : Fixed} {m : Mkt} {s : Swap} {c u : String} {w q : Option String} {A B A' B' : ℝ} (h : SwapWorth md f m s c u w q A B)
    (h' : SwapWorth md f m s c u w q A' B') : A' = A ∧ B' = B := by
  obtain ⟨a, b, h1, h2, rfl, rfl, -⟩ := h
  obtain ⟨a', b', h1', h2', rfl, rfl, -⟩ := h'
  rw [h1] at h1'
  rw [h2] at h2'
  obtain rfl := Option.some.inj h1'
  obtain rfl := Option.some.inj h2'
  exact ⟨rfl, rfl⟩

/-- What a bump of a curve leaves alone. -/
theorem swap_worth_shift {md : Mode} {f : Fixed} {M m : Mkt} {s : Swap} {c u : String} {w q : Option String} {A B A' B' : ℝ} (k : String) (win : ℝ → Prop) (β : ℝ)
    (hm : CurveShifted k win β M m) (h : SwapWorth md f M s c u w q A B) (h' : SwapWorth md f m s c u w q A' B') : (k ≠ c → A' = A) ∧ (k ≠ u → w ≠ some k → B' = B) := by
  obtain ⟨a, b, h1, h2, rfl, rfl, -⟩ := h
  obtain ⟨a', b', h1', h2', rfl, rfl, -⟩ := h'
  obtain ⟨c0, cB, m1, m2, m3, m4, m5, rfl⟩ := hm
  change (M.curves.put k cB) c = some a' at h1'
  change (M.curves.put k cB) u = some b' at h2'
  constructor
  · intro hk
    rw [put_other _ _ _ _ (Ne.symm hk), h1] at h1'
    obtain rfl := Option.some.inj h1'
    rfl
  · intro hk hw
    rw [put_other _ _ _ _ (Ne.symm hk), h2] at h2'
    obtain rfl := Option.some.inj h2'
    have : ({ M with curves := M.curves.put k cB } : Mkt).fixings f w q = M.fixings f w q := by
      unfold Mkt.fixings
      cases w with
      | none => rfl
      | some n =>
        show (⟨((M.curves.put k cB) n).map _, _⟩ : Market) = ⟨(M.curves n).map _, _⟩
        rw [put_other _ _ _ _ (fun e => hw (by rw [e]))]
    rw [this]

/-! ## Signs -/

theorem leg_lower (a a' : Curve) (hl : ∀ eval d, dfOf { curve := a', eval := eval } d ≤ dfOf { curve := a, eval := eval } d) (date : DT) (s : Swap) (first last : Option ℝ)
    (legs : List Coupon) (amount : Coupon → ℝ) :
    (AllLeft (fun x => 0 ≤ x) date s first last legs amount →
      legValue { curve := a', eval := date } s first last legs amount ≤ legValue { curve := a, eval := date } s first last legs amount) ∧
    (AllLeft (fun x => x ≤ 0) date s first last legs amount →
      legValue { curve := a, eval := date } s first last legs amount ≤ legValue { curve := a', eval := date } s first last legs amount) := by
  unfold legValue
  dsimp only
  constructor
  · rintro ⟨h1, h2, h3⟩
    refine add_le_add (add_le_add ?_ ?_) (List.sum_le_sum fun c hc => ?_)
    · split
      · rename_i h; exact mul_le_mul_of_nonneg_left (hl _ _) (h1 h)
      · exact le_refl _
    · split
      · rename_i h; exact mul_le_mul_of_nonneg_left (hl _ _) (h2 h)
      · exact le_refl _
    · split
      · rename_i h; exact mul_le_mul_of_nonneg_left (hl _ _) (h3 c hc h)
      · exact le_refl _
  · rintro ⟨h1, h2, h3⟩
    refine add_le_add (add_le_add ?_ ?_) (List.sum_le_sum fun c hc => ?_)
    · split
      · rename_i h; exact mul_le_mul_of_nonpos_left (hl _ _) (h1 h)
      · exact le_refl _
    · split
      · rename_i h; exact mul_le_mul_of_nonpos_left (hl _ _) (h2 h)
      · exact le_refl _
    · split
      · rename_i h; exact mul_le_mul_of_nonpos_left (hl _ _) (h3 c hc h)
      · exact le_refl _

/-- Higher rates, lower discount factors of dates. -/
theorem shift_lower (M m : Mkt) (k : String) (win : ℝ → Prop) (β : ℝ) (hβ : 0 ≤ β) (hM : GoodCurves M) (hm : CurveShifted k win β M m) (a a' : Curve) (h : M.curves k = some a)
    (h' : m.curves k = some a') (eval d : DT) : dfOf { curve := a', eval := eval } d ≤ dfOf { curve := a, eval := eval } d := by
  obtain ⟨c0, cB, m1, m2, m3, m4, m5, rfl⟩ := hm
  rw [h] at m1
  obtain rfl := Option.some.inj m1
  change (M.curves.put k cB) k = some a' at h'
  rw [put_self] at h'
  obtain rfl := Option.some.inj h'
  have hc := (hM k a h).1
  rw [dfOf_eq cB m2, dfOf_eq a hc]
  refine df_lower a cB hc m2 m4 (fun j r r' h1 h2 => ?_) _
  obtain ⟨hj, -⟩ := List.getElem?_eq_some_iff.1 h1
  have := m5 j _ r (List.getElem?_eq_getElem (by rw [← hc.len]; exact hj)) h1
  rw [h2] at this
  rw [Option.some.inj this]
  split <;> linarith

/-- **C181** (legs). When the rates of the curve `k` go up, a fixed leg discounted on it goes down if nothing left of it is negative and up if nothing left of it is positive;
so does a floating leg discounted on it whose coupons do not come from it. -/
theorem C181_legs (md : Mode) (f : Fixed) (M m : Mkt) (hM : GoodCurves M) (s : Swap) (c u : String) (w q : Option String) (A B A' B' : ℝ) (k : String) (win : ℝ → Prop) (β : ℝ) (hβ : 0 ≤ β)
    (hm : CurveShifted k win β M m) (h : SwapWorth md f M s c u w q A B) (h' : SwapWorth md f m s c u w q A' B') :
    (k = c → AllLeft (fun x => 0 ≤ x) M.w.date s s.initFixed (s.lastFixed.map fun y => -y) s.fixedLegs (fixedCoupon s) → A' ≤ A) ∧
    (k = c → AllLeft (fun x => x ≤ 0) M.w.date s s.initFixed (s.lastFixed.map fun y => -y) s.fixedLegs (fixedCoupon s) → A ≤ A') ∧
    (k = u → w ≠ some k → AllLeft (fun x => 0 ≤ x) M.w.date s (s.initFloat.map fun y => -y) s.lastFloat s.floatLegs (floatCoupon md s (M.fixings f w q) M.w.date) → B' ≤ B) ∧
    (k = u → w ≠ some k → AllLeft (fun x => x ≤ 0) M.w.date s (s.initFloat.map fun y => -y) s.lastFloat s.floatLegs (floatCoupon md s (M.fixings f w q) M.w.date) → B ≤ B') := by
  have low := shift_lower M m k win β hβ hM hm
  obtain ⟨a, b, h1, h2, rfl, rfl, -⟩ := h
  obtain ⟨a', b', h1', h2', rfl, rfl, -⟩ := h'
  have hd : m.w.date = M.w.date := by obtain ⟨c0, cB, -, -, -, -, -, rfl⟩ := hm; rfl
  have hf : w ≠ some k → m.fixings f w q = M.fixings f w q := by
    intro hw
    obtain ⟨c0, cB, -, -, -, -, -, rfl⟩ := hm
    unfold Mkt.fixings
    cases w with
    | none => rfl
    | some n =>
      show (⟨((M.curves.put k cB) n).map _, _⟩ : Market) = ⟨(M.curves n).map _, _⟩
      rw [put_other _ _ _ _ (fun e => hw (by rw [e]))]
  rw [hd]
  refine ⟨?_, ?_, ?_, ?_⟩
  · rintro rfl hl
    exact (leg_lower a a' (low a a' h1 h1') _ s _ _ _ _).1 hl
  · rintro rfl hl
    exact (leg_lower a a' (low a a' h1 h1') _ s _ _ _ _).2 hl
  · rintro rfl hw hl
    rw [hf hw]
    exact (leg_lower b b' (low b b' h2 h2') _ s _ _ _ _).1 hl
  · rintro rfl hw hl
    rw [hf hw]
    exact (leg_lower b b' (low b b' h2 h2') _ s _ _ _ _).2 hl

/-! ## The theorems -/

/-- **C181**. The npv of a swap is the worth of its fixed leg plus the exchange rate (1 with one currency) times that of its floating leg. It has rhos to the curves of its legs and to that of
its index, none to others and none to the curve "Dummy"; each is the change of the npv in the bumped market. A bump of a curve that is not the fixed leg's leaves the fixed leg
alone, and one of a curve that is neither the floating leg's nor the index's leaves the floating leg alone. -/
theorem C181_swaps (g : EngCfg) (hg : OwnCodes g) (names : List String) (hns : names.Nodup) (ds : List DT) (M : Mkt) (hM : SoundMkt g ds M) (hn : g.conf.npv = true)
    (f : Fixed) (L : Loaded) (an : Bool) (i : Instr) (hi : i ∈ g.insts) (t : SwapType) (a b : Currency) (x : Option IndexId) (hk : i.kind = .swap t a b x) (pl : Plan) (s : Swap)
    (hne : s.eff.instant ≠ s.maturity.instant) (hc : Coherent (legDates s s.fixedLegs)) (hc' : Coherent (legDates s s.floatLegs))
    (hp : PricedAs g f L an i pl (.swap s)) (e' : Eng)
    (h : calculate g names { mkt := M, action := g.insts, results := freshResults g.insts fun _ => none } = .ok e') :
    ∃ y c u w q v A B, e'.results i.code = some y ∧ LegCurve g.p t a c ∧ LegCurve g.p t b u ∧ (x = none → w = none ∧ q = none) ∧
      (∀ j, x = some j → w = g.p.rateForward j.code ∧ w ≠ none ∧ q = some j.name) ∧
      y.npv = some v ∧ SwapWorth g.md f M s c u w q A B ∧ v.npv = A + (if a = b then 1 else (f.fx ⟨b, a⟩).getD 1) * B ∧
      (∀ k, (k = dummy ∨ (k ≠ c ∧ k ≠ u ∧ w ≠ some k)) → NoRho y k) ∧
      ∀ k, k ≠ dummy → (k = c ∨ k = u ∨ w = some k) → RhosAre g M y k fun win z => ∃ m A' B', CurveShifted k win g.conf.rhoBump M m ∧ SwapWorth g.md f m s c u w q A' B' ∧
        z = ((A' - A) + (if a = b then 1 else (f.fx ⟨b, a⟩).getD 1) * (B' - B)) / g.conf.rhoBump * 0.0001 * i.notional ∧ (k ≠ c → A' = A) ∧ (k ≠ u → w ≠ some k → B' = B) := by
  obtain ⟨-, hres⟩ := C97_new_engine g hg names hns ds M e' hM h
  obtain ⟨y, hy, ci⟩ := hres i hi
  obtain ⟨p, v, fl, c1, c2, -, c4, -⟩ := ci.npv hn
  rw [hp.held] at c1
  obtain rfl := Option.some.inj c1
  have c2' : pl.result g.md f (.swap s) M = .ok v := c2
  obtain ⟨c, u, w, q, rfl, l1, l2, l3, l4⟩ := swap_plan g.p L an i t a b x hk pl hp.made
  have hfx : ((if a = b then none else some (⟨b, a⟩ : FxCode)).bind f.fx).getD 1 = if a = b then 1 else (f.fx ⟨b, a⟩).getD 1 := by
    by_cases hab : a = b
    · rw [if_pos hab, if_pos hab]; rfl
    · rw [if_neg hab, if_neg hab]; rfl
  have at' : ∀ m x', Plan.npv g.md f (.swap c u w q (if a = b then none else some ⟨b, a⟩)) (.swap s) m = .ok x' →
      ∃ A B, SwapWorth g.md f m s c u w q A B ∧ x' = A + (if a = b then 1 else (f.fx ⟨b, a⟩).getD 1) * B := by
    intro m x' hx'
    obtain ⟨A, B, h1, h2⟩ := swap_at g.md f m s hne hc hc' c u w q _ x' hx'
    rw [hfx] at h2
    exact ⟨A, B, h1, h2⟩
  have hv : Plan.npv g.md f (.swap c u w q (if a = b then none else some ⟨b, a⟩)) (.swap s) M = .ok v.npv := by
    have c3 : (do let z ← M.swapPricer f c u w q (if a = b then none else some ⟨b, a⟩); z.result g.md s) = .ok v := c2'
    obtain ⟨z, hz, c5⟩ := (bind_ok_iff _ _ _).1 c3
    show (do let z ← M.swapPricer f c u w q (if a = b then none else some ⟨b, a⟩); z.npv g.md s) = .ok v.npv
    rw [hz, Res.bind_ok]
    exact ((C65_result g.md z s hne hc hc').1 v.npv).2 ⟨v, c5, rfl⟩
  obtain ⟨A, B, w1, w2⟩ := at' M _ hv
  have tn : i.typeName ≠ "Stock" ∧ i.typeName ≠ "Cash" := by
    unfold Instr.typeName
    rw [hk]
    cases t <;> simp [SwapType.asStr]
  have hu : ∀ k, UsesCurve g.p k i ↔ k ≠ dummy ∧ (k = c ∨ k = u ∨ w = some k) := by
    intro k
    unfold UsesCurve curveRoles
    rw [hk]
    dsimp only
    refine and_congr_right fun hkd => ?_
    have m1 : some k ∈ (match x with | some x => [g.p.rateForward x.code, g.p.rateForward x.code] | none => []) ↔ w = some k := by
      cases x with
      | none => simp [(l3 rfl).1]
      | some j => simp [← (l4 j rfl).1, eq_comm]
    have m2 : some k ∈ (if t = .irs then [] else [g.p.crs a, g.p.crs b]) ↔ k = c ∨ k = u := by
      rcases l1 with ⟨t1, rfl⟩ | ⟨t1, e1⟩ <;> rcases l2 with ⟨t2, rfl⟩ | ⟨t2, e2⟩
      · rw [if_pos t1]; simp [hkd]
      · exact absurd t1 t2
      · exact absurd t2 t1
      · rw [if_neg t1, e1, e2]; simp
    refine List.mem_append.trans ((or_congr m1 m2).trans ?_)
    tauto
  refine ⟨y, c, u, w, q, v, A, B, hy, l1, l2, l3, l4, c4, w1, w2, fun k hkk => no_rho g names ds M _ i y ci k fun hh => ?_, fun k hkd hkk => ?_⟩
  · have := (hu k).1 hh
    rcases hkk with rfl | ⟨g1, g2, g3⟩
    · exact this.1 rfl
    · tauto
  · refine rho_parts g names ds M _ i y ci tn k ((hu k).2 ⟨hkd, hkk⟩) _ fun win m z hm hz => ?_
    obtain ⟨v', up, q1, q2, q3, q4⟩ := hz
    rw [c4] at q1
    obtain rfl := Option.some.inj q1
    have hup : Plan.npv g.md f (.swap c u w q (if a = b then none else some ⟨b, a⟩)) (.swap s) m = .ok up := by
      unfold EngCfg.npv at q2
      rw [hp.held] at q2
      exact q2
    obtain ⟨A', B', w3, w4⟩ := at' m _ hup
    obtain ⟨s1, s2⟩ := swap_worth_shift k win _ hm w1 w3
    refine ⟨m, A', B', hm, w3, ?_, s1, s2⟩
    rw [Option.some.inj q4]
    congr 3
    show up - v.npv = _
    rw [w4, w2]
    ring

/-- **C181** (interest rate swaps). All a rho of an interest rate swap shows is the change of its floating coupons: its legs are discounted on the curve "Dummy", which has no rho. Without
an index it has no rho at all. -/
theorem C181_irs (g : EngCfg) (hg : OwnCodes g) (names : List String) (hns : names.Nodup) (ds : List DT) (M : Mkt) (hM : SoundMkt g ds M) (hn : g.conf.npv = true)
    (f : Fixed) (L : Loaded) (an : Bool) (i : Instr) (hi : i ∈ g.insts) (a : Currency) (x : Option IndexId) (hk : i.kind = .swap .irs a a x) (pl : Plan) (s : Swap)
    (hne : s.eff.instant ≠ s.maturity.instant) (hc : Coherent (legDates s s.fixedLegs)) (hc' : Coherent (legDates s s.floatLegs))
    (hp : PricedAs g f L an i pl (.swap s)) (e' : Eng)
    (h : calculate g names { mkt := M, action := g.insts, results := freshResults g.insts fun _ => none } = .ok e') :
    ∃ y d, e'.results i.code = some y ∧ M.curves "Dummy" = some d ∧ (x = none → ∀ k, NoRho y k) ∧
      ∀ j, x = some j → ∃ k, g.p.rateForward j.code = some k ∧ (∀ k', k' ≠ k → NoRho y k') ∧ (k = "Dummy" → NoRho y k) ∧
        (k ≠ "Dummy" → RhosAre g M y k fun win z => ∃ m, CurveShifted k win g.conf.rhoBump M m ∧
          z = (legValue { curve := d, eval := M.w.date } s (s.initFloat.map fun y => -y) s.lastFloat s.floatLegs (floatCoupon g.md s (m.fixings f (some k) (some j.name)) M.w.date)
            - legValue { curve := d, eval := M.w.date } s (s.initFloat.map fun y => -y) s.lastFloat s.floatLegs (floatCoupon g.md s (M.fixings f (some k) (some j.name)) M.w.date))
            / g.conf.rhoBump * 0.0001 * i.notional) := by
  obtain ⟨y, c, u, w, q, v, A, B, hy, l1, l2, l3, l4, -, w1, -, nr, rh⟩ := C181_swaps g hg names hns ds M hM hn f L an i hi .irs a a x hk pl s hne hc hc' hp e' h
  have hcd : c = dummy := by rcases l1 with ⟨-, e⟩ | ⟨e, -⟩; exacts [e, absurd rfl e]
  have hud : u = dummy := by rcases l2 with ⟨-, e⟩ | ⟨e, -⟩; exacts [e, absurd rfl e]
  subst hcd hud
  obtain ⟨d, d', h1, h2, hA, hB, -⟩ := w1
  rw [h1] at h2
  obtain rfl := Option.some.inj h2
  refine ⟨y, d, hy, h1, fun hx k => ?_, fun j hx => ?_⟩
  · by_cases hkd : k = dummy
    · exact nr k (Or.inl hkd)
    · exact nr k (Or.inr ⟨hkd, hkd, by rw [(l3 hx).1]; simp⟩)
  · obtain ⟨e1, e2, e3⟩ := l4 j hx
    obtain ⟨k, hk'⟩ := Option.ne_none_iff_exists'.1 e2
    subst hk' e3
    refine ⟨k, e1.symm, fun k' hkk => ?_, fun hkd => nr k (Or.inl hkd), fun hkd => ?_⟩
    · by_cases hkd : k' = dummy
      · exact nr k' (Or.inl hkd)
      · exact nr k' (Or.inr ⟨hkd, hkd, fun e => hkk (Option.some.inj e).symm⟩)
    · have hR := rh k hkd (Or.inr (Or.inr rfl))
      have conv : ∀ win z, (∃ m A' B', CurveShifted k win g.conf.rhoBump M m ∧ SwapWorth g.md f m s dummy dummy (some k) (some j.name) A' B' ∧
          z = ((A' - A) + (if a = a then 1 else (f.fx ⟨a, a⟩).getD 1) * (B' - B)) / g.conf.rhoBump * 0.0001 * i.notional ∧ (k ≠ dummy → A' = A) ∧ (k ≠ dummy → some k ≠ some k → B' = B)) →
          ∃ m, CurveShifted k win g.conf.rhoBump M m ∧
          z = (legValue { curve := d, eval := M.w.date } s (s.initFloat.map fun y => -y) s.lastFloat s.floatLegs (floatCoupon g.md s (m.fixings f (some k) (some j.name)) M.w.date)
            - legValue { curve := d, eval := M.w.date } s (s.initFloat.map fun y => -y) s.lastFloat s.floatLegs (floatCoupon g.md s (M.fixings f (some k) (some j.name)) M.w.date))
            / g.conf.rhoBump * 0.0001 * i.notional := by
        rintro win z ⟨m, A', B', hm, hw, hz, hA', -⟩
        refine ⟨m, hm, ?_⟩
        rw [hz, hA' hkd, if_pos rfl, sub_self, zero_add, one_mul]
        obtain ⟨a1, b1, g1, g2, -, rfl, -⟩ := hw
        have hdm : m.w.date = M.w.date ∧ m.curves dummy = M.curves dummy := by
          obtain ⟨c0, cB, -, -, -, -, -, rfl⟩ := hm
          exact ⟨rfl, put_other _ _ _ _ (Ne.symm hkd)⟩
        rw [hdm.2] at g2
        have hbd : b1 = d := Option.some.inj (g2.symm.trans h1)
        rw [hdm.1, hbd, hB]
      refine ⟨fun hr => ?_, fun hr => ?_⟩
      · obtain ⟨z, z1, z2⟩ := hR.1 hr
        exact ⟨z, z1, conv _ _ z2⟩
      · obtain ⟨dr, l, d1, d2, d3, d4⟩ := hR.2 hr
        exact ⟨dr, l, d1, d2, d3, fun j' z hz => ⟨fun ht => conv _ _ ((d4 j' z hz).1 ht), (d4 j' z hz).2⟩⟩

/-- **C181** (forwards and spots). A currency forward or spot that pays no negative amounts has no negative rho to the curve of the currency it pays and no positive one to that of the
currency it receives, when these are different curves, the exchange rate is not negative and the notional neither. -/
theorem C181_fx_signs (g : EngCfg) (hg : OwnCodes g) (names : List String) (hns : names.Nodup) (ds : List DT) (M : Mkt) (hM : SoundMkt g ds M) (hn : g.conf.npv = true)
    (f : Fixed) (L : Loaded) (an : Bool) (i : Instr) (hi : i ∈ g.insts) (t : SwapType) (ht : t ≠ .irs) (a b : Currency) (hab : a ≠ b) (hk : i.kind = .swap t a b none) (pl : Plan) (s : Swap)
    (hne : s.eff.instant ≠ s.maturity.instant) (hc : Coherent (legDates s s.fixedLegs)) (hc' : Coherent (legDates s s.floatLegs)) (hs : Bare s) (h0 : NoInitial s)
    (hpos : ∀ z, s.lastFixed = some z ∨ s.lastFloat = some z → 0 ≤ z) (hf : ∀ r, f.fx ⟨b, a⟩ = some r → 0 ≤ r) (hN : 0 ≤ i.notional) (hβ : 0 < g.conf.rhoBump)
    (hp : PricedAs g f L an i pl (.swap s)) (e' : Eng)
    (h : calculate g names { mkt := M, action := g.insts, results := freshResults g.insts fun _ => none } = .ok e') :
    ∃ y c u, e'.results i.code = some y ∧ g.p.crs a = some c ∧ g.p.crs b = some u ∧
      (c ≠ u → c ≠ "Dummy" → RhosAre g M y c fun _ z => 0 ≤ z) ∧ (c ≠ u → u ≠ "Dummy" → RhosAre g M y u fun _ z => z ≤ 0) := by
  obtain ⟨y, c, u, w, q, v, A, B, hy, l1, l2, l3, l4, -, w1, -, nr, rh⟩ := C181_swaps g hg names hns ds M hM hn f L an i hi t a b none hk pl s hne hc hc' hp e' h
  have hcc : g.p.crs a = some c := by rcases l1 with ⟨e, -⟩ | ⟨-, e⟩; exacts [absurd e ht, e]
  have huu : g.p.crs b = some u := by rcases l2 with ⟨e, -⟩ | ⟨-, e⟩; exacts [absurd e ht, e]
  obtain ⟨rfl, rfl⟩ := l3 rfl
  have hr : 0 ≤ (if a = b then 1 else (f.fx ⟨b, a⟩).getD 1) := by
    rw [if_neg hab]
    cases hh : f.fx ⟨b, a⟩ with
    | none => simp
    | some r => exact hf r hh
  have left1 : AllLeft (fun x => x ≤ 0) M.w.date s s.initFixed (s.lastFixed.map fun y => -y) s.fixedLegs (fixedCoupon s) := by
    refine ⟨fun _ => by rw [h0.1]; simp, fun _ => ?_, by rw [hs.2.2.1]; simp⟩
    cases hh : s.lastFixed with
    | none => simp
    | some z => have := hpos z (Or.inl hh); simpa using this
  have left2 : AllLeft (fun x => 0 ≤ x) M.w.date s (s.initFloat.map fun y => -y) s.lastFloat s.floatLegs (floatCoupon g.md s (M.fixings f none none) M.w.date) := by
    refine ⟨fun _ => by rw [h0.2]; simp, fun _ => ?_, by rw [hs.2.2.2]; simp⟩
    cases hh : s.lastFloat with
    | none => simp
    | some z => exact hpos z (Or.inr hh)
  have impl : ∀ (k : String) (P Q : (ℝ → Prop) → ℝ → Prop), (∀ win z, P win z → Q win z) → RhosAre g M y k P → RhosAre g M y k Q := by
    rintro k P Q hPQ ⟨r1, r2⟩
    refine ⟨fun hr => ?_, fun hr => ?_⟩
    · obtain ⟨z, z1, z2⟩ := r1 hr
      exact ⟨z, z1, hPQ _ _ z2⟩
    · obtain ⟨dr, l, d1, d2, d3, d4⟩ := r2 hr
      exact ⟨dr, l, d1, d2, d3, fun j' z hz => ⟨fun ht => hPQ _ _ ((d4 j' z hz).1 ht), (d4 j' z hz).2⟩⟩
  refine ⟨y, c, u, hy, hcc, huu, fun hcu hcd => ?_, fun hcu hud => ?_⟩
  · refine impl c _ _ ?_ (rh c hcd (Or.inl rfl))
    rintro win z ⟨m, A', B', hm, w3, rfl, -, s2⟩
    have hA : A ≤ A' := (C181_legs g.md f M m hM.curves s c u none none A B A' B' c win _ hβ.le hm w1 w3).2.1 rfl left1
    rw [s2 hcu (by simp), sub_self, mul_zero, add_zero]
    exact mul_nonneg (mul_nonneg (div_nonneg (by linarith) hβ.le) (by norm_num)) hN
  · refine impl u _ _ ?_ (rh u hud (Or.inr (Or.inl rfl)))
    rintro win z ⟨m, A', B', hm, w3, rfl, s1, -⟩
    have hB : B' ≤ B := (C181_legs g.md f M m hM.curves s c u none none A B A' B' u win _ hβ.le hm w1 w3).2.2.1 rfl (by simp) left2
    rw [s1 (Ne.symm hcu), sub_self, zero_add]
    exact mul_nonpos_of_nonpos_of_nonneg (mul_nonpos_of_nonpos_of_nonneg (div_nonpos_of_nonpos_of_nonneg (mul_nonpos_of_nonneg_of_nonpos hr (by linarith)) hβ.le) (by norm_num)) hN

/-! ## A concrete engine -/

/-- A currency forward: 1100 won against a dollar -/
def swpInstr : Instr := ⟨"X", .swap .fxForward .krw .usd none, .krw, 100, day0 2022 7 1, 0⟩

noncomputable def swpTerms : Swap where
  fixedLegs := []
  floatLegs := []
  fixedRate := none
  index := none
  comp := none
  hol := fun _ => .ok false
  notional := 100
  issue := day0 2021 1 1
  eff := day0 2021 1 1
  maturity := day0 2022 7 1
  fixedCcy := 0
  floatCcy := 1
  initFixed := none
  initFloat := none
  lastFixed := some 1100
  lastFloat := some 1
  fixedDcc := .actual365Fixed
  floatDcc := .actual365Fixed
  fixGap := 0

noncomputable def swpEngine : EngCfg where
  md := .checked
  pricers := fun c => if c = "X" then some (Plan.pricer .checked fxfFixed (.swap swpTerms) (.swap "K" "U" none none (some ⟨.usd, .krw⟩))) else none
  p := fxfEngine.p
  conf := fxfEngine.conf
  insts := [swpInstr]

theorem swp_dates : swpTerms.eff.instant ≠ swpTerms.maturity.instant ∧ Coherent (legDates swpTerms swpTerms.fixedLegs) ∧ Coherent (legDates swpTerms swpTerms.floatLegs) ∧
    IsKind swpTerms .fxForward := by
  have h1 : (day0 2021 1 1).instant ≠ (day0 2022 7 1).instant := by decide +kernel
  have hc : Coherent [day0 2021 1 1, day0 2022 7 1] := by
    intro d hd d' hd' e
    simp only [List.mem_cons, List.not_mem_nil, or_false] at hd hd'
    rcases hd with rfl | rfl <;> rcases hd' with rfl | rfl
    · rfl
    · exact absurd e h1
    · exact absurd e.symm h1
    · rfl
  refine ⟨h1, hc, hc, ?_⟩
  have : (day0 2021 1 1).day + 2 < (day0 2022 7 1).day := by decide +kernel
  simp [IsKind, NoInitial, Final, Bare, swpTerms]
  omega

theorem swp_price (m : Mkt) (h : FxfCurves m) : ∃ r fl ex, Plan.result .checked fxfFixed (.swap "K" "U" none none (some ⟨.usd, .krw⟩)) (.swap swpTerms) m = .ok r ∧ r.expected = .ok fl ∧
    Plan.npv .checked fxfFixed (.swap "K" "U" none none (some ⟨.usd, .krw⟩)) (.swap swpTerms) m = .ok r.npv ∧
    Plan.exposure .checked fxfFixed (.swap "K" "U" none none (some ⟨.usd, .krw⟩)) (.swap swpTerms) swpInstr m r.npv = .ok ex := by
  obtain ⟨a, a1, a2, ta, a3, a4⟩ := h.a
  obtain ⟨b, b1, b2, tb, b3, b4⟩ := h.b
  obtain ⟨hne, hc, hc', -⟩ := swp_dates
  have ht : ((0 : ℚ) ≤ timeDifference m.w.date (day0 2022 7 1) ∧ timeDifference m.w.date (day0 2022 7 1) < 99) ∧ m.w.date.day ≤ (day0 2022 7 1).day := by
    rcases h.date with e | e <;> rw [e] <;> decide +kernel
  have one : ∀ (c : Curve), CurveOk c → (∃ tl, c.times[c.times.length - 1]? = some tl ∧ 99 ≤ tl) → ∃ y, Live.df { curve := c, eval := m.w.date } (day0 2022 7 1) = .ok y := by
    rintro c ok ⟨tl, htl, h99⟩
    obtain ⟨-, -, hdf, -⟩ := C57_range c ok tl htl
    obtain ⟨y, hy, -⟩ := hdf (timeFrom m.w.date (day0 2022 7 1)) (by unfold timeFrom; exact_mod_cast ht.1.1) (lt_of_lt_of_le (by unfold timeFrom; exact_mod_cast ht.1.2) h99)
    refine ⟨y, ?_⟩
    unfold Live.df
    rw [(C57_at_date c ok _ _).1]
    exact hy
  obtain ⟨x, hx⟩ := one a a2 ⟨ta, a3, a4⟩
  obtain ⟨y, hy⟩ := one b b2 ⟨tb, b3, b4⟩
  have hP : m.swapPricer fxfFixed "K" "U" none none (some ⟨.usd, .krw⟩) = .ok { eval := m.w.date, fixedCurve := b, floatCurve := a, mkt := m.fixings fxfFixed none none, fx := some 1100 } := by
    unfold Mkt.swapPricer
    rw [a1, b1]
    rfl
  have f1 : swpTerms.fixedFlows m.w.date = .ok [(day0 2022 7 1, -1100)] := by
    show Except.ok (swpTerms.fixedPrincipal m.w.date) = _
    rw [fixedPrincipal_eq]
    show Except.ok (if (day0 2022 7 1).day ≥ m.w.date.day then putAt (day0 2022 7 1) (-1100) [] else []) = _
    rw [if_pos ht.2]
    rfl
  have f2 : swpTerms.floatFlows .checked (m.fixings fxfFixed none none) m.w.date = .ok [(day0 2022 7 1, 1)] := by
    show Except.ok (swpTerms.floatPrincipal m.w.date) = _
    rw [floatPrincipal_eq]
    show Except.ok (if (day0 2022 7 1).day ≥ m.w.date.day then putAt (day0 2022 7 1) 1 [] else []) = _
    rw [if_pos ht.2]
    rfl
  obtain ⟨p, hp⟩ : ∃ p : SwapPricer, p = { eval := m.w.date, fixedCurve := b, floatCurve := a, mkt := m.fixings fxfFixed none none, fx := some 1100 } := ⟨_, rfl⟩
  rw [← hp] at hP
  have hparts : ∃ u v, SwapParts .checked p swpTerms [(day0 2022 7 1, -1100)] [(day0 2022 7 1, 1)] u v := by
    subst hp
    refine ⟨_, _, f1, f2, (discounted_iff _ _ _ _ _).2 ⟨fun z hz _ => ?_, rfl⟩, (discounted_iff _ _ _ _ _).2 ⟨fun z hz _ => ?_, rfl⟩⟩
    · rw [List.mem_singleton.1 hz]; exact ⟨y, hy⟩
    · rw [List.mem_singleton.1 hz]; exact ⟨x, hx⟩
  obtain ⟨u, v, hparts⟩ := hparts
  have hn := (swap_npv_iff .checked p swpTerms _).2 ⟨_, _, u, v, hparts, rfl⟩
  have hr := (swap_result_iff .checked p swpTerms _).2 ⟨_, _, u, v, hparts, rfl⟩
  obtain ⟨e, he⟩ := (C65_exposure .checked p swpTerms hne hc hc').1.1 ⟨_, hn⟩
  obtain ⟨r, hr', hrn, fl, hfl⟩ : ∃ r, p.result .checked swpTerms = .ok r ∧ p.npv .checked swpTerms = .ok r.npv ∧ ∃ fl, r.expected = .ok fl :=
    ⟨_, hr, hn, _, expected_fold _ _ (fun z hz => List.mem_map.2 ⟨z, hz, rfl⟩) _⟩
  refine ⟨r, fl, e, ?_, hfl, ?_, ?_⟩
  rotate_left
  · show (do let z ← m.swapPricer fxfFixed "K" "U" none none (some ⟨.usd, .krw⟩); z.npv .checked swpTerms) = _
    rw [hP, Res.bind_ok]
    exact hrn
  · show (do let z ← m.swapPricer fxfFixed "K" "U" none none (some ⟨.usd, .krw⟩); z.exposure .checked swpTerms) = _
    rw [hP, Res.bind_ok]
    exact he
  · show (do let z ← m.swapPricer fxfFixed "K" "U" none none (some ⟨.usd, .krw⟩); z.result .checked swpTerms) = _
    rw [hP, Res.bind_ok]
    exact hr'

/-- All hypotheses of `C181_swaps` and `C181_fx_signs` are met by this engine, with two different curves. -/
theorem swaps_witness : (∃ M, OwnCodes swpEngine ∧ SoundMkt swpEngine [day0 2021 7 1, day0 2022 1 1, day0 2023 1 1] M ∧
    PricedAs swpEngine fxfFixed { twinLoaded with fxs := fun _ => true, curves := fun _ => true } true swpInstr (.swap "K" "U" none none (some ⟨.usd, .krw⟩)) (.swap swpTerms) ∧
    swpInstr ∈ swpEngine.insts ∧ swpEngine.conf.npv = true ∧ swpEngine.conf.rho = true ∧ swpEngine.conf.rhoS = true ∧ 0 < swpEngine.conf.rhoBump ∧
    ∃ e', calculate swpEngine [] { mkt := M, action := swpEngine.insts, results := freshResults swpEngine.insts fun _ => none } = .ok e') ∧
    (swpTerms.eff.instant ≠ swpTerms.maturity.instant ∧ Coherent (legDates swpTerms swpTerms.fixedLegs) ∧ Coherent (legDates swpTerms swpTerms.floatLegs) ∧ IsKind swpTerms .fxForward) ∧
    Bare swpTerms ∧ NoInitial swpTerms ∧ (∀ z, swpTerms.lastFixed = some z ∨ swpTerms.lastFloat = some z → 0 ≤ z) ∧ swpEngine.p.crs .krw = some "K" ∧ swpEngine.p.crs .usd = some "U" := by
  refine ⟨?_, swp_dates, ⟨rfl, rfl, rfl, rfl⟩, ⟨rfl, rfl⟩, ?_, rfl, rfl⟩
  rotate_left
  · rintro z (h | h)
    · rw [← Option.some.inj h]; norm_num
    · rw [← Option.some.inj h]; norm_num
  obtain ⟨a, han, oka, ⟨ta, hta, hta'⟩, -⟩ := sample_curve 0.03
  obtain ⟨b, hbn, okb, ⟨tb, htb, htb'⟩, -⟩ := sample_curve 0.01
  have hcs : ∀ n c', (fxfMarket a.blank b.blank).curves n = some c' → (n = "U" ∧ c' = a.blank) ∨ (n = "K" ∧ c' = b.blank) := by
    intro n c' h
    change (if n = "U" then some a.blank else if n = "K" then some b.blank else none) = some c' at h
    by_cases h1 : n = "U"
    · rw [if_pos h1] at h; exact Or.inl ⟨h1, (Option.some.inj h).symm⟩
    · rw [if_neg h1] at h
      by_cases h2 : n = "K"
      · rw [if_pos h2] at h; exact Or.inr ⟨h2, (Option.some.inj h).symm⟩
      · rw [if_neg h2] at h; cases h
  have hM : SoundMkt swpEngine [day0 2021 7 1, day0 2022 1 1, day0 2023 1 1] (fxfMarket a.blank b.blank) := by
    refine ⟨?_, ?_, ?_, ⟨?_, ?_, ?_, ?_⟩, ?_, ?_⟩
    · intro n c' h
      rcases hcs n c' h with ⟨-, rfl⟩ | ⟨-, rfl⟩
      · exact ⟨curveOk_blank a oka, rfl, sample_times _ a han⟩
      · exact ⟨curveOk_blank b okb, rfl, sample_times _ b hbn⟩
    · intro u v h; cases h
    · intro u k h; cases h
    · intro p hp; cases hp
    · intro p hp; cases hp
    · intro p hp; cases hp
    · intro p hp; cases hp
    · show calcDates .checked (day0 2021 1 1) [['6', 'M'], ['1', 'Y'], ['2', 'Y']] = _
      decide +kernel
    · intro u s h; cases h
  have hg : OwnCodes swpEngine := by
    show ([_].map Instr.code).Nodup
    simp
  have hroles : ∀ i ∈ swpEngine.insts, curveRoles swpEngine.p i = [some "K", some "U"] ∧ i.unds = [] ∧ i.maturity = some (day0 2022 7 1) := by
    intro i hi
    have hi' : i ∈ [swpInstr] := hi
    rw [List.mem_singleton] at hi'
    subst hi'
    exact ⟨rfl, rfl, rfl⟩
  have hr : calcDates .checked (day0 2021 1 1) [['1', 'Y'], ['3', 'Y']] = .ok [day0 2022 1 1, day0 2024 1 1] := by decide +kernel
  have t1 : timeFrom (day0 2021 1 1) (day0 2022 1 1) = 1 := by
    have : timeDifference (day0 2021 1 1) (day0 2022 1 1) = 1 := by decide +kernel
    unfold timeFrom; rw [this]; norm_num
  have t3 : timeFrom (day0 2021 1 1) (day0 2024 1 1) = 400769 / 133590 := by
    have : timeDifference (day0 2021 1 1) (day0 2024 1 1) = 400769 / 133590 := by decide +kernel
    unfold timeFrom; rw [this]; norm_num
  have hb : (day0 2021 1 1).addNs (1 * dayNs) = .ok (day0 2021 1 2) := by decide +kernel
  have hlate : (day0 2021 1 2).instant < (day0 2022 7 1).instant := by decide +kernel
  have hsd : (fxfMarket a.blank b.blank).w.setDate (day0 2021 1 2) = .ok { date := day0 2021 1 2, prices := [], divs := [] } := rfl
  have hC : Complete swpEngine [] (fxfMarket a.blank b.blank) := by
    refine ⟨?_, ?_, ?_, ?_, ?_, ?_, ?_, ?_, ?_, ?_⟩
    · intro i hi u hu; rw [(hroles i hi).2.1] at hu; cases hu
    · intro i hi; unfold CurvesNamed; rw [(hroles i hi).1]; simp
    · rintro i hi n ⟨-, hn⟩
      rw [(hroles i hi).1] at hn
      simp at hn
      rcases hn with hn | hn
      · rw [hn]; exact ⟨b.blank, rfl⟩
      · rw [hn]; exact ⟨a.blank, rfl⟩
    · intro i hi _ u hu; rw [(hroles i hi).2.1] at hu; cases hu
    · intro i hi _ u hu; rw [(hroles i hi).2.1] at hu; cases hu
    · intro u hu; cases hu
    · refine ⟨?_, ?_, ?_, ?_, ?_⟩ <;> simp [swpEngine, fxfEngine, demoConf] <;> norm_num
    · refine ⟨_, hr, fun k hk => ?_⟩
      show (startOf [timeFrom (day0 2021 1 1) (day0 2022 1 1), timeFrom (day0 2021 1 1) (day0 2024 1 1)] k).getD (-99999999)
        ≤ ([timeFrom (day0 2021 1 1) (day0 2022 1 1), timeFrom (day0 2021 1 1) (day0 2024 1 1)][k]?).getD 99999999
      rw [t1, t3]
      have hk : k < 2 := hk
      interval_cases k
      · simp [startOf]; norm_num
      · simp [startOf]; norm_num
    · refine ⟨_, hr, fun k hk => ?_⟩
      have hk : k < 2 := hk
      unfold WindowOk
      interval_cases k <;> decide +kernel
    · refine ⟨day0 2021 1 2, hb, fun i hi ht d hd => ?_⟩
      have hde : d = day0 2021 1 2 := by
        rcases hd with ⟨-, rfl⟩ | ⟨⟨m, hm, hle⟩, -⟩
        · rfl
        · rw [(hroles i hi).2.2] at hm
          obtain rfl := Option.some.inj hm
          omega
      subst hde
      refine ⟨⟨_, hsd⟩, ?_⟩
      have : timeDifference (day0 2021 1 1) (day0 2021 1 2) = 1 / 365 := by decide +kernel
      show ((timeDifference (day0 2021 1 1) (day0 2021 1 2) : ℚ) : ℝ) ≠ 0
      rw [this]
      norm_num
  have ubase : FxfCurves (fxfMarket a.blank b.blank) := ⟨⟨a.blank, rfl, curveOk_blank a oka, ta, hta, hta'⟩, ⟨b.blank, rfl, curveOk_blank b okb, tb, htb, htb'⟩, Or.inl rfl⟩
  have hR : Visits swpEngine [day0 2021 7 1, day0 2022 1 1, day0 2023 1 1] (fxfMarket a.blank b.blank) FxfCurves := by
    refine ⟨ubase, ?_, ?_, ?_, ?_, ?_, ?_⟩
    · rintro u k m hk ⟨j, p, hj, -⟩; cases hj
    · rintro n win m ⟨c0, c1, h0, h1, -, h3, -, rfl⟩
      rcases hcs _ _ h0 with ⟨rfl, rfl⟩ | ⟨rfl, rfl⟩
      · refine ⟨⟨c1, by show ((fxfMarket a.blank b.blank).curves.put "U" c1) "U" = _; exact put_self _ _ _, h1, ta, ?_, hta'⟩,
          ⟨b.blank, by show ((fxfMarket a.blank b.blank).curves.put "U" c1) "K" = _; rw [put_other _ _ _ _ (by decide)]; rfl, curveOk_blank b okb, tb, htb, htb'⟩, ubase.date⟩
        rw [h3]
        exact hta
      · refine ⟨⟨a.blank, by show ((fxfMarket a.blank b.blank).curves.put "K" c1) "U" = _; rw [put_other _ _ _ _ (by decide)]; rfl, curveOk_blank a oka, ta, hta, hta'⟩,
          ⟨c1, by show ((fxfMarket a.blank b.blank).curves.put "K" c1) "K" = _; exact put_self _ _ _, h1, tb, ?_, htb'⟩, ubase.date⟩
        rw [h3]
        exact htb
    · rintro u win b m - ⟨s0, s1, env, h0, -⟩; cases h0
    · rintro u win m ⟨k, w, w', f, h0, -⟩; cases h0
    · rintro b' i d w hb' hi - hd hw
      have hbe : b' = day0 2021 1 2 := Except.ok.inj (hb'.symm.trans hb)
      subst hbe
      have hde : d = day0 2021 1 2 := by
        rcases hd with ⟨-, rfl⟩ | ⟨⟨m, hm, hle⟩, -⟩
        · rfl
        · rw [(hroles i hi).2.2] at hm
          obtain rfl := Option.some.inj hm
          omega
      subst hde
      rw [hsd] at hw
      obtain rfl := Except.ok.inj hw
      exact ⟨ubase.a, ubase.b, Or.inr rfl⟩
    · rintro m ⟨h1, -, -, -⟩
      rw [h1]
      exact ⟨ubase.a, ubase.b, ubase.date⟩
  have hP : CanPriceIn swpEngine (fxfMarket a.blank b.blank) FxfCurves := by
    intro i hi
    have hi' : i ∈ [swpInstr] := hi
    rw [List.mem_singleton] at hi'
    subst hi'
    obtain ⟨r, fl, ex, x1, x2, x3, x4⟩ := swp_price _ ubase
    refine ⟨_, r, fl, rfl, fun m hm => ?_, x1, x2, ex, x4⟩
    obtain ⟨r', -, -, -, -, x3', -⟩ := swp_price m hm
    exact ⟨_, x3'⟩
  exact ⟨fxfMarket a.blank b.blank, hg, hM, ⟨rfl, rfl⟩, List.mem_singleton.2 rfl, rfl, rfl, rfl, by show (0 : ℝ) < 0.0001; norm_num,
    C97_succeeds_in swpEngine hg [] List.nodup_nil _ _ hM hC FxfCurves hR hP rfl⟩

end Verif.Props

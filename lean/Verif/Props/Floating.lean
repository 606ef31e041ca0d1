import Verif.Props.Swap
/-!
# C66: the amount of a floating coupon

`v` holds what the amount is made from: the forward curve, the past fixings by day, the pricing date, the tenor of the
index, the holidays, the day counter and the fixing gap.
-/
set_option autoImplicit false
set_option linter.unusedSectionVars false
namespace Verif.Props
open Verif Verif.QL Verif.Civil

/-- Specification: the rate of an index for a fixing date: the published fixing if the date is before the pricing date;
the curve's rate from the evaluation date to the end of the index period if it was not published; the forward rate over
the index period for later dates. -/
def RateIs (md : Mode) (v : FloatEnv) (fixing : DT) (r : ℝ) : Prop :=
  ∃ stop, addPeriod md fixing v.tenor = .ok stop ∧
    (v.pricing.instant ≤ fixing.instant → v.fwd.fwd fixing stop = .ok r) ∧
    (fixing.instant < v.pricing.instant → (∀ x, v.close fixing.day = some x → r = x) ∧
      (v.close fixing.day = none → v.fwd.spot stop = .ok r))

theorem rate_iff (md : Mode) (v : FloatEnv) (fixing : DT) (r : ℝ) : v.rate md fixing = .ok r ↔ RateIs md v fixing r := by
  unfold FloatEnv.rate RateIs
  rw [bind_ok_iff]
  refine exists_congr fun stop => and_congr_right fun _ => ?_
  by_cases h : fixing.instant < v.pricing.instant
  · rw [if_pos h]
    cases hc : v.close fixing.day with
    | some x =>
      simp only [Except.ok.injEq, Option.some.injEq, forall_eq', reduceCtorEq, false_implies, and_true]
      constructor
      · rintro rfl; exact ⟨fun q => absurd q (by omega), fun _ => rfl⟩
      · intro q; exact (q.2 h).symm
    | none =>
      simp only [reduceCtorEq, false_implies, implies_true, true_and, true_implies]
      constructor
      · intro e; exact ⟨fun q => absurd q (by omega), fun _ => e⟩
      · intro q; exact q.2 h
  · rw [if_neg h]
    constructor
    · intro e; exact ⟨fun _ => e, fun q => absurd q h⟩
    · intro q; exact q.1 (by omega)

/-- **C66** (simple). Without compounding a coupon pays (rate + spread) times the year fraction of its period. -/
theorem C66_simple (md : Mode) (v : FloatEnv) (spread : Option ℝ) (c : Coupon) (x : ℝ) :
    v.amount md none spread c = .ok x ↔
      ∃ r f, RateIs md v c.fixing r ∧ frac c.start c.stop v.dcc = .ok f ∧ x = (r + spread.getD 0) * f := by
  unfold FloatEnv.amount
  simp only [bind_ok_iff, rate_iff]
  constructor
  · rintro ⟨r, hr, f, hf, e⟩; exact ⟨r, f, hr, hf, (Except.ok.inj e).symm⟩
  · rintro ⟨r, f, hr, hf, e⟩; exact ⟨r, hr, f, hf, by rw [e]⟩

/-- **C66** (known fixings). A fixing that is past and published decides the coupon: no curve matters, and it changes by
the year fraction per unit of rate. -/
theorem C66_known (md : Mode) (v : FloatEnv) (spread : Option ℝ) (c : Coupon) (r : ℝ) (stop : DT) (f : ℝ)
    (hs : addPeriod md c.fixing v.tenor = .ok stop) (hlt : c.fixing.instant < v.pricing.instant)
    (hc : v.close c.fixing.day = some r) (hf : frac c.start c.stop v.dcc = .ok f) :
    ∀ l : Live, ({ v with fwd := l } : FloatEnv).amount md none spread c = .ok ((r + spread.getD 0) * f) := by
  intro l
  rw [C66_simple]
  refine ⟨r, f, ⟨stop, hs, fun q => ?_, fun _ => ⟨fun x hx => ?_, fun q => ?_⟩⟩, hf, rfl⟩
  · simp only at q; omega
  · simp only at hx; rw [hc] at hx; exact Option.some.inj hx
  · simp only at q; rw [hc] at q; cases q

/-- **C66** (future compounding). A compounding coupon whose fixing is not before the pricing date is not compounded: it
pays the average of the forward rates at its first and its last fixing, plus the spread, times the year fraction. -/
theorem C66_future (md : Mode) (v : FloatEnv) (comp : List Char) (spread : Option ℝ) (c : Coupon) (x : ℝ)
    (hge : v.pricing.instant ≤ c.fixing.instant) :
    v.amount md (some comp) spread c = .ok x ↔ ∃ e1 r1 last e2 r2 f, addPeriod md c.fixing v.tenor = .ok e1 ∧
      v.fwd.fwd c.fixing e1 = .ok r1 ∧ c.stop.addDays (-v.fixDays) = .ok last ∧ addPeriod md last v.tenor = .ok e2 ∧
      v.fwd.fwd last e2 = .ok r2 ∧ frac c.start c.stop v.dcc = .ok f ∧ x = ((r1 + r2) / 2 + spread.getD 0) * f := by
  unfold FloatEnv.amount
  simp only [ge_iff_le, if_pos hge, bind_ok_iff]
  constructor
  · rintro ⟨e1, h1, r1, h2, l, h3, e2, h4, r2, h5, f, h6, e⟩
    exact ⟨e1, r1, l, e2, r2, f, h1, h2, h3, h4, h5, h6, (Except.ok.inj e).symm⟩
  · rintro ⟨e1, r1, l, e2, r2, f, h1, h2, h3, h4, h5, h6, e⟩
    exact ⟨e1, h1, r1, h2, l, h3, e2, h4, r2, h5, f, h6, by rw [e]⟩

/-- Specification: `ps` are the compounding periods from `start` to `stop`: each starts where the one before ended and ends
one compounding tenor later, the last one at `stop` at the latest. -/
inductive Tiled (md : Mode) (comp : List Char) (stop : DT) : DT → List (DT × DT) → Prop
  | done (start : DT) : stop.instant ≤ start.instant → Tiled md comp stop start []
  | step (start nx fin : DT) (rest : List (DT × DT)) : start.instant < stop.instant → addPeriod md start comp = .ok nx →
      (fin = if nx.instant < stop.instant then nx else stop) → start.instant < fin.instant → Tiled md comp stop fin rest →
      Tiled md comp stop start ((start, fin) :: rest)

/-- Specification: the rate of a compounding period: fixed on the last business day not after its start less the fixing
gap; published, or the spot rate if it should be published and is not, or the forward rate over the index period. -/
def SubRateIs (md : Mode) (v : FloatEnv) (spot : ℝ) (start : DT) (r : ℝ) : Prop :=
  ∃ x fixing, start.addDays (-v.fixDays) = .ok x ∧ adjust v.hol x .preceding = .ok fixing ∧
    (fixing.instant < v.pricing.instant → r = (v.close fixing.day).getD spot) ∧
    (v.pricing.instant ≤ fixing.instant → ∃ e, addPeriod md fixing v.tenor = .ok e ∧ v.fwd.fwd fixing e = .ok r)

theorem subRate_iff (md : Mode) (v : FloatEnv) (spot : ℝ) (fixing : DT) (r : ℝ) :
    v.subRate md spot fixing = .ok r ↔ (fixing.instant < v.pricing.instant → r = (v.close fixing.day).getD spot) ∧
      (v.pricing.instant ≤ fixing.instant → ∃ e, addPeriod md fixing v.tenor = .ok e ∧ v.fwd.fwd fixing e = .ok r) := by
  unfold FloatEnv.subRate
  by_cases h : fixing.instant < v.pricing.instant
  · rw [if_pos h]
    have h' : ¬ v.pricing.instant ≤ fixing.instant := by omega
    cases hc : v.close fixing.day with
    | some x => simp [h, h', eq_comm]
    | none => simp [h, h', eq_comm]
  · rw [if_neg h, bind_ok_iff]
    have h' : v.pricing.instant ≤ fixing.instant := by omega
    simp [h, h']

theorem minDT_eq (a b : DT) : minDT a b = if a.instant < b.instant then a else b := rfl

theorem compound_iff (md : Mode) (v : FloatEnv) (comp : List Char) (spread spot : ℝ) (stop start : DT) (acc x : ℝ) :
    v.compound md comp spread spot stop start acc = .ok x ↔ ∃ ps rs, Tiled md comp stop start ps ∧
      List.Forall₂ (fun (p : DT × DT) (q : ℝ × ℝ) => SubRateIs md v spot p.1 q.1 ∧ frac p.1 p.2 v.dcc = .ok q.2) ps rs ∧
      x = acc * (rs.map fun q => 1 + (q.1 + spread) * q.2).prod := by
  induction hn : (stop.instant - start.instant).toNat using Nat.strong_induction_on generalizing start acc with
  | _ n ih =>
  subst hn
  unfold FloatEnv.compound
  by_cases h : start.instant < stop.instant
  · rw [if_pos h]
    constructor
    · intro he
      cases h1 : (start.addDays (-v.fixDays) >>= fun x => adjust v.hol x .preceding) with
      | error e => rw [h1] at he; cases he
      | ok fixing =>
      rw [h1] at he
      simp only at he
      cases h2 : addPeriod md start comp with
      | error e => rw [h2] at he; cases he
      | ok nx =>
      rw [h2] at he
      simp only at he
      cases h3 : frac start (minDT nx stop) v.dcc with
      | error e => rw [h3] at he; cases he
      | ok f =>
      rw [h3] at he
      simp only at he
      cases h4 : v.subRate md spot fixing with
      | error e => rw [h4] at he; cases he
      | ok r =>
      rw [h4] at he
      simp only at he
      split at he
      · rename_i h5
        rw [ih _ (by omega) _ _ rfl] at he
        obtain ⟨ps, rs, t, fa, e⟩ := he
        obtain ⟨y, hy1, hy2⟩ := (bind_ok_iff _ _ _).1 h1
        rw [subRate_iff] at h4
        refine ⟨(start, minDT nx stop) :: ps, (r, f) :: rs, .step start nx _ ps h h2 (minDT_eq _ _) h5 t,
          .cons ⟨⟨y, fixing, hy1, hy2, h4.1, h4.2⟩, h3⟩ fa, ?_⟩
        rw [e, List.map_cons, List.prod_cons]; ring
      · cases he
    · rintro ⟨ps, rs, t, fa, e⟩
      cases t with
      | done _ hd => omega
      | step _ nx fin rest _ h2 hf h5 t =>
        rw [← minDT_eq] at hf
        subst hf
        cases fa with
        | cons hq fa =>
        rename_i q rs
        obtain ⟨⟨y, fixing, hy1, hy2, h4, h4'⟩, h3⟩ := hq
        have h1 : (start.addDays (-v.fixDays) >>= fun x => adjust v.hol x .preceding) = .ok fixing := by
          rw [hy1]; exact hy2
        have h4 := (subRate_iff md v spot fixing q.1).2 ⟨h4, h4'⟩
        rw [h1]
        simp only [h2, h3, h4]
        rw [dif_pos h5, ih _ (by omega) _ _ rfl]
        refine ⟨rest, rs, t, fa, ?_⟩
        rw [e, List.map_cons, List.prod_cons]; ring
  · rw [if_neg h]
    constructor
    · intro e
      cases e
      exact ⟨[], [], .done start (by omega), .nil, by simp⟩
    · rintro ⟨ps, rs, t, fa, e⟩
      cases t with
      | done => cases fa; rw [e]; simp
      | step _ _ _ _ h' => exact absurd h' h

/-- **C66** (compounding). A compounding coupon whose fixing is before the pricing date pays the product over its
compounding periods of 1 + (rate + spread) times year fraction, less 1. -/
theorem C66_compounded (md : Mode) (v : FloatEnv) (comp : List Char) (spread : Option ℝ) (c : Coupon) (x : ℝ)
    (hlt : c.fixing.instant < v.pricing.instant) :
    v.amount md (some comp) spread c = .ok x ↔ ∃ e spot ps rs, addPeriod md v.pricing comp = .ok e ∧
      v.fwd.fwd v.pricing e = .ok spot ∧ Tiled md comp c.stop c.start ps ∧
      List.Forall₂ (fun (p : DT × DT) (q : ℝ × ℝ) => SubRateIs md v spot p.1 q.1 ∧ frac p.1 p.2 v.dcc = .ok q.2) ps rs ∧
      x = (rs.map fun q => 1 + (q.1 + spread.getD 0) * q.2).prod - 1 := by
  unfold FloatEnv.amount
  have hg : ¬ c.fixing.instant ≥ v.pricing.instant := by omega
  simp only [if_neg hg, bind_ok_iff, compound_iff, one_mul]
  constructor
  · rintro ⟨e, h1, spot, h2, y, ⟨ps, rs, t, fa, hy⟩, hx⟩
    exact ⟨e, spot, ps, rs, h1, h2, t, fa, by rw [← hy]; exact (Except.ok.inj hx).symm⟩
  · rintro ⟨e, spot, ps, rs, h1, h2, t, fa, hx⟩
    exact ⟨e, h1, spot, h2, _, ⟨ps, rs, t, fa, rfl⟩, by rw [hx]⟩

/-- **C66** (tiling). The compounding periods cover the coupon period: the first starts with it, each starts where the one
before ended, none is empty, and the last ends with it. -/
theorem C66_tiles (md : Mode) (comp : List Char) (stop start : DT) (ps : List (DT × DT)) (h : Tiled md comp stop start ps)
    (hlt : start.instant < stop.instant) :
    (∃ p, ps[0]? = some p ∧ p.1 = start) ∧ (∃ p, ps[ps.length - 1]? = some p ∧ p.2 = stop) ∧
    (∀ (i : Nat) p, ps[i]? = some p → p.1.instant < p.2.instant) ∧
    ∀ (i : Nat) p q, ps[i]? = some p → ps[i + 1]? = some q → q.1 = p.2 := by
  induction h with
  | done start hd => omega
  | step start nx fin rest h1 h2 hf h5 t ih =>
    by_cases hs : fin.instant < stop.instant
    · obtain ⟨⟨p0, hp0, e0⟩, ⟨pl, hpl, el⟩, hn, ha⟩ := ih hs
      have hlen : rest.length ≠ 0 := by
        intro e
        rw [List.length_eq_zero_iff] at e
        rw [e] at hp0
        cases hp0
      refine ⟨⟨_, rfl, rfl⟩, ⟨pl, ?_, el⟩, ?_, ?_⟩
      · rw [List.length_cons, show rest.length + 1 - 1 = (rest.length - 1) + 1 by omega, List.getElem?_cons_succ]
        exact hpl
      · intro i p hp
        cases i with
        | zero => cases hp; exact h5
        | succ i => rw [List.getElem?_cons_succ] at hp; exact hn i p hp
      · intro i p q hp hq
        cases i with
        | zero =>
          cases hp
          rw [List.getElem?_cons_succ] at hq
          rw [hp0] at hq
          cases hq
          exact e0
        | succ i =>
          rw [List.getElem?_cons_succ] at hp hq
          exact ha i p q hp hq
    · have hfin : fin = stop := by
        rw [hf] at hs ⊢
        by_cases hh : nx.instant < stop.instant
        · rw [if_pos hh] at hs; exact absurd hh hs
        · rw [if_neg hh]
      cases t with
      | step _ _ _ _ h1' => exact absurd h1' hs
      | done =>
        refine ⟨⟨_, rfl, rfl⟩, ⟨_, rfl, hfin⟩, ?_, ?_⟩
        · intro i p hp
          cases i with
          | zero => cases hp; exact h5
          | succ i => simp at hp
        · intro i p q hp hq
          simp at hq

/-- **C66** (known compounding). If the coupon period ends by the pricing date, the fixing gap is not negative and every
day before it has a published fixing, a compounding coupon does not depend on the forward curve. -/
theorem C66_known_compounded (md : Mode) (v : FloatEnv) (comp : List Char) (spread : Option ℝ) (c : Coupon) (l : Live) (x y : ℝ)
    (hlt : c.fixing.instant < v.pricing.instant) (hend : c.stop.instant ≤ v.pricing.instant) (hg : 0 ≤ v.fixDays)
    (hk : ∀ d : DT, d.instant < v.pricing.instant → v.close d.day ≠ none)
    (hx : v.amount md (some comp) spread c = .ok x) (hy : ({ v with fwd := l } : FloatEnv).amount md (some comp) spread c = .ok y) :
    x = y := by
  rw [C66_compounded md v comp spread c x hlt] at hx
  replace hy := (C66_compounded md ({ v with fwd := l } : FloatEnv) comp spread c y hlt).1 hy
  obtain ⟨-, spot, ps, rs, -, -, t, fa, rfl⟩ := hx
  obtain ⟨-, spot', ps', rs', -, -, t', fa', rfl⟩ := hy
  -- the periods are the same
  have hps : ∀ (s : DT) (ps ps' : List (DT × DT)), Tiled md comp c.stop s ps → Tiled md comp c.stop s ps' → ps = ps' := by
    intro s ps ps' h
    induction h generalizing ps' with
    | done s hd =>
      intro h'
      cases h' with
      | done => rfl
      | step _ _ _ _ q => omega
    | step s nx fin rest h1 h2 hf h5 t ih =>
      intro h'
      cases h' with
      | done _ q => omega
      | step _ nx' fin' rest' h1' h2' hf' h5' t' =>
        rw [h2] at h2'
        cases h2'
        rw [← hf'] at hf
        subst hf
        rw [ih _ t']
  have := hps _ _ _ t t'
  subst this
  have hstart : ∀ p ∈ ps, p.1.instant < c.stop.instant := by
    have gen : ∀ (s : DT) (ps : List (DT × DT)), Tiled md comp c.stop s ps → ∀ p ∈ ps, p.1.instant < c.stop.instant := by
      intro s ps t
      induction t with
      | done => intro p hp; cases hp
      | step s nx fin rest h1 _ _ _ _ ih =>
        intro p hp
        rcases List.mem_cons.1 hp with e | e
        · rw [e]; exact h1
        · exact ih p e
    exact gen _ _ t
  have hrs : rs = rs' := by
    clear t t' hps
    induction fa generalizing rs' with
    | nil => cases fa'; rfl
    | cons hq fa ih =>
      rename_i p q ps qs
      cases fa' with
      | cons hq' fa' =>
      rename_i q' qs'
      rw [ih _ fa' (fun p hp => hstart p (List.mem_cons_of_mem _ hp))]
      obtain ⟨⟨z, fixing, z1, z2, z3, -⟩, f1⟩ := hq
      obtain ⟨⟨z', fixing', z1', z2', z3', -⟩, f1'⟩ := hq'
      simp only at z1' z2' z3' f1'
      rw [z1] at z1'
      cases z1'
      rw [z2] at z2'
      cases z2'
      rw [f1] at f1'
      have hfl : fixing.instant < v.pricing.instant := by
        have hz : z.instant ≤ p.1.instant ∧ minDay ≤ z.day := by
          unfold DT.addDays QL.addDays checkDay at z1
          obtain ⟨k, hk1, hk2⟩ := (bind_ok_iff _ _ _).1 z1
          cases hk2
          split at hk1
          · rename_i hb
            cases hk1
            refine ⟨?_, hb.1⟩
            unfold DT.instant DT.localNs
            have := dayNs_pos'
            simp only
            nlinarith
          · cases hk1
        obtain ⟨k, e, hk0, -, -, -⟩ := (preceding_iff v.hol z hz.2 fixing).1 z2
        have hp := hstart p (List.mem_cons_self ..)
        have : fixing.instant ≤ z.instant := by
          have hday : fixing.day = k := by rw [e]; rfl
          have htod : fixing.tod = z.tod := by rw [e]; rfl
          have hoff : fixing.off = z.off := by rw [e]; rfl
          unfold DT.instant DT.localNs
          rw [hday, htod, hoff]
          have := mul_le_mul_of_nonneg_right hk0 dayNs_pos'.le
          omega
        omega
      have h1 := z3 hfl
      have h2 := z3' hfl
      obtain ⟨w, hw⟩ := Option.ne_none_iff_exists'.1 (hk fixing hfl)
      rw [hw] at h1 h2
      obtain ⟨a, b⟩ := q
      obtain ⟨a', b'⟩ := q'
      simp only [Option.getD_some] at h1 h2 f1 f1'
      rw [h1, h2, Except.ok.inj f1']
  rw [hrs]

/-- A compounding tenor of length zero (such as "0D") never comes to an end. -/
theorem fault_compound_diverges (md : Mode) (v : FloatEnv) (comp : List Char) (spread spot acc : ℝ) (stop start : DT) (x fixing nx : DT) (r f : ℝ)
    (h : start.instant < stop.instant) (h1 : start.addDays (-v.fixDays) = .ok x) (h2 : adjust v.hol x .preceding = .ok fixing)
    (h3 : addPeriod md start comp = .ok nx) (h4 : nx.instant = start.instant) (h5 : frac start nx v.dcc = .ok f)
    (h6 : v.subRate md spot fixing = .ok r) :
    v.compound md comp spread spot stop start acc = .error .diverges := by
  unfold FloatEnv.compound
  have hm : minDT nx stop = nx := by rw [minDT_eq, if_pos (by omega)]
  have h12 : (start.addDays (-v.fixDays) >>= fun x => adjust v.hol x .preceding) = .ok fixing := by rw [h1]; exact h2
  rw [if_pos h, h12]
  simp only [h3, hm, h5, h6]
  rw [dif_neg (by omega)]

/-! ### Concrete cases -/

/-- One period of an overnight index that is known: the coupon of 2020-12-30 .. 2021-01-01 seen on 2021-01-01, fixings of
1 %, compounded daily; the theorems on compounding apply to it. -/
theorem floating_witness : ∃ c x, Curve.new .checked (day0 2021 1 1) [1] [0.03] = .ok c ∧
    FloatEnv.amount .checked { fwd := { curve := c, eval := day0 2021 1 1 }, close := fun _ => some 0.01, pricing := day0 2021 1 1, tenor := ['1', 'D'], hol := fun _ => .ok false, dcc := .actual365Fixed, fixDays := 0 }
      (some ['1', 'D']) none { fixing := day0 2020 12 30, start := day0 2020 12 30, stop := day0 2021 1 1, payment := day0 2021 1 1 } = .ok x ∧
    x = (1 + 0.01 * (1 / 365)) * (1 + 0.01 * (1 / 365)) - 1 := by
  obtain ⟨c, e, ok, ⟨tl, htl, h99⟩, -⟩ := sample_curve 0.03
  have hq : timeDifference (day0 2021 1 1) (day0 2021 1 1) = 0 ∧ timeDifference (day0 2021 1 1) (day0 2021 1 2) = 1 / 365 := by
    decide +kernel
  obtain ⟨-, -, -, s, -, -, -, es, -⟩ := C58_rates c ok tl htl 0 (1 / 365) (le_refl _) (by norm_num) (by linarith [(by norm_num : (1 / 365 : ℝ) < 1)])
  have hs : Live.fwd { curve := c, eval := day0 2021 1 1 } (day0 2021 1 1) (day0 2021 1 2) = .ok s := by
    unfold Live.fwd
    rw [(C58_dates c _ _ _ .simple).2.1 (by decide +kernel), hq.1, hq.2]
    rw [show ((0 : ℚ) : ℝ) = 0 by norm_num, show ((1 / 365 : ℚ) : ℝ) = 1 / 365 by norm_num]
    exact es
  have hf : ∀ a b, yearFraction a b .actual365Fixed = .ok (1 / 365) → frac a b .actual365Fixed = .ok (1 / 365) := by
    intro a b h
    unfold frac
    rw [h, Res.bind_ok]
    refine congrArg Except.ok ?_
    norm_num
  refine ⟨c, _, e, ?_, rfl⟩
  rw [C66_compounded _ _ _ _ _ _ (by dsimp only; decide +kernel)]
  refine ⟨day0 2021 1 2, s, [(day0 2020 12 30, day0 2020 12 31), (day0 2020 12 31, day0 2021 1 1)],
    [(0.01, 1 / 365), (0.01, 1 / 365)], by dsimp only; decide +kernel, hs, ?_, ?_, ?_⟩
  · refine .step _ (day0 2020 12 31) _ _ (by decide +kernel) (by decide +kernel) (by decide +kernel) (by decide +kernel) ?_
    refine .step _ (day0 2021 1 1) _ _ (by decide +kernel) (by decide +kernel) (by decide +kernel) (by decide +kernel) ?_
    exact .done _ (by decide +kernel)
  · refine .cons ⟨⟨day0 2020 12 30, day0 2020 12 30, by dsimp only; decide +kernel, ?_, fun _ => rfl, fun q => absurd q (by dsimp only; decide +kernel)⟩,
      hf _ _ (by decide +kernel)⟩ (.cons ⟨⟨day0 2020 12 31, day0 2020 12 31, by dsimp only; decide +kernel, ?_, fun _ => rfl, fun q => absurd q (by dsimp only; decide +kernel)⟩,
      hf _ _ (by decide +kernel)⟩ .nil)
    · exact C43_business_day _ _ (by decide +kernel) rfl .preceding
    · exact C43_business_day _ _ (by decide +kernel) rfl .preceding
  · simp only [List.map_cons, List.map_nil, List.prod_cons, List.prod_nil, Option.getD_none]
    ring

end Verif.Props

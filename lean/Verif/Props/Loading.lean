import Verif.Props.Portfolio
import Verif.Props.Surface
/-!
# C83, C85, C86: starting an engine - pricers, market data, exchange rates
-/
set_option autoImplicit false
namespace Verif.Props
open Verif Verif.QL

/-! ## Helpers -/

theorem mapRes_ok {α β : Type} (f : α → Res β) (l : List α) : (∃ r, mapRes f l = .ok r) ↔ ∀ x ∈ l, ∃ y, f x = .ok y := by
  constructor
  · rintro ⟨r, hr⟩ x hx
    obtain ⟨hl, h⟩ := (mapRes_iff f l r).1 hr
    obtain ⟨i, hi, rfl⟩ := List.mem_iff_getElem.1 hx
    exact ⟨r[i]'(by omega), h i _ _ (List.getElem?_eq_getElem hi) (List.getElem?_eq_getElem (by omega))⟩
  · exact mapRes_total f l

theorem ex_bind {α β : Type} (x : Res α) (f : α → Res β) : (∃ r, (x >>= f) = .ok r) ↔ ∃ a, x = .ok a ∧ ∃ r, f a = .ok r := by
  cases x with
  | ok a => simp
  | error e =>
    constructor
    · rintro ⟨r, h⟩; cases h
    · rintro ⟨a, h, _⟩; cases h

theorem need_ok {κ : Type} (f : κ → Bool) (k r : κ) : need f k = .ok r ↔ f k = true ∧ r = k := by
  unfold need
  split
  · rename_i h
    exact ⟨fun e => ⟨h, (Except.ok.inj e).symm⟩, fun e => by rw [e.2]⟩
  · rename_i h
    exact ⟨fun e => (by cases e), fun e => absurd e.1 h⟩

/-! ## C83 -/

/-- Specification: the curve and the past fixings of a rate index, if there is one. -/
def IndexLoaded (p : MatchParam) (m : Loaded) (x : Option IndexId) (fwd past : Option String) : Prop :=
  match x with
  | none => fwd = none ∧ past = none
  | some x => ∃ n, p.rateForward x.code = some n ∧ m.curves n = true ∧ m.pasts x.name = true ∧ fwd = some n ∧ past = some x.name

/-- Specification: what the pricer of an instrument is made of, given the names and what is loaded. -/
def PricerSpec (p : MatchParam) (m : Loaded) (analytic : Bool) (i : Instr) (q : Plan) : Prop :=
  match i.kind with
  | .futures u _ => ∃ c b, m.equities u = true ∧ p.collateral u = some c ∧ m.curves c = true ∧
      p.borrowing u = some b ∧ m.curves b = true ∧ q = .futures u c b
  | .option _ u uc settled => analytic = true ∧ ∃ d c b, m.equities u = true ∧ m.vols u = true ∧
      (if settled then d = dummy else p.funding i.ccy = some d) ∧ m.curves d = true ∧
      p.collateral u = some c ∧ m.curves c = true ∧ p.borrowing u = some b ∧ m.curves b = true ∧
      (uc = i.ccy ∧ q = .option u u d c b none ∨
       uc ≠ i.ccy ∧ m.quantos (u, { ccy1 := uc, ccy2 := i.ccy }) = true ∧
         q = .option u u d c b (some (u, { ccy1 := uc, ccy2 := i.ccy })))
  | .bond n t r x => ∃ d f h, (p.bondDiscount (n, t, r, i.ccy) = some d ∨ p.bondDiscount (n, t, r, i.ccy) = none ∧ d = dummy) ∧
      m.curves d = true ∧ IndexLoaded p m x f h ∧ q = .bond d f h
  | .swap t a b x => ∃ ca cb f h, (if t = .irs then ca = dummy ∧ cb = dummy else p.crs a = some ca ∧ p.crs b = some cb) ∧
      m.curves ca = true ∧ m.curves cb = true ∧ IndexLoaded p m x f h ∧
      (a = b ∧ q = .swap ca cb f h none ∨
       a ≠ b ∧ m.fxs { ccy1 := b, ccy2 := a } = true ∧ q = .swap ca cb f h (some { ccy1 := b, ccy2 := a }))
  | .fxFutures uc fx => ∃ cu cf, m.fxs fx = true ∧ p.crs uc = some cu ∧ m.curves cu = true ∧
      p.crs i.ccy = some cf ∧ m.curves cf = true ∧ q = .fxFutures fx cu cf
  | .stock _ => m.equities i.code = true ∧ q = .stock i.code
  | .cash => q = .cash
  | .ktbf _ => False
  | .bondFutures => False

theorem indexParts_ok (p : MatchParam) (m : Loaded) (i : Instr) (x : Option IndexId) (r : Option String × Option String)
    (hx : ∀ y, x = some y → p.rateIndexName i = orErr (p.rateForward y.code)) :
    indexParts p m i x = .ok r ↔ IndexLoaded p m x r.1 r.2 := by
  obtain ⟨f, h⟩ := r
  cases x with
  | none =>
    simp only [indexParts, IndexLoaded, Except.ok.injEq, Prod.mk.injEq]
    exact ⟨fun ⟨a, b⟩ => ⟨a.symm, b.symm⟩, fun ⟨a, b⟩ => ⟨a.symm, b.symm⟩⟩
  | some y =>
    simp only [indexParts, IndexLoaded, hx y rfl, bind_ok_iff, orErr_ok, need_ok, Except.ok.injEq, Prod.mk.injEq]
    constructor
    · rintro ⟨n, hn, c, ⟨hc, rfl⟩, z, ⟨hz, rfl⟩, rfl, rfl⟩
      exact ⟨_, hn, hc, hz, rfl, rfl⟩
    · rintro ⟨n, hn, hc, hz, rfl, rfl⟩
      exact ⟨n, hn, n, ⟨hc, rfl⟩, _, ⟨hz, rfl⟩, rfl, rfl⟩

theorem one_collateral (p : MatchParam) (i : Instr) (u : String) (h : i.unds = [u]) (l : List String) :
    p.collateralNames i = .ok l ↔ ∃ c, p.collateral u = some c ∧ l = [c] := by
  unfold MatchParam.collateralNames
  rw [h]
  simp only [mapRes, bind_ok_iff, orErr_ok, Except.ok.injEq]
  constructor
  · rintro ⟨c, hc, _, rfl, rfl⟩
    exact ⟨c, hc, rfl⟩
  · rintro ⟨c, hc, rfl⟩
    exact ⟨c, hc, [], rfl, rfl⟩

theorem one_borrowing (p : MatchParam) (i : Instr) (u : String) (h : i.unds = [u]) (ht : i.borrowTags = []) (l : List String) :
    p.borrowingNames i = .ok l ↔ ∃ c, p.borrowing u = some c ∧ l = [c] := by
  unfold MatchParam.borrowingNames
  rw [h, ht]
  simp only [List.append_nil, mapRes, bind_ok_iff, orErr_ok, Except.ok.injEq]
  constructor
  · rintro ⟨c, hc, _, rfl, rfl⟩
    exact ⟨c, hc, rfl⟩
  · rintro ⟨c, hc, rfl⟩
    exact ⟨c, hc, [], rfl, rfl⟩

theorem firstName_one (c r : String) : firstName [c] = .ok r ↔ r = c := by
  simp [firstName, eq_comm]

/-- C83 (pricers). The pricer made for an instrument, and when there is none: exactly as the table above says. A KTB future
or a bond future never has one; a bond without discount curve name, an interest rate swap and an option settled daily need a
curve called `Dummy`; a stock needs an equity loaded under the code of the *instrument*. -/
theorem C83_plan (p : MatchParam) (m : Loaded) (analytic : Bool) (i : Instr) (q : Plan) :
    createPricer p m analytic i = .ok q ↔ PricerSpec p m analytic i q := by
  obtain ⟨code, k, ccy, n, mat, rest⟩ := i
  cases k with
  | futures u c =>
    unfold createPricer PricerSpec
    dsimp only
    cases he : m.equities u with
    | false => simp
    | true =>
      rw [if_neg (by simp)]
      simp only [bind_ok_iff, one_collateral p ⟨code, .futures u c, ccy, n, mat, rest⟩ u rfl,
        one_borrowing p ⟨code, .futures u c, ccy, n, mat, rest⟩ u rfl rfl, need_ok]
      constructor
      · rintro ⟨_, ⟨c, hc, rfl⟩, c', hc', _, ⟨b, hb, rfl⟩, b', hb', _, ⟨h1, rfl⟩, _, ⟨h2, rfl⟩, h3⟩
        rw [firstName_one] at hc' hb'
        subst hc' hb'
        cases h3
        exact ⟨_, _, trivial, hc, h1, hb, h2, rfl⟩
      · rintro ⟨c, b, -, hc, h1, hb, h2, rfl⟩
        exact ⟨_, ⟨c, hc, rfl⟩, c, rfl, _, ⟨b, hb, rfl⟩, b, rfl, c, ⟨h1, rfl⟩, b, ⟨h2, rfl⟩, rfl⟩
  | option call u uc st =>
    unfold createPricer PricerSpec
    dsimp only
    have hd : ∀ d, p.discountName ⟨code, .option call u uc st, ccy, n, mat, rest⟩ = .ok d ↔
        (if st then d = dummy else p.funding ccy = some d) := by
      intro d
      unfold MatchParam.discountName
      cases st
      · simp [orErr_ok]
      · simp [eq_comm]
    simp only [bind_ok_iff, one_collateral p ⟨code, .option call u uc st, ccy, n, mat, rest⟩ u rfl,
        one_borrowing p ⟨code, .option call u uc st, ccy, n, mat, rest⟩ u rfl rfl, need_ok, hd]
    constructor
    · rintro ⟨_, ⟨h1, rfl⟩, _, ⟨h2, rfl⟩, d, h3, _, ⟨h4, rfl⟩, _, ⟨c, h5, rfl⟩, c', hc', _, ⟨h6, rfl⟩, _, ⟨b, h7, rfl⟩, b', hb',
        _, ⟨h8, rfl⟩, q', h9, h10⟩
      rw [firstName_one] at hc' hb'
      subst hc' hb'
      cases analytic with
      | false => cases h10
      | true =>
        cases h10
        refine ⟨rfl, _, _, _, h1, h2, h3, h4, h5, h6, h7, h8, ?_⟩
        unfold quantoPart at h9
        split at h9
        · rename_i e
          cases h9
          exact .inl ⟨e, rfl⟩
        · rename_i e
          obtain ⟨_, hq, h11⟩ := (bind_ok_iff _ _ _).1 h9
          obtain ⟨hq', rfl⟩ := (need_ok _ _ _).1 hq
          cases h11
          exact .inr ⟨e, hq', rfl⟩
    · rintro ⟨rfl, d, c, b, h1, h2, h3, h4, h5, h6, h7, h8, h9⟩
      refine ⟨u, ⟨h1, rfl⟩, u, ⟨h2, rfl⟩, d, h3, d, ⟨h4, rfl⟩, _, ⟨c, h5, rfl⟩, c, rfl, c, ⟨h6, rfl⟩, _, ⟨b, h7, rfl⟩, b, rfl, b,
        ⟨h8, rfl⟩, ?_⟩
      rcases h9 with ⟨e, rfl⟩ | ⟨e, h9, rfl⟩
      · exact ⟨none, by rw [quantoPart, if_pos e], rfl⟩
      · refine ⟨some (u, { ccy1 := uc, ccy2 := ccy }), ?_, rfl⟩
        rw [quantoPart, if_neg e, need, if_pos h9]
        rfl
  | bond a b c x =>
    unfold createPricer PricerSpec
    dsimp only
    have hd : ∀ d, p.discountName ⟨code, .bond a b c x, ccy, n, mat, rest⟩ = .ok d ↔
        (p.bondDiscount (a, b, c, ccy) = some d ∨ p.bondDiscount (a, b, c, ccy) = none ∧ d = dummy) := by
      intro d
      unfold MatchParam.discountName
      dsimp only
      cases h : p.bondDiscount (a, b, c, ccy) <;> simp [eq_comm]
    simp only [bind_ok_iff, need_ok, hd]
    constructor
    · rintro ⟨d, h1, _, ⟨h2, rfl⟩, r, h3, h4⟩
      rw [indexParts_ok] at h3
      · cases h4
        exact ⟨_, _, _, h1, h2, h3, rfl⟩
      · rintro y rfl; rfl
    · rintro ⟨d, f, h, h1, h2, h3, rfl⟩
      refine ⟨d, h1, d, ⟨h2, rfl⟩, (f, h), ?_, rfl⟩
      rw [indexParts_ok]
      · exact h3
      · rintro y rfl; rfl
  | swap t a b x =>
    unfold createPricer PricerSpec
    dsimp only
    have hc : ∀ ca cb, (p.crsName ⟨code, .swap t a b x, ccy, n, mat, rest⟩ = .ok ca ∧
        p.floatCrsName ⟨code, .swap t a b x, ccy, n, mat, rest⟩ = .ok cb) ↔
        (if t = .irs then ca = dummy ∧ cb = dummy else p.crs a = some ca ∧ p.crs b = some cb) := by
      intro ca cb
      unfold MatchParam.crsName MatchParam.floatCrsName
      dsimp only
      split
      · simp [eq_comm]
      · simp [orErr_ok]
    simp only [bind_ok_iff, need_ok]
    constructor
    · rintro ⟨ca, h1, _, ⟨h2, rfl⟩, cb, h3, _, ⟨h4, rfl⟩, r, h5, fx, h6, h7⟩
      rw [indexParts_ok] at h5
      · cases h7
        refine ⟨_, _, _, _, (hc _ _).1 ⟨h1, h3⟩, h2, h4, h5, ?_⟩
        unfold swapFxPart at h6
        split at h6
        · rename_i e
          cases h6
          exact .inl ⟨e, rfl⟩
        · rename_i e
          obtain ⟨_, hq, h11⟩ := (bind_ok_iff _ _ _).1 h6
          obtain ⟨hq', rfl⟩ := (need_ok _ _ _).1 hq
          cases h11
          exact .inr ⟨e, hq', rfl⟩
      · rintro y rfl; rfl
    · rintro ⟨ca, cb, f, h, h1, h2, h4, h5, h6⟩
      obtain ⟨h1, h3⟩ := (hc ca cb).2 h1
      refine ⟨ca, h1, ca, ⟨h2, rfl⟩, cb, h3, cb, ⟨h4, rfl⟩, (f, h), ?_, ?_⟩
      · rw [indexParts_ok]
        · exact h5
        · rintro y rfl; rfl
      · rcases h6 with ⟨e, rfl⟩ | ⟨e, h6, rfl⟩
        · exact ⟨none, by rw [swapFxPart, if_pos e], rfl⟩
        · refine ⟨some { ccy1 := b, ccy2 := a }, ?_, rfl⟩
          rw [swapFxPart, if_neg e, need, if_pos h6]
          rfl
  | fxFutures uc fx =>
    unfold createPricer PricerSpec MatchParam.floatCrsName MatchParam.crsName
    simp only [bind_ok_iff, need_ok, orErr_ok]
    constructor
    · rintro ⟨_, ⟨h1, rfl⟩, cu, h2, _, ⟨h3, rfl⟩, cf, h4, _, ⟨h5, rfl⟩, h6⟩
      cases h6
      exact ⟨_, _, h1, h2, h3, h4, h5, rfl⟩
    · rintro ⟨cu, cf, h1, h2, h3, h4, h5, rfl⟩
      exact ⟨fx, ⟨h1, rfl⟩, cu, h2, cu, ⟨h3, rfl⟩, cf, h4, cf, ⟨h5, rfl⟩, rfl⟩
  | stock u =>
    unfold createPricer PricerSpec
    simp only [bind_ok_iff, need_ok]
    constructor
    · rintro ⟨_, ⟨h1, rfl⟩, h6⟩
      cases h6
      exact ⟨h1, rfl⟩
    · rintro ⟨h1, rfl⟩
      exact ⟨_, ⟨h1, rfl⟩, rfl⟩
  | cash =>
    unfold createPricer PricerSpec
    simp [eq_comm]
  | ktbf t =>
    unfold createPricer PricerSpec
    simp [bind_ok_iff, MatchParam.collateralNames, Instr.unds, mapRes, firstName]
  | bondFutures =>
    unfold createPricer PricerSpec
    simp

/-! ## C85 -/

/-- The curves a portfolio makes the engine load: the names in use, and one per underlying, under its code. -/
def LoadedCurve (p : MatchParam) (l : List Instr) (n : String) : Prop := n ∈ curvesInUse p l ∨ ∃ i ∈ l, n ∈ i.unds

/-- Specification: the market data suffices for the portfolio. -/
structure DataComplete (p : MatchParam) (d : DataSet) (l : List Instr) : Prop where
  fx : ∀ i ∈ l, ∀ c ∈ i.fxCodes, ∃ x, fxRate d c = .ok x
  named : ∀ i ∈ l, CurvesNamed p i
  curves : ∀ n, LoadedCurve p l n → d.curves n = some (.ok ())
  stocks : ∀ i ∈ l, ∀ u ∈ i.unds, ∃ x, d.stocks u = some x
  dividends : ∀ i ∈ l, ∀ u ∈ i.unds, ∀ r, d.dividends u = some r → r = .ok ()
  vols : ∀ i ∈ l, ∀ u ∈ i.volUnds,
    (d.constVols u = some (.ok ()) ∨ d.constVols u = none ∧ d.surfaces u = some (.ok ())) ∧
    (∃ c, p.collateral u = some c ∧ LoadedCurve p l c) ∧ ∃ b, p.borrowing u = some b ∧ LoadedCurve p l b
  quantos : ∀ i ∈ l, ∀ q ∈ i.quantos, (∃ x, d.fxVols q.2 = some x) ∧ ∃ x, d.corrs q = some x
  pasts : ∀ e ∈ d.pasts, e.2 = .ok ()

theorem mem_allOf {α : Type} [DecidableEq α] (f : Instr → List α) (l : List Instr) (x : α) : x ∈ firsts (l.flatMap f) ↔ ∃ i ∈ l, x ∈ f i := by
  rw [mem_firsts, List.mem_flatMap]

theorem make_ok {κ : Type} (m : Map κ (Res Unit)) (k : κ) : (∃ y, make m k = .ok y) ↔ m k = some (.ok ()) := by
  unfold make
  cases h : m k with
  | none => simp
  | some r => cases r <;> simp

theorem ex_unit (r : Res Unit) : (∃ y, r = .ok y) ↔ r = .ok () := by
  cases r <;> simp

theorem loadVol_ok (p : MatchParam) (d : DataSet) (cs : List String) (u : String) : (∃ y, loadVol p d cs u = .ok y) ↔
    (d.constVols u = some (.ok ()) ∨ d.constVols u = none ∧ d.surfaces u = some (.ok ())) ∧
    (∃ c, p.collateral u = some c ∧ c ∈ cs) ∧ ∃ b, p.borrowing u = some b ∧ b ∈ cs := by
  unfold loadVol
  have core : ∀ r : Res Unit, (∃ y, (do
      let c ← orErr (p.collateral u)
      let _ ← need (fun x => decide (x ∈ cs)) c
      let b ← orErr (p.borrowing u)
      let _ ← need (fun x => decide (x ∈ cs)) b
      r) = .ok y) ↔ r = .ok () ∧ (∃ c, p.collateral u = some c ∧ c ∈ cs) ∧ ∃ b, p.borrowing u = some b ∧ b ∈ cs := by
    intro r
    simp only [ex_bind, orErr_ok, need_ok, decide_eq_true_eq, ex_unit]
    constructor
    · rintro ⟨c, hc, _, ⟨h1, -⟩, b, hb, _, ⟨h2, -⟩, h3⟩
      exact ⟨h3, ⟨c, hc, h1⟩, b, hb, h2⟩
    · rintro ⟨h3, ⟨c, hc, h1⟩, b, hb, h2⟩
      exact ⟨c, hc, c, ⟨h1, rfl⟩, b, hb, b, ⟨h2, rfl⟩, h3⟩
  cases h1 : d.constVols u with
  | some r => simp only [core]; simp
  | none =>
    cases h2 : d.surfaces u with
    | none => simp
    | some r => simp only [core]; simp

/-- C85 (market data). `with_parameter_data` succeeds exactly if the data suffices; what is then loaded is what the portfolio
needs and nothing else (the past values are all loaded). -/
theorem C85_load (p : MatchParam) (d : DataSet) (l : List Instr) :
    ((∃ m, engineLoad p d l = .ok m) ↔ DataComplete p d l) ∧
    ∀ m, engineLoad p d l = .ok m → 
      (∀ c, m.fxs c = true ↔ ∃ i ∈ l, c ∈ i.fxCodes) ∧ (∀ u, m.equities u = true ↔ ∃ i ∈ l, u ∈ i.unds) ∧
      (∀ n, m.curves n = true ↔ LoadedCurve p l n) ∧ (∀ u, m.vols u = true ↔ ∃ i ∈ l, u ∈ i.volUnds) ∧
      (∀ q, m.quantos q = true ↔ ∃ i ∈ l, q ∈ i.quantos) ∧ (∀ n, m.pasts n = true ↔ ∃ r, (n, r) ∈ d.pasts) := by
  obtain ⟨l1, l2, l3, l4, -⟩ := C79_lists l
  have hcurve : ∀ ns, allCurves p [] l = .ok ns → (∀ i ∈ l, CurvesNamed p i) ∧ ∀ n, n ∈ ns ++ allUnds l ↔ LoadedCurve p l n := by
    intro ns h
    have hn : ∀ i ∈ l, CurvesNamed p i := by
      intro i hi
      by_contra hcon
      rw [(C82_curves p l).2 ⟨i, hi, hcon⟩] at h
      cases h
    rw [(C82_curves p l).1 hn] at h
    obtain rfl := Except.ok.inj h
    refine ⟨hn, fun n => ?_⟩
    rw [List.mem_append, mem_firsts, l1, mem_allOf]
    rfl
  constructor
  · unfold engineLoad
    simp only [ex_bind]
    constructor
    · rintro ⟨_, h1, ns, h2, _, h3, _, h4, _, h5, _, h6, _, h7, _, h8, _, h9, _, h10, -⟩
      obtain ⟨hn, hc⟩ := hcurve ns h2
      have h1 := (mapRes_ok _ _).1 ⟨_, h1⟩
      have h3 := (mapRes_ok _ _).1 ⟨_, h3⟩
      have h4 := (mapRes_ok _ _).1 ⟨_, h4⟩
      have h5 := (mapRes_ok _ _).1 ⟨_, h5⟩
      have h6 := (mapRes_ok _ _).1 ⟨_, h6⟩
      have h7 := (mapRes_ok _ _).1 ⟨_, h7⟩
      have h8 := (mapRes_ok _ _).1 ⟨_, h8⟩
      have h9 := (mapRes_ok _ _).1 ⟨_, h9⟩
      have h10 := (mapRes_ok _ _).1 ⟨_, h10⟩
      have mu : ∀ i ∈ l, ∀ u ∈ i.unds, u ∈ allUnds l := fun i hi u hu => by rw [l1, mem_allOf]; exact ⟨i, hi, hu⟩
      have mv : ∀ i ∈ l, ∀ u ∈ i.volUnds, u ∈ allVolUnds l := fun i hi u hu => by rw [l3, mem_allOf]; exact ⟨i, hi, hu⟩
      have mq : ∀ i ∈ l, ∀ u ∈ i.quantos, u ∈ allQuantos l := fun i hi u hu => by rw [l4, mem_allOf]; exact ⟨i, hi, hu⟩
      constructor
      · intro i hi c hc
        exact h1 c (by rw [l2, mem_allOf]; exact ⟨i, hi, hc⟩)
      · exact hn
      · intro n hl
        rcases List.mem_append.1 ((hc n).2 hl) with h | h
        · exact (make_ok _ _).1 (h3 n h)
        · exact (make_ok _ _).1 (h5 n h)
      · intro i hi u hu
        obtain ⟨x, hx⟩ := h6 u (mu i hi u hu)
        exact ⟨x, (orErr_ok _ _).1 hx⟩
      · intro i hi u hu r hr
        have := h4 u (mu i hi u hu)
        rw [hr] at this
        dsimp only at this
        rw [ex_bind] at this
        obtain ⟨_, _, h⟩ := this
        exact (ex_unit _).1 h
      · intro i hi u hu
        have := (loadVol_ok _ _ _ _).1 (h7 u (mv i hi u hu))
        simpa only [hc] using this
      · intro i hi q hq
        obtain ⟨x, hx⟩ := h8 q (mq i hi q hq)
        obtain ⟨y, hy⟩ := h9 q (mq i hi q hq)
        exact ⟨⟨x, (orErr_ok _ _).1 hx⟩, y, (orErr_ok _ _).1 hy⟩
      · intro e he
        exact (ex_unit _).1 (h10 e he)
    · intro D
      obtain ⟨hn, hc⟩ := hcurve _ ((C82_curves p l).1 D.named)
      have mu : ∀ u ∈ allUnds l, ∃ i ∈ l, u ∈ i.unds := fun u hu => by rwa [l1, mem_allOf] at hu
      have mv : ∀ u ∈ allVolUnds l, ∃ i ∈ l, u ∈ i.volUnds := fun u hu => by rwa [l3, mem_allOf] at hu
      have mq : ∀ u ∈ allQuantos l, ∃ i ∈ l, u ∈ i.quantos := fun u hu => by rwa [l4, mem_allOf] at hu
      obtain ⟨r1, h1⟩ := (mapRes_ok (fxRate d) (allFxCodes l)).2 (fun c hc => by
        rw [l2, mem_allOf] at hc
        obtain ⟨i, hi, hc⟩ := hc
        exact D.fx i hi c hc)
      obtain ⟨r3, h3⟩ := (mapRes_ok (make d.curves) (firsts (curvesInUse p l))).2 (fun n hn =>
        (make_ok _ _).2 (D.curves n (.inl (by rwa [mem_firsts] at hn))))
      obtain ⟨r4, h4⟩ := (mapRes_ok (fun u => match d.dividends u with
          | some r => (do let _ ← orErr (d.stocks u); r)
          | none => .ok ()) (allUnds l)).2 (fun u hu => by
        obtain ⟨i, hi, hu⟩ := mu u hu
        cases hd : d.dividends u with
        | none => exact ⟨(), rfl⟩
        | some r =>
          obtain ⟨x, hx⟩ := D.stocks i hi u hu
          rw [D.dividends i hi u hu r hd, hx]
          exact ⟨(), rfl⟩)
      obtain ⟨r5, h5⟩ := (mapRes_ok (make d.curves) (allUnds l)).2 (fun u hu => (make_ok _ _).2 (D.curves u (.inr (mu u hu))))
      obtain ⟨r6, h6⟩ := (mapRes_ok (fun u => orErr (d.stocks u)) (allUnds l)).2 (fun u hu => by
        obtain ⟨i, hi, hu⟩ := mu u hu
        obtain ⟨x, hx⟩ := D.stocks i hi u hu
        exact ⟨x, (orErr_ok _ _).2 hx⟩)
      obtain ⟨r7, h7⟩ := (mapRes_ok (loadVol p d (firsts (curvesInUse p l) ++ allUnds l)) (allVolUnds l)).2 (fun u hu => by
        obtain ⟨i, hi, hu⟩ := mv u hu
        rw [loadVol_ok]
        simp only [hc]
        exact D.vols i hi u hu)
      obtain ⟨r8, h8⟩ := (mapRes_ok (fun q : String × FxCode => orErr (d.fxVols q.2)) (allQuantos l)).2 (fun q hq => by
        obtain ⟨i, hi, hq⟩ := mq q hq
        obtain ⟨⟨x, hx⟩, -⟩ := D.quantos i hi q hq
        exact ⟨x, (orErr_ok _ _).2 hx⟩)
      obtain ⟨r9, h9⟩ := (mapRes_ok (fun q : String × FxCode => orErr (d.corrs q)) (allQuantos l)).2 (fun q hq => by
        obtain ⟨i, hi, hq⟩ := mq q hq
        obtain ⟨-, x, hx⟩ := D.quantos i hi q hq
        exact ⟨x, (orErr_ok _ _).2 hx⟩)
      obtain ⟨r10, h10⟩ := (mapRes_ok (fun e : String × Res Unit => e.2) d.pasts).2 (fun e he => ⟨(), D.pasts e he⟩)
      exact ⟨_, h1, _, (C82_curves p l).1 D.named, _, h3, _, h4, _, h5, _, h6, _, h7, _, h8, _, h9, _, h10, _, rfl⟩
  · intro m h
    unfold engineLoad at h
    simp only [bind_ok_iff] at h
    obtain ⟨_, h1, ns, h2, _, h3, _, h4, _, h5, _, h6, _, h7, _, h8, _, h9, _, h10, h11⟩ := h
    obtain ⟨hn, hc⟩ := hcurve ns h2
    obtain rfl := Except.ok.inj h11
    refine ⟨fun c => ?_, fun u => ?_, fun n => ?_, fun u => ?_, fun q => ?_, fun n => ?_⟩
    · rw [decide_eq_true_eq, l2, mem_allOf]
    · rw [decide_eq_true_eq, l1, mem_allOf]
    · rw [decide_eq_true_eq, hc]
    · rw [decide_eq_true_eq, l3, mem_allOf]
    · rw [decide_eq_true_eq, l4, mem_allOf]
    · rw [decide_eq_true_eq, List.mem_map]
      constructor
      · rintro ⟨⟨a, b⟩, h, rfl⟩
        exact ⟨b, h⟩
      · rintro ⟨r, h⟩
        exact ⟨_, h, rfl⟩

/-- C85 (instruments). `with_instruments` accepts exactly the portfolios with at least one instrument in which every
maturity is after the evaluation date. -/
theorem C85_accepts (eval : DT) (l : List Instr) :
    (engineAccepts eval l = .ok () ↔ l ≠ [] ∧ ∀ i ∈ l, ∀ m, i.maturity = some m → eval.instant < m.instant) ∧
    (engineAccepts eval l = .ok () ∨ engineAccepts eval l = .error .err) := by
  unfold engineAccepts
  rw [C81_currencies, Res.bind_ok]
  have h := C80_selections l "" .krw [] [] eval
  cases l with
  | nil => simp
  | cons x r =>
    rw [if_neg (by simp)]
    constructor
    · constructor
      · intro h'
        refine ⟨by simp, fun i hi m hm => ?_⟩
        split at h'
        · rename_i he
          rw [List.isEmpty_iff] at he
          by_contra hcon
          have := (h.2.2.2.1.mem i).2 ⟨hi, by simp, m, hm, by omega⟩
          rw [he] at this
          cases this
        · cases h'
      · rintro ⟨-, h'⟩
        rw [if_pos]
        rw [List.isEmpty_iff, List.eq_nil_iff_forall_not_mem]
        intro i hi
        obtain ⟨hi, -, m, hm, hle⟩ := (h.2.2.2.1.mem i).1 hi
        have := h' i hi m hm
        omega
    · split <;> simp

/-- C85 (start). An engine starts exactly if the portfolio is accepted, the data suffices and every instrument has a pricer
over what is loaded; each pricer is the one of C83. -/
theorem C85_start (p : MatchParam) (d : DataSet) (analytic : Bool) (eval : DT) (l : List Instr) (qs : List Plan) :
    engineStart p d analytic eval l = .ok qs ↔
      engineAccepts eval l = .ok () ∧ ∃ m, engineLoad p d l = .ok m ∧ List.Forall₂ (PricerSpec p m analytic) l qs := by
  unfold engineStart
  simp only [bind_ok_iff]
  have key : ∀ m, mapRes (createPricer p m analytic) l = .ok qs ↔ List.Forall₂ (PricerSpec p m analytic) l qs := by
    intro m
    clear * -
    induction l generalizing qs with
    | nil =>
      simp only [mapRes, List.forall₂_nil_left_iff, Except.ok.injEq]
      exact eq_comm
    | cons i r ih =>
      simp only [mapRes, bind_ok_iff, List.forall₂_cons_left_iff, Except.ok.injEq, C83_plan]
      constructor
      · rintro ⟨q, hq, rs, hrs, rfl⟩
        exact ⟨q, rs, hq, (ih rs).1 hrs, rfl⟩
      · rintro ⟨q, rs, hq, hrs, rfl⟩
        exact ⟨q, hq, rs, (ih rs).2 hrs, rfl⟩
  constructor
  · rintro ⟨_, h1, m, h2, h3⟩
    exact ⟨h1, m, h2, (key m).1 h3⟩
  · rintro ⟨h1, m, h2, h3⟩
    exact ⟨(), h1, m, h2, (key m).2 h3⟩

/-- C83 (instruments that cannot be priced). Whatever the names and the market data, an engine does not start with a KTB
future or a bond future; nor, unless an underlying is called `Dummy`, with an interest rate swap, an option settled daily or
a bond without discount curve name; nor with a stock whose own code is not the code of an underlying. -/
theorem fault_never_priced (p : MatchParam) (d : DataSet) (analytic : Bool) (eval : DT) (l : List Instr) (qs : List Plan)
    (hd : ∀ i ∈ l, dummy ∉ i.unds) (h : engineStart p d analytic eval l = .ok qs) : ∀ i ∈ l,
    (∀ t, i.kind ≠ .ktbf t) ∧ i.kind ≠ .bondFutures ∧ (∀ a b x, i.kind ≠ .swap .irs a b x) ∧
    (∀ c u uc, i.kind ≠ .option c u uc true) ∧
    (∀ n t r x, i.kind = .bond n t r x → p.bondDiscount (n, t, r, i.ccy) ≠ none) ∧
    (∀ u, i.kind = .stock u → ∃ j ∈ l, i.code ∈ j.unds) := by
  obtain ⟨-, m, hm, hq⟩ := (C85_start p d analytic eval l qs).1 h
  obtain ⟨-, he, hc, -⟩ := (C85_load p d l).2 m hm
  have hdum : ¬ m.curves dummy = true := by
    rw [hc]
    rintro (h | ⟨i, hi, h⟩)
    · simp [curvesInUse] at h
    · exact hd i hi h
  intro i hi
  obtain ⟨q, hq⟩ : ∃ q, PricerSpec p m analytic i q := by
    clear * - hq hi
    induction hq with
    | nil => cases hi
    | cons h _ ih =>
      rcases List.mem_cons.1 hi with rfl | hi
      · exact ⟨_, h⟩
      · exact ih hi
  unfold PricerSpec at hq
  refine ⟨fun t e => ?_, fun e => ?_, fun a b x e => ?_, fun c u uc e => ?_, fun n t r x e hn => ?_, fun u e => ?_⟩
  · rw [e] at hq; exact hq
  · rw [e] at hq; exact hq
  · rw [e] at hq
    obtain ⟨ca, cb, f, g, h1, h2, -⟩ := hq
    rw [if_pos rfl] at h1
    rw [h1.1] at h2
    exact hdum h2
  · rw [e] at hq
    obtain ⟨-, d', c', b', -, -, h1, h2, -⟩ := hq
    rw [if_pos rfl] at h1
    rw [h1] at h2
    exact hdum h2
  · rw [e] at hq
    obtain ⟨d', f, g, h1, h2, -⟩ := hq
    rw [hn] at h1
    rcases h1 with h1 | ⟨-, rfl⟩
    · cases h1
    · exact hdum h2
  · rw [e] at hq
    obtain ⟨h1, -⟩ := hq
    exact (he _).1 h1

/-- A portfolio for the concrete cases: a future and a quanto option on a stock, a dollar bond, a currency swap, the stock and
cash -/
noncomputable def samplePortfolio : List Instr :=
  [⟨"F", .futures "A" .krw, .krw, 1, day0 2025 6 12, 0⟩, ⟨"O", .option true "A" .krw false, .usd, 1, day0 2025 9 11, 0⟩,
   ⟨"B", .bond "T" 0 0 none, .usd, 1, day0 2030 1 2, 0⟩, ⟨"C", .swap .crs .krw .usd (some ⟨"SOFR", "SOFR1D"⟩), .krw, 1, day0 2028 1 2, 0⟩,
   ⟨"A", .stock "A", .krw, 1, day0 2025 1 2, 0⟩, ⟨"M", .cash, .krw, 1, day0 2025 1 2, 0⟩]

/-- Names for the concrete case -/
def sampleNames : MatchParam where
  collateral := fun u => if u = "A" then some "KSD" else none
  borrowing := fun u => if u = "A" then some "A" else none
  bondDiscount := fun k => if k = ("T", 0, 0, .usd) then some "USDGOV" else none
  rateForward := fun c => if c = "SOFR" then some "USDOIS" else none
  crs := fun c => if c = .krw then some "KRWCRS" else if c = .usd then some "USDOIS" else none
  funding := fun c => if c = .usd then some "USDOIS" else none

/-- Market data for the concrete case -/
noncomputable def sampleData : DataSet where
  fx := fun c => if c = ⟨.usd, .krw⟩ then some 1300 else none
  stocks := fun u => if u = "A" then some 350 else none
  curves := fun n => if n ∈ ["KSD", "USDOIS", "USDGOV", "KRWCRS", "A"] then some (.ok ()) else none
  dividends := fun _ => none
  constVols := fun u => if u = "A" then some (.ok ()) else none
  surfaces := fun _ => none
  fxVols := fun c => if c = ⟨.krw, .usd⟩ then some (1 / 10) else none
  corrs := fun q => if q = ("A", ⟨.krw, .usd⟩) then some (-1 / 2) else none
  pasts := [("SOFR1D", .ok ())]

/-- A concrete portfolio and market with which the engine starts; the pricers are those expected. -/
theorem start_witness : engineStart sampleNames sampleData true (day0 2025 1 2) samplePortfolio =
    .ok [.futures "A" "KSD" "A", .option "A" "A" "USDOIS" "KSD" "A" (some ("A", ⟨.krw, .usd⟩)), .bond "USDGOV" none none,
      .swap "KRWCRS" "USDOIS" (some "USDOIS") (some "SOFR1D") (some ⟨.usd, .krw⟩), .stock "A", .cash] := by
  rfl

/-! ## C86 -/

/-- C86 (exchange rates). The rate of a pair is the quote of the pair; without it, one over the quote of the reciprocal;
without both, the ratio of the two quotes against KRW; without these, an error. -/
theorem C86_rate (d : DataSet) (c : FxCode) :
    (∀ x, d.fx c = some x → fxRate d c = .ok x) ∧
    (∀ x, d.fx c = none → d.fx { ccy1 := c.ccy2, ccy2 := c.ccy1 } = some x → x ≠ 0 → fxRate d c = .ok (1 / x)) ∧
    (∀ x y, d.fx c = none → d.fx { ccy1 := c.ccy2, ccy2 := c.ccy1 } = none → d.fx { ccy1 := c.ccy1, ccy2 := .krw } = some x →
      d.fx { ccy1 := c.ccy2, ccy2 := .krw } = some y → y ≠ 0 → fxRate d c = .ok (x / y)) ∧
    (d.fx c = none → d.fx { ccy1 := c.ccy2, ccy2 := c.ccy1 } = none →
      (d.fx { ccy1 := c.ccy1, ccy2 := .krw } = none ∨ d.fx { ccy1 := c.ccy2, ccy2 := .krw } = none) → fxRate d c = .error .err) := by
  unfold fxRate FxCode.reciprocal
  refine ⟨fun x h => by rw [h], fun x h h2 h3 => ?_, fun x y h h2 h3 h4 h5 => ?_, fun h h2 h3 => ?_⟩
  · rw [h, h2]
    exact (divK_ok_iff _ _ _).2 ⟨h3, rfl⟩
  · rw [h, h2, h3, h4]
    exact (divK_ok_iff _ _ _).2 ⟨h5, rfl⟩
  · rw [h, h2]
    dsimp only
    rcases h3 with h3 | h3 <;> rw [h3]
    cases d.fx { ccy1 := c.ccy1, ccy2 := .krw } <;> rfl

/-- Specification: the quotes are those of one consistent set of prices of the currencies. -/
def Arbitragefree (d : DataSet) (price : Currency → ℝ) : Prop :=
  (∀ c, 0 < price c) ∧ ∀ a b x, d.fx { ccy1 := a, ccy2 := b } = some x → x = price a / price b

/-- C86 (consistency). If the quotes are free of arbitrage, every rate found is that of the prices, whichever way it was
found; so the rates of a pair and its reciprocal multiply to one, and rates compose. If quotes contradict each other (pair and
reciprocal both quoted), the quotes themselves are used. -/
theorem C86_consistent (d : DataSet) (price : Currency → ℝ) (h : Arbitragefree d price) (c : FxCode) (x : ℝ)
    (hx : fxRate d c = .ok x) : x = price c.ccy1 / price c.ccy2 := by
  obtain ⟨hpos, hq⟩ := h
  obtain ⟨a, b⟩ := c
  have pa := hpos a
  have pb := hpos b
  have pk := hpos .krw
  unfold fxRate FxCode.reciprocal at hx
  dsimp only at hx ⊢
  split at hx
  · rename_i y hy
    cases hx
    exact hq _ _ _ hy
  · split at hx
    · rename_i y hy
      obtain ⟨_, rfl⟩ := (divK_ok_iff _ _ _).1 hx
      rw [hq _ _ _ hy, one_div_div]
    · split at hx
      · rename_i y z hy hz
        obtain ⟨_, rfl⟩ := (divK_ok_iff _ _ _).1 hx
        rw [hq _ _ _ hy, hq _ _ _ hz]
        field_simp
      · cases hx

end Verif.Props

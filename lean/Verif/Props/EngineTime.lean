import Verif.Props.Engine
/-!
# C91, C92: dividend delta and theta of the pricing engine
-/
set_option autoImplicit false
namespace Verif.Props
open Verif Verif.QL Verif.Civil

/-! ## Specification -/

/-- A dividend as it is after loading with no dividend date in the past: built at the evaluation date. -/
structure GoodDiv (eval : DT) (v : Dividend ℝ) : Prop where
  len : v.dates.length = v.amounts.length
  spot : v.spot ≠ 0
  yields : v.yields = v.amounts.map fun a => a / v.spot
  ordered : DivOrdered v.dates
  ahead : ∀ d ∈ v.dates, eval.instant ≤ d.instant
  years : ∀ d ∈ v.dates, -9999 ≤ d.ymd.y ∧ d.ymd.y ≤ 9999
  built : v.update eval = .ok v

/-- All dividends of the market are such. -/
def GoodDivs (m : Mkt) : Prop := ∀ u k, m.dividend u = some k → ∃ v f, m.w.divs[k]? = some (v, f) ∧ GoodDiv m.w.date v

/-- Only the dividend of `u` is different: the amounts at the dates in `win` are `b` higher, the yields follow, and it is rebuilt
at the evaluation date. -/
def DivShifted (u : String) (win : DT → Prop) (b : ℝ) (m m' : Mkt) : Prop :=
  ∃ k v v' f, m.dividend u = some k ∧ m.w.divs[k]? = some (v, f) ∧ v'.dates = v.dates ∧ v'.spot = v.spot ∧
    v'.amounts = List.zipWith (fun a d => open Classical in if win d then a + b else a) v.amounts v.dates ∧
    v'.yields = v'.amounts.map (fun a => a / v.spot) ∧ v'.update m.w.date = .ok v' ∧
    m' = { m with w := { m.w with divs := m.w.divs.set k (v', f) } }

/-- The days after `d1`, up to `d2`; a missing limit is no limit. -/
def DivWindow (d1 d2 : Option DT) (d : DT) : Prop := (∀ x, d1 = some x → x.day < d.day) ∧ (∀ x, d2 = some x → d.day ≤ x.day)

/-! ## Dividends bumped and put back -/

theorem dropPast_none (ex : List DT) (eval : DT) (h : ∀ d ∈ ex, eval.instant ≤ d.instant) (ys : List ℝ) (ns : List Int) (i : Nat) :
    dropPast ex eval i 0 ys ns = .ok (ys, ns) := by
  by_cases hi : i < ex.length
  · have h0 : 0 < ex.length := by omega
    have := h ex[0] (List.getElem_mem h0)
    rw [dropPast, if_pos hi, dif_pos h0, if_neg (by omega)]
    exact dropPast_none ex eval h ys ns (i + 1)
  · rw [dropPast, if_neg hi]
termination_by ex.length - i

/-- Built at the evaluation date with nothing past: built from all dividends. -/
theorem built_all (eval : DT) (v : Dividend ℝ) (h : ∀ d ∈ v.dates, eval.instant ≤ d.instant) :
    v.update eval = .ok v ↔ mkInterp (v.dates.map yyyymmdd) (ratios 1 v.yields) = .ok v.interp := by
  unfold Dividend.update
  rw [dropPast_none v.dates eval h]
  simp only [Res.bind_ok]
  constructor
  · intro e
    obtain ⟨it, h1, h2⟩ := (bind_ok_iff _ _ _).1 e
    have := congrArg Dividend.interp (Except.ok.inj h2)
    dsimp only at this
    rw [← this]
    exact h1
  · intro e
    rw [e]
    rfl

theorem window_iff (d1 d2 : Option DT) (d : DT) (h : -9999 ≤ d.ymd.y ∧ d.ymd.y ≤ 9999) :
    (bumpLow d1 < yyyymmdd d ∧ yyyymmdd d ≤ bumpHigh d2) ↔ DivWindow d1 d2 d := by
  have hb : -99999999 < yyyymmdd d ∧ yyyymmdd d ≤ 99999999 := by
    have v := ofOrd_valid d.day
    have := dim_le (ofOrd d.day).y (ofOrd d.day).m
    obtain ⟨a1, a2, a3, a4⟩ := v
    unfold yyyymmdd
    unfold DT.ymd at *
    omega
  refine and_congr ?_ ?_
  · cases d1 with
    | none => simp [bumpLow, hb.1]
    | some a => simp [bumpLow, yyyymmdd_lt]
  · cases d2 with
    | none => simp [bumpHigh, hb.2]
    | some a => simp [bumpHigh, yyyymmdd_le]

theorem zip_window (v : Dividend ℝ) (d1 d2 : Option DT) (b : ℝ) (hy : ∀ d ∈ v.dates, -9999 ≤ d.ymd.y ∧ d.ymd.y ≤ 9999) :
    List.zipWith (fun a n => a + (if bumpLow d1 < n ∧ n ≤ bumpHigh d2 then (1 : ℝ) else 0) * b) v.amounts (v.dates.map yyyymmdd)
      = List.zipWith (fun a d => open Classical in if DivWindow d1 d2 d then a + b else a) v.amounts v.dates := by
  rw [List.zipWith_map_right]
  generalize v.amounts = l
  generalize v.dates = m at hy
  induction l generalizing m with
  | nil => simp
  | cons a l ih =>
    cases m with
    | nil => simp
    | cons d m =>
      rw [List.zipWith_cons_cons, List.zipWith_cons_cons, ih m fun x hx => hy x (List.mem_cons_of_mem _ hx)]
      congr 1
      by_cases hc : bumpLow d1 < yyyymmdd d ∧ yyyymmdd d ≤ bumpHigh d2
      · rw [if_pos hc, if_pos ((window_iff d1 d2 d (hy d (by simp))).1 hc), one_mul]
      · rw [if_neg hc, if_neg (fun h => hc ((window_iff d1 d2 d (hy d (by simp))).2 h)), zero_mul, add_zero]

theorem zip_undo (p : Int → Prop) [DecidablePred p] (b : ℝ) : ∀ (l : List ℝ) (m : List Int), m.length = l.length →
    List.zipWith (fun a n => a + (if p n then (1 : ℝ) else 0) * -b) (List.zipWith (fun a n => a + (if p n then (1 : ℝ) else 0) * b) l m) m = l
  | [], [], _ => rfl
  | a :: l, n :: m, h => by
    rw [List.zipWith_cons_cons, List.zipWith_cons_cons, zip_undo p b l m (by simpa using h)]
    congr 1
    ring

/-- The window of a bump is in order: else the bump is refused. -/
def WindowOk (d1 d2 : Option DT) : Prop := bumpLow d1 < bumpHigh d2

theorem div_bump (eval : DT) (v : Dividend ℝ) (hv : GoodDiv eval v) (d1 d2 : Option DT) (b : ℝ) (hw : WindowOk d1 d2) :
    ∃ v', v.bump d1 d2 b = .ok v' ∧ GoodDiv eval v' ∧ v'.dates = v.dates ∧ v'.spot = v.spot ∧
      v'.amounts = List.zipWith (fun a d => open Classical in if DivWindow d1 d2 d then a + b else a) v.amounts v.dates ∧
      v'.bump d1 d2 (-b) = .ok v := by
  have hw' : ¬ bumpLow d1 ≥ bumpHigh d2 := not_le.2 hw
  have hz := zip_window v d1 d2 b hv.years
  generalize hA : List.zipWith (fun a n => a + (if bumpLow d1 < n ∧ n ≤ bumpHigh d2 then (1 : ℝ) else 0) * b) v.amounts (v.dates.map yyyymmdd) = A at hz
  have hAl : v.dates.length = A.length := by rw [← hA]; simp [List.length_zipWith, hv.len]
  have hl : v.dates.length = (A.map fun a => a / v.spot).length := by simpa using hAl
  obtain ⟨it, h1, -⟩ := mkInterp_spec ((v.dates.zip (A.map fun a => a / v.spot)).map fun p => (yyyymmdd p.1, p.2)) (by
    rw [List.map_map]
    have : ((v.dates.zip (A.map fun a => a / v.spot)).map Prod.fst).Pairwise fun a b => a.day < b.day := by
      rw [zip_fst _ _ hl]; exact hv.ordered.1
    rw [List.pairwise_map] at this ⊢
    exact this.imp fun h => (yyyymmdd_lt _ _).2 h)
  have e1 : ((v.dates.zip (A.map fun a => a / v.spot)).map fun p => (yyyymmdd p.1, p.2)).map Prod.fst = v.dates.map yyyymmdd := by
    rw [List.map_map]
    conv_rhs => rw [← zip_fst _ _ hl, List.map_map]
    rfl
  have e2 : ((v.dates.zip (A.map fun a => a / v.spot)).map fun p => (yyyymmdd p.1, p.2)).map Prod.snd = A.map fun a => a / v.spot := by
    rw [List.map_map]
    exact zip_snd _ _ hl
  rw [e1, e2] at h1
  have hold := (built_all eval v hv.ahead).1 hv.built
  refine ⟨{ v with amounts := A, yields := A.map fun a => a / v.spot, interp := it }, ?_, ⟨hAl, hv.spot, rfl, hv.ordered, hv.ahead, hv.years, ?_⟩, rfl, rfl, hz, ?_⟩
  · unfold Dividend.bump
    dsimp only
    rw [if_neg hw', hA, yieldsOf_eq _ _ hv.spot, Res.bind_ok, h1, Res.bind_ok]
  · exact (built_all eval { v with amounts := A, yields := A.map fun a => a / v.spot, interp := it } hv.ahead).2 h1
  · unfold Dividend.bump
    dsimp only
    rw [if_neg hw', ← hA, zip_undo (fun n => bumpLow d1 < n ∧ n ≤ bumpHigh d2) b _ _ (by simp [hv.len]), yieldsOf_eq _ _ hv.spot, Res.bind_ok, ← hv.yields, hold, Res.bind_ok]

theorem bumpDiv_spec (m m' : Mkt) (hm : GoodDivs m) (u : String) (d1 d2 : Option DT) (b : ℝ) (h : m.bumpDiv u d1 d2 b = .ok m') :
    DivShifted u (DivWindow d1 d2) b m m' ∧ m'.bumpDiv u d1 d2 (-b) = .ok m := by
  unfold Mkt.bumpDiv at h
  cases hk : m.dividend u with
  | none => rw [hk] at h; cases h
  | some k =>
    obtain ⟨v, f, hv, good⟩ := hm u k hk
    rw [hk] at h
    simp only [hv] at h
    obtain ⟨v', hb, h⟩ := (bind_ok_iff _ _ _).1 h
    obtain rfl := Except.ok.inj h
    have hw : WindowOk d1 d2 := by
      by_contra hc
      unfold Dividend.bump at hb
      dsimp only at hb
      rw [if_pos (not_lt.1 hc)] at hb
      cases hb
    obtain ⟨v1, g1, g2, g3, g4, g5, g6⟩ := div_bump _ v good d1 d2 b hw
    rw [g1] at hb
    obtain rfl := Except.ok.inj hb
    refine ⟨⟨k, v, v1, f, hk, hv, g3, g4, g5, ?_, g2.built, rfl⟩, ?_⟩
    · rw [g2.yields, g4]
    · unfold Mkt.bumpDiv
      have hlt : k < m.w.divs.length := (List.getElem?_eq_some_iff.1 hv).1
      simp only [hk, List.getElem?_set_self hlt, g6, Res.bind_ok]
      refine congrArg Except.ok ?_
      have : (m.w.divs.set k (v1, f)).set k (v, f) = m.w.divs := by
        rw [List.set_set]
        obtain ⟨_, e⟩ := List.getElem?_eq_some_iff.1 hv
        rw [← e, List.set_getElem_self]
      rw [this]

theorem bumpDiv_ok (m : Mkt) (hm : GoodDivs m) (u : String) (d1 d2 : Option DT) (b : ℝ) (k : Nat) (hk : m.dividend u = some k) (hw : WindowOk d1 d2) :
    ∃ m', m.bumpDiv u d1 d2 b = .ok m' := by
  obtain ⟨v, f, hv, good⟩ := hm u k hk
  obtain ⟨v1, g1, -⟩ := div_bump _ v good d1 d2 b hw
  unfold Mkt.bumpDiv
  rw [hk]
  simp only [hv, g1, Res.bind_ok]
  exact ⟨_, rfl⟩

theorem divShifted_unique (u : String) (win : DT → Prop) (b : ℝ) (m m1 m2 : Mkt) (h1 : DivShifted u win b m m1) (h2 : DivShifted u win b m m2) : m1 = m2 := by
  obtain ⟨k, v, v1, f, a1, a2, a3, a4, a5, a6, a7, rfl⟩ := h1
  obtain ⟨k', v', v2, f', b1, b2, b3, b4, b5, b6, b7, rfl⟩ := h2
  rw [a1] at b1
  obtain rfl := Option.some.inj b1
  rw [a2] at b2
  obtain ⟨rfl, rfl⟩ := Prod.mk.inj (Option.some.inj b2)
  have hA : v1.amounts = v2.amounts := a5.trans b5.symm
  have hY : v1.yields = v2.yields := by rw [a6, b6, hA]
  have hI : v1.interp = v2.interp := by
    unfold Dividend.update at a7 b7
    rw [a3, hY] at a7
    rw [b3] at b7
    obtain ⟨q, q1, a7⟩ := (bind_ok_iff _ _ _).1 a7
    obtain ⟨it, q2, a7⟩ := (bind_ok_iff _ _ _).1 a7
    rw [q1, Res.bind_ok, q2, Res.bind_ok] at b7
    have e1 := congrArg Dividend.interp (Except.ok.inj a7)
    have e2 := congrArg Dividend.interp (Except.ok.inj b7)
    exact e1.symm.trans e2
  have : v1 = v2 := by
    cases v1
    cases v2
    simp only [Dividend.mk.injEq]
    exact ⟨a3.trans b3.symm, hA, hY, a4.trans b4.symm, hI⟩
  rw [this]

/-! ## C91: dividend delta -/

theorem div_put (n : String) : PutAt divPart n (fun x v => { x with divDelta := x.divDelta.put n v }) := ⟨fun _ _ => rfl, fun _ _ => rfl⟩

theorem setDivDelta_eq (g : EngCfg) (e : Eng) : setDivDelta g e =
    eachName (fun u => .ok (withUnderlying g.insts u ["Stock", "Cash"])) (fun u => diffRound g (fun m => m.bumpDiv u none none g.conf.divBump)
      (fun m => m.bumpDiv u none none (-g.conf.divBump)) (fun x v => { x with divDelta := x.divDelta.put u v }) g.conf.divBump 0.0001)
      (allUnds g.insts) e := rfl

theorem divShifted_all (u : String) (b : ℝ) (m m' : Mkt) : DivShifted u (DivWindow none none) b m m' → DivShifted u (fun _ => True) b m m' := by
  rintro ⟨k, v, v1, f, a1, a2, a3, a4, a5, a6⟩
  refine ⟨k, v, v1, f, a1, a2, a3, a4, ?_, a6⟩
  rw [a5]
  congr 1
  funext a d
  rw [if_pos trivial, if_pos]
  exact ⟨by simp, by simp⟩

/-- **C91** (dividend delta), for markets without past dividends. After the dividend part the market is what it was. Every instrument
other than stock and cash has, for each of its underlyings (which must have dividends), the forward difference of its npv when every
dividend of the underlying rises by the bump, for a rise by 0.0001 and its notional. Nothing else in the results has changed. -/
theorem C91_div_delta (g : EngCfg) (hg : OwnCodes g) (e e' : Eng) (hc : GoodDivs e.mkt) (h : setDivDelta g e = .ok e') :
    e'.mkt = e.mkt ∧ (∀ c, c ∉ g.insts.map Instr.code → e'.results c = e.results c) ∧
    ∀ i ∈ g.insts, ∀ x, e.results i.code = some x → ∃ y, e'.results i.code = some y ∧ y = { x with divDelta := y.divDelta } ∧
      ∀ u, (u ∈ i.unds ∧ i.typeName ≠ "Stock" ∧ i.typeName ≠ "Cash" → ∃ m, DivShifted u (fun _ => True) g.conf.divBump e.mkt m ∧
          ForwardDiff g m g.conf.divBump 0.0001 i x.npv (y.divDelta u)) ∧
        (¬ (u ∈ i.unds ∧ i.typeName ≠ "Stock" ∧ i.typeName ≠ "Cash") → y.divDelta u = x.divDelta u) := by
  rw [setDivDelta_eq] at h
  obtain ⟨h1, h2, h3⟩ := forward_spec g hg divPart (fun n x v => { x with divDelta := x.divDelta.put n v }) div_put (fun u m => m.bumpDiv u none none g.conf.divBump)
    (fun u m => m.bumpDiv u none none (-g.conf.divBump)) g.conf.divBump 0.0001 e.mkt _ (fun n i => n ∈ i.unds ∧ i.typeName ∉ ["Stock", "Cash"]) _ (nodup_allUnds _)
    (fun n hn act hact i => by
      obtain rfl := Except.ok.inj hact
      exact withUnderlying_mem g.insts n _ i)
    (fun n _ m hm => (bumpDiv_spec e.mkt m hc n none none _ hm).2) e e' rfl h
  refine ⟨h1, h3, fun i hi x hx => ?_⟩
  obtain ⟨y, hy, e1, e2, e3⟩ := h2 i hi x hx
  refine ⟨y, hy, e1, fun n => ⟨fun hu => ?_, fun hu => e3 n fun hc => hu ⟨hc.2.1, by simpa using hc.2.2⟩⟩⟩
  obtain ⟨m, hm, hf⟩ := e2 n ((mem_allUnds _ _).2 ⟨i, hi, hu.1⟩) ⟨hu.1, by simp [hu.2.1, hu.2.2]⟩
  exact ⟨m, divShifted_all n _ _ _ (bumpDiv_spec e.mkt m hc n none none _ hm).1, hf⟩

/-- **C91** (when it succeeds). It is enough that the bump is not 0, every instrument has its npv, and every instrument other than stock
and cash can be repriced with the dividends of each of its underlyings, which are there, shifted; by `C91_div_delta` that is also
needed. -/
theorem C91_succeeds (g : EngCfg) (hg : OwnCodes g) (e : Eng) (hc : GoodDivs e.mkt) (hv : Valued g.insts e.results) (hb : g.conf.divBump ≠ 0)
    (h : ∀ i ∈ g.insts, i.typeName ≠ "Stock" ∧ i.typeName ≠ "Cash" → ∀ u ∈ i.unds, ∃ m up, DivShifted u (fun _ => True) g.conf.divBump e.mkt m ∧
      g.npv i m = .ok up) :
    ∃ e', setDivDelta g e = .ok e' := by
  rw [setDivDelta_eq]
  refine forward_total g hg divPart (fun n x v => { x with divDelta := x.divDelta.put n v }) div_put (fun u m => m.bumpDiv u none none g.conf.divBump)
    (fun u m => m.bumpDiv u none none (-g.conf.divBump)) g.conf.divBump 0.0001 hb e.mkt _ _ (fun n _ => ?_) e rfl hv
  refine ⟨_, rfl, fun i hi => ((withUnderlying_mem _ _ _ _).1 hi).1, fun hne => ?_⟩
  have key : ∀ i ∈ withUnderlying g.insts n ["Stock", "Cash"], ∃ m up, DivShifted n (fun _ => True) g.conf.divBump e.mkt m ∧ g.npv i m = .ok up := by
    intro i hi
    rw [withUnderlying_mem] at hi
    exact h i hi.1 (by simpa using hi.2.2) n hi.2.1
  obtain ⟨i0, hi0⟩ := List.exists_mem_of_ne_nil _ hne
  obtain ⟨m0, -, s0, -⟩ := key i0 hi0
  obtain ⟨k, -, -, -, hk, -⟩ := id s0
  obtain ⟨m, hm⟩ := bumpDiv_ok e.mkt hc n none none g.conf.divBump k hk (by unfold WindowOk bumpLow bumpHigh; norm_num)
  obtain ⟨s1, s2⟩ := bumpDiv_spec e.mkt m hc n none none _ hm
  refine ⟨m, hm, s2, fun i hi => ?_⟩
  obtain ⟨m', up, s3, s4⟩ := key i hi
  rw [divShifted_unique n _ _ _ _ _ s3 (divShifted_all n _ _ _ s1)] at s4
  exact ⟨up, s4⟩

/-- A fault: past dividends come back. Whatever the evaluation date, after the round of an underlying its amounts are what they
were, but its deduction ratio counts every dividend up to the day, also those before the evaluation date, which a dividend built at
that date (`C48_update`) does not count. -/
theorem fault_div_delta_past (g : EngCfg) (u : String) (e e' : Eng) (k : Nat) (v : Dividend ℝ) (f : Bool) (hk : e.mkt.dividend u = some k)
    (hv : e.mkt.w.divs[k]? = some (v, f)) (hlen : v.dates.length = v.amounts.length) (ho : DivOrdered v.dates) (hspot : v.spot ≠ 0)
    (hy : v.yields = v.amounts.map fun a => a / v.spot) (hyears : ∀ d ∈ v.dates, -9999 ≤ d.ymd.y ∧ d.ymd.y ≤ 9999)
    (h : divRound g u e = .ok e') :
    ∃ v', e'.mkt.w.divs[k]? = some (v', f) ∧ v'.dates = v.dates ∧ v'.amounts = v.amounts ∧
      (∀ d, v'.ratio d = .ok (keep (fun x => decide (x.day ≤ d.day)) v.pairs)) ∧
      ∀ w eval, (∃ d ∈ v.dates, eval.instant ≤ d.instant) → v.update eval = .ok w → ∀ d, w.ratio d = .ok (keep (due eval d) v.pairs) := by
  unfold divRound diffRound at h
  obtain ⟨m, hm, h⟩ := (bind_ok_iff _ _ _).1 h
  obtain ⟨_, -, h⟩ := (bind_ok_iff _ _ _).1 h
  obtain ⟨_, -, h⟩ := (bind_ok_iff _ _ _).1 h
  obtain ⟨m', hm', h⟩ := (bind_ok_iff _ _ _).1 h
  obtain rfl := Except.ok.inj h
  have hlt : k < e.mkt.w.divs.length := (List.getElem?_eq_some_iff.1 hv).1
  have hy' : ∀ (d : DT), (none : Option DT) = some d ∨ (none : Option DT) = some d ∨ d ∈ v.dates → -9999 ≤ d.ymd.y ∧ d.ymd.y ≤ 9999 := by
    rintro d (h | h | h)
    · cases h
    · cases h
    · exact hyears d h
  obtain ⟨v1, a1, a2, a3, a4, a5, -⟩ := C56_bump v hlen ho hspot none none g.conf.divBump (by simp) hy'
  have hl1 : v1.dates.length = v1.amounts.length := by rw [a2, a4]; simp [List.length_zipWith, hlen]
  obtain ⟨v2, b1, b2, b3, b4, b5, b6⟩ := C56_bump v1 hl1 (by rw [a2]; exact ho) (by rw [a3]; exact hspot) none none (-g.conf.divBump) (by simp)
    (by rw [a2]; exact hy')
  have hA : v2.amounts = v.amounts := by
    rw [b4, a4, a2]
    simp only [reduceCtorEq, false_implies, implies_true, and_self, if_true]
    generalize v.amounts = l at hlen
    generalize v.dates = m at hlen
    induction l generalizing m with
    | nil => simp
    | cons a l ih =>
      cases m with
      | nil => simp at hlen
      | cons d m =>
        rw [List.zipWith_cons_cons, List.zipWith_cons_cons, ih m (by simpa using hlen)]
        congr 1
        ring
  have hP : v2.pairs = v.pairs := by
    unfold Dividend.pairs
    rw [b5, hA, a3, b2, a2, hy]
  unfold Mkt.bumpDiv at hm
  simp only [hk, hv, a1, Res.bind_ok] at hm
  obtain rfl := Except.ok.inj hm
  unfold Mkt.bumpDiv at hm'
  simp only [hk, List.getElem?_set_self hlt, b1, Res.bind_ok] at hm'
  obtain rfl := Except.ok.inj hm'
  refine ⟨v2, ?_, b2.trans a2, hA, fun d => ?_, fun w eval hahead hw d => ?_⟩
  · simp only [List.set_set, List.getElem?_set_self hlt]
  · rw [b6 d, hP]
  · have hne : v.dates ≠ [] := by
      obtain ⟨x, hx, -⟩ := hahead
      exact List.ne_nil_of_mem hx
    obtain ⟨w', c1, -, -, -, -, c2⟩ := (C48_update v (by rw [hy]; simpa using hlen) hne ho eval).1 hahead
    rw [hw] at c1
    obtain rfl := Except.ok.inj c1
    exact c2 d

/-! ## C92: theta -/

/-- Specification: prices and dividends as they are after loading (engine.rs 195-525): those with dividends are quoted at the
evaluation date, the dividends are registered and built at it, and no dividend is the whole price. -/
structure AtDate (w : World ℝ) : Prop where
  wf : World.Wf w
  quoted : ∀ p ∈ w.prices, p.div ≠ none → p.at_ = w.date
  part : ∀ p ∈ w.prices, ∀ q ∈ pairsOf w p, q.2 ≠ 1
  built : ∀ v ∈ w.divs, v.2 = true ∧ v.1.update w.date = .ok v.1

theorem update_twice (v v' : Dividend ℝ) (a b : DT) (h : v.update a = .ok v') : v'.update b = v.update b := by
  unfold Dividend.update at h
  obtain ⟨q, -, h⟩ := (bind_ok_iff _ _ _).1 h
  obtain ⟨it, -, h⟩ := (bind_ok_iff _ _ _).1 h
  obtain rfl := Except.ok.inj h
  rfl

theorem setDate_parts (w w' : World ℝ) (d : DT) (h : w.setDate d = .ok w') :
    ∀ (i : Nat) v, w.divs[i]? = some v → v.2 = true → ∃ x, v.1.update d = .ok x ∧ w'.divs[i]? = some (x, true) := by
  unfold World.setDate at h
  obtain ⟨ps, h1, h⟩ := (bind_ok_iff _ _ _).1 h
  obtain ⟨ds, h2, h⟩ := (bind_ok_iff _ _ _).1 h
  obtain rfl := Except.ok.inj h
  obtain ⟨b1, b2⟩ := (mapRes_iff _ _ _).1 h2
  intro i v hv hr
  have hi : i < ds.length := by rw [b1]; exact (List.getElem?_eq_some_iff.1 hv).1
  have := b2 i v _ hv (List.getElem?_eq_getElem hi)
  rw [if_pos hr] at this
  obtain ⟨x, hx, e⟩ := (bind_ok_iff _ _ _).1 this
  exact ⟨x, hx, by rw [List.getElem?_eq_getElem hi, Except.ok.inj e]⟩

theorem priceUpdate_div (p p' : Price ℝ) (divs : List (Dividend ℝ)) (d : DT) (h : p.update divs d = .ok p') :
    p'.div = p.div ∧ (p.div = none → p' = p) ∧ (p.div ≠ none → p'.at_ = d) := by
  unfold Price.update at h
  cases hd : p.div with
  | none =>
    rw [hd] at h
    obtain rfl := Except.ok.inj h
    exact ⟨hd, fun _ => rfl, fun hc => absurd rfl hc⟩
  | some i =>
    rw [hd] at h
    simp only at h
    cases hv : divs[i]? with
    | none => rw [hv] at h; cases h
    | some v =>
      rw [hv] at h
      simp only at h
      split at h
      · obtain rfl := Except.ok.inj h
        exact ⟨rfl, by simp, fun _ => rfl⟩
      · obtain ⟨x, -, h⟩ := (bind_ok_iff _ _ _).1 h
        obtain rfl := Except.ok.inj h
        exact ⟨rfl, by simp, fun _ => rfl⟩

/-- Moving the evaluation date and back restores everything that observes it. -/
theorem there_and_back (w w1 w2 : World ℝ) (hw : AtDate w) (b : DT) (h1 : w.setDate b = .ok w1) (h2 : w1.setDate w.date = .ok w2) : w2 = w := by
  obtain ⟨-, l1, u1, dl1, -⟩ := setDate_ok w w1 b h1
  obtain ⟨c2, l2, u2, dl2, -⟩ := setDate_ok w1 w2 w.date h2
  have hm : w.moves [b, w.date] = .ok w2 := by
    unfold World.moves
    rw [h1]
    simp only [Res.bind_ok]
    unfold World.moves
    rw [h2]
    rfl
  have hp : w2.prices = w.prices := by
    apply List.ext_getElem? 
    intro j
    by_cases hj : j < w.prices.length
    · have g0 := List.getElem?_eq_getElem hj
      have g1 := List.getElem?_eq_getElem (by omega : j < w1.prices.length)
      have g2 := List.getElem?_eq_getElem (by omega : j < w2.prices.length)
      generalize w.prices[j] = p at g0
      generalize w1.prices[j]'(by omega) = p1 at g1
      generalize w2.prices[j]'(by omega) = p2 at g2
      have hmem : p ∈ w.prices := List.mem_of_getElem? g0
      obtain ⟨d1, n1, s1⟩ := priceUpdate_div _ _ _ _ (u1 j p p1 g0 g1)
      obtain ⟨d2, n2, s2⟩ := priceUpdate_div _ _ _ _ (u2 j p1 p2 g1 g2)
      rw [g0, g2]
      refine congrArg some ?_
      by_cases hd : p.div = none
      · rw [n2 (d1.trans hd), n1 hd]
      · have hv := C47_round_trip w w2 [b, w.date] hm j p p2 g0 g2 (hw.part p hmem) (by simp [hw.quoted p hmem hd])
        have ha : p2.at_ = p.at_ := by rw [s2 (by rw [d1]; exact hd), hw.quoted p hmem hd]
        have hdd : p2.div = p.div := d2.trans d1
        cases p
        cases p2
        simp only [Price.mk.injEq]
        exact ⟨hv, ha, hdd⟩
    · rw [List.getElem?_eq_none (by omega), List.getElem?_eq_none (by omega)]
  have hd : w2.divs = w.divs := by
    apply List.ext_getElem? 
    intro j
    by_cases hj : j < w.divs.length
    · have g0 := List.getElem?_eq_getElem hj
      generalize w.divs[j] = v at g0
      obtain ⟨t, hb⟩ := hw.built v (List.mem_of_getElem? g0)
      obtain ⟨x, x1, x2⟩ := setDate_parts w w1 b h1 j v g0 t
      obtain ⟨y, y1, y2⟩ := setDate_parts w1 w2 w.date h2 j (x, true) x2 rfl
      rw [update_twice _ _ _ _ x1, hb] at y1
      obtain rfl := Except.ok.inj y1
      rw [y2, g0]
      exact congrArg some (Prod.ext rfl t.symm)
    · rw [List.getElem?_eq_none (by omega), List.getElem?_eq_none (by omega)]
  cases w
  cases w2
  simp only [World.mk.injEq]
  exact ⟨c2, hp, hd⟩

theorem restore_total (a b : DT) : ∀ (l : List (DT × ℝ)) (v : ℝ), (∀ q ∈ l, q.2 ≠ 1) → ∃ x, restore a b v l = .ok x
  | [], v, _ => ⟨v, rfl⟩
  | (d, y) :: l, v, h => by
    unfold restore
    split
    · rw [(divK_eq v (1 - y) _).2 ⟨sub_ne_zero.2 (Ne.symm (h (d, y) (by simp))), rfl⟩]
      exact restore_total a b l _ fun q hq => h q (List.mem_cons_of_mem _ hq)
    · exact restore_total a b l v fun q hq => h q (List.mem_cons_of_mem _ hq)

/-- The way back is always open. -/
theorem back_ok (w w1 : World ℝ) (hw : AtDate w) (b : DT) (h1 : w.setDate b = .ok w1) : ∃ w2, w1.setDate w.date = .ok w2 := by
  obtain ⟨-, l1, u1, dl1, pr1⟩ := setDate_ok w w1 b h1
  unfold World.setDate
  obtain ⟨ps, hps⟩ := mapRes_total (fun p => Price.update p (w1.divs.map Prod.fst) w.date) w1.prices fun p1 hp1 => by
    obtain ⟨j, hj, rfl⟩ := List.mem_iff_getElem.1 hp1
    have g1 := List.getElem?_eq_getElem hj
    have g0 := List.getElem?_eq_getElem (by omega : j < w.prices.length)
    generalize w1.prices[j] = p1 at g1
    generalize w.prices[j]'(by omega) = p at g0
    have hmem : p ∈ w.prices := List.mem_of_getElem? g0
    obtain ⟨d1, n1, -⟩ := priceUpdate_div _ _ _ _ (u1 j p p1 g0 g1)
    unfold Price.update
    rw [d1]
    cases hd : p.div with
    | none => exact ⟨_, rfl⟩
    | some i =>
      obtain ⟨v, hv⟩ := hw.wf p hmem i hd
      have hi : i < w1.divs.length := by rw [dl1]; exact (List.getElem?_eq_some_iff.1 hv).1
      have hv1 := List.getElem?_eq_getElem hi
      have hpairs := pr1 i v _ hv hv1
      simp only [List.getElem?_map, hv1, Option.map_some]
      split
      · exact ⟨_, rfl⟩
      · obtain ⟨x, hx⟩ := restore_total p1.at_ w.date (w1.divs[i]).1.pairs p1.value (by
          rw [hpairs]
          have := hw.part p hmem
          unfold pairsOf at this
          simp only [hd, hv] at this
          exact this)
        rw [hx]
        exact ⟨_, rfl⟩
  rw [hps]
  simp only [Res.bind_ok]
  obtain ⟨ds, hds⟩ := mapRes_total (fun v : Dividend ℝ × Bool => if v.2 then (do let x ← Dividend.update v.1 w.date; .ok (x, true)) else .ok v) w1.divs fun v1 hv1 => by
    obtain ⟨j, hj, rfl⟩ := List.mem_iff_getElem.1 hv1
    have g1 := List.getElem?_eq_getElem hj
    have g0 := List.getElem?_eq_getElem (by omega : j < w.divs.length)
    generalize w.divs[j]'(by omega) = v at g0
    obtain ⟨t, hb⟩ := hw.built v (List.mem_of_getElem? g0)
    obtain ⟨x, x1, x2⟩ := setDate_parts w w1 b h1 j v g0 t
    rw [g1] at x2
    rw [Option.some.inj x2]
    simp only [if_true]
    rw [update_twice _ _ _ _ x1, hb]
    exact ⟨_, rfl⟩
  rw [hds]
  exact ⟨_, rfl⟩

/-- Specification: the cash flows on days after `a` up to `b`. -/
noncomputable def cashDue (a b : DT) (fl : Flows) : ℝ := ((fl.filter fun q => decide (a.day < q.1.day ∧ q.1.day ≤ b.day)).map Prod.snd).sum

theorem cashBetween_eq (a b : DT) : ∀ (fl : Flows) (s : ℝ), cashBetween a b fl s = s + cashDue a b fl
  | [], s => by simp [cashBetween, cashDue]
  | (d, x) :: fl, s => by
    unfold cashBetween
    split
    · rename_i h
      rw [cashBetween_eq a b fl]
      simp only [cashDue, List.filter_cons, h, and_self, decide_true, if_true, List.map_cons, List.sum_cons]
      ring
    · rename_i h
      rw [cashBetween_eq a b fl]
      simp only [cashDue, List.filter_cons, h, decide_false, Bool.false_eq_true, if_false]

/-- Specification: theta of an instrument with the date moved to `d`: the change of its npv with the cash flows due on the way, times
notional, per year and then per day. -/
def ThetaAt (g : EngCfg) (M : Mkt) (d : DT) (i : Instr) (x : EResult) (y : Option ℝ) : Prop :=
  ∃ w v v' fl, M.w.setDate d = .ok w ∧ g.npv i M = .ok v ∧ g.npv i { M with w := w } = .ok v' ∧ x.flows = some fl ∧ timeFrom M.w.date d ≠ 0 ∧
    y = some ((v' - v + cashDue M.w.date d fl) * x.notional / timeFrom M.w.date d / 365)

/-- Specification: the date an instrument is moved to: `b`, if it matures later or never; otherwise the first of the maturities of
the instruments (no stock, no cash) of the portfolio maturing up to `b`. -/
def ThetaDate (g : EngCfg) (b : DT) (i : Instr) (d : DT) : Prop :=
  ((∀ m, i.maturity = some m → b.instant < m.instant) ∧ d = b) ∨
  ((∃ m, i.maturity = some m ∧ m.instant ≤ b.instant) ∧
    (∃ j ∈ g.insts, j.typeName ≠ "Stock" ∧ j.typeName ≠ "Cash" ∧ j.maturity = some d) ∧ d.instant ≤ b.instant ∧
    ∀ j ∈ g.insts, j.typeName ≠ "Stock" ∧ j.typeName ≠ "Cash" → ∀ m, j.maturity = some m → d.instant ≤ m.instant)

theorem thetaLoop_spec (npvs npvs' : Map String ℝ) (a b : DT) (dt : ℝ) : ∀ (l : List Instr) (r r' : Results), (l.map Instr.code).Nodup →
    (∀ i ∈ l, i.typeName ≠ "Stock" ∧ i.typeName ≠ "Cash") → thetaLoop npvs npvs' a b dt l r = .ok r' →
    (∀ i ∈ l, ∃ x v v' fl, r i.code = some x ∧ npvs i.code = some v ∧ npvs' i.code = some v' ∧ x.flows = some fl ∧ dt ≠ 0 ∧
      r' i.code = some { x with theta := some ((v' - v + cashDue a b fl) * x.notional / dt / 365) }) ∧
    ∀ c, c ∉ l.map Instr.code → r' c = r c := by
  intro l
  induction l with
  | nil =>
    intro r r' _ _ h
    obtain rfl := Except.ok.inj h
    exact ⟨by simp, fun _ _ => rfl⟩
  | cons i l ih =>
    intro r r' hn ht h
    rw [List.map_cons, List.nodup_cons] at hn
    have hti := ht i (by simp)
    unfold thetaLoop at h
    rw [if_neg (by rintro (h | h); exacts [hti.1 h, hti.2 h])] at h
    obtain ⟨x, hx, h⟩ := (bind_ok_iff _ _ _).1 h
    obtain ⟨v, hv, h⟩ := (bind_ok_iff _ _ _).1 h
    obtain ⟨v', hv', h⟩ := (bind_ok_iff _ _ _).1 h
    obtain ⟨fl, hfl, h⟩ := (bind_ok_iff _ _ _).1 h
    obtain ⟨q, hq, h⟩ := (bind_ok_iff _ _ _).1 h
    rw [orErr_eq] at hx hv hv' hfl
    obtain ⟨hb, rfl⟩ := (divK_eq _ _ _).1 hq
    obtain ⟨h1, h2⟩ := ih _ _ hn.2 (fun j hj => ht j (List.mem_cons_of_mem _ hj)) h
    refine ⟨?_, ?_⟩
    · intro j hj
      rcases List.mem_cons.1 hj with rfl | hj
      · refine ⟨x, v, v', fl, hx, hv, hv', hfl, hb, ?_⟩
        rw [h2 _ hn.1, put_self, cashBetween_eq, zero_add, mul_one]
      · obtain ⟨x1, v1, v2, f1, a1, a2⟩ := h1 j hj
        have hne : j.code ≠ i.code := fun e => hn.1 (e ▸ List.mem_map_of_mem hj)
        rw [put_other _ _ _ _ hne] at a1
        exact ⟨x1, v1, v2, f1, a1, a2⟩
    · intro c hc
      simp only [List.map_cons, List.mem_cons, not_or] at hc
      rw [h2 c hc.2, put_other _ _ _ _ hc.1]

theorem thetaLoop_total (npvs npvs' : Map String ℝ) (a b : DT) (dt : ℝ) (hdt : dt ≠ 0) : ∀ (l : List Instr) (r : Results), (l.map Instr.code).Nodup →
    (∀ i ∈ l, (∃ v, npvs i.code = some v) ∧ (∃ v, npvs' i.code = some v) ∧ ∃ x fl, r i.code = some x ∧ x.flows = some fl) →
    ∃ r', thetaLoop npvs npvs' a b dt l r = .ok r' := by
  intro l
  induction l with
  | nil => exact fun r _ _ => ⟨r, rfl⟩
  | cons i l ih =>
    intro r hn h
    rw [List.map_cons, List.nodup_cons] at hn
    unfold thetaLoop
    split
    · exact ih r hn.2 fun j hj => h j (List.mem_cons_of_mem _ hj)
    · obtain ⟨⟨v, hv⟩, ⟨v', hv'⟩, x, fl, hx, hfl⟩ := h i (by simp)
      rw [hv, hv', hx]
      simp only [orErr, Res.bind_ok]
      rw [hfl]
      simp only [Res.bind_ok]
      rw [(divK_eq _ dt _).2 ⟨hdt, rfl⟩]
      simp only [Res.bind_ok]
      refine ih _ hn.2 fun j hj => ?_
      have hne : j.code ≠ i.code := fun e => hn.1 (e ▸ List.mem_map_of_mem hj)
      rw [put_other _ _ _ _ hne]
      exact h j (List.mem_cons_of_mem _ hj)

/-- One group of instruments. -/
theorem setThetaFor_spec (g : EngCfg) (hg : OwnCodes g) (l : List Instr) (hl : l.Sublist g.insts) (ht : ∀ i ∈ l, i.typeName ≠ "Stock" ∧ i.typeName ≠ "Cash")
    (b : DT) (e e' : Eng) (hM : AtDate e.mkt.w) (h : setThetaFor g l b e = .ok e') :
    e'.mkt = e.mkt ∧ (∀ i ∈ l, ∃ x y, e.results i.code = some x ∧ e'.results i.code = some y ∧ y = { x with theta := y.theta } ∧ ThetaAt g e.mkt b i x y.theta) ∧
    ∀ c, c ∉ l.map Instr.code → e'.results c = e.results c := by
  unfold setThetaFor at h
  obtain ⟨npvs, h1, h⟩ := (bind_ok_iff _ _ _).1 h
  obtain ⟨w, h2, h⟩ := (bind_ok_iff _ _ _).1 h
  obtain ⟨npvs', h3, h⟩ := (bind_ok_iff _ _ _).1 h
  obtain ⟨r, h4, h⟩ := (bind_ok_iff _ _ _).1 h
  obtain ⟨w', h5, h⟩ := (bind_ok_iff _ _ _).1 h
  obtain rfl := Except.ok.inj h
  obtain rfl := there_and_back _ _ _ hM b h2 h5
  have ha : Among g l := fun i hi => hl.subset hi
  obtain ⟨n1, -⟩ := getNpvs_spec g hg _ _ _ _ ha h1
  obtain ⟨n2, -⟩ := getNpvs_spec g hg _ _ _ _ ha h3
  obtain ⟨t1, t2⟩ := thetaLoop_spec npvs npvs' _ b _ l _ _ (List.Sublist.nodup (hl.map Instr.code) hg) ht h4
  refine ⟨rfl, fun i hi => ?_, t2⟩
  obtain ⟨x, v, v', fl, a1, a2, a3, a4, a5, a6⟩ := t1 i hi
  obtain ⟨u, b1, b2⟩ := n1 i hi
  obtain ⟨u', c1, c2⟩ := n2 i hi
  rw [a2] at b2
  obtain rfl := Option.some.inj b2
  rw [a3] at c2
  obtain rfl := Option.some.inj c2
  exact ⟨x, _, a1, a6, rfl, w, v, v', fl, h2, b1, c1, a4, a5, rfl⟩

theorem setThetaFor_total (g : EngCfg) (hg : OwnCodes g) (l : List Instr) (hl : l.Sublist g.insts)
    (b : DT) (e : Eng) (hM : AtDate e.mkt.w) (w : World ℝ) (hw : e.mkt.w.setDate b = .ok w) (hdt : timeFrom e.mkt.w.date b ≠ 0)
    (hr : ∀ i ∈ l, ∃ x fl, e.results i.code = some x ∧ x.flows = some fl)
    (hn : ∀ i ∈ l, (∃ v, g.npv i e.mkt = .ok v) ∧ ∃ v, g.npv i { e.mkt with w := w } = .ok v) : ∃ e', setThetaFor g l b e = .ok e' := by
  unfold setThetaFor
  have ha : Among g l := fun i hi => hl.subset hi
  obtain ⟨npvs, h1⟩ := getNpvs_total g e.mkt l (fun _ => none) fun i hi => (hn i hi).1
  obtain ⟨npvs', h2⟩ := getNpvs_total g { e.mkt with w := w } l (fun _ => none) fun i hi => (hn i hi).2
  obtain ⟨n1, -⟩ := getNpvs_spec g hg _ _ _ _ ha h1
  obtain ⟨n2, -⟩ := getNpvs_spec g hg _ _ _ _ ha h2
  obtain ⟨r, h3⟩ := thetaLoop_total npvs npvs' e.mkt.w.date b _ hdt l e.results (List.Sublist.nodup (hl.map Instr.code) hg) fun i hi => by
    obtain ⟨v, -, hv⟩ := n1 i hi
    obtain ⟨v', -, hv'⟩ := n2 i hi
    exact ⟨⟨v, hv⟩, ⟨v', hv'⟩, hr i hi⟩
  obtain ⟨w', h4⟩ := back_ok _ _ hM b hw
  rw [h1, Res.bind_ok, hw, Res.bind_ok, h2, Res.bind_ok, h3, Res.bind_ok, h4]
  exact ⟨_, rfl⟩

theorem preThetaLoop_spec : ∀ (l : List Instr) (r r' : Results), (l.map Instr.code).Nodup → preThetaLoop l r = .ok r' →
    (∀ i ∈ l, ∃ x, r i.code = some x ∧ r' i.code = some { x with theta := some 0 }) ∧ ∀ c, c ∉ l.map Instr.code → r' c = r c := by
  intro l
  induction l with
  | nil =>
    intro r r' _ h
    obtain rfl := Except.ok.inj h
    exact ⟨by simp, fun _ _ => rfl⟩
  | cons i l ih =>
    intro r r' hn h
    rw [List.map_cons, List.nodup_cons] at hn
    unfold preThetaLoop at h
    obtain ⟨x, hx, h⟩ := (bind_ok_iff _ _ _).1 h
    rw [orErr_eq] at hx
    obtain ⟨h1, h2⟩ := ih _ _ hn.2 h
    refine ⟨?_, ?_⟩
    · intro j hj
      rcases List.mem_cons.1 hj with rfl | hj
      · exact ⟨x, hx, by rw [h2 _ hn.1, put_self]⟩
      · obtain ⟨x1, a1, a2⟩ := h1 j hj
        have hne : j.code ≠ i.code := fun e => hn.1 (e ▸ List.mem_map_of_mem hj)
        rw [put_other _ _ _ _ hne] at a1
        exact ⟨x1, a1, a2⟩
    · intro c hc
      simp only [List.map_cons, List.mem_cons, not_or] at hc
      rw [h2 c hc.2, put_other _ _ _ _ hc.1]

theorem preThetaLoop_total : ∀ (l : List Instr) (r : Results), (∀ i ∈ l, ∃ x, r i.code = some x) → ∃ r', preThetaLoop l r = .ok r' := by
  intro l
  induction l with
  | nil => exact fun r _ => ⟨r, rfl⟩
  | cons i l ih =>
    intro r h
    obtain ⟨x, hx⟩ := h i (by simp)
    unfold preThetaLoop
    rw [hx]
    simp only [orErr, Res.bind_ok]
    refine ih _ fun j hj => ?_
    by_cases hc : j.code = i.code
    · rw [hc, put_self]; exact ⟨_, rfl⟩
    · rw [put_other _ _ _ _ hc]; exact h j (List.mem_cons_of_mem _ hj)

theorem upto_mem (l : List Instr) (d : DT) (i : Instr) : i ∈ maturityUpto l d ["Cash", "Stock"] ↔
    i ∈ l ∧ (i.typeName ≠ "Stock" ∧ i.typeName ≠ "Cash") ∧ ∃ m, i.maturity = some m ∧ m.instant ≤ d.instant := by
  rw [(C80_selections l "" .nil [] ["Cash", "Stock"] d).2.2.2.1.mem]
  simp only [List.mem_cons, List.not_mem_nil, or_false, not_or]
  tauto

theorem over_mem (l : List Instr) (d : DT) (i : Instr) : i ∈ maturityOver l d ["Cash", "Stock"] ↔
    i ∈ l ∧ (i.typeName ≠ "Stock" ∧ i.typeName ≠ "Cash") ∧ ∀ m, i.maturity = some m → d.instant < m.instant := by
  rw [(C80_selections l "" .nil [] ["Cash", "Stock"] d).2.2.2.2.mem]
  simp only [List.mem_cons, List.not_mem_nil, or_false, not_or]
  tauto

/-- The date of the short group. -/
theorem short_date (g : EngCfg) (b : DT) (hne : maturityUpto g.insts b ["Cash", "Stock"] ≠ []) :
    ∃ d, shortestMaturity (maturityUpto g.insts b ["Cash", "Stock"]) = some d ∧
      ∀ i ∈ maturityUpto g.insts b ["Cash", "Stock"], ThetaDate g b i d := by
  obtain ⟨s1, s2⟩ := C80_shortest (maturityUpto g.insts b ["Cash", "Stock"])
  cases hs : shortestMaturity (maturityUpto g.insts b ["Cash", "Stock"]) with
  | none =>
    obtain ⟨i, hi⟩ := List.exists_mem_of_ne_nil _ hne
    obtain ⟨-, -, m, hm, -⟩ := (upto_mem _ _ _).1 hi
    rw [s1.1 hs i hi] at hm
    cases hm
  | some d =>
    obtain ⟨⟨j, hj, hjd⟩, hmin⟩ := s2 d hs
    obtain ⟨j1, j2, m, j3, j4⟩ := (upto_mem _ _ _).1 hj
    rw [hjd] at j3
    obtain rfl := Option.some.inj j3
    refine ⟨d, rfl, fun i hi => .inr ⟨((upto_mem _ _ _).1 hi).2.2, ⟨j, j1, j2.1, j2.2, hjd⟩, j4, fun k hk hkt m hm => ?_⟩⟩
    by_cases hle : m.instant ≤ b.instant
    · exact hmin k ((upto_mem _ _ _).2 ⟨hk, hkt, m, hm, hle⟩) m hm
    · omega

/-- **C92** (theta). After the theta part the market is what it was. Stock and cash have theta 0. Any other instrument has the change
of its npv when the evaluation date, and with it every price and dividend, moves to the date of `ThetaDate`, plus the cash flows due on
the way, times its notional, divided by the time in years and by 365. Nothing else in the results has changed. -/
theorem C92_theta (g : EngCfg) (hg : OwnCodes g) (e e' : Eng) (hM : AtDate e.mkt.w) (h : setTheta g e = .ok e') :
    e'.mkt = e.mkt ∧ (∀ c, c ∉ g.insts.map Instr.code → e'.results c = e.results c) ∧
    ∃ b, e.mkt.w.date.addNs (g.conf.thetaDay * dayNs) = .ok b ∧
    ∀ i ∈ g.insts, ∀ x, e.results i.code = some x → ∃ y, e'.results i.code = some y ∧ y = { x with theta := y.theta } ∧
      (i.typeName = "Stock" ∨ i.typeName = "Cash" → y.theta = some 0) ∧
      (i.typeName ≠ "Stock" ∧ i.typeName ≠ "Cash" → ∃ d, ThetaDate g b i d ∧ ThetaAt g e.mkt d i x y.theta) := by
  unfold setTheta at h
  obtain ⟨r, hr, h⟩ := (bind_ok_iff _ _ _).1 h
  obtain ⟨b, hb, h⟩ := (bind_ok_iff _ _ _).1 h
  obtain ⟨e1, h1, h⟩ := (bind_ok_iff _ _ _).1 h
  have sT : (withTypes g.insts ["Cash", "Stock"]).Sublist g.insts := List.filter_sublist
  have sU : (maturityUpto g.insts b ["Cash", "Stock"]).Sublist g.insts := List.filter_sublist
  have sO : (maturityOver g.insts b ["Cash", "Stock"]).Sublist g.insts := List.filter_sublist
  obtain ⟨p1, p2⟩ := preThetaLoop_spec _ _ _ (List.Sublist.nodup (sT.map Instr.code) hg) hr
  have S1 : e1.mkt = e.mkt ∧ (∀ i ∈ maturityUpto g.insts b ["Cash", "Stock"], ∃ x y d, r i.code = some x ∧ e1.results i.code = some y ∧
      y = { x with theta := y.theta } ∧ ThetaDate g b i d ∧ ThetaAt g e.mkt d i x y.theta) ∧
      ∀ c, c ∉ (maturityUpto g.insts b ["Cash", "Stock"]).map Instr.code → e1.results c = r c := by
    unfold thetaShort at h1
    dsimp only at h1
    by_cases he : (maturityUpto g.insts b ["Cash", "Stock"]).isEmpty
    · rw [if_pos he] at h1
      obtain rfl := Except.ok.inj h1
      rw [List.isEmpty_iff.1 he]
      exact ⟨rfl, by simp, fun _ _ => rfl⟩
    · rw [if_neg he] at h1
      obtain ⟨d, hd, hdate⟩ := short_date g b fun hc => he (List.isEmpty_iff.2 hc)
      rw [hd] at h1
      obtain ⟨a1, a2, a3⟩ := setThetaFor_spec g hg _ sU (fun i hi => ((upto_mem _ _ _).1 hi).2.1) d ⟨e.mkt, e.action, r⟩ e1 hM h1
      refine ⟨a1, fun i hi => ?_, a3⟩
      obtain ⟨x, y, q1, q2, q3, q4⟩ := a2 i hi
      exact ⟨x, y, d, q1, q2, q3, hdate i hi, q4⟩
  obtain ⟨m1, s1, s2⟩ := S1
  have S2 : e'.mkt = e.mkt ∧ (∀ i ∈ maturityOver g.insts b ["Cash", "Stock"], ∃ x y, e1.results i.code = some x ∧ e'.results i.code = some y ∧
      y = { x with theta := y.theta } ∧ ThetaAt g e.mkt b i x y.theta) ∧
      ∀ c, c ∉ (maturityOver g.insts b ["Cash", "Stock"]).map Instr.code → e'.results c = e1.results c := by
    unfold thetaLong at h
    dsimp only at h
    by_cases he : (maturityOver g.insts b ["Cash", "Stock"]).isEmpty
    · rw [if_pos he] at h
      obtain rfl := Except.ok.inj h
      rw [List.isEmpty_iff.1 he]
      exact ⟨m1, by simp, fun _ _ => rfl⟩
    · rw [if_neg he] at h
      obtain ⟨a1, a2, a3⟩ := setThetaFor_spec g hg _ sO (fun i hi => ((over_mem _ _ _).1 hi).2.1) b e1 e' (by rw [m1]; exact hM) h
      rw [m1] at a2
      exact ⟨a1.trans m1, a2, a3⟩
  obtain ⟨m2, t1, t2⟩ := S2
  have inT : ∀ i ∈ g.insts, i.code ∈ (withTypes g.insts ["Cash", "Stock"]).map Instr.code ↔ i.typeName = "Stock" ∨ i.typeName = "Cash" := by
    intro i hi
    rw [among_all g _ (fun j hj => sT.subset hj) hg i hi, withTypes_mem]
    simp only [List.mem_cons, List.not_mem_nil, or_false]
    tauto
  refine ⟨m2, ?_, b, hb, ?_⟩
  · intro c hc
    have key : ∀ l : List Instr, l.Sublist g.insts → c ∉ l.map Instr.code := fun l hl hcl => hc ((hl.map Instr.code).subset hcl)
    rw [t2 c (key _ sO), s2 c (key _ sU), p2 c (key _ sT)]
  · intro i hi x hx
    have nU : i ∉ maturityUpto g.insts b ["Cash", "Stock"] → i.code ∉ (maturityUpto g.insts b ["Cash", "Stock"]).map Instr.code :=
      fun h hc => h ((among_all g _ (fun j hj => sU.subset hj) hg i hi).1 hc)
    have nO : i ∉ maturityOver g.insts b ["Cash", "Stock"] → i.code ∉ (maturityOver g.insts b ["Cash", "Stock"]).map Instr.code :=
      fun h hc => h ((among_all g _ (fun j hj => sO.subset hj) hg i hi).1 hc)
    by_cases ht : i.typeName = "Stock" ∨ i.typeName = "Cash"
    · obtain ⟨x', a1, a2⟩ := p1 i ((withTypes_mem _ _ _).2 ⟨hi, by simp only [List.mem_cons, List.not_mem_nil, or_false]; tauto⟩)
      rw [hx] at a1
      obtain rfl := Option.some.inj a1
      refine ⟨{ x with theta := some 0 }, ?_, rfl, fun _ => rfl, fun hc => absurd ht (by tauto)⟩
      rw [t2 _ (nO fun hc => absurd ((over_mem _ _ _).1 hc).2.1 (by tauto)), s2 _ (nU fun hc => absurd ((upto_mem _ _ _).1 hc).2.1 (by tauto)), a2]
    · have hx' : r i.code = some x := by rw [p2 _ fun hc => ht ((inT i hi).1 hc)]; exact hx
      have hty : i.typeName ≠ "Stock" ∧ i.typeName ≠ "Cash" := by tauto
      by_cases hm : ∃ m, i.maturity = some m ∧ m.instant ≤ b.instant
      · obtain ⟨x', y, d, q1, q2, q3, q4, q5⟩ := s1 i ((upto_mem _ _ _).2 ⟨hi, hty, hm⟩)
        rw [hx'] at q1
        obtain rfl := Option.some.inj q1
        refine ⟨y, ?_, q3, fun hc => absurd hc ht, fun _ => ⟨d, q4, q5⟩⟩
        rw [t2 _ (nO fun hc => ?_)]
        · exact q2
        · obtain ⟨m, m1, m2⟩ := hm
          have := ((over_mem _ _ _).1 hc).2.2 m m1
          omega
      · have hov : i ∈ maturityOver g.insts b ["Cash", "Stock"] := by
          refine (over_mem _ _ _).2 ⟨hi, hty, fun m hm' => ?_⟩
          by_contra hc
          exact hm ⟨m, hm', by omega⟩
        obtain ⟨x', y, q1, q2, q3, q4⟩ := t1 i hov
        rw [s2 _ (nU fun hc => hm ((upto_mem _ _ _).1 hc).2.2), hx'] at q1
        obtain rfl := Option.some.inj q1
        exact ⟨y, q2, q3, fun hc => absurd hc ht, fun _ => ⟨b, .inl ⟨((over_mem _ _ _).1 hov).2.2, rfl⟩, q4⟩⟩

/-- **C92** (when it succeeds). It is enough that the moved date exists, every instrument has a result with cash flows, and every
instrument other than stock and cash can be priced now and on the date it is moved to, which is some time away; by `C92_theta` that is also needed. -/
theorem C92_succeeds (g : EngCfg) (hg : OwnCodes g) (e : Eng) (hM : AtDate e.mkt.w) (b : DT) (hb : e.mkt.w.date.addNs (g.conf.thetaDay * dayNs) = .ok b)
    (hr : ∀ i ∈ g.insts, ∃ x fl, e.results i.code = some x ∧ x.flows = some fl)
    (h : ∀ i ∈ g.insts, i.typeName ≠ "Stock" ∧ i.typeName ≠ "Cash" → ∀ d, ThetaDate g b i d → ∃ w v v', e.mkt.w.setDate d = .ok w ∧
      g.npv i e.mkt = .ok v ∧ g.npv i { e.mkt with w := w } = .ok v' ∧ timeFrom e.mkt.w.date d ≠ 0) :
    ∃ e', setTheta g e = .ok e' := by
  unfold setTheta
  have sT : (withTypes g.insts ["Cash", "Stock"]).Sublist g.insts := List.filter_sublist
  have sU : (maturityUpto g.insts b ["Cash", "Stock"]).Sublist g.insts := List.filter_sublist
  have sO : (maturityOver g.insts b ["Cash", "Stock"]).Sublist g.insts := List.filter_sublist
  obtain ⟨r, hpre⟩ := preThetaLoop_total (withTypes g.insts ["Cash", "Stock"]) e.results fun i hi => by
    obtain ⟨x, -, hx, -⟩ := hr i (sT.subset hi)
    exact ⟨x, hx⟩
  obtain ⟨p1, p2⟩ := preThetaLoop_spec _ _ _ (List.Sublist.nodup (sT.map Instr.code) hg) hpre
  have hr1 : ∀ i ∈ g.insts, ∃ x fl, r i.code = some x ∧ x.flows = some fl := by
    intro i hi
    obtain ⟨x, fl, hx, hfl⟩ := hr i hi
    by_cases hc : i.code ∈ (withTypes g.insts ["Cash", "Stock"]).map Instr.code
    · obtain ⟨x', a1, a2⟩ := p1 i ((among_all g _ (fun j hj => sT.subset hj) hg i hi).1 hc)
      rw [hx] at a1
      obtain rfl := Option.some.inj a1
      exact ⟨_, fl, a2, hfl⟩
    · exact ⟨x, fl, by rw [p2 _ hc]; exact hx, hfl⟩
  rw [hpre, Res.bind_ok, hb, Res.bind_ok]
  have S1 : ∃ e1, thetaShort g b ⟨e.mkt, e.action, r⟩ = .ok e1 ∧ e1.mkt = e.mkt ∧ ∀ i ∈ g.insts, ∃ x fl, e1.results i.code = some x ∧ x.flows = some fl := by
    unfold thetaShort
    dsimp only
    by_cases he : (maturityUpto g.insts b ["Cash", "Stock"]).isEmpty
    · rw [if_pos he]
      exact ⟨_, rfl, rfl, hr1⟩
    · rw [if_neg he]
      have hne : maturityUpto g.insts b ["Cash", "Stock"] ≠ [] := fun hc => he (List.isEmpty_iff.2 hc)
      obtain ⟨d, hd, hdate⟩ := short_date g b hne
      rw [hd]
      obtain ⟨i0, hi0⟩ := List.exists_mem_of_ne_nil _ hne
      have key : ∀ i ∈ maturityUpto g.insts b ["Cash", "Stock"], _ := fun i hi => h i (sU.subset hi) ((upto_mem _ _ _).1 hi).2.1 d (hdate i hi)
      obtain ⟨w, -, -, hw, -, -, hdt⟩ := key i0 hi0
      obtain ⟨e1, he1⟩ := setThetaFor_total g hg _ sU d ⟨e.mkt, e.action, r⟩ hM w hw hdt (fun i hi => hr1 i (sU.subset hi)) fun i hi => by
        obtain ⟨w', v, v', q1, q2, q3, -⟩ := key i hi
        rw [hw] at q1
        obtain rfl := Except.ok.inj q1
        exact ⟨⟨v, q2⟩, v', q3⟩
      obtain ⟨a1, a2, a3⟩ := setThetaFor_spec g hg _ sU (fun i hi => ((upto_mem _ _ _).1 hi).2.1) d ⟨e.mkt, e.action, r⟩ e1 hM he1
      refine ⟨e1, he1, a1, fun i hi => ?_⟩
      obtain ⟨x, fl, hx, hfl⟩ := hr1 i hi
      by_cases hc : i.code ∈ (maturityUpto g.insts b ["Cash", "Stock"]).map Instr.code
      · obtain ⟨x', y, q1, q2, q3, -⟩ := a2 i ((among_all g _ (fun j hj => sU.subset hj) hg i hi).1 hc)
        dsimp only at q1
        rw [hx] at q1
        obtain rfl := Option.some.inj q1
        exact ⟨y, fl, q2, by rw [q3]; exact hfl⟩
      · exact ⟨x, fl, by rw [a3 _ hc]; exact hx, hfl⟩
  obtain ⟨e1, he1, m1, hr2⟩ := S1
  rw [he1, Res.bind_ok]
  unfold thetaLong
  dsimp only
  by_cases he : (maturityOver g.insts b ["Cash", "Stock"]).isEmpty
  · rw [if_pos he]
    exact ⟨_, rfl⟩
  · rw [if_neg he]
    have hne : maturityOver g.insts b ["Cash", "Stock"] ≠ [] := fun hc => he (List.isEmpty_iff.2 hc)
    obtain ⟨i0, hi0⟩ := List.exists_mem_of_ne_nil _ hne
    have key : ∀ i ∈ maturityOver g.insts b ["Cash", "Stock"], _ := fun i hi => h i (sO.subset hi) ((over_mem _ _ _).1 hi).2.1 b (.inl ⟨((over_mem _ _ _).1 hi).2.2, rfl⟩)
    obtain ⟨w, -, -, hw, -, -, hdt⟩ := key i0 hi0
    refine setThetaFor_total g hg _ sO b e1 (by rw [m1]; exact hM) w (by rw [m1]; exact hw) (by rw [m1]; exact hdt) (fun i hi => hr2 i (sO.subset hi)) fun i hi => ?_
    obtain ⟨w', v, v', q1, q2, q3, -⟩ := key i hi
    rw [hw] at q1
    obtain rfl := Except.ok.inj q1
    rw [m1]
    exact ⟨⟨v, q2⟩, v', q3⟩

end Verif.Props

import Verif.Props.EngineActCore
/-!
# C155: what a failed calculation leaves in the market
-/
set_option autoImplicit false
namespace Verif.Props
open Verif Verif.QL Verif.Civil

/-! ## Specification -/

/-- A change of the evaluation date that did not come to its end: the date is the new one; every price and every dividend is as it was or as the change
would have it. -/
def HalfMoved (d : DT) (w w' : World ℝ) : Prop :=
  w'.date = d ∧
  (∀ i : Nat, (w'.prices[i]? = w.prices[i]?) ∨ ∃ p p', w.prices[i]? = some p ∧ Price.update p (w.divs.map Prod.fst) d = .ok p' ∧ w'.prices[i]? = some p') ∧
  ∀ i : Nat, (w'.divs[i]? = w.divs[i]?) ∨ ∃ v v' : Dividend ℝ, w.divs[i]? = some (v, true) ∧ v.update d = .ok v' ∧ w'.divs[i]? = some (v', true)

/-- The dates theta looks at: so many days on, or the shortest maturity if there are instruments due by then (`ThetaDate`) -/
def ThetaDay (g : EngCfg) (M : Mkt) (d : DT) : Prop :=
  ∃ b, M.w.date.addNs (g.conf.thetaDay * dayNs) = .ok b ∧ ∃ i ∈ g.insts, ThetaDate g b i d

/-- What a calculation in the market `M` may leave when it fails: the market as it was, or with the bump of one part that was under way, and after the
matrix has begun with what the matrix leaves lower. -/
inductive Left (g : EngCfg) (names : List String) (ds : List DT) (M : Mkt) : Mkt → Prop
  | same : Left g names ds M M
  | delta (u : String) (m : Mkt) : g.conf.delta = true → u ∈ allUnds g.insts →
      PriceScaled u (1 + g.conf.deltaRatio) M m ∨ PriceScaled u (1 - g.conf.deltaRatio) M m → Left g names ds M m
  | theta (d : DT) (w : World ℝ) : g.conf.theta = true → ThetaDay g M d → M.w.setDate d = .ok w → Left g names ds M { M with w := w }
  | thetaHalf (d : DT) (f : Fault) (w : World ℝ) : g.conf.theta = true → ThetaDay g M d → M.w.setDate d = .error f → HalfMoved d M.w w →
      Left g names ds M { M with w := w }
  | vega (u : String) (m : Mkt) : g.conf.vega = true → u ∈ allUnds g.insts → VolShifted u (fun _ _ => True) g.conf.vegaBump M m → Left g names ds M m
  | rho (n : String) (m : Mkt) : g.conf.rho = true → (∃ i ∈ g.insts, UsesCurve g.p n i) → CurveShifted n (fun _ => True) g.conf.rhoBump M m →
      Left g names ds M m
  | divDelta (u : String) (m : Mkt) : g.conf.divDelta = true → u ∈ allUnds g.insts → DivShifted u (fun _ => True) g.conf.divBump M m → Left g names ds M m
  | vegaS (u : String) (k : Nat) (m : Mkt) : g.conf.vegaS = true → u ∈ allUnds g.insts → k < ds.length →
      VolShifted u (fun t _ => FromTenor (ds.map (timeFrom M.w.date)) k t) g.conf.vegaSBump M m → Left g names ds M m
  | rhoS (n : String) (dr : List DT) (k : Nat) (m : Mkt) : g.conf.rhoS = true → (∃ i ∈ g.insts, UsesCurve g.p n i) →
      calcDates g.md M.w.date g.conf.rhoTenors = .ok dr → k < dr.length →
      CurveShifted n (InTenor (dr.map (timeFrom M.w.date)) k) g.conf.rhoBump M m → Left g names ds M m
  | divS (u : String) (dd : List DT) (k : Nat) (m : Mkt) : g.conf.divS = true → u ∈ names →
      calcDates g.md M.w.date g.conf.divTenors = .ok dd → k < dd.length →
      DivShifted u (DayInTenor dd k) g.conf.divBump M m → Left g names ds M m
  | vegaM (pre suf : List String) (m : Mkt) : g.conf.vegaM = true → allUnds g.insts = pre ++ suf →
      LoweredTails g pre (ds.map (timeFrom M.w.date)) M m → Left g names ds M m
  | vegaMCell (pre suf : List String) (u : String) (T : ℝ) (k : Nat) (m m' : Mkt) : g.conf.vegaM = true → allUnds g.insts = pre ++ u :: suf →
      LoweredTails g pre (ds.map (timeFrom M.w.date)) M m → DoneBy M.w.date (fun j => j ∈ g.insts ∧ OnVol j u) T →
      VolShifted u (fun t x => ∃ c ∈ (matrixOrder (ds.map (timeFrom M.w.date)) T g.conf.moneyness.length).take k,
        InCell (ds.map (timeFrom M.w.date)) g.conf.moneyness c t x) g.conf.vegaSBump m m' → Left g names ds M m'

/-! ## Statements and the market -/

/-- From a market in `P` the statements end in a market in `Q`, or fail in one in `L`. -/
def Ends {α : Type} (P : Mkt → Prop) (a : Act Eng α) (Q L : Mkt → Prop) : Prop :=
  ∀ e, P e.mkt → (∀ e' x, a e = (e', .ok x) → Q e'.mkt) ∧ ∀ e' f, a e = (e', .error f) → L e'.mkt

theorem ends_seq {α β : Type} {P Q R L : Mkt → Prop} {a : Act Eng α} {k : α → Act Eng β} (ha : Ends P a Q L) (hk : ∀ x, Ends Q (k x) R L) :
    Ends P (a >>= k) R L := by
  intro e he
  obtain ⟨h1, h2⟩ := ha e he
  rcases h : a e with ⟨e1, f | x⟩
  · rw [seq_error h]
    exact ⟨fun e' x hx => (by cases hx), fun e' f' hf => (by cases hf; exact h2 _ _ h)⟩
  · rw [seq_ok h]
    exact hk x e1 (h1 _ _ h)

theorem ends_look {β : Type} {P R L : Mkt → Prop} {k : Eng → Act Eng β} (hk : ∀ s, P s.mkt → Ends P (k s) R L) : Ends P (look >>= k) R L :=
  fun e he => hk e he e he

theorem ends_expr {α β : Type} {P R L : Mkt → Prop} {r : Res α} {k : α → Act Eng β} (hL : ∀ m, P m → L m) (hk : ∀ x, r = .ok x → Ends P (k x) R L) :
    Ends P (expr r >>= k) R L := by
  rcases r with f | x
  · exact fun e he => ⟨fun e' x hx => (by cases hx), fun e' f' hf => (by cases hf; exact hL _ he)⟩
  · exact hk x rfl

theorem ends_untouched {α : Type} {P L : Mkt → Prop} {a : Act Eng α} (ha : Untouched Eng.mkt a) (hL : ∀ m, P m → L m) : Ends P a P L := by
  intro e he
  have h := ha e
  refine ⟨fun e' x hx => ?_, fun e' f hf => ?_⟩
  · rw [hx] at h; rw [show e'.mkt = e.mkt from h]; exact he
  · rw [hf] at h; rw [show e'.mkt = e.mkt from h]; exact hL _ he

theorem ends_mono {α : Type} {P P' Q Q' L L' : Mkt → Prop} {a : Act Eng α} (h : Ends P a Q L) (hP : ∀ m, P' m → P m) (hQ : ∀ m, Q m → Q' m)
    (hL : ∀ m, L m → L' m) : Ends P' a Q' L' :=
  fun e he => ⟨fun e' x hx => hQ _ ((h e (hP _ he)).1 e' x hx), fun e' f hf => hL _ ((h e (hP _ he)).2 e' f hf)⟩

/-- A change of the market that either succeeds or fails without writing -/
def Clean (a : Act Mkt Unit) (f : Mkt → Res Mkt) (m : Mkt) : Prop := (∃ x, a m = (m, .error x)) ∨ ∃ m', f m = .ok m' ∧ a m = (m', .ok ())

theorem ends_onMkt {P Q L : Mkt → Prop} {a : Act Mkt Unit} {f : Mkt → Res Mkt} (h : ∀ m, P m → Clean a f m) (hQ : ∀ m m', P m → f m = .ok m' → Q m')
    (hL : ∀ m, P m → L m) : Ends P (onMkt a) Q L := by
  intro e he
  rcases h _ he with ⟨x, hx⟩ | ⟨m', h1, h2⟩
  · rw [onMkt_error hx]
    exact ⟨fun e' x hx => (by cases hx), fun e' f' hf => (by cases hf; exact hL _ he)⟩
  · rw [onMkt_ok h2]
    exact ⟨fun e' x hx => (by cases hx; exact hQ _ _ he h1), fun e' f' hf => (by cases hf)⟩

/-! ### what only writes results -/

theorem untouched_setResult (c : String) (f : EResult → EResult) : Untouched Eng.mkt (setResult c f) :=
  untouched_seq untouched_look fun _ => untouched_seq (untouched_expr _) fun _ => untouched_assign fun _ => rfl

theorem untouched_readNpv (c : String) : Untouched Eng.mkt (readNpv c) := untouched_seq untouched_look fun _ => untouched_expr _

theorem untouched_npvs (g : EngCfg) : Untouched Eng.mkt (npvsAct g) := untouched_seq untouched_look fun _ => untouched_expr _

theorem untouched_eachResult (f : String → EResult → Res EResult) : ∀ l, Untouched Eng.mkt (eachResultAct f l)
  | [] => untouched_expr _
  | _ :: l => untouched_seq untouched_look fun _ => untouched_seq (untouched_expr _) fun _ => untouched_seq (untouched_expr _) fun _ =>
      untouched_seq (untouched_assign fun _ => rfl) fun _ => untouched_eachResult f l

theorem untouched_setNpvs (g : EngCfg) : Untouched Eng.mkt (setNpvsAct g) :=
  untouched_seq (untouched_seq untouched_look fun _ => untouched_seq (untouched_expr _) fun _ => untouched_eachResult _ _) fun _ =>
    untouched_seq (untouched_eachResult _ _) fun _ => untouched_eachResult _ _

theorem untouched_setExposures (g : EngCfg) : Untouched Eng.mkt (setExposuresAct g) :=
  untouched_seq untouched_look fun _ => untouched_seq (untouched_expr _) fun _ => untouched_eachResult _ _

theorem untouched_preDelta : ∀ l, Untouched Eng.mkt (preDeltaAct l)
  | [] => untouched_expr _
  | _ :: l => untouched_seq (untouched_readNpv _) fun _ => untouched_seq (untouched_setResult _ _) fun _ => untouched_seq (untouched_setResult _ _) fun _ =>
      untouched_preDelta l

theorem untouched_deltaLoop (u : String) (up down : Map String ℝ) (ratio : ℝ) : ∀ l, Untouched Eng.mkt (deltaLoopAct u up down ratio l)
  | [] => untouched_expr _
  | _ :: l => untouched_seq (untouched_expr _) fun _ => untouched_seq (untouched_expr _) fun _ => untouched_seq (untouched_expr _) fun _ =>
      untouched_seq (untouched_setResult _ _) fun _ => untouched_seq (untouched_readNpv _) fun _ => untouched_seq (untouched_expr _) fun _ =>
      untouched_seq (untouched_setResult _ _) fun _ => untouched_deltaLoop u up down ratio l

theorem untouched_diffLoop (put : EResult → ℝ → EResult) (ups : Map String ℝ) (b unit : ℝ) : ∀ l, Untouched Eng.mkt (diffLoopAct put ups b unit l)
  | [] => untouched_expr _
  | _ :: l => untouched_seq (untouched_expr _) fun _ => untouched_seq (untouched_readNpv _) fun _ => untouched_seq (untouched_expr _) fun _ =>
      untouched_seq (untouched_setResult _ _) fun _ => untouched_diffLoop put ups b unit l

theorem untouched_preTheta : ∀ l, Untouched Eng.mkt (preThetaAct l)
  | [] => untouched_expr _
  | _ :: l => untouched_seq (untouched_setResult _ _) fun _ => untouched_preTheta l

theorem untouched_thetaLoop (npvs npvs' : Map String ℝ) (a b : DT) (dt : ℝ) : ∀ l, Untouched Eng.mkt (thetaLoopAct npvs npvs' a b dt l)
  | [] => untouched_expr _
  | i :: l => by
    unfold thetaLoopAct
    split
    · exact untouched_thetaLoop npvs npvs' a b dt l
    · exact untouched_seq untouched_look fun _ => untouched_seq (untouched_expr _) fun _ => untouched_seq (untouched_expr _) fun _ =>
        untouched_seq (untouched_expr _) fun _ => untouched_seq (untouched_expr _) fun _ => untouched_seq (untouched_expr _) fun _ =>
        untouched_seq (untouched_setResult _ _) fun _ => untouched_thetaLoop npvs npvs' a b dt l

theorem untouched_writeTables {τ : Type} (put : EResult → τ → EResult) (t : Map String τ) : ∀ cs, Untouched Eng.mkt (writeTablesAct put t cs)
  | [] => untouched_expr _
  | _ :: cs => untouched_seq (untouched_expr _) fun _ => untouched_seq (untouched_setResult _ _) fun _ => untouched_writeTables put t cs

/-! ### bumps that fail write nothing -/

theorem bumpCurve_clean (m : Mkt) (hm : GoodCurves m) (n : String) (t1 t2 : Option ℝ) (b : ℝ) :
    Clean (bumpCurveAct n t1 t2 b) (fun m => m.bumpCurve n t1 t2 b) m := by
  rcases hc : m.curves n with _ | c
  · exact Or.inl ⟨.err, by unfold bumpCurveAct; rw [hc]⟩
  by_cases ht : t1.getD (-99999999) ≤ t2.getD 99999999
  · obtain ⟨m', h⟩ := bumpCurve_ok m hm n t1 t2 b c hc ht
    have := bumpCurve_does n t1 t2 b m
    dsimp only at this
    rw [h] at this
    exact Or.inr ⟨m', h, this⟩
  · refine Or.inl ⟨.err, ?_⟩
    have hlen := (hm n c hc).1.len
    have : curveAct t1 t2 b c = (c, .error .err) := by
      unfold curveAct
      rw [seq_look]
      dsimp only
      split
      · rfl
      · rw [if_pos (not_le.1 ht)]
        rfl
    unfold bumpCurveAct
    rw [hc]
    dsimp only
    rw [this]
    dsimp only
    rw [put_same _ _ _ hc]

theorem bumpVol_clean (m : Mkt) (hm : GoodVols m) (u : String) (t1 t2 x1 x2 : Option ℝ) (b : ℝ) :
    Clean (bumpVolAct u t1 t2 x1 x2 b) (fun m => m.bumpVol u t1 t2 x1 x2 b) m := by
  rcases hc : m.vols u with _ | v
  · exact Or.inl ⟨.err, by unfold bumpVolAct; rw [hc]⟩
  · obtain ⟨m', h⟩ := bumpVol_ok m hm u t1 t2 x1 x2 b v hc
    have := bumpVol_does u t1 t2 x1 x2 b m
    dsimp only at this
    rw [h] at this
    exact Or.inr ⟨m', h, this⟩

theorem bumpDiv_clean (m : Mkt) (hm : GoodDivs m) (u : String) (d1 d2 : Option DT) (b : ℝ) :
    Clean (bumpDivAct u d1 d2 b) (fun m => m.bumpDiv u d1 d2 b) m := by
  rcases hk : m.dividend u with _ | k
  · exact Or.inl ⟨.unwrapNone, by unfold bumpDivAct; rw [hk]⟩
  by_cases hw : WindowOk d1 d2
  · obtain ⟨m', h⟩ := bumpDiv_ok m hm u d1 d2 b k hk hw
    have := bumpDiv_does u d1 d2 b m
    dsimp only at this
    rw [h] at this
    exact Or.inr ⟨m', h, this⟩
  · obtain ⟨v, f, hv, -⟩ := hm u k hk
    refine Or.inl ⟨.err, ?_⟩
    have : dividendAct d1 d2 b v = (v, .error .err) := by
      unfold dividendAct
      rw [seq_look]
      dsimp only
      rw [if_pos (not_lt.1 hw)]
      rfl
    unfold bumpDivAct
    rw [hk]
    dsimp only
    rw [hv]
    dsimp only
    rw [this]
    dsimp only
    have e : m.w.divs.set k (v, f) = m.w.divs := by
      obtain ⟨q1, q2⟩ := List.getElem?_eq_some_iff.1 hv
      rw [← q2]
      exact List.set_getElem_self q1
    rw [e]

/-! ### delta and gamma -/

theorem ends_changePrice {u : String} {f : ℝ → ℝ} {m : Mkt} {j : Nat} {p : Price ℝ} (h : m.price u = some (j, p)) (L : Mkt → Prop) :
    Ends (· = m) (onMkt (changePrice u f)) (· = m.putPrice j p (f p.value)) L := by
  rintro e rfl
  rw [onMkt_ok (changePrice_eq u f _ j p h)]
  exact ⟨fun e' x hx => (by cases hx; rfl), fun e' f' hf => (by cases hf)⟩

theorem deltaRound_ends (g : EngCfg) (u : String) (M : Mkt) : Ends (· = M) (deltaRoundAct g u) (· = M)
    (fun m => m = M ∨ PriceScaled u (1 + g.conf.deltaRatio) M m ∨ PriceScaled u (1 - g.conf.deltaRatio) M m) := by
  unfold deltaRoundAct
  refine ends_look fun e he => ?_
  subst he
  refine ends_expr (fun m hm => Or.inl hm) fun jp hjp => ?_
  obtain ⟨j, p⟩ := jp
  have hp := (orErr_eq _ _).1 hjp
  obtain ⟨q1, q2⟩ := (price_iff _ _ _ _).1 hp
  have hs : ∀ k, PriceScaled u k e.mkt (e.mkt.putPrice j p (p.value * k)) := fun k => ⟨j, p, q1, q2, rfl⟩
  have hback : ∀ x, (e.mkt.putPrice j p x).putPrice j { p with value := x } p.value = e.mkt := fun x => by rw [putPrice_put, putPrice_same _ _ _ q2]
  refine ends_seq (ends_changePrice hp _) fun _ => ?_
  refine ends_seq (ends_untouched (untouched_npvs g) fun m hm => Or.inr (Or.inl (hm ▸ hs _))) fun up => ?_
  refine ends_seq (ends_changePrice (price_put u _ j p _ hp) _) fun _ => ?_
  dsimp only
  rw [hback]
  refine ends_seq (ends_changePrice hp _) fun _ => ?_
  refine ends_seq (ends_untouched (untouched_npvs g) fun m hm => Or.inr (Or.inr (hm ▸ hs _))) fun dn => ?_
  refine ends_seq (ends_untouched (untouched_deltaLoop _ _ _ _ _) fun m hm => Or.inr (Or.inr (hm ▸ hs _))) fun _ => ?_
  have h := ends_changePrice (f := fun _ => p.value) (price_put u _ j p (p.value * (1 - g.conf.deltaRatio)) hp)
    (fun m => m = e.mkt ∨ PriceScaled u (1 + g.conf.deltaRatio) e.mkt m ∨ PriceScaled u (1 - g.conf.deltaRatio) e.mkt m)
  rw [hback] at h
  exact h

theorem eachName_ends {P : Mkt → Prop} {L : Mkt → Prop} (pick : String → Res (List Instr)) (round : String → Act Eng Unit) (hPL : ∀ m, P m → L m) :
    ∀ (ns : List String), (∀ n ∈ ns, Ends P (round n) P L) → Ends P (eachNameAct pick round ns) P L
  | [], _ => ends_untouched (untouched_expr _) hPL
  | n :: ns, h => by
    have ih := eachName_ends pick round hPL ns fun k hk => h k (List.mem_cons_of_mem _ hk)
    unfold eachNameAct
    refine ends_expr hPL fun act _ => ends_seq (ends_untouched (untouched_assign fun _ => rfl) hPL) fun _ => ?_
    split
    · exact ih
    · exact ends_seq (h n List.mem_cons_self) fun _ => ih

theorem onlyIf_ends {P L : Mkt → Prop} (flag : Bool) {a : Act Eng Unit} (hPL : ∀ m, P m → L m) (h : flag = true → Ends P a P L) :
    Ends P (onlyIfAct flag a) P L := by
  cases flag with
  | true => exact h rfl
  | false => exact ends_untouched (untouched_expr _) hPL

section parts
variable (g : EngCfg) (names : List String) (ds : List DT) (M : Mkt)

theorem left_same : ∀ m, m = M → Left g names ds M m := by
  rintro _ rfl; exact .same

theorem setDeltas_ends (hf : g.conf.delta = true) : Ends (· = M) (setDeltasAct g) (· = M) (Left g names ds M) := by
  refine ends_seq (ends_untouched (untouched_preDelta _) (left_same g names ds M)) fun _ => ?_
  refine ends_seq (ends_untouched (untouched_assign fun _ => rfl) (left_same g names ds M)) fun _ => ?_
  refine eachName_ends _ _ (left_same g names ds M) _ fun u hu => ends_mono (deltaRound_ends g u M) (fun _ h => h) (fun _ h => h) fun m hm => ?_
  rcases hm with rfl | hm
  · exact .same
  · exact .delta u m hf hu hm

/-! ### forward differences -/

theorem diffRound_ends (bumpA undoA : Act Mkt Unit) (bump undo : Mkt → Res Mkt) (hb : Clean bumpA bump M) (hu : Does undoA undo)
    (hback : ∀ m, bump M = .ok m → undo m = .ok M) (put : EResult → ℝ → EResult) (b unit : ℝ) :
    Ends (· = M) (diffRoundAct g bumpA undoA put b unit) (· = M) (fun m => m = M ∨ bump M = .ok m) := by
  unfold diffRoundAct
  refine ends_look fun e he => ?_
  subst he
  refine ends_seq (Q := fun m => bump e.mkt = .ok m) (ends_onMkt (f := bump) (fun m hm => hm ▸ hb) (fun m m' hm h => hm ▸ h) fun m hm => Or.inl hm) fun _ => ?_
  refine ends_seq (ends_untouched (untouched_npvs g) fun m hm => Or.inr hm) fun ups => ?_
  refine ends_seq (ends_untouched (untouched_diffLoop _ _ _ _ _) fun m hm => Or.inr hm) fun _ => ?_
  refine ends_onMkt (f := undo) (fun m hm => Or.inr ⟨e.mkt, hback m hm, ?_⟩) (fun m m' hm h => ?_) fun m hm => Or.inr hm
  · have := hu m
    rw [hback m hm] at this
    exact this
  · rw [hback m hm] at h
    exact (Except.ok.inj h).symm

theorem setRho_ends (hM : GoodCurves M) (hf : g.conf.rho = true) : Ends (· = M) (setRhoAct g) (· = M) (Left g names ds M) := by
  refine ends_expr (left_same g names ds M) fun ns hns => ?_
  refine eachName_ends _ _ (left_same g names ds M) _ fun n hn => ?_
  refine ends_mono (diffRound_ends g M _ _ _ _ (bumpCurve_clean M hM n none none _) (bumpCurve_does n none none _) (fun m h => (bumpCurve_spec M m hM n _ _ _ h).2) _ _ _)
    (fun _ h => h) (fun _ h => h) fun m hm => ?_
  rcases hm with rfl | hm
  · exact .same
  · refine .rho n m hf ?_ (curveShifted_all n _ M m hM (bumpCurve_spec M m hM n _ _ _ hm).1)
    rw [(allCurves_ok _ _ _ hns).2, mem_curves] at hn
    exact hn

theorem setVega_ends (hM : GoodVols M) (hf : g.conf.vega = true) : Ends (· = M) (setVegaAct g) (· = M) (Left g names ds M) := by
  refine eachName_ends _ _ (left_same g names ds M) _ fun n hn => ?_
  refine ends_mono (diffRound_ends g M _ _ _ _ (bumpVol_clean M hM n none none none none _) (bumpVol_does n none none none none _)
    (fun m h => (bumpVol_spec M m hM n _ _ _ _ _ h).2.1) _ _ _) (fun _ h => h) (fun _ h => h) fun m hm => ?_
  rcases hm with rfl | hm
  · exact .same
  · exact .vega n m hf hn (volShifted_all n _ M m (bumpVol_spec M m hM n _ _ _ _ _ hm).1)

theorem setDivDelta_ends (hM : GoodDivs M) (hf : g.conf.divDelta = true) : Ends (· = M) (setDivDeltaAct g) (· = M) (Left g names ds M) := by
  refine eachName_ends _ _ (left_same g names ds M) _ fun n hn => ?_
  refine ends_mono (diffRound_ends g M _ _ _ _ (bumpDiv_clean M hM n none none _) (bumpDiv_does n none none _)
    (fun m h => (bumpDiv_spec M m hM n _ _ _ h).2) _ _ _) (fun _ h => h) (fun _ h => h) fun m hm => ?_
  rcases hm with rfl | hm
  · exact .same
  · exact .divDelta n m hf hn (divShifted_all n _ M m (bumpDiv_spec M m hM n _ _ _ hm).1)

/-! ### rho and dividend delta by tenor -/

theorem windowLoop_ends (bumpA : Nat → ℝ → Act Mkt Unit) (bump : Nat → ℝ → Mkt → Res Mkt) (b unit : ℝ) (dates : List DT) (act : List Instr)
    (hb : ∀ k, k < dates.length → Clean (bumpA k b) (bump k b) M) (hu : ∀ k x, Does (bumpA k x) (bump k x)) (hback : ∀ k m, bump k b M = .ok m → bump k (-b) m = .ok M) :
    ∀ (left k : Nat) (t : Map String (List ℝ)), k + left = dates.length →
    Ends (· = M) (windowLoopAct g bumpA b unit dates act left k t) (· = M) (fun m => m = M ∨ ∃ j, j < dates.length ∧ bump j b M = .ok m)
  | 0, k, t, _ => ends_untouched (untouched_expr _) fun m hm => Or.inl hm
  | left + 1, k, t, hk => by
    have hlt : k < dates.length := by omega
    unfold windowLoopAct
    refine ends_seq (Q := fun m => bump k b M = .ok m) (ends_onMkt (f := bump k b) (fun m hm => hm ▸ hb k hlt) (fun m m' hm h => hm ▸ h) fun m hm => Or.inl hm) fun _ => ?_
    refine ends_seq (ends_untouched (untouched_npvs g) fun m hm => Or.inr ⟨k, hlt, hm⟩) fun ups => ?_
    refine ends_look fun e he => ends_expr (fun m hm => Or.inr ⟨k, hlt, hm⟩) fun t' _ => ?_
    refine ends_seq (Q := (· = M)) (ends_onMkt (f := bump k (-b)) (fun m hm => Or.inr ⟨M, hback k m hm, ?_⟩) (fun m m' hm h => ?_) fun m hm => Or.inr ⟨k, hlt, hm⟩) fun _ => ?_
    · have := hu k (-b) m
      rw [hback k m hm] at this
      exact this
    · rw [hback k m hm] at h
      exact (Except.ok.inj h).symm
    refine ends_expr (fun m hm => Or.inl hm) fun d _ => ?_
    split
    · exact ends_untouched (untouched_expr _) fun m hm => Or.inl hm
    · exact windowLoop_ends bumpA bump b unit dates act hb hu hback left (k + 1) t' (by omega)

theorem windowRound_ends (bumpA : Nat → ℝ → Act Mkt Unit) (bump : Nat → ℝ → Mkt → Res Mkt) (put : EResult → List ℝ → EResult) (b unit : ℝ) (dates : List DT)
    (hb : ∀ k, k < dates.length → Clean (bumpA k b) (bump k b) M) (hu : ∀ k x, Does (bumpA k x) (bump k x)) (hback : ∀ k m, bump k b M = .ok m → bump k (-b) m = .ok M) :
    Ends (· = M) (windowRoundAct g bumpA put b unit dates) (· = M) (fun m => m = M ∨ ∃ j, j < dates.length ∧ bump j b M = .ok m) := by
  unfold windowRoundAct
  refine ends_look fun e _ => ends_seq (windowLoop_ends g M bumpA bump b unit dates e.action hb hu hback _ 0 _ (by omega)) fun t => ?_
  exact ends_untouched (untouched_writeTables _ _ _) fun m hm => Or.inl hm

theorem setRhoS_ends (hM : GoodCurves M) (hf : g.conf.rhoS = true) : Ends (· = M) (setRhoSAct g) (· = M) (Left g names ds M) := by
  unfold setRhoSAct
  refine ends_expr (left_same g names ds M) fun ns hns => ends_look fun e he => ends_expr (left_same g names ds M) fun dr hdr => ?_
  subst he
  refine eachName_ends _ _ (left_same g names ds e.mkt) _ fun n hn => ?_
  refine ends_mono (windowRound_ends g e.mkt _
    (fun i b m => m.bumpCurve n (startOf (dr.map (timeFrom e.mkt.w.date)) i) (dr.map (timeFrom e.mkt.w.date))[i]? b) _ _ _ _
    (fun k _ => bumpCurve_clean e.mkt hM n _ _ _) (fun k x => bumpCurve_does n _ _ _) (fun k m h => (bumpCurve_spec e.mkt m hM n _ _ _ h).2)) (fun _ h => h) (fun _ h => h)
    fun m hm => ?_
  rcases hm with rfl | ⟨k, hk, hm⟩
  · exact .same
  · refine .rhoS n dr k m hf ?_ hdr hk (curveShifted_congr n _ _ _ e.mkt m hM (fun t ht => bumpTimes_tenor _ k (by simpa using hk) t ht) (bumpCurve_spec e.mkt m hM n _ _ _ hm).1)
    rw [(allCurves_ok _ _ _ hns).2, mem_curves] at hn
    exact hn

theorem setDivS_ends (hM : GoodDivs M) (hf : g.conf.divS = true) : Ends (· = M) (setDivSAct g names) (· = M) (Left g names ds M) := by
  unfold setDivSAct
  refine ends_look fun e he => ends_expr (left_same g names ds M) fun dd hdd => ?_
  subst he
  refine eachName_ends _ _ (left_same g names ds e.mkt) _ fun u hu => ?_
  refine ends_mono (windowRound_ends g e.mkt _ (fun i b m => m.bumpDiv u (startOf dd i) dd[i]? b) _ _ _ _
    (fun k _ => bumpDiv_clean e.mkt hM u _ _ _) (fun k x => bumpDiv_does u _ _ _) (fun k m h => (bumpDiv_spec e.mkt m hM u _ _ _ h).2)) (fun _ h => h) (fun _ h => h)
    fun m hm => ?_
  rcases hm with rfl | ⟨k, hk, hm⟩
  · exact .same
  · exact .divS u dd k m hf hu hdd hk (divShifted_congr u _ _ _ e.mkt m (fun d => divWindow_tenor dd k d) (bumpDiv_spec e.mkt m hM u _ _ _ hm).1)

/-! ### theta -/

/-- Prices and dividends that are as in `w0` or as a change to `d` makes them -/
def Underway (d : DT) (w0 w : World ℝ) : Prop :=
  w.date = d ∧
  (∀ i : Nat, (w.prices[i]? = w0.prices[i]?) ∨ ∃ p p', w0.prices[i]? = some p ∧ Price.update p (w0.divs.map Prod.fst) d = .ok p' ∧ w.prices[i]? = some p') ∧
  ∀ i : Nat, (w.divs[i]? = w0.divs[i]?) ∨ ∃ v v' : Dividend ℝ, w0.divs[i]? = some (v, true) ∧ v.update d = .ok v' ∧ w.divs[i]? = some (v', true)

theorem append_get_self {α : Type} (a : List α) (x : α) (b : List α) : (a ++ x :: b)[a.length]? = some x := by simp

theorem append_get_other {α : Type} (a : List α) (x y : α) (b : List α) (i : Nat) (h : i ≠ a.length) : (a ++ x :: b)[i]? = (a ++ y :: b)[i]? := by
  rcases Nat.lt_or_ge i a.length with hl | hl
  · rw [List.getElem?_append_left hl, List.getElem?_append_left hl]
  · rw [List.getElem?_append_right hl, List.getElem?_append_right hl]
    obtain ⟨j, hj⟩ : ∃ j, i - a.length = j + 1 := ⟨i - a.length - 1, by omega⟩
    rw [hj]
    rfl

theorem pricesAct_half (d : DT) (w0 : World ℝ) : ∀ (todo done : List (Price ℝ)) (w : World ℝ), w.prices = done ++ todo → w.divs = w0.divs →
    (∀ i : Nat, done.length ≤ i → w.prices[i]? = w0.prices[i]?) → Underway d w0 w →
    Underway d w0 (pricesAct d done todo w).1 ∧ (pricesAct d done todo w).1.divs = w0.divs
  | [], done, w, _, hd, _, hw => ⟨hw, hd⟩
  | p :: rest, done, w, hp, hd, hold, hw => by
    unfold pricesAct
    rw [seq_look]
    rcases hu : Price.update p (w.divs.map Prod.fst) d with f | p'
    · rw [seq_expr_error rfl]
      exact ⟨hw, hd⟩
    · rw [seq_expr rfl, seq_assign]
      have h0 : w0.prices[done.length]? = some p := by rw [← hold _ (le_refl _), hp]; exact append_get_self _ _ _
      have hne : ∀ i, i ≠ done.length → (done ++ p' :: rest)[i]? = w.prices[i]? := fun i hi => by rw [hp]; exact append_get_other _ _ _ _ _ hi
      refine pricesAct_half d w0 rest (done ++ [p']) { w with prices := done ++ p' :: rest } (by simp) hd ?_ ⟨hw.1, fun i => ?_, hw.2.2⟩
      · intro i hi
        simp only [List.length_append, List.length_cons, List.length_nil] at hi
        show (done ++ p' :: rest)[i]? = _
        rw [hne i (by omega)]
        exact hold i (by omega)
      · show (done ++ p' :: rest)[i]? = _ ∨ ∃ q q', _ ∧ _ ∧ (done ++ p' :: rest)[i]? = some q'
        by_cases hi : i = done.length
        · subst hi
          refine Or.inr ⟨p, p', h0, by rw [← hd]; exact hu, append_get_self _ _ _⟩
        · rw [hne i hi]
          exact hw.2.1 i

theorem divsAct_half (d : DT) (w0 : World ℝ) : ∀ (todo done : List (Dividend ℝ × Bool)) (w : World ℝ), w.divs = done ++ todo →
    (∀ i : Nat, done.length ≤ i → w.divs[i]? = w0.divs[i]?) → Underway d w0 w → Underway d w0 (divsAct d done todo w).1
  | [], done, w, _, _, hw => hw
  | v :: rest, done, w, hp, hold, hw => by
    unfold divsAct
    rcases hu : watch d v with f | v'
    · rw [seq_expr_error rfl]
      exact hw
    · rw [seq_expr rfl, seq_assign]
      have h0 : w0.divs[done.length]? = some v := by rw [← hold _ (le_refl _), hp]; exact append_get_self _ _ _
      have hne : ∀ i, i ≠ done.length → (done ++ v' :: rest)[i]? = w.divs[i]? := fun i hi => by rw [hp]; exact append_get_other _ _ _ _ _ hi
      refine divsAct_half d w0 rest (done ++ [v']) { w with divs := done ++ v' :: rest } (by simp) ?_ ⟨hw.1, hw.2.1, fun i => ?_⟩
      · intro i hi
        simp only [List.length_append, List.length_cons, List.length_nil] at hi
        show (done ++ v' :: rest)[i]? = _
        rw [hne i (by omega)]
        exact hold i (by omega)
      · show (done ++ v' :: rest)[i]? = _ ∨ ∃ q q', _ ∧ _ ∧ (done ++ v' :: rest)[i]? = some (q', true)
        by_cases hi : i = done.length
        · subst hi
          rw [append_get_self, h0]
          obtain ⟨x, fl⟩ := v
          cases fl with
          | false =>
            obtain rfl := Except.ok.inj hu
            exact Or.inl rfl
          | true =>
            unfold watch at hu
            rw [if_pos rfl] at hu
            obtain ⟨y, hy, hu⟩ := (bind_ok_iff _ _ _).1 hu
            obtain rfl := Except.ok.inj hu
            exact Or.inr ⟨x, y, rfl, hy, rfl⟩
        · rw [hne i hi]
          exact hw.2.2 i

theorem dateAct_half (d : DT) (w : World ℝ) : HalfMoved d w (dateAct d w).1 := by
  unfold dateAct
  rw [seq_assign, seq_look]
  dsimp only
  obtain ⟨h1, h2⟩ := pricesAct_half d w w.prices [] { w with date := d } rfl rfl (fun _ _ => rfl) ⟨rfl, fun _ => Or.inl rfl, fun _ => Or.inl rfl⟩
  rw [seq_eq]
  rcases hp : pricesAct d [] w.prices { w with date := d } with ⟨w1, f | x⟩
  · rw [hp] at h1; exact h1
  · rw [hp] at h1 h2
    exact divsAct_half d w w.divs [] w1 h2 (fun i _ => by rw [h2]) h1

/-- What is left when theta at the date `d` fails -/
def LeftTheta (d : DT) (M m : Mkt) : Prop :=
  m = M ∨ (∃ w, M.w.setDate d = .ok w ∧ m = { M with w := w }) ∨ ∃ f w, M.w.setDate d = .error f ∧ HalfMoved d M.w w ∧ m = { M with w := w }

theorem move_ends (d : DT) : Ends (· = M) (moveAct d) (fun m => ∃ w, M.w.setDate d = .ok w ∧ m = { M with w := w })
    (fun m => ∃ f w, M.w.setDate d = .error f ∧ HalfMoved d M.w w ∧ m = { M with w := w }) := by
  rintro e rfl
  have h := moveAct_does d e
  dsimp only at h
  have hm : (moveAct d e).1.mkt = { e.mkt with w := (dateAct d e.mkt.w).1 } := rfl
  rcases hs : e.mkt.w.setDate d with f | w <;> rw [hs] at h
  · have h' : (moveAct d e).2 = .error f := h
    refine ⟨fun e' x hx => (by rw [hx] at h'; cases h'), fun e' f' hx => ?_⟩
    rw [hx] at hm
    exact ⟨f, _, rfl, dateAct_half d _, hm⟩
  · have h' : moveAct d e = ({ e with mkt := { e.mkt with w := w } }, .ok ()) := h
    rw [h']
    exact ⟨fun e' x hx => (by cases hx; exact ⟨w, rfl, rfl⟩), fun e' f' hx => (by cases hx)⟩

theorem setThetaFor_ends (hM : AtDate M.w) (l : List Instr) (b : DT) : Ends (· = M) (setThetaForAct g l b) (· = M) (LeftTheta b M) := by
  unfold setThetaForAct
  refine ends_seq (ends_untouched (untouched_assign fun _ => rfl) fun m hm => Or.inl hm) fun _ => ends_look fun e he => ?_
  subst he
  refine ends_seq (ends_untouched (untouched_npvs g) fun m hm => Or.inl hm) fun npvs => ?_
  refine ends_seq (ends_mono (move_ends e.mkt b) (fun _ h => h) (fun _ h => h) fun m hm => Or.inr (Or.inr hm)) fun _ => ?_
  refine ends_seq (ends_untouched (untouched_npvs g) fun m hm => Or.inr (Or.inl hm)) fun npvs' => ?_
  refine ends_seq (ends_untouched (untouched_thetaLoop _ _ _ _ _ _) fun m hm => Or.inr (Or.inl hm)) fun _ => ?_
  rintro e1 ⟨w, hw, he1⟩
  obtain ⟨w2, hw2⟩ := back_ok e.mkt.w w hM b hw
  obtain rfl := there_and_back e.mkt.w w w2 hM b hw hw2
  have h := moveAct_does e.mkt.w.date e1
  dsimp only at h
  rw [he1] at h
  dsimp only at h
  rw [hw2] at h
  have h' : moveAct e.mkt.w.date e1 = ({ e1 with mkt := e.mkt }, .ok ()) := h
  rw [h']
  exact ⟨fun e' x hx => (by cases hx; rfl), fun e' f' hx => (by cases hx)⟩

theorem leftTheta_left (hf : g.conf.theta = true) (d : DT) (hd : ThetaDay g M d) (m : Mkt) (h : LeftTheta d M m) : Left g names ds M m := by
  rcases h with rfl | ⟨w, h, rfl⟩ | ⟨f, w, h1, h2, rfl⟩
  · exact .same
  · exact .theta d w hf hd h
  · exact .thetaHalf d f w hf hd h1 h2

theorem setTheta_ends (hM : AtDate M.w) (hf : g.conf.theta = true) : Ends (· = M) (setThetaAct g) (· = M) (Left g names ds M) := by
  unfold setThetaAct
  refine ends_seq (ends_untouched (untouched_preTheta _) (left_same g names ds M)) fun _ => ends_look fun e he => ?_
  subst he
  refine ends_expr (left_same g names ds _) fun b hb => ?_
  refine ends_seq (Q := (· = e.mkt)) ?_ fun _ => ?_
  · unfold thetaShortAct
    dsimp only
    split
    · exact ends_untouched (untouched_expr _) (left_same g names ds _)
    · rename_i hne
      rw [List.isEmpty_iff] at hne
      obtain ⟨d, hd, hall⟩ := short_date g b hne
      obtain ⟨i, hi⟩ := List.exists_mem_of_ne_nil _ hne
      rw [hd]
      exact ends_mono (setThetaFor_ends g e.mkt hM _ d) (fun _ h => h) (fun _ h => h) fun m =>
        leftTheta_left g names ds e.mkt hf d ⟨b, hb, i, ((upto_mem _ _ _).1 hi).1, hall i hi⟩ m
  · unfold thetaLongAct
    dsimp only
    split
    · exact ends_untouched (untouched_expr _) (left_same g names ds _)
    · rename_i hne
      rw [List.isEmpty_iff] at hne
      obtain ⟨i, hi⟩ := List.exists_mem_of_ne_nil _ hne
      obtain ⟨h1, -, h3⟩ := (over_mem _ _ _).1 hi
      exact ends_mono (setThetaFor_ends g e.mkt hM _ b) (fun _ h => h) (fun _ h => h) fun m =>
        leftTheta_left g names ds e.mkt hf b ⟨b, hb, i, h1, Or.inl ⟨h3, rfl⟩⟩ m

/-! ### vega by tenor -/

theorem vegaSLoop_ends (u : String) (act : List Instr) (times : List ℝ) (T : ℝ) (s0 : Surf) (hs0 : M.vols u = some (.surface s0))
    (hsort : times.Pairwise (· < ·)) : ∀ (n : Nat) (prev : Map String ℝ) (t : Map String (List ℝ)), n ≤ times.length →
    Ends (fun m => VolShifted u (fun t _ => FromTenor times n t) g.conf.vegaSBump M m ∧ GoodVols m) (vegaSLoopAct g u act times T n prev t)
      (fun m => VolShifted u (fun t _ => FromTenor times 0 t) g.conf.vegaSBump M m ∧ GoodVols m)
      (fun m => ∃ k, k < n ∧ VolShifted u (fun t _ => FromTenor times k t) g.conf.vegaSBump M m)
  | 0, prev, t, _ => fun e he => ⟨fun e' x hx => (by cases hx; exact he), fun e' f hx => (by cases hx)⟩
  | n + 1, prev, t, hn => by
    unfold vegaSLoopAct
    have hvol : ∀ m w, VolShifted u w g.conf.vegaSBump M m → ∃ v, m.vols u = some v := by
      rintro m w ⟨_, s', _, -, -, -, -, -, -, rfl⟩
      exact ⟨.surface s', put_self _ _ _⟩
    refine ends_seq (Q := fun m => VolShifted u (fun t _ => FromTenor times n t) g.conf.vegaSBump M m ∧ GoodVols m)
      (fun e he => ?_) fun _ => ?_
    · obtain ⟨v, hv⟩ := hvol _ _ he.1
      obtain ⟨m', hm'⟩ := bumpVol_ok e.mkt he.2 u (startOf times n) times[n]? none none g.conf.vegaSBump v hv
      have := bumpVol_does u (startOf times n) times[n]? none none g.conf.vegaSBump e.mkt
      dsimp only at this
      rw [hm'] at this
      rw [onMkt_ok this]
      refine ⟨fun e' x hx => ?_, fun e' f hx => (by cases hx)⟩
      cases hx
      refine volShifted_step u _ M e.mkt m' s0 hs0 he.2 _ _ _ _ _ _ he.1 hm' fun t _ x _ => ?_
      obtain ⟨q1, q2⟩ := fromTenor_step times hsort n (by omega) t
      have hw : InWindow none none x := by simp [InWindow]
      exact ⟨by rw [q1]; simp [hw], fun hc => q2 ⟨hc.1, hc.2.1⟩⟩
    · have ih := fun prev t => vegaSLoop_ends u act times T s0 hs0 hsort n prev t (by omega)
      have up : ∀ m, (∃ k, k < n ∧ VolShifted u (fun t _ => FromTenor times k t) g.conf.vegaSBump M m) →
          ∃ k, k < n + 1 ∧ VolShifted u (fun t _ => FromTenor times k t) g.conf.vegaSBump M m := fun m ⟨k, hk, h⟩ => ⟨k, by omega, h⟩
      split
      · exact ends_mono (ih prev t) (fun _ h => h) (fun _ h => h) up
      · refine ends_seq (ends_untouched (untouched_npvs g) fun m hm => ⟨n, by omega, hm.1⟩) fun ups => ?_
        refine ends_expr (fun m hm => ⟨n, by omega, hm.1⟩) fun t' _ => ?_
        refine ends_seq (ends_untouched (untouched_writeTables _ _ _) fun m hm => ⟨n, by omega, hm.1⟩) fun _ => ?_
        exact ends_mono (ih ups t') (fun _ h => h) (fun _ h => h) up

theorem vegaSRound_ends (u : String) (times : List ℝ) (hM : GoodVols M) (hgrid : ∀ s, M.vols u = some (.surface s) → s.times = times) :
    Ends (· = M) (vegaSRoundAct g times u) (· = M)
      (fun m => m = M ∨ ∃ k, k < times.length ∧ VolShifted u (fun t _ => FromTenor times k t) g.conf.vegaSBump M m) := by
  unfold vegaSRoundAct
  refine ends_look fun e he => ends_expr (fun m hm => Or.inl hm) fun prev _ => ?_
  subst he
  rcases hc : e.mkt.vols u with _ | v
  · -- no volatility: the first bump fails
    have hno : ∀ t1 t2 x1 x2 b, bumpVolAct u t1 t2 x1 x2 b e.mkt = (e.mkt, .error .err) := fun t1 t2 x1 x2 b => by unfold bumpVolAct; rw [hc]
    have hbad : ∀ t1 t2 x1 x2 b (Q L : Mkt → Prop), L e.mkt → Ends (· = e.mkt) (onMkt (bumpVolAct u t1 t2 x1 x2 b)) Q L := by
      rintro t1 t2 x1 x2 b Q L hL e1 he1
      have := hno t1 t2 x1 x2 b
      rw [← he1] at this
      rw [onMkt_error this]
      exact ⟨fun e' x hx => (by cases hx), fun e' f hx => (by cases hx; rw [he1]; exact hL)⟩
    refine ends_seq (Q := (· = e.mkt)) ?_ fun _ => hbad _ _ _ _ _ _ _ (Or.inl rfl)
    cases times.length with
    | zero => exact ends_untouched (untouched_expr _) fun m hm => Or.inl hm
    | succ n =>
      unfold vegaSLoopAct
      refine ends_seq (Q := fun _ => False) (hbad _ _ _ _ _ _ _ (Or.inl rfl)) fun _ e1 he1 => he1.elim
  · obtain ⟨s0, _, _, rfl, _, hgood, _⟩ := hM u v hc
    have hgr := hgrid s0 hc
    have hsort : times.Pairwise (· < ·) := hgr ▸ hgood.times
    have hloop := vegaSLoop_ends g e.mkt u e.action times (longestTime e.mkt.w.date e.action) s0 hc hsort times.length prev
      (zeroTables (List.replicate times.length 0) e.action fun _ => none) (le_refl _)
    have h0 : VolShifted u (fun t _ => FromTenor times times.length t) g.conf.vegaSBump e.mkt e.mkt :=
      volShifted_none u _ e.mkt hM s0 hc _ fun t ht x _ => fromTenor_last times hsort t (hgr ▸ ht)
    have hpos : 0 < times.length := List.length_pos_iff.2 (hgr ▸ hgood.some)
    refine ends_seq (ends_mono hloop (fun m hm => by subst hm; exact ⟨h0, hM⟩) (fun _ h => h) fun m hm => Or.inr hm) fun _ => ?_
    refine ends_onMkt (f := fun m => m.bumpVol u none none none none (-g.conf.vegaSBump)) (fun m hm => bumpVol_clean m hm.2 u _ _ _ _ _)
      (fun m m' hm h => volShifted_back u _ e.mkt m m' s0 hc hM _ hm.1 (fun t _ _ _ => fromTenor_zero times t) h) fun m hm => Or.inr ⟨0, hpos, hm.1⟩

theorem setVegaS_ends (hM : GoodVols M) (hds : calcDates g.md M.w.date g.conf.vegaTenors = .ok ds) (hgrid : TenorGrid M ds) (hf : g.conf.vegaS = true) :
    Ends (· = M) (setVegaSAct g) (· = M) (Left g names ds M) := by
  unfold setVegaSAct
  refine ends_look fun e he => ends_expr (left_same g names ds M) fun d2 hd2 => ?_
  subst he
  rw [hds] at hd2
  obtain rfl := Except.ok.inj hd2
  refine eachName_ends _ _ (left_same g names ds e.mkt) _ fun u hu => ?_
  refine ends_mono (vegaSRound_ends g e.mkt u _ hM fun s hs => hgrid u s hs) (fun _ h => h) (fun _ h => h) fun m hm => ?_
  rcases hm with rfl | ⟨k, hk, hm⟩
  · exact .same
  · exact .vegaS u k m hf hu (by simpa using hk) hm

/-! ### the matrix -/

theorem matrixLoop_ends (u : String) (act : List Instr) (codes : List String) (times mon : List ℝ) (s0 : Surf) (hs0 : M.vols u = some (.surface s0))
    (hsort : times.Pairwise (· < ·)) (hmon : mon.Pairwise (· < ·)) (order : List (Nat × Nat)) (hnd : order.Nodup)
    (hin : ∀ c ∈ order, c.1 < times.length ∧ c.2 < mon.length) : ∀ (cells done : List (Nat × Nat)) (prev : Map String ℝ) (t : Map String (List (List ℝ))),
    done ++ cells = order →
    Ends (fun m => VolShifted u (fun t x => ∃ c ∈ done, InCell times mon c t x) g.conf.vegaSBump M m ∧ GoodVols m)
      (matrixLoopAct g u act codes times mon cells prev t)
      (fun m => VolShifted u (fun t x => ∃ c ∈ order, InCell times mon c t x) g.conf.vegaSBump M m ∧ GoodVols m)
      (fun m => ∃ k, VolShifted u (fun t x => ∃ c ∈ order.take k, InCell times mon c t x) g.conf.vegaSBump M m)
  | [], done, prev, t, ho => fun e he => ⟨fun e' x hx => (by
      cases hx
      rw [List.append_nil] at ho
      rw [← ho]
      exact he), fun e' f hx => (by cases hx)⟩
  | (i, j) :: cells, done, prev, t, ho => by
    unfold matrixLoopAct
    have hvol : ∀ m w, VolShifted u w g.conf.vegaSBump M m → ∃ v, m.vols u = some v := by
      rintro m w ⟨_, s', _, -, -, -, -, -, -, rfl⟩
      exact ⟨.surface s', put_self _ _ _⟩
    have hnext : ∀ m, (VolShifted u (fun t x => ∃ c ∈ done ++ [(i, j)], InCell times mon c t x) g.conf.vegaSBump M m ∧ GoodVols m) →
        ∃ k, VolShifted u (fun t x => ∃ c ∈ order.take k, InCell times mon c t x) g.conf.vegaSBump M m := by
      intro m hm
      refine ⟨done.length + 1, ?_⟩
      rw [← ho, show done ++ (i, j) :: cells = (done ++ [(i, j)]) ++ cells by simp, List.take_left' (by simp)]
      exact hm.1
    refine ends_seq (Q := fun m => VolShifted u (fun t x => ∃ c ∈ done ++ [(i, j)], InCell times mon c t x) g.conf.vegaSBump M m ∧ GoodVols m)
      (fun e he => ?_) fun _ => ?_
    · obtain ⟨v, hv⟩ := hvol _ _ he.1
      obtain ⟨m', hm'⟩ := bumpVol_ok e.mkt he.2 u (startOf times i) times[i]? (startOf mon j) mon[j]? g.conf.vegaSBump v hv
      have := bumpVol_does u (startOf times i) times[i]? (startOf mon j) mon[j]? g.conf.vegaSBump e.mkt
      dsimp only at this
      rw [hm'] at this
      rw [onMkt_ok this]
      refine ⟨fun e' x hx => ?_, fun e' f hx => (by cases hx)⟩
      cases hx
      refine volShifted_step u _ M e.mkt m' s0 hs0 he.2 _ _ _ _ _ _ he.1 hm' fun t _ x _ => ?_
      rw [← inCell_iff times mon (i, j) t x]
      refine ⟨?_, ?_⟩
      · constructor
        · rintro ⟨d, hd, q⟩
          rcases List.mem_append.1 hd with hd | hd
          · exact Or.inl ⟨d, hd, q⟩
          · obtain rfl := List.mem_singleton.1 hd
            exact Or.inr q
        · rintro (⟨d, hd, q⟩ | q)
          · exact ⟨d, List.mem_append_left _ hd, q⟩
          · exact ⟨_, List.mem_append_right _ (List.mem_singleton.2 rfl), q⟩
      · rintro ⟨⟨d, hd, q⟩, q'⟩
        refine cells_disjoint times mon hsort hmon d (i, j) (hin d (ho ▸ List.mem_append_left _ hd)) (hin (i, j) (ho ▸ by simp)) ?_ t x ⟨q, q'⟩
        rintro rfl
        rw [← ho] at hnd
        exact (List.nodup_append.1 hnd).2.2 _ hd _ (List.mem_cons_self) rfl
    · refine ends_seq (ends_untouched (untouched_npvs g) hnext) fun ups => ends_expr hnext fun t' _ => ?_
      refine ends_seq (ends_untouched (untouched_writeTables _ _ _) hnext) fun _ => ?_
      exact matrixLoop_ends u act codes times mon s0 hs0 hsort hmon order hnd hin cells (done ++ [(i, j)]) ups t' (by rw [← ho]; simp)

/-- What the matrix leaves when it fails on `u`, begun in the market `M` -/
def LeftMatrix (u : String) (times : List ℝ) (M m : Mkt) : Prop :=
  m = M ∨ ∃ T k, DoneBy M.w.date (fun j => j ∈ g.insts ∧ OnVol j u) T ∧
    VolShifted u (fun t x => ∃ c ∈ (matrixOrder times T g.conf.moneyness.length).take k, InCell times g.conf.moneyness c t x) g.conf.vegaSBump M m

theorem matrixRound_ends (u : String) (times : List ℝ) (hM : GoodVols M) (hgrid : OnGrid M times g.conf.moneyness)
    (hne : withUnderlying g.insts u ["Cash", "Stock", "Futures"] ≠ []) (codes : List String) (t : Map String (List (List ℝ))) (e : Eng) (he : e.mkt = M)
    (ha : e.action = withUnderlying g.insts u ["Cash", "Stock", "Futures"]) :
    (∀ e' x, matrixRoundAct g times u codes t e = (e', .ok x) → ∃ T, DoneBy M.w.date (fun j => j ∈ g.insts ∧ OnVol j u) T ∧
      VolShifted u (fun t _ => NotRaised times T t) (-g.conf.vegaSBump) M e'.mkt ∧ GoodVols e'.mkt) ∧
    ∀ e' f, matrixRoundAct g times u codes t e = (e', .error f) → LeftMatrix g u times M e'.mkt := by
  unfold matrixRoundAct
  rw [seq_look]
  subst he
  rw [ha]
  have hT := longestTime_spec e.mkt.w.date _ hne
  have hP : (fun j => j ∈ withUnderlying g.insts u ["Cash", "Stock", "Futures"]) = fun j => j ∈ g.insts ∧ OnVol j u :=
    funext fun j => propext (onVol_act g u j)
  rw [hP] at hT
  rw [show cellOrder times (longestTime e.mkt.w.date (withUnderlying g.insts u ["Cash", "Stock", "Futures"])) g.conf.moneyness.length times.length =
    matrixOrder times (longestTime e.mkt.w.date (withUnderlying g.insts u ["Cash", "Stock", "Futures"])) g.conf.moneyness.length from cellOrder_aux _ _ _ _]
  generalize longestTime e.mkt.w.date (withUnderlying g.insts u ["Cash", "Stock", "Futures"]) = T at *
  revert ha
  generalize withUnderlying g.insts u ["Cash", "Stock", "Futures"] = act at *
  intro ha
  suffices h : Ends (· = e.mkt) (expr (baseNpvs e.results act fun _ => none) >>= fun prev =>
      matrixLoopAct g u act codes times g.conf.moneyness (matrixOrder times T g.conf.moneyness.length) prev
        (zeroTables (List.replicate times.length (List.replicate g.conf.moneyness.length (0 : ℝ))) act t) >>= fun t' =>
      onMkt (bumpVolAct u none none none none (-g.conf.vegaSBump)) >>= fun _ => expr (.ok t'))
      (fun m => ∃ T, DoneBy e.mkt.w.date (fun j => j ∈ g.insts ∧ OnVol j u) T ∧ VolShifted u (fun t _ => NotRaised times T t) (-g.conf.vegaSBump) e.mkt m ∧ GoodVols m)
      (LeftMatrix g u times e.mkt) from h e rfl
  refine ends_expr (fun m hm => Or.inl hm) fun prev _ => ?_
  rcases hc : e.mkt.vols u with _ | v
  · have hno : ∀ t1 t2 x1 x2 b, bumpVolAct u t1 t2 x1 x2 b e.mkt = (e.mkt, .error .err) := fun t1 t2 x1 x2 b => by unfold bumpVolAct; rw [hc]
    have hbad : ∀ t1 t2 x1 x2 b (L : Mkt → Prop), L e.mkt → Ends (· = e.mkt) (onMkt (bumpVolAct u t1 t2 x1 x2 b)) (fun _ => False) L := by
      rintro t1 t2 x1 x2 b L hL e1 he1
      have := hno t1 t2 x1 x2 b
      rw [← he1] at this
      rw [onMkt_error this]
      exact ⟨fun e' x hx => (by cases hx), fun e' f hx => (by cases hx; rw [he1]; exact hL)⟩
    refine ends_seq (Q := (· = e.mkt)) ?_ fun _ => ends_seq (hbad _ _ _ _ _ _ (Or.inl rfl)) fun _ e1 he1 => he1.elim
    cases matrixOrder times T g.conf.moneyness.length with
    | nil => exact ends_untouched (untouched_expr _) fun m hm => Or.inl hm
    | cons c cells =>
      obtain ⟨i, j⟩ := c
      unfold matrixLoopAct
      exact ends_seq (hbad _ _ _ _ _ _ (Or.inl rfl)) fun _ e1 he1 => he1.elim
  · obtain ⟨s0, _, _, rfl, _, hgood, _⟩ := hM u v hc
    obtain ⟨hgt, hgm⟩ := hgrid u s0 hc
    have hsort : times.Pairwise (· < ·) := hgt ▸ hgood.times
    have hmon : g.conf.moneyness.Pairwise (· < ·) := hgm ▸ hgood.mon
    have hloop := matrixLoop_ends g e.mkt u act codes times g.conf.moneyness s0 hc hsort hmon (matrixOrder times T g.conf.moneyness.length) (nodup_order _ _ _)
      (fun c hc => ⟨((mem_order _ _ _ _).1 hc).1, ((mem_order _ _ _ _).1 hc).2.2⟩) (matrixOrder times T g.conf.moneyness.length) [] prev
      (zeroTables (List.replicate times.length (List.replicate g.conf.moneyness.length (0 : ℝ))) act t) rfl
    have h0 : VolShifted u (fun t x => ∃ c ∈ ([] : List (Nat × Nat)), InCell times g.conf.moneyness c t x) g.conf.vegaSBump e.mkt e.mkt :=
      volShifted_none u _ e.mkt hM s0 hc _ fun t _ x _ => by simp
    refine ends_seq (ends_mono hloop (fun m hm => by subst hm; exact ⟨h0, hM⟩) (fun _ h => h) fun m ⟨k, hk⟩ => Or.inr ⟨T, k, hT, hk⟩) fun t' => ?_
    have hnot : ∀ t ∈ s0.times, ∀ x ∈ s0.mon, (NotRaised times T t ↔ ¬ ∃ c ∈ matrixOrder times T g.conf.moneyness.length, InCell times g.conf.moneyness c t x) := by
      intro t ht x hx
      constructor
      · rintro hn ⟨c, hc, q1, q2, -⟩
        obtain ⟨o1, o2, -⟩ := (mem_order _ _ _ _).1 hc
        exact hn c.1 o1 o2 ⟨q1, q2⟩
      · intro hn k hk hb hq
        obtain ⟨j, j1, j2, j3⟩ := window_exists g.conf.moneyness hmon x (hgm ▸ hx)
        exact hn ⟨(k, j), (mem_order _ _ _ _).2 ⟨hk, hb, j1⟩, hq.1, hq.2, j2, j3⟩
    have hlast : ∀ m, (VolShifted u (fun t x => ∃ c ∈ matrixOrder times T g.conf.moneyness.length, InCell times g.conf.moneyness c t x) g.conf.vegaSBump e.mkt m ∧ GoodVols m) →
        LeftMatrix g u times e.mkt m := fun m hm => Or.inr ⟨T, (matrixOrder times T g.conf.moneyness.length).length, hT, by rw [List.take_length]; exact hm.1⟩
    refine ends_seq (Q := fun m => ∃ T, DoneBy e.mkt.w.date (fun j => j ∈ g.insts ∧ OnVol j u) T ∧
        VolShifted u (fun t _ => NotRaised times T t) (-g.conf.vegaSBump) e.mkt m ∧ GoodVols m)
      (ends_onMkt (f := fun m => m.bumpVol u none none none none (-g.conf.vegaSBump)) (fun m hm => bumpVol_clean m hm.2 u _ _ _ _ _)
        (fun m m' hm h => ⟨T, hT, volShifted_minus u _ e.mkt m m' s0 hc hm.2 _ _ hm.1 h hnot⟩) hlast) fun _ => ?_
    exact fun e1 he1 => ⟨fun e' x hx => (by cases hx; exact he1), fun e' f hx => (by cases hx)⟩

/-- One more underlying lowered -/
theorem loweredTails_snoc (times : List ℝ) (pre : List String) (u : String) (hu : u ∉ pre) (m m2 : Mkt) (T : ℝ) (h : LoweredTails g pre times M m)
    (hsome : ∃ i ∈ g.insts, OnVol i u) (hT : DoneBy M.w.date (fun j => j ∈ g.insts ∧ OnVol j u) T)
    (h2 : VolShifted u (fun t _ => NotRaised times T t) (-g.conf.vegaSBump) m m2) : LoweredTails g (pre ++ [u]) times M m2 := by
  obtain ⟨h1, hv⟩ := h
  have hm2 : m2 = { m with vols := m2.vols } := by
    obtain ⟨_, _, _, -, -, -, -, -, -, q⟩ := id h2
    rw [q]
  have hm2v : ∀ w, w ≠ u → m2.vols w = m.vols w := by
    intro w hw
    obtain ⟨_, _, _, -, -, -, -, -, -, q⟩ := id h2
    rw [q]
    exact put_other _ _ _ _ hw
  refine ⟨by rw [hm2, h1], fun w => ⟨fun hw hi => ?_, fun hn => ?_⟩⟩
  · by_cases hwu : w = u
    · subst hwu
      obtain ⟨m3, q1, q2⟩ := volShifted_move w _ _ m M m2 h2 (by rw [h1]) ((hv w).2 fun hc => hu hc.1).symm
      exact ⟨T, m3, hT, q1, q2.symm⟩
    · have hw' : w ∈ pre := by
        rcases List.mem_append.1 hw with hw | hw
        · exact hw
        · exact absurd (List.mem_singleton.1 hw) hwu
      obtain ⟨T', m3, q1, q2, q3⟩ := (hv w).1 hw' hi
      exact ⟨T', m3, q1, q2, (hm2v w hwu).trans q3⟩
  · have hwu : w ≠ u := by
      rintro rfl
      exact hn ⟨by simp, hsome⟩
    rw [hm2v w hwu]
    exact (hv w).2 fun hc => hn ⟨List.mem_append_left _ hc.1, hc.2⟩

theorem loweredTails_skip (times : List ℝ) (pre : List String) (u : String) (m : Mkt) (h : LoweredTails g pre times M m)
    (hno : ¬ ∃ i ∈ g.insts, OnVol i u) : LoweredTails g (pre ++ [u]) times M m := by
  refine ⟨h.1, fun w => ⟨fun hw hi => ?_, fun hn => ?_⟩⟩
  · rcases List.mem_append.1 hw with hw | hw
    · exact (h.2 w).1 hw hi
    · obtain rfl := List.mem_singleton.1 hw
      exact absurd hi hno
  · exact (h.2 w).2 fun hc => hn ⟨List.mem_append_left _ hc.1, hc.2⟩

theorem onGrid_shifted (times mon : List ℝ) (u : String) (w : ℝ → ℝ → Prop) (b : ℝ) (m m2 : Mkt) (h : VolShifted u w b m m2) (hg : OnGrid m times mon) :
    OnGrid m2 times mon := by
  intro x s hs
  obtain ⟨s0, s1, _, q1, -, -, -, q5, -, q⟩ := h
  rw [q] at hs
  by_cases hx : x = u
  · subst hx
    simp only [put_self] at hs
    obtain rfl := Vol.surface.inj (Option.some.inj hs)
    rw [q5]
    exact hg x s0 q1
  · simp only [put_other _ _ _ _ hx] at hs
    exact hg x s hs

theorem matrixNames_ends (hf : g.conf.vegaM = true) : ∀ (us pre codes : List String) (t : Map String (List (List ℝ))), allUnds g.insts = pre ++ us →
    Ends (fun m => LoweredTails g pre (ds.map (timeFrom M.w.date)) M m ∧ GoodVols m ∧ OnGrid m (ds.map (timeFrom M.w.date)) g.conf.moneyness)
      (matrixNamesAct g (ds.map (timeFrom M.w.date)) us codes t)
      (fun m => LoweredTails g (allUnds g.insts) (ds.map (timeFrom M.w.date)) M m) (Left g names ds M)
  | [], pre, codes, t, hp => fun e he => ⟨fun e' x hx => (by
      cases hx
      rw [hp, List.append_nil]
      exact he.1), fun e' f hx => (by cases hx)⟩
  | u :: us, pre, codes, t, hp => by
    have hnd := nodup_allUnds g.insts
    rw [hp] at hnd
    have hu : u ∉ pre := fun hc => (List.nodup_append.1 hnd).2.2 _ hc _ List.mem_cons_self rfl
    have hp' : allUnds g.insts = (pre ++ [u]) ++ us := by rw [hp]; simp
    have ih := fun codes t => matrixNames_ends hf us (pre ++ [u]) codes t hp'
    have hPL : ∀ m, (LoweredTails g pre (ds.map (timeFrom M.w.date)) M m ∧ GoodVols m ∧ OnGrid m (ds.map (timeFrom M.w.date)) g.conf.moneyness) → Left g names ds M m :=
      fun m hm => .vegaM pre (u :: us) m hf hp hm.1
    unfold matrixNamesAct
    intro e he
    rw [seq_assign]
    split
    · rename_i hem
      have hno : ¬ ∃ i ∈ g.insts, OnVol i u := by
        rintro ⟨i, hi, hiu⟩
        have := (onVol_act g u i).2 ⟨hi, hiu⟩
        rw [List.isEmpty_iff.1 hem] at this
        cases this
      exact ih codes t _ ⟨loweredTails_skip g M _ pre u _ he.1 hno, he.2⟩
    · rename_i hem
      rw [List.isEmpty_iff] at hem
      have hsome : ∃ i ∈ g.insts, OnVol i u := by
        obtain ⟨i, hi⟩ := List.exists_mem_of_ne_nil _ hem
        exact ⟨i, (onVol_act g u i).1 hi⟩
      have hdate : e.mkt.w = M.w := by rw [he.1.1]
      obtain ⟨r1, r2⟩ := matrixRound_ends g e.mkt u (ds.map (timeFrom M.w.date)) he.2.1 he.2.2 hem
        (codes ++ (withUnderlying g.insts u ["Cash", "Stock", "Futures"]).map Instr.code) t
        { e with action := withUnderlying g.insts u ["Cash", "Stock", "Futures"] } rfl rfl
      rw [hdate] at r1
      rcases hr : matrixRoundAct g (ds.map (timeFrom M.w.date)) u (codes ++ (withUnderlying g.insts u ["Cash", "Stock", "Futures"]).map Instr.code) t
        { e with action := withUnderlying g.insts u ["Cash", "Stock", "Futures"] } with ⟨e1, f | t'⟩
      · rw [seq_error hr]
        refine ⟨fun e' x hx => (by cases hx), fun e' f' hx => ?_⟩
        cases hx
        rcases r2 _ _ hr with h | ⟨T, k, hT, h⟩
        · rw [h]; exact hPL _ he
        · rw [hdate] at hT
          exact .vegaMCell pre us u T k e.mkt _ hf hp he.1 hT h
      · rw [seq_ok hr]
        obtain ⟨T, hT, h1, h2⟩ := r1 _ _ hr
        exact ih _ t' e1 ⟨loweredTails_snoc g M _ pre u hu e.mkt e1.mkt T he.1 hsome hT h1, h2, onGrid_shifted _ _ u _ _ _ _ h1 he.2.2⟩

theorem setVegaM_ends (hM : SoundMkt g ds M) (hf : g.conf.vegaM = true) :
    Ends (· = M) (setVegaMAct g) (fun m => LoweredTails g (allUnds g.insts) (ds.map (timeFrom M.w.date)) M m) (Left g names ds M) := by
  unfold setVegaMAct
  refine ends_look fun e he => ends_expr (left_same g names ds M) fun d2 hd2 => ?_
  subst he
  rw [hM.tenors] at hd2
  obtain rfl := Except.ok.inj hd2
  refine ends_mono (matrixNames_ends g names ds e.mkt hf (allUnds g.insts) [] [] _ rfl) (fun m hm => ?_) (fun _ h => h) (fun _ h => h)
  subst hm
  exact ⟨⟨rfl, fun w => ⟨fun h => (by cases h), fun _ => rfl⟩⟩, hM.vols, hM.grid⟩

theorem calculate_ends (hM : SoundMkt g ds M) : Ends (· = M) (calculateAct g names)
    (fun m => (g.conf.vegaM = false → m = M) ∧ (g.conf.vegaM = true → LoweredTails g (allUnds g.insts) (ds.map (timeFrom M.w.date)) M m)) (Left g names ds M) := by
  have hs := left_same g names ds M
  unfold calculateAct
  refine ends_seq (onlyIf_ends _ hs fun _ => ends_untouched (untouched_setNpvs g) hs) fun _ => ?_
  refine ends_seq (onlyIf_ends _ hs fun _ => ends_untouched (untouched_setExposures g) hs) fun _ => ?_
  refine ends_seq (onlyIf_ends _ hs (setDeltas_ends g names ds M)) fun _ => ?_
  refine ends_seq (onlyIf_ends _ hs (setTheta_ends g names ds M hM.date)) fun _ => ?_
  refine ends_seq (onlyIf_ends _ hs (setVega_ends g names ds M hM.vols)) fun _ => ?_
  refine ends_seq (onlyIf_ends _ hs (setRho_ends g names ds M hM.curves)) fun _ => ?_
  refine ends_seq (onlyIf_ends _ hs (setDivDelta_ends g names ds M hM.divs)) fun _ => ?_
  refine ends_seq (onlyIf_ends _ hs (setVegaS_ends g names ds M hM.vols hM.tenors fun u s hs => (hM.grid u s hs).1)) fun _ => ?_
  refine ends_seq (onlyIf_ends _ hs (setRhoS_ends g names ds M hM.curves)) fun _ => ?_
  refine ends_seq (onlyIf_ends _ hs (setDivS_ends g names ds M hM.divs)) fun _ => ?_
  cases hf : g.conf.vegaM with
  | false => exact fun e he => ⟨fun e' x hx => (by cases hx; exact ⟨fun _ => he, fun h => (by cases h)⟩), fun e' f hx => (by cases hx)⟩
  | true => exact ends_mono (setVegaM_ends g names ds M hM hf) (fun _ h => h) (fun m h => ⟨fun h => (by cases h), fun _ => h⟩) (fun _ h => h)

end parts

/-! ## C155 -/

/-- **C155**. A calculation of an engine in a sound market that fails leaves the market as it was, or with the one change that was under way (`Left`): a price
scaled, the evaluation date moved, a curve, a surface or a dividend bumped, in all or in the tenor or cells it had come to; and what the matrix leaves lower. -/
theorem C155_left (g : EngCfg) (names : List String) (ds : List DT) (e e' : Eng) (f : Fault) (hM : SoundMkt g ds e.mkt)
    (h : calculateAct g names e = (e', .error f)) : Left g names ds e.mkt e'.mkt :=
  (calculate_ends g names ds e.mkt hM e rfl).2 e' f h

/-- **C155** (success). A calculation ends well here if it does where errors are forgotten, with the same engine, and fails with the same error. -/
theorem C155_agrees (g : EngCfg) (names : List String) (e : Eng) :
    (∀ e', calculateAct g names e = (e', .ok ()) ↔ calculate g names e = .ok e') ∧
    ∀ f, (∃ e', calculateAct g names e = (e', .error f)) ↔ calculate g names e = .error f := by
  have h := calculate_does g names e
  rcases hc : calculate g names e with f | e1 <;> rw [hc] at h
  · have h' : (calculateAct g names e).2 = .error f := h
    rcases ha : calculateAct g names e with ⟨e2, r⟩
    rw [ha] at h'
    obtain rfl : r = .error f := h'
    exact ⟨fun e' => ⟨fun q => (by cases q), fun q => (by cases q)⟩, fun f' => ⟨fun ⟨_, q⟩ => (by cases q; rfl), fun q => (by cases q; exact ⟨e2, rfl⟩)⟩⟩
  · have h' : calculateAct g names e = (e1, .ok ()) := h
    rw [h']
    exact ⟨fun e' => ⟨fun q => (by cases q; rfl), fun q => (by cases q; rfl)⟩, fun f' => ⟨fun ⟨_, q⟩ => (by cases q), fun q => (by cases q)⟩⟩

/-- **C155** (no greeks). With no greek switched on, in any market, a calculation leaves the market as it was, failed or not. -/
theorem C155_values_only (g : EngCfg) (names : List String) (e : Eng) (hd : g.conf.delta = false) (ht : g.conf.theta = false) (hv : g.conf.vega = false)
    (hr : g.conf.rho = false) (hdd : g.conf.divDelta = false) (hvs : g.conf.vegaS = false) (hrs : g.conf.rhoS = false) (hds : g.conf.divS = false)
    (hvm : g.conf.vegaM = false) : (calculateAct g names e).1.mkt = e.mkt := by
  have : Untouched Eng.mkt (calculateAct g names) := by
    unfold calculateAct
    rw [hd, ht, hv, hr, hdd, hvs, hrs, hds, hvm]
    refine untouched_seq ?_ fun _ => untouched_seq ?_ fun _ => ?_
    · cases g.conf.npv
      · exact untouched_expr _
      · exact untouched_setNpvs g
    · cases g.conf.exposure
      · exact untouched_expr _
      · exact untouched_setExposures g
    · exact untouched_seq (untouched_expr _) fun _ => untouched_seq (untouched_expr _) fun _ => untouched_seq (untouched_expr _) fun _ =>
        untouched_seq (untouched_expr _) fun _ => untouched_seq (untouched_expr _) fun _ => untouched_seq (untouched_expr _) fun _ =>
        untouched_seq (untouched_expr _) fun _ => untouched_seq (untouched_expr _) fun _ => untouched_expr _
  exact this e

theorem npvs_error (g : EngCfg) (e : Eng) (f : Fault) (h : getNpvs g e.mkt e.action (fun _ => none) = .error f) : npvsAct g e = (e, .error f) := by
  unfold npvsAct; rw [seq_look, h]; rfl

theorem npvs_ok (g : EngCfg) (e : Eng) (r : Map String ℝ) (h : getNpvs g e.mkt e.action (fun _ => none) = .ok r) : npvsAct g e = (e, .ok r) := by
  unfold npvsAct; rw [seq_look, h]; rfl

/-- **C155** (the bump stays: delta). If the instruments cannot be priced with the price raised, the price stays raised; nothing else changes. If they can be
priced with the price raised but not with it lowered, the price stays lowered. -/
theorem C155_delta_stays (g : EngCfg) (u : String) (e : Eng) (f : Fault) (mu md : Mkt) (h1 : PriceScaled u (1 + g.conf.deltaRatio) e.mkt mu)
    (h2 : PriceScaled u (1 - g.conf.deltaRatio) e.mkt md) :
    (getNpvs g mu e.action (fun _ => none) = .error f → deltaRoundAct g u e = ({ e with mkt := mu }, .error f)) ∧
    (∀ up, getNpvs g mu e.action (fun _ => none) = .ok up → getNpvs g md e.action (fun _ => none) = .error f →
      deltaRoundAct g u e = ({ e with mkt := md }, .error f)) := by
  obtain ⟨j, p, a1, a2, rfl⟩ := h1
  obtain ⟨j', p', b1, b2, rfl⟩ := h2
  rw [a1] at b1
  obtain rfl := Option.some.inj b1
  rw [a2] at b2
  obtain rfl := Option.some.inj b2
  have hp : e.mkt.price u = some (j, p) := (price_iff _ _ _ _).2 ⟨a1, a2⟩
  have hback : ∀ x, (e.mkt.putPrice j p x).putPrice j { p with value := x } p.value = e.mkt := fun x => by rw [putPrice_put, putPrice_same _ _ _ a2]
  have start : deltaRoundAct g u e = (npvsAct g >>= fun up => onMkt (changePrice u fun _ => p.value) >>= fun _ =>
      onMkt (changePrice u fun x => x * (1 - g.conf.deltaRatio)) >>= fun _ => npvsAct g >>= fun down =>
      deltaLoopAct u up down g.conf.deltaRatio e.action >>= fun _ => onMkt (changePrice u fun _ => p.value))
        { e with mkt := e.mkt.putPrice j p (p.value * (1 + g.conf.deltaRatio)) } := by
    unfold deltaRoundAct
    rw [seq_look, hp]
    rw [seq_expr (show orErr (some (j, p)) = .ok (j, p) from rfl), seq_ok (onMkt_ok (changePrice_eq u _ _ j p hp))]
  refine ⟨fun h => ?_, fun up h h' => ?_⟩
  · rw [start]
    exact seq_error (npvs_error g _ f h)
  · rw [start, seq_ok (npvs_ok g { e with mkt := e.mkt.putPrice j p (p.value * (1 + g.conf.deltaRatio)) } up h)]
    rw [seq_ok (onMkt_ok (changePrice_eq u _ _ j _ (price_put u _ j p _ hp)))]
    dsimp only
    rw [hback, seq_ok (onMkt_ok (changePrice_eq u _ _ j p hp))]
    exact seq_error (npvs_error g _ f h')

/-- **C155** (the bump stays: vega, rho, dividend delta). If the instruments cannot be priced in the bumped market, the bump stays. -/
theorem C155_bump_stays (g : EngCfg) (bump undo : Act Mkt Unit) (put : EResult → ℝ → EResult) (b unit : ℝ) (e : Eng) (m : Mkt) (f : Fault)
    (hb : bump e.mkt = (m, .ok ())) (h : getNpvs g m e.action (fun _ => none) = .error f) :
    diffRoundAct g bump undo put b unit e = ({ e with mkt := m }, .error f) := by
  unfold diffRoundAct
  rw [seq_look, seq_ok (onMkt_ok hb)]
  exact seq_error (npvs_error g { e with mkt := m } f h)

/-- **C155** (the date stays). If the instruments cannot be priced at the moved date, the date stays moved, and with it prices and dividends. -/
theorem C155_date_stays (g : EngCfg) (l : List Instr) (b : DT) (e : Eng) (w : World ℝ) (r : Map String ℝ) (f : Fault) (h0 : getNpvs g e.mkt l (fun _ => none) = .ok r)
    (hw : e.mkt.w.setDate b = .ok w) (h : getNpvs g { e.mkt with w := w } l (fun _ => none) = .error f) :
    setThetaForAct g l b e = ({ e with mkt := { e.mkt with w := w }, action := l }, .error f) := by
  unfold setThetaForAct
  rw [seq_assign, seq_look, seq_ok (npvs_ok g { e with action := l } r h0)]
  have hm := moveAct_does b { e with action := l }
  dsimp only at hm
  rw [hw] at hm
  rw [seq_ok (show moveAct b { e with action := l } = ({ e with mkt := { e.mkt with w := w }, action := l }, .ok ()) from hm)]
  exact seq_error (npvs_error g { e with mkt := { e.mkt with w := w }, action := l } f h)

/-! ## A failed calculation and the next engine -/

/-- The price of the stock "A", refused above `limit` -/
noncomputable def spotUpTo (limit : ℝ) (m : Mkt) : Res ℝ :=
  match m.price "A" with
  | some q => if q.2.value ≤ limit then .ok q.2.value else .error .err
  | none => .error .err

noncomputable def spotPricer (limit : ℝ) : EPricer where
  npv := fun _ m => spotUpTo limit m
  result := fun _ m => do
    let x ← spotUpTo limit m
    .ok (NpvResult.ofNpv x)
  exposure := fun _ _ _ => .ok []

/-- Npv, and delta if wanted -/
noncomputable def fewConf (delta : Bool) : CalcConf :=
  { demoConf with exposure := false, delta := delta, vega := false, rho := false, divDelta := false, theta := false, vegaS := false, rhoS := false,
                  divS := false, vegaM := false }

/-- An engine with one option and a pricer for prices up to 100; it is to find the delta -/
noncomputable def shyEngine : EngCfg :=
  { demoEngine with pricers := fun _ => some (spotPricer 100), conf := fewConf true, insts := [⟨"O", .option true "A" .krw false, .krw, 10, day0 2024 1 1, 0⟩] }

/-- An engine with the stock, which is to be valued only -/
noncomputable def stockEngine : EngCfg :=
  { demoEngine with pricers := fun _ => some (spotPricer 1000), conf := fewConf false, insts := [⟨"A", .stock "A", .krw, 3, day0 2021 1 1, 0⟩] }

/-- A new engine -/
def newEng (g : EngCfg) (M : Mkt) : Eng := { mkt := M, action := g.insts, results := freshResults g.insts fun _ => none }

theorem newEng_result (g : EngCfg) (hg : OwnCodes g) (M : Mkt) (i : Instr) (hi : i ∈ g.insts) : (newEng g M).results i.code = some (EResult.fresh i) :=
  (freshResults_spec g.insts (fun _ => none) hg).1 i hi

theorem stock_value (M : Mkt) (j : Nat) (p : Price ℝ) (h : M.price "A" = some (j, p)) (hp : p.value ≤ 1000) :
    ∃ e x, calculate stockEngine [] (newEng stockEngine M) = .ok e ∧ e.results "A" = some x ∧ x.value = some (p.value * 3) := by
  have hs : spotUpTo 1000 M = .ok p.value := by unfold spotUpTo; rw [h]; exact if_pos hp
  have hown : OwnCodes stockEngine := by show (List.map Instr.code [_]).Nodup; simp
  obtain ⟨e, he⟩ : ∃ e, setNpvs stockEngine (newEng stockEngine M) = .ok e := by
    refine ⟨{ newEng stockEngine M with results := Map.put (newEng stockEngine M).results "A" { EResult.fresh ⟨"A", .stock "A", .krw, 3, day0 2021 1 1, 0⟩ with
      npv := some (NpvResult.ofNpv p.value), value := some (p.value * 3), flows := some [] } }, ?_⟩
    refine (C87_npv stockEngine hown _ _ (fun i hi => hi)).2 ⟨fun i hi => hi, rfl, rfl, ?_, ?_⟩
    · intro i hi
      obtain rfl : i = ⟨"A", .stock "A", .krw, 3, day0 2021 1 1, 0⟩ := by simpa [stockEngine] using hi
      refine ⟨EResult.fresh _, spotPricer 1000, NpvResult.ofNpv p.value, [], newEng_result _ hown M _ hi, rfl, ?_, rfl, ?_⟩
      · show (spotUpTo 1000 M >>= fun x => .ok (NpvResult.ofNpv x)) = _
        rw [hs]; rfl
      · exact put_get (newEng stockEngine M).results "A" _
    · intro c hc
      have : c ≠ "A" := fun h => hc (by simp [stockEngine, h])
      simp [Map.put, this]
  refine ⟨e, ?_⟩
  obtain ⟨-, -, -, h4, -⟩ := (C87_npv stockEngine hown _ _ (fun i hi => hi)).1 he
  obtain ⟨x, q, v, fl, x1, q1, v1, -, r1⟩ := h4 ⟨"A", .stock "A", .krw, 3, day0 2021 1 1, 0⟩ (by simp [stockEngine])
  obtain rfl : spotPricer 1000 = q := Option.some.inj q1
  rw [newEng_result _ hown M _ (by simp [stockEngine])] at x1
  obtain rfl := Option.some.inj x1
  have hv : (spotUpTo 1000 M >>= fun x => .ok (NpvResult.ofNpv x) : Res NpvResult) = .ok v := v1
  rw [hs] at hv
  obtain rfl := Except.ok.inj hv
  refine ⟨_, ?_, r1, rfl⟩
  unfold calculate
  show (setNpvs stockEngine (newEng stockEngine M) >>= fun e => _) = _
  rw [he]
  rfl

/-- **C155** (what it costs). There are a sound market and an engine whose calculation of the delta fails in it, after which an engine made on the same market
values the stock, which nobody has touched, 1% too high. -/
theorem C155_next_engine : ∃ (M : Mkt) (ds : List DT) (e : Eng), SoundMkt shyEngine ds M ∧ OwnCodes shyEngine ∧
    calculateAct shyEngine [] (newEng shyEngine M) = (e, .error .err) ∧
    (∃ a x, calculate stockEngine [] (newEng stockEngine M) = .ok a ∧ a.results "A" = some x ∧ x.value = some 300) ∧
    (∃ b y, calculate stockEngine [] (newEng stockEngine e.mkt) = .ok b ∧ b.results "A" = some y ∧ y.value = some 303) := by
  obtain ⟨c, v, s, -, -, -, hM, -⟩ := engine_witness
  set M := demoMarket c.blank v s with hMd
  have hprice : M.price "A" = some (0, { value := 100, at_ := day0 2021 1 1, div := some 0 }) := rfl
  have hup : PriceScaled "A" (1 + shyEngine.conf.deltaRatio) M (M.putPrice 0 { value := 100, at_ := day0 2021 1 1, div := some 0 } (100 * (1 + shyEngine.conf.deltaRatio))) :=
    ⟨0, _, rfl, rfl, rfl⟩
  have hdown : PriceScaled "A" (1 - shyEngine.conf.deltaRatio) M (M.putPrice 0 { value := 100, at_ := day0 2021 1 1, div := some 0 } (100 * (1 - shyEngine.conf.deltaRatio))) :=
    ⟨0, _, rfl, rfl, rfl⟩
  set Mu := M.putPrice 0 { value := 100, at_ := day0 2021 1 1, div := some 0 } (100 * (1 + shyEngine.conf.deltaRatio)) with hMu
  have hratio : shyEngine.conf.deltaRatio = 0.01 := rfl
  have h101 : (100 : ℝ) * (1 + shyEngine.conf.deltaRatio) = 101 := by rw [hratio]; norm_num
  have hpu : Mu.price "A" = some (0, { value := 100 * (1 + shyEngine.conf.deltaRatio), at_ := day0 2021 1 1, div := some 0 }) := rfl
  have hown : OwnCodes shyEngine := by show (List.map Instr.code [_]).Nodup; simp
  -- the values
  have hs : spotUpTo 100 M = .ok 100 := by unfold spotUpTo; rw [hprice]; exact if_pos (le_refl _)
  have hn : ∀ a, getNpvs shyEngine Mu (⟨"O", .option true "A" .krw false, .krw, 10, day0 2024 1 1, 0⟩ :: a) (fun _ => none) = .error .err := by
    intro a
    have : spotUpTo 100 Mu = .error .err := by
      unfold spotUpTo; rw [hpu]; exact if_neg (by show ¬ (100 : ℝ) * (1 + shyEngine.conf.deltaRatio) ≤ 100; rw [h101]; norm_num)
    unfold getNpvs
    have h : shyEngine.npv ⟨"O", .option true "A" .krw false, .krw, 10, day0 2024 1 1, 0⟩ Mu = .error .err := this
    rw [h]; rfl
  obtain ⟨e1, he1⟩ : ∃ e, setNpvs shyEngine (newEng shyEngine M) = .ok e := by
    refine ⟨{ newEng shyEngine M with results := Map.put (newEng shyEngine M).results "O" { EResult.fresh ⟨"O", .option true "A" .krw false, .krw, 10, day0 2024 1 1, 0⟩ with
      npv := some (NpvResult.ofNpv 100), value := some (100 * 10), flows := some [] } }, ?_⟩
    refine (C87_npv shyEngine hown _ _ (fun i hi => hi)).2 ⟨fun i hi => hi, rfl, rfl, ?_, ?_⟩
    · intro i hi
      obtain rfl : i = ⟨"O", .option true "A" .krw false, .krw, 10, day0 2024 1 1, 0⟩ := by simpa [shyEngine] using hi
      refine ⟨EResult.fresh _, spotPricer 100, NpvResult.ofNpv 100, [], newEng_result _ hown M _ hi, rfl, ?_, rfl, ?_⟩
      · show (spotUpTo 100 M >>= fun x => .ok (NpvResult.ofNpv x)) = _
        rw [hs]; rfl
      · exact put_get (newEng shyEngine M).results "O" _
    · intro c hc
      have : c ≠ "O" := fun h => hc (by simp [shyEngine, h])
      simp [Map.put, this]
  have hm1 : e1.mkt = M := ((C87_npv shyEngine hown _ _ (fun i hi => hi)).1 he1).2.1
  have hA1 : setNpvsAct shyEngine (newEng shyEngine M) = (e1, .ok ()) := by
    have := setNpvs_does shyEngine (newEng shyEngine M)
    rw [he1] at this
    exact this
  let e2 : Eng := { e1 with action := shyEngine.insts }
  have hd : setDeltasAct shyEngine e1 = ({ e2 with mkt := Mu }, .error .err) := by
    unfold setDeltasAct
    have hpre : preDeltaAct (withTypes shyEngine.insts ["Stock", "Futures"]) = expr (.ok ()) := by
      have : withTypes shyEngine.insts ["Stock", "Futures"] = [] := by simp [withTypes, shyEngine, Instr.typeName]
      rw [this]; rfl
    rw [hpre, seq_expr rfl]
    unfold setDeltaAct
    have hl : allUnds shyEngine.insts = ["A"] := by simp [allUnds, collect, shyEngine, Instr.unds, addNew]
    have hw : withUnderlying shyEngine.insts "A" ["Stock", "Futures"] = shyEngine.insts := by simp [withUnderlying, shyEngine, Instr.unds, Instr.typeName]
    rw [hl]
    unfold eachNameAct
    rw [seq_assign, seq_expr rfl, seq_assign, hw]
    have hround := (C155_delta_stays shyEngine "A" e2 .err Mu _ (by rw [show e2.mkt = M from hm1]; exact hup) (by rw [show e2.mkt = M from hm1]; exact hdown)).1 (hn [])
    show (if shyEngine.insts.isEmpty then _ else (deltaRoundAct shyEngine "A" >>= fun _ => _)) e2 = _
    rw [if_neg (by simp [shyEngine])]
    exact seq_error hround
  refine ⟨M, _, { e2 with mkt := Mu }, ⟨hM.curves, hM.vols, hM.divs, hM.date, hM.tenors, hM.grid⟩, hown, ?_, ?_, ?_⟩
  · unfold calculateAct
    rw [seq_ok (show onlyIfAct shyEngine.conf.npv (setNpvsAct shyEngine) (newEng shyEngine M) = (e1, .ok ()) from hA1)]
    rw [seq_ok (show onlyIfAct shyEngine.conf.exposure (setExposuresAct shyEngine) e1 = (e1, .ok ()) from rfl)]
    exact seq_error (show onlyIfAct shyEngine.conf.delta (setDeltasAct shyEngine) e1 = _ from hd)
  · obtain ⟨a, x, h1, h2, h3⟩ := stock_value M _ _ hprice (by norm_num)
    exact ⟨a, x, h1, h2, h3.trans (by norm_num)⟩
  · obtain ⟨a, x, h1, h2, h3⟩ := stock_value Mu _ _ hpu (by show (100 : ℝ) * (1 + shyEngine.conf.deltaRatio) ≤ 1000; rw [h101]; norm_num)
    refine ⟨a, x, h1, h2, h3.trans ?_⟩
    show some ((100 : ℝ) * (1 + shyEngine.conf.deltaRatio) * 3) = _
    rw [h101]; norm_num

end Verif.Props

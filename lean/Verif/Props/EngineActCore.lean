import Verif.QL.EngineAct
import Verif.Props.Act
import Verif.Props.EngineRuns
/-!
# The write by write model of the engine does what the model that drops errors does
-/
set_option autoImplicit false
namespace Verif.Props
open Verif Verif.QL Verif.Civil

/-- The statements do what the function says, from every state. -/
def Does {σ : Type} (a : Act σ Unit) (f : σ → Res σ) : Prop := ∀ s, Agree a s (f s >>= fun s' => .ok ((), s'))

theorem does_then {σ : Type} {a b : Act σ Unit} {f h : σ → Res σ} (ha : Does a f) (hb : Does b h) : Does (a >>= fun _ => b) (fun s => f s >>= h) := by
  intro s
  rw [bind_assoc]
  exact agree_then (ha s) hb

theorem agree_step {σ β : Type} {a : Act σ Unit} {f : σ → Res σ} (ha : Does a f) {k : Unit → Act σ β} {s : σ} {K : σ → Res (β × σ)}
    (hk : ∀ s', f s = .ok s' → Agree (k ()) s' (K s')) : Agree (a >>= k) s (f s >>= K) := by
  have h := ha s
  rcases hf : f s with e | s'
  · rw [hf] at h; exact agree_error h
  · rw [hf] at h; exact agree_ok h (hk s' hf)

theorem agree_stop {σ β : Type} {s : σ} {f : Fault} {k : Unit → Act σ β} : Agree (expr (.error f) >>= k) s (.error f) := rfl

theorem does_onMkt {a : Act Mkt Unit} {f : Mkt → Res Mkt} (h : Does a f) : Does (onMkt a) (fun e => f e.mkt >>= fun m => .ok { e with mkt := m }) := by
  intro e
  have := agree_on (get := Eng.mkt) (put := fun m e => { e with mkt := m }) (s := e) (h e.mkt)
  dsimp only
  rcases hf : f e.mkt with x | m <;> rw [hf] at this <;> exact this

theorem agree_setResult {β : Type} {c : String} {f : EResult → EResult} {k : Unit → Act Eng β} {e : Eng} {K : EResult → Res (β × Eng)}
    (h : ∀ x, e.results c = some x → Agree (k ()) { e with results := e.results.put c (f x) } (K x)) :
    Agree (setResult c f >>= k) e (orErr (e.results c) >>= K) := by
  unfold setResult
  rcases hx : e.results c with _ | x
  · have : Agree (setResult c f) e (.error .err) := by
      show (setResult c f e).2 = _
      unfold setResult
      rw [seq_look, hx]
      rfl
    exact agree_error this
  · have : setResult c f e = ({ e with results := e.results.put c (f x) }, .ok ()) := by
      unfold setResult
      rw [seq_look, hx]
      rfl
    exact agree_ok this (h x hx)

theorem setResult_eq (c : String) (f : EResult → EResult) (e : Eng) (x : EResult) (hx : e.results c = some x) :
    setResult c f e = ({ e with results := e.results.put c (f x) }, .ok ()) := by
  unfold setResult
  rw [seq_look, hx]
  rfl

theorem setResult_none (c : String) (f : EResult → EResult) (e : Eng) (hx : e.results c = none) : setResult c f e = (e, .error .err) := by
  unfold setResult
  rw [seq_look, hx]
  rfl

theorem readNpv_eq (c : String) (e : Eng) : readNpv c e = (e, baseNpv e.results c) := by
  unfold readNpv
  rw [seq_look]
  rfl

theorem agree_readNpv {β : Type} {c : String} {k : ℝ → Act Eng β} {e : Eng} {K : EResult → NpvResult → Res (β × Eng)}
    (h : ∀ x v, e.results c = some x → x.npv = some v → Agree (k v.npv) e (K x v)) :
    Agree (readNpv c >>= k) e (orErr (e.results c) >>= fun x => orErr x.npv >>= fun v => K x v) := by
  have he := readNpv_eq c e
  rcases hx : e.results c with _ | x
  · refine agree_error ?_
    show (readNpv c e).2 = _
    rw [he]; unfold baseNpv; rw [hx]; rfl
  · rcases hv : x.npv with _ | v
    · rw [show (orErr (some x) >>= fun x => orErr x.npv >>= fun v => K x v) = .error .err by simp [orErr, hv]]
      refine agree_error ?_
      show (readNpv c e).2 = _
      rw [he]; unfold baseNpv; rw [hx]; simp [orErr, hv]
    · rw [show (orErr (some x) >>= fun x => orErr x.npv >>= fun v => K x v) = K x v by simp [orErr, hv]]
      refine agree_ok (s' := e) (x := v.npv) ?_ (h x v hx hv)
      rw [he]; unfold baseNpv; rw [hx]; simp [orErr, hv]

theorem agree_npvs {β : Type} {g : EngCfg} {k : Map String ℝ → Act Eng β} {e : Eng} {K : Map String ℝ → Res (β × Eng)}
    (h : ∀ m, getNpvs g e.mkt e.action (fun _ => none) = .ok m → Agree (k m) e (K m)) :
    Agree (npvsAct g >>= k) e (getNpvs g e.mkt e.action (fun _ => none) >>= K) := by
  rcases hx : getNpvs g e.mkt e.action (fun _ => none) with f | m
  · refine agree_error ?_
    show (npvsAct g e).2 = _
    unfold npvsAct; rw [seq_look, hx]; rfl
  · refine agree_ok (s' := e) (x := m) ?_ (h m hx)
    unfold npvsAct; rw [seq_look, hx]; rfl

/-! ## bumps -/

theorem curveAct_does (t1 t2 : Option ℝ) (b : ℝ) (c : Curve) :
    Agree (curveAct t1 t2 b) c (c.bumpTimes t1 t2 b >>= fun c' => .ok ((), c'.blank)) := by
  unfold curveAct
  refine agree_look ?_
  unfold Curve.bumpTimes
  dsimp only
  split
  · rfl
  · split
    · rfl
    · rw [bind_assoc]
      refine agree_assign (agree_expr fun ri _ => agree_assign (agree_assign ?_))
      rw [bind_assoc]
      exact agree_expr fun disc _ => rfl

theorem bumpCurve_does (n : String) (t1 t2 : Option ℝ) (b : ℝ) : Does (bumpCurveAct n t1 t2 b) (fun m => m.bumpCurve n t1 t2 b) := by
  intro m
  dsimp only
  unfold Mkt.bumpCurve
  rcases hc : m.curves n with _ | c
  · show (bumpCurveAct n t1 t2 b m).2 = _
    unfold bumpCurveAct; rw [hc]
  · have h := curveAct_does t1 t2 b c
    rw [show orErr (some c) = .ok c from rfl, Res.bind_ok]
    rcases hb : c.bumpTimes t1 t2 b with f | c' <;> rw [hb] at h
    · show (bumpCurveAct n t1 t2 b m).2 = _
      have h' : (curveAct t1 t2 b c).2 = .error f := h
      unfold bumpCurveAct; rw [hc]; exact h'
    · have h' : curveAct t1 t2 b c = (c'.blank, .ok ()) := h
      show bumpCurveAct n t1 t2 b m = _
      unfold bumpCurveAct; rw [hc]; dsimp only; rw [h']

theorem bumpVol_does (u : String) (t1 t2 x1 x2 : Option ℝ) (b : ℝ) : Does (bumpVolAct u t1 t2 x1 x2 b) (fun m => m.bumpVol u t1 t2 x1 x2 b) := by
  intro m
  dsimp only
  unfold Mkt.bumpVol
  rcases hc : m.vols u with _ | v
  · show (bumpVolAct u t1 t2 x1 x2 b m).2 = _
    unfold bumpVolAct; rw [hc]
  · rw [show orErr (some v) = .ok v from rfl, Res.bind_ok]
    rcases he : m.env u with f | env
    · show (bumpVolAct u t1 t2 x1 x2 b m).2 = _
      unfold bumpVolAct; rw [hc, he]
    · rw [Res.bind_ok]
      rcases v with v | s
      · show bumpVolAct u t1 t2 x1 x2 b m = _
        unfold bumpVolAct; rw [hc, he]; rfl
      · unfold Vol.bump Surf.bump
        dsimp only
        rcases hb : Surf.build env { s with vols := bumpCells s.times s.mon s.vols t1 t2 x1 x2 b } with f | s2
        · show (bumpVolAct u t1 t2 x1 x2 b m).2 = _
          unfold bumpVolAct; rw [hc, he]; unfold volAct; dsimp only; rw [hb]
        · show bumpVolAct u t1 t2 x1 x2 b m = _
          unfold bumpVolAct; rw [hc, he]; unfold volAct; dsimp only; rw [hb]

theorem dividendAct_does (d1 d2 : Option DT) (b : ℝ) (v : Dividend ℝ) :
    Agree (dividendAct d1 d2 b) v (v.bump d1 d2 b >>= fun v' => .ok ((), v')) := by
  unfold dividendAct
  refine agree_look ?_
  unfold Dividend.bump
  dsimp only
  split
  · rfl
  · rw [bind_assoc]
    refine agree_assign (agree_expr fun ys _ => agree_assign ?_)
    rw [bind_assoc]
    exact agree_expr fun it _ => rfl

theorem bumpDiv_does (u : String) (d1 d2 : Option DT) (b : ℝ) : Does (bumpDivAct u d1 d2 b) (fun m => m.bumpDiv u d1 d2 b) := by
  intro m
  dsimp only
  unfold Mkt.bumpDiv
  rcases hk : m.dividend u with _ | k
  · show (bumpDivAct u d1 d2 b m).2 = _
    unfold bumpDivAct; rw [hk]
  · dsimp only
    rcases hv : m.w.divs[k]? with _ | v
    · show (bumpDivAct u d1 d2 b m).2 = _
      unfold bumpDivAct; rw [hk]; dsimp only; rw [hv]
    · have h := dividendAct_does d1 d2 b v.1
      dsimp only
      rcases hb : v.1.bump d1 d2 b with f | v' <;> rw [hb] at h
      · have h' : (dividendAct d1 d2 b v.1).2 = .error f := h
        show (bumpDivAct u d1 d2 b m).2 = _
        unfold bumpDivAct; rw [hk]; dsimp only; rw [hv]; exact h'
      · have h' : dividendAct d1 d2 b v.1 = (v', .ok ()) := h
        show bumpDivAct u d1 d2 b m = _
        unfold bumpDivAct; rw [hk]; dsimp only; rw [hv]; dsimp only; rw [h']

/-! ## the date -/

theorem pricesAct_does (d : DT) : ∀ (todo done : List (Price ℝ)) (w : World ℝ), w.prices = done ++ todo →
    Agree (pricesAct d done todo) w (mapRes (fun p => Price.update p (w.divs.map Prod.fst) d) todo >>= fun ps => .ok ((), { w with prices := done ++ ps })) := by
  intro todo
  induction todo with
  | nil =>
    intro done w h
    show pricesAct d done [] w = _
    rw [← h]
    rfl
  | cons p rest ih =>
    intro done w h
    rw [pricesAct, mapRes, bind_assoc]
    refine agree_look (agree_expr fun p' _ => agree_assign ?_)
    rw [bind_assoc]
    have := ih (done ++ [p']) { w with prices := done ++ p' :: rest } (by simp)
    simpa [bind_assoc] using this

theorem divsAct_does (d : DT) : ∀ (todo done : List (Dividend ℝ × Bool)) (w : World ℝ), w.divs = done ++ todo →
    Agree (divsAct d done todo) w (mapRes (watch d) todo >>= fun ps => .ok ((), { w with divs := done ++ ps })) := by
  intro todo
  induction todo with
  | nil =>
    intro done w h
    show divsAct d done [] w = _
    rw [← h]
    rfl
  | cons p rest ih =>
    intro done w h
    rw [divsAct, mapRes, bind_assoc]
    refine agree_expr fun p' _ => agree_assign ?_
    rw [bind_assoc]
    have := ih (done ++ [p']) { w with divs := done ++ p' :: rest } (by simp)
    simpa [bind_assoc] using this

theorem dateAct_does (d : DT) : Does (dateAct d) (fun w => w.setDate d) := by
  intro w
  unfold dateAct
  refine agree_assign (agree_look ?_)
  dsimp only
  unfold World.setDate
  rw [bind_assoc]
  have h := pricesAct_does d w.prices [] { w with date := d } rfl
  dsimp only at h
  rcases hp : mapRes (fun p => Price.update p (w.divs.map Prod.fst) d) w.prices with f | ps <;> rw [hp] at h
  · exact agree_error h
  · refine agree_ok h ?_
    rw [Res.bind_ok, bind_assoc]
    exact divsAct_does d w.divs [] _ rfl

theorem moveAct_does (d : DT) : Does (moveAct d) (fun e => e.mkt.w.setDate d >>= fun w => .ok { e with mkt := { e.mkt with w := w } }) := by
  have h : Does (Act.on Mkt.w (fun w m => { m with w := w }) (dateAct d)) (fun m => m.w.setDate d >>= fun w => .ok { m with w := w }) := by
    intro m
    have := agree_on (get := Mkt.w) (put := fun w m => { m with w := w }) (s := m) (dateAct_does d m.w)
    dsimp only at this ⊢
    rcases hf : m.w.setDate d with x | w <;> rw [hf] at this <;> exact this
  intro e
  have := does_onMkt h e
  dsimp only
  rcases hf : e.mkt.w.setDate d with x | w
  · dsimp only at this; rw [hf] at this; exact this
  · dsimp only at this; rw [hf] at this; exact this

/-! ## npv, value, cash flows, exposure -/

theorem eachResultAct_does (f : String → EResult → Res EResult) : ∀ (l : List Instr) (e : Eng),
    Agree (eachResultAct f l) e (eachResult f l e.results >>= fun r => .ok ((), { e with results := r })) := by
  intro l
  induction l with
  | nil => intro e; rfl
  | cons i l ih =>
    intro e
    rw [eachResultAct, eachResult, bind_assoc]
    refine agree_look (agree_expr fun x _ => ?_)
    rw [bind_assoc]
    exact agree_expr fun y _ => agree_assign (ih { e with results := e.results.put i.code y })

theorem setNpvResults_does (g : EngCfg) : Does (setNpvResultsAct g) (setNpvResults g) := by
  intro e
  unfold setNpvResultsAct setNpvResults
  rw [bind_assoc]
  refine agree_look (agree_expr fun npvs _ => ?_)
  rw [bind_assoc]
  exact eachResultAct_does _ _ e

theorem setValues_does (g : EngCfg) : Does (setValuesAct g) (setValues g) := by
  intro e
  unfold setValuesAct setValues
  rw [bind_assoc]
  exact eachResultAct_does _ _ e

theorem setFlows_does (g : EngCfg) : Does (setFlowsAct g) (setFlows g) := by
  intro e
  unfold setFlowsAct setFlows
  rw [bind_assoc]
  exact eachResultAct_does _ _ e

theorem setExposures_does (g : EngCfg) : Does (setExposuresAct g) (setExposures g) := by
  intro e
  unfold setExposuresAct setExposures
  rw [bind_assoc]
  refine agree_look (agree_expr fun npvs _ => ?_)
  rw [bind_assoc]
  exact eachResultAct_does _ _ e

/-! ## delta and gamma -/

theorem put_get {α : Type} (r : Map String α) (c : String) (x : α) : (r.put c x) c = some x := by simp [Map.put]

theorem preDelta_does : ∀ (l : List Instr) (e : Eng), Agree (preDeltaAct l) e (preDeltaLoop l e.results >>= fun r => .ok ((), { e with results := r })) := by
  intro l
  induction l with
  | nil => intro e; rfl
  | cons i l ih =>
    intro e
    rw [preDeltaAct, preDeltaLoop]
    simp only [bind_assoc]
    refine agree_readNpv fun x v hx hv => ?_
    refine agree_ok (setResult_eq _ _ _ x hx) (agree_ok (setResult_eq _ _ _ _ (put_get _ _ _)) ?_)
    dsimp only
    rw [put_put]
    exact ih { e with results := _ }

theorem deltaLoop_does (u : String) (up down : Map String ℝ) (ratio : ℝ) : ∀ (l : List Instr) (e : Eng),
    Agree (deltaLoopAct u up down ratio l) e (deltaLoop u up down ratio l e.results >>= fun r => .ok ((), { e with results := r })) := by
  intro l
  induction l with
  | nil => intro e; rfl
  | cons i l ih =>
    intro e
    rw [deltaLoopAct, deltaLoop]
    simp only [bind_assoc]
    refine agree_expr fun a _ => agree_expr fun b _ => agree_expr fun q _ => ?_
    rcases hx : e.results i.code with _ | x
    · refine agree_error ?_
      show (setResult _ _ _).2 = _
      rw [setResult_none _ _ _ hx]
    refine agree_ok (setResult_eq _ _ _ x hx) ?_
    rw [show orErr (some x) = .ok x from rfl, Res.bind_ok]
    rcases hv : x.npv with _ | v
    · refine agree_error ?_
      show (readNpv _ _).2 = _
      rw [readNpv_eq]; unfold baseNpv; dsimp only; rw [put_get]; simp [orErr]
    rw [show orErr (some v) = .ok v from rfl, Res.bind_ok]
    refine agree_ok (x := v.npv) (s' := { e with results := e.results.put i.code { x with delta := x.delta.put u (q * 0.01 * i.notional) } }) ?_ ?_
    · rw [readNpv_eq]; unfold baseNpv; dsimp only; rw [put_get]; simp [orErr, hv]
    refine agree_expr fun k _ => agree_ok (setResult_eq _ _ _ _ (put_get _ _ _)) ?_
    dsimp only
    rw [put_put, ← hv]
    exact ih { e with results := _ }

theorem changePrice_eq (u : String) (f : ℝ → ℝ) (m : Mkt) (j : Nat) (p : Price ℝ) (h : m.price u = some (j, p)) :
    changePrice u f m = (m.putPrice j p (f p.value), .ok ()) := by
  unfold changePrice; rw [h]

theorem price_put (u : String) (m : Mkt) (j : Nat) (p : Price ℝ) (x : ℝ) (h : m.price u = some (j, p)) :
    (m.putPrice j p x).price u = some (j, { p with value := x }) := by
  obtain ⟨h1, h2⟩ := (price_iff _ _ _ _).1 h
  refine (price_iff _ _ _ _).2 ⟨h1, ?_⟩
  show (m.w.prices.set j { p with value := x })[j]? = _
  rw [List.getElem?_set_self]
  exact (List.getElem?_eq_some_iff.1 h2).1

theorem putPrice_put (m : Mkt) (j : Nat) (p : Price ℝ) (x y : ℝ) : (m.putPrice j p x).putPrice j { p with value := x } y = m.putPrice j p y := by
  unfold Mkt.putPrice
  simp [List.set_set]

theorem onMkt_ok {a : Act Mkt Unit} {e : Eng} {m : Mkt} (h : a e.mkt = (m, .ok ())) : onMkt a e = ({ e with mkt := m }, .ok ()) := by
  unfold onMkt Act.on; rw [h]

theorem onMkt_error {a : Act Mkt Unit} {e : Eng} {m : Mkt} {f : Fault} (h : a e.mkt = (m, .error f)) : onMkt a e = ({ e with mkt := m }, .error f) := by
  unfold onMkt Act.on; rw [h]

theorem deltaRound_does (g : EngCfg) (u : String) : Does (deltaRoundAct g u) (deltaRound g u) := by
  intro e
  unfold deltaRoundAct deltaRound
  simp only [bind_assoc]
  refine agree_look (agree_expr fun jp hjp => ?_)
  obtain ⟨j, p⟩ := jp
  have hp : e.mkt.price u = some (j, p) := by
    rcases h : e.mkt.price u with _ | q
    · rw [h] at hjp; cases hjp
    · rw [h] at hjp; obtain rfl := Except.ok.inj hjp; rfl
  refine agree_ok (onMkt_ok (changePrice_eq u _ e.mkt j p hp)) (agree_npvs fun up _ => ?_)
  refine agree_ok (onMkt_ok (changePrice_eq u _ _ j _ (price_put u e.mkt j p _ hp))) ?_
  dsimp only
  rw [putPrice_put]
  refine agree_ok (onMkt_ok (changePrice_eq u _ _ j _ (price_put u e.mkt j p _ hp))) ?_
  dsimp only
  rw [putPrice_put]
  refine agree_npvs fun down _ => ?_
  have h := deltaLoop_does u up down g.conf.deltaRatio e.action { e with mkt := e.mkt.putPrice j p (p.value * (1 - g.conf.deltaRatio)) }
  dsimp only at h
  rcases hl : deltaLoop u up down g.conf.deltaRatio e.action e.results with f | r <;> rw [hl] at h
  · exact agree_error h
  refine agree_ok h ?_
  show onMkt _ _ = _
  rw [onMkt_ok (changePrice_eq u _ _ j _ (price_put u e.mkt j p _ hp))]
  dsimp only
  rw [putPrice_put]

theorem eachName_does (pick : String → Res (List Instr)) (roundA : String → Act Eng Unit) (round : String → Eng → Res Eng) (h : ∀ n, Does (roundA n) (round n)) :
    ∀ ns, Does (eachNameAct pick roundA ns) (eachName pick round ns) := by
  intro ns
  induction ns with
  | nil => intro e; rfl
  | cons n ns ih =>
    intro e
    rw [eachNameAct, eachName, bind_assoc]
    refine agree_expr fun act _ => agree_assign ?_
    rcases he : act.isEmpty with _ | _
    · simp only [Bool.false_eq_true, if_false, bind_assoc]
      exact agree_step (h n) fun e' _ => ih e'
    · simp only [if_true]
      obtain rfl := List.isEmpty_iff.1 he
      exact ih _

theorem setDelta_does (g : EngCfg) : Does (setDeltaAct g) (setDelta g) := by
  intro e
  unfold setDeltaAct setDelta
  exact agree_assign (eachName_does _ _ _ (deltaRound_does g) _ _)

theorem setDeltas_does (g : EngCfg) : Does (setDeltasAct g) (setDeltas g) := by
  refine does_then (f := preprocessDelta g) (h := setDelta g) (fun e => ?_) (setDelta_does g)
  unfold preprocessDelta
  rw [bind_assoc]
  exact preDelta_does _ e

/-! ## forward differences -/

theorem diffLoop_does (put : EResult → ℝ → EResult) (ups : Map String ℝ) (b unit : ℝ) : ∀ (l : List Instr) (e : Eng),
    Agree (diffLoopAct put ups b unit l) e (diffLoop put ups b unit l e.results >>= fun r => .ok ((), { e with results := r })) := by
  intro l
  induction l with
  | nil => intro e; rfl
  | cons i l ih =>
    intro e
    rw [diffLoopAct, diffLoop]
    simp only [bind_assoc]
    refine agree_expr fun up _ => agree_readNpv fun x v hx hv => agree_expr fun q _ => ?_
    exact agree_ok (setResult_eq _ _ _ x hx) (ih { e with results := _ })

theorem diffRound_does (g : EngCfg) (bumpA undoA : Act Mkt Unit) (bump undo : Mkt → Res Mkt) (put : EResult → ℝ → EResult) (b unit : ℝ)
    (hb : Does bumpA bump) (hu : Does undoA undo) : Does (diffRoundAct g bumpA undoA put b unit) (diffRound g bump undo put b unit) := by
  intro e
  unfold diffRoundAct diffRound
  simp only [bind_assoc]
  refine agree_look ?_
  have h := does_onMkt hb e
  rcases hm : bump e.mkt with f | m
  · dsimp only at h; rw [hm] at h; exact agree_error h
  dsimp only at h; rw [hm] at h
  refine agree_ok h (agree_npvs fun ups _ => ?_)
  have h2 := diffLoop_does put ups b unit e.action { e with mkt := m }
  dsimp only at h2
  rcases hl : diffLoop put ups b unit e.action e.results with f | r <;> rw [hl] at h2
  · exact agree_error h2
  refine agree_ok h2 ?_
  have h3 := does_onMkt hu { mkt := m, action := e.action, results := r }
  dsimp only at h3
  rw [bind_assoc] at h3
  exact h3

theorem setRho_does (g : EngCfg) : Does (setRhoAct g) (setRho g) := by
  intro e
  unfold setRhoAct setRho
  rw [bind_assoc]
  exact agree_expr fun names _ => eachName_does _ _ _ (fun n => diffRound_does g _ _ _ _ _ _ _ (bumpCurve_does n _ _ _) (bumpCurve_does n _ _ _)) _ e

theorem setVega_does (g : EngCfg) : Does (setVegaAct g) (setVega g) :=
  eachName_does _ _ _ (fun n => diffRound_does g _ _ _ _ _ _ _ (bumpVol_does n _ _ _ _ _) (bumpVol_does n _ _ _ _ _)) _

theorem setDivDelta_does (g : EngCfg) : Does (setDivDeltaAct g) (setDivDelta g) :=
  eachName_does _ _ _ (fun n => diffRound_does g _ _ _ _ _ _ _ (bumpDiv_does n _ _ _) (bumpDiv_does n _ _ _)) _

/-! ## theta -/

theorem preTheta_does : ∀ (l : List Instr) (e : Eng), Agree (preThetaAct l) e (preThetaLoop l e.results >>= fun r => .ok ((), { e with results := r })) := by
  intro l
  induction l with
  | nil => intro e; rfl
  | cons i l ih =>
    intro e
    rw [preThetaAct, preThetaLoop]
    simp only [bind_assoc]
    exact agree_setResult fun x hx => ih { e with results := _ }

theorem thetaLoop_does (npvs npvs' : Map String ℝ) (a b : DT) (dt : ℝ) : ∀ (l : List Instr) (e : Eng),
    Agree (thetaLoopAct npvs npvs' a b dt l) e (thetaLoop npvs npvs' a b dt l e.results >>= fun r => .ok ((), { e with results := r })) := by
  intro l
  induction l with
  | nil => intro e; rfl
  | cons i l ih =>
    intro e
    rw [thetaLoopAct, thetaLoop]
    split
    · exact ih e
    · simp only [bind_assoc]
      refine agree_look (agree_expr fun x hx => agree_expr fun v _ => agree_expr fun v' _ => agree_expr fun fl _ => agree_expr fun q _ => ?_)
      exact agree_ok (setResult_eq _ _ _ x ((orErr_eq _ _).1 hx)) (ih { e with results := _ })

theorem setThetaFor_does (g : EngCfg) (l : List Instr) (b : DT) : Does (setThetaForAct g l b) (setThetaFor g l b) := by
  intro e
  unfold setThetaForAct setThetaFor
  simp only [bind_assoc]
  refine agree_assign (agree_look (agree_npvs (e := { e with action := l }) fun npvs _ => ?_))
  have h := moveAct_does b { e with action := l }
  dsimp only at h ⊢
  rcases hw : e.mkt.w.setDate b with f | w <;> rw [hw] at h
  · exact agree_error h
  refine agree_ok h (agree_npvs (e := { e with mkt := { e.mkt with w := w }, action := l }) fun npvs' _ => ?_)
  have h2 := thetaLoop_does npvs npvs' e.mkt.w.date b (timeFrom e.mkt.w.date b) l { e with mkt := { e.mkt with w := w }, action := l }
  dsimp only at h2
  rcases hl : thetaLoop npvs npvs' e.mkt.w.date b (timeFrom e.mkt.w.date b) l e.results with f | r <;> rw [hl] at h2
  · exact agree_error h2
  refine agree_ok h2 ?_
  have h3 := moveAct_does e.mkt.w.date { mkt := { e.mkt with w := w }, action := l, results := r }
  dsimp only at h3
  rw [bind_assoc] at h3
  exact h3

theorem thetaShort_does (g : EngCfg) (b : DT) : Does (thetaShortAct g b) (thetaShort g b) := by
  intro e
  unfold thetaShortAct thetaShort
  dsimp only
  split
  · rfl
  · rcases shortestMaturity (maturityUpto g.insts b ["Cash", "Stock"]) with _ | d
    · rfl
    · exact setThetaFor_does g _ _ e

theorem thetaLong_does (g : EngCfg) (b : DT) : Does (thetaLongAct g b) (thetaLong g b) := by
  intro e
  unfold thetaLongAct thetaLong
  dsimp only
  split
  · rfl
  · exact setThetaFor_does g _ _ e

theorem setTheta_does (g : EngCfg) : Does (setThetaAct g) (setTheta g) := by
  intro e
  unfold setThetaAct setTheta
  simp only [bind_assoc]
  have h := preTheta_does (withTypes g.insts ["Cash", "Stock"]) e
  rcases hl : preThetaLoop (withTypes g.insts ["Cash", "Stock"]) e.results with f | r <;> rw [hl] at h
  · exact agree_error h
  refine agree_ok h (agree_look (agree_expr fun b _ => ?_))
  exact agree_step (thetaShort_does g b) fun e' _ => thetaLong_does g b e'

/-! ## structures -/

theorem writeTables_does {τ : Type} (put : EResult → τ → EResult) (t : Map String τ) : ∀ (cs : List String) (e : Eng),
    Agree (writeTablesAct put t cs) e (writeTables put t cs e.results >>= fun r => .ok ((), { e with results := r })) := by
  intro cs
  induction cs with
  | nil => intro e; rfl
  | cons c cs ih =>
    intro e
    rw [writeTablesAct, writeTables]
    simp only [bind_assoc]
    exact agree_expr fun v _ => agree_setResult fun x hx => ih { e with results := _ }

theorem vegaSLoop_does (g : EngCfg) (u : String) (act : List Instr) (times : List ℝ) (longest : ℝ) : ∀ (n : Nat) (e : Eng) (prev : Map String ℝ)
    (t : Map String (List ℝ)), e.action = act →
    Agree (vegaSLoopAct g u act times longest n prev t) e
      (vegaSLoop g u act times longest n e.mkt prev t e.results >>= fun mr => .ok ((), { mkt := mr.1, action := act, results := mr.2 })) := by
  intro n
  induction n with
  | zero => intro e prev t ha; subst ha; rfl
  | succ n ih =>
    intro e prev t ha
    subst ha
    rw [vegaSLoopAct, vegaSLoop]
    simp only [bind_assoc]
    have h := does_onMkt (bumpVol_does u (startOf times n) times[n]? none none g.conf.vegaSBump) e
    dsimp only at h
    rcases hm : e.mkt.bumpVol u (startOf times n) times[n]? none none g.conf.vegaSBump with f | m <;> rw [hm] at h
    · exact agree_error h
    refine agree_ok h ?_
    rw [Res.bind_ok]
    split
    · exact ih { e with mkt := m } prev t rfl
    · simp only [bind_assoc]
      refine agree_npvs (e := { e with mkt := m }) fun ups _ => agree_expr fun t' _ => ?_
      have h2 := writeTables_does (fun x v => { x with vegaS := x.vegaS.put u v }) t' (e.action.map Instr.code) { e with mkt := m }
      dsimp only at h2
      rcases hw : writeTables (fun x v => { x with vegaS := x.vegaS.put u v }) t' (e.action.map Instr.code) e.results with f | r <;> rw [hw] at h2
      · exact agree_error h2
      exact agree_ok h2 (ih { e with mkt := m, results := r } ups t' rfl)

theorem vegaSRound_does (g : EngCfg) (times : List ℝ) (u : String) : Does (vegaSRoundAct g times u) (vegaSRound g times u) := by
  intro e
  unfold vegaSRoundAct vegaSRound
  simp only [bind_assoc]
  refine agree_look (agree_expr fun prev _ => ?_)
  have h := vegaSLoop_does g u e.action times (longestTime e.mkt.w.date e.action) times.length e prev
    (zeroTables (List.replicate times.length 0) e.action fun _ => none) rfl
  rcases hl : vegaSLoop g u e.action times (longestTime e.mkt.w.date e.action) times.length e.mkt prev
    (zeroTables (List.replicate times.length 0) e.action fun _ => none) e.results with f | mr <;> rw [hl] at h
  · exact agree_error h
  refine agree_ok h ?_
  have h3 := does_onMkt (bumpVol_does u none none none none (-g.conf.vegaSBump)) { mkt := mr.1, action := e.action, results := mr.2 }
  dsimp only at h3
  rw [bind_assoc] at h3
  exact h3

theorem setVegaS_does (g : EngCfg) : Does (setVegaSAct g) (setVegaS g) := by
  intro e
  unfold setVegaSAct setVegaS
  rw [bind_assoc]
  exact agree_look (agree_expr fun ds _ => eachName_does _ _ _ (vegaSRound_does g _) _ e)

theorem windowLoop_does (g : EngCfg) (bumpA : Nat → ℝ → Act Mkt Unit) (bump : Nat → ℝ → Mkt → Res Mkt) (hb : ∀ i b, Does (bumpA i b) (bump i b))
    (b unit : ℝ) (dates : List DT) (act : List Instr) : ∀ (left i : Nat) (e : Eng) (t : Map String (List ℝ)), e.action = act →
    Agree (windowLoopAct g bumpA b unit dates act left i t) e
      (windowLoop g bump b unit dates act e.results left i e.mkt t >>= fun mt => .ok (mt.2, { e with mkt := mt.1 })) := by
  intro left
  induction left with
  | zero => intro i e t _; rfl
  | succ left ih =>
    intro i e t ha
    subst ha
    rw [windowLoopAct, windowLoop]
    simp only [bind_assoc]
    have h := does_onMkt (hb i b) e
    dsimp only at h
    rcases hm : bump i b e.mkt with f | m <;> rw [hm] at h
    · exact agree_error h
    refine agree_ok h (agree_npvs (e := { e with mkt := m }) fun ups _ => agree_look (agree_expr fun t' _ => ?_))
    have h2 := does_onMkt (hb i (-b)) { e with mkt := m }
    dsimp only at h2
    rcases hm2 : bump i (-b) m with f | m2 <;> rw [hm2] at h2
    · exact agree_error h2
    refine agree_ok h2 (agree_expr fun d _ => ?_)
    split
    · rfl
    · exact ih (i + 1) { e with mkt := m2 } t' rfl

theorem windowRound_does (g : EngCfg) (bumpA : Nat → ℝ → Act Mkt Unit) (bump : Nat → ℝ → Mkt → Res Mkt) (hb : ∀ i b, Does (bumpA i b) (bump i b))
    (put : EResult → List ℝ → EResult) (b unit : ℝ) (dates : List DT) :
    Does (windowRoundAct g bumpA put b unit dates) (windowRound g bump put b unit dates) := by
  intro e
  unfold windowRoundAct windowRound
  simp only [bind_assoc]
  refine agree_look ?_
  have h := windowLoop_does g bumpA bump hb b unit dates e.action dates.length 0 e (zeroTables (List.replicate dates.length 0) e.action fun _ => none) rfl
  rcases hl : windowLoop g bump b unit dates e.action e.results dates.length 0 e.mkt (zeroTables (List.replicate dates.length 0) e.action fun _ => none)
    with f | mt <;> rw [hl] at h
  · exact agree_error h
  exact agree_ok h (writeTables_does put mt.2 (e.action.map Instr.code) { e with mkt := mt.1 })

theorem setRhoS_does (g : EngCfg) : Does (setRhoSAct g) (setRhoS g) := by
  intro e
  unfold setRhoSAct setRhoS
  simp only [bind_assoc]
  exact agree_expr fun names _ => agree_look (agree_expr fun ds _ => eachName_does _ _ _ (fun n => windowRound_does g _ _ (fun i b => bumpCurve_does n _ _ _) _ _ _ _) _ e)

theorem setDivS_does (g : EngCfg) (names : List String) : Does (setDivSAct g names) (setDivS g names) := by
  intro e
  unfold setDivSAct setDivS
  simp only [bind_assoc]
  exact agree_look (agree_expr fun ds _ => eachName_does _ _ _ (fun n => windowRound_does g _ _ (fun i b => bumpDiv_does n _ _ _) _ _ _ _) _ e)

theorem matrixLoop_does (g : EngCfg) (u : String) (act : List Instr) (codes : List String) (times mon : List ℝ) : ∀ (cells : List (Nat × Nat)) (e : Eng)
    (prev : Map String ℝ) (t : Map String (List (List ℝ))), e.action = act →
    Agree (matrixLoopAct g u act codes times mon cells prev t) e
      (matrixLoop g u act codes times mon cells e.mkt prev t e.results >>= fun q => .ok (q.2.1, { mkt := q.1, action := act, results := q.2.2 })) := by
  intro cells
  induction cells with
  | nil => intro e prev t ha; subst ha; rfl
  | cons c cells ih =>
    intro e prev t ha
    subst ha
    obtain ⟨i, j⟩ := c
    rw [matrixLoopAct, matrixLoop]
    simp only [bind_assoc]
    have h := does_onMkt (bumpVol_does u (startOf times i) times[i]? (startOf mon j) mon[j]? g.conf.vegaSBump) e
    dsimp only at h
    rcases hm : e.mkt.bumpVol u (startOf times i) times[i]? (startOf mon j) mon[j]? g.conf.vegaSBump with f | m <;> rw [hm] at h
    · exact agree_error h
    refine agree_ok h (agree_npvs (e := { e with mkt := m }) fun ups _ => agree_expr fun t' _ => ?_)
    have h2 := writeTables_does (fun x v => { x with vegaM := x.vegaM.put u v }) t' codes { e with mkt := m }
    dsimp only at h2
    rcases hw : writeTables (fun x v => { x with vegaM := x.vegaM.put u v }) t' codes e.results with f | r <;> rw [hw] at h2
    · exact agree_error h2
    exact agree_ok h2 (ih { e with mkt := m, results := r } ups t' rfl)

theorem matrixNames_does (g : EngCfg) (times : List ℝ) : ∀ (us codes : List String) (t : Map String (List (List ℝ))),
    Does (matrixNamesAct g times us codes t) (matrixNames g times us codes t) := by
  intro us
  induction us with
  | nil => intro codes t e; rfl
  | cons u us ih =>
    intro codes t e
    rw [matrixNamesAct, matrixNames]
    refine agree_assign ?_
    rcases he : (withUnderlying g.insts u ["Cash", "Stock", "Futures"]).isEmpty with _ | _
    · simp only [Bool.false_eq_true, if_false, bind_assoc]
      generalize withUnderlying g.insts u ["Cash", "Stock", "Futures"] = act at *
      unfold matrixRoundAct
      rcases hp : baseNpvs e.results act (fun _ => none) with f | prev
      · refine agree_error ?_
        refine agree_look ?_
        dsimp only
        rw [hp]
        exact agree_error rfl
      rw [Res.bind_ok]
      have h := matrixLoop_does g u act (codes ++ act.map Instr.code) times g.conf.moneyness
        (cellOrder times (longestTime e.mkt.w.date act) g.conf.moneyness.length times.length) { e with action := act } prev
        (zeroTables (List.replicate times.length (List.replicate g.conf.moneyness.length (0 : ℝ))) act t) rfl
      dsimp only at h
      rcases hl : matrixLoop g u act (codes ++ act.map Instr.code) times g.conf.moneyness
        (cellOrder times (longestTime e.mkt.w.date act) g.conf.moneyness.length times.length) e.mkt prev
        (zeroTables (List.replicate times.length (List.replicate g.conf.moneyness.length (0 : ℝ))) act t) e.results with f | q <;> rw [hl] at h
      · refine agree_error (agree_look ?_)
        dsimp only
        rw [hp]
        exact agree_ok (show expr (.ok prev) _ = (_, .ok prev) from rfl) (agree_error h)
      rw [Res.bind_ok]
      have h3 := does_onMkt (bumpVol_does u none none none none (-g.conf.vegaSBump)) { mkt := q.1, action := act, results := q.2.2 }
      dsimp only at h3
      rcases hm : q.1.bumpVol u none none none none (-g.conf.vegaSBump) with f | m <;> rw [hm] at h3
      · refine agree_error (agree_look ?_)
        dsimp only
        rw [hp]
        exact agree_ok (show expr (.ok prev) _ = (_, .ok prev) from rfl) (agree_ok h (agree_error h3))
      refine agree_ok (x := q.2.1) (s' := { mkt := m, action := act, results := q.2.2 }) ?_ (ih _ _ _)
      rw [seq_look]
      dsimp only
      rw [hp, seq_expr rfl, seq_ok h, seq_ok h3]
      rfl
    · simp only [if_true]
      obtain h0 := List.isEmpty_iff.1 he
      rw [h0]
      exact ih _ _ _

theorem setVegaM_does (g : EngCfg) : Does (setVegaMAct g) (setVegaM g) := by
  intro e
  unfold setVegaMAct setVegaM
  rw [bind_assoc]
  exact agree_look (agree_expr fun ds _ => matrixNames_does g _ _ _ _ e)

/-! ## everything -/

theorem onlyIf_does (flag : Bool) {a : Act Eng Unit} {f : Eng → Res Eng} (h : Does a f) : Does (onlyIfAct flag a) (onlyIf flag f) := by
  cases flag with
  | true => exact h
  | false => intro e; rfl

theorem setNpvs_does (g : EngCfg) : Does (setNpvsAct g) (setNpvs g) :=
  does_then (setNpvResults_does g) (does_then (setValues_does g) (setFlows_does g))

theorem calculate_does (g : EngCfg) (names : List String) : Does (calculateAct g names) (calculate g names) :=
  does_then (onlyIf_does _ (setNpvs_does g)) <| does_then (onlyIf_does _ (setExposures_does g)) <| does_then (onlyIf_does _ (setDeltas_does g)) <|
  does_then (onlyIf_does _ (setTheta_does g)) <| does_then (onlyIf_does _ (setVega_does g)) <| does_then (onlyIf_does _ (setRho_does g)) <|
  does_then (onlyIf_does _ (setDivDelta_does g)) <| does_then (onlyIf_does _ (setVegaS_does g)) <| does_then (onlyIf_does _ (setRhoS_does g)) <|
  does_then (onlyIf_does _ (setDivS_does g names)) (onlyIf_does _ (setVegaM_does g))

end Verif.Props

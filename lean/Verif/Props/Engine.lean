import Verif.Props.EngineCore
import Verif.Props.Surface
import Verif.Props.Dividend
/-!
# C87-C90: npv, delta and gamma, rho, vega of the pricing engine

Pricers are arbitrary. The markets in which instruments are repriced are specified by `PriceScaled`, `CurveShifted`,
`VolShifted`.
-/
set_option autoImplicit false
namespace Verif.Props
open Verif Verif.QL Verif.Civil

/-! ## Specification: changed markets -/

/-- Only the price of `u` is different, `k` times what it was. -/
def PriceScaled (u : String) (k : ℝ) (m m' : Mkt) : Prop :=
  ∃ j p, m.equity u = some j ∧ m.w.prices[j]? = some p ∧
    m' = { m with w := { m.w with prices := m.w.prices.set j { p with value := p.value * k } } }

/-- Only the curve `n` is different: the rates at times in `win` are `b` higher. -/
def CurveShifted (n : String) (win : ℝ → Prop) (b : ℝ) (m m' : Mkt) : Prop :=
  ∃ c c', m.curves n = some c ∧ CurveOk c' ∧ c'.rateInterp = .const 0 ∧ c'.times = c.times ∧
    (∀ (i : Nat) t r, c.times[i]? = some t → c.rates[i]? = some r → c'.rates[i]? = some (open Classical in if win t then r + b else r)) ∧
    m' = { m with curves := m.curves.put n c' }

/-- Only the volatility surface of `u` is different: the volatilities at times and moneynesses in `win` are `b` higher, and it
is rebuilt in the market as it is. -/
def VolShifted (u : String) (win : ℝ → ℝ → Prop) (b : ℝ) (m m' : Mkt) : Prop :=
  ∃ s s' env, m.vols u = some (.surface s) ∧ m.env u = .ok env ∧ GoodSurf s' ∧ Surf.build env s' = .ok s' ∧
    s' = { s with vols := s'.vols, interp := s'.interp } ∧
    (∀ (i j : Nat) t x v, s.times[i]? = some t → s.mon[j]? = some x → cell s.vols i j = some v →
      cell s'.vols i j = some (open Classical in if win t x then v + b else v)) ∧
    m' = { m with vols := m.vols.put u (.surface s') }

/-- Curves as they are after loading and after bumps: sound, without times beyond all reckoning. -/
def GoodCurves (m : Mkt) : Prop :=
  ∀ n c, m.curves n = some c → CurveOk c ∧ c.rateInterp = .const 0 ∧ ∀ t ∈ c.times, t ≤ 99999999

/-- Volatilities as they are after loading: surfaces, built in the market as it is, with positive forwards. -/
def GoodVols (m : Mkt) : Prop :=
  ∀ u v, m.vols u = some v → ∃ s env fs, v = .surface s ∧ m.env u = .ok env ∧ GoodSurf s ∧ Surf.build env s = .ok s ∧
    Forwards env (builtAt env s) s.dates fs

/-! ## Changes and their undoing -/

theorem curve_ext (c d : Curve) (h : SameCurve c d) (hc : CurveOk c) (hd : CurveOk d) (hr : c.rateInterp = d.rateInterp) : c = d := by
  obtain ⟨h1, h2, h3, -⟩ := h
  have h4 : c.disc = d.disc := by
    have a := hc.disc_eq
    rw [h1, h3, hd.disc_eq] at a
    exact (Except.ok.inj a).symm
  cases c
  cases d
  simp only [Curve.mk.injEq]
  exact ⟨hr, h2, h1, h3, h4⟩

theorem curveOk_blank (c : Curve) (h : CurveOk c) : CurveOk c.blank := ⟨h.1, h.2, h.3, h.4, h.5, h.6⟩

/-- The shifted market is determined. -/
theorem curveShifted_unique (n : String) (win : ℝ → Prop) (b : ℝ) (m m1 m2 : Mkt) (hm : GoodCurves m) (h1 : CurveShifted n win b m m1)
    (h2 : CurveShifted n win b m m2) : m1 = m2 := by
  obtain ⟨c, c1, a1, a2, a3, a4, a5, rfl⟩ := h1
  obtain ⟨d, c2, b1, b2, b3, b4, b5, rfl⟩ := h2
  rw [a1] at b1
  obtain rfl := Option.some.inj b1
  have hc := (hm n c a1).1
  have : c1 = c2 := by
    refine curve_ext c1 c2 (rates_ext c1 c2 a2 b2 (a4.trans b4.symm) fun i t r ht hr => ?_) a2 b2 (a3.trans b3.symm)
    have ht' : c.times[i]? = some t := by rw [← a4]; exact ht
    have hi : i < c.rates.length := by rw [hc.len]; exact (List.getElem?_eq_some_iff.1 ht').1
    have hr0 := List.getElem?_eq_getElem hi
    rw [a5 i t _ ht' hr0] at hr
    rw [b5 i t _ ht' hr0]
    exact hr
  rw [this]

theorem volShifted_unique (u : String) (win : ℝ → ℝ → Prop) (b : ℝ) (m m1 m2 : Mkt) (hm : GoodVols m) (h1 : VolShifted u win b m m1)
    (h2 : VolShifted u win b m m2) : m1 = m2 := by
  obtain ⟨s, s1, env, a1, a2, a3, a4, a5, a6, rfl⟩ := h1
  obtain ⟨t, s2, env', b1, b2, b3, b4, b5, b6, rfl⟩ := h2
  rw [a1] at b1
  obtain rfl := Vol.surface.inj (Option.some.inj b1)
  rw [a2] at b2
  obtain rfl := Except.ok.inj b2
  obtain ⟨s', env', fs, q1, q2, hs, -, -⟩ := hm u _ a1
  obtain rfl := Vol.surface.inj q1
  have f1 : s1.times = s.times ∧ s1.mon = s.mon := by rw [a5]; exact ⟨rfl, rfl⟩
  have f2 : s2.times = s.times ∧ s2.mon = s.mon := by rw [b5]; exact ⟨rfl, rfl⟩
  have hv : s1.vols = s2.vols := by
    refine cells_ext s.times.length s.mon.length _ _ (by rw [a3.rows, f1.1]) (by rw [b3.rows, f2.1]) (fun r hr => by rw [a3.cols r hr, f1.2])
      (fun r hr => by rw [b3.cols r hr, f2.2]) fun i j hi hj => ?_
    obtain ⟨v, hv⟩ := good_cell s hs i j hi hj
    exact (a6 i j _ _ v (List.getElem?_eq_getElem hi) (List.getElem?_eq_getElem hj) hv).trans
      (b6 i j _ _ v (List.getElem?_eq_getElem hi) (List.getElem?_eq_getElem hj) hv).symm
  have e : Surf.build env s1 = Surf.build env s2 := by
    rw [a5, b5, hv]
    rfl
  rw [a4, b4] at e
  rw [Except.ok.inj e]

/-- The interval of a bump by times: missing limits are 99999999 years away. -/
def BumpTimes (t1 t2 : Option ℝ) (t : ℝ) : Prop := t1.getD (-99999999) < t ∧ t ≤ t2.getD 99999999

theorem bumpCurve_spec (m m' : Mkt) (hm : GoodCurves m) (n : String) (t1 t2 : Option ℝ) (b : ℝ) (h : m.bumpCurve n t1 t2 b = .ok m') :
    CurveShifted n (BumpTimes t1 t2) b m m' ∧ m'.bumpCurve n t1 t2 (-b) = .ok m := by
  unfold Mkt.bumpCurve at h
  obtain ⟨c, hc, h⟩ := (bind_ok_iff _ _ _).1 h
  obtain ⟨c', hc', h⟩ := (bind_ok_iff _ _ _).1 h
  obtain rfl := Except.ok.inj h
  rw [orErr_eq] at hc
  obtain ⟨ok, hri, -⟩ := hm n c hc
  have hle : t1.getD (-99999999) ≤ t2.getD 99999999 := by
    by_contra hcon
    have := (C59_bump c ok (t1.getD (-99999999)) (t2.getD 99999999) b).2 (not_le.1 hcon)
    have e : c.bumpTimes t1 t2 b = c.bumpTimes (some (t1.getD (-99999999))) (some (t2.getD 99999999)) b := rfl
    rw [e, this] at hc'
    cases hc'
  obtain ⟨d, e1, e2, e3, e4⟩ := (C59_bump c ok (t1.getD (-99999999)) (t2.getD 99999999) b).1 hle
  have hd : d = c' := by
    have e : c.bumpTimes t1 t2 b = c.bumpTimes (some (t1.getD (-99999999))) (some (t2.getD 99999999)) b := rfl
    rw [e, e1] at hc'
    exact Except.ok.inj hc'
  subst hd
  refine ⟨⟨c, d.blank, hc, curveOk_blank d e2, rfl, e3, fun i t r ht hr => ?_, rfl⟩, ?_⟩
  · have := e4 i t r ht hr
    unfold BumpTimes
    rw [show d.blank.rates = d.rates from rfl, this]
    congr 1
    split <;> simp_all
  · obtain ⟨d1, d2, f1, f2, f3⟩ := C59_restore c ok _ _ b hle
    rw [f1] at e1
    obtain rfl := Except.ok.inj e1
    obtain ⟨d3, g1, g2, -, -⟩ := (C59_bump d1 e2 (t1.getD (-99999999)) (t2.getD 99999999) (-b)).1 hle
    rw [f2] at g1
    obtain rfl := Except.ok.inj g1
    unfold Mkt.bumpCurve
    simp only [put_self, orErr, Res.bind_ok]
    have e : d1.blank.bumpTimes t1 t2 (-b) = d1.bumpTimes (some (t1.getD (-99999999))) (some (t2.getD 99999999)) (-b) := rfl
    rw [e, f2]
    simp only [Res.bind_ok]
    refine congrArg Except.ok ?_
    rw [put_put]
    have hb : d2.blank = c := curve_ext d2.blank c ⟨f3.1.symm, f3.2.1.symm, f3.2.2.1.symm, fun t => (f3.2.2.2 t).symm⟩ (curveOk_blank d2 g2) ok hri.symm
    rw [hb, put_same _ _ _ hc]

theorem bumpCurve_ok (m : Mkt) (hm : GoodCurves m) (n : String) (t1 t2 : Option ℝ) (b : ℝ) (c : Curve) (hc : m.curves n = some c)
    (ht : t1.getD (-99999999) ≤ t2.getD 99999999) : ∃ m', m.bumpCurve n t1 t2 b = .ok m' := by
  obtain ⟨c', h, -⟩ := bump_ok c (hm n c hc).1 t1 t2 b ht
  unfold Mkt.bumpCurve
  rw [hc]
  simp only [orErr, Res.bind_ok]
  rw [h]
  exact ⟨_, rfl⟩

/-- The surface shares nothing a volatility bump changes. -/
theorem env_vols (m : Mkt) (u : String) (f : Map String Vol) : ({ m with vols := f } : Mkt).env u = m.env u := rfl

theorem bumpVol_spec (m m' : Mkt) (hm : GoodVols m) (u : String) (t1 t2 x1 x2 : Option ℝ) (b : ℝ) (h : m.bumpVol u t1 t2 x1 x2 b = .ok m') :
    VolShifted u (fun t x => InWindow t1 t2 t ∧ InWindow x1 x2 x) b m m' ∧ m'.bumpVol u t1 t2 x1 x2 (-b) = .ok m ∧ GoodVols m' := by
  unfold Mkt.bumpVol at h
  obtain ⟨v, hv, h⟩ := (bind_ok_iff _ _ _).1 h
  obtain ⟨env, henv, h⟩ := (bind_ok_iff _ _ _).1 h
  obtain ⟨v', hv', h⟩ := (bind_ok_iff _ _ _).1 h
  obtain rfl := Except.ok.inj h
  rw [orErr_eq] at hv
  obtain ⟨s, env', fs, rfl, he, hs, hb, hf⟩ := hm u v hv
  rw [henv] at he
  obtain rfl := Except.ok.inj he
  obtain ⟨s', e1, e2, e3, e4, e5⟩ := C76_cells env s hs fs hf t1 t2 x1 x2 b
  have : v' = .surface s' := by
    unfold Vol.bump at hv'
    simp only [e1, Res.bind_ok] at hv'
    exact (Except.ok.inj hv').symm
  subst this
  refine ⟨⟨s, s', env, hv, henv, e2, e4, e3, fun i j t x v h1 h2 h3 => (e5 i j t x v h1 h2 h3).trans (by congr), rfl⟩, ?_, ?_⟩
  · have hu := C76_undo env s s' hs t1 t2 x1 x2 b e1
    unfold Mkt.bumpVol
    simp only [put_self, orErr, Res.bind_ok, env_vols, henv, Vol.bump]
    rw [hu, hb]
    simp only [Res.bind_ok]
    refine congrArg Except.ok ?_
    rw [put_put, put_same _ _ _ hv]
  · intro w x hx
    by_cases hw : w = u
    · subst hw
      simp only [put_self] at hx
      obtain rfl := Option.some.inj hx
      refine ⟨s', env, fs, rfl, by rw [env_vols]; exact henv, e2, e4, ?_⟩
      rw [e3]
      exact hf
    · have : m.vols w = some x := by rw [← hx]; exact (put_other _ _ _ _ hw).symm
      obtain ⟨t, env', gs, a1, a2, a3⟩ := hm w x this
      exact ⟨t, env', gs, a1, by rw [env_vols]; exact a2, a3⟩

theorem bumpVol_ok (m : Mkt) (hm : GoodVols m) (u : String) (t1 t2 x1 x2 : Option ℝ) (b : ℝ) (v : Vol) (hv : m.vols u = some v) :
    ∃ m', m.bumpVol u t1 t2 x1 x2 b = .ok m' := by
  obtain ⟨s, env, fs, rfl, he, hs, hb, hf⟩ := hm u v hv
  obtain ⟨s', e1, -⟩ := C76_cells env s hs fs hf t1 t2 x1 x2 b
  unfold Mkt.bumpVol
  rw [hv, he]
  simp only [orErr, Res.bind_ok, Vol.bump]
  rw [e1]
  exact ⟨_, rfl⟩

theorem price_iff (m : Mkt) (u : String) (j : Nat) (p : Price ℝ) : m.price u = some (j, p) ↔ m.equity u = some j ∧ m.w.prices[j]? = some p := by
  unfold Mkt.price
  cases h : m.equity u with
  | none => simp
  | some k =>
    simp only [Option.map_eq_some_iff, Prod.mk.injEq, Option.some.injEq]
    constructor
    · rintro ⟨a, h1, rfl, rfl⟩; exact ⟨rfl, h1⟩
    · rintro ⟨rfl, h1⟩; exact ⟨p, h1, rfl, rfl⟩

theorem putPrice_same (m : Mkt) (j : Nat) (p : Price ℝ) (h : m.w.prices[j]? = some p) : m.putPrice j p p.value = m := by
  unfold Mkt.putPrice
  obtain ⟨hj, rfl⟩ := List.getElem?_eq_some_iff.1 h
  show ({ m with w := { m.w with prices := m.w.prices.set j m.w.prices[j] } } : Mkt) = m
  rw [List.set_getElem_self]

/-! ## C87: npv, value, cash flows, exposure -/

instance : Nonempty EResult := ⟨⟨0, .krw, none, none, none, fun _ => none, fun _ => none, fun _ => none, fun _ => none, fun _ => none, none, fun _ => none, fun _ => none, fun _ => none, fun _ => none, none⟩⟩
instance : Nonempty EPricer := ⟨⟨fun _ _ => .error .err, fun _ _ => .error .err, fun _ _ _ => .error .err⟩⟩
instance : Nonempty NpvResult := ⟨.ofNpv 0⟩

/-- Values by code, in the order of the list. -/
def byCode {α : Type} (f : Instr → Res α) : List Instr → Map String α → Res (Map String α)
  | [], acc => .ok acc
  | i :: l, acc => do
    let x ← f i
    byCode f l (acc.put i.code x)

theorem byCode_iff {α : Type} (g : EngCfg) (hg : OwnCodes g) (f : Instr → Res α) : ∀ (act : List Instr) (acc r : Map String α), Among g act →
    (byCode f act acc = .ok r ↔ (∀ i ∈ act, ∃ x, f i = .ok x ∧ r i.code = some x) ∧ ∀ c, c ∉ act.map Instr.code → r c = acc c) := by
  intro act
  induction act with
  | nil =>
    intro acc r _
    constructor
    · intro h
      obtain rfl := Except.ok.inj h
      exact ⟨by simp, fun _ _ => rfl⟩
    · rintro ⟨-, h⟩
      exact congrArg Except.ok (funext fun c => (h c (by simp)).symm)
  | cons i l ih =>
    intro acc r ha
    have ha' : Among g l := fun j hj => ha j (List.mem_cons_of_mem _ hj)
    unfold byCode
    rw [bind_ok_iff]
    constructor
    · rintro ⟨x, hx, h⟩
      obtain ⟨h1, h2⟩ := (ih _ _ ha').1 h
      refine ⟨?_, ?_⟩
      · intro j hj
        by_cases hm : j.code ∈ l.map Instr.code
        · obtain ⟨k, hk, e⟩ := List.mem_map.1 hm
          obtain rfl := code_unique g hg k j (ha' k hk) (ha j hj) e
          exact h1 k hk
        · rcases List.mem_cons.1 hj with rfl | hj'
          · exact ⟨x, hx, by rw [h2 _ hm, put_self]⟩
          · exact absurd (List.mem_map_of_mem hj') hm
      · intro c hc
        simp only [List.map_cons, List.mem_cons, not_or] at hc
        rw [h2 c hc.2, put_other _ _ _ _ hc.1]
    · rintro ⟨h1, h2⟩
      obtain ⟨x, hx, hr⟩ := h1 i (by simp)
      refine ⟨x, hx, (ih _ _ ha').2 ⟨fun j hj => h1 j (List.mem_cons_of_mem _ hj), fun c hc => ?_⟩⟩
      by_cases hci : c = i.code
      · rw [hci, hr, put_self]
      · rw [put_other _ _ _ _ hci]
        refine h2 c ?_
        simp only [List.map_cons, List.mem_cons, not_or]
        exact ⟨hci, hc⟩

theorem getResults_eq (g : EngCfg) (m : Mkt) : ∀ (act : List Instr) (acc : Map String NpvResult),
    getResults g m act acc = byCode (fun i => do let p ← orErr (g.pricers i.code); p.result i m) act acc
  | [], _ => rfl
  | i :: l, acc => by
    unfold getResults byCode
    cases h : g.pricers i.code with
    | none => rfl
    | some p =>
      simp only [orErr, Res.bind_ok]
      cases p.result i m with
      | error => rfl
      | ok x => exact getResults_eq g m l _

theorem getExposures_eq (g : EngCfg) (m : Mkt) (r : Results) : ∀ (act : List Instr) (acc : Map String Exposure),
    getExposures g m r act acc = byCode (fun i => do let p ← orErr (g.pricers i.code); let v ← baseNpv r i.code; p.exposure i m v) act acc
  | [], _ => rfl
  | i :: l, acc => by
    unfold getExposures byCode baseNpv
    cases h : g.pricers i.code with
    | none => rfl
    | some p =>
      simp only [orErr, Res.bind_ok]
      cases r i.code with
      | none => rfl
      | some x =>
        simp only [Res.bind_ok]
        cases x.npv with
        | none => rfl
        | some v =>
          simp only [Res.bind_ok]
          cases p.exposure i m v.npv with
          | error => rfl
          | ok x => exact getExposures_eq g m r l _

theorem eachResult_iff (f : String → EResult → Res EResult) : ∀ (l : List Instr) (r r' : Results), (l.map Instr.code).Nodup →
    (eachResult f l r = .ok r' ↔ (∀ i ∈ l, ∃ x y, r i.code = some x ∧ f i.code x = .ok y ∧ r' i.code = some y) ∧
      ∀ c, c ∉ l.map Instr.code → r' c = r c) := by
  intro l
  induction l with
  | nil =>
    intro r r' _
    constructor
    · intro h
      obtain rfl := Except.ok.inj h
      exact ⟨by simp, fun _ _ => rfl⟩
    · rintro ⟨-, h⟩
      exact congrArg Except.ok (funext fun c => (h c (by simp)).symm)
  | cons i l ih =>
    intro r r' hn
    rw [List.map_cons, List.nodup_cons] at hn
    have hne : ∀ j ∈ l, j.code ≠ i.code := fun j hj e => hn.1 (e ▸ List.mem_map_of_mem hj)
    unfold eachResult
    rw [bind_ok_iff]
    constructor
    · rintro ⟨x, hx, h⟩
      obtain ⟨y, hy, h⟩ := (bind_ok_iff _ _ _).1 h
      rw [orErr_eq] at hx
      obtain ⟨h1, h2⟩ := (ih _ _ hn.2).1 h
      refine ⟨?_, ?_⟩
      · intro j hj
        rcases List.mem_cons.1 hj with rfl | hj
        · exact ⟨x, y, hx, hy, by rw [h2 _ hn.1, put_self]⟩
        · obtain ⟨a, b, e1, e2⟩ := h1 j hj
          rw [put_other _ _ _ _ (hne j hj)] at e1
          exact ⟨a, b, e1, e2⟩
      · intro c hc
        simp only [List.map_cons, List.mem_cons, not_or] at hc
        rw [h2 c hc.2, put_other _ _ _ _ hc.1]
    · rintro ⟨h1, h2⟩
      obtain ⟨x, y, hx, hy, hr⟩ := h1 i (by simp)
      refine ⟨x, (orErr_eq _ _).2 hx, (bind_ok_iff _ _ _).2 ⟨y, hy, (ih _ _ hn.2).2 ⟨fun j hj => ?_, fun c hc => ?_⟩⟩⟩
      · obtain ⟨a, b, e1, e2⟩ := h1 j (List.mem_cons_of_mem _ hj)
        exact ⟨a, b, by rw [put_other _ _ _ _ (hne j hj)]; exact e1, e2⟩
      · by_cases hci : c = i.code
        · rw [hci, hr, put_self]
        · rw [put_other _ _ _ _ hci]
          refine h2 c ?_
          simp only [List.map_cons, List.mem_cons, not_or]
          exact ⟨hci, hc⟩

theorem among_all (g : EngCfg) (l : List Instr) (ha : Among g l) (hg : OwnCodes g) (i : Instr) (hi : i ∈ g.insts) : i.code ∈ l.map Instr.code ↔ i ∈ l := by
  constructor
  · intro h
    obtain ⟨j, hj, e⟩ := List.mem_map.1 h
    obtain rfl := code_unique g hg j i (ha j hj) hi e
    exact hj
  · exact fun h => List.mem_map_of_mem h

/-- **C87** (npv, value, cash flows). The npv part of a calculation succeeds exactly if the instruments in action are all
instruments of the engine, each has a result and a pricer, and its pricer answers with a result whose cash flows can be read.
Then the result of each instrument holds exactly what its pricer answers for the market as it is, that npv times the notional as
value, and those cash flows; nothing else has changed. -/
theorem C87_npv (g : EngCfg) (hg : OwnCodes g) (e e' : Eng) (ha : Among g e.action) :
    setNpvs g e = .ok e' ↔
      (∀ i ∈ g.insts, i ∈ e.action) ∧ e'.mkt = e.mkt ∧ e'.action = e.action ∧
      (∀ i ∈ g.insts, ∃ x p v fl, e.results i.code = some x ∧ g.pricers i.code = some p ∧ p.result i e.mkt = .ok v ∧ v.expected = .ok fl ∧
        e'.results i.code = some { x with npv := some v, value := some (v.npv * x.notional), flows := some fl }) ∧
      (∀ c, c ∉ g.insts.map Instr.code → e'.results c = e.results c) := by
  obtain ⟨M, A, R⟩ := e
  obtain ⟨M', A', R'⟩ := e'
  unfold setNpvs setNpvResults setValues setFlows
  simp only [bind_ok_iff, getResults_eq]
  constructor
  · rintro ⟨⟨m1, a1, r1⟩, ⟨npvs, hn, r2, hr2, h1⟩, ⟨m2, a2, r3⟩, ⟨r4, hr4, h2⟩, r5, hr5, h3⟩
    simp only [Except.ok.injEq, Eng.mk.injEq] at h1 h2 h3
    obtain ⟨rfl, rfl, rfl⟩ := h1
    obtain ⟨rfl, rfl, rfl⟩ := h2
    obtain ⟨rfl, rfl, rfl⟩ := h3
    obtain ⟨n1, n2⟩ := (byCode_iff g hg _ _ _ _ ha).1 hn
    obtain ⟨p1, p2⟩ := (eachResult_iff _ _ _ _ hg).1 hr2
    obtain ⟨q1, q2⟩ := (eachResult_iff _ _ _ _ hg).1 hr4
    obtain ⟨s1, s2⟩ := (eachResult_iff _ _ _ _ hg).1 hr5
    dsimp only at n1 n2 p1 p2 q1 q2 s1 s2 ha
    have hin : ∀ i ∈ g.insts, i ∈ A := by
      intro i hi
      by_contra hc
      obtain ⟨x, y, -, hy, -⟩ := p1 i hi
      obtain ⟨v, hv, -⟩ := (bind_ok_iff _ _ _).1 hy
      rw [n2 _ fun h => hc ((among_all g _ ha hg i hi).1 h)] at hv
      cases hv
    refine ⟨hin, rfl, rfl, ?_, fun c hc => by rw [s2 c hc, q2 c hc, p2 c hc]⟩
    intro i hi
    obtain ⟨x, y, hx, hy, hy'⟩ := p1 i hi
    obtain ⟨v, hv, ey⟩ := (bind_ok_iff _ _ _).1 hy
    obtain rfl := Except.ok.inj ey
    obtain ⟨v', hv', e1⟩ := n1 i (hin i hi)
    rw [orErr_eq, e1] at hv
    obtain rfl := Option.some.inj hv
    obtain ⟨p, hp, hpv⟩ := (bind_ok_iff _ _ _).1 hv'
    obtain ⟨x2, y2, hx2, hy2, hy2'⟩ := q1 i hi
    rw [hy'] at hx2
    obtain rfl := Option.some.inj hx2
    obtain ⟨v2, hv2, ey2⟩ := (bind_ok_iff _ _ _).1 hy2
    obtain rfl := Option.some.inj ((orErr_eq _ _).1 hv2)
    obtain rfl := Except.ok.inj ey2
    obtain ⟨x3, y3, hx3, hy3, hy3'⟩ := s1 i hi
    rw [hy2'] at hx3
    obtain rfl := Option.some.inj hx3
    obtain ⟨v3, hv3, ey3⟩ := (bind_ok_iff _ _ _).1 hy3
    obtain rfl := Option.some.inj ((orErr_eq _ _).1 hv3)
    obtain ⟨fl, hfl, ey3⟩ := (bind_ok_iff _ _ _).1 ey3
    obtain rfl := Except.ok.inj ey3
    exact ⟨x, p, v', fl, hx, (orErr_eq _ _).1 hp, hpv, hfl, hy3'⟩
  · rintro ⟨hin, rfl, rfl, h, hfr⟩
    dsimp only at hin h hfr ha
    choose! x p v fl a1 a2 a3 a4 a5 using h
    let R1 : Results := fun c => (g.insts.find? fun i => i.code == c).elim (R c) fun i => some { x i with npv := some (v i) }
    let R2 : Results := fun c => (g.insts.find? fun i => i.code == c).elim (R c) fun i => some { x i with npv := some (v i), value := some ((v i).npv * (x i).notional) }
    let N : Map String NpvResult := fun c => (g.insts.find? fun i => i.code == c).elim none fun i => some (v i)
    have fnd : ∀ i ∈ g.insts, (g.insts.find? fun j => j.code == i.code) = some i := by
      intro i hi
      cases hf : g.insts.find? fun j => j.code == i.code with
      | none => exact absurd hi fun hi => by have := List.find?_eq_none.1 hf i hi; simp at this
      | some j =>
        have := List.find?_some hf
        simp only [beq_iff_eq] at this
        rw [code_unique g hg j i (List.mem_of_find?_eq_some hf) hi this]
    have nfd : ∀ c, c ∉ g.insts.map Instr.code → (g.insts.find? fun j => j.code == c) = none := by
      intro c hc
      rw [List.find?_eq_none]
      intro j hj e
      simp only [beq_iff_eq] at e
      exact hc (e ▸ List.mem_map_of_mem hj)
    refine ⟨⟨M', A', R1⟩, ⟨N, (byCode_iff g hg _ _ _ _ ha).2 ⟨?_, ?_⟩, R1, (eachResult_iff _ _ _ _ hg).2 ⟨?_, ?_⟩, rfl⟩, ⟨M', A', R2⟩,
      ⟨R2, (eachResult_iff _ _ _ _ hg).2 ⟨?_, ?_⟩, rfl⟩, R', (eachResult_iff _ _ _ _ hg).2 ⟨?_, ?_⟩, rfl⟩
    · intro i hi
      refine ⟨v i, ?_, by simp only [N, fnd i (ha i hi), Option.elim]⟩
      rw [a2 i (ha i hi)]
      exact a3 i (ha i hi)
    · intro c hc
      simp only [N]
      rw [nfd c fun h => ?_, Option.elim]
      obtain ⟨j, hj, ej⟩ := List.mem_map.1 h
      exact hc (ej ▸ List.mem_map_of_mem (hin j hj))
    · intro i hi
      exact ⟨x i, _, a1 i hi, by simp only [N, fnd i hi, Option.elim, orErr, Res.bind_ok]; rfl, by simp only [R1, fnd i hi, Option.elim]⟩
    · intro c hc
      simp only [R1, nfd c hc, Option.elim]
    · intro i hi
      exact ⟨_, _, by simp only [R1, fnd i hi, Option.elim]; rfl, by simp only [orErr, Res.bind_ok]; rfl, by simp only [R2, fnd i hi, Option.elim]⟩
    · intro c hc
      simp only [R1, R2, nfd c hc, Option.elim]
    · intro i hi
      refine ⟨_, _, by simp only [R2, fnd i hi, Option.elim]; rfl, ?_, a5 i hi⟩
      simp only [orErr, Res.bind_ok, a4 i hi]
    · intro c hc
      rw [hfr c hc]
      simp only [R2, nfd c hc, Option.elim]

/-- **C87** (exposures). The exposure part succeeds exactly if the instruments in action are all instruments of the engine, each
with a pricer and an npv, and its pricer answers; then the result of each instrument holds the exposure its pricer answers for
the market as it is and that npv, and nothing else has changed. -/
theorem C87_exposure (g : EngCfg) (hg : OwnCodes g) (e e' : Eng) (ha : Among g e.action) :
    setExposures g e = .ok e' ↔
      (∀ i ∈ g.insts, i ∈ e.action) ∧ e'.mkt = e.mkt ∧ e'.action = e.action ∧
      (∀ i ∈ g.insts, ∃ x p v f, e.results i.code = some x ∧ x.npv = some v ∧ g.pricers i.code = some p ∧ p.exposure i e.mkt v.npv = .ok f ∧
        e'.results i.code = some { x with exposure := some f }) ∧
      (∀ c, c ∉ g.insts.map Instr.code → e'.results c = e.results c) := by
  obtain ⟨M, A, R⟩ := e
  obtain ⟨M', A', R'⟩ := e'
  unfold setExposures
  simp only [bind_ok_iff, getExposures_eq]
  dsimp only at ha
  constructor
  · rintro ⟨fs, hn, r2, hr2, h1⟩
    simp only [Except.ok.injEq, Eng.mk.injEq] at h1
    obtain ⟨rfl, rfl, rfl⟩ := h1
    obtain ⟨n1, n2⟩ := (byCode_iff g hg _ _ _ _ ha).1 hn
    obtain ⟨p1, p2⟩ := (eachResult_iff _ _ _ _ hg).1 hr2
    have hin : ∀ i ∈ g.insts, i ∈ A := by
      intro i hi
      by_contra hc
      obtain ⟨x, y, -, hy, -⟩ := p1 i hi
      obtain ⟨v, hv, -⟩ := (bind_ok_iff _ _ _).1 hy
      rw [n2 _ fun h => hc ((among_all g _ ha hg i hi).1 h)] at hv
      cases hv
    refine ⟨hin, rfl, rfl, ?_, p2⟩
    intro i hi
    obtain ⟨x, y, hx, hy, hy'⟩ := p1 i hi
    obtain ⟨f, hf, ey⟩ := (bind_ok_iff _ _ _).1 hy
    obtain rfl := Except.ok.inj ey
    obtain ⟨f', hf', e1⟩ := n1 i (hin i hi)
    rw [orErr_eq, e1] at hf
    obtain rfl := Option.some.inj hf
    obtain ⟨p, hp, hf'⟩ := (bind_ok_iff _ _ _).1 hf'
    obtain ⟨w, hw, hf'⟩ := (bind_ok_iff _ _ _).1 hf'
    unfold baseNpv at hw
    obtain ⟨x', hx', hw⟩ := (bind_ok_iff _ _ _).1 hw
    obtain ⟨v, hv, hw⟩ := (bind_ok_iff _ _ _).1 hw
    obtain rfl := Except.ok.inj hw
    rw [orErr_eq, hx] at hx'
    obtain rfl := Option.some.inj hx'
    exact ⟨x, p, v, f', hx, (orErr_eq _ _).1 hv, (orErr_eq _ _).1 hp, hf', hy'⟩
  · rintro ⟨hin, rfl, rfl, h, hfr⟩
    choose! x p v f a1 a2 a3 a4 a5 using h
    let N : Map String Exposure := fun c => (g.insts.find? fun i => i.code == c).elim none fun i => some (f i)
    have fnd : ∀ i ∈ g.insts, (g.insts.find? fun j => j.code == i.code) = some i := by
      intro i hi
      cases hf : g.insts.find? fun j => j.code == i.code with
      | none => exact absurd hi fun hi => by have := List.find?_eq_none.1 hf i hi; simp at this
      | some j =>
        have := List.find?_some hf
        simp only [beq_iff_eq] at this
        rw [code_unique g hg j i (List.mem_of_find?_eq_some hf) hi this]
    have nfd : ∀ c, c ∉ g.insts.map Instr.code → (g.insts.find? fun j => j.code == c) = none := by
      intro c hc
      rw [List.find?_eq_none]
      intro j hj e
      simp only [beq_iff_eq] at e
      exact hc (e ▸ List.mem_map_of_mem hj)
    refine ⟨N, (byCode_iff g hg _ _ _ _ ha).2 ⟨?_, ?_⟩, R', (eachResult_iff _ _ _ _ hg).2 ⟨?_, hfr⟩, rfl⟩
    · intro i hi
      refine ⟨f i, ?_, by simp only [N, fnd i (ha i hi), Option.elim]⟩
      unfold baseNpv
      rw [a3 i (ha i hi), a1 i (ha i hi)]
      simp only [orErr, Res.bind_ok]
      rw [a2 i (ha i hi)]
      exact a4 i (ha i hi)
    · intro c hc
      simp only [N]
      rw [nfd c fun h => ?_, Option.elim]
      obtain ⟨j, hj, ej⟩ := List.mem_map.1 h
      exact hc (ej ▸ List.mem_map_of_mem (hin j hj))
    · intro i hi
      exact ⟨x i, _, a1 i hi, by simp only [N, fnd i hi, Option.elim, orErr, Res.bind_ok], a5 i hi⟩

/-! ## C88: delta and gamma -/

theorem withUnderlying_mem (l : List Instr) (u : String) (excl : List String) (i : Instr) :
    i ∈ withUnderlying l u excl ↔ i ∈ l ∧ u ∈ i.unds ∧ i.typeName ∉ excl :=
  (C80_selections l u .nil [] excl (day0 2021 1 1)).1.mem i

theorem withTypes_mem (l : List Instr) (ts : List String) (i : Instr) : i ∈ withTypes l ts ↔ i ∈ l ∧ i.typeName ∈ ts :=
  (C80_selections l "" .nil ts [] (day0 2021 1 1)).2.2.1.mem i

theorem mem_allUnds (l : List Instr) (u : String) : u ∈ allUnds l ↔ ∃ i ∈ l, u ∈ i.unds := by
  rw [(C79_lists l).1, mem_firsts, List.mem_flatMap]

theorem nodup_allUnds (l : List Instr) : (allUnds l).Nodup := by
  rw [(C79_lists l).1]; exact nodup_firsts _

/-- What `preprocess_delta_gamma` writes. -/
def withPlain (x : EResult) (code : String) (v n : ℝ) : EResult :=
  { x with delta := x.delta.put code (v * 0.01 * n), gamma := x.gamma.put code 0 }

theorem preDeltaLoop_spec (g : EngCfg) (hg : OwnCodes g) : ∀ (act : List Instr) (r r' : Results), Among g act → preDeltaLoop act r = .ok r' →
    (∀ i ∈ act, ∃ x v, r i.code = some x ∧ x.npv = some v ∧ r' i.code = some (withPlain x i.code v.npv i.notional)) ∧
    ∀ c, c ∉ act.map Instr.code → r' c = r c := by
  intro act
  induction act with
  | nil =>
    intro r r' _ h
    obtain rfl := Except.ok.inj h
    exact ⟨by simp, fun _ _ => rfl⟩
  | cons i l ih =>
    intro r r' ha h
    unfold preDeltaLoop at h
    obtain ⟨x, hx, h⟩ := (bind_ok_iff _ _ _).1 h
    obtain ⟨v, hv, h⟩ := (bind_ok_iff _ _ _).1 h
    rw [orErr_eq] at hx hv
    obtain ⟨h1, h2⟩ := ih _ _ (fun j hj => ha j (List.mem_cons_of_mem _ hj)) h
    have hi : r' i.code = some (withPlain x i.code v.npv i.notional) := by
      by_cases hm : i.code ∈ l.map Instr.code
      · obtain ⟨k, hk, ek⟩ := List.mem_map.1 hm
        obtain rfl := code_unique g hg k i (ha k (List.mem_cons_of_mem _ hk)) (ha i (by simp)) ek
        obtain ⟨x1, v1, a1, a2, a3⟩ := h1 k hk
        rw [put_self] at a1
        obtain rfl := Option.some.inj a1
        rw [hv] at a2
        obtain rfl := Option.some.inj a2
        rw [a3]
        simp only [withPlain, put_put]
      · rw [h2 _ hm, put_self]; rfl
    refine ⟨?_, ?_⟩
    · intro j hj
      by_cases hc : j.code = i.code
      · obtain rfl := code_unique g hg j i (ha j hj) (ha i (by simp)) hc
        exact ⟨x, v, hx, hv, hi⟩
      · rcases List.mem_cons.1 hj with rfl | hj'
        · exact absurd rfl hc
        · obtain ⟨x1, v1, a1, a2⟩ := h1 j hj'
          rw [put_other _ _ _ _ hc] at a1
          exact ⟨x1, v1, a1, a2⟩
    · intro c hc
      simp only [List.map_cons, List.mem_cons, not_or] at hc
      rw [h2 c hc.2, put_other _ _ _ _ hc.1]

theorem preDeltaLoop_total : ∀ (act : List Instr) (r : Results), (∀ i ∈ act, ∃ x v, r i.code = some x ∧ x.npv = some v) →
    ∃ r', preDeltaLoop act r = .ok r' := by
  intro act
  induction act with
  | nil => exact fun r _ => ⟨r, rfl⟩
  | cons i l ih =>
    intro r h
    obtain ⟨x, v, hx, hv⟩ := h i (by simp)
    unfold preDeltaLoop
    rw [hx]
    simp only [orErr, Res.bind_ok]
    rw [hv]
    simp only [Res.bind_ok]
    refine ih _ fun j hj => ?_
    obtain ⟨y, w, hy, hw⟩ := h j (List.mem_cons_of_mem _ hj)
    by_cases hc : j.code = i.code
    · rw [hc, put_self]
      exact ⟨_, v, rfl, rfl⟩
    · rw [put_other _ _ _ _ hc]
      exact ⟨y, w, hy, hw⟩

/-- What a round of `set_delta_gamma` writes. -/
noncomputable def withDelta (x : EResult) (u : String) (a b v ratio n : ℝ) : EResult :=
  { x with delta := x.delta.put u ((a - b) / (2 * ratio) * 0.01 * n)
           gamma := x.gamma.put u ((a - v + b - v) * (0.01 / ratio) * (0.5 * (0.01 / ratio)) * n) }

theorem deltaLoop_spec (g : EngCfg) (hg : OwnCodes g) (u : String) (up down : Map String ℝ) (ratio : ℝ) : ∀ (act : List Instr) (r r' : Results),
    Among g act → deltaLoop u up down ratio act r = .ok r' →
    (∀ i ∈ act, ∃ x v a b, r i.code = some x ∧ x.npv = some v ∧ up i.code = some a ∧ down i.code = some b ∧ ratio ≠ 0 ∧
      r' i.code = some (withDelta x u a b v.npv ratio i.notional)) ∧
    ∀ c, c ∉ act.map Instr.code → r' c = r c := by
  intro act
  induction act with
  | nil =>
    intro r r' _ h
    obtain rfl := Except.ok.inj h
    exact ⟨by simp, fun _ _ => rfl⟩
  | cons i l ih =>
    intro r r' ha h
    unfold deltaLoop at h
    obtain ⟨a, hup, h⟩ := (bind_ok_iff _ _ _).1 h
    obtain ⟨b, hdn, h⟩ := (bind_ok_iff _ _ _).1 h
    obtain ⟨q, hq, h⟩ := (bind_ok_iff _ _ _).1 h
    obtain ⟨x, hx, h⟩ := (bind_ok_iff _ _ _).1 h
    obtain ⟨v, hv, h⟩ := (bind_ok_iff _ _ _).1 h
    obtain ⟨k, hk, h⟩ := (bind_ok_iff _ _ _).1 h
    rw [orErr_eq] at hup hdn hx hv
    obtain ⟨-, rfl⟩ := (divK_eq _ _ _).1 hq
    obtain ⟨hb, rfl⟩ := (divK_eq _ _ _).1 hk
    obtain ⟨h1, h2⟩ := ih _ _ (fun j hj => ha j (List.mem_cons_of_mem _ hj)) h
    have hi : r' i.code = some (withDelta x u a b v.npv ratio i.notional) := by
      by_cases hm : i.code ∈ l.map Instr.code
      · obtain ⟨k, hk, ek⟩ := List.mem_map.1 hm
        obtain rfl := code_unique g hg k i (ha k (List.mem_cons_of_mem _ hk)) (ha i (by simp)) ek
        obtain ⟨x1, v1, c1, d1, a1, a2, a3, a4, -, a5⟩ := h1 k hk
        rw [put_self] at a1
        obtain rfl := Option.some.inj a1
        rw [hv] at a2
        obtain rfl := Option.some.inj a2
        rw [hup] at a3
        obtain rfl := Option.some.inj a3
        rw [hdn] at a4
        obtain rfl := Option.some.inj a4
        rw [a5]
        simp only [withDelta, put_put]
      · rw [h2 _ hm, put_self]; rfl
    refine ⟨?_, ?_⟩
    · intro j hj
      by_cases hc : j.code = i.code
      · obtain rfl := code_unique g hg j i (ha j hj) (ha i (by simp)) hc
        exact ⟨x, v, a, b, hx, hv, hup, hdn, hb, hi⟩
      · rcases List.mem_cons.1 hj with rfl | hj'
        · exact absurd rfl hc
        · obtain ⟨x1, v1, c1, d1, a1, a2⟩ := h1 j hj'
          rw [put_other _ _ _ _ hc] at a1
          exact ⟨x1, v1, c1, d1, a1, a2⟩
    · intro c hc
      simp only [List.map_cons, List.mem_cons, not_or] at hc
      rw [h2 c hc.2, put_other _ _ _ _ hc.1]

theorem deltaLoop_total (u : String) (up down : Map String ℝ) (ratio : ℝ) (hr : ratio ≠ 0) : ∀ (act : List Instr) (r : Results),
    (∀ i ∈ act, (∃ a, up i.code = some a) ∧ (∃ b, down i.code = some b) ∧ ∃ x v, r i.code = some x ∧ x.npv = some v) →
    ∃ r', deltaLoop u up down ratio act r = .ok r' := by
  intro act
  induction act with
  | nil => exact fun r _ => ⟨r, rfl⟩
  | cons i l ih =>
    intro r h
    obtain ⟨⟨a, hup⟩, ⟨b, hdn⟩, x, v, hx, hv⟩ := h i (by simp)
    unfold deltaLoop
    rw [hup, hdn, hx]
    simp only [orErr, Res.bind_ok]
    rw [(divK_eq (a - b) (2 * ratio) _).2 ⟨mul_ne_zero two_ne_zero hr, rfl⟩, hv]
    simp only [Res.bind_ok]
    rw [(divK_eq 0.01 ratio _).2 ⟨hr, rfl⟩]
    simp only [Res.bind_ok]
    refine ih _ fun j hj => ?_
    obtain ⟨h1, h2, y, w, hy, hw⟩ := h j (List.mem_cons_of_mem _ hj)
    refine ⟨h1, h2, ?_⟩
    by_cases hc : j.code = i.code
    · rw [hc, put_self]
      exact ⟨_, v, rfl, rfl⟩
    · rw [put_other _ _ _ _ hc]
      exact ⟨y, w, hy, hw⟩

/-- What delta and gamma of an instrument to an underlying are: the instrument repriced with the price `1 + ratio` times and
`1 - ratio` times what it is; the difference per `2 * ratio` for a move by 1 %; half the second difference for a move by 1 %. -/
def CentralDiff (g : EngCfg) (M : Mkt) (u : String) (i : Instr) (npv : Option NpvResult) (y : Option ℝ × Option ℝ) : Prop :=
  ∃ v mu md up dn, npv = some v ∧ PriceScaled u (1 + g.conf.deltaRatio) M mu ∧ PriceScaled u (1 - g.conf.deltaRatio) M md ∧
    g.npv i mu = .ok up ∧ g.npv i md = .ok dn ∧ g.conf.deltaRatio ≠ 0 ∧
    y.1 = some ((up - dn) / (2 * g.conf.deltaRatio) * 0.01 * i.notional) ∧
    y.2 = some ((up - 2 * v.npv + dn) / g.conf.deltaRatio ^ 2 * (0.01 ^ 2 / 2) * i.notional)

theorem deltaRound_spec (g : EngCfg) (hg : OwnCodes g) (u : String) (e e' : Eng) (ha : Among g e.action) (h : deltaRound g u e = .ok e') :
    e'.mkt = e.mkt ∧ Changed deltaPart u e.action (CentralDiff g e.mkt u) e.results e'.results := by
  unfold deltaRound at h
  obtain ⟨⟨j, p⟩, hj, h⟩ := (bind_ok_iff _ _ _).1 h
  obtain ⟨up, hup, h⟩ := (bind_ok_iff _ _ _).1 h
  obtain ⟨dn, hdn, h⟩ := (bind_ok_iff _ _ _).1 h
  obtain ⟨r, hr, h⟩ := (bind_ok_iff _ _ _).1 h
  obtain rfl := Except.ok.inj h
  rw [orErr_eq, price_iff] at hj
  obtain ⟨u1, -⟩ := getNpvs_spec g hg _ _ _ _ ha hup
  obtain ⟨d1, -⟩ := getNpvs_spec g hg _ _ _ _ ha hdn
  obtain ⟨l1, l2⟩ := deltaLoop_spec g hg u up dn _ _ _ _ ha hr
  refine ⟨putPrice_same e.mkt j p hj.2, ?_, l2⟩
  intro i hi
  obtain ⟨x, v, a, b, a1, a2, a3, a4, a5, a6⟩ := l1 i hi
  obtain ⟨a', b1, b2⟩ := u1 i hi
  obtain ⟨b', c1, c2⟩ := d1 i hi
  rw [b2] at a3
  obtain rfl := Option.some.inj a3
  rw [c2] at a4
  obtain rfl := Option.some.inj a4
  refine ⟨x, _, a1, a6, rfl, ⟨v, _, _, a', b', a2, ⟨j, p, hj.1, hj.2, rfl⟩, ⟨j, p, hj.1, hj.2, rfl⟩, b1, c1, a5, ?_, ?_⟩, ?_⟩
  · simp only [deltaPart, withDelta, put_self]
  · simp only [deltaPart, withDelta, put_self]
    refine congrArg some ?_
    field_simp
    ring
  · intro k hk
    simp only [deltaPart, withDelta, put_other _ _ _ _ hk]

theorem deltaRound_total (g : EngCfg) (hg : OwnCodes g) (u : String) (e : Eng) (ha : Among g e.action) (hr : g.conf.deltaRatio ≠ 0)
    (hv : Valued g.insts e.results) (mu md : Mkt) (h1 : PriceScaled u (1 + g.conf.deltaRatio) e.mkt mu) (h2 : PriceScaled u (1 - g.conf.deltaRatio) e.mkt md)
    (hn : ∀ i ∈ e.action, (∃ a, g.npv i mu = .ok a) ∧ ∃ b, g.npv i md = .ok b) : ∃ e', deltaRound g u e = .ok e' := by
  obtain ⟨j, p, q1, q2, rfl⟩ := h1
  obtain ⟨j', p', q1', q2', rfl⟩ := h2
  rw [q1] at q1'
  obtain rfl := Option.some.inj q1'
  rw [q2] at q2'
  obtain rfl := Option.some.inj q2'
  unfold deltaRound
  rw [(price_iff e.mkt u j p).2 ⟨q1, q2⟩]
  simp only [orErr, Res.bind_ok]
  obtain ⟨up, hup⟩ := getNpvs_total g (e.mkt.putPrice j p (p.value * (1 + g.conf.deltaRatio))) e.action (fun _ => none) fun i hi => (hn i hi).1
  obtain ⟨dn, hdn⟩ := getNpvs_total g (e.mkt.putPrice j p (p.value * (1 - g.conf.deltaRatio))) e.action (fun _ => none) fun i hi => (hn i hi).2
  obtain ⟨u1, -⟩ := getNpvs_spec g hg _ _ _ _ ha hup
  obtain ⟨d1, -⟩ := getNpvs_spec g hg _ _ _ _ ha hdn
  rw [hup]
  simp only [Res.bind_ok]
  rw [hdn]
  simp only [Res.bind_ok]
  obtain ⟨r, hl⟩ := deltaLoop_total u up dn _ hr e.action e.results fun i hi => by
    obtain ⟨a, -, b2⟩ := u1 i hi
    obtain ⟨b, -, c2⟩ := d1 i hi
    exact ⟨⟨a, b2⟩, ⟨b, c2⟩, hv i (ha i hi)⟩
  rw [hl]
  exact ⟨_, rfl⟩

/-- **C88** (delta and gamma). After the delta part of a calculation the market is what it was. A stock or future has delta
1 % of its npv times notional and gamma 0, under its own code. Any other instrument has, for each of its underlyings, the
central differences of its npv in the price of that underlying (`CentralDiff`), everything else in the market unchanged: a surface
sticking to the strike is not rebuilt. Nothing else in the results has changed. -/
theorem C88_delta (g : EngCfg) (hg : OwnCodes g) (e e' : Eng) (h : setDeltas g e = .ok e') :
    e'.mkt = e.mkt ∧ (∀ c, c ∉ g.insts.map Instr.code → e'.results c = e.results c) ∧
    ∀ i ∈ g.insts, ∀ x, e.results i.code = some x → ∃ y, e'.results i.code = some y ∧ y = { x with delta := y.delta, gamma := y.gamma } ∧
      (i.typeName = "Stock" ∨ i.typeName = "Futures" → ∃ v, x.npv = some v ∧
        y.delta = x.delta.put i.code (v.npv * 0.01 * i.notional) ∧ y.gamma = x.gamma.put i.code 0) ∧
      (i.typeName ≠ "Stock" ∧ i.typeName ≠ "Futures" → (∀ u ∈ i.unds, CentralDiff g e.mkt u i x.npv (y.delta u, y.gamma u)) ∧
        ∀ k, k ∉ i.unds → y.delta k = x.delta k ∧ y.gamma k = x.gamma k) := by
  unfold setDeltas preprocessDelta setDelta at h
  obtain ⟨e1, h1, h⟩ := (bind_ok_iff _ _ _).1 h
  obtain ⟨r, hr, h1⟩ := (bind_ok_iff _ _ _).1 h1
  obtain rfl := Except.ok.inj h1
  have ha : Among g (withTypes g.insts ["Stock", "Futures"]) := fun i hi => ((withTypes_mem _ _ _).1 hi).1
  obtain ⟨p1, p2⟩ := preDeltaLoop_spec g hg _ _ _ ha hr
  obtain ⟨q1, q2, q3⟩ := eachName_spec deltaPart g hg e.mkt _ _ (fun u i => u ∈ i.unds ∧ i.typeName ∉ ["Stock", "Futures"]) (CentralDiff g e.mkt)
    (allUnds g.insts) ⟨e.mkt, g.insts, r⟩ e' (nodup_allUnds _)
    (fun n _ act hact i => by
      obtain rfl := Except.ok.inj hact
      exact withUnderlying_mem g.insts n _ i)
    (fun n _ act hact _ f f' hf hfa hround => by
      obtain rfl := Except.ok.inj hact
      obtain ⟨a1, a2⟩ := deltaRound_spec g hg n f f' (by rw [hfa]; exact fun i hi => ((withUnderlying_mem _ _ _ _).1 hi).1) hround
      rw [hf, hfa] at a2
      exact ⟨a1.trans hf, a2⟩)
    rfl h
  refine ⟨q1, ?_, ?_⟩
  · intro c hc
    rw [q3 c hc]
    refine p2 c fun hm => hc ?_
    obtain ⟨j, hj, ej⟩ := List.mem_map.1 hm
    exact ej ▸ List.mem_map_of_mem (ha j hj)
  · intro i hi x hx
    by_cases ht : i.typeName ∈ ["Stock", "Futures"]
    · obtain ⟨x', v, a1, a2, a3⟩ := p1 i ((withTypes_mem _ _ _).2 ⟨hi, ht⟩)
      rw [hx] at a1
      obtain rfl := Option.some.inj a1
      obtain ⟨y, hy, e1, -, e3⟩ := q2 i hi _ a3
      have e4 : ∀ n, (y.delta n, y.gamma n) = ((withPlain x i.code v.npv i.notional).delta n, (withPlain x i.code v.npv i.notional).gamma n) :=
        fun n => e3 n fun hc => hc.2.2 ht
      refine ⟨y, hy, ?_, fun _ => ⟨v, a2, ?_, ?_⟩, fun hc => ?_⟩
      · rw [e1]; rfl
      · funext n
        exact (Prod.mk.inj (e4 n)).1
      · funext n
        exact (Prod.mk.inj (e4 n)).2
      · simp only [List.mem_cons, List.not_mem_nil, or_false] at ht
        rcases ht with ht | ht
        · exact absurd ht hc.1
        · exact absurd ht hc.2
    · have hx' : r i.code = some x := by
        rw [p2 _ fun hm => ht ?_]
        · exact hx
        · exact ((withTypes_mem _ _ _).1 ((among_all g _ ha hg i hi).1 hm)).2
      obtain ⟨y, hy, e1, e2, e3⟩ := q2 i hi x hx'
      refine ⟨y, hy, e1, fun hc => absurd (by simpa using hc) ht, fun _ => ⟨fun u hu => ?_, fun k hk => ?_⟩⟩
      · exact e2 u ((mem_allUnds _ _).2 ⟨i, hi, hu⟩) ⟨hu, ht⟩
      · exact Prod.mk.inj (e3 k fun hc => hk hc.2.1)

/-- **C88** (when it succeeds). It is enough that the ratio is not 0, every instrument has its npv, and every instrument other
than a stock or future can be repriced with the price of each of its underlyings moved up and down; by `C88_delta` that is also
needed. -/
theorem C88_succeeds (g : EngCfg) (hg : OwnCodes g) (e : Eng) (hv : Valued g.insts e.results) (hr : g.conf.deltaRatio ≠ 0)
    (h : ∀ i ∈ g.insts, i.typeName ≠ "Stock" ∧ i.typeName ≠ "Futures" → ∀ u ∈ i.unds, ∃ mu md up dn,
      PriceScaled u (1 + g.conf.deltaRatio) e.mkt mu ∧ PriceScaled u (1 - g.conf.deltaRatio) e.mkt md ∧ g.npv i mu = .ok up ∧ g.npv i md = .ok dn) :
    ∃ e', setDeltas g e = .ok e' := by
  unfold setDeltas preprocessDelta setDelta
  have ha : Among g (withTypes g.insts ["Stock", "Futures"]) := fun i hi => ((withTypes_mem _ _ _).1 hi).1
  obtain ⟨r, hpre⟩ := preDeltaLoop_total (withTypes g.insts ["Stock", "Futures"]) e.results fun i hi => hv i (ha i hi)
  rw [hpre]
  simp only [Res.bind_ok]
  obtain ⟨p1, p2⟩ := preDeltaLoop_spec g hg _ _ _ ha hpre
  have hv' : Valued g.insts r := by
    intro i hi
    by_cases ht : i ∈ withTypes g.insts ["Stock", "Futures"]
    · obtain ⟨x, v, -, a2, a3⟩ := p1 i ht
      exact ⟨_, v, a3, a2⟩
    · rw [p2 _ fun hm => ht ((among_all g _ ha hg i hi).1 hm)]
      exact hv i hi
  refine eachName_total deltaPart g e.mkt _ _ (CentralDiff g e.mkt) _ _ (fun n _ => ⟨_, rfl, fun i hi => ((withUnderlying_mem _ _ _ _).1 hi).1, ?_⟩) rfl hv'
  intro hne f hf hfa hfv
  have hAm : Among g f.action := by rw [hfa]; exact fun i hi => ((withUnderlying_mem _ _ _ _).1 hi).1
  have key : ∀ i ∈ f.action, ∃ mu md up dn, PriceScaled n (1 + g.conf.deltaRatio) e.mkt mu ∧ PriceScaled n (1 - g.conf.deltaRatio) e.mkt md ∧
      g.npv i mu = .ok up ∧ g.npv i md = .ok dn := by
    intro i hi
    rw [hfa, withUnderlying_mem] at hi
    exact h i hi.1 (by simpa using hi.2.2) n hi.2.1
  have uniq : ∀ k m1 m2, PriceScaled n k e.mkt m1 → PriceScaled n k e.mkt m2 → m1 = m2 := by
    rintro k m1 m2 ⟨j, p, a1, a2, rfl⟩ ⟨j', p', b1, b2, rfl⟩
    rw [a1] at b1
    obtain rfl := Option.some.inj b1
    rw [a2] at b2
    obtain rfl := Option.some.inj b2
    rfl
  obtain ⟨i0, hi0⟩ := List.exists_mem_of_ne_nil _ hne
  rw [← hfa] at hi0
  obtain ⟨mu, md, -, -, s1, s2, -, -⟩ := key i0 hi0
  obtain ⟨e1, he1⟩ := deltaRound_total g hg n f hAm hr hfv mu md (by rw [hf]; exact s1) (by rw [hf]; exact s2) fun i hi => by
    obtain ⟨mu', md', up, dn, t1, t2, t3, t4⟩ := key i hi
    rw [uniq _ mu' mu t1 s1] at t3
    rw [uniq _ md' md t2 s2] at t4
    exact ⟨⟨up, t3⟩, dn, t4⟩
  obtain ⟨a1, a2⟩ := deltaRound_spec g hg n f e1 hAm he1
  rw [hf, hfa] at a2
  exact ⟨e1, he1, a1.trans hf, a2⟩

/-! ## C89: rho -/

theorem curveShifted_all (n : String) (b : ℝ) (m m' : Mkt) (hm : GoodCurves m) :
    CurveShifted n (BumpTimes none none) b m m' → CurveShifted n (fun _ => True) b m m' := by
  rintro ⟨c, c', a1, a2, a3, a4, a5, a6⟩
  refine ⟨c, c', a1, a2, a3, a4, fun i t r ht hr => ?_, a6⟩
  rw [a5 i t r ht hr, if_pos trivial, if_pos]
  obtain ⟨ok, -, hb⟩ := hm n c a1
  have h0 : 0 ≤ t := by
    obtain ⟨hi, rfl⟩ := List.getElem?_eq_some_iff.1 ht
    obtain ⟨h0, e0⟩ := List.getElem?_eq_some_iff.1 ok.zero
    rcases Nat.eq_zero_or_pos i with rfl | hpos
    · rw [e0]
    · have := List.pairwise_iff_getElem.1 ok.inc 0 i h0 hi hpos
      rw [e0] at this
      exact this.le
  constructor
  · show (-99999999 : ℝ) < t
    linarith
  · exact hb t (List.mem_of_getElem? ht)

/-- Specification: the curves of an instrument, as `create_pricer` and the engine look them up (`C82_curves`); not the curves of
its dividends or volatilities. -/
def UsesCurve (p : MatchParam) (n : String) (i : Instr) : Prop := n ≠ dummy ∧ some n ∈ curveRoles p i

theorem usingCurve_mem (p : MatchParam) (n : String) (hn : n ≠ dummy) (excl : List String) (l act : List Instr) (h : usingCurve p n excl l = .ok act) (i : Instr) :
    i ∈ act ↔ i ∈ l ∧ UsesCurve p n i ∧ i.typeName ∉ excl := by
  have h1 : ∀ i ∈ l, i.typeName ∉ excl → CurvesNamed p i := by
    by_contra hc
    push Not at hc
    obtain ⟨j, hj, a, b⟩ := hc
    rw [(C82_using p n hn excl l).2 ⟨j, hj, a, b⟩] at h
    cases h
  rw [(C82_using p n hn excl l).1 h1] at h
  obtain rfl := Except.ok.inj h
  rw [List.mem_flatMap]
  constructor
  · rintro ⟨j, hj, hi⟩
    by_cases he : j.typeName ∈ excl
    · rw [if_pos he] at hi; simp at hi
    · rw [if_neg he, List.mem_replicate] at hi
      obtain ⟨hc, rfl⟩ := hi
      exact ⟨hj, ⟨hn, by rw [← List.count_pos_iff]; omega⟩, he⟩
  · rintro ⟨hi, ⟨-, hu⟩, he⟩
    refine ⟨i, hi, ?_⟩
    rw [if_neg he, List.mem_replicate]
    rw [← List.count_pos_iff] at hu
    exact ⟨by omega, rfl⟩

theorem mem_curves (p : MatchParam) (l : List Instr) (n : String) : n ∈ firsts (curvesInUse p l) ↔ ∃ i ∈ l, UsesCurve p n i := by
  rw [mem_firsts, curvesInUse, List.mem_filter]
  simp only [List.mem_flatMap, List.mem_filterMap, id, decide_eq_true_eq]
  constructor
  · rintro ⟨⟨i, hi, o, ho, rfl⟩, hd⟩
    exact ⟨i, hi, hd, ho⟩
  · rintro ⟨i, hi, hd, hr⟩
    exact ⟨⟨i, hi, some n, hr, rfl⟩, hd⟩

/-- `get_all_curve_names` succeeds: what it answers, and that every name is given. -/
theorem allCurves_ok (p : MatchParam) (l : List Instr) (ns : List String) (h : allCurves p [] l = .ok ns) :
    (∀ i ∈ l, CurvesNamed p i) ∧ ns = firsts (curvesInUse p l) := by
  have h1 : ∀ i ∈ l, CurvesNamed p i := by
    by_contra hc
    push Not at hc
    rw [(C82_curves p l).2 hc] at h
    cases h
  rw [(C82_curves p l).1 h1] at h
  exact ⟨h1, (Except.ok.inj h).symm⟩

theorem rho_put (n : String) : PutAt rhoPart n (fun x v => { x with rho := x.rho.put n v }) := ⟨fun _ _ => rfl, fun _ _ => rfl⟩

theorem setRho_eq (g : EngCfg) (e : Eng) : setRho g e = (do
    let names ← allCurves g.p [] g.insts
    eachName (fun n => usingCurve g.p n ["Stock"] g.insts) (fun n => diffRound g (fun m => m.bumpCurve n none none g.conf.rhoBump)
      (fun m => m.bumpCurve n none none (-g.conf.rhoBump)) (fun x v => { x with rho := x.rho.put n v }) g.conf.rhoBump 0.0001) names e) := rfl

/-- **C89** (rho). After the rho part the market is what it was. Every instrument other than a stock has, for each curve it uses, the
forward difference of its npv when all rates of that curve rise by the bump, for a rise by a basis point and its notional.
Nothing else in the results has changed: a borrowing curve, or the curve of a stock, has no rho unless an instrument uses the same
curve in another role. -/
theorem C89_rho (g : EngCfg) (hg : OwnCodes g) (e e' : Eng) (hc : GoodCurves e.mkt) (h : setRho g e = .ok e') :
    (∀ i ∈ g.insts, CurvesNamed g.p i) ∧ e'.mkt = e.mkt ∧ (∀ c, c ∉ g.insts.map Instr.code → e'.results c = e.results c) ∧
    ∀ i ∈ g.insts, ∀ x, e.results i.code = some x → ∃ y, e'.results i.code = some y ∧ y = { x with rho := y.rho } ∧
      ∀ n, (UsesCurve g.p n i ∧ i.typeName ≠ "Stock" → ∃ m, CurveShifted n (fun _ => True) g.conf.rhoBump e.mkt m ∧
          ForwardDiff g m g.conf.rhoBump 0.0001 i x.npv (y.rho n)) ∧
        (¬ (UsesCurve g.p n i ∧ i.typeName ≠ "Stock") → y.rho n = x.rho n) := by
  rw [setRho_eq] at h
  obtain ⟨ns, hns, h⟩ := (bind_ok_iff _ _ _).1 h
  obtain ⟨hn, rfl⟩ := allCurves_ok _ _ _ hns
  obtain ⟨h1, h2, h3⟩ := forward_spec g hg rhoPart (fun n x v => { x with rho := x.rho.put n v }) rho_put (fun n m => m.bumpCurve n none none g.conf.rhoBump)
    (fun n m => m.bumpCurve n none none (-g.conf.rhoBump)) g.conf.rhoBump 0.0001 e.mkt _ (fun n i => UsesCurve g.p n i ∧ i.typeName ∉ ["Stock"]) _ (nodup_firsts _)
    (fun n hn act hact i => usingCurve_mem g.p n (by obtain ⟨j, -, hj⟩ := (mem_curves _ _ _).1 hn; exact hj.1) _ _ _ hact i)
    (fun n _ m hm => (bumpCurve_spec e.mkt m hc n none none _ hm).2) e e' rfl h
  refine ⟨hn, h1, h3, fun i hi x hx => ?_⟩
  obtain ⟨y, hy, e1, e2, e3⟩ := h2 i hi x hx
  refine ⟨y, hy, e1, fun n => ⟨fun hu => ?_, fun hu => e3 n fun hc => hu ⟨hc.2.1, by simpa using hc.2.2⟩⟩⟩
  obtain ⟨m, hm, hf⟩ := e2 n ((mem_curves _ _ _).2 ⟨i, hi, hu.1⟩) ⟨hu.1, by simpa using hu.2⟩
  exact ⟨m, curveShifted_all n _ _ _ hc (bumpCurve_spec e.mkt m hc n none none _ hm).1, hf⟩

/-- **C89** (when it succeeds). It is enough that the bump is not 0, all curve names are given, every instrument has its npv, and
every instrument other than a stock can be repriced with each of its curves, which are there, shifted; by `C89_rho` that is also
needed. -/
theorem C89_succeeds (g : EngCfg) (hg : OwnCodes g) (e : Eng) (hc : GoodCurves e.mkt) (hv : Valued g.insts e.results) (hb : g.conf.rhoBump ≠ 0)
    (hn : ∀ i ∈ g.insts, CurvesNamed g.p i)
    (h : ∀ i ∈ g.insts, i.typeName ≠ "Stock" → ∀ n, UsesCurve g.p n i → ∃ m up, CurveShifted n (fun _ => True) g.conf.rhoBump e.mkt m ∧ g.npv i m = .ok up) :
    ∃ e', setRho g e = .ok e' := by
  rw [setRho_eq, (C82_curves g.p g.insts).1 hn]
  simp only [Res.bind_ok]
  refine forward_total g hg rhoPart (fun n x v => { x with rho := x.rho.put n v }) rho_put (fun n m => m.bumpCurve n none none g.conf.rhoBump)
    (fun n m => m.bumpCurve n none none (-g.conf.rhoBump)) g.conf.rhoBump 0.0001 hb e.mkt _ _ (fun n hn' => ?_) e rfl hv
  have hd : n ≠ dummy := by obtain ⟨j, -, hj⟩ := (mem_curves _ _ _).1 hn'; exact hj.1
  have hpick := (C82_using g.p n hd ["Stock"] g.insts).1 fun i hi _ => hn i hi
  have hmem := usingCurve_mem g.p n hd _ _ _ hpick
  refine ⟨_, hpick, fun i hi => ((hmem i).1 hi).1, fun hne => ?_⟩
  have key : ∀ i ∈ _, ∃ m up, CurveShifted n (fun _ => True) g.conf.rhoBump e.mkt m ∧ g.npv i m = .ok up := fun i hi =>
    h i ((hmem i).1 hi).1 (by simpa using ((hmem i).1 hi).2.2) n ((hmem i).1 hi).2.1
  obtain ⟨i0, hi0⟩ := List.exists_mem_of_ne_nil _ hne
  obtain ⟨m0, -, s0, -⟩ := key i0 hi0
  obtain ⟨c, -, hcn, -⟩ := id s0
  obtain ⟨m, hm⟩ := bumpCurve_ok e.mkt hc n none none g.conf.rhoBump c hcn (by norm_num)
  obtain ⟨s1, s2⟩ := bumpCurve_spec e.mkt m hc n none none _ hm
  refine ⟨m, hm, s2, fun i hi => ?_⟩
  obtain ⟨m', up, s3, s4⟩ := key i hi
  rw [curveShifted_unique n _ _ _ _ _ hc s3 (curveShifted_all n _ _ _ hc s1)] at s4
  exact ⟨up, s4⟩

/-! ## C90: vega -/

theorem vega_put (n : String) : PutAt vegaPart n (fun x v => { x with vega := x.vega.put n v }) := ⟨fun _ _ => rfl, fun _ _ => rfl⟩

theorem setVega_eq (g : EngCfg) (e : Eng) : setVega g e =
    eachName (fun u => .ok (withUnderlying g.insts u ["Futures", "Stock"])) (fun u => diffRound g (fun m => m.bumpVol u none none none none g.conf.vegaBump)
      (fun m => m.bumpVol u none none none none (-g.conf.vegaBump)) (fun x v => { x with vega := x.vega.put u v }) g.conf.vegaBump 0.01)
      (allUnds g.insts) e := rfl

theorem volShifted_all (u : String) (b : ℝ) (m m' : Mkt) :
    VolShifted u (fun t x => InWindow none none t ∧ InWindow none none x) b m m' → VolShifted u (fun _ _ => True) b m m' := by
  rintro ⟨s, s', env, a1, a2, a3, a4, a5, a6, a7⟩
  refine ⟨s, s', env, a1, a2, a3, a4, a5, fun i j t x v h1 h2 h3 => ?_, a7⟩
  rw [a6 i j t x v h1 h2 h3, if_pos trivial, if_pos]
  exact ⟨⟨by simp, by simp⟩, by simp, by simp⟩

/-- **C90** (vega). After the vega part the market is what it was. Every instrument other than a stock or future has, for each of its
underlyings, the forward difference of its npv when the whole volatility surface of the underlying rises by the bump, for a rise
by 1 % and its notional. Nothing else in the results has changed. -/
theorem C90_vega (g : EngCfg) (hg : OwnCodes g) (e e' : Eng) (hc : GoodVols e.mkt) (h : setVega g e = .ok e') :
    e'.mkt = e.mkt ∧ (∀ c, c ∉ g.insts.map Instr.code → e'.results c = e.results c) ∧
    ∀ i ∈ g.insts, ∀ x, e.results i.code = some x → ∃ y, e'.results i.code = some y ∧ y = { x with vega := y.vega } ∧
      ∀ u, (u ∈ i.unds ∧ i.typeName ≠ "Stock" ∧ i.typeName ≠ "Futures" → ∃ m, VolShifted u (fun _ _ => True) g.conf.vegaBump e.mkt m ∧
          ForwardDiff g m g.conf.vegaBump 0.01 i x.npv (y.vega u)) ∧
        (¬ (u ∈ i.unds ∧ i.typeName ≠ "Stock" ∧ i.typeName ≠ "Futures") → y.vega u = x.vega u) := by
  rw [setVega_eq] at h
  obtain ⟨h1, h2, h3⟩ := forward_spec g hg vegaPart (fun n x v => { x with vega := x.vega.put n v }) vega_put (fun u m => m.bumpVol u none none none none g.conf.vegaBump)
    (fun u m => m.bumpVol u none none none none (-g.conf.vegaBump)) g.conf.vegaBump 0.01 e.mkt _ (fun n i => n ∈ i.unds ∧ i.typeName ∉ ["Futures", "Stock"]) _ (nodup_allUnds _)
    (fun n hn act hact i => by
      obtain rfl := Except.ok.inj hact
      exact withUnderlying_mem g.insts n _ i)
    (fun n _ m hm => (bumpVol_spec e.mkt m hc n none none none none _ hm).2.1) e e' rfl h
  refine ⟨h1, h3, fun i hi x hx => ?_⟩
  obtain ⟨y, hy, e1, e2, e3⟩ := h2 i hi x hx
  refine ⟨y, hy, e1, fun n => ⟨fun hu => ?_, fun hu => e3 n fun hc => hu ⟨hc.2.1, ?_⟩⟩⟩
  · obtain ⟨m, hm, hf⟩ := e2 n ((mem_allUnds _ _).2 ⟨i, hi, hu.1⟩) ⟨hu.1, by simp [hu.2.1, hu.2.2]⟩
    exact ⟨m, volShifted_all n _ _ _ (bumpVol_spec e.mkt m hc n none none none none _ hm).1, hf⟩
  · have := hc.2.2
    simp only [List.mem_cons, List.not_mem_nil, or_false, not_or] at this
    exact ⟨this.2, this.1⟩

/-- **C90** (when it succeeds). It is enough that the bump is not 0, every instrument has its npv, and every instrument other than a
stock or future can be repriced with the surface of each of its underlyings, which is there, shifted; by `C90_vega` that is also
needed. -/
theorem C90_succeeds (g : EngCfg) (hg : OwnCodes g) (e : Eng) (hc : GoodVols e.mkt) (hv : Valued g.insts e.results) (hb : g.conf.vegaBump ≠ 0)
    (h : ∀ i ∈ g.insts, i.typeName ≠ "Stock" ∧ i.typeName ≠ "Futures" → ∀ u ∈ i.unds, ∃ m up, VolShifted u (fun _ _ => True) g.conf.vegaBump e.mkt m ∧
      g.npv i m = .ok up) :
    ∃ e', setVega g e = .ok e' := by
  rw [setVega_eq]
  refine forward_total g hg vegaPart (fun n x v => { x with vega := x.vega.put n v }) vega_put (fun u m => m.bumpVol u none none none none g.conf.vegaBump)
    (fun u m => m.bumpVol u none none none none (-g.conf.vegaBump)) g.conf.vegaBump 0.01 hb e.mkt _ _ (fun n _ => ?_) e rfl hv
  refine ⟨_, rfl, fun i hi => ((withUnderlying_mem _ _ _ _).1 hi).1, fun hne => ?_⟩
  have key : ∀ i ∈ withUnderlying g.insts n ["Futures", "Stock"], ∃ m up, VolShifted n (fun _ _ => True) g.conf.vegaBump e.mkt m ∧ g.npv i m = .ok up := by
    intro i hi
    rw [withUnderlying_mem] at hi
    have := hi.2.2
    simp only [List.mem_cons, List.not_mem_nil, or_false, not_or] at this
    exact h i hi.1 ⟨this.2, this.1⟩ n hi.2.1
  obtain ⟨i0, hi0⟩ := List.exists_mem_of_ne_nil _ hne
  obtain ⟨m0, -, s0, -⟩ := key i0 hi0
  obtain ⟨s, -, -, hs, -⟩ := id s0
  obtain ⟨m, hm⟩ := bumpVol_ok e.mkt hc n none none none none g.conf.vegaBump _ hs
  obtain ⟨s1, s2, -⟩ := bumpVol_spec e.mkt m hc n none none none none _ hm
  refine ⟨m, hm, s2, fun i hi => ?_⟩
  obtain ⟨m', up, s3, s4⟩ := key i hi
  rw [volShifted_unique n _ _ _ _ _ hc s3 (volShifted_all n _ _ _ s1)] at s4
  exact ⟨up, s4⟩

end Verif.Props

import Verif.Props.Options
import Verif.Props.Stepwise
/-!
# C74 - C77: the volatility surface
-/
set_option autoImplicit false
namespace Verif.Props
open Verif Verif.QL Verif.Civil

/-! ### Specification: a line through points, flat outside -/

/-- Specification: `(x, y)` is on the broken line through the points `(dom[i], val[i])`, continued flat on both sides. -/
def Polyline (dom val : List ℝ) (x y : ℝ) : Prop :=
  (∃ a v, dom[0]? = some a ∧ val[0]? = some v ∧ x < a ∧ y = v) ∨
  (∃ i a b v w, dom[i]? = some a ∧ dom[i + 1]? = some b ∧ val[i]? = some v ∧ val[i + 1]? = some w ∧ a ≤ x ∧ x < b ∧
    y = v + (x - a) / (b - a) * (w - v)) ∨
  (∃ a v, dom[dom.length - 1]? = some a ∧ val[dom.length - 1]? = some v ∧ a ≤ x ∧ y = v)

theorem chord_eq_line (a v b w x : ℝ) (h : a < b) : chord a v b w x = v + (x - a) / (b - a) * (w - v) := by
  have : b - a ≠ 0 := by linarith
  unfold chord
  field_simp
  ring

theorem polyline_exists (dom val : List ℝ) (hs : dom.Pairwise (· < ·)) (hl : dom.length = val.length) (hd : dom ≠ []) (x : ℝ) :
    ∃ y, Polyline dom val x y := by
  have h0 := List.length_pos_iff.2 hd
  rcases interp_trichotomy dom hs h0 x with h | ⟨i, hi, h1, h2⟩ | h
  · exact ⟨_, Or.inl ⟨_, _, List.getElem?_eq_getElem h0, List.getElem?_eq_getElem (by omega), h, rfl⟩⟩
  · exact ⟨_, Or.inr (Or.inl ⟨i, _, _, _, _, List.getElem?_eq_getElem (by omega), List.getElem?_eq_getElem hi,
      List.getElem?_eq_getElem (by omega), List.getElem?_eq_getElem (by omega), h1, h2, rfl⟩)⟩
  · exact ⟨_, Or.inr (Or.inr ⟨_, _, List.getElem?_eq_getElem (by omega), List.getElem?_eq_getElem (by omega), h, rfl⟩)⟩

theorem lin_of_polyline (dom val : List ℝ) (f : Lin ℝ) (hf : Lin.new dom val .flat true = .ok f) (hs : dom.Pairwise (· < ·))
    (hl : dom.length = val.length) (x y : ℝ) (h : Polyline dom val x y) : f.interp x = .ok y := by
  rcases h with ⟨a, v, ha, hv, hx, rfl⟩ | ⟨i, a, b, v, w, ha, hb, hv, hw, h1, h2, rfl⟩ | ⟨a, v, ha, hv, hx, rfl⟩
  · obtain ⟨h0, rfl⟩ := List.getElem?_eq_some_iff.1 ha
    obtain ⟨_, rfl⟩ := List.getElem?_eq_some_iff.1 hv
    exact (C38_flat dom val f hf hs hl h0 x).1 hx
  · obtain ⟨_, rfl⟩ := List.getElem?_eq_some_iff.1 ha
    obtain ⟨hi, rfl⟩ := List.getElem?_eq_some_iff.1 hb
    obtain ⟨_, rfl⟩ := List.getElem?_eq_some_iff.1 hv
    obtain ⟨_, rfl⟩ := List.getElem?_eq_some_iff.1 hw
    rw [C38_inside dom val .flat true f hf hs hl i hi x h1 h2, chord_eq_line _ _ _ _ _ (by linarith)]
  · obtain ⟨h0, rfl⟩ := List.getElem?_eq_some_iff.1 ha
    obtain ⟨_, rfl⟩ := List.getElem?_eq_some_iff.1 hv
    exact (C38_flat dom val f hf hs hl (by omega) x).2 hx

theorem lin_iff_polyline (dom val : List ℝ) (f : Lin ℝ) (hf : Lin.new dom val .flat true = .ok f) (hs : dom.Pairwise (· < ·))
    (hl : dom.length = val.length) (hd : dom ≠ []) (x y : ℝ) : f.interp x = .ok y ↔ Polyline dom val x y := by
  refine ⟨fun h => ?_, lin_of_polyline dom val f hf hs hl x y⟩
  obtain ⟨z, hz⟩ := polyline_exists dom val hs hl hd x
  rw [lin_of_polyline dom val f hf hs hl x z hz] at h
  obtain rfl := Except.ok.inj h
  exact hz

theorem polyline_unique (dom val : List ℝ) (hs : dom.Pairwise (· < ·)) (hl : dom.length = val.length) (hd : dom ≠ []) (x y y' : ℝ)
    (h : Polyline dom val x y) (h' : Polyline dom val x y') : y = y' := by
  obtain ⟨f, hf, -⟩ := new_made dom val .flat true hs hd hl
  have e := lin_of_polyline dom val f hf hs hl x y h
  rw [lin_of_polyline dom val f hf hs hl x y' h'] at e
  exact (Except.ok.inj e).symm

/-- at a knot -/
theorem polyline_knot (dom val : List ℝ) (hs : dom.Pairwise (· < ·)) (hl : dom.length = val.length) (i : Nat) (a v : ℝ)
    (ha : dom[i]? = some a) (hv : val[i]? = some v) : Polyline dom val a v := by
  obtain ⟨hi, rfl⟩ := List.getElem?_eq_some_iff.1 ha
  rcases Nat.lt_or_ge (i + 1) dom.length with h | h
  · refine Or.inr (Or.inl ⟨i, _, _, v, _, ha, List.getElem?_eq_getElem h, hv, List.getElem?_eq_getElem (by omega), le_refl _, sorted_lt hs i (i + 1) (by omega) h, ?_⟩)
    simp
  · obtain rfl : i = dom.length - 1 := by omega
    exact Or.inr (Or.inr ⟨_, v, ha, hv, le_refl _, rfl⟩)

/-- between bounds of the values -/
theorem polyline_bounds (dom val : List ℝ) (lo hi x y : ℝ) (hv : ∀ v ∈ val, lo ≤ v ∧ v ≤ hi) (h : Polyline dom val x y) : lo ≤ y ∧ y ≤ hi := by
  rcases h with ⟨a, v, ha, hb, hx, rfl⟩ | ⟨i, a, b, v, w, ha, hb, h3, h4, h1, h2, rfl⟩ | ⟨a, v, ha, hb, hx, rfl⟩
  · exact hv _ (List.mem_of_getElem? hb)
  · obtain ⟨p1, p2⟩ := hv v (List.mem_of_getElem? h3)
    obtain ⟨q1, q2⟩ := hv w (List.mem_of_getElem? h4)
    have e1 : 0 ≤ (x - a) / (b - a) := div_nonneg (by linarith) (by linarith)
    have e2 : (x - a) / (b - a) ≤ 1 := (div_le_one (by linarith)).2 (by linarith)
    constructor
    · nlinarith [mul_nonneg e1 (sub_nonneg.2 q1), mul_nonneg (sub_nonneg.2 e2) (sub_nonneg.2 p1)]
    · nlinarith [mul_nonneg e1 (sub_nonneg.2 q2), mul_nonneg (sub_nonneg.2 e2) (sub_nonneg.2 p2)]
  · exact hv _ (List.mem_of_getElem? hb)

/-- stretched -/
theorem polyline_scale (dom val : List ℝ) (k x y : ℝ) (hk : 0 < k) (h : Polyline dom val x y) : Polyline (dom.map (k * ·)) val (k * x) y := by
  rcases h with ⟨a, v, ha, hb, hx, rfl⟩ | ⟨i, a, b, v, w, ha, hb, h3, h4, h1, h2, rfl⟩ | ⟨a, v, ha, hb, hx, rfl⟩
  · exact Or.inl ⟨k * a, _, by rw [List.getElem?_map, ha]; rfl, hb, mul_lt_mul_of_pos_left hx hk, rfl⟩
  · refine Or.inr (Or.inl ⟨i, k * a, k * b, v, w, by rw [List.getElem?_map, ha]; rfl, by rw [List.getElem?_map, hb]; rfl, h3, h4,
      mul_le_mul_of_nonneg_left h1 hk.le, mul_lt_mul_of_pos_left h2 hk, ?_⟩)
    rw [← mul_sub, ← mul_sub, mul_div_mul_left _ _ hk.ne']
  · exact Or.inr (Or.inr ⟨k * a, _, by rw [List.length_map, List.getElem?_map, ha]; rfl, by rw [List.length_map]; exact hb, mul_le_mul_of_nonneg_left hx hk.le, rfl⟩)

/-- lifted -/
theorem polyline_shift (dom val : List ℝ) (c x y : ℝ) (h : Polyline dom val x y) : Polyline dom (val.map (· + c)) x (y + c) := by
  rcases h with ⟨a, v, ha, hb, hx, rfl⟩ | ⟨i, a, b, v, w, ha, hb, h3, h4, h1, h2, rfl⟩ | ⟨a, v, ha, hb, hx, rfl⟩
  · exact Or.inl ⟨a, _, ha, by rw [List.getElem?_map, hb]; rfl, hx, rfl⟩
  · exact Or.inr (Or.inl ⟨i, a, b, v + c, w + c, ha, hb, by rw [List.getElem?_map, h3]; rfl, by rw [List.getElem?_map, h4]; rfl, h1, h2, by ring⟩)
  · exact Or.inr (Or.inr ⟨a, _, ha, by rw [List.getElem?_map, hb]; rfl, hx, rfl⟩)

/-! ### Specification: a surface -/

/-- Specification: the surface with the rows `vols`, row `i` over the axis `axes[i]`, at time `t` and `x`: the broken line
through the rows' values at `x`, each on its own broken line. -/
def SurfaceAt (times : List ℝ) (axes vols : List (List ℝ)) (t x y : ℝ) : Prop :=
  ∃ ys : List ℝ, ys.length = times.length ∧
    (∀ (i : Nat) ax row v, axes[i]? = some ax → vols[i]? = some row → ys[i]? = some v → Polyline ax row x v) ∧ Polyline times ys t y

/-- Specification: a surface of the right shape, with increasing times and moneyness. -/
structure GoodSurf (s : Surf) : Prop where
  times : s.times.Pairwise (· < ·)
  some : s.times ≠ []
  dates : s.dates.length = s.times.length
  rows : s.vols.length = s.times.length
  mon : s.mon.Pairwise (· < ·)
  someMon : s.mon ≠ []
  cols : ∀ r ∈ s.vols, r.length = s.mon.length
  spot : 0 < s.spot

/-- Specification: the forwards of the surface's dates for a spot price, all positive. -/
def Forwards (env : FuturesPricer) (spot : ℝ) (ds : List DT) (fs : List ℝ) : Prop :=
  List.Forall₂ (fun d f => FuturesPricer.forward { env with spot := spot } d = .ok f ∧ 0 < f) ds fs

/-- Specification: the spot price a surface is built at: today's if it sticks to the strike, that of its quotes otherwise. -/
noncomputable def builtAt (env : FuturesPricer) (s : Surf) : ℝ := if s.toStrike then env.spot else s.spot

/-- Specification: the forward moneyness of the grid. -/
noncomputable def axis (mon : List ℝ) (spot f : ℝ) : List ℝ := mon.map fun m => m * spot / f

theorem axis_sorted (mon : List ℝ) (spot f : ℝ) (h : mon.Pairwise (· < ·)) (hs : 0 < spot) (hf : 0 < f) : (axis mon spot f).Pairwise (· < ·) := by
  unfold axis
  rw [List.pairwise_map]
  exact h.imp fun {a b} hab => div_lt_div_of_pos_right (mul_lt_mul_of_pos_right hab hs) hf

theorem mapRes_divK (mon : List ℝ) (spot f : ℝ) (hf : 0 < f) : mapRes (fun m => divK (m * spot) f) mon = .ok (axis mon spot f) := by
  rw [mapRes_iff]
  refine ⟨by simp [axis], fun i x y hx hy => ?_⟩
  unfold axis at hy
  rw [List.getElem?_map, hx] at hy
  cases hy
  exact if_neg hf.ne'

theorem surfRows_spec (mon : List ℝ) (spot : ℝ) (hm : mon.Pairwise (· < ·)) (hd : mon ≠ []) (hs : 0 < spot) (fs : List ℝ)
    (hf : ∀ f ∈ fs, 0 < f) (vols : List (List ℝ)) (hl : vols.length = fs.length) (hv : ∀ r ∈ vols, r.length = mon.length) :
    ∃ rows, surfRows mon spot fs vols = .ok rows ∧ rows.length = fs.length ∧
      ∀ (i : Nat) f v l, fs[i]? = some f → vols[i]? = some v → rows[i]? = some l → Lin.new (axis mon spot f) v .flat true = .ok l := by
  induction fs generalizing vols with
  | nil => exact ⟨[], by unfold surfRows; rfl, rfl, by simp⟩
  | cons f fs ih =>
    cases vols with
    | nil => simp at hl
    | cons v vols =>
      obtain ⟨rows, h1, h2, h3⟩ := ih (fun g hg => hf g (List.mem_cons_of_mem _ hg)) vols (by simpa using hl) fun r hr => hv r (List.mem_cons_of_mem _ hr)
      have hfp := hf f (List.mem_cons_self ..)
      obtain ⟨l, hl', -⟩ := new_made (axis mon spot f) v .flat true (axis_sorted mon spot f hm hs hfp) (by simpa [axis] using hd) (by simpa [axis] using (hv v (List.mem_cons_self ..)).symm)
      refine ⟨l :: rows, ?_, by simp [h2], ?_⟩
      · unfold surfRows
        rw [mapRes_divK mon spot f hfp]
        simp only [Res.bind_ok, hl', h1]
      · intro i g u k hg hu hk
        cases i with
        | zero =>
          simp only [List.getElem?_cons_zero, Option.some.injEq] at hg hu hk
          subst hg hu hk
          exact hl'
        | succ i => exact h3 i g u k (by simpa using hg) (by simpa using hu) (by simpa using hk)

/-- A bilinear interpolator with flat ends is a broken line in time through the answers of its rows. -/
theorem bilin_polyline (dom : List ℝ) (rows : List (Lin ℝ)) (f : Bilin ℝ) (hf : Bilin.new dom rows true .flat = .ok f)
    (hs : dom.Pairwise (· < ·)) (hl : dom.length = rows.length) (hd : dom ≠ []) (x : ℝ) (ys : List ℝ) (_hy : ys.length = dom.length)
    (hr : ∀ (i : Nat) (y : ℝ), ys[i]? = some y → RowAt rows i x y) (t y : ℝ) (hp : Polyline dom ys t y) : f.interp t x = .ok y := by
  have h0 := List.length_pos_iff.2 hd
  rcases hp with ⟨a, v, ha, hv, hx, rfl⟩ | ⟨i, a, b, v, w, ha, hb, hv, hw, h1, h2, rfl⟩ | ⟨a, v, ha, hv, hx, rfl⟩
  · obtain ⟨l, hl1, hl2⟩ := hr 0 _ hv
    rw [bilin_new hs hd hl] at hf
    cases hf
    obtain ⟨_, rfl⟩ := List.getElem?_eq_some_iff.1 ha
    unfold Bilin.interp
    simp only
    rw [at_ok dom 0 h0]
    simp only [Res.bind_ok]
    rw [if_pos hx]
    simp only [if_true, at_some hl1, Res.bind_ok, hl2]
  · obtain ⟨_, rfl⟩ := List.getElem?_eq_some_iff.1 ha
    obtain ⟨hi, rfl⟩ := List.getElem?_eq_some_iff.1 hb
    rw [(C50_inside dom rows true .flat f hf hs hl i hi t x v w h1 h2 (hr _ _ hv) (hr _ _ hw)).1, chord_eq_line _ _ _ _ _ (by linarith)]
  · obtain ⟨l, hl1, hl2⟩ := hr _ _ hv
    rw [bilin_new hs hd hl] at hf
    cases hf
    obtain ⟨_, rfl⟩ := List.getElem?_eq_some_iff.1 ha
    have hn : ¬ t < dom[0] := not_lt.2 (le_trans (sorted_le (strict_le hs) 0 _ (by omega) (by omega)) hx)
    unfold Bilin.interp
    simp only
    rw [at_ok dom 0 h0]
    simp only [Res.bind_ok]
    rw [if_neg hn, at_ok dom _ (by omega)]
    simp only [Res.bind_ok]
    rw [if_pos hx]
    simp only [if_true, at_some hl1, Res.bind_ok, hl2]

theorem forwards_mapRes (env : FuturesPricer) (spot : ℝ) (ds : List DT) (fs : List ℝ) (h : Forwards env spot ds fs) :
    mapRes (Surf.forward env spot) ds = .ok fs ∧ (∀ f ∈ fs, 0 < f) ∧ fs.length = ds.length := by
  unfold Forwards at h
  induction h with
  | nil => exact ⟨rfl, by simp, rfl⟩
  | cons h _ ih =>
    obtain ⟨i1, i2, i3⟩ := ih
    refine ⟨?_, ?_, by simp [i3]⟩
    · unfold mapRes
      unfold Surf.forward at i1 ⊢
      rw [h.1, i1]
      rfl
    · intro f hf
      rcases List.mem_cons.1 hf with rfl | hf
      · exact h.2
      · exact i2 f hf

theorem surfaceAt_exists (times : List ℝ) (axes vols : List (List ℝ)) (ht : times.Pairwise (· < ·)) (hne : times ≠ [])
    (ha : axes.length = times.length) (hv : vols.length = times.length)
    (hr : ∀ (i : Nat) (ax row : List ℝ), axes[i]? = some ax → vols[i]? = some row → ax.Pairwise (· < ·) ∧ ax ≠ [] ∧ ax.length = row.length) (t x : ℝ) :
    ∃ y, SurfaceAt times axes vols t x y := by
  have hrow : ∀ i : Fin times.length, ∃ v, ∀ ax row, axes[i.1]? = some ax → vols[i.1]? = some row → Polyline ax row x v := by
    intro i
    obtain ⟨h1, h2, h3⟩ := hr i.1 axes[i.1] vols[i.1] (List.getElem?_eq_getElem (by omega)) (List.getElem?_eq_getElem (by omega))
    obtain ⟨v, hv'⟩ := polyline_exists _ _ h1 h3 h2 x
    refine ⟨v, fun ax row e1 e2 => ?_⟩
    rw [List.getElem?_eq_getElem (by omega)] at e1 e2
    cases e1
    cases e2
    exact hv'
  choose g hg using hrow
  have hlen : (List.ofFn g).length = times.length := by simp
  obtain ⟨y, hy⟩ := polyline_exists times (List.ofFn g) ht hlen.symm hne t
  refine ⟨y, List.ofFn g, hlen, fun i ax row v e1 e2 e3 => ?_, hy⟩
  obtain ⟨hi, rfl⟩ := List.getElem?_eq_some_iff.1 e3
  rw [List.getElem_ofFn]
  exact hg ⟨i, by simpa using hi⟩ ax row e1 e2

/-- **C74** (value). A surface of the right shape, whose dates have positive forwards, can be built; building changes nothing
but the interpolator; and it then has exactly one volatility for every time and moneyness: linear in forward moneyness on
each row, then linear in time, and flat outside. -/
theorem C74_value (env : FuturesPricer) (s : Surf) (hs : GoodSurf s) (fs : List ℝ) (hf : Forwards env (builtAt env s) s.dates fs) :
    ∃ s', Surf.build env s = .ok s' ∧ s' = { s with interp := s'.interp } ∧
      ∀ t x, (∃ y, Vol.value (.surface s') t x = .ok y) ∧
        ∀ y, Vol.value (.surface s') t x = .ok y ↔ SurfaceAt s.times (fs.map (axis s.mon s.spot)) s.vols t x y := by
  obtain ⟨m1, m2, m3⟩ := forwards_mapRes env _ s.dates fs hf
  obtain ⟨hs1, hs2, hs3, hs4, hs5, hs6, hs7, hs8⟩ := hs
  obtain ⟨rows, r1, r2, r3⟩ := surfRows_spec s.mon s.spot hs5 hs6 hs8 fs m2 s.vols (by omega) hs7
  have hb := bilin_new (allow := true) (extra := .flat) hs1 hs2 (show s.times.length = rows.length by omega)
  refine ⟨{ s with interp := { dom := s.times, rows := rows, allow := true, extra := .flat } }, ?_, rfl, ?_⟩
  · unfold Surf.build
    unfold builtAt at m1
    rw [m1]
    simp only [Res.bind_ok, r1, hb]
  · have hval : ∀ t x y, SurfaceAt s.times (fs.map (axis s.mon s.spot)) s.vols t x y →
        Bilin.interp { dom := s.times, rows := rows, allow := true, extra := .flat } t x = .ok y := by
      rintro t x y ⟨ys, l, hy, hp⟩
      refine bilin_polyline s.times rows _ hb hs1 (by omega) hs2 x ys l (fun i v hv => ?_) t y hp
      obtain ⟨hi, -⟩ := List.getElem?_eq_some_iff.1 hv
      have e1 : fs[i]? = some fs[i] := List.getElem?_eq_getElem (by omega)
      have e2 : s.vols[i]? = some s.vols[i] := List.getElem?_eq_getElem (by omega)
      have e3 : rows[i]? = some rows[i] := List.getElem?_eq_getElem (by omega)
      refine ⟨rows[i], e3, lin_of_polyline _ _ _ (r3 i _ _ _ e1 e2 e3) (axis_sorted _ _ _ hs5 hs8 (m2 _ (List.getElem_mem _))) ?_ _ _
        (hy i _ _ v (by rw [List.getElem?_map, e1]; rfl) e2 hv)⟩
      rw [axis, List.length_map, hs7 _ (List.getElem_mem _)]
    intro t x
    obtain ⟨z, hz⟩ := surfaceAt_exists s.times (fs.map (axis s.mon s.spot)) s.vols hs1 hs2 (by simp; omega) hs4 (fun i ax row e1 e2 => by
      rw [List.getElem?_map] at e1
      obtain ⟨f, hf', rfl⟩ := Option.map_eq_some_iff.1 e1
      refine ⟨axis_sorted _ _ _ hs5 hs8 (m2 _ (List.mem_of_getElem? hf')), by simpa [axis] using hs6, ?_⟩
      rw [axis, List.length_map, hs7 _ (List.mem_of_getElem? e2)]) t x
    have hv : Vol.value (.surface { s with interp := { dom := s.times, rows := rows, allow := true, extra := .flat } }) t x = .ok z := by
      simp only [Vol.value]
      rw [hval t x z hz]
    refine ⟨⟨z, hv⟩, fun y => ⟨fun h => ?_, fun h => ?_⟩⟩
    · rw [hv] at h
      obtain rfl := Except.ok.inj h
      exact hz
    · simp only [Vol.value]
      rw [hval t x y h]

/-! ### Properties of the specification -/

theorem surfaceAt_unique (times : List ℝ) (axes vols : List (List ℝ)) (ht : times.Pairwise (· < ·)) (hne : times ≠ [])
    (ha : axes.length = times.length) (hv : vols.length = times.length)
    (hr : ∀ (i : Nat) (ax row : List ℝ), axes[i]? = some ax → vols[i]? = some row → ax.Pairwise (· < ·) ∧ ax ≠ [] ∧ ax.length = row.length)
    (t x y y' : ℝ) (h : SurfaceAt times axes vols t x y) (h' : SurfaceAt times axes vols t x y') : y = y' := by
  obtain ⟨ys, l, hy, hp⟩ := h
  obtain ⟨ys', l', hy', hp'⟩ := h'
  have : ys = ys' := by
    apply List.ext_getElem (by omega)
    intro i h1 h2
    have e1 : axes[i]? = some axes[i] := List.getElem?_eq_getElem (by omega)
    have e2 : vols[i]? = some vols[i] := List.getElem?_eq_getElem (by omega)
    obtain ⟨a, b, c⟩ := hr i _ _ e1 e2
    exact polyline_unique _ _ a c b x _ _ (hy i _ _ _ e1 e2 (List.getElem?_eq_getElem h1)) (hy' i _ _ _ e1 e2 (List.getElem?_eq_getElem h2))
  subst this
  exact polyline_unique _ _ ht l.symm hne t _ _ hp hp'

theorem surfaceAt_grid (times : List ℝ) (axes vols : List (List ℝ)) (ht : times.Pairwise (· < ·)) (hne : times ≠ [])
    (ha : axes.length = times.length) (hv : vols.length = times.length)
    (hr : ∀ (i : Nat) (ax row : List ℝ), axes[i]? = some ax → vols[i]? = some row → ax.Pairwise (· < ·) ∧ ax ≠ [] ∧ ax.length = row.length)
    (i j : Nat) (t x v : ℝ) (ax row : List ℝ) (h1 : times[i]? = some t) (h2 : axes[i]? = some ax) (h3 : vols[i]? = some row)
    (h4 : ax[j]? = some x) (h5 : row[j]? = some v) : SurfaceAt times axes vols t x v := by
  obtain ⟨y, ys, l, hy, hp⟩ := surfaceAt_exists times axes vols ht hne ha hv hr t x
  obtain ⟨hi, -⟩ := List.getElem?_eq_some_iff.1 h1
  obtain ⟨a, b, c⟩ := hr i _ _ h2 h3
  have e : ys[i]? = some ys[i] := List.getElem?_eq_getElem (by omega)
  have ev : ys[i] = v := polyline_unique ax row a c b x _ _ (hy i ax row _ h2 h3 e) (polyline_knot ax row a c j x v h4 h5)
  rw [ev] at e
  have ey : y = v := polyline_unique times ys ht l.symm hne t _ _ hp (polyline_knot times ys ht l.symm i t v h1 e)
  subst ey
  exact ⟨ys, l, hy, hp⟩

theorem surfaceAt_bounds (times : List ℝ) (axes vols : List (List ℝ)) (ha : axes.length = times.length) (hv : vols.length = times.length)
    (lo hi t x y : ℝ) (hb : ∀ r ∈ vols, ∀ v ∈ r, lo ≤ v ∧ v ≤ hi) (h : SurfaceAt times axes vols t x y) : lo ≤ y ∧ y ≤ hi := by
  obtain ⟨ys, l, hy, hp⟩ := h
  refine polyline_bounds times ys lo hi t y (fun v hvm => ?_) hp
  obtain ⟨i, hi', rfl⟩ := List.mem_iff_getElem.1 hvm
  have e1 : axes[i]? = some axes[i] := List.getElem?_eq_getElem (by omega)
  have e2 : vols[i]? = some vols[i] := List.getElem?_eq_getElem (by omega)
  exact polyline_bounds _ _ lo hi x _ (hb _ (List.getElem_mem _)) (hy i _ _ _ e1 e2 (List.getElem?_eq_getElem hi'))

theorem surfaceAt_scale (times : List ℝ) (axes vols : List (List ℝ)) (k t x y : ℝ) (hk : 0 < k) (h : SurfaceAt times axes vols t x y) :
    SurfaceAt times (axes.map fun a => a.map (k * ·)) vols t (k * x) y := by
  obtain ⟨ys, l, hy, hp⟩ := h
  refine ⟨ys, l, fun i ax row v e1 e2 e3 => ?_, hp⟩
  rw [List.getElem?_map] at e1
  obtain ⟨a, ha, rfl⟩ := Option.map_eq_some_iff.1 e1
  exact polyline_scale a row k x v hk (hy i a row v ha e2 e3)

theorem surfaceAt_shift (times : List ℝ) (axes vols : List (List ℝ)) (c t x y : ℝ) (h : SurfaceAt times axes vols t x y) :
    SurfaceAt times axes (vols.map fun r => r.map (· + c)) t x (y + c) := by
  obtain ⟨ys, l, hy, hp⟩ := h
  refine ⟨ys.map (· + c), by simp [l], fun i ax row v e1 e2 e3 => ?_, polyline_shift times ys c t y hp⟩
  rw [List.getElem?_map] at e2 e3
  obtain ⟨r, hr, rfl⟩ := Option.map_eq_some_iff.1 e2
  obtain ⟨w, hw, rfl⟩ := Option.map_eq_some_iff.1 e3
  exact polyline_shift ax r c x w (hy i ax r w e1 hr hw)

theorem good_axes (s : Surf) (hs : GoodSurf s) (fs : List ℝ) (hf : ∀ f ∈ fs, 0 < f) (i : Nat) (ax row : List ℝ)
    (e1 : (fs.map (axis s.mon s.spot))[i]? = some ax) (e2 : s.vols[i]? = some row) : ax.Pairwise (· < ·) ∧ ax ≠ [] ∧ ax.length = row.length := by
  rw [List.getElem?_map] at e1
  obtain ⟨f, hf', rfl⟩ := Option.map_eq_some_iff.1 e1
  refine ⟨axis_sorted _ _ _ hs.mon hs.spot (hf _ (List.mem_of_getElem? hf')), by simpa [axis] using hs.someMon, ?_⟩
  rw [axis, List.length_map, hs.cols _ (List.mem_of_getElem? e2)]

/-- **C74** (quotes). At each time of the surface and each spot moneyness of its grid, converted to forward moneyness, the
volatility is the cell of the matrix. -/
theorem C74_grid (env : FuturesPricer) (s s' : Surf) (hs : GoodSurf s) (fs : List ℝ) (hf : Forwards env (builtAt env s) s.dates fs)
    (hb : Surf.build env s = .ok s') (i j : Nat) (t f m v : ℝ) (row : List ℝ) (h1 : s.times[i]? = some t) (h2 : fs[i]? = some f)
    (h3 : s.mon[j]? = some m) (h4 : s.vols[i]? = some row) (h5 : row[j]? = some v) :
    Vol.value (.surface s') t (m * s.spot / f) = .ok v := by
  obtain ⟨u, hu, -, hv⟩ := C74_value env s hs fs hf
  rw [hu] at hb
  obtain rfl := Except.ok.inj hb
  obtain ⟨-, m2, m3⟩ := forwards_mapRes env _ s.dates fs hf
  refine ((hv _ _).2 _).2 (surfaceAt_grid s.times _ s.vols hs.times hs.some (by rw [List.length_map, m3, hs.dates]) hs.rows (good_axes s hs fs m2) i j t _ v
    (axis s.mon s.spot f) row h1 (by rw [List.getElem?_map, h2]; rfl) h4 ?_ h5)
  unfold axis
  rw [List.getElem?_map, h3]
  rfl

/-- **C74** (bounds). No volatility is outside the range of the cells. -/
theorem C74_bounds (env : FuturesPricer) (s s' : Surf) (hs : GoodSurf s) (fs : List ℝ) (hf : Forwards env (builtAt env s) s.dates fs)
    (hb : Surf.build env s = .ok s') (lo hi t x y : ℝ) (hc : ∀ r ∈ s.vols, ∀ v ∈ r, lo ≤ v ∧ v ≤ hi)
    (hy : Vol.value (.surface s') t x = .ok y) : lo ≤ y ∧ y ≤ hi := by
  obtain ⟨u, hu, -, hv⟩ := C74_value env s hs fs hf
  rw [hu] at hb
  obtain rfl := Except.ok.inj hb
  obtain ⟨-, -, m3⟩ := forwards_mapRes env _ s.dates fs hf
  exact surfaceAt_bounds s.times _ s.vols (by rw [List.length_map, m3, hs.dates]) hs.rows lo hi t x y hc (((hv t x).2 y).1 hy)

/-! ### C75: what the surface sticks to -/

theorem forward_scale (env : FuturesPricer) (a b : ℝ) (d : DT) (f : ℝ) (hb : 0 < a) (h : FuturesPricer.forward { env with spot := a } d = .ok f) :
    FuturesPricer.forward { env with spot := b } d = .ok (f * (b / a)) := by
  obtain ⟨c, w, r, h1, h2, h3, h4, h5⟩ := (C68_forward _ _ _).1 h
  refine (C68_forward _ _ _).2 ⟨c, w, r, h1, h2, h3, h4, ?_⟩
  simp only at h5 ⊢
  field_simp
  linear_combination b * h5

/-- **C75** (strike). A surface that sticks to the strike, built again after the spot price has moved from `env.spot` to
`q`, gives every strike and date the volatility it had: its moneyness is now measured against another forward. -/
theorem C75_strike (env : FuturesPricer) (s s1 s2 : Surf) (q : ℝ) (hs : GoodSurf s) (ht : s.toStrike = true) (hp : 0 < env.spot) (hq : 0 < q)
    (fs : List ℝ) (hf : Forwards env env.spot s.dates fs) (h1 : Surf.build env s = .ok s1) (h2 : Surf.build { env with spot := q } s = .ok s2)
    (d : DT) (F F' : ℝ) (hF : env.forward d = .ok F) (hF' : FuturesPricer.forward { env with spot := q } d = .ok F') (t K : ℝ) :
    Vol.value (.surface s1) t (K / F) = Vol.value (.surface s2) t (K / F') := by
  have b1 : builtAt env s = env.spot := by unfold builtAt; rw [if_pos ht]
  have b2 : builtAt { env with spot := q } s = q := by unfold builtAt; rw [if_pos ht]
  have hk : 0 < q / env.spot := div_pos hq hp
  have hf2 : Forwards { env with spot := q } q s.dates (fs.map (· * (q / env.spot))) := by
    unfold Forwards at hf ⊢
    rw [List.forall₂_map_right_iff]
    exact hf.imp fun d f h => ⟨forward_scale env env.spot q d f hp h.1, mul_pos h.2 hk⟩
  obtain ⟨u1, e1, -, v1⟩ := C74_value env s hs fs (by rw [b1]; exact hf)
  obtain ⟨u2, e2, -, v2⟩ := C74_value { env with spot := q } s hs _ (by rw [b2]; exact hf2)
  rw [h1] at e1
  rw [h2] at e2
  obtain rfl := Except.ok.inj e1
  obtain rfl := Except.ok.inj e2
  obtain ⟨y, hy⟩ := (v1 t (K / F)).1
  have hFF : F' = F * (q / env.spot) := by
    have := forward_scale env env.spot q d F hp hF
    rw [hF'] at this
    exact Except.ok.inj this
  rw [hy]
  refine (((v2 t (K / F')).2 y).2 ?_).symm
  have hsc := surfaceAt_scale s.times _ s.vols (env.spot / q) t (K / F) y (div_pos hp hq) (((v1 t (K / F)).2 y).1 hy)
  have ex : env.spot / q * (K / F) = K / F' := by
    rw [hFF]
    rw [div_mul_div_comm, mul_div_assoc', div_div_eq_mul_div, mul_comm env.spot K, mul_comm q F]
  have ea : (fs.map (axis s.mon s.spot)).map (fun a => a.map (env.spot / q * ·)) = (fs.map (· * (q / env.spot))).map (axis s.mon s.spot) := by
    rw [List.map_map, List.map_map]
    apply List.map_congr_left
    intro f _
    simp only [Function.comp, axis, List.map_map]
    apply List.map_congr_left
    intro m _
    simp only [Function.comp]
    rw [div_mul_div_comm, mul_div_assoc', div_div_eq_mul_div, mul_comm env.spot (m * s.spot), mul_comm q f]
  rw [ex, ea] at hsc
  exact hsc

/-- **C75** (moneyness). A surface that sticks to moneyness does not look at today's spot price: built again after it has
moved, it is the same surface in forward moneyness. -/
theorem C75_moneyness (env : FuturesPricer) (s : Surf) (q : ℝ) (ht : s.toStrike = false) :
    Surf.build { env with spot := q } s = Surf.build env s := by
  unfold Surf.build
  rw [if_neg (by simp [ht]), if_neg (by simp [ht])]
  rfl

/-! ### C76: bumps -/

/-- Specification: a window above `lo` and up to `hi`, both moved by 0.0001; a missing limit is no limit. -/
def InWindow (lo hi : Option ℝ) (x : ℝ) : Prop := (∀ a, lo = some a → a + 1e-4 < x) ∧ ∀ b, hi = some b → x ≤ b + 1e-4

theorem inWindow_iff (lo hi : Option ℝ) (x : ℝ) : inWindow lo hi x = true ↔ InWindow lo hi x := by
  unfold inWindow InWindow
  cases lo <;> cases hi <;> simp

/-- Specification: the cell of row `i` and column `j` of a matrix. -/
def cell (m : List (List ℝ)) (i j : Nat) : Option ℝ := m[i]? >>= fun r => r[j]?

theorem bump_cell (s : Surf) (_hs : GoodSurf s) (t1 t2 x1 x2 : Option ℝ) (b : ℝ) (i j : Nat) (t m v : ℝ) (h1 : s.times[i]? = some t)
    (h2 : s.mon[j]? = some m) (h3 : cell s.vols i j = some v) :
    cell (bumpCells s.times s.mon s.vols t1 t2 x1 x2 b) i j = some (open Classical in if InWindow t1 t2 t ∧ InWindow x1 x2 m then v + b else v) := by
  unfold cell at h3
  cases hr : s.vols[i]? with
  | none => rw [hr] at h3; cases h3
  | some r =>
    rw [hr] at h3
    have hv : r[j]? = some v := h3
    have e : (bumpCells s.times s.mon s.vols t1 t2 x1 x2 b)[i]? =
        some (if inWindow t1 t2 t then (s.mon.zip r).map fun q => if inWindow x1 x2 q.1 then q.2 + b else q.2 else r) := by
      unfold bumpCells
      rw [List.getElem?_map]
      have : (s.times.zip s.vols)[i]? = some (t, r) := by rw [List.getElem?_zip_eq_some]; exact ⟨h1, hr⟩
      rw [this]
      rfl
    unfold cell
    rw [e]
    simp only [Option.bind_eq_bind, Option.bind_some]
    by_cases w1 : InWindow t1 t2 t
    · rw [if_pos ((inWindow_iff _ _ _).2 w1), List.getElem?_map]
      have : (s.mon.zip r)[j]? = some (m, v) := by rw [List.getElem?_zip_eq_some]; exact ⟨h2, hv⟩
      rw [this]
      simp only [Option.map_some]
      by_cases w2 : InWindow x1 x2 m
      · rw [if_pos ((inWindow_iff _ _ _).2 w2), if_pos ⟨w1, w2⟩]
      · rw [if_neg (fun q => w2 ((inWindow_iff _ _ _).1 q)), if_neg (fun q => w2 q.2)]
    · rw [if_neg (fun q => w1 ((inWindow_iff _ _ _).1 q)), if_neg (fun q => w1 q.1), hv]

theorem bump_shape (s : Surf) (hs : GoodSurf s) (t1 t2 x1 x2 : Option ℝ) (b : ℝ) :
    (bumpCells s.times s.mon s.vols t1 t2 x1 x2 b).length = s.times.length ∧ ∀ r ∈ bumpCells s.times s.mon s.vols t1 t2 x1 x2 b, r.length = s.mon.length := by
  have h := hs.rows
  refine ⟨by simp [bumpCells, h], fun r hr => ?_⟩
  unfold bumpCells at hr
  obtain ⟨p, hp, rfl⟩ := List.mem_map.1 hr
  have hc := hs.cols p.2 (List.of_mem_zip hp).2
  split
  · simp [hc]
  · exact hc

theorem bump_good (s : Surf) (hs : GoodSurf s) (t1 t2 x1 x2 : Option ℝ) (b : ℝ) :
    GoodSurf { s with vols := bumpCells s.times s.mon s.vols t1 t2 x1 x2 b } := by
  obtain ⟨h1, h2⟩ := bump_shape s hs t1 t2 x1 x2 b
  exact ⟨hs.times, hs.some, hs.dates, h1, hs.mon, hs.someMon, h2, hs.spot⟩

/-- Two matrices of the same shape with the same cells are the same. -/
theorem cells_ext (n k : Nat) (a b : List (List ℝ)) (ha : a.length = n) (hb : b.length = n) (ha' : ∀ r ∈ a, r.length = k) (hb' : ∀ r ∈ b, r.length = k)
    (h : ∀ i j, i < n → j < k → cell a i j = cell b i j) : a = b := by
  apply List.ext_getElem (by omega)
  intro i h1 h2
  have l1 := ha' _ (List.getElem_mem h1)
  have l2 := hb' _ (List.getElem_mem h2)
  apply List.ext_getElem (by omega)
  intro j h3 h4
  have := h i j (by omega) (by omega)
  unfold cell at this
  rw [List.getElem?_eq_getElem h1, List.getElem?_eq_getElem h2] at this
  simp only [Option.bind_eq_bind, Option.bind_some] at this
  rw [List.getElem?_eq_getElem h3, List.getElem?_eq_getElem h4] at this
  exact Option.some.inj this

theorem good_cell (s : Surf) (hs : GoodSurf s) (i j : Nat) (hi : i < s.times.length) (hj : j < s.mon.length) : ∃ v, cell s.vols i j = some v := by
  have h := hs.rows
  have hc := hs.cols _ (List.getElem_mem (by omega : i < s.vols.length))
  refine ⟨(s.vols[i]'(by omega))[j]'(by omega), ?_⟩
  unfold cell
  rw [List.getElem?_eq_getElem (by omega)]
  simp only [Option.bind_eq_bind, Option.bind_some]
  rw [List.getElem?_eq_getElem]

/-- **C76** (cells). A bump can be made whenever the surface can be built. It adds the amount to the cells whose time and
moneyness are in the window, and leaves every other cell and everything else as it was; the bumped surface is as good as the
first, so C74 describes its volatilities. -/
theorem C76_cells (env : FuturesPricer) (s : Surf) (hs : GoodSurf s) (fs : List ℝ) (hf : Forwards env (builtAt env s) s.dates fs)
    (t1 t2 x1 x2 : Option ℝ) (b : ℝ) :
    ∃ s', Surf.bump env s t1 t2 x1 x2 b = .ok s' ∧ GoodSurf s' ∧ s' = { s with vols := s'.vols, interp := s'.interp } ∧
      Surf.build env s' = .ok s' ∧
      ∀ (i j : Nat) t m v, s.times[i]? = some t → s.mon[j]? = some m → cell s.vols i j = some v →
        cell s'.vols i j = some (open Classical in if InWindow t1 t2 t ∧ InWindow x1 x2 m then v + b else v) := by
  obtain ⟨u, hu, e, -⟩ := C74_value env _ (bump_good s hs t1 t2 x1 x2 b) fs hf
  have hg := bump_good s hs t1 t2 x1 x2 b
  refine ⟨u, hu, ?_, ?_, ?_, ?_⟩
  · rw [e]; exact ⟨hg.1, hg.2, hg.3, hg.4, hg.5, hg.6, hg.7, hg.8⟩
  · rw [e]
  · have : Surf.build env u = Surf.build env { s with vols := bumpCells s.times s.mon s.vols t1 t2 x1 x2 b } := by rw [e]; rfl
    rw [this]
    exact hu
  · intro i j t m v h1 h2 h3
    rw [e]
    exact bump_cell s hs t1 t2 x1 x2 b i j t m v h1 h2 h3

/-- **C76** (undone). Bumping a window by `-b` after `b` is building the surface again. -/
theorem C76_undo (env : FuturesPricer) (s s' : Surf) (hs : GoodSurf s) (t1 t2 x1 x2 : Option ℝ) (b : ℝ)
    (h : Surf.bump env s t1 t2 x1 x2 b = .ok s') : Surf.bump env s' t1 t2 x1 x2 (-b) = Surf.build env s := by
  have hg := bump_good s hs t1 t2 x1 x2 b
  have e : s' = { s with vols := bumpCells s.times s.mon s.vols t1 t2 x1 x2 b, interp := s'.interp } := by
    unfold Surf.bump Surf.build at h
    simp only [bind_ok_iff] at h
    obtain ⟨fs, -, rows, -, bi, -, h⟩ := h
    obtain rfl := Except.ok.inj h
    rfl
  have hv : bumpCells s.times s.mon (bumpCells s.times s.mon s.vols t1 t2 x1 x2 b) t1 t2 x1 x2 (-b) = s.vols := by
    obtain ⟨a1, a2⟩ := bump_shape { s with vols := bumpCells s.times s.mon s.vols t1 t2 x1 x2 b } hg t1 t2 x1 x2 (-b)
    refine cells_ext s.times.length s.mon.length _ _ a1 hs.rows a2 hs.cols fun i j hi hj => ?_
    obtain ⟨v, hv⟩ := good_cell s hs i j hi hj
    have c1 := bump_cell s hs t1 t2 x1 x2 b i j _ _ v (List.getElem?_eq_getElem hi) (List.getElem?_eq_getElem hj) hv
    have c2 := bump_cell _ hg t1 t2 x1 x2 (-b) i j _ _ _ (List.getElem?_eq_getElem hi) (List.getElem?_eq_getElem hj) c1
    rw [hv]
    refine c2.trans ?_
    congr 1
    split
    · ring
    · rfl
  rw [e]
  unfold Surf.bump
  dsimp only
  rw [hv]
  rfl

/-- **C76** (adjoining windows). Bumping the window up to `c` and the window above `c`, in time or in moneyness, is bumping
both at once. -/
theorem C76_adjoining (env : FuturesPricer) (s s' : Surf) (hs : GoodSurf s) (b c : ℝ) (lo hi y1 y2 : Option ℝ)
    (h1 : ∀ a, lo = some a → a ≤ c) (h2 : ∀ a, hi = some a → c ≤ a) :
    (Surf.bump env s lo (some c) y1 y2 b = .ok s' → Surf.bump env s' (some c) hi y1 y2 b = Surf.bump env s lo hi y1 y2 b) ∧
    (Surf.bump env s y1 y2 lo (some c) b = .ok s' → Surf.bump env s' y1 y2 (some c) hi b = Surf.bump env s y1 y2 lo hi b) := by
  have hex : ∀ x, ¬ (InWindow lo (some c) x ∧ InWindow (some c) hi x) := by
    rintro x ⟨a, b⟩
    have := a.2 c rfl
    have := b.1 c rfl
    linarith
  have hun : ∀ x, InWindow lo hi x ↔ InWindow lo (some c) x ∨ InWindow (some c) hi x := by
    intro x
    unfold InWindow
    constructor
    · rintro ⟨a, b⟩
      rcases le_or_gt x (c + 1e-4) with q | q
      · left; exact ⟨a, fun z hz => by cases hz; exact q⟩
      · right; exact ⟨fun z hz => by cases hz; exact q, b⟩
    · rintro (⟨a, b⟩ | ⟨a, b⟩)
      · exact ⟨a, fun z hz => by have := b c rfl; have := h2 z hz; linarith⟩
      · exact ⟨fun z hz => by have := a c rfl; have := h1 z hz; linarith, b⟩
  have key : ∀ (t1 t2 x1 x2 t1' t2' x1' x2' t1'' t2'' x1'' x2'' : Option ℝ),
      (∀ t m, ¬ ((InWindow t1 t2 t ∧ InWindow x1 x2 m) ∧ (InWindow t1' t2' t ∧ InWindow x1' x2' m))) →
      (∀ t m, (InWindow t1'' t2'' t ∧ InWindow x1'' x2'' m) ↔ ((InWindow t1 t2 t ∧ InWindow x1 x2 m) ∨ (InWindow t1' t2' t ∧ InWindow x1' x2' m))) →
      Surf.bump env s t1 t2 x1 x2 b = .ok s' → Surf.bump env s' t1' t2' x1' x2' b = Surf.bump env s t1'' t2'' x1'' x2'' b := by
    intro t1 t2 x1 x2 t1' t2' x1' x2' t1'' t2'' x1'' x2'' d1 d2 h
    have hg := bump_good s hs t1 t2 x1 x2 b
    have e : s' = { s with vols := bumpCells s.times s.mon s.vols t1 t2 x1 x2 b, interp := s'.interp } := by
      unfold Surf.bump Surf.build at h
      simp only [bind_ok_iff] at h
      obtain ⟨fs, -, rows, -, bi, -, h⟩ := h
      obtain rfl := Except.ok.inj h
      rfl
    have hv : bumpCells s.times s.mon (bumpCells s.times s.mon s.vols t1 t2 x1 x2 b) t1' t2' x1' x2' b = bumpCells s.times s.mon s.vols t1'' t2'' x1'' x2'' b := by
      obtain ⟨a1, a2⟩ := bump_shape { s with vols := bumpCells s.times s.mon s.vols t1 t2 x1 x2 b } hg t1' t2' x1' x2' b
      obtain ⟨b1, b2⟩ := bump_shape s hs t1'' t2'' x1'' x2'' b
      refine cells_ext s.times.length s.mon.length _ _ a1 b1 a2 b2 fun i j hi hj => ?_
      obtain ⟨v, hv⟩ := good_cell s hs i j hi hj
      have c1 := bump_cell s hs t1 t2 x1 x2 b i j _ _ v (List.getElem?_eq_getElem hi) (List.getElem?_eq_getElem hj) hv
      have c2 := bump_cell _ hg t1' t2' x1' x2' b i j _ _ _ (List.getElem?_eq_getElem hi) (List.getElem?_eq_getElem hj) c1
      have c3 := bump_cell s hs t1'' t2'' x1'' x2'' b i j _ _ v (List.getElem?_eq_getElem hi) (List.getElem?_eq_getElem hj) hv
      refine c2.trans (Eq.trans ?_ c3.symm)
      congr 1
      have k1 := d1 s.times[i] s.mon[j]
      have k2 := d2 s.times[i] s.mon[j]
      by_cases q1 : InWindow t1 t2 s.times[i] ∧ InWindow x1 x2 s.mon[j]
      · have q2 : ¬ (InWindow t1' t2' s.times[i] ∧ InWindow x1' x2' s.mon[j]) := fun q => k1 ⟨q1, q⟩
        rw [if_neg q2, if_pos q1, if_pos (k2.2 (Or.inl q1))]
      · rw [if_neg q1]
        by_cases q2 : InWindow t1' t2' s.times[i] ∧ InWindow x1' x2' s.mon[j]
        · rw [if_pos q2, if_pos (k2.2 (Or.inr q2))]
        · rw [if_neg q2, if_neg (fun q => (k2.1 q).elim q1 q2)]
    rw [e]
    unfold Surf.bump
    dsimp only
    rw [hv]
    rfl
  constructor
  · refine key _ _ _ _ _ _ _ _ _ _ _ _ (fun t m q => hex t ⟨q.1.1, q.2.1⟩) fun t m => ?_
    rw [hun t]; tauto
  · refine key _ _ _ _ _ _ _ _ _ _ _ _ (fun t m q => hex m ⟨q.1.2, q.2.2⟩) fun t m => ?_
    rw [hun m]; tauto

/-- **C76** (parallel). Without limits every volatility, at every time and moneyness, rises by the amount. -/
theorem C76_parallel (env : FuturesPricer) (s s0 s' : Surf) (hs : GoodSurf s) (fs : List ℝ) (hf : Forwards env (builtAt env s) s.dates fs) (b : ℝ)
    (h0 : Surf.build env s = .ok s0) (h : Surf.bump env s none none none none b = .ok s') (t x y : ℝ) :
    Vol.value (.surface s0) t x = .ok y → Vol.value (.surface s') t x = .ok (y + b) := by
  intro hy
  obtain ⟨u0, e0, -, v0⟩ := C74_value env s hs fs hf
  obtain ⟨u, e, -, v⟩ := C74_value env _ (bump_good s hs none none none none b) fs hf
  rw [h0] at e0
  unfold Surf.bump at h
  rw [h] at e
  obtain rfl := Except.ok.inj e0
  obtain rfl := Except.ok.inj e
  refine ((v t x).2 _).2 ?_
  have hsh := surfaceAt_shift _ _ _ b t x y (((v0 t x).2 y).1 hy)
  have hv : bumpCells s.times s.mon s.vols none none none none b = s.vols.map fun r => r.map (· + b) := by
    obtain ⟨b1, b2⟩ := bump_shape s hs none none none none b
    refine cells_ext s.times.length s.mon.length _ _ b1 (by rw [List.length_map, hs.rows]) b2 (fun r hr => ?_) fun i j hi hj => ?_
    · obtain ⟨r', hr', rfl⟩ := List.mem_map.1 hr
      rw [List.length_map, hs.cols r' hr']
    · obtain ⟨w, hw⟩ := good_cell s hs i j hi hj
      have c := bump_cell s hs none none none none b i j _ _ w (List.getElem?_eq_getElem hi) (List.getElem?_eq_getElem hj) hw
      rw [c, if_pos ⟨⟨by simp, by simp⟩, ⟨by simp, by simp⟩⟩]
      unfold cell at hw ⊢
      rw [List.getElem?_map]
      cases hr : s.vols[i]? with
      | none => rw [hr] at hw; cases hw
      | some r =>
        rw [hr] at hw
        have hw' : r[j]? = some w := hw
        simp [hw']
  dsimp only
  rw [hv]
  exact hsh

/-- A constant volatility ignores the window: bumping `n` adjoining windows one after the other raises it by `n` times the
amount. -/
theorem fault_constant_window (env : FuturesPricer) (v b : ℝ) (t1 t2 x1 x2 : Option ℝ) :
    Vol.bump env (.const v) t1 t2 x1 x2 b = .ok (.const (v + b)) ∧
    ∀ ws : List (Option ℝ × Option ℝ), ws.foldl (fun r w => r >>= fun u => Vol.bump env u w.1 w.2 none none b) (.ok (.const v)) =
      .ok (.const (v + ws.length * b)) := by
  refine ⟨rfl, fun ws => ?_⟩
  induction ws generalizing v with
  | nil => simp
  | cons w ws ih =>
    rw [List.foldl_cons]
    have : ((Except.ok (.const v) : Res Vol) >>= fun u => Vol.bump env u w.1 w.2 none none b) = .ok (.const (v + b)) := rfl
    rw [this, ih]
    congr 2
    rw [List.length_cons]
    push_cast
    ring

/-! ### C77: where surfaces come from -/

theorem datesSorted_iff (ds : List DT) : datesSorted ds = true ↔ ds.Pairwise (fun a b => a.instant ≤ b.instant) := by
  induction ds with
  | nil => simp [datesSorted]
  | cons a r ih =>
    cases r with
    | nil => simp [datesSorted]
    | cons b r =>
      unfold datesSorted
      rw [List.pairwise_cons]
      constructor
      · intro h
        split at h
        · cases h
        · rename_i hab
          have hp := ih.1 h
          refine ⟨fun c hc => ?_, hp⟩
          rcases List.mem_cons.1 hc with rfl | hc
          · omega
          · have := (List.pairwise_cons.1 hp).1 c hc
            omega
      · rintro ⟨h1, h2⟩
        have := h1 b (List.mem_cons_self ..)
        rw [if_neg (by omega)]
        exact ih.2 h2

theorem timesSorted_iff (ts : List ℝ) : timesSorted ts = true ↔ ts.Pairwise (· ≤ ·) := by
  induction ts with
  | nil => simp [timesSorted]
  | cons a r ih =>
    cases r with
    | nil => simp [timesSorted]
    | cons b r =>
      unfold timesSorted
      rw [List.pairwise_cons]
      constructor
      · intro h
        split at h
        · rename_i hab
          have hp := ih.1 h
          refine ⟨fun c hc => ?_, hp⟩
          rcases List.mem_cons.1 hc with rfl | hc
          · exact hab
          · exact hab.trans ((List.pairwise_cons.1 hp).1 c hc)
        · cases h
      · rintro ⟨h1, h2⟩
        rw [if_pos (h1 b (List.mem_cons_self ..))]
        exact ih.2 h2

/-- Specification: quotes a surface can be made of: dates in order from today on, with increasing times and forwards; at
least two dates and two increasing strikes; a rectangular matrix; a positive spot price. -/
structure GoodQuotes (env : FuturesPricer) (q : SurfaceQuotes) (spot : ℝ) : Prop where
  quoted : q.spot = some spot
  pos : 0 < spot
  dates : q.dates.Pairwise (fun a b => a.instant ≤ b.instant)
  future : ∀ d ∈ q.dates, env.eval.instant ≤ d.instant
  times : (q.dates.map (timeFrom env.eval)).Pairwise (· < ·)
  two : 2 ≤ q.dates.length
  strikes : q.strikes.Pairwise (· < ·)
  twoStrikes : 2 ≤ q.strikes.length
  rows : q.value.length = q.dates.length
  cols : q.cols = q.strikes.length
  rect : ∀ r ∈ q.value, r.length = q.strikes.length
  fwd : ∀ d ∈ q.dates, ∃ f, FuturesPricer.forward { env with spot := spot } d = .ok f

theorem mapRes_total {α β : Type} (f : α → Res β) (l : List α) (h : ∀ x ∈ l, ∃ y, f x = .ok y) : ∃ r, mapRes f l = .ok r := by
  induction l with
  | nil => exact ⟨[], rfl⟩
  | cons a l ih =>
    obtain ⟨y, hy⟩ := h a (List.mem_cons_self ..)
    obtain ⟨r, hr⟩ := ih fun x hx => h x (List.mem_cons_of_mem _ hx)
    exact ⟨y :: r, by unfold mapRes; rw [hy, hr]; rfl⟩

theorem rect_surface (times xs : List ℝ) (vals : List (List ℝ)) (ht : times.Pairwise (· < ·)) (hx : xs.Pairwise (· < ·)) (h2 : 2 ≤ times.length)
    (h2' : 2 ≤ xs.length) (hr : vals.length = times.length) (hc : ∀ r ∈ vals, r.length = xs.length) :
    ∃ f, Bilin.ofRect times xs vals xs.length true .flat true .flat = .ok f ∧
      ∀ t x, ∃ y, f.interp t x = .ok y ∧ SurfaceAt times (vals.map fun _ => xs) vals t x y := by
  have hxd : xs ≠ [] := by rintro rfl; simp at h2'
  have htd : times ≠ [] := by rintro rfl; simp at h2
  obtain ⟨rows, h1, h2r, h3⟩ := mkRows_spec xs .flat true hx hxd vals hc
  have hb := bilin_new (allow := true) (extra := .flat) ht htd (show times.length = rows.length by omega)
  refine ⟨{ dom := times, rows := rows, allow := true, extra := .flat }, ?_, fun t x => ?_⟩
  · unfold Bilin.ofRect
    rw [if_neg (by omega), if_neg (by omega), if_neg (by simp), h1]
    rfl
  · obtain ⟨y, hy⟩ := surfaceAt_exists times (vals.map fun _ => xs) vals ht htd (by simp [hr]) hr (fun i ax row e1 e2 => by
      rw [List.getElem?_map] at e1
      obtain ⟨r, -, rfl⟩ := Option.map_eq_some_iff.1 e1
      exact ⟨hx, hxd, (hc _ (List.mem_of_getElem? e2)).symm⟩) t x
    refine ⟨y, ?_, hy⟩
    obtain ⟨ys, l, hys, hp⟩ := hy
    refine bilin_polyline times rows _ hb ht (by omega) htd x ys l (fun i v hv => ?_) t y hp
    obtain ⟨hi, -⟩ := List.getElem?_eq_some_iff.1 hv
    obtain ⟨f, f1, f2⟩ := h3 i (by omega)
    have e2 : vals[i]? = some vals[i] := List.getElem?_eq_getElem (by omega)
    exact ⟨f, f1, lin_of_polyline _ _ _ f2 hx (hc _ (List.getElem_mem _)).symm _ _ (hys i xs _ v (by rw [List.getElem?_map, e2]; rfl) e2 hv)⟩

/-- **C77** (quotes). From good quotes, and tenors that lead to dates in order, a surface is made on the grid of the tenors'
dates and the given moneyness, at the spot price of the quotes; its cell for a date and a moneyness is what the quotes say
there: linear in moneyness (strike over spot) and then in time, flat outside. -/
theorem C77_market (md : Mode) (env : FuturesPricer) (toStrike : Bool) (q : SurfaceQuotes) (spot : ℝ) (hq : GoodQuotes env q spot)
    (tenors : List (List Char)) (mon : List ℝ) (ds : List DT) (hds : mapRes (addPeriod md env.eval) tenors = .ok ds)
    (h1 : ds.Pairwise (fun a b => a.instant ≤ b.instant)) (h2 : (ds.map (timeFrom env.eval)).Pairwise (· ≤ ·)) :
    ∃ s, Surf.ofMarket md env toStrike q tenors mon = .ok s ∧ s.dates = ds ∧ s.times = ds.map (timeFrom env.eval) ∧ s.mon = mon ∧ s.spot = spot ∧
      s.toStrike = toStrike ∧ s.vols.length = ds.length ∧ (∀ r ∈ s.vols, r.length = mon.length) ∧
      ∀ (i j : Nat) d m v, ds[i]? = some d → mon[j]? = some m → cell s.vols i j = some v →
        SurfaceAt (q.dates.map (timeFrom env.eval)) (q.value.map fun _ => q.strikes.map (· / spot)) q.value (timeFrom env.eval d) m v := by
  have hxs : mapRes (fun k => divK k spot) q.strikes = .ok (q.strikes.map (· / spot)) := by
    rw [mapRes_iff]
    refine ⟨by simp, fun i x y hx hy => ?_⟩
    rw [List.getElem?_map, hx] at hy
    cases hy
    exact if_neg hq.pos.ne'
  have hsx : (q.strikes.map (· / spot)).Pairwise (· < ·) := by
    rw [List.pairwise_map]
    exact hq.strikes.imp fun {a b} hab => div_lt_div_of_pos_right hab hq.pos
  obtain ⟨gs, hgs⟩ := mapRes_total (Surf.forward env spot) q.dates hq.fwd
  have t2 := hq.two
  have t3 := hq.twoStrikes
  have t4 := hq.rows
  obtain ⟨f, hf, hfv⟩ := rect_surface (q.dates.map (timeFrom env.eval)) (q.strikes.map (· / spot)) q.value hq.times hsx (by simpa using t2) (by simpa using t3)
    (by simpa using t4) (by simpa using hq.rect)
  have hvr : ∀ t ∈ ds.map (timeFrom env.eval), ∃ r, mapRes (fun x => f.interp t x) mon = .ok r := fun t _ =>
    mapRes_total _ _ fun x _ => by obtain ⟨y, hy, -⟩ := hfv t x; exact ⟨y, hy⟩
  obtain ⟨vols, hvols⟩ := mapRes_total (fun t => mapRes (fun x => f.interp t x) mon) (ds.map (timeFrom env.eval)) hvr
  obtain ⟨l, hcell⟩ := (mapRes_iff _ _ _).1 hvols
  rw [List.length_map] at l
  refine ⟨{ vols := vols, dates := ds, times := ds.map (timeFrom env.eval), mon := mon, spot := spot, toStrike := toStrike, interp := noSurface },
    ?_, rfl, rfl, rfl, rfl, rfl, l, ?_, ?_⟩
  · unfold Surf.ofMarket
    rw [if_neg (by rw [(datesSorted_iff _).2 hq.dates]; simp), if_neg ?_, hq.quoted]
    · simp only [hgs, hxs, Res.bind_ok]
      have hcols : q.cols = (q.strikes.map (· / spot)).length := by rw [List.length_map, hq.cols]
      rw [hcols, hf]
      simp only [Res.bind_ok, hds]
      rw [if_neg (by rw [(datesSorted_iff _).2 h1]; simp), if_neg (by rw [(timesSorted_iff _).2 h2]; simp), hvols]
      rfl
    · intro h
      obtain ⟨d, hd, hlt⟩ := List.any_eq_true.1 h
      have := hq.future d hd
      simp only [decide_eq_true_eq] at hlt
      omega
  · intro r hr
    obtain ⟨i, hi, rfl⟩ := List.mem_iff_getElem.1 hr
    simp only at hi
    have := hcell i ((ds.map (timeFrom env.eval))[i]'(by simp; omega)) vols[i] (List.getElem?_eq_getElem (by simp; omega)) (List.getElem?_eq_getElem hi)
    exact ((mapRes_iff _ _ _).1 this).1
  · intro i j d m v hd hm hv
    unfold cell at hv
    simp only at hv
    cases hr : vols[i]? with
    | none => rw [hr] at hv; cases hv
    | some r =>
      rw [hr] at hv
      have hv' : r[j]? = some v := hv
      have e := hcell i (timeFrom env.eval d) r (by rw [List.getElem?_map, hd]; rfl) hr
      have e2 := ((mapRes_iff _ _ _).1 e).2 j m v hm hv'
      obtain ⟨y, hy, hys⟩ := hfv (timeFrom env.eval d) m
      rw [e2] at hy
      obtain rfl := Except.ok.inj hy
      exact hys

/-- **C77** (refused). Quotes out of order, quotes for a day that is over, and quotes without a spot price are refused; so
are tenors that lead to dates out of order. -/
theorem C77_refused (md : Mode) (env : FuturesPricer) (toStrike : Bool) (q : SurfaceQuotes) (tenors : List (List Char)) (mon : List ℝ) :
    (¬ q.dates.Pairwise (fun a b => a.instant ≤ b.instant) → Surf.ofMarket md env toStrike q tenors mon = .error .err) ∧
    ((∃ d ∈ q.dates, d.instant < env.eval.instant) → Surf.ofMarket md env toStrike q tenors mon = .error .err) ∧
    (q.spot = none → Surf.ofMarket md env toStrike q tenors mon = .error .err) ∧
    (∀ ds, mapRes (addPeriod md env.eval) tenors = .ok ds → ¬ ds.Pairwise (fun a b => a.instant ≤ b.instant) →
      ∀ s, Surf.ofMarket md env toStrike q tenors mon ≠ .ok s) := by
  have h1 : ¬ q.dates.Pairwise (fun a b => a.instant ≤ b.instant) → Surf.ofMarket md env toStrike q tenors mon = .error .err := by
    intro h
    unfold Surf.ofMarket
    rw [if_pos (Bool.eq_false_iff.2 fun e => h ((datesSorted_iff _).1 e))]
  have h2 : (∃ d ∈ q.dates, d.instant < env.eval.instant) → Surf.ofMarket md env toStrike q tenors mon = .error .err := by
    rintro ⟨d, hd, hlt⟩
    unfold Surf.ofMarket
    split
    · rfl
    · rw [if_pos (List.any_eq_true.2 ⟨d, hd, by simpa using hlt⟩)]
  refine ⟨h1, h2, ?_, ?_⟩
  · intro h
    unfold Surf.ofMarket
    split
    · rfl
    · split
      · rfl
      · rw [h]
  · intro ds hds hn s hs
    unfold Surf.ofMarket at hs
    split at hs
    · cases hs
    · split at hs
      · cases hs
      · cases hsp : q.spot with
        | none => rw [hsp] at hs; cases hs
        | some spot =>
          rw [hsp] at hs
          simp only [bind_ok_iff] at hs
          obtain ⟨_, -, _, -, _, -, ds', hds', hs⟩ := hs
          rw [hds] at hds'
          obtain rfl := Except.ok.inj hds'
          rw [if_pos (Bool.eq_false_iff.2 fun e => hn ((datesSorted_iff _).1 e))] at hs
          cases hs

/-- **C77** (same grid). On the dates and strikes it was quoted at, a market surface has the quoted volatilities. -/
theorem C77_same_grid (env : FuturesPricer) (q : SurfaceQuotes) (spot : ℝ) (hq : GoodQuotes env q spot) (i j : Nat) (d : DT) (k v w : ℝ)
    (h1 : q.dates[i]? = some d) (h2 : q.strikes[j]? = some k) (h3 : cell q.value i j = some v)
    (h : SurfaceAt (q.dates.map (timeFrom env.eval)) (q.value.map fun _ => q.strikes.map (· / spot)) q.value (timeFrom env.eval d) (k / spot) w) : w = v := by
  have hsx : (q.strikes.map (· / spot)).Pairwise (· < ·) := by
    rw [List.pairwise_map]
    exact hq.strikes.imp fun {a b} hab => div_lt_div_of_pos_right hab hq.pos
  have t2 := hq.two
  have t3 := hq.twoStrikes
  have t4 := hq.rows
  have hne : q.dates.map (timeFrom env.eval) ≠ [] := by intro e; rw [List.map_eq_nil_iff] at e; rw [e] at t2; simp at t2
  have hr : ∀ (i : Nat) (ax row : List ℝ), (q.value.map fun _ => q.strikes.map (· / spot))[i]? = some ax → q.value[i]? = some row →
      ax.Pairwise (· < ·) ∧ ax ≠ [] ∧ ax.length = row.length := by
    intro i ax row e1 e2
    rw [List.getElem?_map] at e1
    obtain ⟨r, -, rfl⟩ := Option.map_eq_some_iff.1 e1
    refine ⟨hsx, ?_, by rw [List.length_map, hq.rect _ (List.mem_of_getElem? e2)]⟩
    intro e
    rw [List.map_eq_nil_iff] at e
    rw [e] at t3
    simp at t3
  unfold cell at h3
  cases hv : q.value[i]? with
  | none => rw [hv] at h3; cases h3
  | some row =>
    rw [hv] at h3
    have h3' : row[j]? = some v := h3
    refine surfaceAt_unique _ _ _ hq.times hne (by simp [t4]) (by simpa using t4) hr _ _ _ _ h ?_
    exact surfaceAt_grid _ _ _ hq.times hne (by simp [t4]) (by simpa using t4) hr i j _ _ v _ row (by rw [List.getElem?_map, h1]; rfl)
      (by rw [List.getElem?_map, hv]; rfl) hv (by rw [List.getElem?_map, h2]; rfl) h3'

/-- **C77** (constant). A surface made of one volatility has that volatility everywhere once it is built. -/
theorem C77_constant (md : Mode) (env : FuturesPricer) (toStrike : Bool) (vol : ℝ) (tenors : List (List Char)) (mon : List ℝ) (s s' : Surf)
    (h : Surf.ofConstant md env toStrike vol tenors mon = .ok s) (hm : mon.Pairwise (· < ·)) (hm0 : mon ≠ []) (ht0 : tenors ≠ [])
    (ht : s.times.Pairwise (· < ·)) (hsp : 0 < env.spot) (fs : List ℝ) (hf : Forwards env env.spot s.dates fs)
    (hb : Surf.build env s = .ok s') (t x : ℝ) : Vol.value (.surface s') t x = .ok vol := by
  unfold Surf.ofConstant at h
  obtain ⟨ds, hds, h⟩ := (bind_ok_iff _ _ _).1 h
  obtain rfl := Except.ok.inj h
  have hl := ((mapRes_iff _ _ _).1 hds).1
  have hne : ds ≠ [] := by rintro rfl; exact ht0 (List.length_eq_zero_iff.1 hl.symm)
  have hg : GoodSurf { vols := ds.map fun _ => mon.map fun _ => vol, dates := ds, times := ds.map (timeFrom env.eval), mon := mon, spot := env.spot, toStrike := toStrike, interp := noSurface } :=
    ⟨ht, by simpa using hne, by simp, by simp, hm, hm0, by intro r hr; obtain ⟨d, -, rfl⟩ := List.mem_map.1 hr; simp, hsp⟩
  have hba : builtAt env { vols := ds.map fun _ => mon.map fun _ => vol, dates := ds, times := ds.map (timeFrom env.eval), mon := mon, spot := env.spot, toStrike := toStrike, interp := noSurface } = env.spot := by
    unfold builtAt; split <;> rfl
  rw [← hba] at hf
  obtain ⟨u, hu, -, hv⟩ := C74_value env _ hg fs hf
  rw [hb] at hu
  obtain rfl := Except.ok.inj hu
  obtain ⟨y, hy⟩ := (hv t x).1
  have := C74_bounds env _ _ hg fs hf hb vol vol t x y (by
    intro r hr v hv
    obtain ⟨d, -, rfl⟩ := List.mem_map.1 hr
    obtain ⟨m, -, rfl⟩ := List.mem_map.1 hv
    exact ⟨le_refl _, le_refl _⟩) hy
  rw [hy, le_antisymm this.2 this.1]

/-! ### A concrete surface -/

theorem mapRes_map {α β : Type} (f : α → Res β) (g : α → β) (l : List α) (h : ∀ x ∈ l, f x = .ok (g x)) : mapRes f l = .ok (l.map g) := by
  induction l with
  | nil => rfl
  | cons a l ih =>
    unfold mapRes
    rw [h a (List.mem_cons_self ..), ih fun x hx => h x (List.mem_cons_of_mem _ hx)]
    rfl

/-- Quotes for 2022 and 2023 at the strikes 90 and 110 of a share of 100, on a flat 3 % curve: they are good quotes, a surface
on the tenors 6M, 1Y, 2Y and the moneyness 0.9, 1, 1.1 is made of them, it is good, its dates have positive forwards, and
it has the quoted 30 % at 110 in a year. -/
theorem surface_witness : ∃ c, Curve.new .checked (day0 2021 1 1) [1] [0.03] = .ok c ∧
    ∃ q : SurfaceQuotes, ∃ s s' : Surf, ∃ fs,
      GoodQuotes { eval := day0 2021 1 1, spot := 100, dividend := none, coll := c, borrow := c } q 100 ∧
      Surf.ofMarket .checked { eval := day0 2021 1 1, spot := 100, dividend := none, coll := c, borrow := c } true q
        [['6', 'M'], ['1', 'Y'], ['2', 'Y']] [0.9, 1, 1.1] = .ok s ∧ GoodSurf s ∧
      Forwards { eval := day0 2021 1 1, spot := 100, dividend := none, coll := c, borrow := c }
        (builtAt { eval := day0 2021 1 1, spot := 100, dividend := none, coll := c, borrow := c } s) s.dates fs ∧
      Surf.build { eval := day0 2021 1 1, spot := 100, dividend := none, coll := c, borrow := c } s = .ok s' ∧
      Vol.value (.surface s') 1 1.1 = .ok 0.3 := by
  obtain ⟨c, e, ok, -, hdf⟩ := sample_curve 0.03
  refine ⟨c, e, { spot := some 100, value := [[0.2, 0.3], [0.25, 0.35]], cols := 2, dates := [day0 2022 1 1, day0 2023 1 1], strikes := [90, 110] }, ?_⟩
  have hfwd : ∀ d, (0 : ℚ) ≤ timeDifference (day0 2021 1 1) d → timeDifference (day0 2021 1 1) d < 99 →
      FuturesPricer.forward { eval := day0 2021 1 1, spot := 100, dividend := none, coll := c, borrow := c } d = .ok 100 := by
    intro d h1 h2
    obtain ⟨y, hy, hpos⟩ := hdf ((timeDifference (day0 2021 1 1) d : ℚ) : ℝ) (by exact_mod_cast h1) (by exact_mod_cast h2)
    have hat : Live.df { curve := c, eval := day0 2021 1 1 } d = .ok y := ((C57_at_date c ok _ _).1).trans hy
    exact (C68_forward _ _ _).2 ⟨y, y, 1, hat, hat, rfl, hpos.ne', by ring⟩
  have t1 : timeFrom (day0 2021 1 1) (day0 2021 7 1) = 181 / 365 := by
    have : timeDifference (day0 2021 1 1) (day0 2021 7 1) = 181 / 365 := by decide +kernel
    unfold timeFrom; rw [this]; norm_num
  have t2 : timeFrom (day0 2021 1 1) (day0 2022 1 1) = 1 := by
    have : timeDifference (day0 2021 1 1) (day0 2022 1 1) = 1 := by decide +kernel
    unfold timeFrom; rw [this]; norm_num
  have t3 : timeFrom (day0 2021 1 1) (day0 2023 1 1) = 2 := by
    have : timeDifference (day0 2021 1 1) (day0 2023 1 1) = 2 := by decide +kernel
    unfold timeFrom; rw [this]; norm_num
  have i1 : (day0 2021 1 1).instant ≤ (day0 2021 7 1).instant := by decide +kernel
  have i2 : (day0 2021 7 1).instant ≤ (day0 2022 1 1).instant := by decide +kernel
  have i3 : (day0 2022 1 1).instant ≤ (day0 2023 1 1).instant := by decide +kernel
  have f1 := hfwd (day0 2021 7 1) (by decide +kernel) (by decide +kernel)
  have f2 := hfwd (day0 2022 1 1) (by decide +kernel) (by decide +kernel)
  have f3 := hfwd (day0 2023 1 1) (by decide +kernel) (by decide +kernel)
  have hq : GoodQuotes { eval := day0 2021 1 1, spot := 100, dividend := none, coll := c, borrow := c }
      { spot := some 100, value := [[0.2, 0.3], [0.25, 0.35]], cols := 2, dates := [day0 2022 1 1, day0 2023 1 1], strikes := [90, 110] } 100 := by
    refine ⟨rfl, by norm_num, by simp [i3], by simp; omega, by simp [t2, t3], by simp, by norm_num, by simp, by simp, rfl, by simp, ?_⟩
    intro d hd
    simp only [List.mem_cons, List.not_mem_nil, or_false] at hd
    rcases hd with rfl | rfl
    · exact ⟨_, f2⟩
    · exact ⟨_, f3⟩
  have hds : mapRes (addPeriod .checked (day0 2021 1 1)) [['6', 'M'], ['1', 'Y'], ['2', 'Y']] = .ok [day0 2021 7 1, day0 2022 1 1, day0 2023 1 1] := by
    decide +kernel
  obtain ⟨s, hs, d1, d2, d3, d4, d5, d6, d7, d8⟩ := C77_market .checked { eval := day0 2021 1 1, spot := 100, dividend := none, coll := c, borrow := c } true _ 100 hq
    [['6', 'M'], ['1', 'Y'], ['2', 'Y']] [0.9, 1, 1.1] _ hds (by simp; omega) (by simp [t1, t2, t3]; norm_num)
  have hg : GoodSurf s := by
    refine ⟨?_, ?_, ?_, ?_, ?_, ?_, ?_, ?_⟩
    · rw [d2]; simp [t1, t2, t3]; norm_num
    · rw [d2]; simp
    · rw [d1, d2]; simp
    · rw [d6, d2]; simp
    · rw [d3]; norm_num
    · rw [d3]; simp
    · rw [d3]; exact d7
    · rw [d4]; norm_num
  have hf : Forwards { eval := day0 2021 1 1, spot := 100, dividend := none, coll := c, borrow := c }
        (builtAt { eval := day0 2021 1 1, spot := 100, dividend := none, coll := c, borrow := c } s) s.dates [100, 100, 100] := by
    have : builtAt { eval := day0 2021 1 1, spot := 100, dividend := none, coll := c, borrow := c } s = 100 := by unfold builtAt; rw [d4]; simp
    rw [this, d1]
    unfold Forwards
    refine .cons ⟨f1, by norm_num⟩ (.cons ⟨f2, by norm_num⟩ (.cons ⟨f3, by norm_num⟩ .nil))
  obtain ⟨s', hs', -, -⟩ := C74_value _ s hg _ hf
  refine ⟨s, s', _, hq, hs, hg, hf, hs', ?_⟩
  obtain ⟨v, hv⟩ := good_cell s hg 1 2 (by rw [d2]; simp) (by rw [d3]; simp)
  have hv2 := d8 1 2 (day0 2022 1 1) 1.1 v rfl rfl hv
  have hv3 : v = 0.3 := by
    refine C77_same_grid _ _ 100 hq 0 1 (day0 2022 1 1) 110 0.3 v rfl rfl rfl ?_
    have : (110 : ℝ) / 100 = 1.1 := by norm_num
    rw [this]
    exact hv2
  unfold cell at hv
  cases hr : s.vols[1]? with
  | none => rw [hr] at hv; cases hv
  | some row =>
    rw [hr] at hv
    have hv' : row[2]? = some v := hv
    have := C74_grid _ s s' hg _ hf hs' 1 2 1 100 1.1 v row (by rw [d2]; simp [t2]) rfl (by rw [d3]; rfl) hr hv'
    rw [d4, hv3] at this
    have e : (1.1 : ℝ) * 100 / 100 = 1.1 := by norm_num
    rw [e] at this
    exact this

end Verif.Props

import Verif.Props.FloatInterp
import Verif.Float.Curve
/-!
# Linear extrapolation and vectorised interpolation in single precision (C143)
-/
set_option autoImplicit false
namespace Verif.Props
open Verif Verif.Float Verif.QL

/-! ## Sorted lists of queries -/

theorem bracket_agree {v : List Fl} {vs : List ℚ} (h : Values v vs) {x : Fl} {q : ℚ} (hx : f32.Finite x q) (last n : Nat) :
    ∀ j, last - j ≤ n → bracketLoop v x last j = bracketLoop vs q last j := by
  induction n with
  | zero =>
    intro j hj
    rw [bracketLoop.eq_def, bracketLoop.eq_def vs, if_neg (by omega), if_neg (by omega)]
  | succ n ih =>
    intro j hj
    rw [bracketLoop.eq_def, bracketLoop.eq_def vs]
    by_cases hlt : j < last
    · rw [if_pos hlt, if_pos hlt]
      rcases h.at j with ⟨e1, e2⟩ | ⟨a, b, e1, e2, hab⟩
      · rw [e1, e2]; rfl
      rw [e1, e2]
      simp only [Res.bind_ok, ge_iff_le, fl_le hab hx]
      rw [ih (j + 1) (by omega)]
      rcases h.at (j + 1) with ⟨e3, e4⟩ | ⟨c, d, e3, e4, hcd⟩
      · rw [e3, e4]; rfl
      · rw [e3, e4]
        simp only [Res.bind_ok, fl_lt hx hcd]
    · rw [if_neg hlt, if_neg hlt]

theorem vecLoop_agree {v : List Fl} {vs : List ℚ} (h : Values v vs) (first last : Nat) {xs : List Fl} {qs : List ℚ} (hx : Values xs qs) :
    ∀ j, vecLoop v first last j xs = vecLoop vs first last j qs := by
  induction hx with
  | nil => intro j; rfl
  | cons h1 h2 ih =>
    intro j
    unfold vecLoop
    rcases h.at first with ⟨e1, e2⟩ | ⟨a, b, e1, e2, hab⟩
    · rw [e1, e2]; rfl
    rw [e1, e2]
    simp only [Res.bind_ok, fl_lt h1 hab, ih]
    rcases h.at last with ⟨e3, e4⟩ | ⟨c, d, e3, e4, hcd⟩
    · rw [e3, e4]; rfl
    rw [e3, e4]
    simp only [Res.bind_ok, ge_iff_le, fl_le hcd h1]
    rw [bracket_agree h h1 last _ j (le_refl _)]

theorem searchEach_agree {v : List Fl} {vs : List ℚ} (h : Values v vs) {xs : List Fl} {qs : List ℚ} (hx : Values xs qs) :
    searchEach v xs = searchEach vs qs := by
  induction hx with
  | nil => rfl
  | cons h1 h2 ih =>
    unfold searchEach
    rw [search_agree h h1, ih]

theorem searchVec_agree {v : List Fl} {vs : List ℚ} (h : Values v vs) {xs : List Fl} {qs : List ℚ} (hx : Values xs qs) :
    searchVec v xs = searchVec vs qs := by
  unfold searchVec
  rw [hx.length, searchEach_agree h hx]
  by_cases hl : qs.length ≤ 2
  · rw [if_pos hl, if_pos hl]
  rw [if_neg hl, if_neg hl]
  rcases hx.at 0 with ⟨e1, e2⟩ | ⟨a, b, e1, e2, hab⟩
  · rw [e1, e2]; rfl
  rcases hx.at (qs.length - 1) with ⟨e3, e4⟩ | ⟨c, d, e3, e4, hcd⟩
  · rw [e1, e2, e3, e4]; simp only [Res.bind_ok]; rw [search_agree h hab]; rfl
  rw [e1, e2, e3, e4]
  simp only [Res.bind_ok, search_agree h hab, search_agree h hcd, vecLoop_agree h _ _ hx]

theorem vecAtF_eq (f : Lin Fl) (x : Fl) (i : Nat) (hs : searchIndex f.dom x = .ok i) : linVecAtF f x i = linInterpF f x := by
  unfold linVecAtF linInterpF
  rw [hs]
  rfl

theorem linVecLoopF_eq (f : Lin Fl) (xs : List Fl) (is : List Nat) (h : searchEach f.dom xs = .ok is) :
    linVecLoopF f xs is = xs.mapM (linInterpF f) := by
  induction xs generalizing is with
  | nil => rfl
  | cons x xs ih =>
    unfold searchEach at h
    cases hi : searchIndex f.dom x with
    | error e => rw [hi] at h; simp at h
    | ok i =>
      cases his : searchEach f.dom xs with
      | error e => rw [hi, his] at h; simp at h
      | ok is' =>
        rw [hi, his] at h
        simp only [Res.bind_ok] at h
        cases h
        rw [List.mapM_cons]
        unfold linVecLoopF
        rw [vecAtF_eq f x i hi, ih is' his]
        rfl

/-- **C143** (vectorised). For queries in ascending order the vectorised interpolation returns, to the last bit, what the pointwise one
returns for each of them, and fails with the first that fails. -/
theorem C143_vectorised {dom val : List Fl} {ds vs : List ℚ} {B : ℚ} (hd : Values dom ds) (hv : Values val vs) (h : PlainKnots ds vs B)
    (extra : Extra) (allow : Bool) (f : Lin Fl) (hf : linNewF dom val extra allow = .ok f)
    {xs : List Fl} {qs : List ℚ} (hx : Values xs qs) (hq : qs.Pairwise (· ≤ ·)) : linVecF f xs = xs.mapM (linInterpF f) := by
  rw [newF_ok hd hv h] at hf
  obtain rfl := Except.ok.inj hf
  have e : searchVec dom xs = searchEach dom xs := by
    rw [searchVec_agree hd hx, searchEach_agree hd hx, C37_vectorised ds h.sorted qs hq]
  unfold linVecF
  dsimp only
  rw [e]
  obtain ⟨is, his⟩ : ∃ is, searchEach dom xs = .ok is := by
    clear hq e
    induction hx with
    | nil => exact ⟨[], rfl⟩
    | cons h1 h2 ih =>
      obtain ⟨is, his⟩ := ih
      obtain ⟨i, hi, -⟩ := C36_bracket ds _ h.sorted h.some
      exact ⟨i :: is, by unfold searchEach; rw [search_agree hd h1, hi, his]; rfl⟩
  rw [his]
  simp only [Res.bind_ok]
  exact linVecLoopF_eq _ xs is his

/-! ## Linear extrapolation -/

/-- The line through two knots continued to any point `q`, anchored at `(c, k)`. -/
def anchorVal (a b s t c k q : ℚ) : ℚ := f32.rnd (c + f32.rnd (slopeVal a b s t * f32.rnd (q - k)))

theorem anchor_finite {v0 v1 d0 d1 vc dk x : Fl} {a b s t c k q : ℚ} (h0 : f32.Finite v0 a) (h1 : f32.Finite v1 b) (k0 : f32.Finite d0 s)
    (k1 : f32.Finite d1 t) (hc : f32.Finite vc c) (hk : f32.Finite dk k) (hx : f32.Finite x q) (av : |a| ≤ 2 ^ 30) (bv : |b| ≤ 2 ^ 30)
    (sv : |s| ≤ 2 ^ 30) (tv : |t| ≤ 2 ^ 30) (gap : s + (1 / 2) ^ 30 ≤ t) (cv : |c| ≤ 2 ^ 30) (kv : |k| ≤ 2 ^ 30) (qv : |q| ≤ 2 ^ 30) :
    f32.Finite (lineF vc (f32.div (f32.sub v1 v0) (f32.sub d1 d0)) dk x) (anchorVal a b s t c k q) := by
  obtain ⟨f1, g1, -⟩ := slope_finite h0 h1 k0 k1 av bv sv tv gap
  have x1 : |q - k| ≤ 2 ^ 31 := (abs_sub _ _).trans ((add_le_add qv kv).trans (by norm_num))
  have f2 := finite_sub hx hk (le_f32_max (x1.trans (by norm_num)))
  have r2 : |f32.rnd (q - k)| ≤ 2 ^ 31 := abs_rnd_le f32 x1 (rep_p 31 (by norm_num))
  have p1 : |slopeVal a b s t * f32.rnd (q - k)| ≤ 2 ^ 92 := by
    rw [abs_mul]
    refine (mul_le_mul g1 r2 (abs_nonneg _) (by norm_num)).trans (by norm_num)
  have f3 := finite_mul f1 f2 (le_f32_max (p1.trans (by norm_num)))
  have r3 : |f32.rnd (slopeVal a b s t * f32.rnd (q - k))| ≤ 2 ^ 92 := abs_rnd_le f32 p1 (rep_p 92 (by norm_num))
  have s1 : |c + f32.rnd (slopeVal a b s t * f32.rnd (q - k))| ≤ 2 ^ 93 := (abs_add_le _ _).trans ((add_le_add cv r3).trans (by norm_num))
  exact finite_add hc f3 (le_f32_max (s1.trans (by norm_num)))

theorem anchor_error {a b s t c k q : ℚ} (ra : f32.Rep a) (rb : f32.Rep b) (rs : f32.Rep s) (rt : f32.Rep t) (rc : f32.Rep c) (rk : f32.Rep k)
    (rq : f32.Rep q) (gap : s < t) (kv : |k| ≤ 2 ^ 30) (qv : |q| ≤ 2 ^ 30) :
    |anchorVal a b s t c k q - (c + (b - a) / (t - s) * (q - k))| ≤ (8 * |(b - a) / (t - s) * (q - k)| + 2 * |c|) / 2 ^ 24 + (1 / 2) ^ 100 := by
  obtain ⟨δ1, v1, e1⟩ := f32_sub_model b a rb ra
  obtain ⟨δ2, v2, e2⟩ := f32_sub_model t s rt rs
  obtain ⟨δ3, v3, e3⟩ := f32_sub_model q k rq rk
  obtain ⟨δ4, η4, v4, e4, e4'⟩ := f32_model (f32.rnd (b - a) / f32.rnd (t - s))
  obtain ⟨δ5, η5, v5, e5, e5'⟩ := f32_model (slopeVal a b s t * f32.rnd (q - k))
  obtain ⟨δ6, v6, e6⟩ := f32_sub_model c (-f32.rnd (slopeVal a b s t * f32.rnd (q - k))) rc (rep_neg f32 (rep_rnd f32 _))
  rw [sub_neg_eq_add] at v6
  have hd : 0 < t - s := sub_pos.2 gap
  have d2 : 0 < 1 + δ2 := (u24_half e2).1
  have vg : slopeVal a b s t = (b - a) / (t - s) * ((1 + δ1) * (1 + δ4) / (1 + δ2)) + η4 := by
    unfold slopeVal
    rw [v4, v1, v2]
    field_simp
  have inc : f32.rnd (slopeVal a b s t * f32.rnd (q - k)) - (b - a) / (t - s) * (q - k) =
      (b - a) / (t - s) * (q - k) * ((1 + δ1) * (1 + δ3) * (1 + δ4) * (1 + δ5) / (1 + δ2) - 1) + (η4 * ((q - k) * (1 + δ3) * (1 + δ5)) + η5) := by
    rw [v5, vg, v3]
    field_simp
    ring
  have qs : |q - k| ≤ 2 ^ 31 := (abs_sub _ _).trans ((add_le_add qv kv).trans (by norm_num))
  have small : |η4 * ((q - k) * (1 + δ3) * (1 + δ5)) + η5| ≤ (1 / 2) ^ 110 := by
    refine (abs_add_le _ _).trans ?_
    rw [abs_mul, abs_mul, abs_mul]
    have c3 : |1 + δ3| ≤ 2 := (u24_half e3).2.1
    have c5 : |1 + δ5| ≤ 2 := (u24_half e5).2.1
    have m1 : |q - k| * |1 + δ3| * |1 + δ5| ≤ 2 ^ 31 * 2 * 2 :=
      mul_le_mul (mul_le_mul qs c3 (abs_nonneg _) (by norm_num)) c5 (abs_nonneg _) (by norm_num)
    have m2 : |η4| * (|q - k| * |1 + δ3| * |1 + δ5|) ≤ 2 ^ (-150 : Int) * (2 ^ 31 * 2 * 2) :=
      mul_le_mul e4' m1 (by positivity) (pow2_pos _).le
    refine (add_le_add m2 e5').trans ?_
    decide +kernel
  have incb : |f32.rnd (slopeVal a b s t * f32.rnd (q - k)) - (b - a) / (t - s) * (q - k)| ≤ |(b - a) / (t - s) * (q - k)| * (6 * u24) + (1 / 2) ^ 110 := by
    rw [inc]
    refine (abs_add_le _ _).trans (add_le_add ?_ small)
    rw [abs_mul]
    exact mul_le_mul_of_nonneg_left (five e1 e2 e3 e4 e5) (abs_nonneg _)
  have lv : anchorVal a b s t c k q - (c + (b - a) / (t - s) * (q - k)) =
      (f32.rnd (slopeVal a b s t * f32.rnd (q - k)) - (b - a) / (t - s) * (q - k)) * (1 + δ6) + (c + (b - a) / (t - s) * (q - k)) * δ6 := by
    unfold anchorVal
    rw [v6]
    ring
  rw [lv]
  have c6 : |1 + δ6| ≤ 1 + u24 := (u24_half e6).2.2.2
  refine (abs_add_le _ _).trans ?_
  rw [abs_mul, abs_mul]
  have z1 := mul_le_mul incb c6 (abs_nonneg _) (by positivity)
  have cw := abs_add_le c ((b - a) / (t - s) * (q - k))
  have z2 := mul_le_mul cw e6 (abs_nonneg _) (by positivity)
  refine (add_le_add z1 z2).trans ?_
  have hv := abs_nonneg ((b - a) / (t - s) * (q - k))
  have hc := abs_nonneg c
  generalize |(b - a) / (t - s) * (q - k)| = V at *
  generalize |c| = M at *
  clear inc small incb lv c6 z1 z2 qs v1 v2 v3 v4 v5 v6 vg cw
  norm_num
  linarith

/-- **C143** (linear extrapolation). Left of the first knot and from the last one on, the value is the first or last line continued, up to
8 parts in `2 ^ 24` of the distance from the value at that knot and 2 of that value. -/
theorem C143_linear {dom val : List Fl} {ds vs : List ℚ} {B : ℚ} (hd : Values dom ds) (hv : Values val vs) (h : PlainKnots ds vs B)
    (f : Lin Fl) (hf : linNewF dom val .linear true = .ok f) (g : Lin ℚ) (hg : Lin.new ds vs .linear true = .ok g)
    {x : Fl} {q : ℚ} (hx : f32.Finite x q) (hq : |q| ≤ 2 ^ 30) (h2 : 1 < ds.length) (h2' : 1 < vs.length) :
    (q < ds[0] → ∃ (r : ℚ) (y : Fl) (w : ℚ), g.interp q = .ok r ∧ linInterpF f x = .ok y ∧ f32.Finite y w ∧
      |w - r| ≤ ((8 : ℚ) * |r - vs[0]| + (2 : ℚ) * |vs[0]|) / 2 ^ 24 + (1 / 2) ^ 100) ∧
    (ds[ds.length - 1] ≤ q → ∃ (r : ℚ) (y : Fl) (w : ℚ), g.interp q = .ok r ∧ linInterpF f x = .ok y ∧ f32.Finite y w ∧
      |w - r| ≤ ((8 : ℚ) * |r - vs[vs.length - 1]| + (2 : ℚ) * |vs[vs.length - 1]|) / 2 ^ 24 + (1 / 2) ^ 100) := by
  have l1 := hd.length
  have l2 := hv.length
  have l3 := h.len
  rw [newF_ok hd hv h] at hf
  obtain rfl := Except.ok.inj hf
  obtain ⟨c1, c2⟩ := C38_linear ds vs g hg h.sorted l3 h2 q
  have vb : ∀ (i : Nat) (hi : i < vs.length), |vs[i]| ≤ 2 ^ 30 := fun i hi => (h.vals _ (List.getElem_mem _)).trans h.bound
  have db : ∀ (i : Nat) (hi : i < ds.length), |ds[i]| ≤ 2 ^ 30 := fun i hi => h.knots _ (List.getElem_mem _)
  have d0 := fl_lt hx (hd.get 0 (by omega) (by omega))
  have d1 : x ≥ dom[dom.length - 1]'(by omega) ↔ ds[ds.length - 1]'(by omega) ≤ q := by
    rw [ge_iff_le, fl_le (hd.get (dom.length - 1) (by omega) (by omega)) hx]
    have : ds[dom.length - 1]'(by omega) = ds[ds.length - 1]'(by omega) := by congr 1; omega
    rw [this]
  constructor
  · intro hlt
    have gap := List.pairwise_iff_getElem.1 h.gaps 0 1 (by omega) h2 (by omega)
    have lt := sorted_lt h.sorted 0 1 (by omega) h2
    have F := anchor_finite (hv.get 0 (by omega) (by omega)) (hv.get 1 (by omega) h2') (hd.get 0 (by omega) (by omega)) (hd.get 1 (by omega) h2)
      (hv.get 0 (by omega) (by omega)) (hd.get 0 (by omega) (by omega)) hx (vb _ _) (vb _ _) (db _ _) (db _ _) gap (vb _ _) (db _ _) hq
    have E := anchor_error (hv.get 0 (by omega) (by omega)).rep (hv.get 1 (by omega) h2').rep (hd.get 0 (by omega) (by omega)).rep
      (hd.get 1 (by omega) h2).rep (hv.get 0 (by omega) (by omega)).rep (hd.get 0 (by omega) (by omega)).rep hx.rep lt (db _ _) hq
    have ec : chord ds[0] vs[0] ds[1] vs[1] q = vs[0] + (vs[1] - vs[0]) / (ds[1] - ds[0]) * (q - ds[0]) := by
      have hne : ds[1] - ds[0] ≠ 0 := sub_ne_zero.2 lt.ne'
      unfold chord
      field_simp
      ring
    refine ⟨_, _, _, c1 hlt, ?_, F, ?_⟩
    · unfold linInterpF
      dsimp only
      rw [at_ok dom 0 (by omega)]
      simp only [Res.bind_ok, if_pos (d0.2 hlt), if_true]
      rw [at_ok val 0 (by omega), at_ok _ 0 (by rw [slopesF_length _ _ (by omega)]; omega)]
      simp only [Res.bind_ok]
      rw [slopesF_get dom val (by omega) 0 (by omega)]
    · rw [ec]
      refine E.trans (le_of_eq ?_)
      rw [add_sub_cancel_left]
  · intro hge
    have i1 : ds.length - 2 + 1 = ds.length - 1 := by omega
    have gap := List.pairwise_iff_getElem.1 h.gaps (ds.length - 2) (ds.length - 1) (by omega) (by omega) (by omega)
    have lt := sorted_lt h.sorted (ds.length - 2) (ds.length - 1) (by omega) (by omega)
    have F := anchor_finite (hv.get (ds.length - 2) (by omega) (by omega)) (hv.get (ds.length - 1) (by omega) (by omega))
      (hd.get (ds.length - 2) (by omega) (by omega)) (hd.get (ds.length - 1) (by omega) (by omega))
      (hv.get (ds.length - 1) (by omega) (by omega)) (hd.get (ds.length - 1) (by omega) (by omega)) hx (vb _ _) (vb _ _) (db _ _) (db _ _) gap
      (vb _ _) (db _ _) hq
    have E := anchor_error (hv.get (ds.length - 2) (by omega) (by omega)).rep (hv.get (ds.length - 1) (by omega) (by omega)).rep
      (hd.get (ds.length - 2) (by omega) (by omega)).rep (hd.get (ds.length - 1) (by omega) (by omega)).rep
      (hv.get (ds.length - 1) (by omega) (by omega)).rep (hd.get (ds.length - 1) (by omega) (by omega)).rep hx.rep lt (db _ _) hq
    have ec : chord ds[ds.length - 2] (vs[ds.length - 2]'(by omega)) ds[ds.length - 1] (vs[ds.length - 1]'(by omega)) q =
        (vs[ds.length - 1]'(by omega)) + ((vs[ds.length - 1]'(by omega)) - (vs[ds.length - 2]'(by omega))) / (ds[ds.length - 1] - ds[ds.length - 2]) *
          (q - ds[ds.length - 1]) := by
      have hne : ds[ds.length - 1] - ds[ds.length - 2] ≠ 0 := sub_ne_zero.2 lt.ne'
      unfold chord
      field_simp
      ring
    have ev : vs[vs.length - 1] = vs[ds.length - 1]'(by omega) := by congr 1; omega
    refine ⟨_, _, _, c2 hge, ?_, F, ?_⟩
    · unfold linInterpF
      dsimp only
      rw [at_ok dom 0 (by omega)]
      have nlt : ¬ x < dom[0]'(by omega) := by
        rw [d0, not_lt]
        exact (sorted_le (strict_le h.sorted) 0 (ds.length - 1) (by omega) (by omega)).trans hge
      simp only [Res.bind_ok, if_neg nlt]
      rw [at_ok dom (dom.length - 1) (by omega)]
      simp only [Res.bind_ok, if_pos (d1.2 hge), if_true]
      rw [at_ok val (dom.length - 1) (by omega), at_ok _ (dom.length - 2) (by rw [slopesF_length _ _ (by omega)]; omega)]
      simp only [Res.bind_ok]
      rw [slopesF_get dom val (by omega) (dom.length - 2) (by omega)]
      have j1 : dom.length - 2 + 1 = ds.length - 1 := by omega
      have j2 : dom.length - 2 = ds.length - 2 := by omega
      have j3 : dom.length - 1 = ds.length - 1 := by omega
      simp only [j2, j3, i1]
    · rw [ec, ev]
      refine E.trans (le_of_eq ?_)
      rw [add_sub_cancel_left]

end Verif.Props

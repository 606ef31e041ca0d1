import Verif.Props.FloatLine
import Verif.Props.Interp
/-!
# Linear interpolation in single precision (C143)
-/
set_option autoImplicit false
namespace Verif.Props
open Verif Verif.Float Verif.QL

/-- A list of finite single-precision numbers and their values. -/
def Values (v : List Fl) (vs : List ℚ) : Prop := List.Forall₂ f32.Finite v vs

theorem Values.length {v : List Fl} {vs : List ℚ} (h : Values v vs) : v.length = vs.length := List.Forall₂.length_eq h

theorem Values.get {v : List Fl} {vs : List ℚ} (h : Values v vs) (i : Nat) (hi : i < v.length) (hi' : i < vs.length) :
    f32.Finite v[i] vs[i] := by
  have := (List.forall₂_iff_get.1 h).2 i hi hi'
  simpa using this

theorem Values.at {v : List Fl} {vs : List ℚ} (h : Values v vs) (i : Nat) :
    (at_ v i = .error .index ∧ at_ vs i = .error .index) ∨ ∃ a b, at_ v i = .ok a ∧ at_ vs i = .ok b ∧ f32.Finite a b := by
  have hl := h.length
  by_cases hi : i < v.length
  · exact Or.inr ⟨_, _, at_ok v i hi, at_ok vs i (by omega), h.get i hi (by omega)⟩
  · exact Or.inl ⟨at_err v i (by omega), at_err vs i (by omega)⟩

theorem fl_lt {a b : Fl} {x y : ℚ} (ha : f32.Finite a x) (hb : f32.Finite b y) : a < b ↔ x < y := by
  change a.lt b = true ↔ _
  rw [finite_lt ha hb, decide_eq_true_eq]

theorem fl_le {a b : Fl} {x y : ℚ} (ha : f32.Finite a x) (hb : f32.Finite b y) : a ≤ b ↔ x ≤ y := by
  change a.le b = true ↔ _
  rw [finite_le ha hb, decide_eq_true_eq]

theorem fl_beq {a b : Fl} {x y : ℚ} (ha : f32.Finite a x) (hb : f32.Finite b y) : (a == b) = (x == y) := by
  change a.beq b = _
  rw [finite_beq ha hb]
  rfl

theorem bsLoop_agree {v : List Fl} {vs : List ℚ} (h : Values v vs) {x : Fl} {q : ℚ} (hx : f32.Finite x q) (n : Nat) :
    ∀ low high, high + 1 - low ≤ n → bsLoop v x low high = bsLoop vs q low high := by
  induction n with
  | zero =>
    intro low high hn
    rw [bsLoop.eq_def, bsLoop.eq_def vs, if_neg (by omega), if_neg (by omega)]
  | succ n ih =>
    intro low high hn
    rw [bsLoop.eq_def, bsLoop.eq_def vs]
    by_cases hlh : low ≤ high
    · rw [if_pos hlh, if_pos hlh]
      rcases h.at ((low + high) / 2) with ⟨e1, e2⟩ | ⟨a, b, e1, e2, hab⟩
      · rw [e1, e2]
      · rw [e1, e2]
        dsimp only
        rw [fl_beq hab hx, ih _ _ (by omega)]
        simp only [fl_lt hab hx]
        split_ifs with c1 c2 c3
        · rfl
        · rfl
        · rfl
        · exact ih _ _ (by omega)
    · rw [if_neg hlh, if_neg hlh]

/-- The search among finite numbers finds what it finds among their values. -/
theorem search_agree {v : List Fl} {vs : List ℚ} (h : Values v vs) {x : Fl} {q : ℚ} (hx : f32.Finite x q) :
    searchIndex v x = searchIndex vs q := by
  have hl := h.length
  have he : v.isEmpty = vs.isEmpty := by
    cases h <;> rfl
  unfold searchIndex
  dsimp only
  rw [he, hl, bsLoop_agree h hx _ _ _ (le_refl _)]
  cases bsLoop vs q 0 (if vs.isEmpty then 0 else vs.length - 1) with
  | error e => rfl
  | ok r =>
    simp only [Res.bind_ok]
    cases r with
    | inl m => rfl
    | inr low =>
      dsimp only
      by_cases hlow : low > vs.length - 1
      · rw [if_pos hlow, if_pos hlow]
      · rw [if_neg hlow, if_neg hlow]
        rcases h.at low with ⟨e1, e2⟩ | ⟨a, b, e1, e2, hab⟩
        · rw [e1, e2]; rfl
        · rw [e1, e2]
          simp only [Res.bind_ok, fl_lt hab hx]

theorem sorted_agree {v : List Fl} {vs : List ℚ} (h : Values v vs) : isSorted v = isSorted vs := by
  induction h with
  | nil => rfl
  | cons h1 h2 ih =>
    cases h2 with
    | nil => rfl
    | cons h3 h4 =>
      unfold isSorted
      simp only [fl_lt h3 h1, ih]

theorem slopesF_length (dom val : List Fl) (h : dom.length = val.length) : (slopesF dom val).length = dom.length - 1 := by
  induction dom generalizing val with
  | nil => cases val <;> rfl
  | cons d0 ds ih =>
    cases val with
    | nil => simp at h
    | cons v0 vs =>
      cases ds with
      | nil => cases vs <;> rfl
      | cons d1 ds =>
        cases vs with
        | nil => simp at h
        | cons v1 vs =>
          have := ih (v1 :: vs) (by simpa using h)
          unfold slopesF
          rw [List.length_cons, this]
          simp

theorem slopesF_get (dom val : List Fl) (h : dom.length = val.length) (i : Nat) (hi : i + 1 < dom.length) :
    (slopesF dom val)[i]'(by rw [slopesF_length _ _ h]; omega)
      = f32.div (f32.sub (val[i + 1]'(by omega)) (val[i]'(by omega))) (f32.sub dom[i + 1] dom[i]) := by
  induction dom generalizing val i with
  | nil => simp at hi
  | cons d0 ds ih =>
    cases val with
    | nil => simp at h
    | cons v0 vs =>
      cases ds with
      | nil => simp at hi
      | cons d1 ds =>
        cases vs with
        | nil => simp at h
        | cons v1 vs =>
          cases i with
          | zero => simp [slopesF]
          | succ i =>
            have := ih (v1 :: vs) (by simpa using h) i (by simpa using hi)
            simp only [slopesF, List.getElem_cons_succ]
            exact this

/-- Knots as a user would give them: at most `2 ^ 30` in size and at least `2 ^ -30` apart, values at most `B` in size. -/
structure PlainKnots (ds vs : List ℚ) (B : ℚ) : Prop where
  len : ds.length = vs.length
  some : ds ≠ []
  gaps : ds.Pairwise (fun a b => a + (1 / 2) ^ 30 ≤ b)
  knots : ∀ d ∈ ds, |d| ≤ 2 ^ 30
  vals : ∀ v ∈ vs, |v| ≤ B
  bound : B ≤ 2 ^ 30

theorem PlainKnots.sorted {ds vs : List ℚ} {B : ℚ} (h : PlainKnots ds vs B) : ds.Pairwise (· < ·) := by
  refine h.gaps.imp ?_
  intro a b q
  have : (0 : ℚ) < (1 / 2) ^ 30 := by norm_num
  exact lt_of_lt_of_le (lt_add_of_pos_right a this) q

theorem PlainKnots.segment {ds vs : List ℚ} {B : ℚ} (h : PlainKnots ds vs B) (i : Nat) (hi : i + 1 < ds.length) (q : ℚ)
    (h1 : ds[i] ≤ q) (h2 : q ≤ ds[i + 1]) :
    Segment (vs[i]'(by have := h.len; omega)) (vs[i + 1]'(by have := h.len; omega)) ds[i] ds[i + 1] q := by
  have hl := h.len
  exact { av := (h.vals _ (List.getElem_mem _)).trans h.bound
          bv := (h.vals _ (List.getElem_mem _)).trans h.bound
          sv := h.knots _ (List.getElem_mem _)
          tv := h.knots _ (List.getElem_mem _)
          gap := List.pairwise_iff_getElem.1 h.gaps i (i + 1) (by omega) hi (by omega)
          left := h1
          right := h2 }

/-- The interpolator the constructor returns. -/
theorem newF_ok {dom val : List Fl} {ds vs : List ℚ} {B : ℚ} (hd : Values dom ds) (hv : Values val vs) (h : PlainKnots ds vs B)
    (extra : Extra) (allow : Bool) :
    linNewF dom val extra allow = .ok { dom := dom, val := val, der := slopesF dom val, extra := extra, allow := allow } := by
  unfold linNewF
  have l1 := hd.length
  have l2 := hv.length
  have l3 := h.len
  rw [if_neg (by omega), sorted_agree hd]
  have : isSorted ds = .ok true := by
    obtain ⟨f, hf⟩ := (C38_new ds vs extra allow).2.2.2 l3 h.some h.sorted
    unfold Lin.new at hf
    rw [if_neg (by omega)] at hf
    cases hq : isSorted ds with
    | error e => rw [hq] at hf; cases hf
    | ok b =>
      rw [hq] at hf
      cases b
      · cases hf
      · rfl
  rw [this]
  rfl

/-- Between two knots the interpolated value is the line of that segment, each operation rounded. -/
theorem interpF_inside {dom val : List Fl} {ds vs : List ℚ} {B : ℚ} (hd : Values dom ds) (hv : Values val vs) (h : PlainKnots ds vs B)
    (extra : Extra) (allow : Bool) (f : Lin Fl) (hf : linNewF dom val extra allow = .ok f) (i : Nat) (hi : i + 1 < ds.length)
    {x : Fl} {q : ℚ} (hx : f32.Finite x q) (h1 : ds[i] ≤ q) (h2 : q < ds[i + 1]) :
    ∃ y, linInterpF f x = .ok y ∧
      f32.Finite y (lineVal (vs[i]'(by have := h.len; omega)) (vs[i + 1]'(by have := h.len; omega)) ds[i] ds[i + 1] q) := by
  have l1 := hd.length
  have l2 := hv.length
  have l3 := h.len
  have hs := h.sorted
  rw [newF_ok hd hv h] at hf
  obtain rfl := Except.ok.inj hf
  obtain ⟨k, hk, hb⟩ := C36_bracket ds q hs h.some
  have hki : k = i := by
    refine C36_bracket_unique ds q (strict_le hs) k i hb ⟨by omega, fun a ha => ?_, fun b hb => ?_⟩
    · rw [List.getElem?_eq_getElem (by omega), Option.some.injEq] at ha
      exact Or.inl (ha ▸ h1)
    · rw [List.getElem?_eq_getElem (by omega), Option.some.injEq] at hb
      exact hb ▸ h2
  subst hki
  have first : ds[0]'(by omega) ≤ q := (sorted_le (strict_le hs) 0 k (by omega) (by omega)).trans h1
  have last : q < ds[ds.length - 1]'(by omega) := lt_of_lt_of_le h2 (sorted_le (strict_le hs) (k + 1) (ds.length - 1) (by omega) (by omega))
  refine ⟨_, ?_, line_finite (hv.get k (by omega) (by omega)) (hv.get (k + 1) (by omega) (by omega)) (hd.get k (by omega) (by omega))
    (hd.get (k + 1) (by omega) (by omega)) hx (h.segment k hi q h1 h2.le)⟩
  unfold linInterpF
  dsimp only
  have ne1 : ¬ x < dom[0]'(by omega) := by rw [fl_lt hx (hd.get 0 (by omega) (by omega))]; exact not_lt.2 first
  have ne2 : ¬ x ≥ dom[dom.length - 1]'(by omega) := by
    rw [ge_iff_le, fl_le (hd.get (dom.length - 1) (by omega) (by omega)) hx]
    have : ds[dom.length - 1]'(by omega) = ds[ds.length - 1]'(by omega) := by congr 1; omega
    rw [this]
    exact not_le.2 last
  rw [at_ok dom 0 (by omega)]
  simp only [Res.bind_ok, if_neg ne1]
  rw [at_ok dom (dom.length - 1) (by omega)]
  simp only [Res.bind_ok, if_neg ne2]
  rw [search_agree hd hx, hk]
  simp only [Res.bind_ok]
  rw [at_ok val k (by omega), at_ok _ k (by rw [slopesF_length _ _ (by omega)]; omega), at_ok dom k (by omega)]
  simp only [Res.bind_ok]
  rw [slopesF_get dom val (by omega) k (by omega)]

theorem lineVal_left (a b s t : ℚ) (ra : f32.Rep a) : lineVal a b s t s = a := by
  unfold lineVal
  rw [sub_self, rnd_zero, mul_zero, rnd_zero, add_zero, rnd_rep f32 ra]

theorem slope_nonneg {a b s t : ℚ} (hab : a ≤ b) (hst : s ≤ t) : 0 ≤ slopeVal a b s t :=
  rnd_nonneg f32 (div_nonneg (rnd_nonneg f32 (sub_nonneg.2 hab)) (rnd_nonneg f32 (sub_nonneg.2 hst)))

theorem slope_nonpos {a b s t : ℚ} (hab : b ≤ a) (hst : s ≤ t) : slopeVal a b s t ≤ 0 :=
  rnd_nonpos f32 (div_nonpos_of_nonpos_of_nonneg (rnd_nonpos f32 (sub_nonpos.2 hab)) (rnd_nonneg f32 (sub_nonneg.2 hst)))

/-- Within a segment rounding keeps the direction of the line. -/
theorem lineVal_mono {a b s t q q' : ℚ} (hab : a ≤ b) (hst : s ≤ t) (h : q ≤ q') : lineVal a b s t q ≤ lineVal a b s t q' := by
  unfold lineVal
  refine rnd_mono f32 (add_le_add le_rfl (rnd_mono f32 (mul_le_mul_of_nonneg_left (rnd_mono f32 (sub_le_sub_right h s)) (slope_nonneg hab hst))))

theorem lineVal_anti {a b s t q q' : ℚ} (hab : b ≤ a) (hst : s ≤ t) (h : q ≤ q') : lineVal a b s t q' ≤ lineVal a b s t q := by
  unfold lineVal
  refine rnd_mono f32 (add_le_add le_rfl (rnd_mono f32 (mul_le_mul_of_nonpos_left (rnd_mono f32 (sub_le_sub_right h s)) (slope_nonpos hab hst))))

/-- **C143** (knots). At every knot but the last the value is exactly the one given. -/
theorem C143_knot {dom val : List Fl} {ds vs : List ℚ} {B : ℚ} (hd : Values dom ds) (hv : Values val vs) (h : PlainKnots ds vs B)
    (extra : Extra) (allow : Bool) (f : Lin Fl) (hf : linNewF dom val extra allow = .ok f) (i : Nat) (hi : i + 1 < dom.length)
    (hi' : i < vs.length) : ∃ y, linInterpF f dom[i] = .ok y ∧ f32.Finite y vs[i] := by
  have l1 := hd.length
  have l3 := h.len
  have hs := h.sorted
  obtain ⟨y, e, hy⟩ := interpF_inside hd hv h extra allow f hf i (by omega) (hd.get i (by omega) (by omega)) (le_refl _)
    (sorted_lt hs i (i + 1) (by omega) (by omega))
  have l2 := hv.length
  rw [lineVal_left _ _ _ _ (hv.get i (by omega) hi').rep] at hy
  exact ⟨y, e, hy⟩

/-- **C143** (segments). Between two knots the value never decreases if the values at the two knots do not, never increases
if they do not, and so stays on the side of the left knot the right one is on. -/
theorem C143_segment {dom val : List Fl} {ds vs : List ℚ} {B : ℚ} (hd : Values dom ds) (hv : Values val vs) (h : PlainKnots ds vs B)
    (extra : Extra) (allow : Bool) (f : Lin Fl) (hf : linNewF dom val extra allow = .ok f) (i : Nat) (hi : i + 1 < ds.length)
    (hi' : i + 1 < vs.length) {x x' : Fl} {q q' : ℚ} (hx : f32.Finite x q) (hx' : f32.Finite x' q') (h1 : ds[i] ≤ q) (hq : q ≤ q')
    (h2 : q' < ds[i + 1]) :
    ∃ y y', linInterpF f x = .ok y ∧ linInterpF f x' = .ok y' ∧
      (vs[i] ≤ vs[i + 1] → (∃ w w', f32.Finite y w ∧ f32.Finite y' w' ∧ vs[i] ≤ w ∧ w ≤ w')) ∧
      (vs[i + 1] ≤ vs[i] → (∃ w w', f32.Finite y w ∧ f32.Finite y' w' ∧ w ≤ vs[i] ∧ w' ≤ w)) := by
  have l2 := hv.length
  have hst := (sorted_lt h.sorted i (i + 1) (by omega) hi).le
  obtain ⟨y, e, hy⟩ := interpF_inside hd hv h extra allow f hf i hi hx h1 (lt_of_le_of_lt hq h2)
  obtain ⟨y', e', hy'⟩ := interpF_inside hd hv h extra allow f hf i hi hx' (h1.trans hq) h2
  have left := lineVal_left vs[i] vs[i + 1] ds[i] ds[i + 1] (hv.get i (by omega) (by omega)).rep
  refine ⟨y, y', e, e', fun hab => ⟨_, _, hy, hy', ?_, lineVal_mono hab hst hq⟩, fun hab => ⟨_, _, hy, hy', ?_, lineVal_anti hab hst hq⟩⟩
  · exact left.ge.trans (lineVal_mono hab hst h1)
  · exact (lineVal_anti hab hst h1).trans left.le

theorem interpF_outside {dom val : List Fl} {ds vs : List ℚ} {B : ℚ} (hd : Values dom ds) (hv : Values val vs) (h : PlainKnots ds vs B)
    (extra : Extra) (allow : Bool) (f : Lin Fl) (hf : linNewF dom val extra allow = .ok f) (hext : extra ≠ .linear)
    (g : Lin ℚ) (hg : Lin.new ds vs extra allow = .ok g) {x : Fl} {q : ℚ} (hx : f32.Finite x q)
    (hq : q < ds[0]'(List.length_pos_iff.2 h.some) ∨ ds[ds.length - 1]'(by have := List.length_pos_iff.2 h.some; omega) ≤ q) :
    (∃ e, g.interp q = .error e ∧ linInterpF f x = .error e) ∨ ∃ r y, r ∈ vs ∧ g.interp q = .ok r ∧ linInterpF f x = .ok y ∧ f32.Finite y r := by
  have l1 := hd.length
  have l2 := hv.length
  have l3 := h.len
  have hpos := List.length_pos_iff.2 h.some
  rw [newF_ok hd hv h] at hf
  obtain rfl := Except.ok.inj hf
  have ef : linInterpF { dom := dom, val := val, der := slopesF dom val, extra := extra, allow := allow } x =
      if allow = true ∧ extra = .flat then (if q < ds[0] then at_ val 0 else at_ val (dom.length - 1)) else .error .err := by
    have d0 := fl_lt hx (hd.get 0 (by omega) (by omega))
    have d1 : x ≥ dom[dom.length - 1]'(by omega) ↔ ds[ds.length - 1]'(by omega) ≤ q := by
      rw [ge_iff_le, fl_le (hd.get (dom.length - 1) (by omega) (by omega)) hx]
      have : ds[dom.length - 1]'(by omega) = ds[ds.length - 1]'(by omega) := by congr 1; omega
      rw [this]
    unfold linInterpF
    dsimp only
    rw [at_ok dom 0 (by omega)]
    simp only [Res.bind_ok, d0]
    rw [at_ok dom (dom.length - 1) (by omega)]
    simp only [Res.bind_ok, d1]
    by_cases hlt : q < ds[0]
    · rw [if_pos hlt, if_pos hlt]
      cases allow <;> cases extra <;> first | rfl | exact absurd rfl hext
    · rw [if_neg hlt, if_neg hlt, if_pos (hq.resolve_left hlt)]
      cases allow <;> cases extra <;> first | rfl | exact absurd rfl hext
  rw [ef]
  by_cases hc : allow = true ∧ extra = .flat
  · rw [if_pos hc]
    obtain ⟨rfl, rfl⟩ := hc
    obtain ⟨c1, c2⟩ := C38_flat ds vs g hg h.sorted l3 hpos q
    right
    by_cases hlt : q < ds[0]
    · rw [if_pos hlt]
      exact ⟨_, _, List.getElem_mem _, c1 hlt, at_ok val 0 (by omega), hv.get 0 (by omega) (by omega)⟩
    · rw [if_neg hlt]
      refine ⟨_, _, List.getElem_mem _, c2 (hq.resolve_left hlt), at_ok val _ (by omega), ?_⟩
      have := hv.get (dom.length - 1) (by omega) (by omega)
      have e : vs[dom.length - 1]'(by omega) = vs[ds.length - 1]'(by omega) := by congr 1; omega
      rwa [e] at this
  · rw [if_neg hc]
    left
    refine ⟨_, C38_refused ds vs extra allow g hg h.sorted l3 hpos ?_ q hq, rfl⟩
    cases allow
    · exact Or.inl rfl
    · cases extra
      · exact Or.inr rfl
      · exact absurd ⟨rfl, rfl⟩ hc
      · exact absurd rfl hext

/-- **C143** (accuracy). Wherever the interpolation in exact arithmetic has a value, that of single precision has one within
fourteen parts in `2 ^ 24` of the largest value; where the one fails the other does. -/
theorem C143_accuracy {dom val : List Fl} {ds vs : List ℚ} {B : ℚ} (hd : Values dom ds) (hv : Values val vs) (h : PlainKnots ds vs B)
    (extra : Extra) (allow : Bool) (f : Lin Fl) (hf : linNewF dom val extra allow = .ok f) (hext : extra ≠ .linear)
    (g : Lin ℚ) (hg : Lin.new ds vs extra allow = .ok g) {x : Fl} {q : ℚ} (hx : f32.Finite x q) :
    (∃ e, g.interp q = .error e ∧ linInterpF f x = .error e) ∨
    ∃ r y w, g.interp q = .ok r ∧ linInterpF f x = .ok y ∧ f32.Finite y w ∧ |w - r| ≤ 14 * B / 2 ^ 24 + (1 / 2) ^ 100 := by
  have l2 := hv.length
  have l3 := h.len
  have hpos := List.length_pos_iff.2 h.some
  have hB : 0 ≤ B := (abs_nonneg _).trans (h.vals _ (List.getElem_mem (show 0 < vs.length by omega)))
  have out : ∀ hq : (q < ds[0] ∨ ds[ds.length - 1] ≤ q), (∃ e, g.interp q = .error e ∧ linInterpF f x = .error e) ∨
      ∃ r y w, g.interp q = .ok r ∧ linInterpF f x = .ok y ∧ f32.Finite y w ∧ |w - r| ≤ 14 * B / 2 ^ 24 + (1 / 2) ^ 100 := by
    intro hq
    rcases interpF_outside hd hv h extra allow f hf hext g hg hx hq with hc | ⟨r, y, -, e1, e2, e3⟩
    · exact Or.inl hc
    · exact Or.inr ⟨r, y, r, e1, e2, e3, by rw [sub_self, abs_zero]; positivity⟩
  rcases interp_trichotomy ds h.sorted hpos q with hq | ⟨i, hi, h1, h2⟩ | hq
  · exact out (Or.inl hq)
  · right
    obtain ⟨y, e, hy⟩ := interpF_inside hd hv h extra allow f hf i hi hx h1 h2
    refine ⟨_, y, _, C38_inside ds vs extra allow g hg h.sorted l3 i hi q h1 h2, e, hy, ?_⟩
    have seg := h.segment i hi q h1 h2.le
    have err := line_error (hv.get i (by omega) (by omega)).rep (hv.get (i + 1) (by omega) (by omega)).rep
      (hd.get i (by have := hd.length; omega) (by omega)).rep (hd.get (i + 1) (by have := hd.length; omega) (by omega)).rep hx.rep seg
    have ec : chordQ vs[i] vs[i + 1] ds[i] ds[i + 1] q = chord ds[i] vs[i] ds[i + 1] vs[i + 1] q := by
      have hne : ds[i + 1] - ds[i] ≠ 0 := sub_ne_zero.2 (sorted_lt h.sorted i (i + 1) (by omega) hi).ne'
      unfold chordQ chord
      field_simp
      ring
    rw [← ec]
    refine err.trans (add_le_add (div_le_div_of_nonneg_right ?_ (by norm_num)) le_rfl)
    have b1 := h.vals _ (List.getElem_mem (show i < vs.length by omega))
    have b2 := h.vals _ (List.getElem_mem (show i + 1 < vs.length by omega))
    have b3 := max_le b1 b2
    have b4 := abs_sub vs[i + 1] vs[i]
    linarith
  · exact out (Or.inr hq)

theorem f32_lit_value (q : ℚ) (h : |q| ≤ 2 ^ 100) : f32.Finite (f32.lit q) (f32.rnd q) := finite_of f32 false q (le_f32_max h)

theorem sample_knots : Values [f32.lit 0, f32.lit 7, f32.lit 10] [0, 7, 10] ∧
    Values [f32.lit (35 / 100), f32.lit (94 / 100), f32.lit (1 / 2)] [f32.rnd (35 / 100), f32.rnd (94 / 100), f32.rnd (1 / 2)] ∧
    PlainKnots [0, 7, 10] [f32.rnd (35 / 100), f32.rnd (94 / 100), f32.rnd (1 / 2)] 1 := by
  have z := f32_lit 0 (by norm_num)
  have s := f32_lit 7 (by norm_num)
  have t := f32_lit 10 (by norm_num)
  norm_num at z s t
  refine ⟨.cons z (.cons s (.cons t .nil)), .cons (f32_lit_value _ (by norm_num)) (.cons (f32_lit_value _ (by norm_num))
    (.cons (f32_lit_value _ (by norm_num)) .nil)), ?_⟩
  exact { len := rfl, some := by simp, gaps := by norm_num, knots := by norm_num
          vals := by
            intro v hv
            have one : f32.Rep 1 := by have := rep_p 0 (by norm_num); simpa using this
            simp only [List.mem_cons, List.not_mem_nil, or_false] at hv
            rcases hv with rfl | rfl | rfl <;> exact abs_rnd_le f32 (by norm_num) one
          bound := by norm_num }

/-- **C143** (not between). A value between two knots can be above both: the value just before the second knot exceeds the one
at it, although the exact line rises up to it. -/
theorem C143_overshoot : ∃ f x y y', linNewF [f32.lit 0, f32.lit 7, f32.lit 10] [f32.lit (35 / 100), f32.lit (94 / 100), f32.lit (1 / 2)] .flat true = .ok f ∧
    x < f32.lit 7 ∧ linInterpF f x = .ok y ∧ linInterpF f (f32.lit 7) = .ok y' ∧ y' < y := by
  obtain ⟨hd, hv, hp⟩ := sample_knots
  have hf := newF_ok hd hv hp .flat true
  have hx : f32.Finite (.fin false (14680063 / 2097152)) (14680063 / 2097152) := by
    refine ⟨false, rfl, ⟨14680063, -21, by norm_num [f32], by norm_num [f32], by norm_num⟩, le_f32_max (by norm_num), by norm_num, by norm_num⟩
  obtain ⟨y, e, hy⟩ := interpF_inside hd hv hp .flat true _ hf 0 (by simp) hx (by norm_num) (by norm_num)
  obtain ⟨y', e', hy'⟩ := C143_knot hd hv hp .flat true _ hf 1 (by simp) (by simp)
  refine ⟨_, _, y, y', hf, ?_, e, e', ?_⟩
  · refine (fl_lt hx (hd.get 1 (by simp) (by simp))).2 ?_
    norm_num
  · rw [fl_lt hy' hy]
    exact (by decide +kernel : f32.rnd (94 / 100) < lineVal (f32.rnd (35 / 100)) (f32.rnd (94 / 100)) 0 7 (14680063 / 2097152))

end Verif.Props

import Verif.QL.Interp
import Verif.Props.FindIndex
import Mathlib.Algebra.Order.Field.Basic
import Mathlib.Algebra.Order.Field.Rat
import Mathlib.Tactic.Linarith
import Mathlib.Tactic.FieldSimp
import Mathlib.Tactic.Ring
import Mathlib.Tactic.NormNum
/-!
# C38: linear interpolation
-/
set_option autoImplicit false
set_option linter.unusedSectionVars false
namespace Verif.Props
open Verif Verif.QL

section search
variable {T : Type} [LinearOrder T]

/-- The search returns the bracketing index whenever there is one. -/
theorem search_at (v : List T) (x : T) (hs : v.Pairwise (· < ·)) (i : Nat) (hi : i + 1 < v.length)
    (h1 : v[i] ≤ x) (h2 : x < v[i + 1]) : searchIndex v x = .ok i := by
  have hv : v ≠ [] := by rintro rfl; simp at hi
  obtain ⟨j, hj, hb⟩ := C36_bracket v x hs hv
  have : Bracket v x i := by
    refine ⟨by omega, ?_, ?_⟩
    · intro a ha
      rw [List.getElem?_eq_getElem (by omega)] at ha
      cases ha
      exact Or.inl h1
    · intro b hb
      rw [List.getElem?_eq_getElem hi] at hb
      cases hb
      exact h2
  rw [hj, C36_bracket_unique v x (strict_le hs) j i hb this]

theorem search_last (v : List T) (x : T) (hs : v.Pairwise (· < ·)) (hv : v ≠ [])
    (h : v[v.length - 1]'(by have := List.length_pos_iff.2 hv; omega) ≤ x) : searchIndex v x = .ok (v.length - 1) := by
  obtain ⟨j, hj, hb⟩ := C36_bracket v x hs hv
  have hp := List.length_pos_iff.2 hv
  have : Bracket v x (v.length - 1) := by
    refine ⟨by omega, ?_, ?_⟩
    · intro a ha
      rw [List.getElem?_eq_getElem (by omega)] at ha
      cases ha
      exact Or.inl h
    · intro b hb
      rw [List.getElem?_eq_none (by omega)] at hb
      cases hb
  rw [hj, C36_bracket_unique v x (strict_le hs) j _ hb this]

theorem search_first (v : List T) (x : T) (hs : v.Pairwise (· < ·)) (hv : v ≠ [])
    (h : x < v[0]'(List.length_pos_iff.2 hv)) : searchIndex v x = .ok 0 := by
  obtain ⟨j, hj, hb⟩ := C36_bracket v x hs hv
  have hp := List.length_pos_iff.2 hv
  have : Bracket v x 0 := by
    refine ⟨by omega, ?_, ?_⟩
    · intro a ha
      rw [List.getElem?_eq_getElem (by omega)] at ha
      cases ha
      exact Or.inr ⟨rfl, h⟩
    · intro b hb
      obtain ⟨hb1, rfl⟩ := List.getElem?_eq_some_iff.1 hb
      exact lt_trans h (sorted_lt hs 0 1 (by omega) hb1)
  rw [hj, C36_bracket_unique v x (strict_le hs) j _ hb this]

/-- Every value at or above the first and below the last element has a bracketing index. -/
theorem exists_segment (v : List T) (x : T) (hs : v.Pairwise (· < ·)) (hv : v ≠ [])
    (h0 : v[0]'(List.length_pos_iff.2 hv) ≤ x)
    (hl : x < v[v.length - 1]'(by have := List.length_pos_iff.2 hv; omega)) :
    ∃ i, ∃ h : i + 1 < v.length, v[i] ≤ x ∧ x < v[i + 1] := by
  obtain ⟨j, hj, hb⟩ := C36_bracket v x hs hv
  obtain ⟨b1, b2, b3⟩ := hb
  have hjl : j + 1 < v.length := by
    by_contra hc
    have hje : j = v.length - 1 := by omega
    subst hje
    rcases b2 _ (List.getElem?_eq_getElem b1) with h | ⟨h, h'⟩
    · exact absurd (lt_of_lt_of_le hl h) (lt_irrefl _)
    · have : v[v.length - 1] = v[0] := by congr 1
      rw [this] at h'
      exact absurd (lt_of_lt_of_le h' h0) (lt_irrefl _)
  refine ⟨j, hjl, ?_, b3 _ (List.getElem?_eq_getElem hjl)⟩
  rcases b2 _ (List.getElem?_eq_getElem b1) with h | ⟨h, h'⟩
  · exact h
  · subst h; exact h0

theorem isSorted_iff (v : List T) (hv : v ≠ []) : isSorted v = .ok (decide (v.Pairwise (· ≤ ·))) := by
  induction v with
  | nil => exact absurd rfl hv
  | cons a r ih =>
    cases r with
    | nil => simp [isSorted]
    | cons b r =>
      unfold isSorted
      by_cases h : b < a
      · rw [if_pos h]
        congr 1
        symm
        rw [decide_eq_false_iff_not]
        intro hp
        have := (List.pairwise_cons.1 hp).1 b (by simp)
        exact absurd (lt_of_lt_of_le h this) (lt_irrefl _)
      · rw [if_neg h, ih (by simp)]
        congr 1
        rw [decide_eq_decide]
        constructor
        · intro hp
          refine List.pairwise_cons.2 ⟨?_, hp⟩
          intro c hc
          rcases List.mem_cons.1 hc with rfl | hc
          · exact not_lt.1 h
          · exact le_trans (not_lt.1 h) ((List.pairwise_cons.1 hp).1 c hc)
        · intro hp
          exact (List.pairwise_cons.1 hp).2

end search

variable {K : Type} [Field K] [LinearOrder K] [IsStrictOrderedRing K]

/-- Specification: the height at `x` of the straight line through `(x0, y0)` and `(x1, y1)`: the mean of `y0` and
`y1` weighted by the distances to the other end. -/
def chord (x0 y0 x1 y1 x : K) : K := (y0 * (x1 - x) + y1 * (x - x0)) / (x1 - x0)

theorem chord_left (x0 y0 x1 y1 : K) (h : x0 < x1) : chord x0 y0 x1 y1 x0 = y0 := by
  have : x1 - x0 ≠ 0 := by intro h'; linarith
  unfold chord; field_simp; ring

theorem chord_right (x0 y0 x1 y1 : K) (h : x0 < x1) : chord x0 y0 x1 y1 x1 = y1 := by
  have : x1 - x0 ≠ 0 := by intro h'; linarith
  unfold chord; field_simp; ring

theorem chord_mono (x0 y0 x1 y1 x x' : K) (h : x0 < x1) (hy : y0 ≤ y1) (hx : x ≤ x') :
    chord x0 y0 x1 y1 x ≤ chord x0 y0 x1 y1 x' := by
  have hp : 0 < x1 - x0 := by linarith
  unfold chord
  rw [div_le_div_iff_of_pos_right hp]
  nlinarith [mul_nonneg (sub_nonneg.2 hy) (sub_nonneg.2 hx)]

theorem chord_slope (x0 y0 x1 y1 x : K) (h : x0 < x1) :
    y0 + (y1 - y0) / (x1 - x0) * (x - x0) = chord x0 y0 x1 y1 x := by
  have : x1 - x0 ≠ 0 := by intro h'; linarith
  unfold chord; field_simp; ring

theorem chord_slope_right (x0 y0 x1 y1 x : K) (h : x0 < x1) :
    y1 + (y1 - y0) / (x1 - x0) * (x - x1) = chord x0 y0 x1 y1 x := by
  have : x1 - x0 ≠ 0 := by intro h'; linarith
  unfold chord; field_simp; ring

theorem slopes_spec (dom val : List K) (hs : dom.Pairwise (· < ·)) (hl : dom.length = val.length) :
    ∃ der, slopes dom val = .ok der ∧ der.length = dom.length - 1 ∧
      ∀ i (h : i + 1 < dom.length), der[i]? = some ((val[i + 1] - val[i]) / (dom[i + 1] - dom[i])) := by
  induction dom generalizing val with
  | nil => exact ⟨[], by cases val <;> simp [slopes], rfl, by intro i h; simp at h⟩
  | cons d0 ds ih =>
    cases ds with
    | nil =>
      refine ⟨[], ?_, rfl, ?_⟩
      · cases val <;> simp [slopes]
      · intro i h; simp at h
    | cons d1 ds =>
      obtain ⟨v0, v1, vs, rfl⟩ : ∃ v0 v1 vs, val = v0 :: v1 :: vs := by
        match val, hl with
        | v0 :: v1 :: vs, _ => exact ⟨v0, v1, vs, rfl⟩
        | [_], h => simp at h
        | [], h => simp at h
      obtain ⟨h0, hs'⟩ := List.pairwise_cons.1 hs
      obtain ⟨der, h1, h2, h3⟩ := ih (v1 :: vs) hs' (by simpa using hl)
      have hd : d1 - d0 ≠ 0 := by
        have := h0 d1 (by simp)
        intro h'; linarith
      refine ⟨(v1 - v0) / (d1 - d0) :: der, ?_, ?_, ?_⟩
      · unfold slopes
        unfold divK
        rw [if_neg hd, h1]
        rfl
      · simp [h2]
      · intro i hi
        cases i with
        | zero => rfl
        | succ i =>
          have := h3 i (by simpa using hi)
          simpa using this

/-- What a constructed interpolator contains. -/
structure Made (dom val : List K) (extra : Extra) (allow : Bool) (f : Lin K) : Prop where
  dom_eq : f.dom = dom
  val_eq : f.val = val
  extra_eq : f.extra = extra
  allow_eq : f.allow = allow
  der_len : f.der.length = dom.length - 1
  der_eq : ∀ i, i + 1 < dom.length → ∀ d0 d1 v0 v1, dom[i]? = some d0 → dom[i + 1]? = some d1 → val[i]? = some v0 →
    val[i + 1]? = some v1 → f.der[i]? = some ((v1 - v0) / (d1 - d0))

theorem new_made (dom val : List K) (extra : Extra) (allow : Bool) (hs : dom.Pairwise (· < ·)) (hd : dom ≠ [])
    (hl : dom.length = val.length) : ∃ f, Lin.new dom val extra allow = .ok f ∧ Made dom val extra allow f := by
  obtain ⟨der, h1, h2, h3⟩ := slopes_spec dom val hs hl
  refine ⟨{ dom := dom, val := val, der := der, extra := extra, allow := allow }, ?_, ⟨rfl, rfl, rfl, rfl, h2, ?_⟩⟩
  · unfold Lin.new
    rw [if_neg (by simpa using hl), isSorted_iff dom hd]
    simp only [Res.bind_ok, strict_le hs, decide_true, if_true, h1]
  · intro i hi d0 d1 v0 v1 e1 e2 e3 e4
    obtain ⟨_, rfl⟩ := List.getElem?_eq_some_iff.1 e1
    obtain ⟨_, rfl⟩ := List.getElem?_eq_some_iff.1 e2
    obtain ⟨_, rfl⟩ := List.getElem?_eq_some_iff.1 e3
    obtain ⟨_, rfl⟩ := List.getElem?_eq_some_iff.1 e4
    exact h3 i hi

theorem made_of_new {dom val : List K} {extra : Extra} {allow : Bool} {f : Lin K} (hs : dom.Pairwise (· < ·))
    (hd : dom ≠ []) (hl : dom.length = val.length) (hf : Lin.new dom val extra allow = .ok f) :
    Made dom val extra allow f := by
  obtain ⟨f', h1, h2⟩ := new_made dom val extra allow hs hd hl
  rw [hf] at h1
  cases h1
  exact h2

/-- C38 (construction). Knots of different numbers, unsorted knots are refused with an error, no knots panic, and
strictly increasing knots are accepted. -/
theorem C38_new (dom val : List K) (extra : Extra) (allow : Bool) :
    (dom.length ≠ val.length → Lin.new dom val extra allow = .error .err) ∧
    (dom.length = val.length → dom ≠ [] → ¬ dom.Pairwise (· ≤ ·) → Lin.new dom val extra allow = .error .err) ∧
    (dom = [] → val = [] → Lin.new dom val extra allow = .error .overflow) ∧
    (dom.length = val.length → dom ≠ [] → dom.Pairwise (· < ·) → ∃ f, Lin.new dom val extra allow = .ok f) := by
  refine ⟨?_, ?_, ?_, ?_⟩
  · intro h
    unfold Lin.new; rw [if_pos h]
  · intro h1 h2 h3
    unfold Lin.new
    rw [if_neg (by simpa using h1), isSorted_iff dom h2]
    simp [h3]
  · rintro rfl rfl
    rfl
  · intro h1 h2 h3
    obtain ⟨f, hf, -⟩ := new_made dom val extra allow h3 h2 h1
    exact ⟨f, hf⟩

section made
variable {dom val : List K} {extra : Extra} {allow : Bool} {f : Lin K}

theorem made_inside (hm : Made dom val extra allow f) (hs : dom.Pairwise (· < ·)) (hl : dom.length = val.length)
    (i : Nat) (hi : i + 1 < dom.length) (x : K) (h1 : dom[i] ≤ x) (h2 : x < dom[i + 1]) :
    f.interp x = .ok (chord dom[i] val[i] dom[i + 1] val[i + 1] x) := by
  have g0 : ¬ x < dom[0] := not_lt.2 (le_trans (sorted_le (strict_le hs) 0 i (by omega) (by omega)) h1)
  have gl : ¬ x ≥ dom[dom.length - 1] :=
    not_le.2 (lt_of_lt_of_le h2 (sorted_le (strict_le hs) (i + 1) _ (by omega) (by omega)))
  have hd := hm.der_eq i hi _ _ _ _ (List.getElem?_eq_getElem (by omega)) (List.getElem?_eq_getElem hi)
    (List.getElem?_eq_getElem (by omega)) (List.getElem?_eq_getElem (by omega))
  obtain ⟨hdl, hde⟩ := List.getElem?_eq_some_iff.1 hd
  unfold Lin.interp
  rw [hm.dom_eq, hm.val_eq, at_ok dom 0 (by omega)]
  simp only [Res.bind_ok]
  rw [if_neg g0, at_ok dom _ (by omega)]
  simp only [Res.bind_ok]
  rw [if_neg gl, search_at dom x hs i hi h1 h2]
  simp only [Res.bind_ok]
  rw [at_ok val i (by omega), at_ok f.der i hdl, at_ok dom i (by omega)]
  simp only [Res.bind_ok]
  rw [hde, chord_slope _ _ _ _ _ (sorted_lt hs i (i + 1) (by omega) hi)]

theorem made_left (hm : Made dom val extra allow f) (hl : dom.length = val.length)
    (hd : 0 < dom.length) (x : K) (h : x < dom[0]) :
    f.interp x = if allow then (match extra with
      | .flat => .ok val[0]
      | .linear => (at_ f.der 0 >>= fun g => .ok (val[0] + g * (x - dom[0])))
      | .none => .error .err) else .error .err := by
  unfold Lin.interp
  rw [hm.dom_eq, hm.val_eq, hm.extra_eq, hm.allow_eq, at_ok dom 0 (by omega)]
  simp only [Res.bind_ok]
  rw [if_pos h]
  cases allow
  · rfl
  · cases extra
    · rfl
    · simp only [if_true]; rw [at_ok val 0 (by omega)]
    · simp only [if_true]; rw [at_ok val 0 (by omega)]; rfl

theorem made_right (hm : Made dom val extra allow f) (hs : dom.Pairwise (· < ·)) (hl : dom.length = val.length)
    (hd : 0 < dom.length) (x : K) (h : dom[dom.length - 1] ≤ x) :
    f.interp x = if allow then (match extra with
      | .flat => .ok val[dom.length - 1]
      | .linear => (at_ f.der (dom.length - 2) >>= fun g => .ok (val[dom.length - 1] + g * (x - dom[dom.length - 1])))
      | .none => .error .err) else .error .err := by
  have g0 : ¬ x < dom[0] := not_lt.2 (le_trans (sorted_le (strict_le hs) 0 _ (by omega) (by omega)) h)
  unfold Lin.interp
  rw [hm.dom_eq, hm.val_eq, hm.extra_eq, hm.allow_eq, at_ok dom 0 (by omega)]
  simp only [Res.bind_ok]
  rw [if_neg g0, at_ok dom _ (by omega)]
  simp only [Res.bind_ok]
  rw [if_pos h]
  cases allow
  · rfl
  · cases extra
    · rfl
    · simp only [if_true]; rw [at_ok val _ (by omega)]
    · simp only [if_true]; rw [at_ok val _ (by omega)]; rfl

theorem made_left_linear (hm : Made dom val .linear true f) (hs : dom.Pairwise (· < ·)) (hl : dom.length = val.length)
    (hd : 1 < dom.length) (x : K) (h : x < dom[0]) :
    f.interp x = .ok (chord dom[0] val[0] dom[1] val[1] x) := by
  rw [made_left hm hl (by omega) x h]
  have hd := hm.der_eq 0 hd _ _ _ _ (List.getElem?_eq_getElem (by omega)) (List.getElem?_eq_getElem hd)
    (List.getElem?_eq_getElem (by omega)) (List.getElem?_eq_getElem (by omega))
  obtain ⟨hdl, hde⟩ := List.getElem?_eq_some_iff.1 hd
  simp only [if_true]
  rw [at_ok _ _ hdl]
  simp only [Res.bind_ok]
  rw [hde, chord_slope _ _ _ _ _ (sorted_lt hs 0 1 (by omega) (by omega))]

theorem made_right_linear (hm : Made dom val .linear true f) (hs : dom.Pairwise (· < ·))
    (hl : dom.length = val.length) (hd : 1 < dom.length) (x : K) (h : dom[dom.length - 1] ≤ x) :
    f.interp x = .ok (chord dom[dom.length - 2] val[dom.length - 2] dom[dom.length - 1] val[dom.length - 1] x) := by
  rw [made_right hm hs hl (by omega) x h]
  have e : dom.length - 2 + 1 = dom.length - 1 := by omega
  have hd' := hm.der_eq (dom.length - 2) (by omega) _ _ _ _ (List.getElem?_eq_getElem (by omega))
    (List.getElem?_eq_getElem (by omega))
    (List.getElem?_eq_getElem (by omega)) (List.getElem?_eq_getElem (by omega))
  obtain ⟨hdl, hde⟩ := List.getElem?_eq_some_iff.1 hd'
  simp only [e] at hde
  simp only [if_true]
  rw [at_ok _ _ hdl]
  simp only [Res.bind_ok]
  rw [hde, chord_slope_right _ _ _ _ _ (sorted_lt hs _ _ (by omega) (by omega))]

end made

/-- C38 (between the knots). Between two neighbouring knots the interpolated value is on the straight line through
them. -/
theorem C38_inside (dom val : List K) (extra : Extra) (allow : Bool) (f : Lin K)
    (hf : Lin.new dom val extra allow = .ok f) (hs : dom.Pairwise (· < ·)) (hl : dom.length = val.length)
    (i : Nat) (hi : i + 1 < dom.length) (x : K) (h1 : dom[i] ≤ x) (h2 : x < dom[i + 1]) :
    f.interp x = .ok (chord dom[i] val[i] dom[i + 1] val[i + 1] x) :=
  made_inside (made_of_new hs (by rintro rfl; simp at hi) hl hf) hs hl i hi x h1 h2

/-- C38 (at the knots). At every knot but the last the interpolated value is the knot's value, whatever the
extrapolation settings. -/
theorem C38_knot (dom val : List K) (extra : Extra) (allow : Bool) (f : Lin K)
    (hf : Lin.new dom val extra allow = .ok f) (hs : dom.Pairwise (· < ·)) (hl : dom.length = val.length)
    (i : Nat) (hi : i + 1 < dom.length) : f.interp dom[i] = .ok val[i] := by
  have h := sorted_lt hs i (i + 1) (by omega) hi
  rw [C38_inside dom val extra allow f hf hs hl i hi dom[i] (le_refl _) h, chord_left _ _ _ _ h]

/-- C38 (at the last knot). The last knot belongs to the extrapolation region: it gives its value if extrapolation is
allowed (flat, or linear with two or more knots), and is refused otherwise. -/
theorem C38_last_knot (dom val : List K) (extra : Extra) (allow : Bool) (f : Lin K)
    (hf : Lin.new dom val extra allow = .ok f) (hs : dom.Pairwise (· < ·)) (hl : dom.length = val.length)
    (hd : 1 < dom.length) :
    f.interp dom[dom.length - 1]
      = if allow ∧ extra ≠ .none then .ok val[dom.length - 1] else .error .err := by
  have hm := made_of_new hs (by rintro rfl; simp at hd) hl hf
  cases allow with
  | false => rw [made_right hm hs hl (by omega) _ (le_refl _)]; simp
  | true =>
    cases extra with
    | none => rw [made_right hm hs hl (by omega) _ (le_refl _)]; simp
    | flat => rw [made_right hm hs hl (by omega) _ (le_refl _)]; simp
    | linear =>
      rw [made_right_linear hm hs hl hd _ (le_refl _), chord_right _ _ _ _ (sorted_lt hs _ _ (by omega) (by omega))]
      simp

/-- C38 (no extrapolation). Without permission, or with extrapolation type `None`, every query before the first knot
and at or after the last is refused. -/
theorem C38_refused (dom val : List K) (extra : Extra) (allow : Bool) (f : Lin K)
    (hf : Lin.new dom val extra allow = .ok f) (hs : dom.Pairwise (· < ·)) (hl : dom.length = val.length)
    (hd : 0 < dom.length) (ha : allow = false ∨ extra = .none) (x : K) (hx : x < dom[0] ∨ dom[dom.length - 1] ≤ x) :
    f.interp x = .error .err := by
  have hm := made_of_new hs (by rintro rfl; simp at hd) hl hf
  rcases hx with hx | hx
  · rw [made_left hm hl hd x hx]
    rcases ha with rfl | rfl
    · rfl
    · cases allow <;> rfl
  · rw [made_right hm hs hl hd x hx]
    rcases ha with rfl | rfl
    · rfl
    · cases allow <;> rfl

/-- C38 (flat extrapolation). Outside the knots the value of the nearest end knot. -/
theorem C38_flat (dom val : List K) (f : Lin K) (hf : Lin.new dom val .flat true = .ok f)
    (hs : dom.Pairwise (· < ·)) (hl : dom.length = val.length) (hd : 0 < dom.length) (x : K) :
    (x < dom[0] → f.interp x = .ok val[0]) ∧
    (dom[dom.length - 1] ≤ x → f.interp x = .ok val[dom.length - 1]) := by
  have hm := made_of_new hs (by rintro rfl; simp at hd) hl hf
  exact ⟨fun h => made_left hm hl hd x h, fun h => made_right hm hs hl hd x h⟩

/-- C38 (linear extrapolation). Outside the knots the first and the last line are continued. -/
theorem C38_linear (dom val : List K) (f : Lin K) (hf : Lin.new dom val .linear true = .ok f)
    (hs : dom.Pairwise (· < ·)) (hl : dom.length = val.length) (hd : 1 < dom.length) (x : K) :
    (x < dom[0] → f.interp x = .ok (chord dom[0] val[0] dom[1] val[1] x)) ∧
    (dom[dom.length - 1] ≤ x → f.interp x = .ok (chord dom[dom.length - 2] val[dom.length - 2]
      dom[dom.length - 1] val[dom.length - 1] x)) := by
  have hm := made_of_new hs (by rintro rfl; simp at hd) hl hf
  exact ⟨fun h => made_left_linear hm hs hl hd x h, fun h => made_right_linear hm hs hl hd x h⟩

/-- C38 (bounds). Between two knots the value lies between the two knot values. -/
theorem C38_between (dom val : List K) (extra : Extra) (allow : Bool) (f : Lin K)
    (hf : Lin.new dom val extra allow = .ok f) (hs : dom.Pairwise (· < ·)) (hl : dom.length = val.length)
    (i : Nat) (hi : i + 1 < dom.length) (x : K) (h1 : dom[i] ≤ x) (h2 : x < dom[i + 1]) :
    ∃ y, f.interp x = .ok y ∧ min val[i] val[i + 1] ≤ y ∧ y ≤ max val[i] val[i + 1] := by
  refine ⟨_, C38_inside dom val extra allow f hf hs hl i hi x h1 h2, ?_, ?_⟩
  · have hp : 0 < dom[i + 1] - dom[i] := by linarith
    unfold chord
    rw [le_div_iff₀ hp]
    have m1 := min_le_left val[i] val[i + 1]
    have m2 := min_le_right val[i] val[i + 1]
    nlinarith [mul_nonneg (sub_nonneg.2 m1) (sub_nonneg.2 h2.le), mul_nonneg (sub_nonneg.2 m2) (sub_nonneg.2 h1)]
  · have hp : 0 < dom[i + 1] - dom[i] := by linarith
    unfold chord
    rw [div_le_iff₀ hp]
    have m1 := le_max_left val[i] val[i + 1]
    have m2 := le_max_right val[i] val[i + 1]
    nlinarith [mul_nonneg (sub_nonneg.2 m1) (sub_nonneg.2 h2.le), mul_nonneg (sub_nonneg.2 m2) (sub_nonneg.2 h1)]

/-- The whole behaviour in one place: left of the knots, on a segment, or right of the knots. -/
theorem interp_trichotomy (dom : List K) (hs : dom.Pairwise (· < ·)) (hd : 0 < dom.length) (x : K) :
    x < dom[0] ∨ (∃ i, ∃ h : i + 1 < dom.length, dom[i] ≤ x ∧ x < dom[i + 1]) ∨ dom[dom.length - 1] ≤ x := by
  by_cases h : x < dom[0]
  · exact Or.inl h
  · by_cases h2 : dom[dom.length - 1] ≤ x
    · exact Or.inr (Or.inr h2)
    · exact Or.inr (Or.inl (exists_segment dom x hs (List.length_pos_iff.1 hd) (not_lt.1 h) (not_le.1 h2)))

/-- C38 (monotone). If the knot values do not decrease then the interpolated function does not decrease anywhere,
inside or outside the knots, for every extrapolation setting (on queries it answers). -/
theorem C38_monotone (dom val : List K) (extra : Extra) (allow : Bool) (f : Lin K)
    (hf : Lin.new dom val extra allow = .ok f) (hs : dom.Pairwise (· < ·)) (hl : dom.length = val.length)
    (hd : 1 < dom.length) (hv : val.Pairwise (· ≤ ·)) (x y a b : K) (hxy : x ≤ y) (hx : f.interp x = .ok a)
    (hy : f.interp y = .ok b) : a ≤ b := by
  have hm := made_of_new hs (by rintro rfl; simp at hd) hl hf
  -- lower bound on b and upper bound on a by region
  have up : ∀ x a, f.interp x = .ok a → ∀ k (hk : k < dom.length), x < dom[k] → a ≤ val[k] := by
    intro x a hx k hk hxk
    rcases interp_trichotomy dom hs (by omega) x with h | ⟨i, hi, h1, h2⟩ | h
    · cases allow with
      | false => rw [made_left hm hl (by omega) x h] at hx; simp at hx
      | true =>
        cases extra with
        | none => rw [made_left hm hl (by omega) x h] at hx; simp at hx
        | flat =>
          rw [made_left hm hl (by omega) x h] at hx
          simp at hx
          subst hx
          exact sorted_le hv 0 k (by omega) (by omega)
        | linear =>
          rw [made_left_linear hm hs hl hd x h] at hx
          cases hx
          have := chord_mono dom[0] val[0] dom[1] val[1] x dom[0] (sorted_lt hs 0 1 (by omega) hd)
            (sorted_le hv 0 1 (by omega) (by omega)) h.le
          rw [chord_left _ _ _ _ (sorted_lt hs 0 1 (by omega) hd)] at this
          exact le_trans this (sorted_le hv 0 k (by omega) (by omega))
    · rw [made_inside hm hs hl i hi x h1 h2] at hx
      cases hx
      have hik : i + 1 ≤ k := by
        by_contra hc
        exact absurd (lt_of_lt_of_le hxk (le_trans (sorted_le (strict_le hs) k i (by omega) (by omega)) h1))
          (lt_irrefl _)
      have hlt := sorted_lt hs i (i + 1) (by omega) hi
      have := chord_mono dom[i] val[i] dom[i + 1] val[i + 1] x dom[i + 1] hlt
        (sorted_le hv i (i + 1) (by omega) (by omega)) h2.le
      rw [chord_right _ _ _ _ hlt] at this
      exact le_trans this (sorted_le hv (i + 1) k hik (by omega))
    · exact absurd (lt_of_lt_of_le hxk (le_trans (sorted_le (strict_le hs) k _ (by omega) (by omega)) h)) (lt_irrefl _)
  have down : ∀ x a, f.interp x = .ok a → ∀ k (hk : k < dom.length), dom[k] ≤ x → val[k] ≤ a := by
    intro x a hx k hk hxk
    rcases interp_trichotomy dom hs (by omega) x with h | ⟨i, hi, h1, h2⟩ | h
    · exact absurd (lt_of_lt_of_le h (le_trans (sorted_le (strict_le hs) 0 k (by omega) hk) hxk)) (lt_irrefl _)
    · rw [made_inside hm hs hl i hi x h1 h2] at hx
      cases hx
      have hik : k ≤ i := by
        by_contra hc
        exact absurd (lt_of_lt_of_le h2 (le_trans (sorted_le (strict_le hs) (i + 1) k (by omega) (by omega)) hxk))
          (lt_irrefl _)
      have hlt := sorted_lt hs i (i + 1) (by omega) hi
      have := chord_mono dom[i] val[i] dom[i + 1] val[i + 1] dom[i] x hlt
        (sorted_le hv i (i + 1) (by omega) (by omega)) h1
      rw [chord_left _ _ _ _ hlt] at this
      exact le_trans (sorted_le hv k i hik (by omega)) this
    · cases allow with
      | false => rw [made_right hm hs hl (by omega) x h] at hx; simp at hx
      | true =>
        cases extra with
        | none => rw [made_right hm hs hl (by omega) x h] at hx; simp at hx
        | flat =>
          rw [made_right hm hs hl (by omega) x h] at hx
          simp at hx
          subst hx
          exact sorted_le hv k _ (by omega) (by omega)
        | linear =>
          rw [made_right_linear hm hs hl hd x h] at hx
          cases hx
          have hlt := sorted_lt hs (dom.length - 2) (dom.length - 1) (by omega) (by omega)
          have := chord_mono _ val[dom.length - 2] _ val[dom.length - 1] dom[dom.length - 1] x hlt
            (sorted_le hv (dom.length - 2) (dom.length - 1) (by omega) (by omega)) h
          rw [chord_right _ _ _ _ hlt] at this
          exact le_trans (sorted_le hv k _ (by omega) (by omega)) this
  rcases interp_trichotomy dom hs (by omega) x with h | ⟨i, hi, h1, h2⟩ | h
  · by_cases hy0 : y < dom[0]
    · cases allow with
      | false => rw [made_left hm hl (by omega) x h] at hx; simp at hx
      | true =>
        cases extra with
        | none => rw [made_left hm hl (by omega) x h] at hx; simp at hx
        | flat =>
          rw [made_left hm hl (by omega) x h] at hx
          rw [made_left hm hl (by omega) y hy0] at hy
          simp at hx hy
          rw [← hx, ← hy]
        | linear =>
          rw [made_left_linear hm hs hl hd x h] at hx
          rw [made_left_linear hm hs hl hd y hy0] at hy
          cases hx; cases hy
          exact chord_mono _ _ _ _ _ _ (sorted_lt hs 0 1 (by omega) hd)
            (sorted_le hv 0 1 (by omega) (by omega)) hxy
    · exact le_trans (up x a hx 0 (by omega) h) (down y b hy 0 (by omega) (not_lt.1 hy0))
  · by_cases hyi : y < dom[i + 1]
    · rw [made_inside hm hs hl i hi x h1 h2] at hx
      rw [made_inside hm hs hl i hi y (le_trans h1 hxy) hyi] at hy
      cases hx; cases hy
      exact chord_mono _ _ _ _ _ _ (sorted_lt hs i (i + 1) (by omega) hi)
        (sorted_le hv i (i + 1) (by omega) (by omega)) hxy
    · exact le_trans (up x a hx (i + 1) hi h2) (down y b hy (i + 1) hi (not_lt.1 hyi))
  · have hyl := le_trans h hxy
    cases allow with
    | false => rw [made_right hm hs hl (by omega) x h] at hx; simp at hx
    | true =>
      cases extra with
      | none => rw [made_right hm hs hl (by omega) x h] at hx; simp at hx
      | flat =>
        rw [made_right hm hs hl (by omega) x h] at hx
        rw [made_right hm hs hl (by omega) y hyl] at hy
        simp at hx hy
        rw [← hx, ← hy]
      | linear =>
        rw [made_right_linear hm hs hl hd x h] at hx
        rw [made_right_linear hm hs hl hd y hyl] at hy
        cases hx; cases hy
        exact chord_mono _ _ _ _ _ _ (sorted_lt hs _ _ (by omega) (by omega))
          (sorted_le hv _ _ (by omega) (by omega)) hxy

theorem vecAt_eq (f : Lin K) (x : K) (i : Nat) (hs : searchIndex f.dom x = .ok i) : f.vecAt x i = f.interp x := by
  unfold Lin.vecAt Lin.interp
  rw [hs]
  rfl

theorem lin_vecLoop_eq (f : Lin K) (xs : List K) (is : List Nat) (h : searchEach f.dom xs = .ok is) :
    f.vecLoop xs is = xs.mapM f.interp := by
  induction xs generalizing is with
  | nil => rfl
  | cons x xs ih =>
    unfold searchEach at h
    cases hi : searchIndex f.dom x with
    | error e => rw [hi] at h; simp at h
    | ok i =>
      cases his : searchEach f.dom xs with
      | error e => rw [hi, his] at h; simp at h
      | ok is' =>
        rw [hi, his] at h
        simp only [Res.bind_ok] at h
        cases h
        rw [List.mapM_cons]
        unfold Lin.vecLoop
        rw [vecAt_eq f x i hi, ih is' his]
        rfl

/-- C38 (vectorised). For sorted queries the vectorised interpolation returns what the pointwise one returns for each
query, and fails with the first failing query. -/
theorem C38_vectorised (dom val : List K) (extra : Extra) (allow : Bool) (f : Lin K)
    (hf : Lin.new dom val extra allow = .ok f) (hs : dom.Pairwise (· < ·)) (hl : dom.length = val.length)
    (hd : dom ≠ []) (xs : List K) (hx : xs.Pairwise (· ≤ ·)) : f.interpVec xs = xs.mapM f.interp := by
  have hm := made_of_new hs hd hl hf
  unfold Lin.interpVec
  rw [hm.dom_eq, C37_vectorised dom hs xs hx]
  obtain ⟨is, his⟩ : ∃ is, searchEach dom xs = .ok is := by
    clear hx
    induction xs with
    | nil => exact ⟨[], rfl⟩
    | cons x xs ih =>
      obtain ⟨is, his⟩ := ih
      obtain ⟨i, hi, -⟩ := C36_bracket dom x hs hd
      exact ⟨i :: is, by unfold searchEach; rw [hi, his]; rfl⟩
  rw [his]
  simp only [Res.bind_ok]
  exact lin_vecLoop_eq f xs is (by rw [hm.dom_eq]; exact his)

/-- Concrete case: three knots, linear extrapolation, queries left of, at, between and right of the knots. -/
example : (Lin.new [(1 : ℚ), 2, 4] [1, 3, 2] .linear true >>= fun f => f.interp 3) = .ok (5 / 2) ∧
    (Lin.new [(1 : ℚ), 2, 4] [1, 3, 2] .linear true >>= fun f => f.interpVec [0, 1, 2, 3, 6])
      = .ok [-1, 1, 3, 5 / 2, 1] := by
  refine ⟨?_, ?_⟩ <;> decide +kernel

/-- A single knot with linear extrapolation is accepted and panics on every query. -/
theorem fault_linear_single_knot (d v x : K) :
    ∃ f, Lin.new [d] [v] .linear true = .ok f ∧ f.interp x = .error .index := by
  refine ⟨_, rfl, ?_⟩
  by_cases h : x < d
  · simp [Lin.interp, at_, h]
  · simp [Lin.interp, at_, h]

/-- Repeated knots pass the check of the constructor, and the slope between them is not a number. -/
theorem fault_repeated_knots (d v w : K) (extra : Extra) (allow : Bool) :
    isSorted [d, d] = .ok true ∧ Lin.new [d, d] [v, w] extra allow = .error .nonfinite := by
  have h : isSorted [d, d] = .ok true := by simp [isSorted]
  refine ⟨h, ?_⟩
  unfold Lin.new
  rw [if_neg (by simp), h]
  simp [slopes, divK]

end Verif.Props

import Verif.Props.Interp
import Mathlib.Algebra.BigOperators.Group.List.Basic
/-!
# C39, C40, C50: stepwise and bilinear interpolation, value distribution
-/
set_option autoImplicit false
set_option linter.unusedSectionVars false
namespace Verif.Props
open Verif Verif.QL

section step
variable {T V : Type} [LinearOrder T]

theorem step_new {dom : List T} {val : List V} {allow : Bool} {left right : Option V} (hs : dom.Pairwise (· < ·))
    (hd : dom ≠ []) (hl : dom.length = val.length) :
    Step.new dom val allow left right
      = .ok { dom := dom, val := val, allow := allow, left := left, right := right } := by
  unfold Step.new
  rw [if_neg (by simpa using hl), if_neg (by simpa using hd), isSorted_iff dom hd]
  simp only [Res.bind_ok, strict_le hs, decide_true, if_true]

/-- C39 (construction). Refused with an error: different lengths, no knots, unsorted knots. Strictly increasing knots
are accepted. -/
theorem C39_new (dom : List T) (val : List V) (allow : Bool) (left right : Option V) :
    (dom.length ≠ val.length ∨ dom = [] ∨ ¬ dom.Pairwise (· ≤ ·) →
      Step.new dom val allow left right = .error .err) ∧
    (dom.length = val.length → dom ≠ [] → dom.Pairwise (· < ·) →
      ∃ f, Step.new dom val allow left right = .ok f) := by
  refine ⟨?_, fun h1 h2 h3 => ⟨_, step_new h3 h2 h1⟩⟩
  intro h
  unfold Step.new
  by_cases h1 : dom.length = val.length
  · rw [if_neg (by simpa using h1)]
    by_cases h2 : dom.length = 0
    · rw [if_pos h2]
    · rw [if_neg h2, isSorted_iff dom (by rintro rfl; simp at h2)]
      rcases h with h | rfl | h
      · exact absurd h1 h
      · simp at h2
      · simp [h]
  · rw [if_pos h1]

/-- C39 (inside the domain). From one knot up to, but not including, the next the value is that of the first of the
two; at the last knot it is the last value. -/
theorem C39_inside (dom : List T) (val : List V) (allow : Bool) (left right : Option V) (f : Step T V)
    (hf : Step.new dom val allow left right = .ok f) (hs : dom.Pairwise (· < ·)) (hl : dom.length = val.length)
    (i : Nat) (hi : i < dom.length) (x : T) (h1 : dom[i] ≤ x) (h2 : ∀ h : i + 1 < dom.length, x < dom[i + 1])
    (h3 : i + 1 = dom.length → x = dom[i]) : f.interp x = .ok val[i] := by
  have hd : dom ≠ [] := by rintro rfl; simp at hi
  rw [step_new hs hd hl] at hf
  cases hf
  have g0 : ¬ x < dom[0] := not_lt.2 (le_trans (sorted_le (strict_le hs) 0 i (by omega) (by omega)) h1)
  have gl : ¬ x > dom[dom.length - 1] := by
    rcases Nat.lt_or_ge (i + 1) dom.length with h | h
    · exact not_lt.2 (le_of_lt (lt_of_lt_of_le (h2 h) (sorted_le (strict_le hs) (i + 1) _ (by omega) (by omega))))
    · have e : i = dom.length - 1 := by omega
      subst e
      rw [h3 (by omega)]
      exact lt_irrefl _
  unfold Step.interp
  simp only
  rw [at_ok dom 0 (by omega)]
  simp only [Res.bind_ok]
  rw [if_neg g0, at_ok dom _ (by omega)]
  simp only [Res.bind_ok]
  rw [if_neg gl]
  rcases Nat.lt_or_ge (i + 1) dom.length with h | h
  · rw [search_at dom x hs i h h1 (h2 h)]
    simp only [Res.bind_ok]
    exact at_ok val i (by omega)
  · have e : i = dom.length - 1 := by omega
    subst e
    rw [search_last dom x hs hd h1]
    simp only [Res.bind_ok]
    exact at_ok val _ (by omega)

/-- C39 (outside the domain). The configured values, or the end values when none is configured, or an error when
extrapolation is not allowed. -/
theorem C39_outside (dom : List T) (val : List V) (allow : Bool) (left right : Option V) (f : Step T V)
    (hf : Step.new dom val allow left right = .ok f) (hs : dom.Pairwise (· < ·)) (hl : dom.length = val.length)
    (hd : 0 < dom.length) (x : T) :
    (x < dom[0] → f.interp x = if allow then .ok (left.getD val[0]) else .error .err) ∧
    (dom[dom.length - 1] < x → f.interp x = if allow then .ok (right.getD val[dom.length - 1]) else .error .err) := by
  rw [step_new hs (List.length_pos_iff.1 hd) hl] at hf
  cases hf
  constructor
  · intro h
    unfold Step.interp
    simp only
    rw [at_ok dom 0 (by omega)]
    simp only [Res.bind_ok]
    rw [if_pos h]
    cases allow
    · rfl
    · cases left
      · exact at_ok val 0 (by omega)
      · rfl
  · intro h
    have g0 : ¬ x < dom[0] := not_lt.2 (le_of_lt (lt_of_le_of_lt (sorted_le (strict_le hs) 0 _ (by omega) (by omega)) h))
    unfold Step.interp
    simp only
    rw [at_ok dom 0 (by omega)]
    simp only [Res.bind_ok]
    rw [if_neg g0, at_ok dom _ (by omega)]
    simp only [Res.bind_ok]
    rw [if_pos h]
    cases allow
    · rfl
    · cases right
      · exact at_ok val _ (by omega)
      · rfl

theorem interpEach_mapM (f : Step T V) (xs : List T) : f.interpEach xs = xs.mapM f.interp := by
  induction xs with
  | nil => rfl
  | cons x xs ih => unfold Step.interpEach; rw [List.mapM_cons, ih]; rfl

theorem step_vecLoop (dom : List T) (val : List V) (allow : Bool) (left right : Option V)
    (hs : dom.Pairwise (· < ·)) (hd : 0 < dom.length) (hl : dom.length = val.length) (xs : List T) (is : List Nat)
    (h : searchEach dom xs = .ok is) :
    Step.vecLoop { dom := dom, val := val, allow := allow, left := left, right := right }
      dom[0] dom[dom.length - 1] xs is
      = xs.mapM (Step.interp { dom := dom, val := val, allow := allow, left := none, right := none }) := by
  have hne := List.length_pos_iff.1 hd
  induction xs generalizing is with
  | nil => rfl
  | cons x xs ih =>
    unfold searchEach at h
    cases hi : searchIndex dom x with
    | error e => rw [hi] at h; simp at h
    | ok i =>
      cases his : searchEach dom xs with
      | error e => rw [hi, his] at h; simp at h
      | ok is' =>
        rw [hi, his] at h
        simp only [Res.bind_ok] at h
        cases h
        rw [List.mapM_cons]
        unfold Step.vecLoop
        rw [ih is' his]
        simp only
        by_cases h0 : x < dom[0]
        · have e := (C39_outside dom val allow none none _ (step_new hs hne hl) hs hl hd x).1 h0
          rw [e]
          have hi0 := search_first dom x hs hne h0
          rw [hi] at hi0
          cases hi0
          cases allow
          · simp [h0]
          · simp only [Bool.not_true, Bool.false_and, Bool.false_eq_true, if_false, if_true]
            rw [at_ok val 0 (by omega)]
            rfl
        · by_cases h1 : dom[dom.length - 1] < x
          · have e := (C39_outside dom val allow none none _ (step_new hs hne hl) hs hl hd x).2 h1
            rw [e]
            have hi0 := search_last dom x hs hne h1.le
            rw [hi] at hi0
            cases hi0
            cases allow
            · simp [h1]
            · simp only [Bool.not_true, Bool.false_and, Bool.false_eq_true, if_false, if_true]
              rw [at_ok val _ (by omega)]
              rfl
          · have : (!allow && (decide (x < dom[0]) || decide (x > dom[dom.length - 1]))) = false := by
              simp [h0, not_lt.1 h1]
            rw [this]
            simp only [Bool.false_eq_true, if_false]
            have : Step.interp { dom := dom, val := val, allow := allow, left := none, right := none } x = at_ val i := by
              unfold Step.interp
              simp only
              rw [at_ok dom 0 hd]
              simp only [Res.bind_ok]
              rw [if_neg h0, at_ok dom _ (by omega)]
              simp only [Res.bind_ok]
              rw [if_neg h1, hi]
              rfl
            rw [this]
            rfl

/-- C39 (vectorised, exactly). Up to two queries are interpolated one by one; more than two (sorted) queries give what
the pointwise interpolation gives *without* the configured extrapolation values. -/
theorem C39_vectorised (dom : List T) (val : List V) (allow : Bool) (left right : Option V) (f g : Step T V)
    (hf : Step.new dom val allow left right = .ok f) (hg : Step.new dom val allow none none = .ok g)
    (hs : dom.Pairwise (· < ·)) (hl : dom.length = val.length)
    (hd : dom ≠ []) (xs : List T) (hx : xs.Pairwise (· ≤ ·)) :
    f.interpVec xs = if xs.length ≤ 2 then xs.mapM f.interp else xs.mapM g.interp := by
  rw [step_new hs hd hl] at hf hg
  cases hf; cases hg
  unfold Step.interpVec
  by_cases h : xs.length ≤ 2
  · rw [if_pos h, if_pos h, interpEach_mapM]
  · rw [if_neg h, if_neg h]
    simp only
    rw [C37_vectorised dom hs xs hx]
    obtain ⟨is, his⟩ : ∃ is, searchEach dom xs = .ok is := by
      clear hx h
      induction xs with
      | nil => exact ⟨[], rfl⟩
      | cons x xs ih =>
        obtain ⟨is, his⟩ := ih
        obtain ⟨i, hi, -⟩ := C36_bracket dom x hs hd
        exact ⟨i :: is, by unfold searchEach; rw [hi, his]; rfl⟩
    have hp := List.length_pos_iff.2 hd
    rw [his, at_ok dom 0 hp, at_ok dom _ (by omega)]
    simp only [Res.bind_ok]
    exact step_vecLoop dom val allow left right hs hp hl xs is his

/-- C39 (agreement). The vectorised interpolation equals the pointwise one if the queries stay inside the domain on
every side that has a configured extrapolation value. -/
theorem C39_agrees (dom : List T) (val : List V) (allow : Bool) (left right : Option V) (f : Step T V)
    (hf : Step.new dom val allow left right = .ok f) (hs : dom.Pairwise (· < ·)) (hl : dom.length = val.length)
    (hd : 0 < dom.length) (xs : List T) (hx : xs.Pairwise (· ≤ ·))
    (hleft : left = none ∨ ∀ x ∈ xs, dom[0] ≤ x) (hright : right = none ∨ ∀ x ∈ xs, x ≤ dom[dom.length - 1]) :
    f.interpVec xs = xs.mapM f.interp := by
  have hne := List.length_pos_iff.1 hd
  rw [C39_vectorised dom val allow left right f _ hf (step_new hs hne hl) hs hl hne xs hx]
  by_cases h : xs.length ≤ 2
  · rw [if_pos h]
  · rw [if_neg h]
    clear h hx
    induction xs with
    | nil => rfl
    | cons x xs ih =>
      rw [List.mapM_cons, List.mapM_cons]
      rw [ih (hleft.imp_right fun h y hy => h y (List.mem_cons_of_mem _ hy))
        (hright.imp_right fun h y hy => h y (List.mem_cons_of_mem _ hy))]
      congr 1
      by_cases h0 : x < dom[0]
      · rw [(C39_outside dom val allow left right f hf hs hl hd x).1 h0,
          (C39_outside dom val allow none none _ (step_new hs hne hl) hs hl hd x).1 h0]
        rcases hleft with rfl | hleft
        · rfl
        · exact absurd (lt_of_lt_of_le h0 (hleft x (by simp))) (lt_irrefl _)
      · by_cases h1 : dom[dom.length - 1] < x
        · rw [(C39_outside dom val allow left right f hf hs hl hd x).2 h1,
            (C39_outside dom val allow none none _ (step_new hs hne hl) hs hl hd x).2 h1]
          rcases hright with rfl | hright
          · rfl
          · exact absurd (lt_of_lt_of_le h1 (hright x (by simp))) (lt_irrefl _)
        · obtain ⟨i, hi, hb1, hb2, hb3⟩ := C36_bracket dom x hs hne
          have hle : dom[i] ≤ x := by
            rcases hb2 _ (List.getElem?_eq_getElem hb1) with h | ⟨rfl, h⟩
            · exact h
            · exact absurd h h0
          have h2 : ∀ h : i + 1 < dom.length, x < dom[i + 1] := fun h => hb3 _ (List.getElem?_eq_getElem h)
          have h3 : i + 1 = dom.length → x = dom[i] := by
            intro h
            have e : i = dom.length - 1 := by omega
            subst e
            exact le_antisymm (not_lt.1 h1) hle
          rw [C39_inside dom val allow left right f hf hs hl i hb1 x hle h2 h3,
            C39_inside dom val allow none none _ (step_new hs hne hl) hs hl i hb1 x hle h2 h3]

/-- Concrete case. -/
example : (Step.new [1, 3, 6] [10, 30, 60] true none none >>= fun f => f.interpVec [0, 1, 5, 6, 9])
    = .ok [10, 10, 30, 60, 60] := by decide +kernel

/-- With configured extrapolation values the answer for the same query depends on how many queries come with it. -/
theorem fault_stepwise_extrapolation :
    (Step.new [1, 3, 6] [10, 30, 60] true (some 7) (some 8) >>= fun f => f.interpVec [0, 9]) = .ok [7, 8] ∧
    (Step.new [1, 3, 6] [10, 30, 60] true (some 7) (some 8) >>= fun f => f.interpVec [0, 3, 9]) = .ok [10, 30, 60] := by
  refine ⟨?_, ?_⟩ <;> decide +kernel

end step

variable {K : Type} [Field K] [LinearOrder K] [IsStrictOrderedRing K]

/-! ### C40 -/

/-- The weighted sum `Σ wᵢ vᵢ`. -/
def dot : List K → List K → K
  | w :: ws, v :: vs => w * v + dot ws vs
  | _, _ => 0

theorem sum_set (v : List K) (i : Nat) (h : i < v.length) (a : K) : (v.set i (v[i] + a)).sum = v.sum + a := by
  induction v generalizing i with
  | nil => simp at h
  | cons x xs ih =>
    cases i with
    | zero => simp; ring
    | succ i =>
      simp only [List.set_cons_succ, List.sum_cons, List.getElem_cons_succ]
      rw [ih i (by simpa using h)]; ring

theorem dot_set (w v : List K) (hl : w.length = v.length) (i : Nat) (h : i < v.length) (a : K) :
    dot w (v.set i (v[i] + a)) = dot w v + w[i] * a := by
  induction v generalizing i w with
  | nil => simp at h
  | cons x xs ih =>
    cases w with
    | nil => simp at hl
    | cons y ys =>
      cases i with
      | zero => simp [dot]; ring
      | succ i =>
        simp only [List.set_cons_succ, List.getElem_cons_succ, dot]
        rw [ih ys (by simpa using hl) i (by simpa using h)]; ring

theorem addAt_ok (v : List K) (i : Nat) (h : i < v.length) (a : K) : addAt v i a = .ok (v.set i (v[i] + a)) := by
  unfold addAt; rw [at_ok v i h]; rfl

/-- The two-knot case. -/
theorem distribute_inside (v : List K) (value loc : K) (locs : List K) (hs : locs.Pairwise (· < ·))
    (hl : v.length = locs.length) (i : Nat) (hi : i + 1 < locs.length) (h1 : locs[i] ≤ loc) (h2 : loc < locs[i + 1])
    (h0 : locs[0] < loc) :
    distribute v value loc locs = .ok ((v.set i (v[i] + (1 - (loc - locs[i]) / (locs[i + 1] - locs[i])) * value)).set
      (i + 1) (v[i + 1] + (loc - locs[i]) / (locs[i + 1] - locs[i]) * value)) := by
  have g0 : ¬ loc ≤ locs[0] := not_le.2 h0
  have gl : ¬ loc ≥ locs[v.length - 1] :=
    not_le.2 (lt_of_lt_of_le h2 (sorted_le (strict_le hs) (i + 1) _ (by omega) (by omega)))
  have hne : locs[i + 1] - locs[i] ≠ 0 := by
    have := sorted_lt hs i (i + 1) (by omega) hi
    intro h; linarith
  unfold distribute
  rw [if_neg (by simpa using hl), if_neg (by omega), at_ok locs 0 (by omega)]
  simp only [Res.bind_ok]
  rw [if_neg g0, at_ok locs _ (by omega)]
  simp only [Res.bind_ok]
  rw [if_neg gl, search_at locs loc hs i hi h1 h2]
  simp only [Res.bind_ok]
  rw [at_ok locs i (by omega), at_ok locs (i + 1) hi]
  simp only [Res.bind_ok]
  unfold divK
  rw [if_neg hne]
  simp only [Res.bind_ok]
  rw [addAt_ok v i (by omega)]
  simp only [Res.bind_ok]
  rw [addAt_ok _ (i + 1) (by simp; omega)]
  refine congrArg Except.ok ?_
  rw [List.getElem_set_ne (by omega)]

theorem distribute_first (v : List K) (value loc : K) (locs : List K) (hl : v.length = locs.length)
    (hd : 0 < v.length) (h : loc ≤ locs[0]) : distribute v value loc locs = .ok (v.set 0 (v[0] + value)) := by
  unfold distribute
  rw [if_neg (by simpa using hl), if_neg (by omega), at_ok locs 0 (by omega)]
  simp only [Res.bind_ok]
  rw [if_pos h, addAt_ok v 0 hd]

theorem distribute_last (v : List K) (value loc : K) (locs : List K) (hs : locs.Pairwise (· < ·))
    (hl : v.length = locs.length) (hd : 0 < v.length) (h0 : locs[0] < loc) (h : locs[locs.length - 1] ≤ loc) :
    distribute v value loc locs = .ok (v.set (v.length - 1) (v[v.length - 1] + value)) := by
  unfold distribute
  rw [if_neg (by simpa using hl), if_neg (by omega), at_ok locs 0 (by omega)]
  simp only [Res.bind_ok]
  have : locs[v.length - 1] ≤ loc := by simp only [hl]; exact h
  rw [if_neg (not_le.2 h0), at_ok locs _ (by omega)]
  simp only [Res.bind_ok]
  rw [if_pos this, addAt_ok v _ (by omega)]

theorem distribute_cases (v : List K) (value loc : K) (locs : List K) (hs : locs.Pairwise (· < ·))
    (hl : v.length = locs.length) (hd : 0 < v.length) :
    (loc ≤ locs[0] ∧ distribute v value loc locs = .ok (v.set 0 (v[0] + value))) ∨
    (locs[0] < loc ∧ locs[locs.length - 1] ≤ loc ∧
      distribute v value loc locs = .ok (v.set (v.length - 1) (v[v.length - 1] + value))) ∨
    (∃ i, ∃ hi : i + 1 < locs.length, locs[i] ≤ loc ∧ loc < locs[i + 1] ∧ locs[0] < loc ∧
      distribute v value loc locs = .ok ((v.set i (v[i] + (1 - (loc - locs[i]) / (locs[i + 1] - locs[i])) * value)).set
      (i + 1) (v[i + 1] + (loc - locs[i]) / (locs[i + 1] - locs[i]) * value))) := by
  by_cases h0 : loc ≤ locs[0]
  · exact Or.inl ⟨h0, distribute_first v value loc locs hl hd h0⟩
  · rcases interp_trichotomy locs hs (by omega) loc with h | ⟨i, hi, h1, h2⟩ | h
    · exact absurd h.le h0
    · exact Or.inr (Or.inr ⟨i, hi, h1, h2, not_le.1 h0,
        distribute_inside v value loc locs hs hl i hi h1 h2 (not_le.1 h0)⟩)
    · exact Or.inr (Or.inl ⟨not_le.1 h0, h, distribute_last v value loc locs hs hl hd (not_le.1 h0) h⟩)

/-- C40 (total). The entries add up to their old sum plus the distributed value, and their number does not change. -/
theorem C40_total (v : List K) (value loc : K) (locs : List K) (hs : locs.Pairwise (· < ·))
    (hl : v.length = locs.length) (hd : 0 < v.length) :
    ∃ v', distribute v value loc locs = .ok v' ∧ v'.length = v.length ∧ v'.sum = v.sum + value := by
  rcases distribute_cases v value loc locs hs hl hd with ⟨-, h⟩ | ⟨-, -, h⟩ | ⟨i, hi, -, -, -, h⟩
  · exact ⟨_, h, by simp, sum_set v 0 hd value⟩
  · exact ⟨_, h, by simp, sum_set v _ (by omega) value⟩
  · refine ⟨_, h, by simp, ?_⟩
    have e := sum_set (v.set i (v[i] + (1 - (loc - locs[i]) / (locs[i + 1] - locs[i])) * value)) (i + 1)
      (by simp; omega) ((loc - locs[i]) / (locs[i + 1] - locs[i]) * value)
    rw [List.getElem_set_ne (by omega)] at e
    rw [e, sum_set v i (by omega)]
    ring

/-- C40 (first moment). For a position inside the knots the value's centre of gravity is preserved: the sum of
position times entry grows by position times value. -/
theorem C40_moment (v : List K) (value loc : K) (locs : List K) (hs : locs.Pairwise (· < ·))
    (hl : v.length = locs.length) (hd : 0 < v.length) (h0 : locs[0] ≤ loc) (h1 : loc ≤ locs[locs.length - 1]) :
    ∃ v', distribute v value loc locs = .ok v' ∧ dot locs v' = dot locs v + loc * value := by
  rcases distribute_cases v value loc locs hs hl hd with ⟨g, h⟩ | ⟨-, g, h⟩ | ⟨i, hi, -, -, -, h⟩
  · refine ⟨_, h, ?_⟩
    rw [dot_set locs v hl.symm 0 hd, le_antisymm g h0]
  · refine ⟨_, h, ?_⟩
    rw [dot_set locs v hl.symm _ (by omega)]
    simp only [hl]
    rw [le_antisymm h1 g]
  · refine ⟨_, h, ?_⟩
    have e := dot_set locs (v.set i (v[i] + (1 - (loc - locs[i]) / (locs[i + 1] - locs[i])) * value)) (by simp; omega)
      (i + 1) (by simp; omega) ((loc - locs[i]) / (locs[i + 1] - locs[i]) * value)
    rw [List.getElem_set_ne (by omega)] at e
    rw [e, dot_set locs v hl.symm i (by omega)]
    have hne : locs[i + 1] - locs[i] ≠ 0 := by
      have := sorted_lt hs i (i + 1) (by omega) hi
      intro h; linarith
    field_simp
    ring

/-- C40 (only the neighbours, with non-negative weights). Each entry grows by a weight in [0, 1] times the value; the
weight is zero for every knot that is not a neighbour of the position (the nearest end knot, for a position outside
the knots). -/
theorem C40_weights (v : List K) (value loc : K) (locs : List K) (hs : locs.Pairwise (· < ·))
    (hl : v.length = locs.length) (hd : 0 < v.length) :
    ∃ v', distribute v value loc locs = .ok v' ∧ ∀ k (hk : k < v.length), ∃ w, v'[k]? = some (v[k] + w * value) ∧
      0 ≤ w ∧ w ≤ 1 ∧
      ((∃ j, ∃ hj : j < locs.length, locs[k] < locs[j] ∧ locs[j] ≤ loc) → w = 0) ∧
      ((∃ j, ∃ hj : j < locs.length, loc ≤ locs[j] ∧ locs[j] < locs[k]) → w = 0) := by
  have idx : ∀ i j (hi : i < locs.length) (hj : j < locs.length), locs[i] < locs[j] → i < j := by
    intro i j hi hj h
    by_contra hc
    exact absurd (lt_of_lt_of_le h (sorted_le (strict_le hs) j i (by omega) hi)) (lt_irrefl _)
  have idx' : ∀ i j (hi : i < locs.length) (hj : j < locs.length), locs[i] ≤ locs[j] → i ≤ j := by
    intro i j hi hj h
    by_contra hc
    exact absurd (lt_of_lt_of_le (sorted_lt hs j i (by omega) hi) h) (lt_irrefl _)
  rcases distribute_cases v value loc locs hs hl hd with ⟨g, h⟩ | ⟨g0, g, h⟩ | ⟨i, hi, h1, h2, h0, h⟩
  · refine ⟨_, h, fun k hk => ?_⟩
    by_cases h0 : k = 0
    · subst h0
      refine ⟨1, by simp [hk], by norm_num, le_refl _, ?_, ?_⟩
      · rintro ⟨j, hj, a, b⟩
        exact absurd (lt_of_lt_of_le a (le_trans b g)) (lt_irrefl _)
      · rintro ⟨j, hj, a, b⟩
        have := idx j 0 hj (by omega) b
        omega
    · refine ⟨0, ?_, le_refl _, by norm_num, fun _ => rfl, fun _ => rfl⟩
      rw [List.getElem?_set_ne (by omega), List.getElem?_eq_getElem hk]; simp
  · refine ⟨_, h, fun k hk => ?_⟩
    by_cases hkl : k = v.length - 1
    · subst hkl
      refine ⟨1, by simp [hd], by norm_num, le_refl _, ?_, ?_⟩
      · rintro ⟨j, hj, a, b⟩
        have := idx _ j (by omega) hj a
        omega
      · rintro ⟨j, hj, a, b⟩
        simp only [hl] at b
        exact absurd (lt_of_lt_of_le b (le_trans g a)) (lt_irrefl _)
    · refine ⟨0, ?_, le_refl _, by norm_num, fun _ => rfl, fun _ => rfl⟩
      rw [List.getElem?_set_ne (by omega), List.getElem?_eq_getElem hk]; simp
  · refine ⟨_, h, fun k hk => ?_⟩
    have hp : 0 < locs[i + 1] - locs[i] := by linarith
    have hw0 : 0 ≤ (loc - locs[i]) / (locs[i + 1] - locs[i]) := div_nonneg (by linarith) hp.le
    have hw1 : (loc - locs[i]) / (locs[i + 1] - locs[i]) ≤ 1 := by rw [div_le_one hp]; linarith
    by_cases hki : k = i
    · subst hki
      refine ⟨1 - (loc - locs[k]) / (locs[k + 1] - locs[k]), ?_, by linarith, by linarith, ?_, ?_⟩
      · rw [List.getElem?_set_ne (by omega), List.getElem?_set_self hk]
      · rintro ⟨j, hj, a, b⟩
        have h3 := idx k j (by omega) hj a
        have h4 : locs[j] < locs[k + 1] := lt_of_le_of_lt b h2
        have h5 := idx j (k + 1) hj hi h4
        omega
      · rintro ⟨j, hj, a, b⟩
        exact absurd (lt_of_lt_of_le b (le_trans h1 a)) (lt_irrefl _)
    · by_cases hki' : k = i + 1
      · subst hki'
        refine ⟨(loc - locs[i]) / (locs[i + 1] - locs[i]), ?_, hw0, hw1, ?_, ?_⟩
        · rw [List.getElem?_set_self (by simpa using hk)]
        · rintro ⟨j, hj, a, b⟩
          exact absurd (lt_of_lt_of_le a (le_trans b h2.le)) (lt_irrefl _)
        · rintro ⟨j, hj, a, b⟩
          have h3 := idx j (i + 1) hj hi b
          have h4 := idx' i j (by omega) hj (le_trans h1 a)
          have : j = i := by omega
          subst this
          rw [le_antisymm a h1]
          simp
      · refine ⟨0, ?_, le_refl _, by norm_num, fun _ => rfl, fun _ => rfl⟩
        rw [List.getElem?_set_ne (by omega), List.getElem?_set_ne (by omega), List.getElem?_eq_getElem hk]; simp

/-- C40 (refusals). Vectors of different lengths are refused; empty vectors are left alone. -/
theorem C40_refused (v : List K) (value loc : K) (locs : List K) :
    (v.length ≠ locs.length → distribute v value loc locs = .error .err) ∧
    distribute [] value loc [] = .ok [] := by
  refine ⟨fun h => ?_, rfl⟩
  unfold distribute; rw [if_pos h]

/-- Concrete case. -/
example : distribute [(0 : ℚ), 0, 0, 0] 8 (7 / 2) [1, 2, 3, 5] = .ok [0, 0, 6, 2] := by decide +kernel

/-- With repeated knots the weight is 0/0. -/
theorem fault_distribute_repeated : distribute [(0 : ℚ), 0, 0, 0] 8 1 [0, 1, 1, 2] = .error .nonfinite := by
  decide +kernel

/-! ### C50: bilinear interpolation -/

/-- Specification of the row: what the row interpolator of knot `i` answers at `x`. -/
def RowAt (rows : List (Lin K)) (i : Nat) (x y : K) : Prop := ∃ f, rows[i]? = some f ∧ f.interp x = .ok y

theorem chord_div (t0 y0 t1 y1 t : K) (h : t0 < t1) : y0 + (t - t0) * (y1 - y0) / (t1 - t0) = chord t0 y0 t1 y1 t := by
  have : t1 - t0 ≠ 0 := by intro h'; linarith
  unfold chord; field_simp; ring

theorem chord_div_right (t0 y0 t1 y1 t : K) (h : t0 < t1) : y1 + (t - t1) * (y1 - y0) / (t1 - t0) = chord t0 y0 t1 y1 t := by
  have : t1 - t0 ≠ 0 := by intro h'; linarith
  unfold chord; field_simp; ring

theorem at_some {α : Type} {v : List α} {i : Nat} {a : α} (h : v[i]? = some a) : at_ v i = .ok a := by
  unfold at_; rw [h]

theorem bilin_new {dom : List K} {rows : List (Lin K)} {allow : Bool} {extra : Extra} (hs : dom.Pairwise (· < ·))
    (hd : dom ≠ []) (hl : dom.length = rows.length) :
    Bilin.new dom rows allow extra = .ok { dom := dom, rows := rows, allow := allow, extra := extra } := by
  unfold Bilin.new
  rw [if_neg (by simpa using hl), isSorted_iff dom hd]
  simp only [Res.bind_ok, strict_le hs, decide_true, if_true]

/-- C50 (inside). Between two times the value is on the straight line between what the two rows answer; at a time
knot it is what that knot's row answers. -/
theorem C50_inside (dom : List K) (rows : List (Lin K)) (allow : Bool) (extra : Extra) (f : Bilin K)
    (hf : Bilin.new dom rows allow extra = .ok f) (hs : dom.Pairwise (· < ·)) (hl : dom.length = rows.length)
    (i : Nat) (hi : i + 1 < dom.length) (t x y0 y1 : K) (h1 : dom[i] ≤ t) (h2 : t < dom[i + 1])
    (hy0 : RowAt rows i x y0) (hy1 : RowAt rows (i + 1) x y1) :
    f.interp t x = .ok (chord dom[i] y0 dom[i + 1] y1 t) ∧ (t = dom[i] → f.interp t x = .ok y0) := by
  have hlt := sorted_lt hs i (i + 1) (by omega) hi
  have key : f.interp t x = .ok (chord dom[i] y0 dom[i + 1] y1 t) := by
    rw [bilin_new hs (by rintro rfl; simp at hi) hl] at hf
    cases hf
    obtain ⟨f0, a0, b0⟩ := hy0
    obtain ⟨f1, a1, b1⟩ := hy1
    have g0 : ¬ t < dom[0] := not_lt.2 (le_trans (sorted_le (strict_le hs) 0 i (by omega) (by omega)) h1)
    have gl : ¬ t ≥ dom[dom.length - 1] :=
      not_le.2 (lt_of_lt_of_le h2 (sorted_le (strict_le hs) (i + 1) _ (by omega) (by omega)))
    unfold Bilin.interp
    simp only
    rw [at_ok dom 0 (by omega)]
    simp only [Res.bind_ok]
    rw [if_neg g0, at_ok dom _ (by omega)]
    simp only [Res.bind_ok]
    rw [if_neg gl, search_at dom t hs i hi h1 h2]
    simp only [Res.bind_ok]
    rw [at_ok dom i (by omega), at_ok dom (i + 1) hi]
    simp only [Res.bind_ok]
    rw [at_some a0]
    simp only [Res.bind_ok]
    rw [b0]
    simp only [Res.bind_ok]
    rw [at_some a1]
    simp only [Res.bind_ok]
    rw [b1]
    simp only [Res.bind_ok]
    unfold divK
    rw [if_neg (by intro h; linarith)]
    simp only [Res.bind_ok]
    rw [chord_div _ _ _ _ _ hlt]
  refine ⟨key, ?_⟩
  rintro rfl
  rw [key, chord_left _ _ _ _ hlt]

/-- C50 (outside). Before the first and at or after the last time: the end row (flat), the continued line (linear), or
an error. -/
theorem C50_outside (dom : List K) (rows : List (Lin K)) (allow : Bool) (extra : Extra) (f : Bilin K)
    (hf : Bilin.new dom rows allow extra = .ok f) (hs : dom.Pairwise (· < ·)) (hl : dom.length = rows.length)
    (hd : 1 < dom.length) (t x y0 y1 z0 z1 : K) (hy0 : RowAt rows 0 x y0) (hy1 : RowAt rows 1 x y1)
    (hz0 : RowAt rows (dom.length - 2) x z0) (hz1 : RowAt rows (dom.length - 1) x z1) :
    (t < dom[0] → f.interp t x = if allow = true ∧ extra = .flat then .ok y0
      else if allow = true ∧ extra = .linear then .ok (chord dom[0] y0 dom[1] y1 t) else .error .err) ∧
    (dom[dom.length - 1] ≤ t → f.interp t x = if allow = true ∧ extra = .flat then .ok z1
      else if allow = true ∧ extra = .linear then
        .ok (chord dom[dom.length - 2] z0 dom[dom.length - 1] z1 t) else .error .err) := by
  rw [bilin_new hs (by rintro rfl; simp at hd) hl] at hf
  cases hf
  obtain ⟨f0, a0, b0⟩ := hy0
  obtain ⟨f1, a1, b1⟩ := hy1
  obtain ⟨g0, c0, d0⟩ := hz0
  obtain ⟨g1, c1, d1⟩ := hz1
  constructor
  · intro ht
    unfold Bilin.interp
    simp only
    rw [at_ok dom 0 (by omega)]
    simp only [Res.bind_ok]
    rw [if_pos ht]
    cases allow
    · simp
    · cases extra
      · simp
      · simp only [if_true, at_some a0, Res.bind_ok, b0, and_self]
      · simp only [if_true, at_some a0, Res.bind_ok, b0, at_some a1, b1, at_ok dom 1 hd]
        have hlt := sorted_lt hs 0 1 (by omega) hd
        unfold divK
        rw [if_neg (by intro h; linarith)]
        simp only [Res.bind_ok]
        rw [chord_div _ _ _ _ _ hlt]
        simp
  · intro ht
    have h0 : ¬ t < dom[0] := not_lt.2 (le_trans (sorted_le (strict_le hs) 0 _ (by omega) (by omega)) ht)
    unfold Bilin.interp
    simp only
    rw [at_ok dom 0 (by omega)]
    simp only [Res.bind_ok]
    rw [if_neg h0, at_ok dom _ (by omega)]
    simp only [Res.bind_ok]
    rw [if_pos ht]
    cases allow
    · simp
    · cases extra
      · simp
      · simp only [if_true, at_some c1, Res.bind_ok, d1, and_self]
      · have hlt := sorted_lt hs (dom.length - 2) (dom.length - 1) (by omega) (by omega)
        simp only [if_true, at_some c1, Res.bind_ok, d1]
        rw [if_neg (by omega), at_some c0]
        simp only [Res.bind_ok]
        rw [d0, at_ok dom _ (by omega)]
        simp only [Res.bind_ok]
        unfold divK
        rw [if_neg (by intro h; linarith)]
        simp only [Res.bind_ok]
        rw [chord_div_right _ _ _ _ _ hlt]
        simp

theorem mkRows_spec (xdom : List K) (extra : Extra) (allow : Bool) (hs : xdom.Pairwise (· < ·)) (hd : xdom ≠ [])
    (values : List (List K)) (hv : ∀ r ∈ values, r.length = xdom.length) :
    ∃ rows, mkRows xdom extra allow values = .ok rows ∧ rows.length = values.length ∧
      ∀ i (h : i < values.length), ∃ f, rows[i]? = some f ∧ Lin.new xdom values[i] extra allow = .ok f := by
  induction values with
  | nil => exact ⟨[], rfl, rfl, by intro i h; simp at h⟩
  | cons r rs ih =>
    obtain ⟨f, hf, -⟩ := new_made xdom r extra allow hs hd (hv r (by simp)).symm
    obtain ⟨rows, h1, h2, h3⟩ := ih fun r hr => hv r (List.mem_cons_of_mem _ hr)
    refine ⟨f :: rows, ?_, by simp [h2], ?_⟩
    · unfold mkRows; rw [hf, h1]; rfl
    · intro i hi
      cases i with
      | zero => exact ⟨f, rfl, hf⟩
      | succ i => simpa using h3 i (by simpa using hi)

/-- C50 (rectangle). A surface built from a rectangle of values goes through every grid point that is not in the last
row or the last column, and through those too when both extrapolations are flat. -/
theorem C50_grid (tdom xdom : List K) (values : List (List K)) (xallow : Bool) (xextra : Extra) (tallow : Bool)
    (textra : Extra) (ht : tdom.Pairwise (· < ·)) (hx : xdom.Pairwise (· < ·)) (hn : 2 ≤ tdom.length)
    (hm : 2 ≤ xdom.length) (hl : tdom.length = values.length) (hv : ∀ r ∈ values, r.length = xdom.length) :
    ∃ f, Bilin.ofRect tdom xdom values xdom.length xallow xextra tallow textra = .ok f ∧
      (∀ i j (hi : i + 1 < tdom.length) (hj : j + 1 < xdom.length), ∀ y,
        (values[i]? >>= fun r => r[j]?) = some y → f.interp tdom[i] xdom[j] = .ok y) ∧
      (xallow = true → xextra = .flat → tallow = true → textra = .flat →
        ∀ i j (hi : i < tdom.length) (hj : j < xdom.length), ∀ y,
        (values[i]? >>= fun r => r[j]?) = some y → f.interp tdom[i] xdom[j] = .ok y) := by
  have hxd : xdom ≠ [] := by rintro rfl; simp at hm
  have htd : tdom ≠ [] := by rintro rfl; simp at hn
  obtain ⟨rows, h1, h2, h3⟩ := mkRows_spec xdom xextra xallow hx hxd values hv
  have rowlen : ∀ i (h : i < values.length), values[i].length = xdom.length :=
    fun i h => hv _ (List.getElem_mem h)
  have hval : ∀ i j y, (hi : i < tdom.length) → (hj : j < xdom.length) → (values[i]? >>= fun r => r[j]?) = some y →
      y = (values[i]'(by omega))[j]'(by rw [rowlen i (by omega)]; exact hj) := by
    intro i j y hi hj h
    rw [List.getElem?_eq_getElem (by omega)] at h
    simp only [Option.bind_eq_bind, Option.bind_some] at h
    rw [List.getElem?_eq_getElem (by rw [rowlen i (by omega)]; exact hj)] at h
    cases h
    rfl
  refine ⟨{ dom := tdom, rows := rows, allow := tallow, extra := textra }, ?_, ?_, ?_⟩
  · unfold Bilin.ofRect
    rw [if_neg (by omega), if_neg (by simpa using hl), if_neg (by simp), h1]
    rfl
  · intro i j hi hj y hy
    obtain ⟨f0, a0, b0⟩ := h3 i (by omega)
    obtain ⟨f1, a1, b1⟩ := h3 (i + 1) (by omega)
    have e0 := C38_knot xdom _ xextra xallow f0 b0 hx (rowlen i (by omega)).symm j hj
    have e1 := C38_knot xdom _ xextra xallow f1 b1 hx (rowlen (i + 1) (by omega)).symm j hj
    rw [hval i j y (by omega) (by omega) hy]
    exact (C50_inside tdom rows tallow textra _ (bilin_new ht htd (by omega)) ht (by omega) i hi tdom[i] xdom[j] _ _
      (le_refl _) (sorted_lt ht i (i + 1) (by omega) hi) ⟨f0, a0, e0⟩ ⟨f1, a1, e1⟩).2 rfl
  · rintro rfl rfl rfl rfl i j hi hj y hy
    rw [hval i j y hi hj hy]
    have knot : ∀ k (hk : k < values.length), RowAt rows k xdom[j]
        ((values[k])[j]'(by rw [rowlen k hk]; exact hj)) := by
      intro k hk
      obtain ⟨f0, a0, b0⟩ := h3 k hk
      refine ⟨f0, a0, ?_⟩
      rcases Nat.lt_or_ge (j + 1) xdom.length with h | h
      · exact C38_knot xdom _ _ _ f0 b0 hx (rowlen k hk).symm j h
      · have e : j = xdom.length - 1 := by omega
        subst e
        have := C38_last_knot xdom _ _ _ f0 b0 hx (rowlen k hk).symm (by omega)
        simpa using this
    rcases Nat.lt_or_ge (i + 1) tdom.length with h | h
    · exact (C50_inside tdom rows true .flat _ (bilin_new ht htd (by omega)) ht (by omega) i h tdom[i] xdom[j] _ _
        (le_refl _) (sorted_lt ht i (i + 1) (by omega) h) (knot i (by omega)) (knot (i + 1) (by omega))).2 rfl
    · have e : i = tdom.length - 1 := by omega
      subst e
      have := (C50_outside tdom rows true .flat _ (bilin_new ht htd (by omega)) ht (by omega) (by omega)
        tdom[tdom.length - 1] xdom[j] _ _ _ _ (knot 0 (by omega)) (knot 1 (by omega)) (knot _ (by omega))
        (knot (tdom.length - 1) (by omega))).2 (le_refl _)
      simpa using this

/-- Concrete case: the rectangle of the unit test. -/
example : (Bilin.ofRect [(0 : ℚ), 1, 2] [0, 1, 2] [[0, 1, 2], [1, 2, 3], [2, 3, 4]] 3 true .flat true .flat
    >>= fun f => f.interp (1 / 2) (3 / 2)) = .ok 2 := by decide +kernel

/-- A rectangle with unsorted times is accepted: the time axis is not checked. -/
theorem fault_rectangle_unsorted : (Bilin.ofRect [(2 : ℚ), 1, 3] [0, 1] [[20, 20], [10, 10], [30, 30]] 2 true .flat
    true .flat >>= fun f => f.interp 1 0) = .ok 20 := by decide +kernel

end Verif.Props

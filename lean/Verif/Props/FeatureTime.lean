import Verif.Props.FeatureFlow
import Verif.Props.Clock
/-!
# C114, C115 (exponentially weighted averages and sums), C116 (trade histories)
-/
set_option autoImplicit false
namespace Verif.Props
open Verif Verif.TE Verif.TE.Num Verif.TE.Clock Verif.TE.Feature

/-! ## C114: averages -/

/-- Specification: the nanoseconds of a time scale. -/
def unitNanos : TimeScale → Nat
  | .micro => 10 ^ 3
  | .milli => 10 ^ 6
  | .second => 10 ^ 9
  | .minute => 60 * 10 ^ 9
  | .hour => 3600 * 10 ^ 9
  | .day => 86400 * 10 ^ 9

/-- Specification: the time from `a` to `b` on a scale. -/
noncomputable def elapsed (s : TimeScale) (a b : Nat) : ℝ := ((b : ℝ) - a) / unitNanos s

/-- Specification: what is left of a weight after that time. -/
noncomputable def decay (w : Weight) (a b : Nat) : ℝ := w.weight ^ elapsed w.scale a b

theorem unit_eq (s : TimeScale) : s.nanos = unitNanos s := by cases s <;> simp [TimeScale.nanos, unitNanos]

theorem unit_pos (s : TimeScale) : 0 < unitNanos s := by cases s <;> simp [unitNanos]

theorem diffIn_eq (m : Mode) (s : TimeScale) (a b : Nat) (h : a ≤ b) (hb : b < U64) :
    diffIn m s b a = .ok (elapsed s a b) := by
  unfold diffIn
  rw [unit_eq]
  obtain ⟨q, r, h1, h2, _⟩ := C32_diff m (unitNanos s) b a (unit_pos s) h hb
  rw [h1]
  simp only [Res.bind_ok]
  refine congrArg Except.ok ?_
  unfold elapsed
  have hp : (0 : ℝ) < unitNanos s := by exact_mod_cast unit_pos s
  have : (q : ℝ) * unitNanos s + r = (b : ℝ) - a := by
    rw [← Nat.cast_sub h, ← h2]
    push_cast
    ring
  rw [← this]
  field_simp

theorem apply_eq (m : Mode) (w : Weight) (a b : Nat) (hw : 0 ≤ w.weight) (h : a ≤ b) (hb : b < U64) :
    w.apply m a b = .ok (decay w a b) := by
  unfold Weight.apply
  refine bind_of_ok (diffIn_eq m _ a b h hb) ?_
  unfold powf
  rw [if_neg (fun hc => absurd hc.1 (not_lt.2 hw))]
  rfl

/-- Specification: stamps that are not before `t` and fit the clock. -/
def StampsAfter (t : Nat) (l : List (ℝ × Nat)) : Prop := ∀ e ∈ l, t ≤ e.2 ∧ e.2 < U64

theorem average_step (m : Mode) (e : Ewm) (x : ℝ) (t : Nat) (hw : 0 ≤ e.weight.weight) (h : e.stamp ≤ t) (ht : t < U64) :
    e.average m x t = .ok { e with value := decay e.weight e.stamp t * e.value + (1 - decay e.weight e.stamp t) * x } :=
  bind_of_ok (apply_eq m _ _ _ hw h ht) rfl

theorem sum_step (m : Mode) (e : Ewm) (x : ℝ) (t : Nat) (hw : 0 ≤ e.weight.weight) (h : e.stamp ≤ t) (ht : t < U64) :
    e.sum m x t = .ok { e with value := decay e.weight e.stamp t * e.value + x } :=
  bind_of_ok (apply_eq m _ _ _ hw h ht) rfl

/-- The weights of a series of observations, each measured from `t0`. -/
noncomputable def decays (w : Weight) (t0 : Nat) (l : List (ℝ × Nat)) : List ℝ := l.map fun e => decay w t0 e.2

/-- Specification: the first value and the observations, each with one less its own weight and with the weights of all
later ones. -/
noncomputable def weightedAverage (w : Weight) (t0 : Nat) (v : ℝ) (l : List (ℝ × Nat)) : ℝ :=
  v * (decays w t0 l).prod +
    ∑ i : Fin l.length, (1 - decay w t0 l[i].2) * l[i].1 * (decays w t0 (l.drop (i + 1))).prod

/-- Specification: the first value and the observations, each with the weights of all later ones. -/
noncomputable def weightedSum (w : Weight) (t0 : Nat) (v : ℝ) (l : List (ℝ × Nat)) : ℝ :=
  v * (decays w t0 l).prod + ∑ i : Fin l.length, l[i].1 * (decays w t0 (l.drop (i + 1))).prod

/-- C114: after any series of observations, none before the creation, the average is the first value and the observations,
each with one less its own weight and with the weights of all later ones. All weights are measured from the creation. -/
theorem C114_average (m : Mode) (l : List (ℝ × Nat)) : ∀ (e : Ewm), 0 ≤ e.weight.weight → StampsAfter e.stamp l →
    Ewm.averages m l e = .ok { e with value := weightedAverage e.weight e.stamp e.value l } := by
  induction l with
  | nil => intro e _ _; simp [Ewm.averages, weightedAverage, decays]
  | cons p l ih =>
    intro e hw hl
    obtain ⟨x, t⟩ := p
    obtain ⟨h1, h2⟩ := hl (x, t) List.mem_cons_self
    unfold Ewm.averages
    refine bind_of_ok (average_step m e x t hw h1 h2) ?_
    rw [ih { e with value := decay e.weight e.stamp t * e.value + (1 - decay e.weight e.stamp t) * x } hw (fun q hq => hl q (List.mem_cons_of_mem _ hq))]
    refine congrArg Except.ok ?_
    congr 1
    unfold weightedAverage
    simp only [List.length_cons]
    rw [Fin.sum_univ_succ]
    simp [decays]
    ring

/-- Each update with a series written out: the series of two observations. -/
theorem C114_two (m : Mode) (w : Weight) (hw : 0 ≤ w.weight) (v x y : ℝ) (t0 t1 t2 : Nat) (h1 : t0 ≤ t1) (h2 : t0 ≤ t2)
    (u1 : t1 < U64) (u2 : t2 < U64) :
    Ewm.averages m [(x, t1), (y, t2)] (Ewm.newAverage w v t0) = .ok (Ewm.newAverage w
      (v * decay w t0 t1 * decay w t0 t2 + (1 - decay w t0 t1) * x * decay w t0 t2 + (1 - decay w t0 t2) * y) t0) := by
  rw [C114_average m _ (Ewm.newAverage w v t0) hw (by
    intro e he
    rcases List.mem_cons.1 he with rfl | he
    · exact ⟨h1, u1⟩
    · obtain rfl := List.mem_singleton.1 he; exact ⟨h2, u2⟩)]
  refine congrArg Except.ok ?_
  unfold Ewm.newAverage
  congr 1
  simp [weightedAverage, Fin.sum_univ_succ, decays]
  ring

theorem decay_range (w : Weight) (h0 : 0 ≤ w.weight) (h1 : w.weight ≤ 1) (a b : Nat) (h : a ≤ b) :
    0 ≤ decay w a b ∧ decay w a b ≤ 1 := by
  have he : 0 ≤ elapsed w.scale a b := by
    unfold elapsed
    have : (a : ℝ) ≤ b := by exact_mod_cast h
    have hp : (0 : ℝ) < unitNanos w.scale := by exact_mod_cast unit_pos w.scale
    exact div_nonneg (by linarith) hp.le
  exact ⟨Real.rpow_nonneg h0 _, Real.rpow_le_one h0 h1 he⟩

/-- C114: with a weight between zero and one the average never leaves the range of the first value and the
observations. -/
theorem C114_within (m : Mode) (lo hi : ℝ) (l : List (ℝ × Nat)) : ∀ (e : Ewm), 0 ≤ e.weight.weight → e.weight.weight ≤ 1 →
    StampsAfter e.stamp l → lo ≤ e.value → e.value ≤ hi → (∀ p ∈ l, lo ≤ p.1 ∧ p.1 ≤ hi) →
    ∃ e', Ewm.averages m l e = .ok e' ∧ lo ≤ e'.value ∧ e'.value ≤ hi ∧ e'.stamp = e.stamp := by
  induction l with
  | nil => intro e _ _ _ h1 h2 _; exact ⟨e, rfl, h1, h2, rfl⟩
  | cons p l ih =>
    intro e hw0 hw1 hl h1 h2 hp
    obtain ⟨x, t⟩ := p
    obtain ⟨s1, s2⟩ := hl (x, t) List.mem_cons_self
    obtain ⟨x1, x2⟩ := hp (x, t) List.mem_cons_self
    obtain ⟨d0, d1⟩ := decay_range e.weight hw0 hw1 e.stamp t s1
    dsimp only at x1 x2
    obtain ⟨e', h3, h4, h5, h6⟩ := ih
      { e with value := decay e.weight e.stamp t * e.value + (1 - decay e.weight e.stamp t) * x } hw0 hw1
      (fun q hq => hl q (List.mem_cons_of_mem _ hq))
      (by dsimp only; nlinarith) (by dsimp only; nlinarith) (fun q hq => hp q (List.mem_cons_of_mem _ hq))
    exact ⟨e', bind_of_ok (average_step m e x t hw0 s1 s2) h3, h4, h5, h6⟩

/-- C114: one update moves the average to the observation, up to a part of the distance that shrinks with the time since
creation: late in the life of an average every new observation replaces it. -/
theorem C114_forgets (m : Mode) (e : Ewm) (x : ℝ) (t : Nat) (hw : 0 ≤ e.weight.weight) (h : e.stamp ≤ t) (ht : t < U64) :
    ∃ e', e.average m x t = .ok e' ∧ e'.value - x = decay e.weight e.stamp t * (e.value - x) :=
  ⟨_, average_step m e x t hw h ht, by dsimp only; ring⟩

/-- Specification: the average whose weights are measured from the observation before. -/
noncomputable def intervalAverage (w : Weight) : List (ℝ × Nat) → Nat → ℝ → ℝ
  | [], _, v => v
  | (x, t) :: l, t0, v => intervalAverage w l t (decay w t0 t * v + (1 - decay w t0 t) * x)

theorem decay_half (s : Nat) (t : Nat) : decay ⟨1 / 2, .second⟩ (s * 1000000000) ((s + t) * 1000000000) = (1 / 2) ^ t := by
  unfold decay elapsed unitNanos
  have : (((((s + t) * 1000000000 : Nat) : ℝ) - ((s * 1000000000 : Nat) : ℝ)) / ((10 ^ 9 : Nat) : ℝ)) = (t : ℝ) := by
    push_cast
    ring
  simp only [this]
  rw [Real.rpow_natCast]

/-- C114, what is missing: the average is not the one weighted by the time since the last observation. A weight of one half
per second, a first value of 1 and two observations of 0, after one and after two seconds: 1/8 instead of 1/4. -/
theorem C114_not_interval (m : Mode) :
    Ewm.averages m [(0, 1000000000), (0, 2000000000)] (Ewm.newAverage ⟨1 / 2, .second⟩ 1 0) =
        .ok (Ewm.newAverage ⟨1 / 2, .second⟩ (1 / 8) 0) ∧
      intervalAverage ⟨1 / 2, .second⟩ [(0, 1000000000), (0, 2000000000)] 0 1 = 1 / 4 := by
  have d1 := decay_half 0 1
  have d2 := decay_half 0 2
  have d3 := decay_half 1 1
  norm_num at d1 d2 d3
  constructor
  · rw [C114_two m ⟨1 / 2, .second⟩ (by norm_num) 1 0 0 0 1000000000 2000000000 (by norm_num) (by norm_num)
      (by unfold U64; norm_num) (by unfold U64; norm_num)]
    norm_num
    rw [d1, d2]
    norm_num
  · simp only [intervalAverage]
    norm_num
    rw [d1, d3]
    norm_num

/-- One observation is weighted the same either way. -/
theorem C114_first (m : Mode) (w : Weight) (hw : 0 ≤ w.weight) (v x : ℝ) (t0 t : Nat) (h : t0 ≤ t) (ht : t < U64) :
    ∃ e, Ewm.averages m [(x, t)] (Ewm.newAverage w v t0) = .ok e ∧ e.value = intervalAverage w [(x, t)] t0 v :=
  ⟨_, bind_of_ok (average_step m (Ewm.newAverage w v t0) x t hw h ht) rfl, rfl⟩

/-- An observation before the creation panics in a debug build. -/
theorem C114_backwards (e : Ewm) (x : ℝ) (t : Nat) (h : t < e.stamp) :
    e.average .checked x t = .error .overflow ∧ e.sum .checked x t = .error .overflow := by
  have : e.weight.apply .checked e.stamp t = .error .overflow := by
    unfold Weight.apply diffIn diffScale subU
    rw [if_neg (by omega)]
    rfl
  constructor
  · unfold Ewm.average; rw [this]; rfl
  · unfold Ewm.sum; rw [this]; rfl

/-! ## C115: sums -/

/-- C115: after any series of observations, none before the creation, the sum is that of the observations, each with the
weights of all later ones, measured from the creation. -/
theorem C115_sum (m : Mode) (l : List (ℝ × Nat)) : ∀ (e : Ewm), 0 ≤ e.weight.weight → StampsAfter e.stamp l →
    Ewm.sums m l e = .ok { e with value := weightedSum e.weight e.stamp e.value l } := by
  induction l with
  | nil => intro e _ _; simp [Ewm.sums, weightedSum, decays]
  | cons p l ih =>
    intro e hw hl
    obtain ⟨x, t⟩ := p
    obtain ⟨h1, h2⟩ := hl (x, t) List.mem_cons_self
    unfold Ewm.sums
    refine bind_of_ok (sum_step m e x t hw h1 h2) ?_
    rw [ih { e with value := decay e.weight e.stamp t * e.value + x } hw (fun q hq => hl q (List.mem_cons_of_mem _ hq))]
    refine congrArg Except.ok ?_
    congr 1
    unfold weightedSum
    simp only [List.length_cons]
    rw [Fin.sum_univ_succ]
    simp [decays]
    ring

/-- C115: a new sum starts from nothing, is bounded by the sum of the absolute observations, and not negative if they are
not. -/
theorem C115_bounded (m : Mode) (w : Weight) (h0 : 0 ≤ w.weight) (h1 : w.weight ≤ 1) (t0 : Nat) (l : List (ℝ × Nat))
    (hl : StampsAfter t0 l) :
    ∃ e, Ewm.sums m l (Ewm.newSum w t0) = .ok e ∧ |e.value| ≤ (l.map fun p => |p.1|).sum ∧
      ((∀ p ∈ l, 0 ≤ p.1) → 0 ≤ e.value) := by
  have gen : ∀ (l : List (ℝ × Nat)) (e : Ewm), e.weight = w → e.stamp = t0 → StampsAfter t0 l →
      ∃ e', Ewm.sums m l e = .ok e' ∧ |e'.value| ≤ |e.value| + (l.map fun p => |p.1|).sum ∧
        ((0 ≤ e.value ∧ ∀ p ∈ l, 0 ≤ p.1) → 0 ≤ e'.value) := by
    intro l
    induction l with
    | nil => intro e _ _ _; exact ⟨e, rfl, by simp, fun h => h.1⟩
    | cons p l ih =>
      intro e hw ht hl
      obtain ⟨x, t⟩ := p
      obtain ⟨s1, s2⟩ := hl (x, t) List.mem_cons_self
      obtain ⟨d0, d1⟩ := decay_range w h0 h1 t0 t s1
      obtain ⟨e', h2, h3, h4⟩ := ih { e with value := decay e.weight e.stamp t * e.value + x } hw ht
        (fun q hq => hl q (List.mem_cons_of_mem _ hq))
      refine ⟨e', bind_of_ok (sum_step m e x t (by rw [hw]; exact h0) (by rw [ht]; exact s1) s2) h2, ?_, ?_⟩
      · dsimp only at h3
        rw [hw, ht] at h3
        have a1 : |decay w t0 t * e.value + x| ≤ |decay w t0 t * e.value| + |x| := abs_add_le _ _
        have a2 : |decay w t0 t * e.value| ≤ |e.value| := by
          rw [abs_mul, abs_of_nonneg d0]
          exact mul_le_of_le_one_left (abs_nonneg _) d1
        simp only [List.map_cons, List.sum_cons]
        linarith
      · rintro ⟨e0, hp⟩
        refine h4 ⟨?_, fun q hq => hp q (List.mem_cons_of_mem _ hq)⟩
        dsimp only
        rw [hw, ht]
        have := hp (x, t) List.mem_cons_self
        have := mul_nonneg d0 e0
        dsimp only at *
        linarith
  obtain ⟨e', h2, h3, h4⟩ := gen l (Ewm.newSum w t0) rfl rfl hl
  exact ⟨e', h2, by simpa [Ewm.newSum] using h3, fun hp => h4 ⟨le_refl _, hp⟩⟩

/-- C115, what is missing: observations of 1, after one and after two seconds, with one half per second, sum to 1 + 1/4,
because the first is weighted by the two seconds since creation and not by the one since it was made. -/
theorem C115_not_interval (m : Mode) :
    Ewm.sums m [(1, 1000000000), (1, 2000000000)] (Ewm.newSum ⟨1 / 2, .second⟩ 0) =
      .ok ⟨⟨1 / 2, .second⟩, 0, 5 / 4⟩ := by
  rw [C115_sum m _ (Ewm.newSum ⟨1 / 2, .second⟩ 0) (by norm_num [Ewm.newSum]) (by
    intro e he
    rcases List.mem_cons.1 he with rfl | he
    · exact ⟨Nat.zero_le _, by unfold U64; norm_num⟩
    · obtain rfl := List.mem_singleton.1 he; exact ⟨Nat.zero_le _, by unfold U64; norm_num⟩)]
  refine congrArg Except.ok ?_
  have d2 := decay_half 0 2
  norm_num at d2
  unfold Ewm.newSum
  congr 1
  simp only [weightedSum, List.length_cons, List.length_nil, Fin.sum_univ_succ, decays]
  norm_num [d2]

/-! ## C116: trade histories -/

/-- Specification: the quantity traded. -/
def tradedQty (h : History) : Nat := (h.map (·.2)).sum

/-- Specification: the value traded. -/
def tradedValue (h : History) : Int := (h.map fun e => e.1 * (e.2 : Int)).sum

/-- Specification: an upper bound of all intermediate values. -/
def tradedSize (h : History) : Int := (h.map fun e => |e.1| * (e.2 : Int)).sum

/-- Specification: quantities fit `i64`, and value and quantity fit their types at every point. -/
structure Moderate (h : History) : Prop where
  each : ∀ e ∈ h, e.2 < 2 ^ 63
  value : tradedSize h < 2 ^ 63
  qty : tradedQty h < 2 ^ 64

theorem fitI_ok (m : Mode) (x : Int) (h : |x| < 2 ^ 63) : fitI m x = .ok x := by
  unfold fitI
  rw [abs_lt] at h
  rw [if_pos ⟨h.1.le, h.2⟩]

theorem tradedSize_nonneg (h : History) : 0 ≤ tradedSize h := by
  unfold tradedSize
  refine List.sum_nonneg ?_
  intro x hx
  obtain ⟨e, _, rfl⟩ := List.mem_map.1 hx
  positivity

theorem averageLoop_eq (m : Mode) (h : History) : ∀ (s : Int) (t : Nat), (∀ e ∈ h, e.2 < 2 ^ 63) →
    |s| + tradedSize h < 2 ^ 63 → t + tradedQty h < 2 ^ 64 →
    averageLoop m h s t = .ok (s + tradedValue h, t + tradedQty h) := by
  induction h with
  | nil => intro s t _ _ _; simp [averageLoop, tradedValue, tradedQty]
  | cons e h ih =>
    intro s t he hs ht
    obtain ⟨p, q⟩ := e
    have hq := he (p, q) List.mem_cons_self
    dsimp only at hq
    have e1 : asI64 q = q := by unfold asI64; rw [if_pos hq]
    have hn := tradedSize_nonneg h
    have c1 : tradedSize ((p, q) :: h) = |p| * q + tradedSize h := by simp [tradedSize]
    have c2 : tradedQty ((p, q) :: h) = q + tradedQty h := by simp [tradedQty]
    have c3 : tradedValue ((p, q) :: h) = p * q + tradedValue h := by simp [tradedValue]
    rw [c1] at hs
    rw [c2] at ht
    have hpq : |p * (q : Int)| = |p| * q := by rw [abs_mul, abs_of_nonneg (Int.natCast_nonneg q)]
    have hsa := abs_nonneg s
    have hsum : |s + p * (q : Int)| ≤ |s| + |p| * q := by rw [← hpq]; exact abs_add_le _ _
    unfold averageLoop
    rw [e1]
    refine bind_of_ok (fitI_ok m _ (by rw [hpq]; linarith)) (bind_of_ok (fitI_ok m _ (by linarith))
      (bind_of_ok (addU_ok (by unfold U64; omega)) ?_))
    rw [ih _ _ (fun e' h' => he e' (List.mem_cons_of_mem _ h')) (by linarith) (by omega), c2, c3]
    refine congrArg Except.ok ?_
    ext
    · show s + p * q + tradedValue h = s + (p * q + tradedValue h); ring
    · show t + q + tradedQty h = t + (q + tradedQty h); ring

/-- C116: the average price is value over quantity. -/
theorem C116_average (m : Mode) (h : History) (hm : Moderate h) (hq : 0 < tradedQty h) :
    averagePrice m h = .ok ((tradedValue h : ℝ) / tradedQty h) := by
  unfold averagePrice
  rw [averageLoop_eq m h 0 0 hm.each (by simpa using hm.value) (by simpa using hm.qty)]
  simp only [Res.bind_ok, zero_add]
  rw [if_neg hq.ne']

theorem value_between (h : History) (lo hi : Int) (hp : ∀ e ∈ h, lo ≤ e.1 ∧ e.1 ≤ hi) :
    lo * tradedQty h ≤ tradedValue h ∧ tradedValue h ≤ hi * tradedQty h := by
  induction h with
  | nil => simp [tradedQty, tradedValue]
  | cons e h ih =>
    obtain ⟨h1, h2⟩ := ih (fun e' h' => hp e' (List.mem_cons_of_mem _ h'))
    obtain ⟨p1, p2⟩ := hp e List.mem_cons_self
    have c2 : (tradedQty (e :: h) : Int) = e.2 + tradedQty h := by simp [tradedQty]
    have c3 : tradedValue (e :: h) = e.1 * e.2 + tradedValue h := by simp [tradedValue]
    rw [c2, c3]
    have hn : (0 : Int) ≤ e.2 := Int.natCast_nonneg _
    constructor <;> nlinarith

/-- C116: the average price lies within any bounds of the traded prices. -/
theorem C116_within (m : Mode) (h : History) (hm : Moderate h) (hq : 0 < tradedQty h) (lo hi : Int)
    (hp : ∀ e ∈ h, lo ≤ e.1 ∧ e.1 ≤ hi) : ∃ x, averagePrice m h = .ok x ∧ (lo : ℝ) ≤ x ∧ x ≤ hi := by
  obtain ⟨h1, h2⟩ := value_between h lo hi hp
  refine ⟨_, C116_average m h hm hq, ?_, ?_⟩
  · rw [le_div_iff₀ (by exact_mod_cast hq)]
    exact_mod_cast h1
  · rw [div_le_iff₀ (by exact_mod_cast hq)]
    exact_mod_cast h2

/-- C116: an empty history has no average (it is not a number); pushing adds one trade, at the end. -/
theorem C116_history (m : Mode) (h : History) (p : Int) (q : Nat) :
    averagePrice m [] = .error .nonfinite ∧ histLast [] = none ∧ histLast (histPush h p q) = some (p, q) ∧
      (histPush h p q).length = h.length + 1 ∧ (∀ i : Nat, i < h.length → (histPush h p q)[i]? = h[i]?) := by
  refine ⟨rfl, rfl, by simp [histLast, histPush], by simp [histPush], ?_⟩
  intro i hi
  exact List.getElem?_append_left hi

/-- C116 and the book: on every book, the average price of the trades of a limit order is not worse than its limit. -/
theorem C116_limit (m : Mode) (inst : Nat) (b : OrderBook) (h : Reachable AnyCmd m inst b)
    (s : Spec.BookSide) (o : Spec.Resting) (hv : Valid b.abs (.limit s o)) :
    ∃ b' r, b.processLimit m (incoming s o) = .ok (b', r) ∧
      ∀ hist rem, r = some (hist, rem) → Moderate hist →
        ∃ x, averagePrice m hist = .ok x ∧ match s with | .sell => (o.price : ℝ) ≤ x | .buy => x ≤ (o.price : ℝ) := by
  obtain ⟨b', r, h1, h2⟩ := C06_trade_accounting m inst b h s o hv
  refine ⟨b', r, h1, ?_⟩
  intro hist rem hr hm
  obtain ⟨hne, _, hpos, _⟩ := h2 hist rem hr
  have hq : 0 < tradedQty hist := by
    obtain ⟨e, l, rfl⟩ := List.exists_cons_of_ne_nil hne
    have := (hpos e List.mem_cons_self).1
    simp only [tradedQty, List.map_cons, List.sum_cons]
    omega
  have hb : ∀ e ∈ hist, -tradedSize hist ≤ e.1 ∧ e.1 ≤ tradedSize hist := by
    intro e he
    have h0 := (hpos e he).1
    have h3 : |e.1| * e.2 ≤ tradedSize hist := by
      refine List.single_le_sum ?_ _ (List.mem_map_of_mem (f := fun e : Int × Nat => |e.1| * (e.2 : Int)) he)
      intro x hx
      obtain ⟨e', _, rfl⟩ := List.mem_map.1 hx
      positivity
    have h4 : |e.1| ≤ |e.1| * e.2 := by
      have : (1 : Int) ≤ e.2 := by exact_mod_cast h0
      nlinarith [abs_nonneg e.1]
    exact abs_le.1 (h4.trans h3)
  cases s with
  | sell =>
    obtain ⟨x, hx, hlo, _⟩ := C116_within m hist hm hq o.price (tradedSize hist)
      (fun e he => ⟨(hpos e he).2, (hb e he).2⟩)
    exact ⟨x, hx, hlo⟩
  | buy =>
    obtain ⟨x, hx, _, hhi⟩ := C116_within m hist hm hq (-tradedSize hist) o.price
      (fun e he => ⟨(hb e he).1, (hpos e he).2⟩)
    exact ⟨x, hx, hhi⟩

/-- C116, beyond 64 bits: ten billion times a billion does not fit. A debug build panics, a release build answers a negative
average of a positive price. -/
theorem C116_overflow :
    averagePrice .checked [(10000000000, 1000000000)] = .error .overflow ∧
      averagePrice .wrapping [(10000000000, 1000000000)] = .ok (-8446744073709551616 / 1000000000) := by
  have h1 : averageLoop .wrapping [(10000000000, 1000000000)] 0 0 = .ok (-8446744073709551616, 1000000000) := by decide
  have h2 : averageLoop .checked [(10000000000, 1000000000)] 0 0 = .error .overflow := by decide
  unfold averagePrice
  rw [h1, h2]
  refine ⟨rfl, ?_⟩
  simp only [Res.bind_ok]
  rw [if_neg (by norm_num)]
  push_cast
  rfl

/-- Nine at 101 and three at 103: 101.5 -/
example (m : Mode) : averagePrice m [(101, 9), (103, 3)] = .ok (101.5 : ℝ) := by
  rw [C116_average m _ ⟨by decide, by decide, by decide⟩ (by decide)]
  refine congrArg Except.ok ?_
  norm_num [tradedValue, tradedQty]

end Verif.Props

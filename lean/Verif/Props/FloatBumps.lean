import Verif.Props.FloatDrift
import Verif.Props.FloatInterp
import Verif.Float.Curve
import Verif.Props.ZeroCurve
/-!
# C145: bumping market data and taking the bump away again, in single precision
-/
set_option autoImplicit false
namespace Verif.Props
open Verif Verif.QL Verif.Float

/-- A float that is not zero is given by its value. -/
theorem finite_eq {a a' : Fl} {q : ℚ} (h : f32.Finite a q) (h' : f32.Finite a' q) (h0 : q ≠ 0) : a = a' := by
  obtain ⟨s, rfl, -, -, n, p⟩ := h
  obtain ⟨s', rfl, -, -, n', p'⟩ := h'
  rcases lt_or_gt_of_ne h0 with g | g
  · rw [n g, n' g]
  · rw [p g, p' g]

theorem of_sign (s : Bool) (x : ℚ) (h : |x| ≤ 2 ^ 100) :
    f32.of s x = .fin (if x < 0 then true else if 0 < x then false else s) (f32.rnd x) := by
  unfold Fmt.of
  dsimp only
  rw [if_neg (not_lt.2 (abs_rnd_maxFin f32 (le_f32_max h)))]

theorem mul_one_f {b : Fl} {p : ℚ} (hb : f32.Finite b p) (h : |p| ≤ 2 ^ 100) : f32.mul (f32.lit 1) b = b := by
  have h1 : f32.lit 1 = .fin false 1 := by decide +kernel
  obtain ⟨s, rfl, r, -, n, q⟩ := hb
  rw [h1]
  show f32.of (false != s) (1 * p) = _
  rw [one_mul, of_sign _ _ h, rnd_rep f32 r]
  congr 1
  split_ifs with g g'
  · exact (n g).symm
  · exact (q g').symm
  · simp

theorem mul_zero_f {b : Fl} {p : ℚ} (hb : f32.Finite b p) : ∃ s, f32.mul (f32.lit 0) b = .fin s 0 ∧ f32.mul (f32.lit 0) b.neg = .fin (!s) 0 := by
  have h1 : f32.lit 0 = .fin false 0 := by decide +kernel
  obtain ⟨s, rfl, -⟩ := hb
  refine ⟨s, ?_, ?_⟩
  · rw [h1]
    show f32.of (false != s) (0 * p) = _
    rw [zero_mul, of_sign _ _ (by norm_num), rnd_zero]
    simp
  · rw [h1]
    show f32.of (false != !s) (0 * -p) = _
    rw [zero_mul, of_sign _ _ (by norm_num), rnd_zero]
    simp

/-- Bumped by `b` and back. -/
def tripF (b a : Fl) : Fl := f32.add (f32.add a b) b.neg

theorem add_value {a b : Fl} {q p : ℚ} (ha : f32.Finite a q) (hb : f32.Finite b p) {k : Nat} (hk : k < 100) (h1 : |q| ≤ 2 ^ k)
    (h2 : |p| ≤ 2 ^ k) : f32.Finite (f32.add a b) (f32.rnd (q + p)) ∧ |f32.rnd (q + p)| ≤ 2 ^ (k + 1) := by
  have h : |q + p| ≤ 2 ^ (k + 1) := by
    refine (abs_add_le _ _).trans ?_
    rw [pow_succ]
    linarith
  refine ⟨finite_add ha hb (le_f32_max (h.trans (pow_le_pow_right₀ (by norm_num) (by omega)))), abs_rnd_le f32 h (rep_p _ (by omega))⟩

theorem trip_value {a b : Fl} {q p : ℚ} (ha : f32.Finite a q) (hb : f32.Finite b p) {k : Nat} (hk : k < 98) (h1 : |q| ≤ 2 ^ k)
    (h2 : |p| ≤ 2 ^ k) : f32.Finite (tripF b a) (f32.rnd (f32.rnd (q + p) - p)) ∧ |f32.rnd (f32.rnd (q + p) - p)| ≤ 2 ^ (k + 2) := by
  obtain ⟨x, y⟩ := add_value ha hb (by omega) h1 h2
  have h3 : |(-p)| ≤ 2 ^ (k + 1) := by
    rw [abs_neg]
    exact h2.trans (pow_le_pow_right₀ (by norm_num) (by omega))
  have := add_value x hb.neg (by omega) y h3
  rw [← sub_eq_add_neg] at this
  exact this

/-- A round trip that ends at zero ends at plus zero. -/
theorem trip_zero {a b : Fl} {q p : ℚ} (ha : f32.Finite a q) (hb : f32.Finite b p) {k : Nat} (hk : k < 98) (h1 : |q| ≤ 2 ^ k)
    (h2 : |p| ≤ 2 ^ k) (h0 : f32.rnd (f32.rnd (q + p) - p) = 0) : tripF b a = .fin false 0 := by
  have up : (2 : ℚ) ^ (k + 2) ≤ 2 ^ 100 := pow_le_pow_right₀ (by norm_num) (by omega)
  have e4 : (2 : ℚ) ^ (k + 2) = 4 * 2 ^ k := by ring
  have e2 : (2 : ℚ) ^ (k + 1) = 2 * 2 ^ k := by ring
  obtain ⟨-, y⟩ := add_value ha hb (by omega) h1 h2
  have hw : f32.rnd (q + p) - p = 0 := by
    rw [sub_eq_add_neg] at h0 ⊢
    exact rnd_sum_zero f32 (rep_rnd f32 _) (rep_neg f32 hb.rep) h0
  have hz : p = 0 → q = 0 := by
    rintro rfl
    rw [sub_zero] at hw
    have := rnd_sum_zero f32 ha.rep hb.rep hw
    simpa using this
  obtain ⟨s, rfl, r, -, n, c⟩ := ha
  obtain ⟨t, rfl, r', -, n', c'⟩ := hb
  unfold tripF
  have b1 : |q + p| ≤ 2 ^ 100 := (abs_add_le _ _).trans (by linarith [pow_pos (show (0 : ℚ) < 2 by norm_num) k])
  have b2 : |f32.rnd (q + p) + -p| ≤ 2 ^ 100 := by
    rw [← sub_eq_add_neg, hw, abs_zero]
    positivity
  show f32.add (f32.of (s && t) (q + p)) (.fin (!t) (-p)) = _
  rw [of_sign _ _ b1]
  show f32.of _ (f32.rnd (q + p) + -p) = _
  rw [of_sign _ _ b2, ← sub_eq_add_neg, hw, rnd_zero, if_neg (lt_irrefl _), if_neg (lt_irrefl _)]
  congr 1
  rcases lt_trichotomy p 0 with hp | hp | hp
  · rw [n' hp]
    simp
  · rw [hp, hz hp]
    simp
  · have : ¬ q + p < 0 := by
      intro hneg
      have := rnd_nonpos f32 hneg.le
      linarith
    rw [c' hp, if_neg this]
    split_ifs <;> simp

/-- The second round trip changes nothing, to the last bit. -/
theorem trip_twice {a b : Fl} {q p : ℚ} (ha : f32.Finite a q) (hb : f32.Finite b p) (h1 : |q| ≤ 2 ^ 90) (h2 : |p| ≤ 2 ^ 90) :
    tripF b (tripF b a) = tripF b a := by
  obtain ⟨x, y⟩ := trip_value ha hb (by omega) h1 h2
  have h2' : |p| ≤ 2 ^ (90 + 2) := h2.trans (by norm_num)
  obtain ⟨x', y'⟩ := trip_value x hb (by omega) y h2'
  have nd := no_drift f32 ha.rep hb.rep
  by_cases h0 : f32.rnd (f32.rnd (q + p) - p) = 0
  · rw [trip_zero ha hb (by omega) h1 h2 h0]
    rw [trip_zero ha hb (by omega) h1 h2 h0] at x
    rw [h0] at nd
    have z : |(0 : ℚ)| ≤ 2 ^ 90 := by rw [abs_zero]; positivity
    rw [h0] at x
    exact trip_zero x hb (by omega) z h2 nd
  · rw [nd] at x'
    exact finite_eq x' x h0

/-- How far one round trip goes. -/
theorem trip_near {q p : ℚ} (hq : f32.Rep q) (hp : f32.Rep p) : |f32.rnd (f32.rnd (q + p) - p) - q| ≤ (3 * |q| + 2 * |p|) / 2 ^ 24 := by
  obtain ⟨d, e, hd⟩ := f32_sub_model q (-p) hq (rep_neg f32 hp)
  rw [sub_neg_eq_add] at e
  obtain ⟨d', e', hd'⟩ := f32_sub_model (f32.rnd (q + p)) p (rep_rnd f32 _) hp
  rw [e', e]
  have : ((q + p) * (1 + d) - p) * (1 + d') - q = (q + p) * d + q * d' + (q + p) * d * d' := by ring
  rw [this]
  have u : u24 = 1 / 2 ^ 24 := by unfold u24; norm_num
  rw [u] at hd hd'
  have A : |(q + p) * d| ≤ (|q| + |p|) * (1 / 2 ^ 24) := by
    rw [abs_mul]
    exact mul_le_mul (abs_add_le _ _) hd (abs_nonneg _) (by positivity)
  have B : |q * d'| ≤ |q| * (1 / 2 ^ 24) := by
    rw [abs_mul]
    exact mul_le_mul_of_nonneg_left hd' (abs_nonneg _)
  have C : |(q + p) * d * d'| ≤ (|q| + |p|) * (1 / 2 ^ 24) * (1 / 2 ^ 24) := by
    rw [abs_mul]
    exact mul_le_mul A hd' (abs_nonneg _) (by positivity)
  have s1 := abs_add_le ((q + p) * d + q * d') ((q + p) * d * d')
  have s2 := abs_add_le ((q + p) * d) (q * d')
  have n1 := abs_nonneg q
  have n2 := abs_nonneg p
  have : (|q| + |p|) * (1 / 2 ^ 24) * (1 / 2 ^ 24) ≤ (|q| + |p|) * (1 / 2 ^ 24) := by
    have : (0 : ℚ) ≤ (|q| + |p|) * (1 / 2 ^ 24) := by positivity
    nlinarith
  calc _ ≤ (|q| + |p|) * (1 / 2 ^ 24) + |q| * (1 / 2 ^ 24) + (|q| + |p|) * (1 / 2 ^ 24) := by linarith
    _ = (3 * |q| + 2 * |p|) / 2 ^ 24 := by ring

/-- Masked by one or by zero, a bump is itself or a zero, and the bump that takes it back is its opposite. -/
theorem mask_bump (t1 t2 t : Fl) {b : Fl} {p : ℚ} (hb : f32.Finite b p) (h : |p| ≤ 2 ^ 90) :
    f32.Finite (f32.mul (bumpMaskF t1 t2 t) b) (if t > t1 ∧ t ≤ t2 then p else 0) ∧
      f32.mul (bumpMaskF t1 t2 t) b.neg = (f32.mul (bumpMaskF t1 t2 t) b).neg := by
  have h' : |p| ≤ 2 ^ 100 := h.trans (by norm_num)
  unfold bumpMaskF
  by_cases hc : t > t1 ∧ t ≤ t2
  · rw [if_pos hc, if_pos hc, mul_one_f hb h', mul_one_f hb.neg (by rwa [abs_neg])]
    exact ⟨hb, rfl⟩
  · rw [if_neg hc, if_neg hc]
    obtain ⟨s, e1, e2⟩ := mul_zero_f hb
    rw [e1, e2]
    refine ⟨⟨s, rfl, rep_zero f32, ?_, fun h => absurd h (lt_irrefl _), fun h => absurd h (lt_irrefl _)⟩, ?_⟩
    · rw [abs_zero]
      exact (maxFin_pos f32).le
    · show _ = Fl.fin (!s) (-0)
      rw [neg_zero]

/-- The rates after a bump and its opposite. -/
def tripRates (t1 t2 b : Fl) (rates times : List Fl) : List Fl :=
  List.zipWith (fun r t => tripF (f32.mul (bumpMaskF t1 t2 t) b) r) rates times

theorem zip_trip (t1 t2 : Fl) {b : Fl} {p : ℚ} (hb : f32.Finite b p) (h : |p| ≤ 2 ^ 90) (rates times : List Fl) :
    List.zipWith (fun r t => f32.add r (f32.mul (bumpMaskF t1 t2 t) b.neg))
      (List.zipWith (fun r t => f32.add r (f32.mul (bumpMaskF t1 t2 t) b)) rates times) times = tripRates t1 t2 b rates times := by
  unfold tripRates
  induction rates generalizing times with
  | nil => rfl
  | cons r rs ih =>
    cases times with
    | nil => rfl
    | cons t ts =>
      simp only [List.zipWith_cons_cons, ih, tripF, (mask_bump t1 t2 t hb h).2]

theorem trip_rates_twice (t1 t2 : Fl) {b : Fl} {p : ℚ} (hb : f32.Finite b p) (h : |p| ≤ 2 ^ 90) (rates times : List Fl)
    (hr : ∀ r ∈ rates, ∃ q, f32.Finite r q ∧ |q| ≤ 2 ^ 90) :
    tripRates t1 t2 b (tripRates t1 t2 b rates times) times = tripRates t1 t2 b rates times := by
  unfold tripRates
  induction rates generalizing times with
  | nil => rfl
  | cons r rs ih =>
    cases times with
    | nil => rfl
    | cons t ts =>
      simp only [List.zipWith_cons_cons]
      rw [ih ts fun r hr' => hr r (List.mem_cons_of_mem _ hr')]
      congr 1
      obtain ⟨q, hq, hq'⟩ := hr r (List.mem_cons_self ..)
      refine trip_twice hq (mask_bump t1 t2 t hb h).1 hq' ?_
      split_ifs
      · exact h
      · rw [abs_zero]; positivity

/-- When the interpolator is built depends on the knots alone. -/
theorem linNewF_iff (dom val val' : List Fl) (hl : val.length = val'.length) (extra : Extra) (allow : Bool) (f : Lin Fl)
    (h : linNewF dom val extra allow = .ok f) : ∃ f', linNewF dom val' extra allow = .ok f' := by
  unfold linNewF at h ⊢
  rw [hl] at h
  split_ifs at h ⊢ with h1
  cases hs : isSorted dom with
  | error e => rw [hs] at h; cases h
  | ok v =>
    rw [hs] at h
    cases v with
    | false => cases h
    | true => exact ⟨_, rfl⟩

theorem mkRatesF_iff (times rs rs' : List Fl) (hl : rs.length = rs'.length) (f : RateInterpF) (h : mkRatesF times rs = .ok f) :
    ∃ f', mkRatesF times rs' = .ok f' := by
  unfold mkRatesF at h ⊢
  by_cases h1 : rs.length = 1
  · rw [if_pos (hl ▸ h1), at_ok rs' 0 (by omega)]
    exact ⟨_, rfl⟩
  · rw [if_neg h1] at h
    rw [if_neg (hl ▸ h1)]
    obtain ⟨l, e, -⟩ := (bind_ok_iff _ _ _).1 h
    obtain ⟨l', e'⟩ := linNewF_iff times rs rs' hl .flat true l e
    rw [e']
    exact ⟨_, rfl⟩

/-- What a bump returns. -/
theorem bump_iff (E : Fl → Fl) (c c' : CurveF) (time1 time2 : Option Fl) (b : Fl) (h : c.bumpTimes E time1 time2 b = .ok c') :
    c.rates.length = c.times.length ∧ ¬ (time1.getD (f32.lit (-99999999)) > time2.getD (f32.lit 99999999)) ∧ c'.times = c.times ∧
    c'.rates = List.zipWith (fun r t => f32.add r
      (f32.mul (bumpMaskF (time1.getD (f32.lit (-99999999))) (time2.getD (f32.lit 99999999)) t) b)) c.rates c.times ∧
    mkRatesF c.times c'.rates = .ok c'.rateInterp ∧ CurveF.of E c'.rateInterp c'.rates c.times = .ok c' := by
  unfold CurveF.bumpTimes at h
  dsimp only at h
  split_ifs at h with h1 h2
  obtain ⟨ri, e1, h⟩ := (bind_ok_iff _ _ _).1 h
  have h' := h
  unfold CurveF.of at h
  obtain ⟨d, e2, h⟩ := (bind_ok_iff _ _ _).1 h
  obtain rfl := Except.ok.inj h
  exact ⟨not_not.1 h1, h2, rfl, rfl, e1, h'⟩

theorem bump_eq (E : Fl → Fl) (c c' : CurveF) (time1 time2 : Option Fl) (b : Fl) (h1 : c.rates.length = c.times.length)
    (h2 : ¬ (time1.getD (f32.lit (-99999999)) > time2.getD (f32.lit 99999999)))
    (h3 : List.zipWith (fun r t => f32.add r
      (f32.mul (bumpMaskF (time1.getD (f32.lit (-99999999))) (time2.getD (f32.lit 99999999)) t) b)) c.rates c.times = c'.rates)
    (h4 : mkRatesF c.times c'.rates = .ok c'.rateInterp) (h5 : CurveF.of E c'.rateInterp c'.rates c.times = .ok c') :
    c.bumpTimes E time1 time2 b = .ok c' := by
  unfold CurveF.bumpTimes
  dsimp only
  rw [if_neg (not_not.2 h1), if_neg h2, h3, h4]
  exact h5

/-- The rates a curve caches, all of sensible size. -/
def SensibleRates (c : CurveF) : Prop := ∀ r ∈ c.rates, ∃ q, f32.Finite r q ∧ |q| ≤ 2 ^ 90

/-- What a risk run leaves behind. -/
theorem run_rates (E : Fl → Fl) (c c1 : CurveF) (time1 time2 : Option Fl) {b : Fl} {p : ℚ} (hb : f32.Finite b p) (hp : |p| ≤ 2 ^ 90)
    (h : c.riskRun E time1 time2 b = .ok c1) :
    c1.times = c.times ∧ c.rates.length = c.times.length ∧
    c1.rates = tripRates (time1.getD (f32.lit (-99999999))) (time2.getD (f32.lit 99999999)) b c.rates c.times := by
  obtain ⟨m, e1, e2⟩ := (bind_ok_iff _ _ _).1 h
  obtain ⟨a1, -, a3, a4, -, -⟩ := bump_iff E c m time1 time2 b e1
  obtain ⟨-, -, b3, b4, -, -⟩ := bump_iff E m c1 time1 time2 b.neg e2
  refine ⟨b3.trans a3, a1, ?_⟩
  rw [b4, a3, a4]
  exact zip_trip _ _ hb hp _ _

/-- **C145** (no drift). Bump a curve over any interval and take the bump away again: the first time this may move the cached
rates, but from then on the curve it leaves is the very same one, however often it is repeated, and whatever the exponential is. -/
theorem C145_no_drift (E : Fl → Fl) (c c1 : CurveF) (time1 time2 : Option Fl) {b : Fl} {p : ℚ} (hb : f32.Finite b p) (hp : |p| ≤ 2 ^ 90)
    (hc : SensibleRates c) (h : c.riskRun E time1 time2 b = .ok c1) : c1.riskRun E time1 time2 b = .ok c1 := by
  obtain ⟨r1, r2, r3⟩ := run_rates E c c1 time1 time2 hb hp h
  obtain ⟨m, e1, e2⟩ := (bind_ok_iff _ _ _).1 h
  obtain ⟨a1, a2, a3, a4, a5, a6⟩ := bump_iff E c m time1 time2 b e1
  obtain ⟨b1, -, b3, b4, b5, b6⟩ := bump_iff E m c1 time1 time2 b.neg e2
  have len : c1.rates.length = c1.times.length := by
    rw [r3, r1]
    unfold tripRates
    rw [List.length_zipWith]
    omega
  -- the first half of the second run
  obtain ⟨rs, hrs⟩ : ∃ rs, rs = List.zipWith (fun r t => f32.add r
      (f32.mul (bumpMaskF (time1.getD (f32.lit (-99999999))) (time2.getD (f32.lit 99999999)) t) b)) c1.rates c1.times := ⟨_, rfl⟩
  have lrs : rs.length = c1.rates.length := by rw [hrs, List.length_zipWith]; omega
  have lm : m.rates.length = c1.rates.length := by rw [b1, a3, len, r1]
  obtain ⟨ri, hri⟩ := mkRatesF_iff c.times m.rates rs (by omega) m.rateInterp a5
  have hof : ∃ m', CurveF.of E ri rs c.times = .ok m' := by
    unfold CurveF.of at a6
    obtain ⟨d, e, -⟩ := (bind_ok_iff _ _ _).1 a6
    obtain ⟨d', e'⟩ := linNewF_iff _ _ (discountsF E rs c.times) (by
      unfold discountsF
      rw [List.length_zipWith, List.length_zipWith]
      omega) _ _ _ e
    unfold CurveF.of
    rw [e']
    exact ⟨_, rfl⟩
  obtain ⟨m', hm'⟩ := hof
  have hm2 := hm'
  unfold CurveF.of at hm2
  obtain ⟨d, -, hm2⟩ := (bind_ok_iff _ _ _).1 hm2
  have mr : m'.rates = rs := by rw [← Except.ok.inj hm2]
  have mt : m'.times = c.times := by rw [← Except.ok.inj hm2]
  have mi : m'.rateInterp = ri := by rw [← Except.ok.inj hm2]
  have first : c1.bumpTimes E time1 time2 b = .ok m' := by
    refine bump_eq E c1 m' time1 time2 b len a2 ?_ ?_ ?_
    · rw [mr, hrs]
    · rw [mr, mi, r1, hri]
    · rw [mr, mi, r1, hm']
  have second : m'.bumpTimes E time1 time2 b.neg = .ok c1 := by
    refine bump_eq E m' c1 time1 time2 b.neg (by rw [mr, mt, lrs, len, r1]) a2 ?_ ?_ ?_
    · rw [mr, mt, hrs, r1, zip_trip _ _ hb hp, r3]
      exact trip_rates_twice _ _ hb hp _ _ hc
    · rw [mt, ← a3]
      exact b5
    · rw [mt, ← a3]
      exact b6
  unfold CurveF.riskRun
  rw [first]
  exact second

/-- Any number of risk runs, one after the other. -/
def riskRuns (E : Fl → Fl) (time1 time2 : Option Fl) (b : Fl) : Nat → CurveF → Res CurveF
  | 0, c => .ok c
  | n + 1, c => do
    let c ← riskRuns E time1 time2 b n c
    c.riskRun E time1 time2 b

/-- **C145** (any number of runs). -/
theorem C145_runs (E : Fl → Fl) (c c1 : CurveF) (time1 time2 : Option Fl) {b : Fl} {p : ℚ} (hb : f32.Finite b p) (hp : |p| ≤ 2 ^ 90)
    (hc : SensibleRates c) (h : c.riskRun E time1 time2 b = .ok c1) (n : Nat) : riskRuns E time1 time2 b (n + 1) c = .ok c1 := by
  induction n with
  | zero => exact h
  | succ n ih =>
    show (riskRuns E time1 time2 b (n + 1) c >>= fun c => c.riskRun E time1 time2 b) = _
    rw [ih]
    exact C145_no_drift E c c1 time1 time2 hb hp hc h

/-- **C145** (how far). The rates a risk run leaves are those from before, outside the interval exactly and inside it up to
`(3 * rate + 2 * bump) / 2 ^ 24`; the times stay. -/
theorem C145_near (E : Fl → Fl) (c c1 : CurveF) (time1 time2 : Option Fl) {b : Fl} {p : ℚ} (hb : f32.Finite b p) (hp : |p| ≤ 2 ^ 90)
    (hc : SensibleRates c) (h : c.riskRun E time1 time2 b = .ok c1) :
    c1.times = c.times ∧ c1.rates.length = c.rates.length ∧
    ∀ i (hi : i < c.rates.length) (hi' : i < c1.rates.length) (ht : i < c.times.length), ∃ q q', f32.Finite c.rates[i] q ∧ f32.Finite c1.rates[i] q' ∧
      |q' - q| ≤ (3 * |q| + 2 * |p|) / 2 ^ 24 ∧
      (¬ (time1.getD (f32.lit (-99999999)) < c.times[i] ∧ c.times[i] ≤ time2.getD (f32.lit 99999999)) → q' = q) := by
  obtain ⟨r1, r2, r3⟩ := run_rates E c c1 time1 time2 hb hp h
  refine ⟨r1, by rw [r3]; unfold tripRates; rw [List.length_zipWith]; omega, ?_⟩
  intro i hi hi' ht
  obtain ⟨q, hq, hq'⟩ := hc _ (List.getElem_mem hi)
  have e : c1.rates[i] = tripF (f32.mul (bumpMaskF (time1.getD (f32.lit (-99999999))) (time2.getD (f32.lit 99999999)) c.times[i]) b) c.rates[i] := by
    have : c1.rates[i]? = some (tripF (f32.mul (bumpMaskF (time1.getD (f32.lit (-99999999))) (time2.getD (f32.lit 99999999)) c.times[i]) b) c.rates[i]) := by
      rw [r3]
      unfold tripRates
      rw [List.getElem?_zipWith, List.getElem?_eq_getElem hi, List.getElem?_eq_getElem ht]
    rw [List.getElem?_eq_getElem hi'] at this
    exact Option.some.inj this
  have mb := (mask_bump (time1.getD (f32.lit (-99999999))) (time2.getD (f32.lit 99999999)) c.times[i] hb hp).1
  by_cases hin : c.times[i] > time1.getD (f32.lit (-99999999)) ∧ c.times[i] ≤ time2.getD (f32.lit 99999999)
  · rw [if_pos hin] at mb
    obtain ⟨x, -⟩ := trip_value hq mb (by omega) hq' hp
    refine ⟨q, _, hq, e ▸ x, trip_near hq.rep hb.rep, fun hn => absurd hin hn⟩
  · rw [if_neg hin] at mb
    obtain ⟨x, -⟩ := trip_value hq mb (by omega) hq' (by rw [abs_zero]; positivity)
    rw [add_zero, rnd_rep f32 hq.rep, sub_zero, rnd_rep f32 hq.rep] at x
    refine ⟨q, q, hq, e ▸ x, ?_, fun _ => rfl⟩
    rw [sub_self, abs_zero]
    positivity

/-- **C145** (constant volatility). A vega run leaves a volatility within `(3 * volatility + 2 * bump) / 2 ^ 24`, and every further
one leaves it as it is. -/
theorem C145_volatility {v b : Fl} {q p : ℚ} (hv : f32.Finite v q) (hb : f32.Finite b p) (h1 : |q| ≤ 2 ^ 90) (h2 : |p| ≤ 2 ^ 90) :
    (∃ q', f32.Finite (constVolBumpF (constVolBumpF v b) b.neg) q' ∧ |q' - q| ≤ (3 * |q| + 2 * |p|) / 2 ^ 24) ∧
    constVolBumpF (constVolBumpF (constVolBumpF (constVolBumpF v b) b.neg) b) b.neg = constVolBumpF (constVolBumpF v b) b.neg :=
  ⟨⟨_, (trip_value hv hb (by omega) h1 h2).1, trip_near hv.rep hb.rep⟩, trip_twice hv hb h1 h2⟩

theorem zip_zip {α β : Type} (f g : β → α → α) (as : List α) (xs : List β) :
    List.zipWith (fun a x => g x a) (List.zipWith (fun a x => f x a) as xs) xs = List.zipWith (fun a x => g x (f x a)) as xs := by
  induction as generalizing xs with
  | nil => rfl
  | cons a as ih =>
    cases xs with
    | nil => rfl
    | cons x xs => simp only [List.zipWith_cons_cons, ih]

theorem zip_idem {α β : Type} (h : β → α → α) (as : List α) (xs : List β) (hi : ∀ a ∈ as, ∀ x, h x (h x a) = h x a) :
    List.zipWith (fun a x => h x a) (List.zipWith (fun a x => h x a) as xs) xs = List.zipWith (fun a x => h x a) as xs := by
  rw [zip_zip]
  induction as generalizing xs with
  | nil => rfl
  | cons a as ih =>
    cases xs with
    | nil => rfl
    | cons x xs =>
      simp only [List.zipWith_cons_cons]
      rw [ih xs fun a ha => hi a (List.mem_cons_of_mem _ ha), hi a (List.mem_cons_self ..)]

theorem zip_rel {α β : Type} (R : α → α → Prop) (h : β → α → α) (as : List α) (xs : List β) (hl : as.length = xs.length)
    (hi : ∀ a ∈ as, ∀ x, R a (h x a)) : List.Forall₂ R as (List.zipWith (fun a x => h x a) as xs) := by
  induction as generalizing xs with
  | nil =>
    cases xs with
    | nil => exact .nil
    | cons x xs => simp at hl
  | cons a as ih =>
    cases xs with
    | nil => simp at hl
    | cons x xs => exact .cons (hi a (List.mem_cons_self ..) x) (ih xs (by simpa using hl) fun a ha => hi a (List.mem_cons_of_mem _ ha))

/-- The quotes of a surface after a vega run: bumped, then bumped back. -/
def surfaceRun (times xs : List Fl) (time1 time2 left right : Option Fl) (b : Fl) (grid : List (List Fl)) : List (List Fl) :=
  surfaceBumpF times xs time1 time2 left right b.neg (surfaceBumpF times xs time1 time2 left right b grid)

/-- **C145** (volatility surface). The same for every quote of a surface, whatever the maturities and strikes bumped. -/
theorem C145_surface (times xs : List Fl) (time1 time2 left right : Option Fl) {b : Fl} {p : ℚ} (hb : f32.Finite b p) (hp : |p| ≤ 2 ^ 90)
    (grid : List (List Fl)) (hg : ∀ row ∈ grid, ∀ v ∈ row, ∃ q, f32.Finite v q ∧ |q| ≤ 2 ^ 90) :
    surfaceRun times xs time1 time2 left right b (surfaceRun times xs time1 time2 left right b grid) =
      surfaceRun times xs time1 time2 left right b grid ∧
    (grid.length = times.length → (∀ row ∈ grid, row.length = xs.length) →
      List.Forall₂ (List.Forall₂ fun v v' => ∃ q q', f32.Finite v q ∧ f32.Finite v' q' ∧ |q' - q| ≤ (3 * |q| + 2 * |p|) / 2 ^ 24)
        grid (surfaceRun times xs time1 time2 left right b grid)) := by
  obtain ⟨W, hW⟩ : ∃ W : Option Fl → Option Fl → Fl → Prop, W = fun a c t =>
    f32.add (a.getD (f32.add (f32.lit (-f32.maxFin)) (f32.lit 10))) (f32.lit (1 / 10000)) < t ∧
    t ≤ f32.add (c.getD (f32.sub (f32.lit f32.maxFin) (f32.lit 10))) (f32.lit (1 / 10000)) := ⟨_, rfl⟩
  classical
  have eb : ∀ (b : Fl) (grid : List (List Fl)), surfaceBumpF times xs time1 time2 left right b grid =
      List.zipWith (fun row t => if W time1 time2 t then
        List.zipWith (fun v x => if W left right x then f32.add v b else v) row xs else row) grid times := by
    intro b grid
    rw [hW]
    unfold surfaceBumpF
    dsimp only
    congr 1
    funext row t
    congr 1
    congr 1
    funext v x
    congr 1
  have er : ∀ grid, surfaceRun times xs time1 time2 left right b grid =
      List.zipWith (fun row t => if W time1 time2 t then
        List.zipWith (fun v x => if W left right x then tripF b v else v) row xs else row) grid times := by
    intro grid
    unfold surfaceRun
    rw [eb, eb]
    rw [zip_zip (fun t row => if W time1 time2 t then List.zipWith (fun v x => if W left right x then f32.add v b else v) row xs else row)
      (fun t row => if W time1 time2 t then List.zipWith (fun v x => if W left right x then f32.add v b.neg else v) row xs else row)]
    congr 1
    funext row t
    by_cases hc : W time1 time2 t
    · simp only [if_pos hc]
      rw [zip_zip (fun x v => if W left right x then f32.add v b else v) (fun x v => if W left right x then f32.add v b.neg else v)]
      congr 1
      funext v x
      by_cases hx : W left right x
      · simp only [if_pos hx, tripF]
      · simp only [if_neg hx]
    · simp only [if_neg hc]
  have ci : ∀ row ∈ grid, ∀ v ∈ row, ∀ x, (fun x v => if W left right x then tripF b v else v) x
      ((fun x v => if W left right x then tripF b v else v) x v) = (fun x v => if W left right x then tripF b v else v) x v := by
    intro row hr v hv x
    obtain ⟨q, hq, hq'⟩ := hg row hr v hv
    by_cases hx : W left right x
    · simp only [if_pos hx]
      exact trip_twice hq hb hq' hp
    · simp only [if_neg hx]
  constructor
  · rw [er, er]
    refine zip_idem (fun t row => if W time1 time2 t then
      List.zipWith (fun v x => if W left right x then tripF b v else v) row xs else row) grid times ?_
    intro row hr t
    by_cases hc : W time1 time2 t
    · simp only [if_pos hc]
      exact zip_idem (fun x v => if W left right x then tripF b v else v) row xs (ci row hr)
    · simp only [if_neg hc]
  · intro hl hrow
    rw [er]
    have near : ∀ v q, f32.Finite v q → |q| ≤ 2 ^ 90 → ∀ v', v' = v ∨ v' = tripF b v →
        ∃ q q', f32.Finite v q ∧ f32.Finite v' q' ∧ |q' - q| ≤ (3 * |q| + 2 * |p|) / 2 ^ 24 := by
      rintro v q hq hq' v' (rfl | rfl)
      · refine ⟨q, q, hq, hq, ?_⟩
        rw [sub_self, abs_zero]
        positivity
      · exact ⟨q, _, hq, (trip_value hq hb (by omega) hq' hp).1, trip_near hq.rep hb.rep⟩
    refine zip_rel _ (fun t row => if W time1 time2 t then
      List.zipWith (fun v x => if W left right x then tripF b v else v) row xs else row) grid times hl ?_
    intro row hr t
    by_cases hc : W time1 time2 t
    · simp only [if_pos hc]
      refine zip_rel _ (fun x v => if W left right x then tripF b v else v) row xs (hrow row hr) ?_
      intro v hv x
      obtain ⟨q, hq, hq'⟩ := hg row hr v hv
      by_cases hx : W left right x
      · simp only [if_pos hx]
        exact near v q hq hq' _ (Or.inr rfl)
      · simp only [if_neg hx]
        exact near v q hq hq' _ (Or.inl rfl)
    · simp only [if_neg hc]
      refine List.forall₂_same.2 ?_
      intro v hv
      obtain ⟨q, hq, hq'⟩ := hg row hr v hv
      exact near v q hq hq' _ (Or.inl rfl)

/-- **C145** (dividends). The same for the dividends. -/
theorem C145_dividends (d1 d2 : Int) {b : Fl} {p : ℚ} (hb : f32.Finite b p) (hp : |p| ≤ 2 ^ 90) (dates : List Int) (amounts m a1 : List Fl)
    (ha : ∀ a ∈ amounts, ∃ q, f32.Finite a q ∧ |q| ≤ 2 ^ 90) (h1 : dividendBumpF d1 d2 b dates amounts = .ok m)
    (h2 : dividendBumpF d1 d2 b.neg dates m = .ok a1) :
    ∃ m', dividendBumpF d1 d2 b dates a1 = .ok m' ∧ dividendBumpF d1 d2 b.neg dates m' = .ok a1 := by
  have key : ∀ d : Int, ∃ c, f32.Finite (f32.mul (if d1 < d ∧ d ≤ d2 then f32.lit 1 else f32.lit 0) b) c ∧ |c| ≤ 2 ^ 90 ∧
      f32.mul (if d1 < d ∧ d ≤ d2 then f32.lit 1 else f32.lit 0) b.neg = (f32.mul (if d1 < d ∧ d ≤ d2 then f32.lit 1 else f32.lit 0) b).neg := by
    intro d
    by_cases hc : d1 < d ∧ d ≤ d2
    · have := mask_bump (f32.lit 0) (f32.lit 1) (f32.lit 1) hb hp
      unfold bumpMaskF at this
      rw [if_pos (by decide +kernel)] at this
      rw [if_pos (by decide +kernel)] at this
      rw [if_pos hc]
      exact ⟨_, this.1, hp, this.2⟩
    · have := mask_bump (f32.lit 0) (f32.lit 1) (f32.lit 0) hb hp
      unfold bumpMaskF at this
      rw [if_neg (by decide +kernel)] at this
      rw [if_neg (by decide +kernel)] at this
      rw [if_neg hc]
      exact ⟨_, this.1, by rw [abs_zero]; positivity, this.2⟩
  unfold dividendBumpF at h1 h2 ⊢
  split_ifs at h1 h2 ⊢
  obtain rfl := Except.ok.inj h1
  obtain rfl := Except.ok.inj h2
  refine ⟨_, rfl, ?_⟩
  have e : ∀ as, List.zipWith (fun a d => f32.add a (f32.mul (if d1 < d ∧ d ≤ d2 then f32.lit 1 else f32.lit 0) b.neg))
      (List.zipWith (fun a d => f32.add a (f32.mul (if d1 < d ∧ d ≤ d2 then f32.lit 1 else f32.lit 0) b)) as dates) dates =
      List.zipWith (fun a d => tripF (f32.mul (if d1 < d ∧ d ≤ d2 then f32.lit 1 else f32.lit 0) b) a) as dates := by
    intro as
    rw [zip_zip (fun (d : Int) a => f32.add a (f32.mul (if d1 < d ∧ d ≤ d2 then f32.lit 1 else f32.lit 0) b))
      (fun d a => f32.add a (f32.mul (if d1 < d ∧ d ≤ d2 then f32.lit 1 else f32.lit 0) b.neg))]
    congr 1
    funext a d
    obtain ⟨-, -, -, k⟩ := key d
    rw [k, tripF]
  refine congrArg Except.ok ?_
  rw [e, e]
  refine zip_idem (fun (d : Int) a => tripF (f32.mul (if d1 < d ∧ d ≤ d2 then f32.lit 1 else f32.lit 0) b) a) amounts dates ?_
  intro a haa d
  obtain ⟨c, k1, k2, -⟩ := key d
  obtain ⟨q, hq, hq'⟩ := ha a haa
  exact trip_twice hq k1 hq' k2

/-- A curve of two times at 3.12 %. -/
def flatCurve : CurveF :=
  { rateInterp := .const (f32.lit (312 / 10000)), rates := [f32.lit (312 / 10000), f32.lit (312 / 10000)], times := [f32.lit 0, f32.lit 1],
    dfs := [f32.lit 1, f32.lit 1], disc := { dom := [], val := [], der := [], extra := .none, allow := false } }

/-- **C145** (the first run does move). A curve at 3.12 % and the default bump of a basis point: after one rho run the rate is
the next larger single-precision number, so the prices after it are not those before it. -/
theorem C145_moves : ∃ c1, flatCurve.riskRun (fun _ => f32.lit 1) none none (f32.lit (1 / 10000)) = .ok c1 ∧
    c1.rates.length = 2 ∧ ∀ r ∈ c1.rates, (f32.lit (312 / 10000)).lt r = true := by
  have h : (match flatCurve.riskRun (fun _ => f32.lit 1) none none (f32.lit (1 / 10000)) with
    | .ok c1 => c1.rates.length == 2 && c1.rates.all fun r => (f32.lit (312 / 10000)).lt r
    | .error _ => false) = true := by decide +kernel
  cases hc : flatCurve.riskRun (fun _ => f32.lit 1) none none (f32.lit (1 / 10000)) with
  | error e => rw [hc] at h; cases h
  | ok c1 =>
    rw [hc] at h
    rw [Bool.and_eq_true] at h
    exact ⟨c1, rfl, beq_iff_eq.1 h.1, fun r hr => List.all_eq_true.1 h.2 r hr⟩

example : SensibleRates flatCurve := by
  intro r hr
  have hr : r = f32.lit (312 / 10000) := by
    simp [flatCurve] at hr
    exact hr
  subst hr
  refine ⟨_, finite_of f32 false _ (le_f32_max (by norm_num)), ?_⟩
  refine abs_rnd_le f32 ?_ (rep_p 90 (by omega))
  norm_num

/-- A volatility of 12.41 % and the default bump of a percentage point. -/
theorem C145_volatility_moves : constVolBumpF (constVolBumpF (f32.lit (1241 / 10000)) (f32.lit (1 / 100))) (f32.lit (1 / 100)).neg ≠
    f32.lit (1241 / 10000) := by decide +kernel

end Verif.Props

import Verif.Props.FloatPrices
import Verif.Props.FeatureTime
/-!
# Features in floating point: middle and average prices, time differences (C135 – C137)
-/
set_option autoImplicit false
namespace Verif.Props
open Verif Verif.Float

/-! ### C135: the middle price -/

theorem f64_lit2 : f64.Finite (f64.lit 2) 2 := by
  have := f64_int 2 (by norm_num)
  exact_mod_cast this

theorem midF_value (ask bid : Fl) (a b : ℚ) (ha : f64.Finite ask a) (hb : f64.Finite bid b) (h : |a + b| ≤ f64.maxFin) :
    f64.Finite (midF ask bid) (f64.rnd (f64.rnd (a + b) / 2)) := by
  refine finite_div (finite_add ha hb h) f64_lit2 (by norm_num) ?_
  have h1 := abs_rnd_maxFin f64 h
  rw [abs_div, abs_of_pos (by norm_num : (0 : ℚ) < 2)]
  have := abs_nonneg (f64.rnd (a + b))
  linarith

/-- **C135** (between). The middle price of a bid and an ask, as it is computed, is never below the bid and never above the
ask. -/
theorem C135_between (ask bid : Fl) (a b : ℚ) (ha : f64.Finite ask a) (hb : f64.Finite bid b) (h : |a + b| ≤ f64.maxFin) (hba : b ≤ a) :
    ∃ m, f64.Finite (midF ask bid) m ∧ b ≤ m ∧ m ≤ a := by
  refine ⟨_, midF_value ask bid a b ha hb h, le_rnd f64 ?_ hb.rep, rnd_le f64 ?_ ha.rep⟩
  · have r : f64.Rep (b * 2 ^ 1) := rep_scale f64 hb.rep 1
    have := le_rnd f64 (x := a + b) (by linarith) r
    linarith
  · have r : f64.Rep (a * 2 ^ 1) := rep_scale f64 ha.rep 1
    have := rnd_le f64 (x := a + b) (by linarith) r
    linarith

theorem rep_half (F : Fmt) {s : ℚ} (h : F.Rep s) (hb : (2 : ℚ) ^ (F.emin + F.prec : Int) ≤ |s|) : F.Rep (s / 2) := by
  obtain ⟨m, e, h1, h2, rfl⟩ := h
  have half : ∀ k : Int, (2 : ℚ) ^ k / 2 = 2 ^ (k - 1) := by
    intro k; rw [sub_eq_add_neg, pow2_add, zpow_neg_one]; rfl
  by_cases he : F.emin < e
  · refine ⟨m, e - 1, h1, by omega, ?_⟩
    rw [mul_div_assoc, half]
  · have hee : e = F.emin := by omega
    subst hee
    have hm : |m| = 2 ^ F.prec := by
      refine le_antisymm h1 ?_
      rw [abs_mul, abs_of_pos (pow2_pos _), pow2_add, mul_comm] at hb
      have := le_of_mul_le_mul_right hb (pow2_pos _)
      rw [zpow_natCast] at this
      exact_mod_cast this
    have hpr := F.hprec
    obtain ⟨k, hk⟩ : ∃ k : Nat, F.prec = k + 1 := ⟨F.prec - 1, by omega⟩
    rw [hk, pow_succ] at hm
    have hn : (0 : Int) ≤ 2 ^ k := by positivity
    rcases abs_choice m with q | q
    · refine ⟨2 ^ k, F.emin, ?_, le_refl _, ?_⟩
      · rw [abs_of_nonneg hn, hk, pow_succ]; omega
      · rw [show m = 2 ^ k * 2 by omega]; push_cast; ring
    · refine ⟨-(2 ^ k), F.emin, ?_, le_refl _, ?_⟩
      · rw [abs_neg, abs_of_nonneg hn, hk, pow_succ]; omega
      · rw [show m = -(2 ^ k * 2) by omega]; push_cast; ring

/-- **C135** (nearest). Unless it is tiny, it is a number of the format nearest to the exact middle. -/
theorem C135_nearest (ask bid : Fl) (a b : ℚ) (ha : f64.Finite ask a) (hb : f64.Finite bid b) (h : |a + b| ≤ f64.maxFin)
    (hs : (2 : ℚ) ^ (-1021 : Int) ≤ |a + b|) :
    ∃ m, f64.Finite (midF ask bid) m ∧ ∀ y, f64.Rep y → |m - (a + b) / 2| ≤ |y - (a + b) / 2| := by
  refine ⟨_, midF_value ask bid a b ha hb h, fun y hy => ?_⟩
  have hl : (2 : ℚ) ^ (-1021 : Int) ≤ |f64.rnd (a + b)| := by
    rw [← rnd_abs]
    exact le_rnd f64 hs (rep_pow2 f64 _ (by decide))
  rw [rnd_rep f64 (rep_half f64 (rep_rnd f64 (a + b)) hl)]
  have := rnd_nearest f64 (a + b) (y * 2 ^ 1) (rep_scale f64 hy 1)
  have e1 : f64.rnd (a + b) / 2 - (a + b) / 2 = (f64.rnd (a + b) - (a + b)) / 2 := by ring
  have e2 : y - (a + b) / 2 = (y * 2 ^ 1 - (a + b)) / 2 := by ring
  rw [e1, e2, abs_div, abs_div]
  exact div_le_div_of_nonneg_right this (abs_nonneg _)

/-- **C135** (order). If neither bid nor ask is lower, the middle is not lower. -/
theorem C135_order (ask bid ask' bid' : Fl) (a b a' b' : ℚ) (ha : f64.Finite ask a) (hb : f64.Finite bid b)
    (ha' : f64.Finite ask' a') (hb' : f64.Finite bid' b') (h : |a + b| ≤ f64.maxFin) (h' : |a' + b'| ≤ f64.maxFin)
    (h1 : a ≤ a') (h2 : b ≤ b') : (midF ask bid).le (midF ask' bid') = true := by
  rw [finite_le (midF_value ask bid a b ha hb h) (midF_value ask' bid' a' b' ha' hb' h'), decide_eq_true_eq]
  refine rnd_mono f64 (div_le_div_of_nonneg_right (rnd_mono f64 ?_) (by norm_num))
  linarith

/-- **C135** (which levels). The middle price is that of the best ask and the best bid, the first of each side with a positive
quantity; there is none if a side has no such level. -/
theorem C135_levels (asks bids : List (Fl × Fl)) :
    midPriceF asks bids = (bestF asks).bind fun a => (bestF bids).map fun b => midF a b := by
  have inner : ∀ (a : Fl × Fl), (bids.findSome? fun b => if (f64.lit 0).lt a.2 && (f64.lit 0).lt b.2 then some (midF a.1 b.1) else none)
      = if (f64.lit 0).lt a.2 then (bestF bids).map fun b => midF a.1 b else none := by
    intro a
    cases hq : (f64.lit 0).lt a.2 with
    | false =>
      simp only [Bool.false_and, Bool.false_eq_true, if_false]
      rw [List.findSome?_eq_none_iff]
      intro _ _; rfl
    | true =>
      simp only [Bool.true_and, if_true]
      unfold bestF
      induction bids with
      | nil => rfl
      | cons b l ih =>
        rw [List.findSome?_cons, List.findSome?_cons]
        cases hb : (f64.lit 0).lt b.2 with
        | true => simp
        | false => simpa using ih
  unfold midPriceF
  simp only [inner]
  generalize bestF bids = bb
  unfold bestF
  induction asks with
  | nil => rfl
  | cons a l ih =>
    rw [List.findSome?_cons, List.findSome?_cons]
    cases ha : (f64.lit 0).lt a.2 with
    | false => simpa using ih
    | true =>
      simp only [if_true, Option.bind_some]
      cases bb with
      | none =>
        simp only [Option.map_none]
        rw [List.findSome?_eq_none_iff]
        intro x _
        simp
      | some b => simp

/-! ### C136: the average price of trades -/

/-- **C136** (nearest). The average of a trade history is a number of the format nearest to the exact average. -/
theorem C136_nearest (m : Mode) (h : TE.History) (hm : Moderate h) (hq : 0 < tradedQty h) (hv : |tradedValue h| ≤ 2 ^ 53)
    (ht : tradedQty h ≤ 2 ^ 53) :
    ∃ a x, averagePriceF m h = .ok a ∧ f64.Finite a x ∧
      ∀ y, f64.Rep y → |x - tradedValue h / tradedQty h| ≤ |y - tradedValue h / tradedQty h| := by
  have hl := averageLoop_eq m h 0 0 hm.each (by simpa using hm.value) (by simpa using hm.qty)
  refine ⟨averageF (tradedValue h) (tradedQty h), _, ?_, ?_, fun y hy => rnd_nearest f64 _ y hy⟩
  · unfold averagePriceF
    rw [hl]
    simp only [Res.bind_ok, zero_add]
  · have h1 := f64_int (tradedValue h) hv
    have h2 := f64_int (tradedQty h : Int) (by rw [abs_of_nonneg (by positivity)]; exact_mod_cast ht)
    rw [Int.cast_natCast] at h2
    have hpos : (1 : ℚ) ≤ tradedQty h := by exact_mod_cast hq
    refine finite_div h1 h2 (by linarith) (le_f64_max ?_)
    rw [abs_div, abs_of_pos (by linarith : (0 : ℚ) < tradedQty h), div_le_iff₀ (by linarith)]
    have : |(tradedValue h : ℚ)| ≤ 2 ^ 53 := by exact_mod_cast hv
    have : (2 : ℚ) ^ 53 ≤ 2 ^ 200 := by norm_num
    nlinarith

/-- **C136** (within). It is not below the lowest and not above the highest price paid. -/
theorem C136_within (m : Mode) (h : TE.History) (hm : Moderate h) (hq : 0 < tradedQty h) (hv : |tradedValue h| ≤ 2 ^ 53)
    (ht : tradedQty h ≤ 2 ^ 53) (lo hi : Int) (hlo : |lo| ≤ 2 ^ 53) (hhi : |hi| ≤ 2 ^ 53) (hp : ∀ e ∈ h, lo ≤ e.1 ∧ e.1 ≤ hi) :
    ∃ a x, averagePriceF m h = .ok a ∧ f64.Finite a x ∧ (lo : ℚ) ≤ x ∧ x ≤ hi := by
  obtain ⟨a, x, h1, h2, h3⟩ := C136_nearest m h hm hq hv ht
  obtain ⟨v1, v2⟩ := value_between h lo hi hp
  have hpos : (0 : ℚ) < tradedQty h := by exact_mod_cast hq
  have b1 : (lo : ℚ) ≤ tradedValue h / tradedQty h := by
    rw [le_div_iff₀ hpos]; exact_mod_cast v1
  have b2 : (tradedValue h : ℚ) / tradedQty h ≤ hi := by
    rw [div_le_iff₀ hpos]; exact_mod_cast v2
  have ex : x = f64.rnd (tradedValue h / tradedQty h) := by
    have hr := rnd_nearest f64 (tradedValue h / tradedQty h) x h2.rep
    have he := h3 _ (rep_rnd f64 (tradedValue h / tradedQty h))
    -- the value is the one computed
    obtain ⟨s, rfl, -⟩ := h2
    unfold averagePriceF at h1
    rw [averageLoop_eq m h 0 0 hm.each (by simpa using hm.value) (by simpa using hm.qty)] at h1
    simp only [Res.bind_ok, zero_add] at h1
    have h1 := Except.ok.inj h1
    have k1 := f64_int (tradedValue h) hv
    have k2 := f64_int (tradedQty h : Int) (by rw [abs_of_nonneg (by positivity)]; exact_mod_cast ht)
    rw [Int.cast_natCast] at k2
    obtain ⟨s1, e1, -⟩ := k1
    obtain ⟨s2, e2, -⟩ := k2
    unfold averageF at h1
    rw [e1, e2] at h1
    unfold Fmt.div at h1
    dsimp only at h1
    rw [if_neg hpos.ne'] at h1
    unfold Fmt.of at h1
    dsimp only at h1
    split_ifs at h1 <;> first | (cases h1; done) | exact ((Fl.fin.injEq _ _ _ _).mp h1).2.symm
  refine ⟨a, x, h1, h2, ?_, ?_⟩
  · rw [ex]; exact le_rnd f64 b1 (rep_int f64 (by decide) lo hlo)
  · rw [ex]; exact rnd_le f64 b2 (rep_int f64 (by decide) hi hhi)

/-- **C136** (none). The average of no trades is not a number. -/
theorem C136_empty (m : Mode) : averagePriceF m [] = .ok .nan := by
  show Except.ok (averageF 0 0) = _
  refine congrArg Except.ok ?_
  decide +kernel

/-! ### C137: time differences -/

theorem diffF_value (scale d : Nat) (hs : 0 < scale) (hs' : scale ≤ 2 ^ 53) (hq : d / scale < 2 ^ 53) :
    f64.Finite (diffF scale d) (f64.rnd ((d / scale : Nat) + f64.rnd (((d - d / scale * scale : Nat) : ℚ) / scale))) ∧
      (0 ≤ f64.rnd (((d - d / scale * scale : Nat) : ℚ) / scale) ∧ f64.rnd (((d - d / scale * scale : Nat) : ℚ) / scale) ≤ 1) ∧
      ((d - d / scale * scale : Nat) : ℚ) / scale ≤ 1 := by
  have hr : d - d / scale * scale < scale := by
    have h1 := Nat.mod_add_div' d scale
    have h2 := Nat.mod_lt d hs
    omega
  have hsq : (0 : ℚ) < scale := by exact_mod_cast hs
  unfold diffF
  generalize d - d / scale * scale = r at *
  generalize d / scale = q at *
  have h1 : ((r : Nat) : ℚ) / scale ≤ 1 := by
    rw [div_le_one hsq]
    exact_mod_cast hr.le
  have h0 : (0 : ℚ) ≤ ((r : Nat) : ℚ) / scale := by positivity
  have n0 := rnd_nonneg f64 h0
  have n1 : f64.rnd (((r : Nat) : ℚ) / scale) ≤ 1 := rnd_le f64 h1 (by exact_mod_cast rep_pow2 f64 0 (by decide))
  refine ⟨?_, ⟨n0, n1⟩, h1⟩
  have k1 := f64_int (q : Int) (by rw [abs_of_nonneg (by positivity)]; exact_mod_cast hq.le)
  have k2 := f64_int (r : Int) (by rw [abs_of_nonneg (by positivity)]; exact_mod_cast (hr.le.trans hs'))
  have k3 := f64_int (scale : Int) (by rw [abs_of_nonneg (by positivity)]; exact_mod_cast hs')
  rw [Int.cast_natCast] at k1 k2 k3
  have k4 := finite_div k2 k3 hsq.ne' (le_f64_max (by rw [abs_of_nonneg h0]; exact h1.trans (by norm_num)))
  refine finite_add k1 k4 (le_f64_max ?_)
  rw [abs_of_nonneg (by positivity)]
  have : (q : ℚ) ≤ 2 ^ 53 := by exact_mod_cast hq.le
  have : (2 : ℚ) ^ 53 + 1 ≤ 2 ^ 200 := by norm_num
  linarith

/-- **C137** (order). Of two spans the longer one, in any unit, is not the smaller number. -/
theorem C137_order (scale d d' : Nat) (hs : 0 < scale) (hs' : scale ≤ 2 ^ 53) (hq : d' / scale < 2 ^ 53) (h : d ≤ d') :
    (diffF scale d).le (diffF scale d') = true := by
  have hdd : d / scale ≤ d' / scale := Nat.div_le_div_right h
  obtain ⟨a1, ⟨a2, a3⟩, a4⟩ := diffF_value scale d hs hs' (by omega)
  obtain ⟨b1, ⟨b2, b3⟩, b4⟩ := diffF_value scale d' hs hs' hq
  rw [finite_le a1 b1, decide_eq_true_eq]
  refine rnd_mono f64 ?_
  rcases eq_or_lt_of_le hdd with e | e
  · rw [e] at *
    refine add_le_add le_rfl (rnd_mono f64 (div_le_div_of_nonneg_right ?_ (by positivity)))
    have : d - d' / scale * scale ≤ d' - d' / scale * scale := by omega
    exact_mod_cast this
  · have g : ((d / scale : Nat) : ℚ) + 1 ≤ (d' / scale : Nat) := by exact_mod_cast e
    linarith

/-- **C137** (whole units). A whole number of units is exact. -/
theorem C137_whole (scale k : Nat) (hs : 0 < scale) (hs' : scale ≤ 2 ^ 53) (hk : k < 2 ^ 53) :
    f64.Finite (diffF scale (k * scale)) k := by
  have e : k * scale / scale = k := Nat.mul_div_cancel k hs
  obtain ⟨a1, -, -⟩ := diffF_value scale (k * scale) hs hs' (by rw [e]; exact hk)
  rw [e, Nat.sub_self, Nat.cast_zero, zero_div, rnd_zero, add_zero] at a1
  rwa [rnd_rep f64] at a1
  have := rep_int f64 (by decide) (k : Int) (by rw [abs_of_nonneg (by positivity), f64_prec]; exact_mod_cast hk.le)
  exact_mod_cast this

/-- **C137** (error). Any span is within three parts in `2 ^ 53`, of its length in units or of one unit. -/
theorem C137_error (scale d : Nat) (hs : 0 < scale) (hs' : scale ≤ 2 ^ 53) (hq : d / scale < 2 ^ 53) :
    ∃ x, f64.Finite (diffF scale d) x ∧ |x - (d : ℚ) / scale| ≤ 3 / 2 ^ 53 * max 1 ((d : ℚ) / scale) := by
  obtain ⟨a1, ⟨a2, a3⟩, a4⟩ := diffF_value scale d hs hs' hq
  refine ⟨_, a1, ?_⟩
  have hsq : (0 : ℚ) < scale := by exact_mod_cast hs
  have hle : d / scale * scale ≤ d := Nat.div_mul_le_self d scale
  have ev : (d : ℚ) / scale = ((d / scale : Nat) : ℚ) + ((d - d / scale * scale : Nat) : ℚ) / scale := by
    rw [Nat.cast_sub hle]
    push_cast
    field_simp
    ring
  have h0 : (0 : ℚ) ≤ ((d - d / scale * scale : Nat) : ℚ) / scale := by positivity
  rw [ev]
  generalize (((d - d / scale * scale : Nat) : ℚ) / scale) = t at *
  have hqn : (0 : ℚ) ≤ ((d / scale : Nat) : ℚ) := by positivity
  generalize ((d / scale : Nat) : ℚ) = q at *
  have r1 := rnd_err f64 t
  have r2 := rnd_err f64 (q + f64.rnd t)
  rw [abs_of_nonneg h0] at r1
  rw [abs_of_nonneg (by linarith : 0 ≤ q + f64.rnd t)] at r2
  have tiny : (2 : ℚ) ^ (f64.emin - 1) ≤ 1 / 1152921504606846976 := by decide +kernel
  have h53 : (2 : ℚ) ^ f64.prec = 9007199254740992 := by rw [f64_prec]; norm_num
  rw [h53] at r1 r2
  have n53 : (3 : ℚ) / 2 ^ 53 = 3 / 9007199254740992 := by norm_num
  rw [n53]
  have tri := abs_sub_le (f64.rnd (q + f64.rnd t)) (q + f64.rnd t) (q + t)
  have e2 : q + f64.rnd t - (q + t) = f64.rnd t - t := by ring
  rw [e2] at tri
  have hm1 : (1 : ℚ) ≤ max 1 (q + t) := le_max_left _ _
  have hm2 : q + t ≤ max 1 (q + t) := le_max_right _ _
  have := abs_le.1 r1
  generalize max 1 (q + t) = M at *
  linarith

/-! ### Concrete cases -/

/-- Two prices in won and half a tick. -/
example : midF (f64.ofInt 50100) (f64.ofInt 50000) = f64.ofInt 50050 := by decide +kernel

/-- A book of two levels; the first ask is empty. -/
example : midPriceF [(f64.ofInt 101, f64.ofInt 0), (f64.ofInt 102, f64.ofInt 5)] [(f64.ofInt 100, f64.ofInt 7)] = some (f64.ofInt 101) := by
  decide +kernel

example : ∃ a b, f64.Finite (f64.lit (1 / 10)) a ∧ f64.Finite (f64.lit (3 / 10)) b ∧ |b + a| ≤ f64.maxFin ∧ a ≤ b ∧
    (2 : ℚ) ^ (-1021 : Int) ≤ |b + a| := by
  refine ⟨_, _, finite_of f64 false _ (by decide +kernel), finite_of f64 false _ (by decide +kernel), ?_, ?_, ?_⟩ <;> decide +kernel

/-- Three at 101 and one at 102: the average. -/
example : averagePriceF .checked [(101, 3), (102, 1)] = .ok (f64.lit 101.25) := by decide +kernel

/-- A minute and a half, and a third of a second. -/
example : diffF 60000000000 90000000000 = f64.lit 1.5 ∧ diffF 1000000000 333333333 = f64.lit 0.333333333 := by decide +kernel

end Verif.Props

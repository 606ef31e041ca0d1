import Verif.TE.Feature
import Verif.Props.KrxTrade
import Mathlib.Tactic.Linarith
import Mathlib.Tactic.FieldSimp
/-!
# Features of quotes: C108 (scaled numbers), C109 (snapshots), C110 (vwap), C111 (best and mid prices)
-/
set_option autoImplicit false
namespace Verif.Props
open Verif Verif.TE.Num Verif.TE.Clock Verif.TE.Id Verif.TE.Krx Verif.TE.Feature

/-! ## C108: numbers -/

theorem powI_ok (m : Mode) (k : Nat) (h : k ≤ 18) : powI m k = .ok ((10 : Int) ^ k) := by
  unfold powI
  have : (10 : Nat) ^ k < 2 ^ 63 := lt_of_le_of_lt (Nat.pow_le_pow_right (by norm_num) h) (by norm_num)
  rw [if_pos (by exact_mod_cast this)]

theorem powU_ok (m : Mode) (k : Nat) (h : k ≤ 19) : powU m k = .ok (10 ^ k) := by
  unfold powU
  have : (10 : Nat) ^ k < 2 ^ 64 := lt_of_le_of_lt (Nat.pow_le_pow_right (by norm_num) h) (by norm_num)
  rw [if_pos this]

theorem ten_pow_toNat (e : Int) (h : 0 ≤ e) : (10 : ℝ) ^ e = 10 ^ e.toNat := by
  conv_lhs => rw [← Int.toNat_of_nonneg h]
  rw [zpow_natCast]

/-- C108: a price whose normalizer and places together are between 0 and 18 is divided by that power of ten, exactly, in
either build. -/
theorem C108_signed (m : Mode) (n : Int) (pl : Nat) (v : Int) (h0 : 0 ≤ n + pl) (h1 : n + pl ≤ 18) :
    normI m (some n) pl v = .ok ((v : ℝ) / 10 ^ (n + pl).toNat) := by
  unfold normI
  dsimp only
  have e : asU32 (n + pl) = (n + pl).toNat := by unfold asU32; rw [if_pos h0]
  rw [e]
  refine bind_of_ok (powI_ok m _ (by omega)) ?_
  unfold divRemI
  have hp : (0 : Int) < 10 ^ (n + pl).toNat := by positivity
  rw [if_neg hp.ne']
  simp only [Res.bind_ok]
  refine congrArg Except.ok ?_
  rw [ten_pow_toNat _ h0]
  have hp' : (0 : ℝ) < 10 ^ (n + pl).toNat := by positivity
  push_cast
  field_simp
  ring

/-- C108: the same for quantities, up to the 19th power. -/
theorem C108_unsigned (m : Mode) (n : Int) (pl v : Nat) (h0 : 0 ≤ n + pl) (h1 : n + pl ≤ 19) :
    normU m (some n) pl v = .ok ((v : ℝ) / 10 ^ (n + pl).toNat) := by
  unfold normU
  dsimp only
  have e : asU32 (n + pl) = (n + pl).toNat := by unfold asU32; rw [if_pos h0]
  rw [e]
  refine bind_of_ok (powU_ok m _ (by omega)) ?_
  unfold divRemU
  have hp : 0 < 10 ^ (n + pl).toNat := by positivity
  rw [if_neg hp.ne']
  simp only [Res.bind_ok]
  refine congrArg Except.ok ?_
  rw [ten_pow_toNat _ h0]
  have hp' : (0 : ℝ) < 10 ^ (n + pl).toNat := by positivity
  have hle : v / 10 ^ (n + pl).toNat * 10 ^ (n + pl).toNat ≤ v := Nat.div_mul_le_self _ _
  rw [Nat.cast_sub hle]
  push_cast
  field_simp
  ring

/-- Without a normalizer only the places count, whatever their number. -/
theorem C108_plain (m : Mode) (pl : Nat) (v : Int) (u : Nat) :
    normI m none pl v = .ok ((v : ℝ) / 10 ^ pl) ∧ normU m none pl u = .ok ((u : ℝ) / 10 ^ pl) := ⟨rfl, rfl⟩

/-- Beyond the 18th power, or below the zeroth, a debug build panics. -/
theorem C108_outside_debug (n : Int) (pl : Nat) (v : Int) (h : n + pl < 0 ∨ 18 < n + pl) (hlo : -2 ^ 31 ≤ n + pl) :
    normI .checked (some n) pl v = .error .overflow := by
  unfold normI
  dsimp only
  have hk : 19 ≤ asU32 (n + pl) := by
    unfold asU32
    split <;> omega
  have : ¬ (10 : Nat) ^ asU32 (n + pl) < 2 ^ 63 := by
    have := Nat.pow_le_pow_right (n := 10) (by norm_num) hk
    have h2 : (2 : Nat) ^ 63 ≤ 10 ^ 19 := by norm_num
    omega
  unfold powI
  rw [if_neg (by exact_mod_cast this)]
  rfl

/-- A negative power divides by zero in a release build: also a panic. -/
theorem C108_negative_release (n : Int) (pl : Nat) (v : Int) (h : n + pl < 0) (hlo : -2 ^ 31 ≤ n + pl) :
    normI .wrapping (some n) pl v = .error .divZero := by
  unfold normI
  dsimp only
  have hk : 2 ^ 31 ≤ asU32 (n + pl) := by
    unfold asU32
    split <;> omega
  have hd : 2 ^ 64 ∣ 10 ^ asU32 (n + pl) := by
    have h1 : (2 : Nat) ^ 64 ∣ 10 ^ 64 := by norm_num
    exact h1.trans (Nat.pow_dvd_pow 10 (by omega))
  have : ¬ (10 : Nat) ^ asU32 (n + pl) < 2 ^ 63 := by
    have := Nat.le_of_dvd (by positivity) hd
    have h2 : (2 : Nat) ^ 63 ≤ 2 ^ 64 := by norm_num
    omega
  unfold powI
  rw [if_neg (by exact_mod_cast this)]
  dsimp only
  rw [Nat.mod_eq_zero_of_dvd hd]
  unfold asI64 divRemI
  simp

/-- Specification: by how many powers of ten the features of a KRX price are scaled: its decimals, and one more for the
prices of stock derivatives and commodities, which have none. -/
def scaleOf : ConvId → Nat
  | .riskFree => 3
  | .baseDeriv => 2
  | .stock => 0
  | .stockDeriv => 1
  | .commodity => 1
  | .repo => 3
  | .bond => 2

theorem load_dec (i : ConvId) : ∃ c, i.load = .ok c ∧ places c.price.dec =
    (match i with | .stockDeriv => 0 | .commodity => 0 | j => scaleOf j) ∧ places c.qty.dec = 0 := by
  cases i <;> exact ⟨_, rfl, rfl, rfl⟩

/-- C108 for the KRX formats: prices are scaled exactly by the power of ten of the format, quantities not at all; nothing
can fail. -/
theorem C108_krx (m : Mode) (i : ConvId) (v : Int) (q : Nat) :
    realPrice m i v = .ok ((v : ℝ) / 10 ^ scaleOf i) ∧ realQty m i q = .ok (q : ℝ) := by
  obtain ⟨c, h1, h2, h3⟩ := load_dec i
  refine ⟨bind_of_ok h1 ?_, bind_of_ok h1 ?_⟩
  · rw [h2]
    cases i <;> first
      | exact (C108_plain m _ v 0).1
      | exact C108_signed m 1 0 v (by norm_num) (by norm_num)
  · rw [h3]
    have : qtyNorm i = none := by cases i <;> rfl
    rw [this, (C108_plain m 0 0 q).2]
    simp

/-- C108: scaling keeps the order of prices, and tells different prices apart. -/
theorem C108_order (m : Mode) (i : ConvId) (v w : Int) (x y : ℝ) (hx : realPrice m i v = .ok x)
    (hy : realPrice m i w = .ok y) : (v < w ↔ x < y) ∧ (v = w ↔ x = y) := by
  rw [(C108_krx m i v 0).1] at hx
  rw [(C108_krx m i w 0).1] at hy
  obtain rfl := Except.ok.inj hx
  obtain rfl := Except.ok.inj hy
  have hp : (0 : ℝ) < 10 ^ scaleOf i := by positivity
  constructor
  · rw [div_lt_div_iff_of_pos_right hp]; exact Int.cast_lt.symm
  · rw [div_left_inj' hp.ne']; exact Int.cast_inj.symm

-- 12345 in the bond format is 123.45; a stock derivative at 70100 is 7010
example (m : Mode) : realPrice m .bond 12345 = .ok (123.45 : ℝ) ∧ realPrice m .stockDeriv (-70100) = .ok (-7010 : ℝ) := by
  rw [(C108_krx m .bond 12345 0).1, (C108_krx m .stockDeriv (-70100) 0).1]
  constructor <;> refine congrArg Except.ok ?_ <;> norm_num [scaleOf]

/-- Trade prices as features: the first trade sets value, time and format; later ones set value and time — the value always
in the format of its own trade — but the remembered format stays that of the first trade. -/
theorem C108_trade_price (m : Mode) (t u : Trade) :
    ∃ f g, TradePrice.new m t = .ok f ∧ f.update m u = .ok g ∧
      f.value = (t.price : ℝ) / 10 ^ scaleOf t.conv ∧ f.stamp = t.stamp ∧ f.conv = t.conv ∧
      g.value = (u.price : ℝ) / 10 ^ scaleOf u.conv ∧ g.stamp = u.stamp ∧ g.conv = t.conv :=
  ⟨_, _, bind_of_ok (C108_krx m t.conv t.price 0).1 rfl, bind_of_ok (C108_krx m u.conv u.price 0).1 rfl,
    rfl, rfl, rfl, rfl, rfl, rfl⟩

/-! ## C109: snapshots as features -/

/-- Specification: a level as a feature. -/
noncomputable def seen (i : ConvId) (l : TE.Krx.Level) : Simple := ⟨(l.price : ℝ) / 10 ^ scaleOf i, (l.qty : ℝ)⟩

theorem simple_eq (m : Mode) (i : ConvId) (l : TE.Krx.Level) : simple m i l = .ok (seen i l) :=
  bind_of_ok (C108_krx m i l.price l.qty).1 (bind_of_ok (C108_krx m i l.price l.qty).2 rfl)

theorem simples_eq (m : Mode) (i : ConvId) (ls : List TE.Krx.Level) : simples m i ls = .ok (ls.map (seen i)) := by
  induction ls with
  | nil => rfl
  | cons l ls ih => exact bind_of_ok (simple_eq m i l) (bind_of_ok ih rfl)

/-- C109: the features of a quote snapshot with enough levels are its first `cut` levels, best first, scaled. -/
theorem C109_of_quote (m : Mode) (d : Quote) (hb : d.cut ≤ d.bid.length) (ha : d.cut ≤ d.ask.length) :
    Quotes.ofQuote m d = .ok {
      bids := (d.bid.take d.cut).map (seen d.conv), asks := (d.ask.take d.cut).map (seen d.conv),
      cut := d.cut, stamp := d.stamp, sys := d.sys, conv := d.conv } := by
  unfold Quotes.ofQuote
  refine bind_of_ok (if_pos hb) ?_
  dsimp only
  have e : min (d.bid.take d.cut).length d.cut = d.cut := by simp; omega
  rw [e, List.take_take, min_self]
  refine bind_of_ok (simples_eq _ _ _) (bind_of_ok (if_pos ha) ?_)
  rw [List.take_take, min_self]
  exact bind_of_ok (simples_eq _ _ _) rfl

/-- A snapshot with fewer levels than its cut panics. -/
theorem C109_of_quote_short (m : Mode) (d : Quote) (h : d.bid.length < d.cut ∨ d.ask.length < d.cut) :
    Quotes.ofQuote m d = .error .index := by
  unfold Quotes.ofQuote Quote.effectiveBid Quote.effectiveAsk
  by_cases hb : d.cut ≤ d.bid.length
  · rw [if_pos hb]
    simp only [Res.bind_ok]
    rw [simples_eq]
    simp only [Res.bind_ok]
    rw [if_neg (by omega)]
    rfl
  · rw [if_neg hb]
    rfl

/-- C109 for snapshots with a trade: no panic; both sides are cut to the shorter of the cut and the bid side. -/
theorem C109_of_trade_quote (m : Mode) (d : TradeQuote) :
    Quotes.ofTradeQuote m d = .ok {
      bids := (d.bid.take d.cut).map (seen d.conv),
      asks := (d.ask.take (min d.bid.length d.cut)).map (seen d.conv),
      cut := d.cut, stamp := d.stamp, sys := d.sys, conv := d.conv } := by
  unfold Quotes.ofTradeQuote
  dsimp only
  refine bind_of_ok (simples_eq _ _ _) (bind_of_ok (simples_eq _ _ _) ?_)
  have e : d.bid.take (min d.bid.length d.cut) = d.bid.take d.cut := by
    rcases le_total d.bid.length d.cut with h | h
    · rw [min_eq_left h, List.take_of_length_le h, List.take_of_length_le (le_refl _)]
    · rw [min_eq_right h]
  rw [e]

theorem putL_ok {α : Type} (v : List α) (i : Nat) (x : α) (h : i < v.length) : putL v i x = .ok (v.set i x) := if_pos h

theorem getL_ok {α : Type} (v : List α) (i : Nat) (h : i < v.length) : getL v i = .ok v[i] := by
  unfold getL
  rw [List.getElem?_eq_getElem h]

theorem getL_none {α : Type} (v : List α) (i : Nat) (h : v.length ≤ i) : getL v i = .error .index := by
  unfold getL
  rw [List.getElem?_eq_none h]

theorem overwrite_step {α β : Type} (f : α → β) (v : List β) (d : List α) (k n : Nat) (hk : k < d.length)
    (hv : k < v.length) :
    (v.set k (f d[k])).take (k + 1) ++ ((d.drop (k + 1)).take n).map f ++ (v.set k (f d[k])).drop (k + 1 + n)
      = v.take k ++ ((d.drop k).take (n + 1)).map f ++ v.drop (k + (n + 1)) := by
  have e1 : (v.set k (f d[k])).take (k + 1) = v.take k ++ [f d[k]] := by
    rw [List.take_add_one, List.take_set_of_le (le_refl k)]
    simp [hv]
  have e2 : (d.drop k).take (n + 1) = d[k] :: (d.drop (k + 1)).take n := by
    rw [List.drop_eq_getElem_cons hk, List.take_succ_cons]
  have e3 : (v.set k (f d[k])).drop (k + 1 + n) = v.drop (k + (n + 1)) := by
    rw [List.drop_set_of_lt (by omega), show k + 1 + n = k + (n + 1) by omega]
  rw [e1, e2, e3]
  simp

theorem writeLevels_eq (m : Mode) (i : ConvId) (db da : List TE.Krx.Level) (n : Nat) :
    ∀ (k : Nat) (v : List Simple × List Simple), k + n ≤ db.length → k + n ≤ da.length → k + n ≤ v.1.length →
      k + n ≤ v.2.length →
      writeLevels m i db da n k v = .ok
        (v.1.take k ++ ((db.drop k).take n).map (seen i) ++ v.1.drop (k + n),
         v.2.take k ++ ((da.drop k).take n).map (seen i) ++ v.2.drop (k + n)) := by
  induction n with
  | zero => intro k v _ _ _ _; simp [writeLevels]
  | succ n ih =>
    intro k v h1 h2 h3 h4
    unfold writeLevels
    refine bind_of_ok (getL_ok db k (by omega)) (bind_of_ok (simple_eq _ _ _) (bind_of_ok (putL_ok _ _ _ (by omega))
      (bind_of_ok (getL_ok da k (by omega)) (bind_of_ok (simple_eq _ _ _) (bind_of_ok (putL_ok _ _ _ (by omega)) ?_)))))
    rw [ih (k + 1) _ (by omega) (by omega) (by simp; omega) (by simp; omega)]
    refine congrArg Except.ok ?_
    dsimp only
    rw [overwrite_step (seen i) v.1 db k n (by omega) (by omega),
      overwrite_step (seen i) v.2 da k n (by omega) (by omega)]

theorem writeLevels_short (m : Mode) (i : ConvId) (db da : List TE.Krx.Level) (n : Nat) :
    ∀ (k : Nat) (v : List Simple × List Simple),
      ¬ (k + n ≤ db.length ∧ k + n ≤ da.length ∧ k + n ≤ v.1.length ∧ k + n ≤ v.2.length) →
      k ≤ db.length → k ≤ da.length → k ≤ v.1.length → k ≤ v.2.length →
      writeLevels m i db da n k v = .error .index := by
  induction n with
  | zero => intro k v h h1 h2 h3 h4; exact absurd ⟨h1, h2, h3, h4⟩ h
  | succ n ih =>
    intro k v h h1 h2 h3 h4
    unfold writeLevels
    by_cases hb : k < db.length
    swap
    · rw [getL_none db k (by omega)]; rfl
    rw [getL_ok db k hb]; simp only [Res.bind_ok]
    rw [simple_eq]; simp only [Res.bind_ok]
    by_cases hv : k < v.1.length
    swap
    · unfold putL; rw [if_neg hv]; rfl
    rw [putL_ok v.1 k _ hv]; simp only [Res.bind_ok]
    by_cases hc : k < da.length
    swap
    · rw [getL_none da k (by omega)]; rfl
    rw [getL_ok da k hc]; simp only [Res.bind_ok]
    rw [simple_eq]; simp only [Res.bind_ok]
    by_cases hw : k < v.2.length
    swap
    · unfold putL; rw [if_neg hw]; rfl
    rw [putL_ok v.2 k _ hw]; simp only [Res.bind_ok]
    exact ih (k + 1) _ (by simp only [List.length_set]; omega) (by omega) (by omega) (by simp; omega) (by simp; omega)

/-- Specification: the first `n` entries of `v` replaced by those of `d`. -/
def overwrite {α : Type} (n : Nat) (d v : List α) : List α := d.take n ++ v.drop n

/-- C109, updating: refused exactly when the data has a smaller cut. Otherwise, if feature and data hold as many levels as
the feature counts, these levels are replaced, the time and the format become those of the data, and the system time stays
that of the creation. -/
theorem C109_update_trade_quote (m : Mode) (f : Quotes) (d : TradeQuote) :
    (d.cut < f.cut → f.updateTradeQuote m d = .error .err) ∧
    (f.cut ≤ d.cut → f.cut ≤ d.bid.length → f.cut ≤ d.ask.length → f.cut ≤ f.bids.length → f.cut ≤ f.asks.length →
      f.updateTradeQuote m d = .ok {
        bids := overwrite f.cut (d.bid.map (seen d.conv)) f.bids,
        asks := overwrite f.cut (d.ask.map (seen d.conv)) f.asks,
        cut := f.cut, stamp := d.stamp, sys := f.sys, conv := d.conv }) ∧
    (f.cut ≤ d.cut → ¬ (f.cut ≤ d.bid.length ∧ f.cut ≤ d.ask.length ∧ f.cut ≤ f.bids.length ∧ f.cut ≤ f.asks.length) →
      f.updateTradeQuote m d = .error .index) := by
  refine ⟨fun h => if_pos h, ?_, ?_⟩
  · intro h h1 h2 h3 h4
    unfold Quotes.updateTradeQuote
    rw [if_neg (by omega)]
    refine bind_of_ok (writeLevels_eq m _ _ _ _ 0 _ (by omega) (by omega) (by simpa using h3) (by simpa using h4)) ?_
    simp [overwrite, List.map_take]
  · intro h hn
    unfold Quotes.updateTradeQuote
    rw [if_neg (by omega)]
    rw [writeLevels_short m _ _ _ _ 0 _ (by simpa using hn) (by omega) (by omega) (by simp) (by simp)]
    rfl

/-- C109, updating with a quote snapshot: the same, but here the data must hold as many levels as its own cut (when there
is anything to write). -/
theorem C109_update_quote (m : Mode) (f : Quotes) (d : Quote) :
    (d.cut < f.cut → f.updateQuote m d = .error .err) ∧
    (f.cut ≤ d.cut → d.cut ≤ d.bid.length → d.cut ≤ d.ask.length → f.cut ≤ f.bids.length → f.cut ≤ f.asks.length →
      f.updateQuote m d = .ok {
        bids := overwrite f.cut (d.bid.map (seen d.conv)) f.bids,
        asks := overwrite f.cut (d.ask.map (seen d.conv)) f.asks,
        cut := f.cut, stamp := d.stamp, sys := f.sys, conv := d.conv }) ∧
    (f.cut ≤ d.cut → 0 < f.cut →
      ¬ (d.cut ≤ d.bid.length ∧ d.cut ≤ d.ask.length ∧ f.cut ≤ f.bids.length ∧ f.cut ≤ f.asks.length) →
      f.updateQuote m d = .error .index) := by
  refine ⟨fun h => if_pos h, ?_, ?_⟩
  · intro h h1 h2 h3 h4
    unfold Quotes.updateQuote
    rw [if_neg (by omega)]
    by_cases h0 : f.cut = 0
    · rw [if_pos h0]
      refine congrArg Except.ok ?_
      cases f
      simp only at h0
      subst h0
      simp [overwrite]
    · rw [if_neg h0]
      refine bind_of_ok (if_pos h1) (bind_of_ok (if_pos h2) ?_)
      refine bind_of_ok (writeLevels_eq m _ _ _ _ 0 _ (by simp; omega) (by simp; omega) (by simpa using h3)
        (by simpa using h4)) ?_
      simp [overwrite, List.map_take, List.take_take, min_eq_left h]
  · intro h h0 hn
    unfold Quotes.updateQuote Quote.effectiveBid Quote.effectiveAsk
    rw [if_neg (by omega), if_neg (by omega)]
    by_cases h1 : d.cut ≤ d.bid.length
    swap
    · rw [if_neg h1]; rfl
    rw [if_pos h1]; simp only [Res.bind_ok]
    by_cases h2 : d.cut ≤ d.ask.length
    swap
    · rw [if_neg h2]; rfl
    rw [if_pos h2]; simp only [Res.bind_ok]
    rw [writeLevels_short m _ _ _ _ 0 _ (by simp; omega) (by omega) (by omega) (by simp) (by simp)]
    rfl

/-- C109: a feature made of one snapshot and updated with another one of the same cut is the feature made of the other,
except for the system time. -/
theorem C109_update_is_new (m : Mode) (d e : Quote) (hd : d.cut ≤ d.bid.length ∧ d.cut ≤ d.ask.length)
    (he : e.cut ≤ e.bid.length ∧ e.cut ≤ e.ask.length) (h : d.cut = e.cut) :
    ∃ f g, Quotes.ofQuote m d = .ok f ∧ Quotes.ofQuote m e = .ok g ∧ f.updateQuote m e = .ok { g with sys := d.sys } := by
  refine ⟨_, _, C109_of_quote m d hd.1 hd.2, C109_of_quote m e he.1 he.2, ?_⟩
  have e1 := hd.1; have e2 := hd.2
  rw [(C109_update_quote m _ e).2.1 (by simp [h]) he.1 he.2 (by simp; omega) (by simp; omega)]
  refine congrArg Except.ok ?_
  simp [overwrite, List.map_take, h]

/-- The same with trades. -/
theorem C109_update_is_new_trade (m : Mode) (d e : TradeQuote) (hd : d.cut ≤ d.bid.length ∧ d.cut ≤ d.ask.length)
    (he : e.cut ≤ e.bid.length ∧ e.cut ≤ e.ask.length) (h : d.cut = e.cut) :
    ∃ f g, Quotes.ofTradeQuote m d = .ok f ∧ Quotes.ofTradeQuote m e = .ok g ∧
      f.updateTradeQuote m e = .ok { g with sys := d.sys } := by
  refine ⟨_, _, C109_of_trade_quote m d, C109_of_trade_quote m e, ?_⟩
  have e1 := hd.1; have e2 := hd.2; have e3 := he.1; have e4 := he.2
  rw [(C109_update_trade_quote m _ e).2.1 (by simp [h]) (by simp; omega) (by simp; omega) (by simp; omega)
    (by simp; omega)]
  refine congrArg Except.ok ?_
  simp [overwrite, List.map_take, h, min_eq_right he.1]

/-- A feature made with a capacity alone holds no levels, so that its first update with any data that is not refused
panics. -/
theorem C109_capacity (m : Mode) (n : Nat) (hn : 0 < n) (d : TradeQuote) (h : n ≤ d.cut) (e : Quote) (h' : n ≤ e.cut) :
    (Quotes.withCapacity n).updateTradeQuote m d = .error .index ∧
      (Quotes.withCapacity n).updateQuote m e = .error .index :=
  ⟨(C109_update_trade_quote m _ d).2.2 h (by rintro ⟨_, _, h3, _⟩; simp [Quotes.withCapacity] at h3; omega),
    (C109_update_quote m _ e).2.2 h' hn (by rintro ⟨_, _, h3, _⟩; simp [Quotes.withCapacity] at h3; omega)⟩

/-- C109, from the wire: the features of a derivative quote message are the prices it spells, at the scale of its product,
and its quantities. -/
theorem C109_message (m : Mode) (q : QuoteMsg) (hq : q = .d0034 ∨ q = .d0035) (cut : Nat) (hcut : cut ≤ q.levels)
    (h : Heading) (ok : h.Ok) (rows : List Row) (hrows : rows.length = q.levels) (hfit : ∀ r ∈ rows, r.DerivFits h.format)
    (tail : List UInt8) (htail : tail.length = 46) (p : Slice) (hp : IsMessage p (derivQuote h rows tail))
    (sys : Nat) (g : Gen) (t : Nat) (g' : Gen) (ht : parseStamp m krxOffset (ofList h.time.text) sys g = .ok (t, g')) :
    ∃ d f, q.parse m cut p sys g = .ok (d, g') ∧ Quotes.ofQuote m d = .ok f ∧ f.cut = cut ∧ f.stamp = t ∧ f.sys = sys ∧
      f.bids = (rows.take cut).map (fun r => ⟨(r.bid.price : ℝ) / 10 ^ scaleOf h.format, (r.bid.qty : ℝ)⟩) ∧
      f.asks = (rows.take cut).map (fun r => ⟨(r.ask.price : ℝ) / 10 ^ scaleOf h.format, (r.ask.qty : ℝ)⟩) := by
  have h1 := C99_derivative_quote m q hq cut hcut h ok rows hrows hfit tail htail p hp sys g t g' ht
  refine ⟨_, _, h1, C109_of_quote m _ (by simp; omega) (by simp; omega), rfl, rfl, rfl, ?_, ?_⟩ <;>
    simp [List.map_take, List.take_take, seen, Function.comp_def]

/-- C109, through a buffer: only the message with five levels (IFMSRPD0037) brings its own format. The features of the
message with ten levels (IFMSRPD0038) are scaled by the format that was in the buffer before. -/
theorem C109_buffer (m : Mode) (q : TradeQuoteMsg) (cut : Nat) (hcut : cut ≤ q.levels) (want : Bool)
    (h : Heading) (ok : h.Ok) (d : Deal) (hd : d.Ok h.format) (rows : List Row) (hrows : rows.length = q.levels)
    (hfit : ∀ r ∈ rows, r.DerivFits h.format)
    (tail : List UInt8) (htail : tail.length = 28) (p : Slice) (hp : IsMessage p (tradeQuote h d rows tail))
    (sys : Nat) (g : Gen) (t : Nat) (g' : Gen) (ht : parseStamp m krxOffset (ofList h.time.text) sys g = .ok (t, g'))
    (old : ConvId) (buf : TradeQuote) (hbuf : buf = { TradeQuote.withLevel cut with conv := old }) :
    ∃ s f, q.parseInto m cut want p sys g buf = .ok (s, g') ∧ Quotes.ofTradeQuote m s = .ok f ∧
      f.bids = (rows.take cut).map (fun r =>
        ⟨(r.bid.price : ℝ) / 10 ^ scaleOf (if q = .d0037 then h.format else old), (r.bid.qty : ℝ)⟩) ∧
      f.asks = (rows.take cut).map (fun r =>
        ⟨(r.ask.price : ℝ) / 10 ^ scaleOf (if q = .d0037 then h.format else old), (r.ask.qty : ℝ)⟩) := by
  subst hbuf
  have h1 := C101_buffer m q cut hcut want h ok d hd rows hrows hfit tail htail p hp sys g t g' ht
    { TradeQuote.withLevel cut with conv := old } (by simp [TradeQuote.withLevel]) (by simp [TradeQuote.withLevel])
  refine ⟨_, _, h1, C109_of_trade_quote m _, ?_, ?_⟩
  · simp [TradeQuote.withLevel, List.map_take, List.take_take, seen, Function.comp_def]
  · have : min cut (q.levels) = cut := min_eq_left hcut
    simp [TradeQuote.withLevel, List.map_take, List.take_take, seen, Function.comp_def, hrows, this]

/-! ## C110: vwap -/

/-- Specification: the quantity of levels. -/
noncomputable def quantityOf (l : List Simple) : ℝ := (l.map Simple.qty).sum

/-- Specification: the value of levels. -/
noncomputable def valueOf (l : List Simple) : ℝ := (l.map fun x => x.price * x.qty).sum

theorem vwapSum_eq (l : List Simple) : ∀ a : ℝ × ℝ, vwapSum l a = (a.1 + quantityOf l, a.2 + valueOf l / 100) := by
  induction l with
  | nil => intro a; simp [vwapSum, quantityOf, valueOf]
  | cons x l ih =>
    intro a
    have : vwapSum (x :: l) a = vwapSum l (a.1 + x.qty, a.2 + x.price * x.qty / vwapFactor) := rfl
    rw [this, ih]
    simp only [quantityOf, valueOf, List.map_cons, List.sum_cons, vwapFactor]
    ext
    · simp only; ring
    · simp only; ring

/-- C110: the vwap is the value of all levels over their quantity, if the asks alone and all levels together have a
quantity of at least the machine epsilon; otherwise there is none. -/
theorem C110_vwap (f : Quotes) (v : ℝ) : f.vwap = some v ↔
    (1 / 2 ^ 52 : ℝ) ≤ quantityOf f.asks ∧ (1 / 2 ^ 52 : ℝ) ≤ quantityOf f.asks + quantityOf f.bids ∧
      v = (valueOf f.asks + valueOf f.bids) / (quantityOf f.asks + quantityOf f.bids) := by
  unfold Quotes.vwap
  simp only [vwapSum_eq, zero_add, epsilon, vwapFactor]
  by_cases h1 : quantityOf f.asks < 1 / 2 ^ 52
  · rw [if_pos h1]
    exact ⟨fun h => by simp at h, fun h => absurd h1 (not_lt.2 h.1)⟩
  rw [if_neg h1]
  by_cases h2 : quantityOf f.asks + quantityOf f.bids < 1 / 2 ^ 52
  · rw [if_pos h2]
    exact ⟨fun h => by simp at h, fun h => absurd h2 (not_lt.2 h.2.1)⟩
  rw [if_neg h2]
  have hpos : (0 : ℝ) < quantityOf f.asks + quantityOf f.bids :=
    lt_of_lt_of_le (by norm_num) (not_lt.1 h2)
  constructor
  · intro h
    obtain rfl := Option.some.inj h
    refine ⟨not_lt.1 h1, not_lt.1 h2, ?_⟩
    field_simp
  · rintro ⟨_, _, rfl⟩
    refine congrArg some ?_
    field_simp

theorem value_bounds (l : List Simple) (lo hi : ℝ) (hq : ∀ x ∈ l, 0 ≤ x.qty)
    (hp : ∀ x ∈ l, 0 < x.qty → lo ≤ x.price ∧ x.price ≤ hi) :
    0 ≤ quantityOf l ∧ lo * quantityOf l ≤ valueOf l ∧ valueOf l ≤ hi * quantityOf l := by
  induction l with
  | nil => simp [quantityOf, valueOf]
  | cons x l ih =>
    obtain ⟨h0, h1, h2⟩ := ih (fun y hy => hq y (List.mem_cons_of_mem _ hy))
      (fun y hy => hp y (List.mem_cons_of_mem _ hy))
    simp only [quantityOf, valueOf, List.map_cons, List.sum_cons] at h0 h1 h2 ⊢
    have hx := hq x List.mem_cons_self
    rcases hx.eq_or_lt with h | h
    · rw [← h]; simp only [mul_zero, zero_add]; exact ⟨h0, h1, h2⟩
    · obtain ⟨h3, h4⟩ := hp x List.mem_cons_self h
      refine ⟨by linarith, ?_, ?_⟩
      · nlinarith [mul_le_mul_of_nonneg_right h3 h.le]
      · nlinarith [mul_le_mul_of_nonneg_right h4 h.le]

/-- C110: the vwap lies within any bounds of the prices that have a quantity. -/
theorem C110_within (f : Quotes) (v lo hi : ℝ) (h : f.vwap = some v)
    (hq : ∀ x ∈ f.bids ++ f.asks, 0 ≤ x.qty)
    (hp : ∀ x ∈ f.bids ++ f.asks, 0 < x.qty → lo ≤ x.price ∧ x.price ≤ hi) : lo ≤ v ∧ v ≤ hi := by
  obtain ⟨_, h2, rfl⟩ := (C110_vwap f v).1 h
  have hpos : (0 : ℝ) < quantityOf f.asks + quantityOf f.bids := lt_of_lt_of_le (by norm_num) h2
  obtain ⟨_, a1, a2⟩ := value_bounds f.asks lo hi (fun x hx => hq x (by simp [hx])) (fun x hx => hp x (by simp [hx]))
  obtain ⟨_, b1, b2⟩ := value_bounds f.bids lo hi (fun x hx => hq x (by simp [hx])) (fun x hx => hp x (by simp [hx]))
  rw [le_div_iff₀ hpos, div_le_iff₀ hpos]
  constructor <;> linarith

/-- C110 on features of snapshots, whose quantities are whole numbers: there is a vwap exactly when some ask level has a
quantity — however much is bid. -/
theorem C110_exists (m : Mode) (d : TradeQuote) (f : Quotes) (hf : Quotes.ofTradeQuote m d = .ok f) :
    f.vwap ≠ none ↔ ∃ l ∈ d.ask.take (min d.bid.length d.cut), 0 < l.qty := by
  rw [C109_of_trade_quote] at hf
  obtain rfl := Except.ok.inj hf
  have aux : ∀ l : List TE.Krx.Level, quantityOf (l.map (seen d.conv)) = (((l.map TE.Krx.Level.qty).sum : Nat) : ℝ) := by
    intro l
    simp [quantityOf, seen, Function.comp_def, Nat.cast_list_sum]
  set n := min d.bid.length d.cut with hn
  have hsum : (∃ l ∈ d.ask.take n, 0 < l.qty) ↔ 0 < ((d.ask.take n).map TE.Krx.Level.qty).sum := by
    constructor
    · rintro ⟨l, hl, hpos⟩
      exact lt_of_lt_of_le hpos (List.single_le_sum (by simp) _ (List.mem_map_of_mem hl))
    · intro h
      by_contra hc
      push Not at hc
      have : ((d.ask.take n).map TE.Krx.Level.qty).sum = 0 := by
        refine List.sum_eq_zero ?_
        intro x hx
        obtain ⟨l, hl, rfl⟩ := List.mem_map.1 hx
        exact Nat.le_zero.1 (hc l hl)
      omega
  rw [hsum]
  constructor
  · intro h
    obtain ⟨v, hv⟩ := Option.ne_none_iff_exists'.1 h
    obtain ⟨h1, _, _⟩ := (C110_vwap _ v).1 hv
    simp only [aux] at h1
    have : (0 : ℝ) < (((d.ask.take n).map TE.Krx.Level.qty).sum : Nat) := lt_of_lt_of_le (by norm_num) h1
    exact_mod_cast this
  · intro h
    have h1 : (1 : ℝ) ≤ (((d.ask.take n).map TE.Krx.Level.qty).sum : Nat) := by exact_mod_cast h
    have h0 : (0 : ℝ) ≤ (((d.bid.take d.cut).map TE.Krx.Level.qty).sum : Nat) := Nat.cast_nonneg _
    have he : (1 / 2 ^ 52 : ℝ) ≤ 1 := by norm_num
    have := (C110_vwap ⟨(d.bid.take d.cut).map (seen d.conv), (d.ask.take n).map (seen d.conv), d.cut, d.stamp, d.sys,
      d.conv⟩ _).2 ⟨by simp only [aux]; linarith, by simp only [aux]; linarith, rfl⟩
    rw [this]
    simp

/-- A quiet ask side hides the bids: with any bids and no ask quantity there is no vwap, while an empty bid side does no
harm. -/
theorem C110_one_sided (f : Quotes) :
    (quantityOf f.asks = 0 → f.vwap = none) ∧
    (f.bids = [] → (1 / 2 ^ 52 : ℝ) ≤ quantityOf f.asks → f.vwap = some (valueOf f.asks / quantityOf f.asks)) := by
  constructor
  · intro h
    by_contra hc
    obtain ⟨v, hv⟩ := Option.ne_none_iff_exists'.1 hc
    obtain ⟨h1, _, _⟩ := (C110_vwap _ v).1 hv
    rw [h] at h1
    norm_num at h1
  · intro h h1
    refine (C110_vwap _ _).2 ⟨h1, ?_, ?_⟩ <;> simp [h, quantityOf, valueOf]
    simpa [quantityOf] using h1

/-- One bid of 10 at 99 and one ask of 30 at 101 -/
noncomputable def sampleQuotes : Quotes := ⟨[⟨99, 10⟩], [⟨101, 30⟩], 1, 0, 0, .bond⟩

example : sampleQuotes.vwap = some (100.5 : ℝ) :=
  (C110_vwap _ _).2 (by norm_num [sampleQuotes, quantityOf, valueOf])

/-! ## C111: best and mid prices -/

/-- Specification: the price of the first level with a quantity. -/
def FirstPrice (l : List Simple) (p : ℝ) : Prop :=
  ∃ pre x post, l = pre ++ x :: post ∧ (∀ y ∈ pre, y.qty ≤ 0) ∧ 0 < x.qty ∧ p = x.price

theorem first_iff (l : List Simple) (p : ℝ) :
    (l.findSome? fun a => if a.qty > 0 then some a.price else none) = some p ↔ FirstPrice l p := by
  induction l with
  | nil => simp [FirstPrice]
  | cons x l ih =>
    rw [List.findSome?_cons]
    by_cases hx : x.qty > 0
    · rw [if_pos hx]
      constructor
      · intro h
        exact ⟨[], x, l, rfl, by simp, hx, (Option.some.inj h).symm⟩
      · rintro ⟨pre, y, post, he, h1, h2, rfl⟩
        cases pre with
        | nil => obtain ⟨rfl, rfl⟩ := List.cons.inj he; rfl
        | cons z pre =>
          obtain ⟨rfl, _⟩ := List.cons.inj he
          exact absurd hx (not_lt.2 (h1 _ List.mem_cons_self))
    · rw [if_neg hx]
      dsimp only
      rw [ih]
      constructor
      · rintro ⟨pre, y, post, rfl, h1, h2, rfl⟩
        refine ⟨x :: pre, y, post, rfl, ?_, h2, rfl⟩
        intro z hz
        rcases List.mem_cons.1 hz with rfl | hz
        · exact not_lt.1 hx
        · exact h1 z hz
      · rintro ⟨pre, y, post, he, h1, h2, rfl⟩
        cases pre with
        | nil => obtain ⟨rfl, rfl⟩ := List.cons.inj he; exact absurd h2 hx
        | cons z pre =>
          obtain ⟨rfl, rfl⟩ := List.cons.inj he
          exact ⟨pre, y, post, rfl, fun w hw => h1 w (List.mem_cons_of_mem _ hw), h2, rfl⟩

/-- C111: best prices are those of the first level that has a quantity. -/
theorem C111_best (f : Quotes) (p : ℝ) :
    (f.bestAsk = some p ↔ FirstPrice f.asks p) ∧ (f.bestBid = some p ↔ FirstPrice f.bids p) :=
  ⟨first_iff _ _, first_iff _ _⟩

theorem none_iff (l : List Simple) :
    (l.findSome? fun a => if a.qty > 0 then some a.price else none) = none ↔ ∀ x ∈ l, x.qty ≤ 0 := by
  rw [List.findSome?_eq_none_iff]
  constructor
  · intro h x hx
    have := h x hx
    by_contra hc
    rw [if_pos (not_le.1 hc)] at this
    simp at this
  · intro h x hx
    exact if_neg (not_lt.2 (h x hx))

/-- C111: a side without any quantity has no best price, and only such a side. -/
theorem C111_none (f : Quotes) :
    (f.bestAsk = none ↔ ∀ x ∈ f.asks, x.qty ≤ 0) ∧ (f.bestBid = none ↔ ∀ x ∈ f.bids, x.qty ≤ 0) :=
  ⟨none_iff _, none_iff _⟩

theorem inner_eq (a : Simple) (bids : List Simple) :
    (bids.findSome? fun b => if a.qty > 0 ∧ b.qty > 0 then some ((a.price + b.price) / 2) else none) =
      if a.qty > 0 then (bids.findSome? fun b => if b.qty > 0 then some b.price else none).map fun b => (a.price + b) / 2
      else none := by
  by_cases h : a.qty > 0
  · rw [if_pos h]
    induction bids with
    | nil => rfl
    | cons b bids ih =>
      rw [List.findSome?_cons, List.findSome?_cons]
      by_cases hb : b.qty > 0
      · simp [h, hb]
      · simp only [h, hb, and_false, if_false]
        simpa [h] using ih
  · rw [if_neg h, List.findSome?_eq_none_iff]
    intro b _
    rw [if_neg (fun hc => h hc.1)]

/-- C111: the mid price is the mean of the best prices, and exists exactly when both do. -/
theorem C111_mid (f : Quotes) :
    f.midPrice = match f.bestAsk, f.bestBid with
      | some a, some b => some ((a + b) / 2)
      | _, _ => none := by
  unfold Quotes.midPrice Quotes.bestAsk Quotes.bestBid
  simp only [inner_eq]
  generalize (f.bids.findSome? fun b => if b.qty > 0 then some b.price else none) = o
  induction f.asks with
  | nil => simp
  | cons a l ih =>
    rw [List.findSome?_cons, List.findSome?_cons]
    by_cases h : a.qty > 0
    · simp only [if_pos h]
      cases o with
      | none =>
        simp
      | some b => simp
    · simp only [if_neg h]
      exact ih

/-- C111: where the best bid is not above the best ask, the mid price is between them. -/
theorem C111_between (f : Quotes) (a b x : ℝ) (ha : f.bestAsk = some a) (hb : f.bestBid = some b) (hx : f.midPrice = some x)
    (h : b ≤ a) : b ≤ x ∧ x ≤ a := by
  rw [C111_mid, ha, hb] at hx
  obtain rfl := Option.some.inj hx
  constructor <;> linarith

example : sampleQuotes.bestAsk = some 101 ∧ sampleQuotes.bestBid = some 99 ∧ sampleQuotes.midPrice = some 100 := by
  have h1 : sampleQuotes.bestAsk = some 101 :=
    (C111_best _ _).1.2 ⟨[], ⟨101, 30⟩, [], rfl, by simp, by norm_num, rfl⟩
  have h2 : sampleQuotes.bestBid = some 99 :=
    (C111_best _ _).2.2 ⟨[], ⟨99, 10⟩, [], rfl, by simp, by norm_num, rfl⟩
  refine ⟨h1, h2, ?_⟩
  rw [C111_mid, h1, h2]
  norm_num

end Verif.Props

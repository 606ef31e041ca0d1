import Verif.TE.Krx
import Verif.Props.Parsing
import Verif.Props.Clock
/-!
# KRX messages: reading fields and levels

What the readers of one field deliver for arbitrary bytes (they never fail and look at the bytes of the field only),
and the loop over the levels of a message.
-/
set_option autoImplicit false
namespace Verif.Props
open Verif Verif.TE.Num Verif.TE.Clock Verif.TE.Id Verif.TE.Krx

/-- The two slices have the same length and the same first `n` bytes. -/
def SameTo (n : Nat) (s s' : Slice) : Prop := s.len = s'.len ∧ ∀ i, i < n → s.mem i = s'.mem i

theorem SameTo.mono {n k : Nat} {s s' : Slice} (h : SameTo n s s') (hk : k ≤ n) : SameTo k s s' :=
  ⟨h.1, fun i hi => h.2 i (by omega)⟩

theorem bytes_same (s s' : Slice) (n : Nat) (h : ∀ i, i < n → s.mem i = s'.mem i) : s.bytes n = s'.bytes n := by
  unfold Slice.bytes
  apply List.map_congr_left
  intro i hi
  rw [h i (List.mem_range.1 hi)]

theorem nibbles_same (s s' : Slice) (n : Nat) (h : ∀ i, i < n → s.mem i = s'.mem i) : s.nibbles n = s'.nibbles n := by
  unfold Slice.nibbles; rw [bytes_same s s' n h]

theorem fixed_same (s s' : Slice) (n pl : Nat) (hpl : pl ≤ n) (h : ∀ i, i < n → s.mem i = s'.mem i) :
    s.fixed n pl = s'.fixed n pl := by
  unfold Slice.fixed
  split
  · exact nibbles_same s s' n h
  · rw [nibbles_same s s' _ (fun i hi => h i (by omega)), nibbles_same (s.drop _) (s'.drop _) _ (fun i hi => ?_)]
    exact h _ (by omega)

theorem sub_same {n : Nat} {p p' : Slice} (h : SameTo n p p') (a b : Nat) (hb : b ≤ n) (hab : a ≤ b) (hl : b ≤ p.len) :
    ∃ s s', p.sub a b = .ok s ∧ p'.sub a b = .ok s' ∧ s.len = b - a ∧ SameTo (b - a) s s' :=
  ⟨_, _, sub_ok p a b hab hl, sub_ok p' a b hab (by rw [← h.1]; exact hl), rfl, rfl,
    fun i hi => h.2 _ (by omega)⟩

theorem asI64_small (x : Nat) (h : x < 2 ^ 63) : asI64 x = x := by unfold asI64; rw [if_pos h]

theorem asI64_neg (x : Nat) (h : x < 2 ^ 63) : asI64 ((2 ^ 64 - x) % 2 ^ 64) = -(x : Int) := by
  unfold asI64
  rcases Nat.eq_zero_or_pos x with rfl | hx
  · simp
  · rw [Nat.mod_eq_of_lt (by omega), if_neg (by norm_num at h ⊢; omega)]
    norm_num at h ⊢
    omega

/-! ### The fields -/

/-- The digits of a price field read as a number, whatever the bytes are (the low half of every byte). -/
def rawPrice (c : Cfg) (v : Slice) : Nat := decimal ((v.drop (prefixLen c)).fixed (parsed c) c.dec)

/-- The checked price: any first byte other than `'0'` negates if the format has a sign. -/
def checkedPrice (c : Cfg) (v : Slice) : Int :=
  if c.signed = true ∧ v.mem 0 ≠ 48 then -(rawPrice c v : Int) else rawPrice c v

/-- The unchecked price: the leading bytes of the field, sign and point included. -/
def uncheckedPrice (c : Cfg) (v : Slice) : Nat := decimal (v.nibbles (parsed c))

theorem fixed_small (v : Slice) (n pl : Nat) (hpl : pl ≤ n) (hn : n ≤ 16) : decimal (v.fixed n pl) < 2 ^ 63 := by
  have h := decimal_fixed_lt v n pl hpl
  have : 10 ^ n ≤ 10 ^ 16 := Nat.pow_le_pow_right (by decide) hn
  norm_num at this ⊢; omega

theorem nibbles_small (v : Slice) (n : Nat) (hn : n ≤ 16) : decimal (v.nibbles n) < 2 ^ 63 := by
  have h := decimal_nibbles_lt v n
  have : 10 ^ n ≤ 10 ^ 16 := Nat.pow_le_pow_right (by decide) hn
  norm_num at this ⊢; omega

theorem fixed_sub (v : Slice) (a b n pl : Nat) : (Slice.mk (fun i => v.mem (a + i)) b).fixed n pl = (v.drop a).fixed n pl :=
  rfl

/-- The two price conversions of every converter, for arbitrary bytes. -/
theorem price_reads (i : ConvId) (m : Mode) (v : Slice) (hl : i.priceCfg.total ≤ v.len) :
    ∃ conv, load i.priceCfg = .ok conv ∧ conv.toI64 m v = .ok (checkedPrice i.priceCfg v) ∧
      conv.toI64Unchecked m v = .ok (uncheckedPrice i.priceCfg v : Int) := by
  have key : ∀ conv : Conv, conv.signed = i.priceCfg.signed →
      conv.toU64 m v = .ok (rawPrice i.priceCfg v) → conv.toI64 m v = .ok (checkedPrice i.priceCfg v) := by
    intro conv hs hu
    have hsm : rawPrice i.priceCfg v < 2 ^ 63 :=
      fixed_small _ _ _ (by cases i <;> decide) (by cases i <;> decide)
    have hpos : 0 < v.len := lt_of_lt_of_le (by cases i <;> decide) hl
    unfold Conv.toI64 checkedPrice
    rw [hu, hs]
    by_cases hsg : i.priceCfg.signed = true
    · rw [if_pos hsg, if_pos hpos]
      by_cases h48 : v.mem 0 = 48
      · rw [if_pos h48, if_neg (by tauto)]
        simp only [Res.bind_ok]
        rw [asI64_small _ hsm]
      · rw [if_neg h48, if_pos ⟨hsg, h48⟩]
        simp only [Res.bind_ok]
        rw [asI64_neg _ hsm]
    · rw [if_neg hsg, if_neg (by tauto)]
      simp only [Res.bind_ok]
      rw [asI64_small _ hsm]
  have key2 : ∀ conv : Conv, conv.size = parsed i.priceCfg →
      conv.toI64Unchecked m v = .ok (uncheckedPrice i.priceCfg v : Int) := by
    intro conv hsz
    have hsm : uncheckedPrice i.priceCfg v < 2 ^ 63 := nibbles_small _ _ (by cases i <;> decide)
    unfold Conv.toI64Unchecked Conv.toU64Unchecked
    rw [hsz]
    have h1 : 1 ≤ parsed i.priceCfg := by cases i <;> decide
    have h2 : parsed i.priceCfg ≤ 16 := by cases i <;> decide
    refine bind_of_ok (bind_of_ok (under16_nib m v _ h1 h2) rfl) ?_
    show Except.ok (asI64 (uncheckedPrice i.priceCfg v % 2 ^ 64)) = _
    rw [Nat.mod_eq_of_lt (by omega), asI64_small _ hsm]
  have hl' : 9 ≤ v.len := le_trans (by cases i <;> decide) hl
  cases i
  · refine ⟨_, rfl, key _ rfl ?_, key2 _ rfl⟩
    exact bind_of_ok (sub_ok v 1 8 (by omega) (by omega))
      (under8fp_nib m _ 8 4 (by omega) (by omega) (by omega) (by omega))
  · refine ⟨_, rfl, key _ rfl ?_, key2 _ rfl⟩
    exact bind_of_ok (sub_ok v 1 8 (by omega) (by omega))
      (under8fp_nib m _ 8 3 (by omega) (by omega) (by omega) (by omega))
  · refine ⟨_, rfl, key _ rfl ?_, key2 _ rfl⟩
    exact bind_of_ok (sub_ok v 2 9 (by omega) (by omega))
      (under16fp_nib m _ 9 0 (by omega) (by omega) (by omega) (by omega))
  · refine ⟨_, rfl, key _ rfl ?_, key2 _ rfl⟩
    exact bind_of_ok (sub_ok v 1 8 (by omega) (by omega))
      (under8fp_nib m _ 8 0 (by omega) (by omega) (by omega) (by omega))
  · refine ⟨_, rfl, key _ rfl ?_, key2 _ rfl⟩
    exact bind_of_ok (sub_ok v 1 8 (by omega) (by omega))
      (under8fp_nib m _ 8 0 (by omega) (by omega) (by omega) (by omega))
  · have : 11 ≤ v.len := hl
    refine ⟨_, rfl, key _ rfl ?_, key2 _ rfl⟩
    exact bind_of_ok (sub_ok v 1 10 (by omega) (by omega))
      (under16fp_nib m _ 10 4 (by omega) (by omega) (by omega) (by omega))
  · have : 11 ≤ v.len := hl
    refine ⟨_, rfl, key _ rfl ?_, key2 _ rfl⟩
    exact bind_of_ok (sub_ok v 1 10 (by omega) (by omega))
      (under16fp_nib m _ 10 3 (by omega) (by omega) (by omega) (by omega))

/-- The quantity conversion of every converter, for arbitrary bytes. -/
theorem qty_reads (i : ConvId) (m : Mode) (v : Slice) :
    ∃ conv, load i.qtyCfg = .ok conv ∧ conv.toU64Unchecked m v = .ok (decimal (v.nibbles i.qtyCfg.total)) := by
  have key : ∀ conv : Conv, conv.size = i.qtyCfg.total →
      conv.toU64Unchecked m v = .ok (decimal (v.nibbles i.qtyCfg.total)) := by
    intro conv hsz
    have h1 : 1 ≤ i.qtyCfg.total := by cases i <;> decide
    have h2 : i.qtyCfg.total ≤ 16 := by cases i <;> decide
    have hsm := nibbles_small v _ h2
    unfold Conv.toU64Unchecked
    rw [hsz]
    refine bind_of_ok (under16_nib m v _ h1 h2) ?_
    rw [Nat.mod_eq_of_lt (by omega)]
  cases i <;> exact ⟨_, rfl, key _ rfl⟩

/-- The order count conversion, for arbitrary bytes. -/
theorem count_reads (m : Mode) (v : Slice) :
    ∃ conv, load countCfg = .ok conv ∧ conv.toU32Unchecked m v = .ok (decimal (v.nibbles 5)) := by
  refine ⟨_, rfl, ?_⟩
  unfold Conv.toU32Unchecked
  refine bind_of_ok (under8_nib m v 5 (by omega) (by omega)) ?_
  have h := decimal_nibbles_lt v 5
  rw [Nat.mod_eq_of_lt (by norm_num at h ⊢; omega)]

/-- The cumulative quantity conversion, for arbitrary bytes. -/
theorem cum_reads (m : Mode) (v : Slice) :
    ∃ conv, load cumCfg = .ok conv ∧ conv.toU64Unchecked m v = .ok (decimal (v.nibbles 12)) := by
  refine ⟨_, rfl, ?_⟩
  unfold Conv.toU64Unchecked
  refine bind_of_ok (under16_nib m v 12 (by omega) (by omega)) ?_
  have h := nibbles_small v 12 (by omega)
  rw [Nat.mod_eq_of_lt (by omega)]

/-- The nanoseconds of a time field, whatever its bytes are. -/
def rawTime (v : Slice) : Nat :=
  decimal ((v.drop 6).nibbles 6) * 1000 + ((decimal (v.nibbles 2) * 60 + decimal ((v.drop 2).nibbles 2)) * 60
      + decimal ((v.drop 4).nibbles 2)) * 1000000000

theorem rawTime_lt (v : Slice) : rawTime v < 8 * dayNanos + 9 * 3600 * 1000000000 := by
  have h1 := decimal_nibbles_lt (v.drop 6) 6
  have h2 : decimal (v.nibbles 2) ≤ 165 := by
    simp [Slice.nibbles, Slice.bytes, decimal, List.range_succ]; omega
  have h3 : decimal ((v.drop 2).nibbles 2) ≤ 165 := by
    simp [Slice.nibbles, Slice.bytes, decimal, List.range_succ]; omega
  have h4 : decimal ((v.drop 4).nibbles 2) ≤ 165 := by
    simp [Slice.nibbles, Slice.bytes, decimal, List.range_succ]; omega
  unfold rawTime dayNanos
  norm_num at h1
  omega

/-- The time parser for arbitrary bytes. -/
theorem stamp_reads (m : Mode) (offset : Nat) (v : Slice) (stamp : Nat) (g : Gen) (hv : 12 ≤ v.len)
    (ho : rawTime v + offset + g.date < U64) :
    parseStamp m offset v stamp g
      = (dayLoop m g.prev stamp U64 g (rawTime v + offset + g.date) >>= fun p => .ok (p.2, { p.1 with prev := p.2 })) := by
  have hus : decimal ((v.drop 6).nibbles 6) * 1000 < 2 ^ 64 := by
    have := decimal_nibbles_lt (v.drop 6) 6
    norm_num at this ⊢
    omega
  unfold parseStamp
  refine bind_of_ok (sub_ok v 6 12 (by omega) hv) ?_
  refine bind_of_ok (under8_nib m _ 6 (by omega) (by omega)) ?_
  have e6 : (Slice.mk (fun i => v.mem (6 + i)) (12 - 6)).nibbles 6 = (v.drop 6).nibbles 6 := rfl
  rw [e6]
  refine bind_of_ok (mulW_ok hus) ?_
  refine bind_of_ok (sub_ok v 0 6 (by omega) (by omega)) ?_
  refine bind_of_ok (parseHhmmss_nib m _) ?_
  have e0 : (Slice.mk (fun i => v.mem (0 + i)) (6 - 0)).nibbles 2 = v.nibbles 2 :=
    nibbles_same _ _ _ (fun i _ => by simp)
  have e2 : ((Slice.mk (fun i => v.mem (0 + i)) (6 - 0)).drop 2).nibbles 2 = (v.drop 2).nibbles 2 :=
    nibbles_same _ _ _ (fun i _ => by simp [Slice.drop])
  have e4 : ((Slice.mk (fun i => v.mem (0 + i)) (6 - 0)).drop 4).nibbles 2 = (v.drop 4).nibbles 2 :=
    nibbles_same _ _ _ (fun i _ => by simp [Slice.drop])
  rw [e0, e2, e4]
  refine bind_of_ok (a := rawTime v) (addU_ok (show rawTime v < U64 by omega)) ?_
  refine bind_of_ok (addU_ok (by omega)) ?_
  exact bind_of_ok (addU_ok (by omega)) rfl

/-- The loop over days ends when the stamps are far from the end of the 64-bit range. -/
theorem dayLoop_total (prev stamp : Nat) (hp : prev < 2 ^ 63) : ∀ (fuel : Nat) (g : Gen) (cur : Nat), g.date ≤ cur →
    cur < 2 ^ 63 + dayNanos → prev < cur + fuel → 1 ≤ fuel →
    ∃ r, ∀ m, dayLoop m prev stamp fuel g cur = .ok r := by
  intro fuel
  induction fuel with
  | zero => intro g cur _ _ _ h; omega
  | succ n ih =>
    intro g cur hg hc hf _
    have hU : (2 ^ 63 : Nat) + 4 * dayNanos < U64 := by decide
    have h15 : fifteenHours < dayNanos := by decide
    by_cases h : prev < fifteenHours + cur
    · exact ⟨_, fun m => dayLoop_done m prev stamp n g cur (by omega) h⟩
    · have hd : 1 ≤ dayNanos := by decide
      have h1 : 1 ≤ fifteenHours := by decide
      obtain ⟨r, hr⟩ := ih { g with date := g.date + dayNanos, update := stamp } (cur + dayNanos)
        (by show g.date + dayNanos ≤ _; omega) (by omega) (by omega) (by omega)
      exact ⟨r, fun m => by rw [dayLoop_next m prev stamp n g cur (by omega) (by omega) (by omega) (by omega), hr m]⟩

/-- The time parser delivers a stamp for any twelve bytes when date and previous stamp are before 2262. -/
theorem stamp_total (v : Slice) (stamp : Nat) (g : Gen) (hv : 12 ≤ v.len) (hd : g.date + 9 * dayNanos < 2 ^ 63)
    (hp : g.prev < 2 ^ 63) : ∃ r, ∀ m, parseStamp m krxOffset v stamp g = .ok r := by
  have hr := rawTime_lt v
  have ho : krxOffset = 9 * 3600 * 1000000000 := by decide
  have hdn : dayNanos = 24 * 3600 * 1000000000 := rfl
  have hU : (2 ^ 63 : Nat) + 4 * dayNanos < U64 := by decide
  obtain ⟨r, hr'⟩ := dayLoop_total g.prev stamp hp U64 g (rawTime v + krxOffset + g.date) (by omega) (by omega)
    (by omega) (by decide)
  refine ⟨(r.2, { r.1 with prev := r.2 }), fun m => ?_⟩
  rw [stamp_reads m krxOffset v stamp g hv (by omega), hr' m]
  rfl

/-- The time parser looks at its twelve bytes only. -/
theorem stamp_same (m : Mode) (offset : Nat) (v v' : Slice) (stamp : Nat) (g : Gen) (h : SameTo 12 v v') :
    parseStamp m offset v stamp g = parseStamp m offset v' stamp g := by
  unfold parseStamp
  by_cases hl : 12 ≤ v.len
  · obtain ⟨s, s', e, e', -, hs⟩ := sub_same h 6 12 (by omega) (by omega) hl
    obtain ⟨u, u', f, f', -, hu⟩ := sub_same h 0 6 (by omega) (by omega) (by omega)
    rw [e, e', f, f']
    simp only [Res.bind_ok]
    rw [under8_nib m s 6 (by omega) (by omega), under8_nib m s' 6 (by omega) (by omega),
      nibbles_same s s' 6 (fun i hi => hs.2 i (by omega)), parseHhmmss_nib, parseHhmmss_nib,
      nibbles_same u u' 2 (fun i hi => hu.2 i (by omega)),
      nibbles_same (u.drop 2) (u'.drop 2) 2 (fun i hi => hu.2 _ (by omega)),
      nibbles_same (u.drop 4) (u'.drop 4) 2 (fun i hi => hu.2 _ (by omega))]
  · have e : v.sub 6 12 = .error .index := sub_err v 6 12 (by omega)
    have e' : v'.sub 6 12 = .error .index := sub_err v' 6 12 (by rw [← h.1]; omega)
    rw [e, e']
    rfl

/-! ### The levels -/

/-- The converter behind a reference exists, and its parts are those of the field lemmas. -/
theorem load_conv (i : ConvId) : ∃ c, i.load = .ok c ∧ load i.priceCfg = .ok c.price ∧ load i.qtyCfg = .ok c.qty ∧
    c.prLen = i.priceCfg.total ∧ c.qnLen = i.qtyCfg.total := by
  cases i <;> exact ⟨_, rfl, rfl, rfl, rfl, rfl⟩

theorem put_ok (v : List Level) (i : Nat) (x : Level) (h : i < v.length) : put v i x = .ok (v.set i x) := by
  unfold put; rw [if_pos h]

/-- The loop over the levels, when every block is readable. -/
theorem fill_rows (m : Mode) (b : Block) (c : OrderConv) (p : Slice) (start : Nat) (rows : List (Level × Level)) :
    ∀ (k : Nat) (v : List Level × List Level), k + rows.length ≤ v.1.length → k + rows.length ≤ v.2.length →
    (∀ (i : Nat) (hi : i < rows.length), ∃ clip,
      p.sub (start + (k + i) * b.offset c) (start + (k + i) * b.offset c + b.offset c) = .ok clip ∧
      readBlock m b c clip = .ok rows[i]) →
    fill m b c p start rows.length k v
      = .ok (v.1.take k ++ rows.map (·.1) ++ v.1.drop (k + rows.length),
             v.2.take k ++ rows.map (·.2) ++ v.2.drop (k + rows.length)) := by
  induction rows with
  | nil => intro k v _ _ _; simp [fill]
  | cons r rows ih =>
    intro k v h1 h2 h
    simp only [List.length_cons] at h1 h2 ⊢
    obtain ⟨clip, e, hr⟩ := h 0 (by simp)
    simp only [Nat.add_zero, List.getElem_cons_zero] at e hr
    unfold fill
    refine bind_of_ok e (bind_of_ok hr ?_)
    dsimp only
    rw [put_ok _ _ _ (by omega), put_ok _ _ _ (by omega)]
    simp only [Res.bind_ok]
    rw [ih (k + 1) (v.1.set k r.1, v.2.set k r.2) (by simp; omega) (by simp; omega)]
    · have aux : ∀ (l : List Level) (x : Level) (xs : List Level) (n : Nat), k + (n + 1) ≤ l.length →
          (l.set k x).take (k + 1) ++ xs ++ (l.set k x).drop (k + 1 + n) = l.take k ++ (x :: xs) ++ l.drop (k + (n + 1)) := by
        intro l x xs n hl
        rw [List.take_add_one, List.take_set_of_le (le_refl k), List.getElem?_set_self (by omega),
          List.drop_set_of_lt (by omega)]
        simp [Nat.add_comm, Nat.add_left_comm]
      simp only [List.map_cons]
      rw [aux _ _ _ _ h1, aux _ _ _ _ h2]
    · intro i hi
      have := h (i + 1) (by simp; omega)
      simp only [List.getElem_cons_succ] at this
      rw [show k + 1 + i = k + (i + 1) by omega]
      exact this

/-- The price of a block, whatever its bytes are. -/
def blockPrice (b : Block) (i : ConvId) (s : Slice) : Int :=
  match b with
  | .counts => checkedPrice i.priceCfg s
  | .plain => uncheckedPrice i.priceCfg s
  | .lp => uncheckedPrice i.priceCfg s

/-- The two levels of a block, whatever its bytes are. -/
def blockOf (b : Block) (i : ConvId) (clip : Slice) : Level × Level :=
  let P := i.priceCfg.total
  let Q := i.qtyCfg.total
  let num (a n : Nat) : Nat := decimal ((clip.drop a).nibbles n)
  let extra (a n : Nat) : Option Nat × Option Nat := (some (num a n), some (num (a + n) n))
  let counts := match b with | .counts => extra (2 * P + 2 * Q) 5 | _ => (none, none)
  let lps := match b with | .lp => extra (2 * P + 2 * Q) Q | _ => (none, none)
  (⟨counts.1, blockPrice b i clip, num (2 * P) Q, lps.1⟩, ⟨counts.2, blockPrice b i (clip.drop P), num (2 * P + Q) Q, lps.2⟩)

theorem block_price (b : Block) (i : ConvId) (m : Mode) (c : OrderConv) (hc : load i.priceCfg = .ok c.price) (v : Slice)
    (hl : i.priceCfg.total ≤ v.len) : b.price m c v = .ok (blockPrice b i v) := by
  obtain ⟨conv, e, h1, h2⟩ := price_reads i m v hl
  rw [hc] at e
  obtain rfl := Except.ok.inj e
  cases b <;> assumption

theorem block_qty (i : ConvId) (m : Mode) (c : OrderConv) (hc : load i.qtyCfg = .ok c.qty) (v : Slice) :
    c.qty.toU64Unchecked m v = .ok (decimal (v.nibbles i.qtyCfg.total)) := by
  obtain ⟨conv, e, h⟩ := qty_reads i m v
  rw [hc] at e
  obtain rfl := Except.ok.inj e
  exact h

theorem blockPrice_mk (b : Block) (i : ConvId) (v : Slice) (a l : Nat) :
    blockPrice b i ⟨fun j => v.mem (a + j), l⟩ = blockPrice b i (v.drop a) := by cases b <;> rfl

theorem blockPrice_zero (b : Block) (i : ConvId) (v : Slice) (l : Nat) :
    blockPrice b i ⟨fun j => v.mem (0 + j), l⟩ = blockPrice b i v := by
  have : (fun j => v.mem (0 + j)) = v.mem := by funext j; rw [Nat.zero_add]
  rw [this]
  cases b <;> rfl

/-- Reading a block of the right length never fails. -/
theorem readBlock_reads (b : Block) (i : ConvId) (m : Mode) (c : OrderConv) (hc : i.load = .ok c) (clip : Slice)
    (hl : b.offset c ≤ clip.len) : readBlock m b c clip = .ok (blockOf b i clip) := by
  obtain ⟨c', e, hp, hq, hP, hQ⟩ := load_conv i
  rw [hc] at e
  obtain rfl := Except.ok.inj e
  have ho : c.prLen * 2 + c.qnLen * 2 ≤ b.offset c := by cases b <;> simp only [Block.offset] <;> omega
  unfold readBlock
  refine bind_of_ok (sub_ok clip 0 c.prLen (by omega) (by omega)) ?_
  refine bind_of_ok (block_price b i m c hp _ (by show i.priceCfg.total ≤ c.prLen - 0; omega)) ?_
  refine bind_of_ok (sub_ok clip c.prLen (c.prLen + c.prLen) (by omega) (by omega)) ?_
  refine bind_of_ok (block_price b i m c hp _ (by show i.priceCfg.total ≤ c.prLen + c.prLen - c.prLen; omega)) ?_
  refine bind_of_ok (sub_ok clip (c.prLen + c.prLen) (c.prLen + c.prLen + c.qnLen) (by omega) (by omega)) ?_
  refine bind_of_ok (block_qty i m c hq _) ?_
  refine bind_of_ok (sub_ok clip (c.prLen + c.prLen + c.qnLen) (c.prLen + c.prLen + c.qnLen + c.qnLen) (by omega) (by omega)) ?_
  refine bind_of_ok (block_qty i m c hq _) ?_
  rw [blockPrice_zero, blockPrice_mk]
  have d : ∀ (a l n : Nat), (Slice.mk (fun j => clip.mem (a + j)) l).nibbles n = (clip.drop a).nibbles n := fun _ _ _ => rfl
  rw [d, d]
  have n1 : i.priceCfg.total + i.priceCfg.total = 2 * i.priceCfg.total := by omega
  have n2 : c.qnLen = i.qtyCfg.total := hQ
  have n3 : c.prLen = i.priceCfg.total := hP
  have ha : 2 * i.priceCfg.total + i.qtyCfg.total + i.qtyCfg.total = 2 * i.priceCfg.total + 2 * i.qtyCfg.total := by omega
  cases b with
  | plain => simp only [blockOf, n1, n2, n3]
  | counts =>
    dsimp only
    have hcl : clip.len ≥ c.prLen * 2 + c.qnLen * 2 + 5 * 2 := hl
    obtain ⟨conv, hload, -⟩ := count_reads m clip
    have hcr : ∀ v, conv.toU32Unchecked m v = .ok (decimal (v.nibbles 5)) := by
      intro v
      obtain ⟨conv', h', hv⟩ := count_reads m v
      rw [hload] at h'
      obtain rfl := Except.ok.inj h'
      exact hv
    refine bind_of_ok hload ?_
    have ht : countCfg.total = 5 := rfl
    rw [ht]
    refine bind_of_ok (sub_ok clip _ _ (by omega) (by omega)) ?_
    refine bind_of_ok (hcr _) ?_
    refine bind_of_ok (sub_ok clip _ _ (by omega) (by omega)) ?_
    refine bind_of_ok (hcr _) ?_
    rw [d, d]
    simp only [blockOf, n1, n2, n3, ha]
  | lp =>
    dsimp only
    have hcl : clip.len ≥ c.prLen * 2 + c.qnLen * 4 := hl
    refine bind_of_ok (sub_ok clip _ _ (by omega) (by omega)) ?_
    refine bind_of_ok (block_qty i m c hq _) ?_
    refine bind_of_ok (sub_ok clip _ _ (by omega) (by omega)) ?_
    refine bind_of_ok (block_qty i m c hq _) ?_
    rw [d, d]
    simp only [blockOf, n1, n2, n3, ha]

/-- The length of a block of converter `i`. -/
def blockLen (b : Block) (i : ConvId) : Nat :=
  match b with
  | .counts => 2 * i.priceCfg.total + 2 * i.qtyCfg.total + 10
  | .plain => 2 * i.priceCfg.total + 2 * i.qtyCfg.total
  | .lp => 2 * i.priceCfg.total + 4 * i.qtyCfg.total

theorem offset_eq (b : Block) (i : ConvId) (c : OrderConv) (hc : i.load = .ok c) : b.offset c = blockLen b i := by
  obtain ⟨c', e, -, -, hP, hQ⟩ := load_conv i
  rw [hc] at e
  obtain rfl := Except.ok.inj e
  have ht : countCfg.total = 5 := rfl
  cases b <;> simp only [Block.offset, blockLen, ht] <;> omega

/-- The loop over the levels never fails on a message that is long enough; it delivers what the blocks hold. -/
theorem fill_reads (m : Mode) (b : Block) (i : ConvId) (c : OrderConv) (hc : i.load = .ok c) (p : Slice) (start n : Nat)
    (v : List Level × List Level) (h1 : n ≤ v.1.length) (h2 : n ≤ v.2.length) (hl : start + n * blockLen b i ≤ p.len) :
    fill m b c p start n 0 v
      = .ok (((List.range n).map fun k => (blockOf b i (p.drop (start + k * blockLen b i))).1) ++ v.1.drop n,
             ((List.range n).map fun k => (blockOf b i (p.drop (start + k * blockLen b i))).2) ++ v.2.drop n) := by
  have ho := offset_eq b i c hc
  have := fill_rows m b c p start ((List.range n).map fun k => blockOf b i (p.drop (start + k * blockLen b i))) 0 v
    (by simpa using h1) (by simpa using h2) ?_
  · simpa [Function.comp_def] using this
  · intro k hk
    simp only [List.length_map, List.length_range] at hk
    have hle : start + k * blockLen b i + blockLen b i ≤ p.len := by
      have : (k + 1) * blockLen b i ≤ n * blockLen b i := Nat.mul_le_mul_right _ hk
      rw [Nat.add_mul] at this
      omega
    refine ⟨_, sub_ok p _ _ (by omega) (by rw [ho, Nat.zero_add]; exact hle), ?_⟩
    rw [readBlock_reads b i m c hc _ (by show b.offset c ≤ _ - _; omega)]
    simp only [List.getElem_map, List.getElem_range, Nat.zero_add, ho]
    congr 1

end Verif.Props

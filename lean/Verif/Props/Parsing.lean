import Verif.TE.NumericLemmas
/-!
# Properties C25 - C31: decimal parsing of exchange fields

Specification: `text n v` is the number `v` written with `n` ASCII digits. A slice `Holds` a text when the
bytes from its data pointer on are that text (bytes behind the text are arbitrary).
-/
set_option autoImplicit false
namespace Verif.Props
open Verif Verif.TE.Num

/-- `v` in `n` ASCII decimal digits, zero padded, most significant first. -/
def text : Nat → Nat → List UInt8
  | 0, _ => []
  | n + 1, v => text n (v / 10) ++ [UInt8.ofNat (48 + v % 10)]

example : text 5 123 = [48, 48, 49, 50, 51] := by decide

/-- A number with `a` digits before the point and `f` digits after it, scaled by `10^f`. -/
def fixedText (a f v : Nat) : List UInt8 := text a (v / 10 ^ f) ++ 46 :: text f (v % 10 ^ f)

example : fixedText 3 2 12345 = [49, 50, 51, 46, 52, 53] := by decide

/-- The memory behind the slice starts with `t`. -/
def Holds (u : Slice) (t : List UInt8) : Prop := ∀ i (h : i < t.length), u.mem i = t[i]

/-- A slice with exactly these bytes (and zeros behind). -/
def ofList (t : List UInt8) : Slice := { mem := fun i => t.getD i 0, len := t.length }

theorem holds_ofList (t : List UInt8) : Holds (ofList t) t := by
  intro i h; simp [ofList, h]

theorem text_length (n v : Nat) : (text n v).length = n := by
  induction n generalizing v with
  | zero => rfl
  | succ n ih => simp [text, ih]

theorem holds_append (u : Slice) (a b : List UInt8) :
    Holds u (a ++ b) ↔ Holds u a ∧ Holds (u.drop a.length) b := by
  constructor
  · intro h
    refine ⟨fun i hi => ?_, fun i hi => ?_⟩
    · have := h i (by simp; omega)
      simpa [List.getElem_append_left hi] using this
    · have := h (a.length + i) (by simp; omega)
      simpa [Slice.drop] using this
  · rintro ⟨h1, h2⟩ i hi
    by_cases hia : i < a.length
    · rw [List.getElem_append_left hia]; exact h1 i hia
    · have := h2 (i - a.length) (by simp at hi; omega)
      rw [List.getElem_append_right (by omega)]
      rw [← this]
      simp only [Slice.drop]
      congr 1; omega

theorem text_nibbles (u : Slice) (n v : Nat) (h : Holds u (text n v)) (hv : v < 10 ^ n) :
    decimal (u.nibbles n) = v := by
  induction n generalizing v with
  | zero => simp [Slice.nibbles, Slice.bytes, decimal] at *; omega
  | succ n ih =>
    rw [text, holds_append, text_length] at h
    have h0 := h.2 0 (by simp)
    rw [nibbles_split, decimal_append, nibbles_length, ih (v / 10) h.1 (by rw [Nat.pow_succ] at hv; omega)]
    have : decimal ((u.drop n).nibbles 1) = v % 10 := by
      have e : (u.drop n).nibbles 1 = [((u.drop n).mem 0).toNat % 16] := rfl
      rw [e, h0]
      have hd : v % 10 < 10 := Nat.mod_lt _ (by decide)
      simp only [decimal, List.foldl_cons, List.foldl_nil, List.getElem_cons_zero]
      have : (UInt8.ofNat (48 + v % 10)).toNat = 48 + v % 10 := by
        simp only [UInt8.toNat_ofNat']; omega
      rw [this]; omega
    rw [this]; omega

theorem text_split (a f v : Nat) : text (a + f) v = text a (v / 10 ^ f) ++ text f (v % 10 ^ f) := by
  induction f generalizing v with
  | zero => simp [text]
  | succ f ih =>
    have e1 : v / 10 / 10 ^ f = v / 10 ^ (f + 1) := by
      rw [Nat.div_div_eq_div_mul, Nat.pow_succ, Nat.mul_comm]
    have e2 : v / 10 % 10 ^ f = v % 10 ^ (f + 1) / 10 := by
      rw [Nat.pow_succ, Nat.mul_comm, Nat.mod_mul_right_div_self]
    have e3 : v % 10 = v % 10 ^ (f + 1) % 10 := by
      rw [Nat.pow_succ, Nat.mul_comm, Nat.mod_mul_right_mod]
    rw [← Nat.add_assoc, text, ih, text, List.append_assoc, e1, e2, ← e3]

theorem fixed_value (u : Slice) (a f v : Nat) (h : Holds u (fixedText a f v)) (hv : v < 10 ^ (a + f)) :
    decimal (u.fixed (a + 1 + f) (f + 1)) = v := by
  unfold Slice.fixed
  rw [if_neg (by omega)]
  rw [fixedText, holds_append, text_length, show (46 :: text f (v % 10 ^ f) : List UInt8) = [46] ++ text f (v % 10 ^ f) from rfl,
    holds_append, drop_drop] at h
  have hpos : 0 < 10 ^ f := Nat.pos_of_ne_zero (by positivity)
  rw [show a + 1 + f - (f + 1) = a by omega, show f + 1 - 1 = f by omega, decimal_append, nibbles_length,
    text_nibbles u a _ h.1 (by rw [Nat.div_lt_iff_lt_mul hpos, ← Nat.pow_add]; exact hv)]
  have := text_nibbles (u.drop (a + 1)) f _ h.2.2 (Nat.mod_lt _ hpos)
  rw [this]
  exact Nat.div_add_mod' v (10 ^ f)

/-! ## C25 -/

/-- C25. `parse_under8` returns the number written in the field, for every length 1..8 and whatever follows
the field, in debug and release builds. -/
theorem C25_parse_under8 (m : Mode) (u : Slice) (n v : Nat) (h1 : 1 ≤ n) (h8 : n ≤ 8) (hv : v < 10 ^ n)
    (h : Holds u (text n v)) : under8 m u n = .ok v := by
  rw [under8_nib m u n h1 h8, text_nibbles u n v h hv]

example : under8 .checked (ofList (text 7 1234567)) 7 = .ok 1234567 :=
  C25_parse_under8 _ _ 7 _ (by decide) (by decide) (by decide) (holds_ofList _)

/-- On arbitrary bytes `parse_under8` does not panic and its result is below `2 * 10^n`. -/
theorem C25_total (m : Mode) (u : Slice) (n : Nat) (h1 : 1 ≤ n) (h8 : n ≤ 8) :
    ∃ v, under8 m u n = .ok v ∧ v < 2 * 10 ^ n :=
  ⟨_, under8_nib m u n h1 h8, decimal_nibbles_lt u n⟩

/-- Length 0 is accepted by the `debug_assert!` but shifts by 64 bits: a panic in debug builds, and in
release builds the eight bytes after the pointer are parsed. -/
theorem fault_under8_empty (u : Slice) :
    under8 .checked u 0 = .error .overflow ∧ under8 .wrapping u 0 = under8 .wrapping u 8 := by
  constructor
  · refine bind_of_ok (dbg_ok _ _ (by decide)) (bind_of_ok (subU_ok (by norm_num)) ?_)
    have : shlW 64 .checked (u.read 8) (64 - 0 * 8) = .error .overflow := by
      unfold shlW; rw [if_neg (by norm_num)]
    rw [this]; exact Res.bind_error _ _
  · have h0 : shlW 64 .wrapping (u.read 8) (64 - 0 * 8) = shlW 64 .wrapping (u.read 8) (64 - 8 * 8) := by
      unfold shlW; rw [if_neg (by norm_num), if_pos (by norm_num)]
    refine bind_of_ok (dbg_ok _ _ (by decide)) (bind_of_ok (subU_ok (by norm_num)) ?_)
    refine Eq.symm (bind_of_ok (dbg_ok _ _ (by decide)) (bind_of_ok (subU_ok (by norm_num)) ?_))
    rw [h0]

/-! ## C26 -/

/-- C26. `parse_under16` returns the number written in the field, for every length 1..16. -/
theorem C26_parse_under16 (m : Mode) (u : Slice) (n v : Nat) (h1 : 1 ≤ n) (h16 : n ≤ 16) (hv : v < 10 ^ n)
    (h : Holds u (text n v)) : under16 m u n = .ok v := by
  rw [under16_nib m u n h1 h16, text_nibbles u n v h hv]

example : under16 .wrapping (ofList (text 16 1234567890123456)) 16 = .ok 1234567890123456 :=
  C26_parse_under16 _ _ 16 _ (by decide) (by decide) (by decide) (holds_ofList _)

/-- On arbitrary bytes `parse_under16` does not panic. -/
theorem C26_total (m : Mode) (u : Slice) (n : Nat) (h1 : 1 ≤ n) (h16 : n ≤ 16) :
    ∃ v, under16 m u n = .ok v ∧ v < 2 * 10 ^ n :=
  ⟨_, under16_nib m u n h1 h16, decimal_nibbles_lt u n⟩

/-- Both parsers agree where both apply, on arbitrary bytes. -/
theorem C26_agrees_with_under8 (m : Mode) (u : Slice) (n : Nat) (h1 : 1 ≤ n) (h8 : n ≤ 8) :
    under16 m u n = under8 m u n := by
  rw [under8_nib m u n h1 h8, under16_nib m u n h1 (by omega)]

/-! ## C27 -/

/-- C27. `parse_under32` returns the number written in the field, for every length 17..32 (the slice must be
16 bytes or longer, or the split panics). -/
theorem C27_parse_under32 (m : Mode) (u : Slice) (n v : Nat) (h1 : 17 ≤ n) (h32 : n ≤ 32) (hl : 16 ≤ u.len)
    (hv : v < 10 ^ n) (h : Holds u (text n v)) : under32 m u n = .ok v := by
  rw [under32_nib m u n h1 h32 hl, text_nibbles u n v h hv]

example : under32 .checked (ofList (text 20 12345678901234567890)) 20 = .ok 12345678901234567890 :=
  C27_parse_under32 _ _ 20 _ (by decide) (by decide) (by decide) (by decide) (holds_ofList _)

/-- A slice shorter than 16 bytes always panics. -/
theorem C27_short_slice (m : Mode) (u : Slice) (n : Nat) (h1 : 16 ≤ n) (h32 : n ≤ 32) (hl : u.len < 16) :
    under32 m u n = .error .index := by
  have hdb := dbg_ok m (decide (16 ≤ n ∧ n ≤ 32)) (by simp [h32]; omega)
  refine bind_of_ok hdb ?_
  have : u.splitAt 16 = .error .index := by unfold Slice.splitAt; rw [if_neg (by omega)]
  rw [this]; rfl

/-- Length 16 passes the `debug_assert!` of `parse_under32` but panics in debug builds, and in release builds
adds the sixteen bytes that follow the field to the result. -/
theorem fault_under32_at_16 (u : Slice) (hl : 16 ≤ u.len) :
    under32 .checked u 16 = .error .overflow ∧
    under32 .wrapping u 16 = .ok (decimal (u.nibbles 16) + decimal ((u.drop 16).nibbles 16)) := by
  constructor
  · refine bind_of_ok (dbg_ok _ _ (by decide)) (bind_of_ok (splitAt_ok u 16 hl) ?_)
    refine bind_of_ok (under16_nib _ _ 16 (by omega) (by omega)) ?_
    refine bind_of_ok (subU_ok (by omega)) (bind_of_ok (pow10_ok _ _ (by omega)) ?_)
    refine bind_of_ok (mulW_ok ?_) ?_
    · have := decimal_nibbles_lt ⟨u.mem, 16⟩ 16
      norm_num at this ⊢; omega
    · have : under16 .checked (u.drop 16) (16 - 16) = .error .overflow := by
        refine bind_of_ok (dbg_ok _ _ (by decide)) (bind_of_ok (subU_ok (by norm_num)) ?_)
        have : shlW 128 .checked ((u.drop 16).read 16) (128 - (16 - 16) * 8) = .error .overflow := by
          unfold shlW; rw [if_neg (by norm_num)]
        rw [this]; exact Res.bind_error _ _
      rw [this]; exact Res.bind_error _ _
  · refine bind_of_ok (dbg_ok _ _ (by decide)) (bind_of_ok (splitAt_ok u 16 hl) ?_)
    refine bind_of_ok (under16_nib _ _ 16 (by omega) (by omega)) ?_
    refine bind_of_ok (subU_ok (by omega)) (bind_of_ok (pow10_ok _ _ (by omega)) ?_)
    have h1 := decimal_nibbles_lt ⟨u.mem, 16⟩ 16
    have h2 := decimal_nibbles_lt (u.drop 16) 16
    refine bind_of_ok (mulW_ok ?_) ?_
    · norm_num at h1 ⊢; omega
    · have h0 : shlW 128 .wrapping ((u.drop 16).read 16) (128 - (16 - 16) * 8)
          = shlW 128 .wrapping ((u.drop 16).read 16) (128 - 16 * 8) := by
        unfold shlW; rw [if_neg (by norm_num), if_pos (by norm_num)]
      have : under16 .wrapping (u.drop 16) (16 - 16) = .ok (decimal ((u.drop 16).nibbles 16)) := by
        rw [← under16_nib .wrapping (u.drop 16) 16 (by omega) (by omega)]
        refine bind_of_ok (dbg_ok _ _ (by decide)) (bind_of_ok (subU_ok (by norm_num)) ?_)
        refine Eq.symm (bind_of_ok (dbg_ok _ _ (by decide)) (bind_of_ok (subU_ok (by norm_num)) ?_))
        rw [h0]
      refine bind_of_ok this ?_
      rw [show (10 : Nat) ^ (16 - 16) = 1 by norm_num, Nat.mul_one]
      exact addW_ok (by norm_num at h1 h2 ⊢; omega)

/-! ## C28 -/

/-- C28, at most 8 bytes. A number with `a` digits before the point and `f` after it, `a + 1 + f` bytes in all,
is returned scaled by `10^f`; the point may be first or last. A trailing point (`f = 0`) needs a slice
covering the digits. -/
theorem C28_fixed8 (m : Mode) (u : Slice) (a f v : Nat) (h1 : 1 ≤ a + f) (h8 : a + 1 + f ≤ 8)
    (hl : f = 0 → a ≤ u.len) (hv : v < 10 ^ (a + f)) (h : Holds u (fixedText a f v)) :
    under8fp m u (a + 1 + f) (f + 1) = .ok v := by
  rw [under8fp_nib m u _ _ h8 (by omega) (fun h0 => ⟨by omega, by have := hl (by omega); omega⟩) (by omega),
    fixed_value u a f v h hv]

/-- C28, at most 16 bytes. -/
theorem C28_fixed16 (m : Mode) (u : Slice) (a f v : Nat) (h1 : 1 ≤ a + f) (h16 : a + 1 + f ≤ 16)
    (hl : f = 0 → a ≤ u.len) (hv : v < 10 ^ (a + f)) (h : Holds u (fixedText a f v)) :
    under16fp m u (a + 1 + f) (f + 1) = .ok v := by
  rw [under16fp_nib m u _ _ h16 (by omega) (fun h0 => ⟨by omega, by have := hl (by omega); omega⟩) (by omega),
    fixed_value u a f v h hv]

/-- C28, 17 to 32 bytes, when the scaled number fits 64 bits. -/
theorem C28_fixed32 (m : Mode) (u : Slice) (a f v : Nat) (h17 : 17 ≤ a + 1 + f) (h32 : a + 1 + f ≤ 32)
    (hl16 : 16 ≤ u.len) (hl : f = 0 → 17 ≤ a ∧ a ≤ u.len) (hv : v < 10 ^ (a + f)) (h64 : v < 2 ^ 64)
    (h : Holds u (fixedText a f v)) : under32fp m u (a + 1 + f) (f + 1) = .ok v := by
  have e := fixed_value u a f v h hv
  rw [under32fp_nib m u _ _ h17 h32 hl16 (by omega)
    (fun h0 => ⟨by have := (hl (by omega)).1; omega, by have := (hl (by omega)).2; omega⟩) (by rw [e]; exact h64), e]

/-- Without a point the fixed-point parsers are the plain ones. -/
theorem C28_no_point (m : Mode) (u : Slice) (n v : Nat) (hv : v < 10 ^ n) (h : Holds u (text n v)) :
    (1 ≤ n → n ≤ 8 → under8fp m u n 0 = .ok v) ∧
    (1 ≤ n → n ≤ 16 → under16fp m u n 0 = .ok v) ∧
    (17 ≤ n → n ≤ 32 → 16 ≤ u.len → v < 2 ^ 64 → under32fp m u n 0 = .ok v) := by
  have e : decimal (u.fixed n 0) = v := text_nibbles u n v h hv
  refine ⟨fun h1 h2 => ?_, fun h1 h2 => ?_, fun h1 h2 hl h64 => ?_⟩
  · rw [under8fp_nib m u n 0 h2 (by omega) (by simp) h1, e]
  · rw [under16fp_nib m u n 0 h2 (by omega) (by simp) h1, e]
  · rw [under32fp_nib m u n 0 h1 h2 hl (by omega) (by simp) (by rw [e]; exact h64), e]

example : under8fp .checked (ofList (fixedText 3 2 12345)) 6 3 = .ok 12345 :=
  C28_fixed8 _ _ 3 2 _ (by decide) (by decide) (by decide) (by decide) (holds_ofList _)
example : under16fp .checked (ofList (fixedText 8 3 12345678999)) 12 4 = .ok 12345678999 :=
  C28_fixed16 _ _ 8 3 _ (by decide) (by decide) (by decide) (by decide) (holds_ofList _)
example : under32fp .wrapping (ofList (fixedText 15 2 12345678901234567)) 18 3 = .ok 12345678901234567 :=
  C28_fixed32 _ _ 15 2 _ (by decide) (by decide) (by decide) (by decide) (by decide) (by decide) (holds_ofList _)

/-! ## C29 -/

/-- C29. `HHMMSS` text is converted to nanoseconds since midnight, whatever two bytes follow. -/
theorem C29_hhmmss (m : Mode) (u : Slice) (hh mm ss : Nat) (h1 : hh < 100) (h2 : mm < 100) (h3 : ss < 100)
    (h : Holds u (text 2 hh ++ text 2 mm ++ text 2 ss)) :
    parseHhmmss m u = .ok ((hh * 3600 + mm * 60 + ss) * 1000000000) := by
  rw [List.append_assoc, holds_append, text_length, holds_append, text_length, drop_drop] at h
  rw [parseHhmmss_nib, text_nibbles u 2 hh h.1 (by norm_num; omega), text_nibbles _ 2 mm h.2.1 (by norm_num; omega),
    text_nibbles _ 2 ss h.2.2 (by norm_num; omega)]
  congr 2; ring

/-- `parse_2digits` and `parse_3digits`. -/
theorem C29_short_fields (m : Mode) (u : Slice) (v : Nat) :
    (v < 100 → Holds u (text 2 v) → parse2 m u = .ok v) ∧
    (v < 1000 → Holds u (text 3 v) → parse3 m u = .ok v) := by
  refine ⟨fun hv h => ?_, fun hv h => ?_⟩
  · rw [parse2_nib, text_nibbles u 2 v h (by norm_num; omega)]
  · rw [parse3_nib, text_nibbles u 3 v h (by norm_num; omega)]

example : parseHhmmss .checked (ofList (text 2 12 ++ text 2 34 ++ text 2 56)) = .ok 45296000000000 :=
  C29_hhmmss _ _ 12 34 56 (by decide) (by decide) (by decide) (holds_ofList _)

/-! ## C30 -/

/-- The text of a field of configuration `c`: sign byte, unused bytes, digits, and point and decimals if any. -/
def fieldText (c : Cfg) (sign : UInt8) (unused : List UInt8) (x : Nat) : List UInt8 :=
  (if c.signed then [sign] else []) ++ (unused ++
    (if c.dec = 0 then text c.digit x else fixedText c.digit (c.dec - 1) x))

/-- Number of digit characters. -/
def nDigits (c : Cfg) : Nat := c.digit + (c.dec - 1)

/-- The number a converter should deliver for the scaled field value `x`. -/
def expected (c : Cfg) (x : Nat) : Nat := if c.drop then x / 10 ^ (c.dec - 1) else x

/-- Number of bytes the converter parses. -/
def parsed (c : Cfg) : Nat := if c.drop then c.digit else c.digit + c.dec

/-- Number of bytes before the digits. -/
def prefixLen (c : Cfg) : Nat := c.signed.toNat + c.unused

/-- The configurations for which an accepted converter works. -/
abbrev Supported (c : Cfg) : Prop :=
  prefixLen c ≤ parsed c ∧
  (c.drop ∨ c.dec = 0 → 1 ≤ c.digit) ∧
  (c.drop = false → c.dec = 1 → 1 ≤ c.digit ∧ prefixLen c ≤ 1 ∧ parsed c ≠ 17) ∧
  (17 ≤ parsed c → prefixLen c + 16 ≤ parsed c)

/-- C30. `IntegerConverter::new` accepts exactly the configurations whose lengths add up and that parse at
most 18 bytes. -/
theorem C30_accepts (c : Cfg) :
    (Conv.new c).isSome ↔ (c.digit + c.dec + c.unused + c.signed.toNat = c.total ∧ parsed c ≤ 18) := by
  unfold Conv.new Cfg.checkValidity parsed
  by_cases hv : c.digit + c.dec + c.unused + c.signed.toNat = c.total
  · simp only [hv, beq_self_eq_true, if_true, true_and]
    cases hd : c.drop
    · have e : c.total - c.unused - c.signed.toNat = c.digit + c.dec := by omega
      simp only [e, Bool.false_eq_true, if_false]
      split
      · simp; omega
      · split
        · simp; omega
        · split <;> simp <;> omega
    · have e : c.total - c.unused - c.signed.toNat - c.dec = c.digit := by omega
      simp only [e, if_true]
      split
      · simp; omega
      · split
        · simp; omega
        · split <;> simp <;> omega
  · simp [hv]

/-- The converter built for an accepted configuration. -/
theorem new_eq (c : Cfg) (conv : Conv) (h : Conv.new c = some conv) :
    parsed c ≤ 18 ∧ c.digit + c.dec + c.unused + c.signed.toNat = c.total ∧
    conv = ⟨c.signed, prefixLen c, parsed c, if c.drop then 0 else c.dec, parsed c,
      if parsed c ≤ 8 then .p8 else if parsed c ≤ 16 then .p16 else .p32⟩ := by
  have hs := (C30_accepts c).1 (by rw [h]; rfl)
  refine ⟨hs.2, hs.1, ?_⟩
  unfold Conv.new Cfg.checkValidity at h
  simp only [hs.1, beq_self_eq_true, if_true] at h
  have h18 := hs.2
  unfold parsed at h18 ⊢
  unfold prefixLen
  cases hd : c.drop
  · have e : c.total - c.unused - c.signed.toNat = c.digit + c.dec := by omega
    simp only [e, hd, Bool.false_eq_true, if_false] at h h18 ⊢
    split at h
    · cases h; simp [*]
    · split at h
      · cases h; simp [*]
      · cases h; simp [*]
  · have e : c.total - c.unused - c.signed.toNat - c.dec = c.digit := by omega
    simp only [e, hd, if_true] at h h18 ⊢
    split at h
    · cases h; simp [*]
    · split at h
      · cases h; simp [*]
      · cases h; simp [*]

theorem bind_err {α β : Type} {x : Res α} {e : Fault} {f : α → Res β} (h : x = .error e) :
    (x >>= f) = .error e := by subst h; rfl

theorem sub_ok (v : Slice) (a b : Nat) (h1 : a ≤ b) (h2 : b ≤ v.len) :
    v.sub a b = .ok ⟨fun i => v.mem (a + i), b - a⟩ := by
  unfold Slice.sub; rw [if_pos ⟨h1, h2⟩]

theorem holds_mk (u : Slice) (k l : Nat) (t : List UInt8) (h : Holds (u.drop k) t) :
    Holds ⟨fun i => u.mem (k + i), l⟩ t := h

/-- The bytes after the prefix. -/
theorem field_body (c : Cfg) (sign : UInt8) (unused : List UInt8) (x : Nat) (v : Slice)
    (hu : unused.length = c.unused) (h : Holds v (fieldText c sign unused x)) :
    Holds (v.drop (prefixLen c)) (if c.dec = 0 then text c.digit x else fixedText c.digit (c.dec - 1) x) := by
  unfold fieldText at h
  rw [holds_append, holds_append] at h
  have := h.2.2
  rw [drop_drop, hu] at this
  unfold prefixLen
  cases hs : c.signed <;> simpa [hs] using this

theorem pow_lt_2_64 (n : Nat) (h : n ≤ 18) : 10 ^ n ≤ 10 ^ 18 := Nat.pow_le_pow_right (by decide) h

/-- C30. Every accepted and supported configuration parses every field of its layout, in debug and release
builds; with a sign byte, any first byte other than `'0'` negates. -/
theorem C30_converter (m : Mode) (c : Cfg) (conv : Conv) (hnew : Conv.new c = some conv) (hs : Supported c)
    (sign : UInt8) (unused : List UInt8) (x : Nat) (v : Slice) (hu : unused.length = c.unused)
    (hx : x < 10 ^ nDigits c) (hl : c.total ≤ v.len) (h : Holds v (fieldText c sign unused x)) :
    conv.toU64 m v = .ok (expected c x) ∧
    conv.toI64 m v = .ok (if c.signed ∧ sign ≠ 48 then -(expected c x : Int) else expected c x) := by
  obtain ⟨h18, hval, hc⟩ := new_eq c conv hnew
  have hb := field_body c sign unused x v hu h
  obtain ⟨s1, s2, s3, s4⟩ := hs
  have hlen : parsed c ≤ v.len := by unfold parsed; split <;> omega
  have hexp : expected c x < 10 ^ 18 := by
    have hx18 : nDigits c ≤ 18 ∨ c.drop := by
      unfold nDigits; unfold parsed at h18
      cases hd : c.drop
      · simp only [hd, Bool.false_eq_true, if_false] at h18; left; omega
      · right; rfl
    unfold expected
    cases hd : c.drop
    · simp only [Bool.false_eq_true, if_false]
      have := pow_lt_2_64 (nDigits c) (by simpa [hd] using hx18)
      omega
    · simp only [if_true]
      unfold nDigits at hx
      unfold parsed at h18
      simp only [hd, if_true] at h18
      have : x / 10 ^ (c.dec - 1) < 10 ^ c.digit := by
        rw [Nat.div_lt_iff_lt_mul (Nat.pos_of_ne_zero (by positivity)), ← Nat.pow_add]; exact hx
      have := pow_lt_2_64 _ h18
      omega
  have hU : conv.toU64 m v = .ok (expected c x) := by
    rw [hc]
    refine bind_of_ok (sub_ok v _ _ s1 hlen) ?_
    -- the digits to be parsed
    have key : (c.drop ∨ c.dec = 0) ∨ (c.drop = false ∧ c.dec ≠ 0) := by
      cases c.drop <;> simp [em]
    rcases key with hk | ⟨hd, hdec⟩
    · -- no point is parsed
      have hp1 : 1 ≤ parsed c := by
        have := s2 hk
        unfold parsed; split <;> omega
      have hdig : parsed c = c.digit := by
        unfold parsed
        rcases hk with hk | hk
        · rw [if_pos hk]
        · split <;> omega
      have hpl : (if c.drop then 0 else c.dec) = 0 := by
        rcases hk with hk | hk
        · rw [if_pos hk]
        · split <;> omega
      have htext : Holds (v.drop (prefixLen c)) (text c.digit (expected c x)) := by
        unfold expected
        by_cases hdec : c.dec = 0
        · rw [if_pos hdec] at hb
          have : (if c.drop then x / 10 ^ (c.dec - 1) else x) = x := by
            rw [hdec]; simp
          rw [this]; exact hb
        · rw [if_neg hdec, fixedText, holds_append] at hb
          have hdr : c.drop = true := by rcases hk with h | h; exact h; exact absurd h hdec
          rw [if_pos hdr]; exact hb.1
      have hlt : expected c x < 10 ^ c.digit := by
        unfold expected nDigits at *
        by_cases hdec : c.dec = 0
        · have : (if c.drop then x / 10 ^ (c.dec - 1) else x) = x := by rw [hdec]; simp
          rw [this]; simpa [hdec] using hx
        · have hdr : c.drop = true := by rcases hk with h | h; exact h; exact absurd h hdec
          rw [if_pos hdr, Nat.div_lt_iff_lt_mul (Nat.pos_of_ne_zero (by positivity)), ← Nat.pow_add]; exact hx
      have hn := C28_no_point m ⟨fun i => v.mem (prefixLen c + i), parsed c - prefixLen c⟩ c.digit _ hlt
        (holds_mk v _ _ _ htext)
      simp only [hpl, hdig]
      rw [hdig] at hp1 h18 s4
      by_cases h8 : c.digit ≤ 8
      · rw [if_pos h8]; simpa [hdig, Parser.run] using hn.1 hp1 h8
      · rw [if_neg h8]
        by_cases h16 : c.digit ≤ 16
        · rw [if_pos h16]; simpa [hdig, Parser.run] using hn.2.1 hp1 h16
        · rw [if_neg h16]
          have := s4 (by omega)
          have := hn.2.2 (by omega) (by omega) (by show 16 ≤ parsed c - prefixLen c; omega)
            (by norm_num at hexp ⊢; omega)
          simpa [hdig, Parser.run] using this
    · -- a point is parsed
      have hpar : parsed c = c.digit + c.dec := by unfold parsed; simp [hd]
      have he : expected c x = x := by unfold expected; simp [hd]
      rw [if_neg hdec] at hb
      have hpt := holds_mk v (prefixLen c) (parsed c - prefixLen c) _ hb
      have hsz : parsed c = c.digit + 1 + (c.dec - 1) := by omega
      have hpl : (if c.drop then 0 else c.dec) = (c.dec - 1) + 1 := by simp [hd]; omega
      rw [he] at hexp ⊢
      simp only [hpl]
      unfold nDigits at hx
      have hone : 1 ≤ c.digit + (c.dec - 1) := by
        by_cases h1 : c.dec = 1
        · have := (s3 hd h1).1; omega
        · omega
      have hcov : c.dec - 1 = 0 → c.digit ≤ parsed c - prefixLen c := by
        intro h0; have := (s3 hd (by omega)).2.1; omega
      by_cases h8 : parsed c ≤ 8
      · rw [if_pos h8, hsz]
        rw [hsz] at h8 hpt hcov
        exact C28_fixed8 m _ c.digit (c.dec - 1) x hone h8 hcov hx hpt
      · rw [if_neg h8]
        by_cases h16 : parsed c ≤ 16
        · rw [if_pos h16, hsz]
          rw [hsz] at h16 hpt hcov
          exact C28_fixed16 m _ c.digit (c.dec - 1) x hone h16 hcov hx hpt
        · rw [if_neg h16]
          have h4 := s4 (by omega)
          have hcov2 : c.dec - 1 = 0 → 17 ≤ c.digit ∧ c.digit ≤ parsed c - prefixLen c := by
            intro h0; have := (s3 hd (by omega)).2.2; have := hcov h0; omega
          have hl16 : 16 ≤ parsed c - prefixLen c := by omega
          rw [hsz] at h16 h18 hpt hcov2 hl16 ⊢
          exact C28_fixed32 m _ c.digit (c.dec - 1) x (by omega) (by omega) hl16 hcov2 hx
            (by norm_num at hexp ⊢; omega) hpt
  refine ⟨hU, ?_⟩
  have hpos : asI64 (expected c x) = (expected c x : Int) := by
    unfold asI64; rw [if_pos (by norm_num at hexp ⊢; omega)]
  have hneg : asI64 ((2 ^ 64 - expected c x) % 2 ^ 64) = -(expected c x : Int) := by
    unfold asI64
    norm_num at hexp ⊢
    by_cases h0 : expected c x = 0
    · rw [h0]; norm_num
    · rw [Nat.mod_eq_of_lt (by omega), if_neg (by omega)]
      omega
  unfold Conv.toI64
  have hsg : conv.signed = c.signed := by rw [hc]
  rw [hsg]
  cases hsig : c.signed
  · simp only [Bool.false_eq_true, if_false, false_and]
    refine bind_of_ok hU ?_
    rw [hpos]
  · have hv0 : v.mem 0 = sign := by
      have := h 0 (by simp [fieldText, hsig])
      simpa [fieldText, hsig] using this
    have hlv : 0 < v.len := by
      have : c.signed.toNat = 1 := by rw [hsig]; rfl
      omega
    simp only [if_true, if_pos hlv, hv0, true_and]
    by_cases h48 : sign = 48
    · rw [if_pos h48, if_neg (by simp [h48])]
      refine bind_of_ok hU ?_
      rw [hpos]
    · rw [if_neg h48, if_pos h48]
      refine bind_of_ok hU ?_
      rw [hneg]

/-- A number with sign and point through a whole converter (`krx_risk_free_derivative_converter`). -/
example : ∃ conv, Conv.new ⟨4, 4, true, 0, 9, false⟩ = some conv ∧
    conv.toI64 .checked (ofList (fieldText ⟨4, 4, true, 0, 9, false⟩ 45 [] 1234123)) = .ok (-1234123) :=
  ⟨_, rfl, (C30_converter .checked ⟨4, 4, true, 0, 9, false⟩ _ rfl (by decide) 45 [] 1234123 _ rfl (by decide)
    (by decide) (holds_ofList _)).2⟩

theorem sub_err (v : Slice) (a b : Nat) (h : ¬ (a ≤ b ∧ b ≤ v.len)) : v.sub a b = .error .index := by
  unfold Slice.sub; rw [if_neg h]

theorem under8_zero_checked (u : Slice) : under8 .checked u 0 = .error .overflow := (fault_under8_empty u).1

/-- C30. An accepted but unsupported configuration panics on every field in a debug build: together with
`C30_converter` the list of supported configurations is exact. -/
theorem C30_unsupported (c : Cfg) (conv : Conv) (hnew : Conv.new c = some conv) (hs : ¬ Supported c) (v : Slice) :
    ∃ e, conv.toU64 .checked v = .error e := by
  obtain ⟨h18, hval, hc⟩ := new_eq c conv hnew
  rw [hc]
  by_cases hsub : prefixLen c ≤ parsed c ∧ parsed c ≤ v.len
  swap
  · exact ⟨_, bind_err (sub_err v _ _ hsub)⟩
  obtain ⟨h1, h2⟩ := hsub
  have hred : ∀ (r : Res Nat),
      (if parsed c ≤ 8 then Parser.p8 else if parsed c ≤ 16 then .p16 else .p32).run .checked
        ⟨fun i => v.mem (prefixLen c + i), parsed c - prefixLen c⟩ (parsed c) (if c.drop then 0 else c.dec) = r →
      Conv.toU64 .checked ⟨c.signed, prefixLen c, parsed c, if c.drop then 0 else c.dec, parsed c,
        if parsed c ≤ 8 then .p8 else if parsed c ≤ 16 then .p16 else .p32⟩ v = r :=
    fun r hr => bind_of_ok (sub_ok v _ _ h1 h2) hr
  suffices ∃ e, (if parsed c ≤ 8 then Parser.p8 else if parsed c ≤ 16 then .p16 else .p32).run .checked
        ⟨fun i => v.mem (prefixLen c + i), parsed c - prefixLen c⟩ (parsed c) (if c.drop then 0 else c.dec) = .error e by
    obtain ⟨e, he⟩ := this
    exact ⟨e, hred _ he⟩
  -- which requirement fails?
  have hcases : ((c.drop ∨ c.dec = 0) ∧ c.digit = 0) ∨
      (c.drop = false ∧ c.dec = 1 ∧ (c.digit = 0 ∨ 2 ≤ prefixLen c ∨ parsed c = 17)) ∨
      (17 ≤ parsed c ∧ parsed c < prefixLen c + 16) := by
    by_contra hcon
    push Not at hcon
    obtain ⟨a1, a2, a3⟩ := hcon
    apply hs
    refine ⟨h1, fun h => ?_, fun hd hdec => ?_, fun h => ?_⟩
    · have := a1 h; omega
    · have := a2 hd hdec; omega
    · exact a3 h
  by_cases h4 : 17 ≤ parsed c ∧ parsed c < prefixLen c + 16
  · obtain ⟨h17, hshort⟩ := h4
    rw [if_neg (by omega), if_neg (by omega)]
    have hdb := dbg_ok .checked (decide (16 ≤ parsed c ∧ parsed c ≤ 32)) (by simp; omega)
    have hplle : (if c.drop then 0 else c.dec) ≤ parsed c := by unfold parsed; split <;> omega
    generalize (if c.drop then 0 else c.dec) = pl at hplle ⊢
    match pl with
    | 0 =>
      refine ⟨.index, bind_of_ok hdb (bind_err ?_)⟩
      exact C27_short_slice _ _ _ (by omega) (by omega) (by show parsed c - prefixLen c < 16; omega)
    | 1 =>
      refine ⟨.index, bind_of_ok hdb (bind_of_ok (subU_ok (by omega)) (bind_err (sub_err _ _ _ ?_)))⟩
      show ¬ (0 ≤ parsed c - 1 ∧ parsed c - 1 ≤ parsed c - prefixLen c)
      omega
    | q + 2 =>
      refine ⟨.index, bind_of_ok hdb (bind_of_ok (subU_ok hplle) ?_)⟩
      have hleft : ∃ k, leftPoint .checked (parsed c - (q + 2)) = .ok k := by
        unfold leftPoint
        by_cases h : parsed c - (q + 2) > 16
        · exact ⟨_, if_pos h⟩
        · rw [if_neg h, subU_ok (by omega)]; exact ⟨_, rfl⟩
      obtain ⟨k, hk⟩ := hleft
      refine bind_of_ok hk (bind_err ?_)
      unfold Slice.splitAt
      rw [if_neg (by show ¬ (16 ≤ parsed c - prefixLen c); omega)]
  · rcases hcases with ⟨hk, h0⟩ | ⟨hd, hdec, hk⟩ | h
    · have hp0 : parsed c = 0 := by
        unfold parsed
        rcases hk with hk | hk
        · rw [if_pos hk, h0]
        · split <;> omega
      rw [hp0]
      exact ⟨.assertion, rfl⟩
    · have hpl : (if c.drop then 0 else c.dec) = 1 := by simp [hd, hdec]
      have hpar : parsed c = c.digit + 1 := by unfold parsed; simp [hd, hdec]
      rw [hpl]
      by_cases hpre : 2 ≤ prefixLen c
      · have hsubf : (Slice.mk (fun i => v.mem (prefixLen c + i)) (parsed c - prefixLen c)).sub 0 (parsed c - 1)
            = .error .index := by
          apply sub_err
          show ¬ (0 ≤ parsed c - 1 ∧ parsed c - 1 ≤ parsed c - prefixLen c)
          omega
        refine ⟨.index, ?_⟩
        by_cases h8 : parsed c ≤ 8
        · rw [if_pos h8]
          exact bind_of_ok (dbg_ok _ _ (by simp; omega)) (bind_of_ok (subU_ok (by omega)) (bind_err hsubf))
        · rw [if_neg h8]
          by_cases h16 : parsed c ≤ 16
          · rw [if_pos h16]
            exact bind_of_ok (dbg_ok _ _ (by simp; omega)) (bind_of_ok (subU_ok (by omega)) (bind_err hsubf))
          · rw [if_neg h16]
            exact bind_of_ok (dbg_ok _ _ (by simp; omega)) (bind_of_ok (subU_ok (by omega)) (bind_err hsubf))
      · by_cases hz : c.digit = 0
        · rw [hpar, hz]
          refine ⟨.overflow, ?_⟩
          rw [if_pos (by omega)]
          refine bind_of_ok (dbg_ok _ _ (by decide)) (bind_of_ok (subU_ok (by omega)) ?_)
          refine bind_of_ok (sub_ok _ _ _ (by omega) (by show 0 + 1 - 1 ≤ 0 + 1 - prefixLen c; omega)) ?_
          exact under8_zero_checked _
        · have h17 : parsed c = 17 := by omega
          rw [h17]
          refine ⟨.overflow, ?_⟩
          rw [if_neg (by omega), if_neg (by omega)]
          refine bind_of_ok (dbg_ok _ _ (by decide)) (bind_of_ok (subU_ok (by omega)) ?_)
          refine bind_of_ok (sub_ok _ _ _ (by omega) (by show 17 - 1 ≤ 17 - prefixLen c; omega)) ?_
          exact bind_err (fault_under32_at_16 _ (by show 16 ≤ 17 - 1 - 0; omega)).1
    · exact absurd h h4

/-- The converters built in `data/krx/krx_converter.rs` (lines 19-348), in order of appearance. -/
def krxCfgs : List Cfg :=
  [ ⟨5, 0, false, 0, 5, false⟩,      -- order counter
    ⟨4, 4, true, 0, 9, false⟩,       -- risk free derivative price
    ⟨9, 0, false, 0, 9, false⟩,      -- derivative quantity
    ⟨5, 3, true, 0, 9, false⟩,       -- base derivative price
    ⟨9, 0, false, 2, 11, false⟩,     -- stock price
    ⟨12, 0, false, 0, 12, false⟩,    -- stock and bond quantity, time stamp, cumulative quantity
    ⟨8, 0, true, 0, 9, false⟩,       -- stock and commodity derivative price
    ⟨6, 4, true, 0, 11, false⟩,      -- repo price
    ⟨15, 0, false, 0, 15, false⟩,    -- repo quantity, bond cumulative quantity
    ⟨7, 3, false, 1, 11, false⟩,     -- bond price
    ⟨18, 4, false, 0, 22, true⟩,     -- cumulative traded value
    ⟨5, 7, true, 0, 13, false⟩ ]     -- yield

/-- All KRX converters are accepted and supported, so `C30_converter` applies to each. -/
theorem C30_krx : ∀ c ∈ krxCfgs, Supported c ∧ (Conv.new c).isSome := by decide

/-! ## C31 -/

/-- C31. The unchecked conversions deliver what the checked ones deliver when the field has no sign, no
unused bytes and no parsed point, and at most 16 digits. -/
theorem C31_unchecked_agrees_partial (m : Mode) (c : Cfg) (conv : Conv) (hnew : Conv.new c = some conv)
    (hpre : prefixLen c = 0) (hp : c.dec = 0) (h1 : 1 ≤ c.digit) (h16 : c.digit ≤ 16) (v : Slice)
    (hl : c.digit ≤ v.len) :
    conv.toU64Unchecked m v = conv.toU64 m v ∧ conv.toI64Unchecked m v = conv.toI64 m v := by
  obtain ⟨h18, hval, hc⟩ := new_eq c conv hnew
  have hpar : parsed c = c.digit := by unfold parsed; split <;> omega
  have hsig : c.signed = false := by
    unfold prefixLen at hpre; cases hs : c.signed; rfl; rw [hs] at hpre; simp at hpre
  have hpl : (if c.drop then 0 else c.dec) = 0 := by split <;> omega
  have hlt : decimal (v.nibbles c.digit) % 2 ^ 64 = decimal (v.nibbles c.digit) := by
    apply Nat.mod_eq_of_lt
    have := decimal_nibbles_lt v c.digit
    have : 10 ^ c.digit ≤ 10 ^ 16 := Nat.pow_le_pow_right (by decide) h16
    norm_num at this ⊢; omega
  have hu : conv.toU64Unchecked m v = .ok (decimal (v.nibbles c.digit)) := by
    rw [hc]
    simp only [Conv.toU64Unchecked, hpar]
    refine bind_of_ok (under16_nib m v c.digit h1 h16) ?_
    rw [hlt]
  have hk : conv.toU64 m v = .ok (decimal (v.nibbles c.digit)) := by
    rw [hc]
    simp only [Conv.toU64, hpar, hpre, hpl]
    refine bind_of_ok (sub_ok v 0 c.digit (by omega) hl) ?_
    have hn : (Slice.mk (fun i => v.mem (0 + i)) (c.digit - 0)).fixed c.digit 0 = v.nibbles c.digit := by
      simp [Slice.fixed, Slice.nibbles, Slice.bytes]
    by_cases h8 : c.digit ≤ 8
    · rw [if_pos h8]
      exact (under8fp_nib m _ c.digit 0 h8 (by omega) (by simp) h1).trans (by rw [hn])
    · rw [if_neg h8, if_pos h16]
      exact (under16fp_nib m _ c.digit 0 h16 (by omega) (by simp) h1).trans (by rw [hn])
  refine ⟨by rw [hu, hk], ?_⟩
  have hs : conv.signed = false := by rw [hc]; exact hsig
  unfold Conv.toI64Unchecked Conv.toI64
  rw [hu, hk, hs]
  rfl

/-- C31. With `unused` zero-filled prefix bytes the unchecked conversion starts at the first byte instead of the
first digit, so it loses the last `unused` digits: the value is divided by `10^unused`. -/
theorem C31_unchecked_with_prefix (m : Mode) (c : Cfg) (conv : Conv) (hnew : Conv.new c = some conv)
    (hsig : c.signed = false) (hp : c.dec = 0) (h1 : 1 ≤ c.digit) (h16 : c.digit ≤ 16)
    (x : Nat) (hx : x < 10 ^ c.digit) (v : Slice)
    (h : Holds v (fieldText c 0 (text c.unused 0) x)) :
    conv.toI64Unchecked m v = .ok (x / 10 ^ c.unused : Nat) := by
  obtain ⟨h18, hval, hc⟩ := new_eq c conv hnew
  have hpar : parsed c = c.digit := by unfold parsed; split <;> omega
  have ht : Holds v (text c.digit (x / 10 ^ c.unused)) := by
    have e : fieldText c 0 (text c.unused 0) x = text (c.unused + c.digit) x := by
      have : x / 10 ^ c.digit = 0 := Nat.div_eq_of_lt hx
      rw [text_split, this, Nat.mod_eq_of_lt hx]
      simp [fieldText, hsig, hp]
    rw [e, Nat.add_comm, text_split, holds_append] at h
    exact h.1
  have hlt : x / 10 ^ c.unused < 10 ^ c.digit := lt_of_le_of_lt (Nat.div_le_self _ _) hx
  have h64 : 10 ^ c.digit ≤ 10 ^ 16 := Nat.pow_le_pow_right (by decide) h16
  rw [hc]
  simp only [Conv.toI64Unchecked, Conv.toU64Unchecked, hpar]
  rw [C26_parse_under16 m v c.digit _ h1 h16 hlt ht]
  show Except.ok (asI64 (x / 10 ^ c.unused % 2 ^ 64)) = _
  have : x / 10 ^ c.unused < 2 ^ 63 := by norm_num at h64 ⊢; omega
  rw [Nat.mod_eq_of_lt (by norm_num at this ⊢; omega)]
  unfold asI64
  rw [if_pos this]

/-- The stock price converter has two unused bytes; `stock_quote.rs` (lines 181-191, 239-248, 418-428, 474-483)
feeds the whole 11-byte field to the unchecked conversion (`unroll_macro.rs` 558-562): every stock quote
price is delivered divided by 100. -/
theorem fault_stock_price_unchecked (m : Mode) (x : Nat) (hx : x < 10 ^ 9) (v : Slice)
    (hl : 11 ≤ v.len) (h : Holds v (text 11 x)) :
    ∃ conv, Conv.new ⟨9, 0, false, 2, 11, false⟩ = some conv ∧
      conv.toI64 m v = .ok (x : Int) ∧ conv.toI64Unchecked m v = .ok (x / 100 : Nat) := by
  have ht : Holds v (fieldText ⟨9, 0, false, 2, 11, false⟩ 0 (text 2 0) x) := by
    have e : text (2 + 9) x = text 2 (x / 10 ^ 9) ++ text 9 (x % 10 ^ 9) := text_split 2 9 x
    rw [Nat.div_eq_of_lt hx, Nat.mod_eq_of_lt hx] at e
    have : fieldText ⟨9, 0, false, 2, 11, false⟩ 0 (text 2 0) x = text 11 x := by
      rw [show (11 : Nat) = 2 + 9 by rfl, e]; simp [fieldText]
    rw [this]; exact h
  refine ⟨_, rfl, ?_, ?_⟩
  · have := (C30_converter m ⟨9, 0, false, 2, 11, false⟩ _ rfl (by decide) 0 (text 2 0) x v rfl hx hl ht).2
    simpa [expected] using this
  · have := C31_unchecked_with_prefix m ⟨9, 0, false, 2, 11, false⟩ _ rfl rfl rfl (by decide) (by decide) x hx v ht
    simpa using this

example : ∃ conv, Conv.new ⟨9, 0, false, 2, 11, false⟩ = some conv ∧
    conv.toI64 .wrapping (ofList (text 11 75300)) = .ok 75300 ∧
    conv.toI64Unchecked .wrapping (ofList (text 11 75300)) = .ok 753 :=
  fault_stock_price_unchecked .wrapping 75300 (by decide) _ (by decide) (holds_ofList _)

/-- With a point the unchecked conversion reads the point as a digit (`'.'` = 0x2e counts as 14): the bond price
1234567.89 through the unchecked conversion is not 123456789. -/
theorem fault_unchecked_point :
    ∃ conv, Conv.new ⟨7, 3, false, 0, 10, false⟩ = some conv ∧
      conv.toU64 .wrapping (ofList (fixedText 7 2 123456789)) = .ok 123456789 ∧
      conv.toU64Unchecked .wrapping (ofList (fixedText 7 2 123456789)) = .ok 1234568489 := by
  refine ⟨_, rfl, ?_, ?_⟩
  · have := (C30_converter .wrapping ⟨7, 3, false, 0, 10, false⟩ _ rfl (by decide) 0 [] 123456789
      (ofList (fixedText 7 2 123456789)) rfl (by decide) (by decide) (holds_ofList _)).1
    simpa [expected] using this
  · simp only [Conv.toU64Unchecked]
    refine bind_of_ok (under16_nib _ _ 10 (by decide) (by decide)) ?_
    decide

end Verif.Props

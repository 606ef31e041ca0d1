import Verif.TE.Krx
/-!
# Text a message can be quoted from

C105: composing a refusal quotes the message as text. The test for text is compared with the UTF-8 encoding of characters in
Lean's library.
-/
set_option autoImplicit false
namespace Verif.Props
open Verif Verif.TE.Krx

/-- Encoded character -/
theorem encode_cases (c : Char) :
    (∃ a : UInt8, String.utf8EncodeChar c = [a] ∧ a.toNat = c.toNat ∧ c.toNat < 0x80) ∨
    (∃ a b : UInt8, String.utf8EncodeChar c = [a, b] ∧ a.toNat = 0xC0 + c.toNat / 64 ∧ b.toNat = 0x80 + c.toNat % 64 ∧
      0x80 ≤ c.toNat ∧ c.toNat < 0x800) ∨
    (∃ a b d : UInt8, String.utf8EncodeChar c = [a, b, d] ∧ a.toNat = 0xE0 + c.toNat / 4096 ∧
      b.toNat = 0x80 + c.toNat / 64 % 64 ∧ d.toNat = 0x80 + c.toNat % 64 ∧ 0x800 ≤ c.toNat ∧ c.toNat < 0x10000) ∨
    (∃ a b d e : UInt8, String.utf8EncodeChar c = [a, b, d, e] ∧ a.toNat = 0xF0 + c.toNat / 262144 ∧
      b.toNat = 0x80 + c.toNat / 4096 % 64 ∧ d.toNat = 0x80 + c.toNat / 64 % 64 ∧ e.toNat = 0x80 + c.toNat % 64 ∧
      0x10000 ≤ c.toNat) := by
  have hv : c.toNat < 0x110000 := by
    have := c.valid; unfold UInt32.isValidChar Nat.isValidChar at this
    have e : c.toNat = c.val.toNat := rfl
    omega
  have e : c.toNat = c.val.toNat := rfl
  unfold String.utf8EncodeChar
  dsimp only
  rw [← e]
  generalize c.toNat = n at *
  split
  · refine Or.inl ⟨_, rfl, ?_⟩
    simp only [UInt8.toNat_ofNat']
    omega
  · split
    · refine Or.inr (Or.inl ⟨_, _, rfl, ?_⟩)
      simp only [UInt8.toNat_ofNat']
      omega
    · split
      · refine Or.inr (Or.inr (Or.inl ⟨_, _, _, rfl, ?_⟩))
        simp only [UInt8.toNat_ofNat']
        omega
      · refine Or.inr (Or.inr (Or.inr ⟨_, _, _, _, rfl, ?_⟩))
        simp only [UInt8.toNat_ofNat']
        omega

theorem u8_le (a b : UInt8) : a ≤ b ↔ a.toNat ≤ b.toNat := UInt8.le_iff_toNat_le
theorem u8_lt (a b : UInt8) : a < b ↔ a.toNat < b.toNat := UInt8.lt_iff_toNat_lt
theorem u8_eq (a b : UInt8) : a = b ↔ a.toNat = b.toNat := UInt8.toNat_inj.symm

theorem utf8_1 (a : UInt8) (l : List UInt8) (h : a.toNat < 0x80) : utf8 (a :: l) = utf8 l := by
  rw [utf8.eq_def]; exact if_pos ((u8_lt _ _).2 h)

theorem utf8_2 (a b : UInt8) (l : List UInt8) (h : 0xC2 ≤ a.toNat) (h' : a.toNat ≤ 0xDF) :
    utf8 (a :: b :: l) = (decide (0x80 ≤ b.toNat ∧ b.toNat ≤ 0xBF) && utf8 l) := by
  rw [utf8.eq_def]; dsimp only; rw [if_neg (by rw [u8_lt]; show ¬ a.toNat < 128; omega)]
  rw [if_pos (by rw [u8_le, u8_le]; exact ⟨h, h'⟩)]
  simp only [u8_le]; rfl

theorem utf8_3 (a b c : UInt8) (l : List UInt8) (h : 0xE0 ≤ a.toNat) (h' : a.toNat ≤ 0xEF) :
    utf8 (a :: b :: c :: l) = (decide ((if a.toNat = 0xE0 then 0xA0 else 0x80) ≤ b.toNat ∧
      b.toNat ≤ (if a.toNat = 0xED then 0x9F else 0xBF)) && decide (0x80 ≤ c.toNat ∧ c.toNat ≤ 0xBF) && utf8 l) := by
  rw [utf8.eq_def]; dsimp only; rw [if_neg (by rw [u8_lt]; show ¬ a.toNat < 128; omega)]
  rw [if_neg (by rw [u8_le, u8_le]; show ¬ (194 ≤ a.toNat ∧ a.toNat ≤ 223); omega)]
  rw [if_pos (by rw [u8_le, u8_le]; exact ⟨h, h'⟩)]
  simp only [u8_le, u8_eq, apply_ite UInt8.toNat]; rfl

theorem utf8_4 (a b c d : UInt8) (l : List UInt8) (h : 0xF0 ≤ a.toNat) :
    utf8 (a :: b :: c :: d :: l) = (decide (a.toNat ≤ 0xF4) && decide ((if a.toNat = 0xF0 then 0x90 else 0x80) ≤ b.toNat ∧
      b.toNat ≤ (if a.toNat = 0xF4 then 0x8F else 0xBF)) && decide (0x80 ≤ c.toNat ∧ c.toNat ≤ 0xBF) &&
      decide (0x80 ≤ d.toNat ∧ d.toNat ≤ 0xBF) && utf8 l) := by
  rw [utf8.eq_def]; dsimp only; rw [if_neg (by rw [u8_lt]; show ¬ a.toNat < 128; omega)]
  rw [if_neg (by rw [u8_le, u8_le]; show ¬ (194 ≤ a.toNat ∧ a.toNat ≤ 223); omega)]
  rw [if_neg (by rw [u8_le, u8_le]; show ¬ (224 ≤ a.toNat ∧ a.toNat ≤ 239); omega)]
  have e : decide ((0xF0 : UInt8) ≤ a ∧ a ≤ 0xF4) = decide (a.toNat ≤ 0xF4) := by
    simp only [u8_le]
    exact decide_eq_decide.2 ⟨fun q => q.2, fun q => ⟨h, q⟩⟩
  rw [e]
  simp only [u8_le, u8_eq, apply_ite UInt8.toNat]; rfl

/-- What `utf8` accepts is empty or begins with one of the four forms -/
theorem utf8_forms (bs : List UInt8) (h : utf8 bs = true) : bs = [] ∨
    (∃ a l, bs = a :: l ∧ a.toNat < 0x80 ∧ utf8 l = true) ∨
    (∃ a b l, bs = a :: b :: l ∧ 0xC2 ≤ a.toNat ∧ a.toNat ≤ 0xDF ∧ (0x80 ≤ b.toNat ∧ b.toNat ≤ 0xBF) ∧ utf8 l = true) ∨
    (∃ a b c l, bs = a :: b :: c :: l ∧ 0xE0 ≤ a.toNat ∧ a.toNat ≤ 0xEF ∧ ((if a.toNat = 0xE0 then 0xA0 else 0x80) ≤ b.toNat ∧
      b.toNat ≤ (if a.toNat = 0xED then 0x9F else 0xBF)) ∧ (0x80 ≤ c.toNat ∧ c.toNat ≤ 0xBF) ∧ utf8 l = true) ∨
    (∃ a b c d l, bs = a :: b :: c :: d :: l ∧ 0xF0 ≤ a.toNat ∧ a.toNat ≤ 0xF4 ∧ ((if a.toNat = 0xF0 then 0x90 else 0x80) ≤ b.toNat ∧
      b.toNat ≤ (if a.toNat = 0xF4 then 0x8F else 0xBF)) ∧ (0x80 ≤ c.toNat ∧ c.toNat ≤ 0xBF) ∧
      (0x80 ≤ d.toNat ∧ d.toNat ≤ 0xBF) ∧ utf8 l = true) := by
  cases bs with
  | nil => exact Or.inl rfl
  | cons a l =>
    refine Or.inr ?_
    by_cases h1 : a.toNat < 0x80
    · rw [utf8_1 a l h1] at h
      exact Or.inl ⟨a, l, rfl, h1, h⟩
    refine Or.inr ?_
    have n1 : ¬ a < 0x80 := by rw [u8_lt]; exact h1
    cases l with
    | nil => rw [utf8.eq_def] at h; dsimp only at h; rw [if_neg n1] at h; cases h
    | cons b l =>
      by_cases h2 : 0xC2 ≤ a.toNat ∧ a.toNat ≤ 0xDF
      · rw [utf8_2 a b l h2.1 h2.2] at h
        simp only [Bool.and_eq_true, decide_eq_true_eq] at h
        exact Or.inl ⟨a, b, l, rfl, h2.1, h2.2, h.1, h.2⟩
      refine Or.inr ?_
      have n2 : ¬ ((0xC2 : UInt8) ≤ a ∧ a ≤ 0xDF) := by rw [u8_le, u8_le]; exact h2
      cases l with
      | nil => rw [utf8.eq_def] at h; dsimp only at h; rw [if_neg n1] at h; rw [if_neg n2] at h; cases h
      | cons c l =>
        by_cases h3 : 0xE0 ≤ a.toNat ∧ a.toNat ≤ 0xEF
        · rw [utf8_3 a b c l h3.1 h3.2] at h
          simp only [Bool.and_eq_true, decide_eq_true_eq] at h
          exact Or.inl ⟨a, b, c, l, rfl, h3.1, h3.2, h.1.1, h.1.2, h.2⟩
        refine Or.inr ?_
        have n3 : ¬ ((0xE0 : UInt8) ≤ a ∧ a ≤ 0xEF) := by rw [u8_le, u8_le]; exact h3
        cases l with
        | nil => rw [utf8.eq_def] at h; dsimp only at h; rw [if_neg n1] at h; rw [if_neg n2, if_neg n3] at h; cases h
        | cons d l =>
          have h4 : 0xF0 ≤ a.toNat := by
            rw [utf8.eq_def] at h; dsimp only at h; rw [if_neg n1] at h; rw [if_neg n2, if_neg n3] at h
            simp only [Bool.and_eq_true, decide_eq_true_eq, u8_le] at h
            exact h.1.1.1.1.1
          rw [utf8_4 a b c d l h4] at h
          simp only [Bool.and_eq_true, decide_eq_true_eq] at h
          exact ⟨a, b, c, d, l, rfl, h4, h.1.1.1.1, h.1.1.1.2, h.1.1.2, h.1.2, h.2⟩

/-- A character of a given number -/
theorem char_of (n : Nat) (h : n < 0xD800 ∨ 0xDFFF < n ∧ n < 0x110000) : ∃ c : Char, c.toNat = n :=
  ⟨Char.ofNat n, by
    have hv : n.isValidChar := h
    rw [Char.ofNat, dif_pos hv]; rfl⟩

/-- **C105** (text). The bytes a message may be quoted from are exactly the UTF-8 encodings of lists of characters. -/
theorem C105_text (bs : List UInt8) : utf8 bs = true ↔ ∃ cs : List Char, bs = cs.flatMap String.utf8EncodeChar := by
  constructor
  · suffices H : ∀ n (bs : List UInt8), bs.length ≤ n → utf8 bs = true → ∃ cs : List Char, bs = cs.flatMap String.utf8EncodeChar from
      H bs.length bs (Nat.le_refl _)
    intro n
    induction n with
    | zero =>
      intro bs hn _
      exact ⟨[], by rw [List.length_eq_zero_iff.1 (Nat.le_zero.1 hn)]; rfl⟩
    | succ n ih =>
      intro bs hn h
      rcases utf8_forms bs h with rfl | ⟨a, l, rfl, h1, hl⟩ | ⟨a, b, l, rfl, h1, h2, h3, hl⟩ | ⟨a, b, c, l, rfl, h1, h2, h3, h4, hl⟩ |
        ⟨a, b, c, d, l, rfl, h1, h2, h3, h4, h5, hl⟩
      · exact ⟨[], rfl⟩
      · obtain ⟨cs, rfl⟩ := ih l (by simp only [List.length_cons] at hn; omega) hl
        obtain ⟨x, hx⟩ := char_of a.toNat (by omega)
        refine ⟨x :: cs, ?_⟩
        rcases encode_cases x with ⟨a', e, q⟩ | ⟨a', b', e, q⟩ | ⟨a', b', c', e, q⟩ | ⟨a', b', c', d', e, q⟩
        · rw [List.flatMap_cons, e, show a' = a from (u8_eq _ _).2 (by omega)]; rfl
        all_goals omega
      · obtain ⟨cs, rfl⟩ := ih l (by simp only [List.length_cons] at hn; omega) hl
        obtain ⟨x, hx⟩ := char_of ((a.toNat - 0xC0) * 64 + (b.toNat - 0x80)) (by omega)
        refine ⟨x :: cs, ?_⟩
        rcases encode_cases x with ⟨a', e, q⟩ | ⟨a', b', e, q⟩ | ⟨a', b', c', e, q⟩ | ⟨a', b', c', d', e, q⟩
        · omega
        · rw [List.flatMap_cons, e, show a' = a from (u8_eq _ _).2 (by omega), show b' = b from (u8_eq _ _).2 (by omega)]; rfl
        all_goals omega
      · obtain ⟨cs, rfl⟩ := ih l (by simp only [List.length_cons] at hn; omega) hl
        have r1 : 0x80 ≤ b.toNat ∧ b.toNat ≤ 0xBF ∧ (a.toNat = 0xE0 → 0xA0 ≤ b.toNat) ∧ (a.toNat = 0xED → b.toNat ≤ 0x9F) := by
          split at h3 <;> split at h3 <;> omega
        obtain ⟨x, hx⟩ := char_of ((a.toNat - 0xE0) * 4096 + (b.toNat - 0x80) * 64 + (c.toNat - 0x80)) (by omega)
        refine ⟨x :: cs, ?_⟩
        rcases encode_cases x with ⟨a', e, q⟩ | ⟨a', b', e, q⟩ | ⟨a', b', c', e, q⟩ | ⟨a', b', c', d', e, q⟩
        · omega
        · omega
        · rw [List.flatMap_cons, e, show a' = a from (u8_eq _ _).2 (by omega), show b' = b from (u8_eq _ _).2 (by omega),
            show c' = c from (u8_eq _ _).2 (by omega)]; rfl
        · omega
      · obtain ⟨cs, rfl⟩ := ih l (by simp only [List.length_cons] at hn; omega) hl
        have r1 : 0x80 ≤ b.toNat ∧ b.toNat ≤ 0xBF ∧ (a.toNat = 0xF0 → 0x90 ≤ b.toNat) ∧ (a.toNat = 0xF4 → b.toNat ≤ 0x8F) := by
          split at h3 <;> split at h3 <;> omega
        obtain ⟨x, hx⟩ := char_of ((a.toNat - 0xF0) * 262144 + (b.toNat - 0x80) * 4096 + (c.toNat - 0x80) * 64 + (d.toNat - 0x80)) (by omega)
        refine ⟨x :: cs, ?_⟩
        rcases encode_cases x with ⟨a', e, q⟩ | ⟨a', b', e, q⟩ | ⟨a', b', c', e, q⟩ | ⟨a', b', c', d', e, q⟩
        · omega
        · omega
        · omega
        · rw [List.flatMap_cons, e, show a' = a from (u8_eq _ _).2 (by omega), show b' = b from (u8_eq _ _).2 (by omega),
            show c' = c from (u8_eq _ _).2 (by omega), show d' = d from (u8_eq _ _).2 (by omega)]; rfl
  · rintro ⟨cs, rfl⟩
    induction cs with
    | nil => rfl
    | cons x cs ih =>
      have hv : x.toNat < 0xD800 ∨ 0xDFFF < x.toNat ∧ x.toNat < 0x110000 := x.valid
      rw [List.flatMap_cons]
      rcases encode_cases x with ⟨a, e, q⟩ | ⟨a, b, e, q⟩ | ⟨a, b, c, e, q⟩ | ⟨a, b, c, d, e, q⟩ <;> rw [e]
      · rw [List.singleton_append, utf8_1 _ _ (by omega), ih]
      · show utf8 (a :: b :: cs.flatMap String.utf8EncodeChar) = true
        rw [utf8_2 _ _ _ (by omega) (by omega), ih, Bool.and_true, decide_eq_true_eq]
        omega
      · show utf8 (a :: b :: c :: cs.flatMap String.utf8EncodeChar) = true
        rw [utf8_3 _ _ _ _ (by omega) (by omega), ih, Bool.and_true, Bool.and_eq_true, decide_eq_true_eq, decide_eq_true_eq]
        split <;> split <;> omega
      · show utf8 (a :: b :: c :: d :: cs.flatMap String.utf8EncodeChar) = true
        rw [utf8_4 _ _ _ _ _ (by omega), ih]
        simp only [Bool.and_true, Bool.and_eq_true, decide_eq_true_eq]
        split <;> split <;> omega

end Verif.Props

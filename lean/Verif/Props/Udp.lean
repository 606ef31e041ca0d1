import Verif.TE.Udp
import Verif.Props.Utf8
import Mathlib.Tactic.SplitIfs
/-!
# C149: texts over UDP
-/
set_option autoImplicit false
namespace Verif.Props
open Verif Verif.TE.Udp

/-- What a round shows: the character, or the replacement. -/
def shown : Option Nat → Char
  | some k => Char.ofNat k
  | none => replacement

theorem lossy_cons (a : UInt8) (l : List UInt8) (o : Option Nat) (n : Nat)
    (h : chunk a.toNat (byteAt l 0) (byteAt l 1) (byteAt l 2) = (o, n)) :
    lossy (a :: l) = shown o :: lossy (l.drop (n - 1)) := by
  rw [lossy.eq_def]
  dsimp only
  simp only [h]
  cases o <;> rfl

theorem code_eq {m k n : Nat} (h : m = k) : ((some m, n) : Option Nat × Nat) = (some k, n) := by rw [h]

theorem ofNat_toNat (c : Char) : Char.ofNat c.toNat = c := by
  have hv : c.toNat.isValidChar := c.valid
  rw [Char.ofNat, dif_pos hv]
  rfl

theorem chunk1 (a b c d : Nat) (h : a < 0x80) : chunk a b c d = (some a, 1) := if_pos h

theorem chunk2 (a b c d : Nat) (h1 : 0xC2 ≤ a) (h2 : a ≤ 0xDF) :
    chunk a b c d = if cont b then (some ((a - 0xC0) * 64 + (b - 0x80)), 2) else (none, 1) := by
  unfold chunk
  rw [if_neg (by omega), if_pos ⟨h1, h2⟩]

theorem chunk3 (a b c d : Nat) (h1 : 0xE0 ≤ a) (h2 : a ≤ 0xEF) :
    chunk a b c d = if second3 a b then (if cont c then (some ((a - 0xE0) * 4096 + (b - 0x80) * 64 + (c - 0x80)), 3) else (none, 2))
      else (none, 1) := by
  unfold chunk
  rw [if_neg (by omega), if_neg (by omega), if_pos ⟨h1, h2⟩]

theorem chunk4 (a b c d : Nat) (h1 : 0xF0 ≤ a) (h2 : a ≤ 0xF4) :
    chunk a b c d = if second4 a b then (if cont c then (if cont d then
      (some ((a - 0xF0) * 262144 + (b - 0x80) * 4096 + (c - 0x80) * 64 + (d - 0x80)), 4) else (none, 3)) else (none, 2)) else (none, 1) := by
  unfold chunk
  rw [if_neg (by omega), if_neg (by omega), if_neg (by omega), if_pos ⟨h1, h2⟩]

theorem cont_mod (n : Nat) : cont (0x80 + n % 64) = true := by
  unfold cont; rw [decide_eq_true_eq]; omega

/-- An encoded character at the front is read, and nothing else consumed. -/
theorem lossy_encode (x : Char) (l : List UInt8) : lossy (String.utf8EncodeChar x ++ l) = x :: lossy l := by
  have hv : x.toNat < 0xD800 ∨ 0xDFFF < x.toNat ∧ x.toNat < 0x110000 := x.valid
  rcases encode_cases x with ⟨a, e, q1, q2⟩ | ⟨a, b, e, q1, q2, q3, q4⟩ | ⟨a, b, c, e, q1, q2, q3, q4, q5⟩ | ⟨a, b, c, d, e, q1, q2, q3, q4, q5⟩ <;> rw [e]
  · rw [List.singleton_append, lossy_cons a l (some x.toNat) 1 (by rw [q1]; exact chunk1 _ _ _ _ q2)]
    simp [shown]
  · rw [List.cons_append, List.singleton_append, lossy_cons a _ (some x.toNat) 2]
    · simp [shown]
    · simp only [byteAt, List.getElem?_cons_zero, Option.getD_some]
      rw [chunk2 _ _ _ _ (by omega) (by omega), q2, cont_mod, if_pos rfl]
      exact code_eq (by omega)
  · rw [List.cons_append, List.cons_append, List.singleton_append, lossy_cons a _ (some x.toNat) 3]
    · simp [shown]
    · simp only [byteAt, List.getElem?_cons_zero, List.getElem?_cons_succ, Option.getD_some]
      have s : second3 a.toNat b.toNat = true := by
        unfold second3; rw [decide_eq_true_eq]; split <;> split <;> omega
      rw [chunk3 _ _ _ _ (by omega) (by omega), s, if_pos rfl, q3, cont_mod, if_pos rfl]
      exact code_eq (by omega)
  · rw [List.cons_append, List.cons_append, List.cons_append, List.singleton_append, lossy_cons a _ (some x.toNat) 4]
    · simp [shown]
    · simp only [byteAt, List.getElem?_cons_zero, List.getElem?_cons_succ, Option.getD_some]
      have s : second4 a.toNat b.toNat = true := by
        unfold second4; rw [decide_eq_true_eq]; split <;> split <;> omega
      rw [chunk4 _ _ _ _ (by omega) (by omega), s, if_pos rfl, q3, cont_mod, if_pos rfl, q4, cont_mod, if_pos rfl]
      exact code_eq (by omega)

/-- The first bytes of a character alone are one invalid chunk. -/
theorem lossy_cut (x : Char) (k : Nat) (h0 : 0 < k) (h : k < (String.utf8EncodeChar x).length) :
    lossy ((String.utf8EncodeChar x).take k) = [replacement] := by
  have hv : x.toNat < 0xD800 ∨ 0xDFFF < x.toNat ∧ x.toNat < 0x110000 := x.valid
  have nc : cont 0 = false := rfl
  rcases encode_cases x with ⟨a, e, q1, q2⟩ | ⟨a, b, e, q1, q2, q3, q4⟩ | ⟨a, b, c, e, q1, q2, q3, q4, q5⟩ | ⟨a, b, c, d, e, q1, q2, q3, q4, q5⟩ <;>
    rw [e] at h ⊢ <;> simp only [List.length_cons, List.length_nil] at h
  · omega
  · obtain rfl : k = 1 := by omega
    rw [List.take_succ_cons, List.take_zero, lossy_cons a _ none 1]
    · rw [lossy.eq_def]; rfl
    · rw [chunk2 _ _ _ _ (by omega) (by omega)]; rfl
  · have s0 : second3 a.toNat 0 = false := by
      unfold second3; rw [decide_eq_false_iff_not]; split <;> omega
    have s : second3 a.toNat b.toNat = true := by
      unfold second3; rw [decide_eq_true_eq]; split <;> split <;> omega
    have hk : k = 1 ∨ k = 2 := by omega
    rcases hk with rfl | rfl
    · rw [List.take_succ_cons, List.take_zero, lossy_cons a _ none 1]
      · rw [lossy.eq_def]; rfl
      · rw [chunk3 _ _ _ _ (by omega) (by omega)]
        show (if second3 a.toNat 0 = true then _ else _) = _
        rw [s0]; rfl
    · rw [List.take_succ_cons, List.take_succ_cons, List.take_zero, lossy_cons a _ none 2]
      · rw [lossy.eq_def]; rfl
      · rw [chunk3 _ _ _ _ (by omega) (by omega)]
        show (if second3 a.toNat b.toNat = true then _ else _) = _
        rw [s]; rfl
  · have s0 : second4 a.toNat 0 = false := by
      unfold second4; rw [decide_eq_false_iff_not]; split <;> omega
    have s : second4 a.toNat b.toNat = true := by
      unfold second4; rw [decide_eq_true_eq]; split <;> split <;> omega
    have hk : k = 1 ∨ k = 2 ∨ k = 3 := by omega
    rcases hk with rfl | rfl | rfl
    · rw [List.take_succ_cons, List.take_zero, lossy_cons a _ none 1]
      · rw [lossy.eq_def]; rfl
      · rw [chunk4 _ _ _ _ (by omega) (by omega)]
        show (if second4 a.toNat 0 = true then _ else _) = _
        rw [s0]; rfl
    · rw [List.take_succ_cons, List.take_succ_cons, List.take_zero, lossy_cons a _ none 2]
      · rw [lossy.eq_def]; rfl
      · rw [chunk4 _ _ _ _ (by omega) (by omega)]
        show (if second4 a.toNat b.toNat = true then _ else _) = _
        rw [s]; rfl
    · rw [List.take_succ_cons, List.take_succ_cons, List.take_succ_cons, List.take_zero, lossy_cons a _ none 3]
      · rw [lossy.eq_def]; rfl
      · rw [chunk4 _ _ _ _ (by omega) (by omega)]
        show (if second4 a.toNat b.toNat = true then (if cont c.toNat = true then _ else _) else _) = _
        rw [s, q3, cont_mod]; rfl

theorem lossy_datagram (s : List Char) (l : List UInt8) : lossy (datagram s ++ l) = s ++ lossy l := by
  unfold datagram
  induction s with
  | nil => rfl
  | cons x s ih => rw [List.flatMap_cons, List.append_assoc, lossy_encode, ih]; rfl

theorem lossy_nil : lossy [] = [] := by rw [lossy.eq_def]

/-- **C149** (short texts). A text of at most 1024 bytes is received as it was sent. -/
theorem C149_exact (s : List Char) (h : (datagram s).length ≤ 1024) : receive (datagram s) = s := by
  unfold receive
  rw [List.take_of_length_le h]
  have := lossy_datagram s []
  rwa [List.append_nil, lossy_nil, List.append_nil] at this

theorem take_datagram (s : List Char) (n : Nat) (h : n < (datagram s).length) :
    ∃ k x r, s.take k ++ x :: r = s ∧ (datagram (s.take k)).length ≤ n ∧ n < (datagram (s.take (k + 1))).length ∧ s.take (k + 1) = s.take k ++ [x] ∧
      (datagram s).take n = datagram (s.take k) ++ (String.utf8EncodeChar x).take (n - (datagram (s.take k)).length) := by
  unfold datagram at *
  induction s generalizing n with
  | nil => simp at h
  | cons x s ih =>
    rw [List.flatMap_cons] at h
    by_cases hn : n < (String.utf8EncodeChar x).length
    · refine ⟨0, x, s, rfl, by simp, by simpa using hn, rfl, ?_⟩
      simp only [List.take_zero, List.flatMap_nil, List.nil_append, List.length_nil, Nat.sub_zero, List.flatMap_cons]
      rw [List.take_append_of_le_length (Nat.le_of_lt hn)]
    · rw [List.length_append] at h
      obtain ⟨k, y, r, e1, e2, e3, e4, e5⟩ := ih (n - (String.utf8EncodeChar x).length) (by omega)
      refine ⟨k + 1, y, r, ?_, ?_, ?_, ?_, ?_⟩
      · rw [List.take_succ_cons, List.cons_append, e1]
      · rw [List.take_succ_cons, List.flatMap_cons, List.length_append]; omega
      · rw [List.take_succ_cons, List.flatMap_cons, List.length_append]; omega
      · rw [List.take_succ_cons, e4, List.take_succ_cons]; rfl
      · rw [List.flatMap_cons, List.take_append, List.take_of_length_le (by omega : (String.utf8EncodeChar x).length ≤ n), e5,
          List.take_succ_cons, List.flatMap_cons, List.length_append, List.append_assoc]
        congr 3
        omega

/-- **C149** (long texts). Of a text of more than 1024 bytes the characters that fit into 1024 bytes are received, followed by one
replacement character exactly if the cut falls into a character; nothing tells the receiver. -/
theorem C149_cut (s : List Char) (h : 1024 < (datagram s).length) :
    ∃ k, k < s.length ∧ (datagram (s.take k)).length ≤ 1024 ∧ 1024 < (datagram (s.take (k + 1))).length ∧
      receive (datagram s) = s.take k ++ (if (datagram (s.take k)).length = 1024 then [] else [replacement]) := by
  obtain ⟨k, x, r, e1, e2, e3, e4, e5⟩ := take_datagram s 1024 h
  refine ⟨k, ?_, e2, e3, ?_⟩
  · have := congrArg List.length e1
    rw [List.length_append, List.length_cons, List.length_take] at this
    omega
  · unfold receive
    rw [e5, lossy_datagram]
    congr 1
    rw [e4] at e3
    have e6 : (datagram (s.take k ++ [x])).length = (datagram (s.take k)).length + (String.utf8EncodeChar x).length := by
      unfold datagram; simp
    by_cases hz : (datagram (s.take k)).length = 1024
    · rw [if_pos hz, hz, Nat.sub_self, List.take_zero, lossy_nil]
    · rw [if_neg hz]
      exact lossy_cut x _ (by omega) (by omega)

theorem chunk_size (a b c d : Nat) : 1 ≤ (chunk a b c d).2 ∧ (chunk a b c d).2 ≤ 4 := by
  unfold chunk
  split_ifs <;> simp

theorem lossy_length (n : Nat) : ∀ l : List UInt8, l.length ≤ n → (lossy l).length ≤ l.length := by
  induction n with
  | zero => intro l hl; rw [List.length_eq_zero_iff.1 (Nat.le_zero.1 hl), lossy_nil]; exact Nat.le_refl _
  | succ n ih =>
    intro l hl
    cases l with
    | nil => rw [lossy_nil]; exact Nat.le_refl _
    | cons a l =>
      rw [lossy.eq_def]
      dsimp only
      rw [List.length_cons] at hl ⊢
      have := ih (l.drop ((chunk a.toNat (byteAt l 0) (byteAt l 1) (byteAt l 2)).2 - 1)) (by rw [List.length_drop]; omega)
      rw [List.length_drop] at this
      rw [List.length_cons]
      omega

theorem byteAt_cases (l : List UInt8) (i : Nat) : (∃ b, l[i]? = some b ∧ byteAt l i = b.toNat) ∨ byteAt l i = 0 := by
  unfold byteAt
  cases h : l[i]? with
  | none => exact Or.inr rfl
  | some b => exact Or.inl ⟨b, rfl, rfl⟩

theorem byteAt_pos (l : List UInt8) (i : Nat) (h : byteAt l i ≠ 0) : ∃ b, l[i]? = some b ∧ byteAt l i = b.toNat :=
  (byteAt_cases l i).resolve_right h

theorem no_code {P : Prop} {k m n : Nat} (h : ((none, m) : Option Nat × Nat) = (some k, n)) : P := by simp at h

/-- What a valid round consumes is the encoding of the character it yields. -/
theorem chunk_valid (a : UInt8) (l : List UInt8) (k n : Nat) (h : chunk a.toNat (byteAt l 0) (byteAt l 1) (byteAt l 2) = (some k, n)) :
    a :: l = String.utf8EncodeChar (Char.ofNat k) ++ l.drop (n - 1) := by
  have done : ∀ (x : Char), x.toNat = k → (∃ t, a :: l = String.utf8EncodeChar x ++ t ∧ l.drop (n - 1) = t) →
      a :: l = String.utf8EncodeChar (Char.ofNat k) ++ l.drop (n - 1) := by
    rintro x hx ⟨t, e1, e2⟩
    rw [← hx, ofNat_toNat, e2, e1]
  unfold chunk at h
  split_ifs at h with h1 h2 h3 h4 h5 h6 h0 h7 h8 h9
  any_goals exact no_code h
  · obtain ⟨hk, hn⟩ := Prod.mk.inj h
    obtain rfl := Option.some.inj hk
    obtain rfl := hn
    obtain ⟨x, hx⟩ := char_of a.toNat (by omega)
    refine done x hx ⟨l, ?_, rfl⟩
    rcases encode_cases x with ⟨a', e, q⟩ | ⟨a', b', e, q⟩ | ⟨a', b', c', e, q⟩ | ⟨a', b', c', d', e, q⟩
    · rw [e, show a' = a from (u8_eq _ _).2 (by omega)]; rfl
    all_goals omega
  · obtain ⟨hk, hn⟩ := Prod.mk.inj h
    obtain rfl := Option.some.inj hk
    obtain rfl := hn
    unfold cont at h3; rw [decide_eq_true_eq] at h3
    obtain ⟨b, hb, eb⟩ := byteAt_pos l 0 (by omega)
    obtain ⟨x, hx⟩ := char_of ((a.toNat - 0xC0) * 64 + (byteAt l 0 - 0x80)) (by omega)
    refine done x hx ⟨l.drop 1, ?_, rfl⟩
    have hl : l = b :: l.drop 1 := by
      cases l with
      | nil => cases hb
      | cons y l => simp only [List.getElem?_cons_zero, Option.some.injEq] at hb; rw [hb]; rfl
    rcases encode_cases x with ⟨a', e, q⟩ | ⟨a', b', e, q⟩ | ⟨a', b', c', e, q⟩ | ⟨a', b', c', d', e, q⟩
    · omega
    · rw [e, show a' = a from (u8_eq _ _).2 (by omega), show b' = b from (u8_eq _ _).2 (by omega)]
      show a :: l = a :: b :: l.drop 1
      rw [← hl]
    all_goals omega
  · obtain ⟨hk, hn⟩ := Prod.mk.inj h
    obtain rfl := Option.some.inj hk
    obtain rfl := hn
    unfold second3 at h5; rw [decide_eq_true_eq] at h5
    unfold cont at h6; rw [decide_eq_true_eq] at h6
    have r1 : 0x80 ≤ byteAt l 0 ∧ byteAt l 0 ≤ 0xBF ∧ (a.toNat = 0xE0 → 0xA0 ≤ byteAt l 0) ∧ (a.toNat = 0xED → byteAt l 0 ≤ 0x9F) := by
      split at h5 <;> split at h5 <;> omega
    obtain ⟨b, hb, eb⟩ := byteAt_pos l 0 (by omega)
    obtain ⟨c, hc, ec⟩ := byteAt_pos l 1 (by omega)
    obtain ⟨x, hx⟩ := char_of ((a.toNat - 0xE0) * 4096 + (byteAt l 0 - 0x80) * 64 + (byteAt l 1 - 0x80)) (by omega)
    refine done x hx ⟨l.drop 2, ?_, rfl⟩
    have hl : l = b :: c :: l.drop 2 := by
      cases l with
      | nil => cases hb
      | cons y l => cases l with
        | nil => cases hc
        | cons z l =>
          simp only [List.getElem?_cons_zero, List.getElem?_cons_succ, Option.some.injEq] at hb hc
          rw [hb, hc]; rfl
    rcases encode_cases x with ⟨a', e, q⟩ | ⟨a', b', e, q⟩ | ⟨a', b', c', e, q⟩ | ⟨a', b', c', d', e, q⟩
    · omega
    · omega
    · rw [e, show a' = a from (u8_eq _ _).2 (by omega), show b' = b from (u8_eq _ _).2 (by omega), show c' = c from (u8_eq _ _).2 (by omega)]
      show a :: l = a :: b :: c :: l.drop 2
      rw [← hl]
    · omega
  · obtain ⟨hk, hn⟩ := Prod.mk.inj h
    obtain rfl := Option.some.inj hk
    obtain rfl := hn
    unfold second4 at h7; rw [decide_eq_true_eq] at h7
    unfold cont at h8 h9; rw [decide_eq_true_eq] at h8 h9
    have r1 : 0x80 ≤ byteAt l 0 ∧ byteAt l 0 ≤ 0xBF ∧ (a.toNat = 0xF0 → 0x90 ≤ byteAt l 0) ∧ (a.toNat = 0xF4 → byteAt l 0 ≤ 0x8F) := by
      split at h7 <;> split at h7 <;> omega
    obtain ⟨b, hb, eb⟩ := byteAt_pos l 0 (by omega)
    obtain ⟨c, hc, ec⟩ := byteAt_pos l 1 (by omega)
    obtain ⟨d, hd, ed⟩ := byteAt_pos l 2 (by omega)
    obtain ⟨x, hx⟩ := char_of ((a.toNat - 0xF0) * 262144 + (byteAt l 0 - 0x80) * 4096 + (byteAt l 1 - 0x80) * 64 + (byteAt l 2 - 0x80)) (by omega)
    refine done x hx ⟨l.drop 3, ?_, rfl⟩
    have hl : l = b :: c :: d :: l.drop 3 := by
      cases l with
      | nil => cases hb
      | cons y l => cases l with
        | nil => cases hc
        | cons z l => cases l with
          | nil => cases hd
          | cons w l =>
            simp only [List.getElem?_cons_zero, List.getElem?_cons_succ, Option.some.injEq] at hb hc hd
            rw [hb, hc, hd]; rfl
    rcases encode_cases x with ⟨a', e, q⟩ | ⟨a', b', e, q⟩ | ⟨a', b', c', e, q⟩ | ⟨a', b', c', d', e, q⟩
    · omega
    · omega
    · omega
    · rw [e, show a' = a from (u8_eq _ _).2 (by omega), show b' = b from (u8_eq _ _).2 (by omega), show c' = c from (u8_eq _ _).2 (by omega),
        show d' = d from (u8_eq _ _).2 (by omega)]
      show a :: l = a :: b :: c :: d :: l.drop 3
      rw [← hl]

theorem lossy_faithful (n : Nat) : ∀ l : List UInt8, l.length ≤ n → replacement ∉ lossy l → datagram (lossy l) = l := by
  induction n with
  | zero => intro l hl _; rw [List.length_eq_zero_iff.1 (Nat.le_zero.1 hl), lossy_nil]; rfl
  | succ n ih =>
    intro l hl hr
    cases l with
    | nil => rw [lossy_nil]; rfl
    | cons a l =>
      rw [List.length_cons] at hl
      cases hc : chunk a.toNat (byteAt l 0) (byteAt l 1) (byteAt l 2) with
      | mk o m =>
        rw [lossy_cons a l o m hc] at hr ⊢
        cases o with
        | none => exact absurd List.mem_cons_self hr
        | some k =>
          have := ih (l.drop (m - 1)) (by rw [List.length_drop]; omega) fun h => hr (List.mem_cons_of_mem _ h)
          unfold datagram at this ⊢
          rw [List.flatMap_cons, this]
          exact (chunk_valid a l k m hc).symm

/-- **C149** (any datagram). Whatever bytes arrive, the result is a text of at most 1024 characters; without a replacement character in it,
its bytes are exactly the first 1024 that arrived; and it is stable: sent on in one datagram and received again it stays the same. -/
theorem C149_any (d : List UInt8) : (receive d).length ≤ 1024 ∧ (replacement ∉ receive d → datagram (receive d) = d.take 1024) ∧
    ((datagram (receive d)).length ≤ 1024 → receive (datagram (receive d)) = receive d) := by
  refine ⟨?_, ?_, C149_exact _⟩
  · exact Nat.le_trans (lossy_length _ _ (Nat.le_refl _)) (by rw [List.length_take]; omega)
  · exact lossy_faithful _ _ (Nat.le_refl _)

/-- Concrete case: 400 Korean syllables are 1200 bytes; 341 of them and one replacement character arrive. -/
theorem C149_case : (datagram (List.replicate 400 '가')).length = 1200 ∧
    receive (datagram (List.replicate 400 '가')) = List.replicate 341 '가' ++ [replacement] := by
  have len : ∀ n, (datagram (List.replicate n '가')).length = n * 3 := by
    intro n
    unfold datagram
    induction n with
    | zero => rfl
    | succ n ih => rw [List.replicate_succ, List.flatMap_cons, List.length_append, ih, show (String.utf8EncodeChar '가').length = 3 by decide]; omega
  refine ⟨len 400, ?_⟩
  obtain ⟨k, h1, h2, h3, h4⟩ := C149_cut (List.replicate 400 '가') (by rw [len]; omega)
  rw [List.length_replicate] at h1
  rw [List.take_replicate, len, Nat.min_eq_left (by omega)] at h2 h3
  obtain rfl : k = 341 := by omega
  rw [h4, List.take_replicate, if_neg (by rw [len]; decide), Nat.min_eq_left (by decide)]

end Verif.Props

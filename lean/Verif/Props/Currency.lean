import Verif.QL.Currency
import Mathlib.Data.List.Nodup
/-!
# C78: currency codes and currency pairs
-/
set_option autoImplicit false
set_option maxRecDepth 4000
namespace Verif.Props
open Verif Verif.QL

/-- Specification: the text is three letters between `A` and `Z`. -/
def ThreeLetters (s : List Nat) : Prop := s.length = 3 ∧ ∀ b ∈ s, 65 ≤ b ∧ b ≤ 90

/-- C78 (codes). Every currency is written with three capital letters, is read back from what is written, and no two
currencies are written alike. -/
theorem C78_round_trip (c : Currency) :
    ThreeLetters c.asStr ∧ Currency.ofStr c.asStr = c ∧ ∀ d : Currency, d.asStr = c.asStr → d = c := by
  have key : ∀ x : Currency, Currency.ofStr x.asStr = x := by intro x; cases x <;> rfl
  refine ⟨?_, key c, ?_⟩
  · cases c <;> exact ⟨rfl, by decide⟩
  · intro d h
    rw [← key d, h, key c]

theorem firstArm_ne_nil (s : List Nat) : ∀ l : List (List Nat × Currency), (∀ p ∈ l, p.1 = p.2.asStr) →
    firstArm s l ≠ .nil → s = (firstArm s l).asStr
  | [], _, h => absurd rfl h
  | (t, c) :: r, hl, h => by
    unfold firstArm at h ⊢
    split
    · rename_i e
      rw [e]
      exact hl _ List.mem_cons_self
    · rename_i e
      rw [if_neg e] at h
      exact firstArm_ne_nil s r (fun p hp => hl p (List.mem_cons_of_mem _ hp)) h

/-- C78 (reading). A text that is read as a currency other than NIL is exactly the code of that currency: anything else,
lower case letters included, is NIL, silently. -/
theorem C78_reading (s : List Nat) : (∀ c, c ≠ .nil → (Currency.ofStr s = c ↔ s = c.asStr)) ∧
    ((∀ c : Currency, s ≠ c.asStr) → Currency.ofStr s = .nil) := by
  have arms : ∀ p ∈ currencyArms, p.1 = p.2.asStr := by decide
  have key : Currency.ofStr s ≠ .nil → s = (Currency.ofStr s).asStr := firstArm_ne_nil s currencyArms arms
  refine ⟨fun c hc => ⟨?_, ?_⟩, ?_⟩
  · rintro rfl
    exact key hc
  · rintro rfl
    exact (C78_round_trip c).2.1
  · intro h
    by_contra hcon
    exact h _ (key hcon)

example : Currency.ofStr (ascii ['u', 's', 'd']) = .nil ∧ Currency.ofStr (ascii ['U', 'S', 'D']) = .usd := by decide

/-- C78 (pairs). The reciprocal of the reciprocal is the pair; a pair is its own reciprocal only if both currencies are the
same; a pair is read back from what is written. -/
theorem C78_pairs (c : FxCode) : c.reciprocal.reciprocal = c ∧ (c.reciprocal = c ↔ c.ccy1 = c.ccy2) ∧
    c.display = c.ccy1.asStr ++ c.ccy2.asStr ∧ FxCode.ofStr c.display = .ok c := by
  obtain ⟨a, b⟩ := c
  refine ⟨rfl, ?_, rfl, ?_⟩
  · constructor
    · intro h
      exact (congrArg FxCode.ccy2 h)
    · intro h
      have h : a = b := h
      subst h; rfl
  · obtain ⟨⟨la, ra⟩, ea, -⟩ := C78_round_trip a
    obtain ⟨⟨lb, rb⟩, eb, -⟩ := C78_round_trip b
    unfold FxCode.ofStr FxCode.display
    dsimp only
    generalize hx : a.asStr = x at *
    generalize hy : b.asStr = y at *
    match x, la with
    | [x1, x2, x3], _ =>
      match y, lb with
      | [y1, y2, y3], _ =>
        have p1 : x1 < 128 := by have := ra x1 (by simp); omega
        have p2 : y1 < 128 := by have := rb y1 (by simp); omega
        have s1 : strSlice [x1, x2, x3, y1, y2, y3] 0 3 = .ok [x1, x2, x3] := by
          unfold strSlice isBoundary
          rw [if_pos (by simp; omega)]; rfl
        have s2 : strSlice [x1, x2, x3, y1, y2, y3] 3 6 = .ok [y1, y2, y3] := by
          unfold strSlice isBoundary
          rw [if_pos (by simp; omega)]; rfl
        simp only [List.cons_append, List.nil_append, s1, s2, Res.bind_ok, ea, eb]

/-- C78 (reading a pair). Reading a pair panics exactly when the text is shorter than six bytes or a character runs over the
third or the sixth byte; otherwise only the first six bytes are looked at. -/
theorem C78_pair_reading (s : List Nat) :
    (FxCode.ofStr s = .error .index ↔ ¬ (6 ≤ s.length ∧ isBoundary s 0 = true ∧ isBoundary s 3 = true ∧ isBoundary s 6 = true)) ∧
    ((6 ≤ s.length ∧ isBoundary s 0 = true ∧ isBoundary s 3 = true ∧ isBoundary s 6 = true) →
      FxCode.ofStr s = .ok { ccy1 := Currency.ofStr (s.take 3), ccy2 := Currency.ofStr ((s.drop 3).take 3) }) := by
  have hb : ∀ i, isBoundary s i = true → i ≤ s.length := by
    intro i h
    unfold isBoundary at h
    rw [Bool.or_eq_true] at h
    rcases h with h | h
    · simpa using le_of_eq (by simpa using h)
    · by_contra hcon
      rw [List.getElem?_eq_none (by omega)] at h
      simp at h
  have pos : (6 ≤ s.length ∧ isBoundary s 0 = true ∧ isBoundary s 3 = true ∧ isBoundary s 6 = true) →
      FxCode.ofStr s = .ok { ccy1 := Currency.ofStr (s.take 3), ccy2 := Currency.ofStr ((s.drop 3).take 3) } := by
    rintro ⟨-, h0, h3, h6⟩
    unfold FxCode.ofStr strSlice
    simp [h0, h3, h6]
  refine ⟨⟨?_, ?_⟩, pos⟩
  · intro h hcon
    rw [pos hcon] at h
    cases h
  · intro h
    unfold FxCode.ofStr strSlice
    by_cases h03 : isBoundary s 0 = true ∧ isBoundary s 3 = true
    · have h6 : isBoundary s 6 = false := by
        by_contra hcon
        have := Bool.eq_true_of_not_eq_false hcon
        exact h ⟨hb 6 this, h03.1, h03.2, this⟩
      simp [h03.1, h03.2, h6]
    · rw [if_neg (by simpa using h03)]
      rfl

/-- A three-letter code and nothing else panics; a longer one is cut. -/
example : FxCode.ofStr (ascii ['U', 'S', 'D']) = .error .index ∧
    FxCode.ofStr (ascii ['U', 'S', 'D', 'K', 'R', 'W', '1']) = .ok { ccy1 := .usd, ccy2 := .krw } := by decide

theorem mem_addMissing (c : FxCode) : ∀ (m acc : List FxCode), c ∈ addMissing acc m ↔ c ∈ acc ∨ c ∈ m
  | [], acc => by simp [addMissing]
  | d :: r, acc => by
    unfold addMissing
    split
    · rename_i h
      rw [mem_addMissing c r acc]
      constructor
      · rintro (h | h) <;> simp [h]
      · rintro (h' | h')
        · exact .inl h'
        · rcases List.mem_cons.1 h' with rfl | h'
          · exact .inl h
          · exact .inr h'
    · rw [mem_addMissing c r]
      simp [or_assoc]

theorem nodup_addMissing : ∀ (m acc : List FxCode), acc.Nodup → (addMissing acc m).Nodup
  | [], acc, h => h
  | d :: r, acc, h => by
    unfold addMissing
    split
    · exact nodup_addMissing r acc h
    · rename_i hd
      exact nodup_addMissing r _ (List.nodup_append.2 ⟨h, by simp, by rintro a ha b hb rfl; simp at hb; exact hd (hb ▸ ha)⟩)

theorem mem_fxPairs (l : List Currency) (c : FxCode) : c ∈ fxPairs l ↔ c.ccy1 ∈ l ∧ c.ccy2 ∈ l ∧ c.ccy1 ≠ c.ccy2 := by
  obtain ⟨a, b⟩ := c
  unfold fxPairs
  simp only [List.mem_flatMap]
  constructor
  · rintro ⟨x, hx, y, hy, h⟩
    split at h
    · rename_i hne
      simp only [List.mem_singleton, FxCode.mk.injEq] at h
      obtain ⟨rfl, rfl⟩ := h
      exact ⟨hx, hy, hne⟩
    · simp at h
  · rintro ⟨ha, hb, hne⟩
    exact ⟨a, ha, b, hb, by rw [if_pos hne]; simp⟩

theorem nodup_fxPairs (l : List Currency) (h : l.Nodup) : (fxPairs l).Nodup := by
  unfold fxPairs
  have inner : ∀ a : Currency, (l.flatMap fun b => if a ≠ b then [({ ccy1 := a, ccy2 := b } : FxCode)] else []).Nodup := by
    intro a
    rw [List.nodup_flatMap]
    refine ⟨fun b _ => by split <;> simp, ?_⟩
    refine h.imp ?_
    intro x y hxy z hz hz'
    dsimp only at hz hz'
    split at hz <;> split at hz' <;> simp at hz hz'
    rw [hz] at hz'
    exact hxy (congrArg FxCode.ccy2 hz')
  rw [List.nodup_flatMap]
  refine ⟨fun a _ => inner a, ?_⟩
  refine h.imp ?_
  intro x y hxy z hz hz'
  have fst : ∀ (a : Currency), z ∈ (l.flatMap fun b => if a ≠ b then [({ ccy1 := a, ccy2 := b } : FxCode)] else []) → z.ccy1 = a := by
    intro a ha
    obtain ⟨b, -, hb⟩ := List.mem_flatMap.1 ha
    split at hb <;> simp at hb
    rw [hb]
  exact hxy ((fst x hz).symm.trans (fst y hz'))

/-- C78 (pairs of a list of currencies). The pairs made from a list of currencies are exactly the ordered pairs of two
different currencies of the list and the pairs that must be included; none twice if no currency is listed twice. -/
theorem C78_pairs_of (l : List Currency) (must : Option (List FxCode)) :
    (∀ c, c ∈ currenciesToFxCodes l must ↔ (c.ccy1 ∈ l ∧ c.ccy2 ∈ l ∧ c.ccy1 ≠ c.ccy2) ∨ c ∈ must.getD []) ∧
    (l.Nodup → (currenciesToFxCodes l must).Nodup) := by
  unfold currenciesToFxCodes
  cases must with
  | none => exact ⟨fun c => by simp [mem_fxPairs], nodup_fxPairs l⟩
  | some m => exact ⟨fun c => by simp [mem_addMissing, mem_fxPairs], fun h => nodup_addMissing _ _ (nodup_fxPairs l h)⟩

example : (currenciesToFxCodes [.usd, .eur, .krw] (some [⟨.krw, .krw⟩])).length = 7 := by decide

end Verif.Props

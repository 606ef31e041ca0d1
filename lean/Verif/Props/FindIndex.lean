import Verif.QL.FindIndex
import Mathlib.Order.Basic
import Mathlib.Order.Lattice
import Mathlib.Data.List.Pairwise
import Mathlib.Tactic.Common
/-!
# C36, C37: index search in sorted vectors
-/
set_option autoImplicit false
namespace Verif.Props
open Verif Verif.QL

variable {T : Type} [LinearOrder T]

/-- Specification: index `i` brackets `x` in `v`: `v[i] ≤ x < v[i+1]`, where below the first element the index is 0
and at or above the last element it is the last index. -/
def Bracket (v : List T) (x : T) (i : Nat) : Prop :=
  i < v.length ∧ (∀ a, v[i]? = some a → a ≤ x ∨ (i = 0 ∧ x < a)) ∧ (∀ b, v[i + 1]? = some b → x < b)

theorem at_ok {α : Type} (v : List α) (i : Nat) (h : i < v.length) : at_ v i = .ok v[i] := by
  unfold at_; rw [List.getElem?_eq_getElem h]

theorem at_err {α : Type} (v : List α) (i : Nat) (h : v.length ≤ i) : at_ v i = .error .index := by
  unfold at_; rw [List.getElem?_eq_none h]

theorem sorted_le {v : List T} (hs : v.Pairwise (· ≤ ·)) (i j : Nat) (hij : i ≤ j) (hj : j < v.length) :
    v[i]'(by omega) ≤ v[j] := by
  rcases Nat.eq_or_lt_of_le hij with rfl | h
  · exact le_refl _
  · exact List.pairwise_iff_getElem.1 hs i j (by omega) hj h

theorem sorted_lt {v : List T} (hs : v.Pairwise (· < ·)) (i j : Nat) (hij : i < j) (hj : j < v.length) :
    v[i]'(by omega) < v[j] := List.pairwise_iff_getElem.1 hs i j (by omega) hj hij

theorem strict_le {v : List T} (hs : v.Pairwise (· < ·)) : v.Pairwise (· ≤ ·) := hs.imp le_of_lt

theorem bsLoop_spec (v : List T) (x : T) (hs : v.Pairwise (· ≤ ·)) (low high : Nat)
    (hh : high < v.length) (hl : low ≤ high + 1)
    (h1 : ∀ k (hk : k < v.length), k < low → v[k] < x) (h2 : ∀ k (hk : k < v.length), high < k → x < v[k]) :
    (∃ mid, bsLoop v x low high = .ok (.inl mid) ∧ ∃ h : mid < v.length, v[mid] = x) ∨
    (∃ l, bsLoop v x low high = .ok (.inr l) ∧ l ≤ v.length ∧ (∀ k (hk : k < v.length), k < l → v[k] < x) ∧
      ∀ k (hk : k < v.length), l ≤ k → x < v[k]) := by
  induction low, high using bsLoop.induct v x with
  | case1 low high hle e he =>
    rw [at_ok v _ (by omega)] at he; cases he
  | case2 low high hle y hy hyx =>
    left
    rw [bsLoop, if_pos hle, hy]
    simp only [hyx, if_true]
    rw [at_ok v _ (by omega)] at hy
    cases hy
    exact ⟨_, rfl, by omega, by simpa using hyx⟩
  | case3 low high hle y hy hyx hlt ih =>
    rw [bsLoop, if_pos hle, hy]
    simp only [hyx, if_false, hlt, if_true, Bool.false_eq_true]
    rw [at_ok v _ (by omega)] at hy
    cases hy
    apply ih hh (by omega) _ h2
    intro k hk hkl
    exact lt_of_le_of_lt (sorted_le hs k _ (by omega) (by omega)) hlt
  | case4 low high hle y hy hyx hlt h0 =>
    right
    rw [bsLoop, if_pos hle, hy]
    simp only [hyx, if_false, hlt, if_false, h0, if_true, Bool.false_eq_true]
    rw [at_ok v _ (by omega)] at hy
    cases hy
    have hne : v[(low + high) / 2] ≠ x := by simpa using hyx
    have hgt : x < v[(low + high) / 2] := lt_of_le_of_ne (not_lt.1 hlt) (Ne.symm hne)
    refine ⟨low, rfl, by omega, h1, fun k hk hlk => ?_⟩
    exact lt_of_lt_of_le hgt (sorted_le hs _ k (by omega) hk)
  | case5 low high hle y hy hyx hlt h0 ih =>
    rw [bsLoop, if_pos hle, hy]
    simp only [hyx, if_false, hlt, if_false, h0, Bool.false_eq_true]
    rw [at_ok v _ (by omega)] at hy
    cases hy
    have hne : v[(low + high) / 2] ≠ x := by simpa using hyx
    have hgt : x < v[(low + high) / 2] := lt_of_le_of_ne (not_lt.1 hlt) (Ne.symm hne)
    apply ih (by omega) (by omega) h1
    intro k hk hkl
    exact lt_of_lt_of_le hgt (sorted_le hs _ k (by omega) hk)
  | case6 low high hle =>
    right
    rw [bsLoop, if_neg hle]
    exact ⟨low, rfl, by omega, h1, fun k hk hlk => h2 k hk (by omega)⟩

/-- C36 (sorted vectors, repetitions allowed). The search never panics on a non-empty sorted vector; it returns an
index whose element equals the value, or an index that brackets it. -/
theorem C36_sorted (v : List T) (x : T) (hs : v.Pairwise (· ≤ ·)) (hv : v ≠ []) :
    ∃ i, searchIndex v x = .ok i ∧ i < v.length ∧ (v[i]? = some x ∨ Bracket v x i) := by
  have hpos : 0 < v.length := List.length_pos_iff.2 hv
  have hhigh : (if v.isEmpty then 0 else v.length - 1) = v.length - 1 := by
    have : v.isEmpty = false := by simpa using hv
    rw [this]; rfl
  unfold searchIndex
  simp only [hhigh]
  rcases bsLoop_spec v x hs 0 (v.length - 1) (by omega) (by omega) (fun k hk h => by omega)
    (fun k hk h => by omega) with ⟨mid, h, hm, he⟩ | ⟨l, h, hl, h1, h2⟩
  · rw [h]
    exact ⟨mid, rfl, hm, Or.inl (by rw [List.getElem?_eq_getElem hm, he])⟩
  · rw [h]
    simp only [Res.bind_ok]
    by_cases hc : l > v.length - 1
    · rw [if_pos hc]
      refine ⟨v.length - 1, rfl, by omega, Or.inr ⟨by omega, ?_, ?_⟩⟩
      · intro a ha
        rw [List.getElem?_eq_getElem (by omega)] at ha
        cases ha
        exact Or.inl (le_of_lt (h1 _ _ (by omega)))
      · intro b hb
        rw [List.getElem?_eq_none (by omega)] at hb; cases hb
    · rw [if_neg hc, at_ok v l (by omega)]
      simp only [Res.bind_ok]
      have hx := h2 l (by omega) (le_refl _)
      rw [if_neg (not_lt.2 (le_of_lt hx))]
      by_cases h0 : l = 0
      · subst h0
        rw [if_pos rfl]
        refine ⟨0, rfl, hpos, Or.inr ⟨hpos, ?_, ?_⟩⟩
        · intro a ha
          rw [List.getElem?_eq_getElem hpos] at ha
          cases ha
          exact Or.inr ⟨rfl, hx⟩
        · intro b hb
          obtain ⟨hk, rfl⟩ := List.getElem?_eq_some_iff.1 hb
          exact h2 _ hk (by omega)
      · rw [if_neg h0]
        refine ⟨l - 1, rfl, by omega, Or.inr ⟨by omega, ?_, ?_⟩⟩
        · intro a ha
          rw [List.getElem?_eq_getElem (by omega)] at ha
          cases ha
          exact Or.inl (le_of_lt (h1 _ _ (by omega)))
        · intro b hb
          obtain ⟨hk, rfl⟩ := List.getElem?_eq_some_iff.1 hb
          exact h2 _ hk (by omega)

/-- C36. For a strictly increasing non-empty vector the search returns the bracketing index: 0 below the first
element, the last index at or above the last one, else the `i` with `v[i] ≤ x < v[i+1]`. -/
theorem C36_bracket (v : List T) (x : T) (hs : v.Pairwise (· < ·)) (hv : v ≠ []) :
    ∃ i, searchIndex v x = .ok i ∧ Bracket v x i := by
  obtain ⟨i, h, hi, hb | hb⟩ := C36_sorted v x (strict_le hs) hv
  · refine ⟨i, h, hi, ?_, ?_⟩
    · intro a ha
      rw [hb] at ha; cases ha
      exact Or.inl (le_refl _)
    · intro b hb'
      obtain ⟨hk, rfl⟩ := List.getElem?_eq_some_iff.1 hb'
      obtain ⟨hk', rfl⟩ := List.getElem?_eq_some_iff.1 hb
      exact sorted_lt hs i (i + 1) (by omega) hk
  · exact ⟨i, h, hb⟩

/-- There is only one bracketing index in a sorted vector, so C36 determines the result. -/
theorem C36_bracket_unique (v : List T) (x : T) (hs : v.Pairwise (· ≤ ·)) (i j : Nat) (hi : Bracket v x i)
    (hj : Bracket v x j) : i = j := by
  have key : ∀ i j, Bracket v x i → Bracket v x j → ¬ i < j := by
    rintro i j ⟨a1, a2, a3⟩ ⟨b1, b2, b3⟩ hij
    have h1 := a3 (v[i + 1]'(by omega)) (List.getElem?_eq_getElem _)
    rcases b2 v[j] (List.getElem?_eq_getElem _) with h | ⟨h, -⟩
    · have := sorted_le hs (i + 1) j (by omega) b1
      exact absurd (lt_of_lt_of_le h1 (le_trans this h)) (lt_irrefl _)
    · omega
  have h1 := key i j hi hj
  have h2 := key j i hj hi
  omega

/-- The empty vector panics, whatever the value. -/
theorem C36_empty (x : T) : searchIndex ([] : List T) x = .error .index := by
  have h : bsLoop ([] : List T) x 0 0 = .error .index := by
    unfold bsLoop
    simp [at_]
  unfold searchIndex
  simp only [List.isEmpty_nil, if_true, h]
  rfl

/-- What a value that compares as neither equal nor greater to anything (a NaN query) does: the search returns 0. -/
theorem C36_incomparable {S : Type} [BEq S] [LT S] [DecidableLT S] [LE S] [DecidableLE S] (v : List S) (x : S)
    (hv : v ≠ []) (h : ∀ a ∈ v, (a == x) = false ∧ ¬ a < x) : searchIndex v x = .ok 0 := by
  have hpos : 0 < v.length := List.length_pos_iff.2 hv
  have hhigh : (if v.isEmpty then 0 else v.length - 1) = v.length - 1 := by
    have : v.isEmpty = false := by simpa using hv
    rw [this]; rfl
  have key : ∀ high, high < v.length → bsLoop v x 0 high = .ok (.inr 0) := by
    intro high
    induction high using Nat.strongRecOn with
    | _ high ih =>
      intro hlt
      have hmid : (0 + high) / 2 < v.length := by omega
      obtain ⟨h1, h2⟩ := h v[(0 + high) / 2] (List.getElem_mem _)
      rw [bsLoop, if_pos (Nat.zero_le _), at_ok v _ hmid]
      simp only [h1, Bool.false_eq_true, if_false, h2]
      by_cases h0 : (0 + high) / 2 = 0
      · rw [if_pos h0]
      · rw [if_neg h0]
        exact ih _ (by omega) (by omega)
  unfold searchIndex
  simp only [hhigh]
  rw [key _ (by omega)]
  simp only [Res.bind_ok]
  rw [if_neg (by omega), at_ok v 0 hpos]
  obtain ⟨-, h2⟩ := h v[0] (List.getElem_mem _)
  simp [h2]

example : searchIndex [1, 2, 6, 9, 11] 5 = .ok 1 ∧ searchIndex [1, 2, 6, 9, 11] 20 = .ok 4 ∧
    searchIndex [1, 2, 6, 9, 11] 0 = .ok 0 := by decide +kernel

example : ([1, 2, 6, 9, 11] : List Nat).Pairwise (· < ·) := by decide

/-! ## C37 -/

theorem bracketLoop_spec (v : List T) (x : T) (last i j : Nat) (hb : Bracket v x i) (hji : j ≤ i) (hil : i < last)
    (hlast : last < v.length) (hs : v.Pairwise (· < ·)) (hx : ∀ k (hk : k < v.length), k ≤ i → v[k] ≤ x) :
    bracketLoop v x last j = .ok (i, i) := by
  obtain ⟨b1, b2, b3⟩ := hb
  obtain ⟨n, hn⟩ : ∃ n, i = j + n := ⟨i - j, by omega⟩
  induction n generalizing j with
  | zero =>
    have : j = i := by omega
    subst this
    rw [bracketLoop, if_pos hil, at_ok v j b1]
    simp only [Res.bind_ok]
    rw [if_pos (show x ≥ v[j] from hx j b1 (le_refl _)), at_ok v (j + 1) (by omega)]
    simp only [Res.bind_ok]
    have := b3 (v[j + 1]'(by omega)) (List.getElem?_eq_getElem _)
    simp [this]
  | succ n ih =>
    rw [bracketLoop, if_pos (by omega), at_ok v j (by omega)]
    simp only [Res.bind_ok]
    rw [if_pos (show x ≥ v[j] from hx j (by omega) (by omega)), at_ok v (j + 1) (by omega)]
    simp only [Res.bind_ok]
    have := hx (j + 1) (by omega) (by omega)
    simp only [not_lt.2 this, decide_false, Bool.false_eq_true, if_false]
    exact ih (j + 1) (by omega) (by omega)

theorem bracket_mono {v : List T} {x y : T} {i k : Nat} (hs : v.Pairwise (· ≤ ·)) (hxy : x ≤ y)
    (hi : Bracket v x i) (hk : Bracket v y k) : i ≤ k := by
  obtain ⟨a1, a2, a3⟩ := hi
  obtain ⟨b1, b2, b3⟩ := hk
  by_contra hc
  push Not at hc
  have h1 := b3 (v[k + 1]'(by omega)) (List.getElem?_eq_getElem _)
  rcases a2 v[i] (List.getElem?_eq_getElem _) with h | ⟨h, -⟩
  · have := sorted_le hs (k + 1) i (by omega) a1
    exact absurd (lt_of_lt_of_le h1 (le_trans this (le_trans h hxy))) (lt_irrefl _)
  · omega

theorem bracket_at {v : List T} {x : T} {i k : Nat} (hs : v.Pairwise (· ≤ ·)) (hi : Bracket v x i) (hki : k ≤ i)
    (h0 : ∀ a, v[0]? = some a → a ≤ x) : ∃ h : k < v.length, v[k] ≤ x := by
  obtain ⟨a1, a2, a3⟩ := hi
  refine ⟨by omega, ?_⟩
  rcases a2 v[i] (List.getElem?_eq_getElem _) with h | ⟨h, h'⟩
  · exact le_trans (sorted_le hs k i hki a1) h
  · subst h
    have := h0 v[0] (List.getElem?_eq_getElem _)
    exact absurd (lt_of_lt_of_le h' this) (lt_irrefl _)

theorem vecLoop_spec (v : List T) (hs : v.Pairwise (· < ·)) (hv : v ≠ []) (q0 q1 : T) (first last : Nat)
    (hf : Bracket v q0 first) (hl : Bracket v q1 last) (hq : q0 ≤ q1) (qs : List T) (j : Nat)
    (hsq : qs.Pairwise (· ≤ ·)) (hge : ∀ x ∈ qs, q0 ≤ x) (hle : ∀ x ∈ qs, x ≤ q1) (hfj : first ≤ j)
    (hj : ∀ x ∈ qs, ∀ i, Bracket v x i → j ≤ i ∨ j = first) :
    vecLoop v first last j qs = searchEach v qs := by
  have hsl := strict_le hs
  have hfl : first ≤ last := bracket_mono hsl hq hf hl
  induction qs generalizing j with
  | nil => rfl
  | cons x xs ih =>
    obtain ⟨i, hi, hb⟩ := C36_bracket v x hs hv
    have hx0 := hge x (by simp)
    have hx1 := hle x (by simp)
    have hfi := bracket_mono hsl hx0 hf hb
    have hil := bracket_mono hsl hx1 hb hl
    obtain ⟨hsx, hsq'⟩ := List.pairwise_cons.1 hsq
    have ih' := fun j' => ih j' hsq' (fun y hy => hge y (List.mem_cons_of_mem _ hy)) (fun y hy => hle y (List.mem_cons_of_mem _ hy))
    unfold vecLoop searchEach
    rw [at_ok v first hf.1, hi]
    simp only [Res.bind_ok]
    by_cases hlt : x < v[first]'hf.1
    · -- below the first element of the vector
      rw [if_pos hlt]
      have hi0 : i = first := by
        rcases hf.2.1 _ (List.getElem?_eq_getElem hf.1) with h | ⟨h, -⟩
        · exact absurd (lt_of_lt_of_le hlt (le_trans h hx0)) (lt_irrefl _)
        · subst h
          by_contra hc
          rcases hb.2.1 _ (List.getElem?_eq_getElem hb.1) with h' | ⟨h', -⟩
          · have := sorted_le hsl 0 i (by omega) hb.1
            exact absurd (lt_of_lt_of_le hlt (le_trans this h')) (lt_irrefl _)
          · exact hc h'
      rw [ih' j hfj (fun y hy k hk => hj y (List.mem_cons_of_mem _ hy) k hk), hi0]
    · rw [if_neg hlt, at_ok v last hl.1]
      simp only [Res.bind_ok]
      by_cases hgel : x ≥ v[last]'hl.1
      · rw [if_pos hgel]
        have : i = last := by
          by_contra hc
          have h1 := hb.2.2 (v[i + 1]'(by have := hl.1; omega)) (List.getElem?_eq_getElem _)
          have h2 := sorted_le hsl (i + 1) last (by omega) hl.1
          exact absurd (lt_of_lt_of_le h1 (le_trans h2 hgel)) (lt_irrefl _)
        rw [ih' j hfj (fun y hy k hk => hj y (List.mem_cons_of_mem _ hy) k hk), this]
      · rw [if_neg hgel]
        push Not at hgel hlt
        have hvi : v[i]'hb.1 ≤ x := by
          rcases hb.2.1 _ (List.getElem?_eq_getElem hb.1) with h | ⟨h, h'⟩
          · exact h
          · subst h
            have : first = 0 := by omega
            subst this
            exact hlt
        have hile : i < last := by
          rcases Nat.eq_or_lt_of_le hil with h | h
          · subst h; exact absurd (lt_of_lt_of_le hgel hvi) (lt_irrefl _)
          · exact h
        have hji : j ≤ i := by
          rcases hj x (by simp) i hb with h | h <;> omega
        rw [bracketLoop_spec v x last i j hb hji hile hl.1 hs
          (fun k hk hki => le_trans (sorted_le hsl k i hki hb.1) hvi)]
        simp only [Res.bind_ok]
        rw [ih' i (by omega) (fun y hy k hk => Or.inl (bracket_mono hsl (hsx y hy) hb hk))]

theorem searchEach_err (qs : List T) (h : qs ≠ []) : searchEach ([] : List T) qs = .error .index := by
  cases qs with
  | nil => exact absurd rfl h
  | cons x xs => unfold searchEach; rw [C36_empty]; rfl

/-- C37. For a strictly increasing vector and sorted queries of any number, the vectorised search returns exactly what
the pointwise search returns for each query (and panics exactly when the pointwise search does). -/
theorem C37_vectorised (v : List T) (hs : v.Pairwise (· < ·)) (qs : List T) (hq : qs.Pairwise (· ≤ ·)) :
    searchVec v qs = searchEach v qs := by
  unfold searchVec
  by_cases hlen : qs.length ≤ 2
  · rw [if_pos hlen]
  · rw [if_neg hlen]
    have hne : qs ≠ [] := by rintro rfl; simp at hlen
    by_cases hv : v = []
    · subst hv
      rw [searchEach_err qs hne, at_ok qs 0 (by omega)]
      simp only [Res.bind_ok, C36_empty]
      rfl
    · rw [at_ok qs 0 (by omega), at_ok qs (qs.length - 1) (by omega)]
      obtain ⟨f, hf, hbf⟩ := C36_bracket v (qs[0]'(by omega)) hs hv
      obtain ⟨l, hl, hbl⟩ := C36_bracket v (qs[qs.length - 1]'(by omega)) hs hv
      simp only [Res.bind_ok]
      rw [hf, hl]
      simp only [Res.bind_ok]
      apply vecLoop_spec v hs hv _ _ f l hbf hbl (sorted_le hq 0 _ (by omega) (by omega)) qs f hq
      · intro x hx
        obtain ⟨k, hk, rfl⟩ := List.mem_iff_getElem.1 hx
        exact sorted_le hq 0 k (by omega) hk
      · intro x hx
        obtain ⟨k, hk, rfl⟩ := List.mem_iff_getElem.1 hx
        exact sorted_le hq k _ (by omega) (by omega)
      · exact le_refl _
      · intros; exact Or.inr rfl

/-- The answers of the vectorised search are the bracketing indices. -/
theorem C37_brackets (v : List T) (hs : v.Pairwise (· < ·)) (hv : v ≠ []) (qs : List T) (hq : qs.Pairwise (· ≤ ·)) :
    ∃ is, searchVec v qs = .ok is ∧ List.Forall₂ (Bracket v) qs is := by
  rw [C37_vectorised v hs qs hq]
  clear hq
  induction qs with
  | nil => exact ⟨[], rfl, .nil⟩
  | cons x xs ih =>
    obtain ⟨i, hi, hb⟩ := C36_bracket v x hs hv
    obtain ⟨is, his, hf⟩ := ih
    refine ⟨i :: is, ?_, .cons hb hf⟩
    unfold searchEach
    rw [hi, his]; rfl

example : searchVec [1, 2, 6, 9, 11] [0, 1, 5, 10, 11, 30] = .ok [0, 0, 1, 3, 4, 4] := by decide +kernel

/-- With a repeated element the two searches may disagree. -/
theorem fault_search_duplicates : searchVec [0, 1, 1, 5] [0, 1, 5] = .ok [0, 2, 3] ∧
    searchEach [0, 1, 1, 5] [0, 1, 5] = .ok [0, 1, 3] := by decide +kernel

/-- With unsorted queries the vectorised search silently returns 0 for a query it has already passed. -/
theorem fault_search_unsorted : searchVec [1, 2, 6, 9, 11] [1, 7, 3, 20] = .ok [0, 2, 0, 4] ∧
    searchEach [1, 2, 6, 9, 11] [1, 7, 3, 20] = .ok [0, 2, 1, 4] := by decide +kernel

end Verif.Props

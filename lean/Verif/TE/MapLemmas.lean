import Verif.TE.HalfBook
import Verif.TE.LevelLemmas
import Mathlib.Tactic.Tauto
import Mathlib.Data.List.Basic
/-!
# Lemmas about the sorted-list model of `BTreeMap`
-/
namespace Verif.TE
open Verif Verif.Spec

/-- Keys strictly ascending. -/
def Sorted {α : Type} (m : List (Int × α)) : Prop := m.Pairwise (fun a b => a.1 < b.1)

namespace BMap
variable {α : Type}

theorem get_split {p : Int} {m : List (Int × α)} {v : α} (hs : Sorted m) (h : get p m = some v) :
    ∃ A B, m = A ++ (p, v) :: B ∧ (∀ e ∈ A, e.1 < p) ∧ (∀ e ∈ B, p < e.1) := by
  induction m with
  | nil => simp [get] at h
  | cons e m ih =>
    obtain ⟨k, w⟩ := e
    have hs' := List.pairwise_cons.1 hs
    simp only [get] at h
    split at h
    · subst_vars; simp at h; subst h
      exact ⟨[], m, rfl, by simp, fun e he => hs'.1 e he⟩
    · obtain ⟨A, B, rfl, hA, hB⟩ := ih hs'.2 h
      refine ⟨(k, w) :: A, B, rfl, ?_, hB⟩
      intro e he
      rcases List.mem_cons.1 he with rfl | he
      · exact hs'.1 (p, v) (by simp)
      · exact hA e he

theorem get_none_split {p : Int} {m : List (Int × α)} (hs : Sorted m) (h : get p m = none) :
    ∃ A B, m = A ++ B ∧ (∀ e ∈ A, e.1 < p) ∧ (∀ e ∈ B, p < e.1) := by
  induction m with
  | nil => exact ⟨[], [], rfl, by simp, by simp⟩
  | cons e m ih =>
    obtain ⟨k, w⟩ := e
    have hs' := List.pairwise_cons.1 hs
    simp only [get] at h
    split at h
    · simp at h
    · rename_i hk
      rcases Int.lt_or_lt_of_ne hk with hlt | hgt
      · obtain ⟨A, B, rfl, hA, hB⟩ := ih hs'.2 h
        refine ⟨(k, w) :: A, B, rfl, ?_, hB⟩
        intro e he
        rcases List.mem_cons.1 he with rfl | he
        · exact hlt
        · exact hA e he
      · refine ⟨[], (k, w) :: m, rfl, by simp, ?_⟩
        intro e he
        rcases List.mem_cons.1 he with rfl | he
        · exact hgt
        · have := hs'.1 e he; simp at this ⊢; omega

theorem get_of_split {p : Int} {A B : List (Int × α)} {v : α} (hA : ∀ e ∈ A, e.1 < p) :
    get p (A ++ (p, v) :: B) = some v := by
  induction A with
  | nil => simp [get]
  | cons e A ih =>
    obtain ⟨k, w⟩ := e
    have := hA (k, w) (by simp)
    simp only [List.cons_append, get]
    rw [if_neg (by simp at this; omega)]
    exact ih (fun e he => hA e (by simp [he]))

theorem get_eq_none {p : Int} {m : List (Int × α)} : get p m = none ↔ ∀ e ∈ m, e.1 ≠ p := by
  induction m with
  | nil => simp [get]
  | cons e m ih =>
    obtain ⟨k, w⟩ := e
    simp only [get]
    split
    · simp_all
    · rw [ih]; simp_all

theorem get_mem {p : Int} {m : List (Int × α)} {v : α} (h : get p m = some v) : (p, v) ∈ m := by
  induction m with
  | nil => simp [get] at h
  | cons e m ih =>
    obtain ⟨k, w⟩ := e
    simp only [get] at h
    split at h
    · simp_all
    · simp [ih h]

theorem mem_get {p : Int} {m : List (Int × α)} {v : α} (hs : Sorted m) (h : (p, v) ∈ m) :
    get p m = some v := by
  induction m with
  | nil => simp at h
  | cons e m ih =>
    obtain ⟨k, w⟩ := e
    have hs' := List.pairwise_cons.1 hs
    simp only [get]
    rcases List.mem_cons.1 h with h | h
    · simp at h; simp [h]
    · have := hs'.1 _ h
      simp at this
      rw [if_neg (by omega)]
      exact ih hs'.2 h

theorem insert_split {p : Int} {A B : List (Int × α)} {v w : α} (hA : ∀ e ∈ A, e.1 < p) :
    insert p w (A ++ (p, v) :: B) = A ++ (p, w) :: B := by
  induction A with
  | nil => simp [insert]
  | cons e A ih =>
    obtain ⟨k, u⟩ := e
    have := hA (k, u) (by simp)
    simp at this
    simp only [List.cons_append, insert]
    rw [if_neg (by omega), if_neg (by omega), ih (fun e he => hA e (by simp [he]))]

theorem insert_new {p : Int} {A B : List (Int × α)} {w : α} (hA : ∀ e ∈ A, e.1 < p)
    (hB : ∀ e ∈ B, p < e.1) : insert p w (A ++ B) = A ++ (p, w) :: B := by
  induction A with
  | nil =>
    cases B with
    | nil => simp [insert]
    | cons b B =>
      have := hB b (by simp)
      simp [insert, this]
  | cons e A ih =>
    obtain ⟨k, u⟩ := e
    have := hA (k, u) (by simp)
    simp at this
    simp only [List.cons_append, insert]
    rw [if_neg (by omega), if_neg (by omega), ih (fun e he => hA e (by simp [he]))]

theorem erase_split {p : Int} {A B : List (Int × α)} {v : α} (hA : ∀ e ∈ A, e.1 < p)
    (hB : ∀ e ∈ B, p < e.1) : erase p (A ++ (p, v) :: B) = A ++ B := by
  have h1 : A.filter (fun e => e.1 ≠ p) = A := by
    rw [List.filter_eq_self]; intro e he; have := hA e he; simp; omega
  have h2 : B.filter (fun e => e.1 ≠ p) = B := by
    rw [List.filter_eq_self]; intro e he; have := hB e he; simp; omega
  simp only [erase, List.filter_append, h1]
  rw [List.filter_cons_of_neg (by simp), h2]

theorem sorted_split {p : Int} {A B : List (Int × α)} {v : α} :
    Sorted (A ++ (p, v) :: B) ↔ Sorted A ∧ Sorted B ∧ (∀ e ∈ A, e.1 < p) ∧ (∀ e ∈ B, p < e.1) ∧
      (∀ a ∈ A, ∀ b ∈ B, a.1 < b.1) := by
  simp only [Sorted, List.pairwise_append, List.pairwise_cons, List.mem_cons]
  constructor
  · rintro ⟨h1, ⟨h2, h3⟩, h4⟩
    exact ⟨h1, h3, fun e he => h4 e he _ (Or.inl rfl), h2, fun a ha b hb => h4 a ha b (Or.inr hb)⟩
  · rintro ⟨h1, h2, h3, h4, h5⟩
    refine ⟨h1, ⟨h4, h2⟩, ?_⟩
    rintro a ha b (rfl | hb)
    · exact h3 a ha
    · exact h5 a ha b hb

theorem sorted_append {A B : List (Int × α)} :
    Sorted (A ++ B) ↔ Sorted A ∧ Sorted B ∧ (∀ a ∈ A, ∀ b ∈ B, a.1 < b.1) := by
  simp only [Sorted, List.pairwise_append]

theorem sorted_insert_new {p : Int} {A B : List (Int × α)} {w : α} (h : Sorted (A ++ B))
    (hA : ∀ e ∈ A, e.1 < p) (hB : ∀ e ∈ B, p < e.1) : Sorted (A ++ (p, w) :: B) := by
  rw [sorted_append] at h
  rw [sorted_split]
  exact ⟨h.1, h.2.1, hA, hB, h.2.2⟩

theorem sorted_erase_mid {p : Int} {A B : List (Int × α)} {v : α} (h : Sorted (A ++ (p, v) :: B)) :
    Sorted (A ++ B) := by
  rw [sorted_split] at h
  rw [sorted_append]
  exact ⟨h.1, h.2.1, h.2.2.2.2⟩

theorem sorted_keys {m : List (Int × α)} : Sorted m ↔ (m.map (·.1)).Pairwise (· < ·) := by
  simp [Sorted, List.pairwise_map]

theorem foldl_erase (ps : List Int) : ∀ (m : List (Int × α)),
    ps.foldl (fun ls p => erase p ls) m = m.filter (fun e => !ps.contains e.1) := by
  induction ps with
  | nil => intro m; exact (List.filter_eq_self.2 (by simp)).symm
  | cons p ps ih =>
    intro m
    rw [List.foldl_cons, ih]
    unfold erase
    rw [List.filter_filter]
    apply List.filter_congr
    intro e _
    rw [Bool.eq_iff_iff]
    simp
    tauto

end BMap

theorem foldl_cacheErase (ids : List Nat) : ∀ (c : Nat → Option Int) k,
    ids.foldl cacheErase c k = if k ∈ ids then none else c k := by
  induction ids with
  | nil => intro c k; simp
  | cons i ids ih =>
    intro c k
    simp only [List.foldl_cons, ih, cacheErase, List.mem_cons]
    by_cases h1 : k ∈ ids <;> by_cases h2 : k = i <;> simp [h1, h2]

end Verif.TE

import Verif.QL.Daily
import Mathlib.Data.List.Sort
import Mathlib.Data.List.Perm.Basic
/-!
# C132: daily values
-/
set_option autoImplicit false
namespace Verif.Props
open Verif Verif.QL

variable {V : Type}

/-- Specification: what a history of calls leaves at a day. -/
def valueAt (k : Int) : List (DayAct V) → Option V → Option V
  | [], o => o
  | .insert j v :: l, o => valueAt k l (if j = k then some v else o)
  | .modify j f :: l, o => valueAt k l (if j = k then o.map f else o)

theorem get_insert (m : DayMap V) (j k : Int) (v : V) : (m.insert j v).get k = if j = k then some v else m.get k := by
  induction m with
  | nil => simp [DayMap.insert, DayMap.get]
  | cons e m ih =>
    unfold DayMap.insert
    by_cases h : e.1 = j
    · rw [if_pos h]
      simp only [DayMap.get, h]
      by_cases hk : j = k <;> simp [hk]
    · rw [if_neg h]
      simp only [DayMap.get, ih]
      by_cases hk : e.1 = k
      · rw [if_pos hk, if_neg (by intro q; exact h (hk.trans q.symm)), if_pos hk]
      · rw [if_neg hk, if_neg hk]

theorem get_modify (m : DayMap V) (j k : Int) (f : V → V) : (m.modify j f).get k = if j = k then (m.get k).map f else m.get k := by
  induction m with
  | nil => simp [DayMap.modify, DayMap.get]
  | cons e m ih =>
    unfold DayMap.modify
    by_cases h : e.1 = j
    · rw [if_pos h]
      simp only [DayMap.get, h]
      by_cases hk : j = k <;> simp [hk]
    · rw [if_neg h]
      simp only [DayMap.get, ih]
      by_cases hk : e.1 = k
      · rw [if_pos hk, if_neg (by intro q; exact h (hk.trans q.symm)), if_pos hk]
      · rw [if_neg hk, if_neg hk]

/-- The keys are different from each other. -/
def KeysDiffer (m : DayMap V) : Prop := (m.map (·.1)).Nodup

theorem keys_insert (m : DayMap V) (j : Int) (v : V) : ∀ k, k ∈ (m.insert j v).map (·.1) ↔ k = j ∨ k ∈ m.map (·.1) := by
  induction m with
  | nil => intro k; simp [DayMap.insert]
  | cons e m ih =>
    intro k
    unfold DayMap.insert
    by_cases h : e.1 = j
    · rw [if_pos h]; simp [h]
    · rw [if_neg h]
      rw [List.map_cons, List.mem_cons, ih, List.map_cons, List.mem_cons]
      tauto

theorem keys_modify (m : DayMap V) (j : Int) (f : V → V) : (m.modify j f).map (·.1) = m.map (·.1) := by
  induction m with
  | nil => rfl
  | cons e m ih =>
    unfold DayMap.modify
    by_cases h : e.1 = j
    · rw [if_pos h]; simp [h]
    · rw [if_neg h, List.map_cons, ih, List.map_cons]

theorem keysDiffer_act (m : DayMap V) (h : KeysDiffer m) (a : DayAct V) : KeysDiffer (m.act a) := by
  cases a with
  | modify k f => unfold KeysDiffer DayMap.act; rw [keys_modify]; exact h
  | insert k v =>
    show KeysDiffer (m.insert k v)
    induction m with
    | nil => simp [KeysDiffer, DayMap.insert]
    | cons e m ih =>
      unfold KeysDiffer at h ⊢
      rw [List.map_cons, List.nodup_cons] at h
      unfold DayMap.insert
      by_cases he : e.1 = k
      · rw [if_pos he, List.map_cons, List.nodup_cons]; rw [← he]; exact h
      · rw [if_neg he, List.map_cons, List.nodup_cons, keys_insert]
        exact ⟨fun q => q.elim he h.1, ih h.2⟩

theorem keysDiffer_run (m : DayMap V) (h : KeysDiffer m) (l : List (DayAct V)) : KeysDiffer (m.run l) := by
  induction l generalizing m with
  | nil => exact h
  | cons a l ih => exact ih _ (keysDiffer_act m h a)

theorem get_run (m : DayMap V) (l : List (DayAct V)) (k : Int) : (m.run l).get k = valueAt k l (m.get k) := by
  induction l generalizing m with
  | nil => rfl
  | cons a l ih =>
    show ((m.act a).run l).get k = _
    rw [ih]
    cases a with
    | insert j v => rw [valueAt, DayMap.act, get_insert]
    | modify j f => rw [valueAt, DayMap.act, get_modify]

theorem get_mem (m : DayMap V) (h : KeysDiffer m) (k : Int) (v : V) : m.get k = some v ↔ (k, v) ∈ m := by
  induction m with
  | nil => simp [DayMap.get]
  | cons e m ih =>
    unfold KeysDiffer at h
    rw [List.map_cons, List.nodup_cons] at h
    rw [DayMap.get, List.mem_cons]
    by_cases he : e.1 = k
    · rw [if_pos he]
      constructor
      · intro q; left; rw [← he, ← Option.some.inj q]
      · rintro (q | q)
        · rw [← q]
        · exact absurd (List.mem_map.2 ⟨_, q, he.symm⟩) h.1
    · rw [if_neg he, ih h.2]
      constructor
      · exact Or.inr
      · rintro (q | q)
        · exact absurd (by rw [← q]) he
        · exact q

/-- **C132** (daily values). After any history of calls on empty data: a day has the value last written to it; and in whatever
order the map is walked, the ordered data lists exactly the days that have a value, each once, in increasing order, with
these values beside them. -/
theorem C132_ordered (l : List (DayAct V)) (walk : DayMap V) (hw : walk.Perm (DayMap.run [] l)) :
    (∀ k, (DayMap.run [] l).get k = valueAt k l none) ∧
    (orderedByDate walk).1.length = (orderedByDate walk).2.length ∧
    (orderedByDate walk).1.Pairwise (· < ·) ∧
    (∀ k v, (k, v) ∈ (orderedByDate walk).1.zip (orderedByDate walk).2 ↔ valueAt k l none = some v) := by
  have hd : KeysDiffer (DayMap.run [] l) := keysDiffer_run [] (by simp [KeysDiffer]) l
  have hg := fun k => get_run ([] : DayMap V) l k
  have hsort := List.pairwise_mergeSort (le := fun a b : Int × V => decide (a.1 ≤ b.1))
    (by intro a b c; simp only [decide_eq_true_eq]; omega) (by intro a b; simp only [Bool.or_eq_true, decide_eq_true_eq]; omega) walk
  have hperm : (walk.mergeSort fun a b => decide (a.1 ≤ b.1)).Perm (DayMap.run [] l) := (List.mergeSort_perm _ _).trans hw
  have hzip : (orderedByDate walk).1.zip (orderedByDate walk).2 = walk.mergeSort fun a b => decide (a.1 ≤ b.1) := by
    unfold orderedByDate
    dsimp only
    rw [List.zip_map', List.map_id']
  refine ⟨fun k => (hg k).trans rfl, by simp [orderedByDate], ?_, fun k v => ?_⟩
  · have hn : ((walk.mergeSort fun a b => decide (a.1 ≤ b.1)).map (·.1)).Nodup := (hperm.map _).nodup_iff.2 hd
    have hle : ((walk.mergeSort fun a b => decide (a.1 ≤ b.1)).map (·.1)).Pairwise (· ≤ ·) := by
      rw [List.pairwise_map]
      exact hsort.imp fun h => by simpa using h
    exact hle.imp₂ (fun a b h1 h2 => lt_of_le_of_ne h1 h2) hn
  · rw [hzip, hperm.mem_iff, ← get_mem _ hd, hg]
    rfl

/-- **C132** (order of the walk). The ordered data does not depend on the order in which the map is walked. -/
theorem C132_walk (l : List (DayAct V)) (w1 w2 : DayMap V) (h1 : w1.Perm (DayMap.run [] l)) (h2 : w2.Perm (DayMap.run [] l)) :
    orderedByDate w1 = orderedByDate w2 := by
  have hd : KeysDiffer (DayMap.run [] l) := keysDiffer_run [] (by simp [KeysDiffer]) l
  have e : (w1.mergeSort fun a b => decide (a.1 ≤ b.1)) = w2.mergeSort fun a b => decide (a.1 ≤ b.1) := by
    have tr : ∀ a b c : Int × V, decide (a.1 ≤ b.1) = true → decide (b.1 ≤ c.1) = true → decide (a.1 ≤ c.1) = true := by
      intro a b c; simp only [decide_eq_true_eq]; omega
    have tot : ∀ a b : Int × V, (decide (a.1 ≤ b.1) || decide (b.1 ≤ a.1)) = true := by
      intro a b; simp only [Bool.or_eq_true, decide_eq_true_eq]; omega
    have p1 : (w1.mergeSort fun a b => decide (a.1 ≤ b.1)).Perm (DayMap.run [] l) := (List.mergeSort_perm _ _).trans h1
    have p2 : (w2.mergeSort fun a b => decide (a.1 ≤ b.1)).Perm (DayMap.run [] l) := (List.mergeSort_perm _ _).trans h2
    refine List.Perm.eq_of_pairwise (le := fun a b => decide (a.1 ≤ b.1) = true) ?_ (List.pairwise_mergeSort tr tot w1)
      (List.pairwise_mergeSort tr tot w2) (p1.trans p2.symm)
    intro a b ha hb h1 h2
    have hk : a.1 = b.1 := by simp only [decide_eq_true_eq] at h1 h2; omega
    have ga := (get_mem _ hd a.1 a.2).2 (p1.mem_iff.1 ha)
    have gb := (get_mem _ hd b.1 b.2).2 (p2.mem_iff.1 hb)
    rw [hk, gb] at ga
    exact Prod.ext hk (Option.some.inj ga).symm
  unfold orderedByDate
  rw [e]

/-- Non-vacuity: three days written out of order, one twice, one changed in place, walked in two orders. -/
example : (DayMap.run [] [.insert 3 30, .insert 1 10, .insert 3 31, .modify 1 (· + 1), .modify 9 (· + 5)] : DayMap Nat) =
      [(3, 31), (1, 11)] ∧
    orderedByDate ([(3, 31), (1, 11)] : DayMap Nat) = ([1, 3], [11, 31]) ∧
    orderedByDate ([(1, 11), (3, 31)] : DayMap Nat) = ([1, 3], [11, 31]) := by
  refine ⟨by decide, ?_, ?_⟩ <;> simp [orderedByDate, List.mergeSort, List.merge, List.MergeSort.Internal.splitInTwo]

end Verif.Props

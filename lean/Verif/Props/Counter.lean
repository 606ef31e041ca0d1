import Verif.TE.Counter
import Mathlib.Data.List.Nodup
import Mathlib.Tactic.NormNum
/-!
# C35: shared counters
-/
set_option autoImplicit false
namespace Verif.Props
open Verif Verif.TE.Counter

/-- The values handed out (to anyone), in order. -/
def handedOut (l : List (Nat × Option Nat)) : List Nat := l.filterMap (·.2)

/-- The values handed out to thread `t`, in the order of its calls. -/
def handedTo (t : Nat) (l : List (Nat × Option Nat)) : List Nat := (l.filter (fun p => p.1 = t)).filterMap (·.2)

theorem run_length (ts : List Nat) (c : Counter) : (run ts c).length = ts.length := by
  induction ts generalizing c with
  | nil => rfl
  | cons t ts ih => simp [run, ih]

/-- C35 (exact results). As long as the counter does not run past 2^64, call number `k` (in the order of the atomic
operations) returns `start + k`, or an error once that is above the end, whoever calls. -/
theorem C35_result (ts : List Nat) (start stop : Nat) (h : start + ts.length ≤ U64) (k : Nat) (hk : k < ts.length) :
    (run ts (Counter.new start stop))[k]? = some (ts[k], if start + k ≤ stop then some (start + k) else none) := by
  suffices H : ∀ (ts : List Nat) (c : Counter) (k : Nat) (hk : k < ts.length), c.cur + ts.length ≤ U64 →
      (run ts c)[k]? = some (ts[k], if c.cur + k ≤ c.stop then some (c.cur + k) else none) from H ts _ k hk h
  intro ts
  induction ts with
  | nil => intro c k hk; simp at hk
  | cons t ts ih =>
    intro c k hk hU
    simp only [List.length_cons] at hk hU
    cases k with
    | zero =>
      simp only [run, List.getElem?_cons_zero, List.getElem_cons_zero, Counter.next, Nat.add_zero]
      by_cases h : c.cur > c.stop
      · rw [if_pos h, if_neg (by omega)]
      · rw [if_neg h, if_pos (by omega)]
    | succ k =>
      simp only [run, List.getElem?_cons_succ, List.getElem_cons_succ]
      have e : (c.next.2).cur = c.cur + 1 ∧ (c.next.2).stop = c.stop := by
        unfold Counter.next
        simp only
        have : (c.cur + 1) % U64 = c.cur + 1 := Nat.mod_eq_of_lt (by omega)
        split <;> simp [this]
      rw [ih c.next.2 k (by omega) (by omega), e.1, e.2]
      simp only [show c.cur + 1 + k = c.cur + (k + 1) by omega]

/-- C35. Within 2^64 the values handed out are exactly `start, start+1, …` up to the end, without repetition or gap:
the first `min n (end + 1 - start)` of them for `n` calls. -/
theorem C35_handed_out (ts : List Nat) (start stop : Nat) (h : start + ts.length ≤ U64) :
    handedOut (run ts (Counter.new start stop)) = List.range' start (min ts.length (stop + 1 - start)) := by
  suffices H : ∀ (ts : List Nat) (c : Counter), c.cur + ts.length ≤ U64 →
      handedOut (run ts c) = List.range' c.cur (min ts.length (c.stop + 1 - c.cur)) from H ts _ h
  intro ts
  induction ts with
  | nil => intro c _; simp [run, handedOut]
  | cons t ts ih =>
    intro c hU
    simp only [List.length_cons] at hU
    have hm : (c.cur + 1) % U64 = (c.cur + 1) % U64 := rfl
    by_cases hc : c.cur > c.stop
    · have hz : ∀ n, min n (c.stop + 1 - c.cur) = 0 := by intro n; omega
      rw [hz, List.range'_zero]
      have e : c.next = (none, { c with cur := (c.cur + 1) % U64 }) := by
        unfold Counter.next; simp only; rw [if_pos hc]
      simp only [handedOut, run, e, List.filterMap_cons]
      by_cases hlast : ts.length = 0
      · have : ts = [] := List.length_eq_zero_iff.1 hlast
        subst this; rfl
      · have e2 : (c.cur + 1) % U64 = c.cur + 1 := Nat.mod_eq_of_lt (by omega)
        have := ih { c with cur := (c.cur + 1) % U64 } (by simp only; omega)
        unfold handedOut at this
        rw [this]
        simp only [e2]
        have : min ts.length (c.stop + 1 - (c.cur + 1)) = 0 := by omega
        rw [this, List.range'_zero]
    · have e : c.next = (some c.cur, { c with cur := (c.cur + 1) % U64 }) := by
        unfold Counter.next; simp only; rw [if_neg hc]
      simp only [handedOut, run, e, List.filterMap_cons]
      have e3 : min (t :: ts).length (c.stop + 1 - c.cur) = min ts.length (c.stop + 1 - (c.cur + 1)) + 1 := by
        simp only [List.length_cons]; omega
      rw [e3, List.range'_succ]
      congr 1
      by_cases hlast : ts.length = 0
      · have : ts = [] := List.length_eq_zero_iff.1 hlast
        subst this; simp [run]
      · have e2 : (c.cur + 1) % U64 = c.cur + 1 := Nat.mod_eq_of_lt (by omega)
        have := ih { c with cur := (c.cur + 1) % U64 } (by simp only; omega)
        unfold handedOut at this
        rw [this]
        simp only [e2]

/-- C35 (uniqueness and order). No value is handed out twice, to the same or to different threads; every value lies in
`start..=end`; and every thread receives increasing values. -/
theorem C35_unique (ts : List Nat) (start stop : Nat) (h : start + ts.length ≤ U64) :
    (handedOut (run ts (Counter.new start stop))).Nodup ∧
    (∀ x ∈ handedOut (run ts (Counter.new start stop)), start ≤ x ∧ x ≤ stop) ∧
    ∀ t, (handedTo t (run ts (Counter.new start stop))).Pairwise (· < ·) := by
  have e := C35_handed_out ts start stop h
  refine ⟨?_, ?_, ?_⟩
  · rw [e]; exact List.nodup_range'
  · intro x hx
    rw [e, List.mem_range'_1] at hx
    omega
  · intro t
    have hp : (handedOut (run ts (Counter.new start stop))).Pairwise (· < ·) := by
      rw [e]; exact List.pairwise_lt_range'
    have hs : (handedTo t (run ts (Counter.new start stop))).Sublist (handedOut (run ts (Counter.new start stop))) :=
      List.Sublist.filterMap _ List.filter_sublist
    exact hp.sublist hs

example : handedOut (run [1, 2, 1, 3, 2] (Counter.new 3 5)) = [3, 4, 5] ∧
    handedTo 1 (run [1, 2, 1, 3, 2] (Counter.new 3 5)) = [3, 5] := by decide +kernel

/-- The bound of 2^64 is needed: the counter keeps counting after the end, and when it has wrapped around it hands
out values again, also below `start`. -/
theorem fault_counter_wraps (start stop : Nat) (c : Counter) (hc : c = { start := start, stop := stop, cur := U64 - 1 }) :
    c.next.2.next.1 = some 0 := by
  subst hc
  have e : (U64 - 1 + 1) % U64 = 0 := by unfold U64; norm_num
  unfold Counter.next
  simp only
  split <;> simp [e]

/-- C35 (unbounded counters). Call number `k` returns `(start + k) mod 2^64`; fewer than 2^64 calls never repeat a
value. -/
theorem C35_unbounded (ts : List Nat) (start : Nat) (hs : start < U64) :
    (∀ k (hk : k < ts.length), (runUnbounded ts start)[k]? = some (ts[k], (start + k) % U64)) ∧
    (ts.length ≤ U64 → ((runUnbounded ts start).map (·.2)).Nodup) := by
  have hlen : ∀ (ts : List Nat) (s : Nat), (runUnbounded ts s).length = ts.length := by
    intro ts
    induction ts with
    | nil => intro s; rfl
    | cons t ts ih => intro s; simp [runUnbounded, ih]
  have hpos : 0 < U64 := by unfold U64; norm_num
  have key : ∀ (ts : List Nat) (s : Nat), s < U64 → ∀ k (hk : k < ts.length),
      (runUnbounded ts s)[k]? = some (ts[k], (s + k) % U64) := by
    intro ts
    induction ts with
    | nil => intro s _ k hk; simp at hk
    | cons t ts ih =>
      intro s hs k hk
      cases k with
      | zero => simp [runUnbounded, unboundedNext, Nat.mod_eq_of_lt hs]
      | succ k =>
        simp only [List.length_cons] at hk
        simp only [runUnbounded, List.getElem?_cons_succ, List.getElem_cons_succ, unboundedNext]
        rw [ih ((s + 1) % U64) (Nat.mod_lt _ hpos) k (by omega), Nat.mod_add_mod]
        simp only [show s + 1 + k = s + (k + 1) by omega]
  refine ⟨key ts start hs, fun hl => ?_⟩
  rw [List.nodup_iff_injective_get]
  intro i j hij
  have hi : i.1 < ts.length := Nat.lt_of_lt_of_eq i.2 (by rw [List.length_map, hlen])
  have hj : j.1 < ts.length := Nat.lt_of_lt_of_eq j.2 (by rw [List.length_map, hlen])
  simp only [List.get_eq_getElem, List.getElem_map] at hij
  have gi := key ts start hs i hi
  have gj := key ts start hs j hj
  rw [List.getElem?_eq_getElem (by rw [hlen]; exact hi)] at gi
  rw [List.getElem?_eq_getElem (by rw [hlen]; exact hj)] at gj
  simp only [Option.some.injEq] at gi gj
  rw [gi, gj] at hij
  simp only at hij
  apply Fin.ext
  have hU : U64 = 18446744073709551616 := by unfold U64; norm_num
  rw [hU] at hij hl hs
  omega

/-- C35 (order ids). `n` calls of `next_id` hand out `id, id+1, …`; the debug build panics when the id reaches the
largest `u64`, the release build starts again at 0. -/
theorem C35_next_id (m : Mode) (id : Nat) :
    (id + 1 < U64 → nextId m id = .ok (id, id + 1)) ∧
    nextId .checked (U64 - 1) = .error .overflow ∧ nextId .wrapping (U64 - 1) = .ok (U64 - 1, 0) := by
  have hU : U64 = 18446744073709551616 := by unfold U64; norm_num
  refine ⟨fun h => ?_, ?_, ?_⟩
  · unfold nextId; rw [addU_ok h]; rfl
  · unfold nextId addU; rw [if_neg (by omega)]; rfl
  · unfold nextId addU; rw [if_neg (by omega)]
    have : (U64 - 1 + 1) % U64 = 0 := by rw [hU]
    simp only [this]; rfl

end Verif.Props

import Verif.Props.FloatElapsed
import Verif.Props.ZeroCurve
/-!
# The cached times of a curve in single precision (C142)
-/
set_option autoImplicit false
namespace Verif.Props
open Verif Verif.Float Verif.QL Verif.Civil

/-- Local days apart, same time of day and offset: at least a four-hundredth of a year later. -/
theorem position_gap (off : Int) (b c : DT) (hb : b.Valid) (hbo : b.off = off) (hco : c.off = off)
    (ht : b.tod = c.tod) (h : b.day < c.day) : position off b + 1 / 400 ≤ position off c := by
  have hy : b.ymd.y ≤ c.ymd.y := year_mono (by omega)
  have b1 := day_bounds b.day
  have b2 := day_bounds c.day
  change dby b.ymd.y < b.day ∧ b.day ≤ dby b.ymd.y + yearLen b.ymd.y at b1
  change dby c.ymd.y < c.day ∧ c.day ≤ dby c.ymd.y + yearLen c.ymd.y at b2
  have pd : (0 : Rat) < dayNs := by unfold dayNs; norm_num
  have pa : (0 : Rat) < yearLen b.ymd.y := by rcases yearLen_cases b.ymd.y with h | h <;> rw [h] <;> norm_num
  have pb : (0 : Rat) < yearLen c.ymd.y := by rcases yearLen_cases c.ymd.y with h | h <;> rw [h] <;> norm_num
  unfold position
  rw [local_instant b off hbo, local_instant c off hco]
  unfold inDays
  have ex : (((b.day - dby b.ymd.y) * dayNs + b.tod : Int) : Rat) / dayNs = ((b.day - dby b.ymd.y : Int) : Rat) + b.tod / dayNs := by
    push_cast; field_simp
  have ey : (((c.day - dby c.ymd.y) * dayNs + c.tod : Int) : Rat) / dayNs = ((c.day - dby c.ymd.y : Int) : Rat) + c.tod / dayNs := by
    push_cast; field_simp
  rw [ex, ey, ← ht]
  have fs1 : (b.tod : Rat) / dayNs < 1 := by rw [div_lt_one pd]; exact_mod_cast hb.2.2
  have fs0 : (0 : Rat) ≤ (b.tod : Rat) / dayNs := div_nonneg (by positivity) pd.le
  rcases Int.lt_or_eq_of_le hy with hlt | heq
  · have c1 : ((b.day - dby b.ymd.y : Int) : Rat) ≤ yearLen b.ymd.y := by
      exact_mod_cast (by omega : b.day - dby b.ymd.y ≤ yearLen b.ymd.y)
    have c2 : (1 : Rat) ≤ ((c.day - dby c.ymd.y : Int) : Rat) := by
      exact_mod_cast (by omega : 1 ≤ c.day - dby c.ymd.y)
    have c3 : ((b.ymd.y : Int) : Rat) + 1 ≤ (c.ymd.y : Int) := by exact_mod_cast hlt
    generalize ((b.day - dby b.ymd.y : Int) : Rat) = A at *
    generalize ((c.day - dby c.ymd.y : Int) : Rat) = B at *
    generalize (b.tod : Rat) / dayNs = f at *
    have k1 : (A + f) / (yearLen b.ymd.y : Rat) ≤ 1 + f / 365 := by
      rw [add_div]
      have : A / (yearLen b.ymd.y : Rat) ≤ 1 := by rw [div_le_one pa]; exact c1
      have : f / (yearLen b.ymd.y : Rat) ≤ f / 365 := by
        apply div_le_div_of_nonneg_left fs0 (by norm_num)
        rcases yearLen_cases b.ymd.y with h | h <;> rw [h] <;> norm_num
      linarith
    have k2 : (1 + f) / 366 ≤ (B + f) / yearLen c.ymd.y := by
      rw [div_le_div_iff₀ (by norm_num) pb]
      rcases yearLen_cases c.ymd.y with h | h <;> rw [h] <;> push_cast <;> nlinarith
    have k3 : f / 365 + 1 / 400 ≤ (1 + f) / 366 := by
      linarith
    linarith
  · rw [heq]
    have h1 : ((b.day - dby c.ymd.y : Int) : Rat) + 1 ≤ ((c.day - dby c.ymd.y : Int) : Rat) := by
      exact_mod_cast (by omega : b.day - dby c.ymd.y + 1 ≤ c.day - dby c.ymd.y)
    have := div_le_div_of_nonneg_right (show ((b.day - dby c.ymd.y : Int) : Rat) + (b.tod : Rat) / dayNs + 1
      ≤ ((c.day - dby c.ymd.y : Int) : Rat) + (b.tod : Rat) / dayNs by linarith) pb.le
    rw [add_div _ (1 : ℚ)] at this
    have k3 : (1 : ℚ) / 400 ≤ 1 / (yearLen c.ymd.y : Rat) := by
      rcases yearLen_cases c.ymd.y with h | h <;> rw [h] <;> norm_num
    linarith

theorem tenor_keys_small : ∀ ts ∈ tenorSteps, (tenorKey ts).2 ≤ 1200 ∧ (tenorKey ts).1 ≤ 14 := by decide +kernel

theorem reached_year (a d : DT) (k : Nat × Nat) (hr : Reached a d k) (s1 : k.2 ≤ 1200) (s2 : k.1 ≤ 14) :
    d.ymd.y ≤ a.ymd.y + 101 := by
  obtain ⟨v, t, o, d1, d2, -⟩ := hr
  rcases Nat.eq_zero_or_pos k.2 with hz | hz
  · have hd := d1 hz
    have b1 : dby a.ymd.y < a.day ∧ a.day ≤ dby a.ymd.y + yearLen a.ymd.y := day_bounds a.day
    have b2 : dby d.ymd.y < d.day ∧ d.day ≤ dby d.ymd.y + yearLen d.ymd.y := day_bounds d.day
    by_contra hc
    have hm := dby_mono (a.ymd.y + 2) d.ymd.y (by omega)
    have e1 := dby_succ a.ymd.y
    have e2 := dby_succ (a.ymd.y + 1)
    have e3 := yearLen_cases (a.ymd.y + 1)
    rw [show a.ymd.y + 1 + 1 = a.ymd.y + 2 by ring] at e2
    omega
  · have hd := d2 hz
    have v1 := ofOrd_valid a.day
    have v2 := ofOrd_valid d.day
    unfold monthIdx at hd
    have m1 : 1 ≤ a.ymd.m ∧ a.ymd.m ≤ 12 := ⟨v1.1, v1.2.1⟩
    have m2 : 1 ≤ d.ymd.m ∧ d.ymd.m ≤ 12 := ⟨v2.1, v2.2.1⟩
    omega

theorem tenor_days (md : Mode) (a : DT) (ha : a.Valid) (hy : a.ymd.y ≤ 9899) :
    ∃ ds, mapRes (fun p => addPeriod md a p) tenors = .ok ds ∧ ds.length = 29 ∧ ds[0]? = some a ∧ ds.Pairwise (fun b c => b.day < c.day) ∧
      ∀ d ∈ ds, d.Valid ∧ d.tod = a.tod ∧ d.off = a.off ∧ a.day ≤ d.day ∧ d.ymd.y ≤ a.ymd.y + 101 := by
  have each : ∀ s ∈ tenors, ∃ d, addPeriod md a s = .ok d ∧ Reached a d (tenorKey (scan true [] s)) := by
    intro s hs
    have hm : scan true [] s ∈ tenorSteps := by rw [← scan_tenors]; exact List.mem_map_of_mem hs
    obtain ⟨d, e, h⟩ := tenor_reached md a ha hy _ hm
    refine ⟨d, ?_, h⟩
    unfold addPeriod
    have hne : ∀ ts ∈ tenorSteps, ts ≠ [] := by decide
    split
    · rename_i h0
      exact absurd h0 (hne _ hm)
    · exact e
  obtain ⟨ds, e, hlen, h0, -⟩ := curve_times md a ha hy
  have hf : List.Forall₂ (fun s d => addPeriod md a s = .ok d) tenors ds := mapRes_forall₂ _ _ _ e
  have hf' : List.Forall₂ (fun s d => Reached a d (tenorKey (scan true [] s)) ∧ scan true [] s ∈ tenorSteps) tenors ds := by
    rw [List.forall₂_iff_get] at hf ⊢
    refine ⟨hf.1, fun i h1 h2 => ?_⟩
    have h3 := hf.2 i h1 h2
    have hmem : tenors.get ⟨i, h1⟩ ∈ tenors := List.get_mem _ _
    obtain ⟨d, e1, e2⟩ := each _ hmem
    rw [e1] at h3
    obtain rfl := Except.ok.inj h3
    exact ⟨e2, by rw [← scan_tenors]; exact List.mem_map_of_mem hmem⟩
  have pw : ds.Pairwise (fun b c => b.day < c.day) := by
    have keys := keys_increasing
    rw [← scan_tenors, List.map_map, List.pairwise_iff_getElem] at keys
    rw [List.pairwise_iff_getElem]
    intro i j hi hj hij
    have hl := hf'.length_eq
    have r1 := (List.forall₂_iff_get.1 hf').2 i (by omega) hi
    have r2 := (List.forall₂_iff_get.1 hf').2 j (by omega) hj
    have k := keys i j (by rw [List.length_map]; omega) (by rw [List.length_map]; omega) hij
    rw [List.getElem_map, List.getElem_map] at k
    exact reached_lt a _ _ _ _ k r1.1 r2.1
  refine ⟨ds, e, hlen, h0, pw, ?_⟩
  intro d hd
  obtain ⟨i, hi, rfl⟩ := List.mem_iff_getElem.1 hd
  have hl := hf'.length_eq
  obtain ⟨hr, hmem⟩ := (List.forall₂_iff_get.1 hf').2 i (by omega) hi
  rw [List.get_eq_getElem] at hr hmem
  obtain ⟨s1, s2⟩ := tenor_keys_small _ hmem
  obtain ⟨v, t, o, -⟩ := id hr
  refine ⟨v, t, o, ?_, ?_⟩
  · rcases Nat.eq_zero_or_pos i with hz | hz
    · subst hz
      rw [List.getElem?_eq_getElem hi, Option.some.injEq] at h0
      rw [h0]
    · have := (List.pairwise_iff_getElem.1 pw) 0 i (by omega) hi hz
      rw [List.getElem?_eq_getElem (by omega), Option.some.injEq] at h0
      rw [h0] at this
      exact this.le
  · exact reached_year a _ _ hr s1 s2

/-- **C142**. Whatever the evaluation date, the 29 times a curve caches, as they are computed in single precision, are finite,
start at exactly zero and strictly increase: no slope between two of them divides by zero. -/
theorem C142_knots (md : Mode) (a : DT) (ha : a.Valid) (ao : OffOk a) (hy : a.ymd.y ≤ 9899) :
    ∃ ds, mapRes (fun p => addPeriod md a p) tenors = .ok ds ∧ ds.length = 29 ∧
      (∀ d ∈ ds, ∃ x, f32.Finite (timeDifferenceF a d) x ∧ |x - timeDifference a d| ≤ 1 / 50000) ∧
      (∃ d, ds[0]? = some d ∧ f32.Finite (timeDifferenceF a d) 0) ∧
      (ds.map (timeDifferenceF a)).Pairwise (fun x y => x.lt y = true) := by
  obtain ⟨ds, e, hlen, h0, pw, hall⟩ := tenor_days md a ha hy
  have acc : ∀ d ∈ ds, ∃ x, f32.Finite (timeDifferenceF a d) x ∧ |x - timeDifference a d| ≤ 1 / 50000 := by
    intro d hd
    obtain ⟨v, t, o, dd, yy⟩ := hall d hd
    obtain ⟨x, x1, x2⟩ := C141_accuracy a d ha v ao (by unfold OffOk at *; rwa [o])
    refine ⟨x, x1, x2.trans ?_⟩
    have ya : a.ymd.y ≤ d.ymd.y := year_mono dd
    have hn : 3 * |d.ymd.y - a.ymd.y| + 14 ≤ 317 := by
      rw [abs_of_nonneg (by omega)]; omega
    have : ((3 * |d.ymd.y - a.ymd.y| + 14 : Int) : ℚ) ≤ 317 := by exact_mod_cast hn
    refine (div_le_div_of_nonneg_right this (by norm_num)).trans ?_
    norm_num
  refine ⟨ds, e, hlen, acc, ⟨a, h0, C141_zero a⟩, ?_⟩
  rw [List.pairwise_map]
  refine List.Pairwise.imp_of_mem ?_ pw
  intro b c hb hc hlt
  obtain ⟨x, x1, x2⟩ := acc b hb
  obtain ⟨y, y1, y2⟩ := acc c hc
  obtain ⟨v, t, o, dd, yy⟩ := hall b hb
  obtain ⟨v', t', o', dd', yy'⟩ := hall c hc
  rw [finite_lt x1 y1, decide_eq_true_eq]
  have gap := position_gap a.off b c v o o' (t.trans t'.symm) hlt
  rw [C55_position, if_pos (show a.ymd.y ≤ b.ymd.y from year_mono dd)] at x2
  rw [C55_position, if_pos (show a.ymd.y ≤ c.ymd.y from year_mono dd')] at y2
  rw [abs_le] at x2 y2
  obtain ⟨-, x2⟩ := x2
  obtain ⟨y2, -⟩ := y2
  linarith

example : (utcAt 2024 12 30 43200).Valid ∧ OffOk (utcAt 2024 12 30 43200) ∧ (utcAt 2024 12 30 43200).ymd.y ≤ 9899 := by
  refine ⟨⟨?_, ?_, ?_⟩, ?_, ?_⟩ <;> first | decide +kernel | (unfold OffOk; decide +kernel)

end Verif.Props

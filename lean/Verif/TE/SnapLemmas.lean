import Verif.TE.BookExt
import Mathlib.Data.List.Perm.Subperm
import Mathlib.Data.List.Dedup
/-!
# Snapshot maintenance: invariants and loop lemmas
-/
namespace Verif.TE
open Verif Verif.Spec

namespace BMap
variable {α : Type}

theorem get_insert {p p' : Int} {v : α} {m : List (Int × α)} (hs : Sorted m) :
    get p' (insert p v m) = if p' = p then some v else get p' m := by
  induction m with
  | nil => simp only [insert, get]; by_cases h : p' = p <;> simp [h]; omega
  | cons e m ih =>
    obtain ⟨k, w⟩ := e
    have hs' := List.pairwise_cons.1 hs
    simp only [insert]
    split
    · simp only [get]
      by_cases h : p' = p
      · simp [h]
      · rw [if_neg (by omega), if_neg h]
    · split
      · rename_i h1 h2
        simp only [get]
        by_cases h : p' = p
        · simp [h]
        · rw [if_neg (by omega), if_neg h, if_neg (by omega)]
      · simp only [get, ih hs'.2]
        by_cases h : p' = p
        · rw [if_neg (by omega), if_pos h, if_pos h]
        · rw [if_neg h, if_neg h]

theorem sorted_insert {p : Int} {v : α} {m : List (Int × α)} (hs : Sorted m) : Sorted (insert p v m) := by
  cases hg : get p m with
  | none =>
    obtain ⟨A, B, rfl, hA, hB⟩ := get_none_split hs hg
    rw [insert_new hA hB]; exact sorted_insert_new hs hA hB
  | some w =>
    obtain ⟨A, B, rfl, hA, hB⟩ := get_split hs hg
    rw [insert_split hA]
    rw [sorted_split] at hs ⊢
    exact hs

theorem get_filter {p : Int} {f : Int → Bool} {m : List (Int × α)} :
    get p (m.filter (fun e => f e.1)) = if f p then get p m else none := by
  induction m with
  | nil => simp [get]
  | cons e m ih =>
    obtain ⟨k, w⟩ := e
    simp only [List.filter_cons]
    by_cases hk : f k
    · simp only [hk, if_true, get, ih]
      by_cases h : k = p
      · subst h; simp [hk]
      · simp [h]
    · rw [if_neg hk, ih]
      by_cases h : k = p
      · subst h; simp [hk]
      · simp [h, get]

theorem insert_same {p : Int} {v : α} {m : List (Int × α)} (hs : Sorted m) (h : get p m = some v) :
    insert p v m = m := by
  obtain ⟨A, B, rfl, hA, hB⟩ := get_split hs h
  exact insert_split hA

theorem mem_insert {p : Int} {v : α} {m : List (Int × α)} (hs : Sorted m) {e : Int × α} :
    e ∈ insert p v m ↔ e = (p, v) ∨ (e ∈ m ∧ e.1 ≠ p) := by
  obtain ⟨k, w⟩ := e
  have h1 : (k, w) ∈ insert p v m ↔ get k (insert p v m) = some w :=
    ⟨mem_get (sorted_insert hs), get_mem⟩
  have h2 : (k, w) ∈ m ↔ get k m = some w := ⟨mem_get hs, get_mem⟩
  rw [h1, h2, get_insert hs]
  by_cases h : k = p
  · subst h; simp [eq_comm]
  · simp [h]

end BMap

namespace HalfBook

/-- Ids resting in a list of levels. -/
def idsOf (ls : List (Int × Level)) : List Nat := ls.flatMap (fun e => e.2.orders.map (·.1))

/-- Sum of level totals. -/
def sumT (ls : List (Int × Level)) : Nat := (ls.map (·.2.total)).sum

theorem sumT_append (A B) : sumT (A ++ B) = sumT A + sumT B := by simp [sumT]
theorem sumT_cons (e B) : sumT (e :: B) = e.2.total + sumT B := by simp [sumT]
theorem idsOf_append (A B) : idsOf (A ++ B) = idsOf A ++ idsOf B := by simp [idsOf]
theorem idsOf_cons (e B) : idsOf (e :: B) = e.2.orders.map (·.1) ++ idsOf B := by simp [idsOf]

/-- Invariant of a side that is only fed by snapshots: one (virtual) order per level. -/
structure SnapInv (h : HalfBook) (ctr : Nat) : Prop where
  sorted : Sorted h.levels
  single : ∀ e ∈ h.levels, ∃ id q, id < ctr ∧ e.2 = ⟨e.1, [(id, q)], q⟩
  total : h.total = sumT h.levels
  nodup : (idsOf h.levels).Nodup
  cache : ∀ id p, h.cache id = some p ↔ ∃ e ∈ h.levels, e.1 = p ∧ id ∈ e.2.orders.map (·.1)

theorem mem_idsOf {id ls} : id ∈ idsOf ls ↔ ∃ e ∈ ls, id ∈ e.2.orders.map (·.1) := by
  simp only [idsOf, List.mem_flatMap]

theorem removeLevel_snap (m : Mode) {h : HalfBook} {ctr : Nat} (inv : SnapInv h ctr)
    (hb : h.best = bestOf h.side h.levels) (p : Int) :
    ∃ h', h.removeLevel m p = .ok h' ∧ SnapInv h' ctr ∧ h'.best = bestOf h'.side h'.levels ∧
      h'.side = h.side ∧ h'.levels = BMap.erase p h.levels := by
  obtain ⟨side, levels, cache, best, total⟩ := h
  obtain ⟨hs, hsi, ht, hnd, hc⟩ := inv
  simp only at *
  cases hg : BMap.get p levels with
  | none =>
    have he : BMap.erase p levels = levels := by
      unfold BMap.erase; rw [List.filter_eq_self]; intro e he; simpa using BMap.get_eq_none.1 hg e he
    refine ⟨⟨side, levels, cache, best, total⟩, ?_, ⟨hs, hsi, ht, hnd, hc⟩, hb, rfl, he.symm⟩
    simp only [removeLevel, hg, subU_ok (Nat.zero_le _), Res.bind_ok, Nat.sub_zero, he]
    split
    · simp only [reinitBest, ← hb]
    · rfl
  | some l =>
    obtain ⟨A, B, rfl, hA, hB⟩ := BMap.get_split hs hg
    obtain ⟨id, q, hid, hl⟩ := hsi (p, l) (by simp)
    simp only at hl; subst hl
    rw [BMap.erase_split hA hB]
    have hle : q ≤ total := by rw [ht, sumT_append, sumT_cons]; simp only; omega
    have hnd' : (idsOf (A ++ B)).Nodup := by
      rw [idsOf_append, idsOf_cons] at hnd
      rw [idsOf_append]
      simp only [List.map_cons, List.map_nil, List.singleton_append] at hnd
      exact (List.nodup_middle.1 hnd).of_cons
    have hnid : id ∉ idsOf (A ++ B) := by
      rw [idsOf_append, idsOf_cons] at hnd
      rw [idsOf_append]
      simp only [List.map_cons, List.map_nil, List.singleton_append] at hnd
      exact (List.nodup_cons.1 (List.nodup_middle.1 hnd)).1
    have hc' : ∀ i k, cacheErase cache id i = some k ↔ ∃ e ∈ A ++ B, e.1 = k ∧ i ∈ e.2.orders.map (·.1) := by
      intro i k
      unfold cacheErase
      by_cases hi : i = id
      · subst hi
        simp only [if_true, reduceCtorEq, false_iff]
        rintro ⟨e, he, _, hm⟩
        exact hnid (mem_idsOf.2 ⟨e, he, hm⟩)
      · rw [if_neg hi, hc]
        constructor
        · rintro ⟨e, he, rfl, hm⟩
          simp only [List.mem_append, List.mem_cons] at he
          rcases he with he | rfl | he
          · exact ⟨e, by simp [he], rfl, hm⟩
          · simp at hm; exact absurd hm hi
          · exact ⟨e, by simp [he], rfl, hm⟩
        · rintro ⟨e, he, rfl, hm⟩
          refine ⟨e, ?_, rfl, hm⟩
          simp only [List.mem_append, List.mem_cons] at he ⊢
          tauto
    have hsum : total - q = sumT (A ++ B) := by
      rw [ht, sumT_append, sumT_append, sumT_cons]; simp only; omega
    have inv' : ∀ b', SnapInv ⟨side, A ++ B, cacheErase cache id, b', total - q⟩ ctr := fun b' =>
      ⟨BMap.sorted_erase_mid hs, fun e he => hsi e (by simp only [List.mem_append, List.mem_cons] at he ⊢; tauto),
        hsum, hnd', hc'⟩
    simp only [removeLevel, hg, List.map_cons, List.map_nil, List.foldl_cons, List.foldl_nil,
      subU_ok hle, Res.bind_ok, BMap.erase_split hA hB]
    by_cases hpb : p = best
    · rw [if_pos hpb]
      exact ⟨_, rfl, inv' _, rfl, rfl, rfl⟩
    · rw [if_neg hpb]
      refine ⟨_, rfl, inv' _, ?_, rfl, rfl⟩
      simp only
      rw [hb] at hpb ⊢
      exact (bestOf_erase (fun h => hpb h.symm)).symm

theorem removeFold_snap (m : Mode) (ps : List Int) : ∀ {h : HalfBook} {ctr : Nat}, SnapInv h ctr →
    h.best = bestOf h.side h.levels →
    ∃ h', ps.foldlM (fun h p => removeLevel m h p) h = .ok h' ∧ SnapInv h' ctr ∧
      h'.best = bestOf h'.side h'.levels ∧ h'.side = h.side ∧
      h'.levels = h.levels.filter (fun e => !ps.contains e.1) := by
  induction ps with
  | nil => intro h ctr inv hb; exact ⟨h, rfl, inv, hb, rfl, (List.filter_eq_self.2 (by simp)).symm⟩
  | cons p ps ih =>
    intro h ctr inv hb
    obtain ⟨h1, e1, i1, b1, s1, l1⟩ := removeLevel_snap m inv hb p
    obtain ⟨h2, e2, i2, b2, s2, l2⟩ := ih i1 b1
    refine ⟨h2, ?_, i2, b2, s2.trans s1, ?_⟩
    · simp only [List.foldlM_cons, e1, Res.bind_ok, e2]
    · rw [l2, l1]
      simp only [BMap.erase, List.filter_filter, List.contains_cons]
      apply List.filter_congr
      intro e _
      by_cases h : e.1 = p <;> simp [h]

theorem snapStep_snap (m : Mode) {h : HalfBook} {ctr : Nat} (inv : SnapInv h ctr) (s : LevelSnapshot)
    (hfit : h.total + s.qty < U64) (hctr : ctr + 1 < U64) :
    ∃ h' ctr' id, h.snapStep m ctr s = .ok (h', ctr', .ok ()) ∧ SnapInv h' ctr' ∧ h'.side = h.side ∧
      h'.levels = BMap.insert s.price ⟨s.price, [(id, s.qty)], s.qty⟩ h.levels ∧
      h'.total ≤ h.total + s.qty ∧
      ((∃ l, BMap.get s.price h.levels = some l ∧ l.orders.map (·.1) = [id] ∧ ctr' = ctr) ∨
       (BMap.get s.price h.levels = none ∧ id = ctr ∧ ctr' = ctr + 1)) := by
  obtain ⟨side, levels, cache, best, total⟩ := h
  obtain ⟨hs, hsi, ht, hnd, hc⟩ := inv
  obtain ⟨p, q'⟩ := s
  simp only at *
  cases hg : BMap.get p levels with
  | none =>
    obtain ⟨A, B, rfl, hA, hB⟩ := BMap.get_none_split hs hg
    refine ⟨⟨side, BMap.insert p ⟨p, [(ctr, q')], q'⟩ (A ++ B), cacheSet cache ctr p, best, total + q'⟩,
      ctr + 1, ctr, ?_, ?_, ?_, ?_, ?_, Or.inr ⟨rfl, rfl, rfl⟩⟩
    · simp only [snapStep, hg, addU_ok hctr, Res.bind_ok, addU_ok hfit]
    · have hlt : ∀ i ∈ idsOf (A ++ B), i < ctr := by
        intro i hi
        obtain ⟨e, he, hm⟩ := mem_idsOf.1 hi
        obtain ⟨id, q, h1, h2⟩ := hsi e he
        rw [h2] at hm; simp at hm; omega
      rw [BMap.insert_new hA hB]
      refine ⟨BMap.sorted_insert_new hs hA hB, ?_, ?_, ?_, ?_⟩
      · intro e he
        simp only [List.mem_append, List.mem_cons] at he
        rcases he with he | rfl | he
        · obtain ⟨id, q, h1, h2⟩ := hsi e (by simp [he]); exact ⟨id, q, by omega, h2⟩
        · exact ⟨ctr, q', by omega, rfl⟩
        · obtain ⟨id, q, h1, h2⟩ := hsi e (by simp [he]); exact ⟨id, q, by omega, h2⟩
      · simp only
        rw [ht, sumT_append, sumT_append, sumT_cons]; simp only; omega
      · simp only
        rw [idsOf_append, idsOf_cons]
        simp only [List.map_cons, List.map_nil, List.singleton_append]
        rw [List.nodup_middle, ← idsOf_append]
        exact List.nodup_cons.2 ⟨fun h => Nat.lt_irrefl _ (hlt _ h), hnd⟩
      · intro i k
        simp only [cacheSet]
        by_cases hi : i = ctr
        · subst hi
          simp only [if_true, Option.some.injEq]
          constructor
          · rintro rfl; exact ⟨(p, ⟨p, [(i, q')], q'⟩), by simp, rfl, by simp⟩
          · rintro ⟨e, he, rfl, hm⟩
            simp only [List.mem_append, List.mem_cons] at he
            rcases he with he | rfl | he
            · exact absurd (hlt i (mem_idsOf.2 ⟨e, by simp [he], hm⟩)) (Nat.lt_irrefl _)
            · rfl
            · exact absurd (hlt i (mem_idsOf.2 ⟨e, by simp [he], hm⟩)) (Nat.lt_irrefl _)
        · rw [if_neg hi, hc]
          constructor
          · rintro ⟨e, he, rfl, hm⟩
            refine ⟨e, ?_, rfl, hm⟩
            simp only [List.mem_append, List.mem_cons] at he ⊢; tauto
          · rintro ⟨e, he, rfl, hm⟩
            simp only [List.mem_append, List.mem_cons] at he
            rcases he with he | rfl | he
            · exact ⟨e, by simp [he], rfl, hm⟩
            · simp at hm; exact absurd hm hi
            · exact ⟨e, by simp [he], rfl, hm⟩
    · rfl
    · rfl
    · exact Nat.le_refl _
  | some l =>
    obtain ⟨A, B, rfl, hA, hB⟩ := BMap.get_split hs hg
    obtain ⟨id, q, hid, hl⟩ := hsi (p, l) (by simp)
    simp only at hl; subst hl
    have hle : q ≤ total + q' := by rw [ht, sumT_append, sumT_cons]; simp only; omega
    refine ⟨⟨side, BMap.insert p ⟨p, [(id, q')], q'⟩ (A ++ (p, ⟨p, [(id, q)], q⟩) :: B), cache, best, total + q' - q⟩,
      ctr, id, ?_, ?_, rfl, rfl, by simp only; omega, Or.inl ⟨_, rfl, rfl, rfl⟩⟩
    · simp only [snapStep, hg, setBack, List.getLast?_singleton, addU_ok hfit, Res.bind_ok, subU_ok hle,
        List.dropLast_singleton, List.nil_append]
    · rw [BMap.insert_split hA]
      refine ⟨?_, ?_, ?_, ?_, ?_⟩
      · rw [BMap.sorted_split] at hs; simp only; rw [BMap.sorted_split]; exact hs
      · intro e he
        simp only [List.mem_append, List.mem_cons] at he
        rcases he with he | rfl | he
        · exact hsi e (by simp [he])
        · exact ⟨id, q', hid, rfl⟩
        · exact hsi e (by simp [he])
      · simp only
        rw [ht, sumT_append, sumT_append, sumT_cons, sumT_cons]; simp only; omega
      · simp only
        rw [idsOf_append, idsOf_cons] at hnd ⊢
        exact hnd
      · intro i k
        simp only
        rw [hc]
        constructor
        · rintro ⟨e, he, rfl, hm⟩
          simp only [List.mem_append, List.mem_cons] at he
          rcases he with he | rfl | he
          · exact ⟨e, by simp [he], rfl, hm⟩
          · exact ⟨(p, ⟨p, [(id, q')], q'⟩), by simp, rfl, hm⟩
          · exact ⟨e, by simp [he], rfl, hm⟩
        · rintro ⟨e, he, rfl, hm⟩
          simp only [List.mem_append, List.mem_cons] at he
          rcases he with he | rfl | he
          · exact ⟨e, by simp [he], rfl, hm⟩
          · exact ⟨(p, ⟨p, [(id, q)], q⟩), by simp, rfl, hm⟩
          · exact ⟨e, by simp [he], rfl, hm⟩

/-- Quantity of a price in a snapshot. -/
def snapAt (snap : List LevelSnapshot) (p : Int) : Option Nat := (snap.find? (·.price = p)).map (·.qty)

theorem snapLoop_snap (m : Mode) (snap : List LevelSnapshot) : ∀ {h : HalfBook} {ctr : Nat}, SnapInv h ctr →
    (snap.map (·.price)).Nodup →
    h.total + (snap.map (·.qty)).sum < U64 → ctr + snap.length < U64 →
    ∃ h' ctr', snapLoop m snap h ctr = .ok (h', ctr', .ok ()) ∧ SnapInv h' ctr' ∧ h'.side = h.side ∧
      ctr ≤ ctr' ∧ ctr' ≤ ctr + snap.length ∧
      (∀ p, (BMap.get p h'.levels).map (·.total) = (snapAt snap p).or ((BMap.get p h.levels).map (·.total))) := by
  induction snap with
  | nil => intro h ctr inv _ _ _; exact ⟨h, ctr, rfl, inv, rfl, Nat.le_refl _, by simp, by simp [snapAt]⟩
  | cons s snap ih =>
    intro h ctr inv hnd hfit hctr
    simp only [List.map_cons, List.nodup_cons, List.sum_cons, List.length_cons] at hnd hfit hctr
    obtain ⟨h1, c1, id, e1, i1, s1, l1, t1, hcase⟩ := snapStep_snap m inv s (by omega) (by omega)
    have hc1 : ctr ≤ c1 ∧ c1 ≤ ctr + 1 := by
      rcases hcase with ⟨_, _, _, h⟩ | ⟨_, _, h⟩ <;> omega
    obtain ⟨h2, c2, e2, i2, s2, hle, hle2, hg2⟩ := ih i1 hnd.2 (by omega) (by omega)
    refine ⟨h2, c2, ?_, i2, s2.trans s1, by omega, by simp only [List.length_cons]; omega, ?_⟩
    · simp only [snapLoop, e1, Res.bind_ok, e2]
    · intro p
      rw [hg2, l1, BMap.get_insert inv.sorted]
      simp only [snapAt, List.find?_cons]
      by_cases hp : p = s.price
      · subst hp
        have : snap.find? (fun x => x.price = s.price) = none := by
          rw [List.find?_eq_none]
          intro x hx
          simp only [decide_eq_true_eq]
          intro he
          exact hnd.1 (List.mem_map.2 ⟨x, hx, he⟩)
        simp [this]
      · simp [hp, Ne.symm hp]

end HalfBook
end Verif.TE

namespace Verif.TE
open Verif Verif.Spec
namespace HalfBook

theorem sumT_filter_le (f : Int × Level → Bool) (ls) : sumT (ls.filter f) ≤ sumT ls := by
  induction ls with
  | nil => simp
  | cons e ls ih =>
    simp only [List.filter_cons]
    split
    · rw [sumT_cons, sumT_cons]; omega
    · rw [sumT_cons]; omega

theorem snapAt_none {snap p} : snapAt snap p = none ↔ p ∉ snap.map (·.price) := by
  simp [snapAt, List.find?_eq_none]

theorem updateSnapshot_snap (m : Mode) {h : HalfBook} {ctr : Nat} (inv : SnapInv h ctr)
    (hb : h.best = bestOf h.side h.levels) (snap : List LevelSnapshot) (hnd : (snap.map (·.price)).Nodup)
    (hfit : h.total + (snap.map (·.qty)).sum < U64) (hctr : ctr + snap.length < U64) :
    ∃ h' ctr', h.updateSnapshot m snap ctr = .ok (h', ctr', .ok ()) ∧ SnapInv h' ctr' ∧
      h'.best = bestOf h'.side h'.levels ∧ h'.side = h.side ∧ ctr ≤ ctr' ∧ ctr' ≤ ctr + snap.length ∧
      ∀ p, (BMap.get p h'.levels).map (·.total) = snapAt snap p := by
  obtain ⟨h1, e1, i1, b1, s1, l1⟩ := removeFold_snap m
    ((h.levels.map (·.1)).filter (fun p => !(snap.map (·.price)).contains p)) inv hb
  have ht1 : h1.total ≤ h.total := by rw [i1.total, inv.total, l1]; exact sumT_filter_le _ _
  obtain ⟨h2, c2, e2, i2, s2, hc1, hc2, hg⟩ := snapLoop_snap m snap i1 hnd (by omega) hctr
  refine ⟨reinitBest h2, c2, ?_, ⟨i2.sorted, i2.single, i2.total, i2.nodup, i2.cache⟩, rfl, s2.trans s1, hc1, hc2, ?_⟩
  · simp only [updateSnapshot, e1, Res.bind_ok, e2]
  · intro p
    show (BMap.get p h2.levels).map _ = _
    rw [hg]
    cases hs : snapAt snap p with
    | some q => rfl
    | none =>
      rw [snapAt_none] at hs
      simp only [Option.none_or]
      rw [l1]
      have : BMap.get p (h.levels.filter (fun e => !((h.levels.map (·.1)).filter
          (fun p => !(snap.map (·.price)).contains p)).contains e.1)) = none := by
        rw [BMap.get_eq_none]
        rintro e he rfl
        rw [List.mem_filter] at he
        have h2 := he.2
        simp only [Bool.not_eq_true', List.contains_eq_mem, decide_eq_false_iff_not, List.mem_filter,
          not_and, decide_eq_true_eq, Bool.not_eq_eq_eq_not, Bool.not_true] at h2
        exact hs (by simpa using h2 (List.mem_map.2 ⟨e, he.1, rfl⟩))
      rw [this]; rfl

/-- Levels and snapshot agree as sets of pairs. -/
theorem toSnapshot_perm {h : HalfBook} {snap : List LevelSnapshot} (hs : Sorted h.levels)
    (hp : ∀ e ∈ h.levels, e.2.price = e.1)
    (hnd : (snap.map (·.price)).Nodup) (hg : ∀ p, (BMap.get p h.levels).map (·.total) = snapAt snap p) :
    h.toSnapshot.Perm snap ∧ h.toSnapshot.Pairwise (fun a b => a.price < b.price) := by
  have hpw : h.toSnapshot.Pairwise (fun a b => a.price < b.price) := by
    unfold toSnapshot
    rw [List.pairwise_map]
    refine List.Pairwise.imp_of_mem ?_ hs
    intro a b ha hb hab
    simp only [hp a ha, hp b hb]; exact hab
  refine ⟨?_, hpw⟩
  have hnd1 : h.toSnapshot.Nodup := hpw.imp (fun hlt he => by rw [he] at hlt; exact Int.lt_irrefl _ hlt)
  have hnd2 : snap.Nodup := List.Nodup.of_map _ hnd
  rw [List.perm_ext_iff_of_nodup hnd1 hnd2]
  intro a
  have hmem : a ∈ snap ↔ snapAt snap a.price = some a.qty := by
    unfold snapAt
    constructor
    · intro ha
      cases hf : snap.find? (fun x => x.price = a.price) with
      | none => rw [List.find?_eq_none] at hf; have := hf a ha; simp at this
      | some b =>
        have hb := List.mem_of_find?_eq_some hf
        have hbp : b.price = a.price := by simpa using List.find?_some hf
        have : b = a := List.inj_on_of_nodup_map hnd hb ha hbp
        simp [this]
    · intro hs
      cases hf : snap.find? (fun x => x.price = a.price) with
      | none => rw [hf] at hs; simp at hs
      | some b =>
        rw [hf] at hs
        have hb := List.mem_of_find?_eq_some hf
        have hbp : b.price = a.price := by simpa using List.find?_some hf
        simp only [Option.map_some, Option.some.injEq] at hs
        have : b = a := by cases a; cases b; simp_all
        rw [← this]; exact hb
  rw [hmem, ← hg]
  unfold toSnapshot
  simp only [List.mem_map]
  constructor
  · rintro ⟨e, he, rfl⟩
    obtain ⟨k, l⟩ := e
    have := hp _ he
    simp only at this
    simp only [this]
    rw [BMap.mem_get hs he]; rfl
  · intro h1
    cases hgg : BMap.get a.price h.levels with
    | none => rw [hgg] at h1; simp at h1
    | some l =>
      rw [hgg] at h1
      simp only [Option.map_some, Option.some.injEq] at h1
      have := BMap.get_mem hgg
      refine ⟨_, this, ?_⟩
      have h2 := hp _ this
      simp only at h2
      simp only [h2, h1]

/-- Re-applying a snapshot that the side already shows changes nothing. -/
theorem updateSnapshot_fix (m : Mode) {h : HalfBook} {ctr : Nat} (inv : SnapInv h ctr)
    (hb : h.best = bestOf h.side h.levels) (snap : List LevelSnapshot)
    (hfit : ∀ s ∈ snap, h.total + s.qty < U64)
    (hkeys : ∀ e ∈ h.levels, e.1 ∈ snap.map (·.price))
    (hg : ∀ s ∈ snap, (BMap.get s.price h.levels).map (·.total) = some s.qty) :
    h.updateSnapshot m snap ctr = .ok (h, ctr, .ok ()) := by
  have hrem : (h.levels.map (·.1)).filter (fun p => !(snap.map (·.price)).contains p) = [] := by
    rw [List.filter_eq_nil_iff]
    intro p hp
    obtain ⟨e, he, rfl⟩ := List.mem_map.1 hp
    simpa using hkeys e he
  have hloop : ∀ sn : List LevelSnapshot, (∀ s ∈ sn, s ∈ snap) → snapLoop m sn h ctr = .ok (h, ctr, .ok ()) := by
    intro sn
    induction sn with
    | nil => intro _; rfl
    | cons s sn ih =>
      intro hsub
      have hs := hsub s (by simp)
      have hgs := hg s hs
      cases hgg : BMap.get s.price h.levels with
      | none => rw [hgg] at hgs; simp at hgs
      | some l =>
        rw [hgg] at hgs
        simp only [Option.map_some, Option.some.injEq] at hgs
        obtain ⟨id, q, _, hl⟩ := inv.single _ (BMap.get_mem hgg)
        simp only at hl
        subst hl
        simp only at hgs
        subst hgs
        have hstep : h.snapStep m ctr s = .ok (h, ctr, .ok ()) := by
          simp only [snapStep, hgg, setBack, List.getLast?_singleton, addU_ok (hfit s hs), Res.bind_ok,
            subU_ok (Nat.le_add_left _ _), List.dropLast_singleton, List.nil_append, Nat.add_sub_cancel]
          rw [BMap.insert_same inv.sorted hgg]
        simp only [snapLoop, hstep, Res.bind_ok]
        exact ih (fun x hx => hsub x (by simp [hx]))
  have hre : reinitBest h = h := by unfold reinitBest; rw [← hb]
  unfold updateSnapshot
  simp only [hrem, List.foldlM_nil, Res.pure_eq, Res.bind_ok, hloop snap (fun _ h => h), hre]

end HalfBook
end Verif.TE

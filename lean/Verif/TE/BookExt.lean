import Verif.TE.BookHistory
/-!
# A well-formed half book is determined by its queue; reports; market sells
-/
namespace Verif.TE
open Verif Verif.Spec

theorem flat_inj : ∀ {l1 l2 : List (Int × Level)}, (∀ e ∈ l1, LevelOK e) → (∀ e ∈ l2, LevelOK e) →
    l1.Pairwise (fun a b => a.1 ≠ b.1) → l2.Pairwise (fun a b => a.1 ≠ b.1) → flat l1 = flat l2 → l1 = l2 := by
  intro l1
  induction l1 with
  | nil =>
    intro l2 _ h2 _ _ he
    cases l2 with
    | nil => rfl
    | cons e l2 =>
      have := (h2 e (by simp)).nonempty
      rw [flat_nil, flat_cons, eq_comm, List.append_eq_nil_iff] at he
      exact absurd (by simpa using he.1) this
  | cons e l1 ih =>
    intro l2 h1 h2 p1 p2 he
    cases l2 with
    | nil =>
      have := (h1 e (by simp)).nonempty
      rw [flat_nil, flat_cons, List.append_eq_nil_iff] at he
      exact absurd (by simpa using he.1) this
    | cons f l2 =>
      obtain ⟨p, l⟩ := e
      obtain ⟨p', l'⟩ := f
      have o1 := h1 (p, l) (by simp)
      have o2 := h2 (p', l') (by simp)
      rw [List.pairwise_cons] at p1 p2
      have hp : p = p' := by
        have a1 := o1.nonempty
        have a2 := o2.nonempty
        simp only at a1 a2
        obtain ⟨x, xs, hx⟩ := List.exists_cons_of_ne_nil a1
        obtain ⟨y, ys, hy⟩ := List.exists_cons_of_ne_nil a2
        simp only [flat_cons, hx, hy, List.map_cons, List.cons_append, List.cons.injEq] at he
        exact congrArg Resting.price he.1
      subst hp
      have tw : ∀ (L : List (Int × Level)) (os : List (Nat × Nat)), (∀ e ∈ L, p ≠ e.1) →
          (os.map (toR p) ++ flat L).filter (fun x => decide (x.price = p)) = os.map (toR p) ∧
          (os.map (toR p) ++ flat L).filter (fun x => decide (x.price ≠ p)) = flat L := by
        intro L os hL
        have f1 : (os.map (toR p)).filter (fun x => decide (x.price = p)) = os.map (toR p) := by
          rw [List.filter_eq_self]; intro o ho; obtain ⟨y, _, rfl⟩ := List.mem_map.1 ho; simp
        have f2 : (os.map (toR p)).filter (fun x => decide (x.price ≠ p)) = [] := by
          rw [List.filter_eq_nil_iff]; intro o ho; obtain ⟨y, _, rfl⟩ := List.mem_map.1 ho; simp
        have g1 : (flat L).filter (fun x => decide (x.price = p)) = [] := by
          rw [List.filter_eq_nil_iff]; intro o ho
          obtain ⟨e, he, hp, _⟩ := mem_flat.1 ho
          simp [hp, (hL e he).symm]
        have g2 : (flat L).filter (fun x => decide (x.price ≠ p)) = flat L := by
          rw [List.filter_eq_self]; intro o ho
          obtain ⟨e, he, hp, _⟩ := mem_flat.1 ho
          simp [hp, (hL e he).symm]
        simp only [List.filter_append, f1, f2, g1, g2]; simp
      simp only [flat_cons] at he
      have t1 := tw l1 l.orders (fun e he => p1.1 e he)
      have t2 := tw l2 l'.orders (fun e he => p2.1 e he)
      rw [he] at t1
      have e1 : l.orders.map (toR p) = l'.orders.map (toR p) := t1.1.symm.trans t2.1
      have e2 : flat l1 = flat l2 := t1.2.symm.trans t2.2
      have e3 : l.orders = l'.orders := by
        have := congrArg (List.map (fun r : Resting => (r.id, r.qty))) e1
        simpa [Function.comp_def] using this
      have e4 : l = l' := by
        have a1 := o1.price; have a2 := o2.price
        have b1 := o1.total; have b2 := o2.total
        cases l; cases l'
        simp_all
      rw [e4, ih (fun e he => h1 e (by simp [he])) (fun e he => h2 e (by simp [he])) p1.2 p2.2 e2]

theorem queueOf_inj {s : Side} {l1 l2 : List (Int × Level)} (o1 : ∀ e ∈ l1, LevelOK e)
    (o2 : ∀ e ∈ l2, LevelOK e) (s1 : Sorted l1) (s2 : Sorted l2) (he : queueOf s l1 = queueOf s l2) :
    l1 = l2 := by
  have p1 : l1.Pairwise (fun a b => a.1 ≠ b.1) := List.Pairwise.imp (fun h => by omega) s1
  have p2 : l2.Pairwise (fun a b => a.1 ≠ b.1) := List.Pairwise.imp (fun h => by omega) s2
  cases s
  · exact flat_inj o1 o2 p1 p2 he
  · have := flat_inj (l1 := l1.reverse) (l2 := l2.reverse) (by simpa using o1) (by simpa using o2)
      (by rw [List.pairwise_reverse]; exact p1.imp (fun h => h.symm))
      (by rw [List.pairwise_reverse]; exact p2.imp (fun h => h.symm)) he
    simpa using this

/-- Two well-formed half books on the same side with the same resting queue are the same state. -/
theorem HalfBook.WF.ext {h1 h2 : HalfBook} (w1 : h1.WF) (w2 : h2.WF) (hs : h1.side = h2.side)
    (hq : h1.queue = h2.queue) : h1 = h2 := by
  have hl : h1.levels = h2.levels := by
    apply queueOf_inj (s := h1.side) w1.levels w2.levels w1.sorted w2.sorted
    rw [show queueOf h1.side h1.levels = h1.queue from rfl, hq, HalfBook.queue, hs]
  have hc : h1.cache = h2.cache := by
    funext id
    have e : ∀ p, h1.cache id = some p ↔ h2.cache id = some p := by
      intro p; rw [w1.cache, w2.cache, hq]
    cases h : h1.cache id with
    | some p => exact ((e p).1 h).symm
    | none =>
      cases h' : h2.cache id with
      | none => rfl
      | some p => rw [(e p).2 h'] at h; simp at h
  have ht : h1.total = h2.total := by rw [w1.total, w2.total, hq]
  have hb : h1.best = h2.best := by rw [w1.best, w2.best, hs, hl]
  cases h1; cases h2; simp_all

/-! ### Reports -/

theorem report_sum (fs) : ((report fs).map (·.2)).sum = fillSum fs := by
  induction fs with
  | nil => rfl
  | cons f fs ih =>
    simp only [report]
    cases h : report fs with
    | nil => rw [h] at ih; simp at ih; simp [← ih]
    | cons a as =>
      obtain ⟨p, q⟩ := a
      rw [h] at ih
      simp only [List.map_cons, List.sum_cons] at ih
      simp only
      split <;> simp <;> omega

theorem report_mem (fs) (hpos : ∀ f ∈ fs, 0 < f.qty) : ∀ e ∈ report fs, 0 < e.2 ∧ ∃ f ∈ fs, f.price = e.1 := by
  induction fs with
  | nil => simp [report]
  | cons f fs ih =>
    intro e he
    have ih' := ih (fun f hf => hpos f (by simp [hf]))
    have hf := hpos f (by simp)
    simp only [report] at he
    cases h : report fs with
    | nil => simp [h] at he; subst he; exact ⟨hf, f, by simp, rfl⟩
    | cons a as =>
      obtain ⟨p, q⟩ := a
      rw [h] at ih' he
      simp only at he
      split at he
      · rcases List.mem_cons.1 he with rfl | he
        · exact ⟨by simp; omega, f, by simp, by assumption⟩
        · obtain ⟨h1, g, hg, h2⟩ := ih' e (by simp [he]); exact ⟨h1, g, by simp [hg], h2⟩
      · rcases List.mem_cons.1 he with rfl | he
        · exact ⟨hf, f, by simp, rfl⟩
        · obtain ⟨h1, g, hg, h2⟩ := ih' e he; exact ⟨h1, g, by simp [hg], h2⟩

/-- Fills in priority order are reported with strictly worsening prices. -/
theorem report_sorted (s : BookSide) (fs : List Fill)
    (h : fs.Pairwise (fun a b => ¬ better s b.price a.price)) :
    (report fs).Pairwise (fun a b => better s a.1 b.1) ∧
    ∀ e, (report fs).head? = some e → ∃ f, fs.head? = some f ∧ f.price = e.1 := by
  induction fs with
  | nil => simp [report]
  | cons f fs ih =>
    rw [List.pairwise_cons] at h
    obtain ⟨ih1, ih2⟩ := ih h.2
    simp only [report]
    cases hr : report fs with
    | nil => simp
    | cons a as =>
      obtain ⟨p, q⟩ := a
      rw [hr] at ih1 ih2
      obtain ⟨g, hg, hgp⟩ := ih2 (p, q) rfl
      simp only at hgp
      have hgm : g ∈ fs := List.mem_of_mem_head? (by rw [hg]; simp)
      rw [List.pairwise_cons] at ih1
      simp only
      split
      · rename_i he
        refine ⟨?_, ?_⟩
        · rw [List.pairwise_cons]; exact ⟨ih1.1, ih1.2⟩
        · intro e he'; simp at he'; subst he'; exact ⟨f, rfl, he⟩
      · rename_i hne
        have hb : better s f.price p := by
          have := h.1 g hgm
          rw [hgp] at this
          cases s <;> simp [better] at * <;> omega
        refine ⟨?_, ?_⟩
        · rw [List.pairwise_cons]
          refine ⟨?_, List.pairwise_cons.2 ih1⟩
          intro e he
          rcases List.mem_cons.1 he with rfl | he
          · exact hb
          · exact better_trans hb (ih1.1 e he)
        · intro e he'; simp at he'; subst he'; exact ⟨f, rfl, rfl⟩

theorem sweep_fills_sorted {s : BookSide} {ok : Int → Bool} {l : List Resting} (hs : PrioritySorted s l) : ∀ q,
    (sweep ok q l).fills.Pairwise (fun a b => ¬ better s b.price a.price) := by
  induction l with
  | nil => intro q; simp [sweep]
  | cons y l ih =>
    intro q
    have hs' := List.pairwise_cons.1 hs
    simp only [sweep]
    split
    · simp
    · split
      · simp
      · rw [List.pairwise_cons]
        refine ⟨?_, ih hs'.2 _⟩
        intro f hf
        obtain ⟨_, x, hx, hp, _⟩ := sweep_prices ok l _ f hf
        rw [← hp]; exact hs'.1 x hx

theorem queue_sorted {h : HalfBook} (wf : h.WF) : PrioritySorted (bside h.side) h.queue :=
  queueOf_sorted wf.sorted

theorem queue_pos {h : HalfBook} (wf : h.WF) : ∀ x ∈ h.queue, 0 < x.qty := by
  intro x hx
  obtain ⟨A, B, l, _, _, _, _, ho, hl⟩ := HalfBook.split_at wf hx
  exact hl.pos _ ho

end Verif.TE

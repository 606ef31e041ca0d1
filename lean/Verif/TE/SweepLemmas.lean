import Verif.TE.HalfBookRemove
/-!
# Facts about the specification's `sweep`, and the model's trade loops refine it
-/
namespace Verif.TE
open Verif Verif.Spec

/-- Quantity of a list of fills. -/
def fillSum (fs : List Fill) : Nat := (fs.map (·.qty)).sum

@[simp] theorem fillSum_nil : fillSum [] = 0 := rfl
@[simp] theorem fillSum_cons (f fs) : fillSum (f :: fs) = f.qty + fillSum fs := by simp [fillSum]
@[simp] theorem fillSum_append (a b) : fillSum (a ++ b) = fillSum a + fillSum b := by
  induction a with
  | nil => simp
  | cons x xs ih => simp [ih]; omega

theorem sweep_conserve (ok : Int → Bool) (l) : ∀ q, fillSum (sweep ok q l).fills + (sweep ok q l).rem = q := by
  induction l with
  | nil => intro q; simp [sweep]
  | cons x l ih =>
    intro q
    simp only [sweep]
    split
    · simp
    · split
      · simp
      · have := ih (q - x.qty); simp; omega

theorem sweep_volume (ok : Int → Bool) (l) : ∀ q,
    volume (sweep ok q l).queue + fillSum (sweep ok q l).fills = volume l := by
  induction l with
  | nil => intro q; simp [sweep]
  | cons x l ih =>
    intro q
    simp only [sweep]
    split
    · simp
    · split
      · simp; omega
      · have := ih (q - x.qty); simp; omega

theorem sweep_zero (ok : Int → Bool) (l) : sweep ok 0 l = ⟨[], 0, l⟩ := by
  cases l <;> simp [sweep]

theorem sweep_append (ok : Int → Bool) (X Y) : ∀ q, (∀ x ∈ X, ok x.price = true) →
    sweep ok q (X ++ Y) =
      ⟨(sweep ok q X).fills ++ (sweep ok (sweep ok q X).rem Y).fills,
        (sweep ok (sweep ok q X).rem Y).rem,
        (sweep ok q X).queue ++ (sweep ok (sweep ok q X).rem Y).queue⟩ := by
  induction X with
  | nil => intro q h; simp [sweep]
  | cons x X ih =>
    intro q h
    have hx := h x (by simp)
    simp only [List.cons_append, sweep, hx]
    by_cases h0 : q = 0
    · subst h0; simp [sweep_zero]
    · simp only [h0, decide_false, Bool.not_true, Bool.or_self, Bool.false_eq_true, if_false]
      by_cases hq : q < x.qty
      · simp [hq, sweep_zero]
      · simp only [hq, if_false]
        rw [ih _ (fun x hx => h x (by simp [hx]))]
        simp

theorem sweep_prices (ok : Int → Bool) (l) : ∀ q, ∀ f ∈ (sweep ok q l).fills,
    ok f.price = true ∧ ∃ x ∈ l, x.price = f.price ∧ x.id = f.id ∧ f.qty ≤ x.qty := by
  induction l with
  | nil => intro q; simp [sweep]
  | cons x l ih =>
    intro q f hf
    simp only [sweep] at hf
    split at hf
    · simp at hf
    · rename_i hc
      simp at hc
      split at hf
      · simp at hf; subst hf; exact ⟨hc.2, x, by simp, rfl, rfl, by simp; omega⟩
      · simp at hf
        rcases hf with rfl | hf
        · exact ⟨hc.2, x, by simp, rfl, rfl, by simp⟩
        · obtain ⟨h1, y, hy, h2⟩ := ih _ f hf
          exact ⟨h1, y, by simp [hy], h2⟩

theorem sweep_fill_pos (ok : Int → Bool) (l) (hl : ∀ x ∈ l, 0 < x.qty) : ∀ q,
    ∀ f ∈ (sweep ok q l).fills, 0 < f.qty := by
  induction l with
  | nil => intro q; simp [sweep]
  | cons x l ih =>
    intro q f hf
    have hx := hl x (by simp)
    simp only [sweep] at hf
    split at hf
    · simp at hf
    · rename_i hc
      simp at hc
      split at hf
      · simp at hf; subst hf; simp; omega
      · simp at hf
        rcases hf with rfl | hf
        · exact hx
        · exact ih (fun x hx => hl x (by simp [hx])) _ f hf

/-- `report` of fills at one price followed by fills at other prices. -/
theorem report_block {p : Int} {F G : List Fill} (hF : ∀ f ∈ F, f.price = p) (hne : F ≠ [])
    (hG : ∀ f ∈ G, f.price ≠ p) : report (F ++ G) = (p, fillSum F) :: report G := by
  have hG' : ∀ p' q' r, report G = (p', q') :: r → p' ≠ p := by
    intro p' q' r h
    cases G with
    | nil => simp [report] at h
    | cons g G =>
      have hg := hG g (by simp)
      simp only [report] at h
      cases hr : report G with
      | nil => simp [hr] at h; rw [← h.1.1]; exact hg
      | cons a as =>
        simp only [hr] at h
        split at h <;> simp at h
        · rename_i he; rw [← h.1.1, ← he]; exact hg
        · rw [← h.1.1]; exact hg
  induction F with
  | nil => exact absurd rfl hne
  | cons f F ih =>
    have hf := hF f (by simp)
    by_cases hF0 : F = []
    · subst hF0
      simp only [List.cons_append, List.nil_append, report]
      cases hr : report G with
      | nil => simp [hf]
      | cons a as =>
        obtain ⟨p', q'⟩ := a
        have := hG' p' q' as hr
        simp only [hf]
        rw [if_neg (fun h => this h.symm)]
        simp
    · have := ih (fun f hf => hF f (by simp [hf])) hF0
      simp only [List.cons_append, report, this, hf, if_true]
      simp

namespace HalfBook

/-- The common shape of the four trade loops. -/
def sweepLoop (m : Mode) (ok : Int → Bool) : List (Int × Level) → TradeAcc →
    Res (List (Int × Level) × TradeAcc)
  | [], a => .ok ([], a)
  | (p, l) :: rest, a =>
    if ok p = false ∨ a.rem = 0 then .ok ((p, l) :: rest, a)
    else do
      let (l', ids, rem) ← l.trade m a.rem
      let traded := a.rem - rem
      let hist := if traded > 0 then a.hist ++ [(p, traded)] else a.hist
      let total ← if traded > 0 then subU m a.total traded else .ok a.total
      let rmPrices := if l'.total = 0 then a.rmPrices ++ [p] else a.rmPrices
      let (rest', a'') ← sweepLoop m ok rest ⟨rem, rmPrices, a.rmIds ++ ids, hist, total⟩
      .ok ((p, l') :: rest', a'')

theorem askLimitLoop_eq (m limit ls) : ∀ a, askLimitLoop m limit ls a =
    sweepLoop m (fun p => decide (p ≤ limit)) ls a := by
  induction ls with
  | nil => intro a; rfl
  | cons e ls ih =>
    intro a
    obtain ⟨p, l⟩ := e
    simp only [askLimitLoop, sweepLoop, decide_eq_false_iff_not, Int.not_le, gt_iff_lt, ih]

theorem bidLimitLoop_eq (m limit ls) : ∀ a, bidLimitLoop m limit ls a =
    sweepLoop m (fun p => decide (limit ≤ p)) ls a := by
  induction ls with
  | nil => intro a; rfl
  | cons e ls ih =>
    intro a
    obtain ⟨p, l⟩ := e
    simp only [bidLimitLoop, sweepLoop, decide_eq_false_iff_not, Int.not_le, gt_iff_lt, ih]

/-- A level after trading: consistent, possibly emptied. -/
structure LevelOK' (e : Int × Level) : Prop where
  price : e.2.price = e.1
  pos : Pos e.2.orders
  total : e.2.total = sumQ e.2.orders

/-- Exact result of the loop on consistent levels. -/
theorem sweepLoop_spec (m : Mode) (ok : Int → Bool) (ls) : ∀ q rp ri hist total,
    (∀ e ∈ ls, LevelOK e) → ls.Pairwise (fun a b => a.1 ≠ b.1) → volume (flat ls) ≤ total →
    ∃ ls' rp' rmq, sweepLoop m ok ls ⟨q, rp, ri, hist, total⟩ =
      .ok (ls', ⟨(sweep ok q (flat ls)).rem, rp ++ rp', ri ++ rmq.map Prod.fst,
        hist ++ report (sweep ok q (flat ls)).fills, total - fillSum (sweep ok q (flat ls)).fills⟩) ∧
      ls'.map (·.1) = ls.map (·.1) ∧ flat ls' = (sweep ok q (flat ls)).queue ∧
      (∀ e ∈ ls', LevelOK' e) ∧
      rp' = (ls'.filter (fun e => e.2.orders.isEmpty)).map (·.1) ∧
      rmq ++ (sweep ok q (flat ls)).queue.map (fun o => (o.id, o.price)) =
        (flat ls).map (fun o => (o.id, o.price)) := by
  induction ls with
  | nil =>
    intro q rp ri hist total _ _ _
    exact ⟨[], [], [], by simp [sweepLoop, sweep, report], rfl, by simp [sweep], by simp, by simp, by simp [sweep]⟩
  | cons e ls ih =>
    intro q rp ri hist total hok hpw hvol
    obtain ⟨p, l⟩ := e
    have hl := hok (p, l) (by simp)
    have hlp := hl.price
    have hlo := hl.pos
    have hlt := hl.total
    have hlne := hl.nonempty
    simp only at hlp hlo hlt hlne
    rw [List.pairwise_cons] at hpw
    simp only [flat_cons, volume_append, volume_map_toR] at hvol
    have hne : ∀ e ∈ ls, LevelOK e := fun e he => hok e (by simp [he])
    have hself : ∀ e ∈ (p, l) :: ls, LevelOK' e := fun e he => ⟨(hok e he).price, (hok e he).pos, (hok e he).total⟩
    have hempty : (((p, l) :: ls).filter (fun e => e.2.orders.isEmpty)).map (·.1) = [] := by
      rw [List.filter_eq_nil_iff.2]
      · rfl
      · intro e he; simpa using (hok e he).nonempty
    by_cases hstop : ok p = false ∨ q = 0
    · -- nothing is traded
      have hsw : sweep ok q (flat ((p, l) :: ls)) = ⟨[], q, flat ((p, l) :: ls)⟩ := by
        rw [flat_cons]
        cases ho : l.orders with
        | nil => exact absurd ho hlne
        | cons o os =>
          rcases hstop with h | h <;> simp [sweep, h]
      refine ⟨(p, l) :: ls, [], [], ?_, rfl, by rw [hsw], hself, hempty.symm, by rw [hsw]; rfl⟩
      rw [hsw]
      simp [sweepLoop, hstop, report]
    · have hp : ok p = true := by
        cases h : ok p
        · exact absurd (Or.inl h) hstop
        · rfl
      have hq : q ≠ 0 := fun h => hstop (Or.inr h)
      -- the level's own sweep
      have hX : ∀ x ∈ l.orders.map (toR p), ok x.price = true := by
        intro x hx; obtain ⟨y, _, rfl⟩ := List.mem_map.1 hx; exact hp
      have hsw := sweep_append ok (l.orders.map (toR p)) (flat ls) q hX
      obtain ⟨hsq, hsr⟩ := sweep_level ok p hp l.orders q
      have hcons := sweep_conserve ok (l.orders.map (toR p)) q
      have hvolS := sweep_volume ok (l.orders.map (toR p)) q
      rw [volume_map_toR] at hvolS
      have hfr := Level.fillQ_rem l.orders q
      have hfs := Level.fillQ_sum l.orders q
      have hfi := Level.fillQ_ids l.orders q
      have hfp := Level.fillQ_pos l.orders q hlo
      have hfprice : ∀ f ∈ (sweep ok q (l.orders.map (toR p))).fills, f.price = p := by
        intro f hf
        obtain ⟨_, x, hx, hxp, _⟩ := sweep_prices ok _ q f hf
        obtain ⟨y, _, rfl⟩ := List.mem_map.1 hx
        exact hxp.symm
      have hlsum : 0 < sumQ l.orders := by
        have := (hlo.sum_eq_zero).not.2 hlne; omega
      rw [hsr] at hcons
      have htraded : fillSum (sweep ok q (l.orders.map (toR p))).fills = min q (sumQ l.orders) := by omega
      have hpos : 0 < min q (sumQ l.orders) := by omega
      have hfne : (sweep ok q (l.orders.map (toR p))).fills ≠ [] := by
        intro h; rw [h] at htraded; simp at htraded; omega
      obtain ⟨ls', rp', rmq, hrun, hkeys, hflat, hok', hrp, hrmq⟩ :=
        ih (Level.fillQ l.orders q).2.1
          (if sumQ (Level.fillQ l.orders q).1 = 0 then rp ++ [p] else rp)
          (ri ++ (Level.fillQ l.orders q).2.2) (hist ++ [(p, min q (sumQ l.orders))])
          (total - min q (sumQ l.orders)) hne hpw.2 (by omega)
      rw [hsr] at hsw
      rw [flat_cons, hsw, hsq]
      simp only
      refine ⟨(p, { l with orders := (Level.fillQ l.orders q).1, total := sumQ (Level.fillQ l.orders q).1 }) :: ls',
        (if sumQ (Level.fillQ l.orders q).1 = 0 then [p] else []) ++ rp',
        (Level.fillQ l.orders q).2.2.map (fun i => (i, p)) ++ rmq, ?_, by simp [hkeys], ?_, ?_, ?_, ?_⟩
      · simp only [sweepLoop, hp, hq, or_self, if_false, Bool.true_eq_false, Level.trade_eq m l q hlt,
          Res.bind_ok]
        have h1 : q - (Level.fillQ l.orders q).2.1 = min q (sumQ l.orders) := by omega
        simp only [h1, gt_iff_lt, hpos, if_true]
        rw [subU_ok (by omega)]
        simp only [Res.bind_ok, hrun]
        have hrep : report ((sweep ok q (l.orders.map (toR p))).fills ++
            (sweep ok (Level.fillQ l.orders q).2.1 (flat ls)).fills) =
            (p, min q (sumQ l.orders)) :: report (sweep ok (Level.fillQ l.orders q).2.1 (flat ls)).fills := by
          rw [report_block hfprice hfne, htraded]
          intro f hf
          obtain ⟨_, x, hx, hxp, _⟩ := sweep_prices ok _ _ f hf
          obtain ⟨e, he, hep, _⟩ := mem_flat.1 hx
          rw [← hxp, hep]; exact (hpw.1 e he).symm
        rw [hrep]
        simp only [fillSum_append, htraded, List.map_append, List.map_map]
        have : (Prod.fst ∘ fun i : Nat => (i, p)) = id := rfl
        rw [this, List.map_id]
        split <;> simp [Nat.sub_sub]
      · simp [hflat]
      · intro e he
        rcases List.mem_cons.1 he with rfl | he
        · exact ⟨hlp, hfp, rfl⟩
        · exact hok' e he
      · rw [hrp]
        simp only [hfp.sum_eq_zero, List.filter_cons, List.isEmpty_iff]
        split <;> simp
      · have e1 : (l.orders.map (toR p)).map (fun o => (o.id, o.price)) =
            (Level.fillQ l.orders q).2.2.map (fun i => (i, p)) ++
            ((Level.fillQ l.orders q).1.map (toR p)).map (fun o => (o.id, o.price)) := by
          have := congrArg (List.map (fun i => (i, p))) hfi
          simp only [List.map_append, List.map_map] at this ⊢
          exact this.symm
        have hemp : (Level.fillQ l.orders q).1 = [] ∨ (sweep ok (Level.fillQ l.orders q).2.1 (flat ls)).queue = flat ls ∧ rmq = [] := by
          by_cases h0 : (Level.fillQ l.orders q).1 = []
          · exact Or.inl h0
          · right
            have h1 := (hfp.sum_eq_zero).not.2 h0
            have h2 : (Level.fillQ l.orders q).2.1 = 0 := by omega
            rw [h2, sweep_zero]
            refine ⟨rfl, ?_⟩
            rw [h2, sweep_zero] at hrmq
            have := congrArg List.length hrmq
            simp at this
            exact this
        rw [List.map_append, List.map_append, e1]
        rcases hemp with h0 | ⟨h1, h2⟩
        · rw [h0]; simp [hrmq]
        · rw [h1, h2]; simp

end HalfBook
end Verif.TE

import Verif.Props.Feature
import Verif.Props.BookCore
import Mathlib.Algebra.BigOperators.Fin
import Mathlib.Algebra.BigOperators.Intervals
/-!
# C112, C113 (order flow imbalance), C114, C115 (exponentially weighted averages and sums), C116 (trade histories)
-/
set_option autoImplicit false
namespace Verif.Props
open Verif Verif.TE.Num Verif.TE.Clock Verif.TE.Id Verif.TE.Krx Verif.TE.Feature

/-! ## C112 -/

/-- Specification: the flow at a bid level (Cont, Kukanov, Stoikov): the new quantity counts unless the price fell, the old
quantity counts against it unless the price rose. -/
noncomputable def bidFlow (prev cur : Simple) : ℝ :=
  (if prev.price ≤ cur.price then cur.qty else 0) - (if cur.price ≤ prev.price then prev.qty else 0)

/-- Specification: the flow at an ask level. -/
noncomputable def askFlow (prev cur : Simple) : ℝ :=
  (if cur.price ≤ prev.price then cur.qty else 0) - (if prev.price ≤ cur.price then prev.qty else 0)

theorem levelCheck_ok (level : Nat) (f g : Quotes) (h0 : 0 < level) (hf : level ≤ f.cut) (hg : level ≤ g.cut) :
    levelCheck level f g = .ok () := by
  unfold levelCheck
  rw [if_neg (by omega), if_neg (by omega)]

/-- C112: levels count from one up to the smaller cut; any other level is refused by all six functions. -/
theorem C112_refused (f g : Quotes) (level : Nat) (h : level = 0 ∨ f.cut < level ∨ g.cut < level) :
    f.bidOfi level g = .error .err ∧ f.askOfi level g = .error .err ∧ f.ofi level g = .error .err ∧
    f.bidLnOfi level g = .error .err ∧ f.askLnOfi level g = .error .err ∧ f.lnOfi level g = .error .err := by
  have hc : levelCheck level f g = .error .err := by
    unfold levelCheck
    by_cases h0 : level = 0
    · rw [if_pos h0]
    · rw [if_neg h0, if_pos (by omega)]
  have h1 : f.bidOfi level g = .error .err := by unfold Quotes.bidOfi; rw [hc]; rfl
  have h2 : f.bidLnOfi level g = .error .err := by unfold Quotes.bidLnOfi; rw [hc]; rfl
  refine ⟨h1, ?_, ?_, h2, ?_, ?_⟩
  · unfold Quotes.askOfi; rw [hc]; rfl
  · unfold Quotes.ofi; rw [h1]; rfl
  · unfold Quotes.askLnOfi; rw [hc]; rfl
  · unfold Quotes.lnOfi; rw [h2]; rfl

/-- A feature that holds fewer levels than it counts (as those made with a capacity) panics. -/
theorem C112_short (f g : Quotes) (level : Nat) (h0 : 0 < level) (hf : level ≤ f.cut) (hg : level ≤ g.cut)
    (h : f.bids.length < level ∨ g.bids.length < level) : f.ofi level g = .error .index := by
  have : f.bidOfi level g = .error .index := by
    unfold Quotes.bidOfi
    rw [levelCheck_ok level f g h0 hf hg]
    simp only [Res.bind_ok]
    by_cases h1 : f.bids.length < level
    · rw [getL_none _ _ (by omega)]; rfl
    · rw [getL_ok _ _ (by omega), getL_none g.bids _ (by omega)]; rfl
  unfold Quotes.ofi
  rw [this]
  rfl

/-- The two levels compared. -/
structure At (f g : Quotes) (level : Nat) (pb cb pa ca : Simple) : Prop where
  pos : 0 < level
  cutF : level ≤ f.cut
  cutG : level ≤ g.cut
  prevBid : f.bids[level - 1]? = some pb
  curBid : g.bids[level - 1]? = some cb
  prevAsk : f.asks[level - 1]? = some pa
  curAsk : g.asks[level - 1]? = some ca

theorem getL_some {α : Type} (v : List α) (i : Nat) (x : α) (h : v[i]? = some x) : getL v i = .ok x := by
  unfold getL; rw [h]

theorem bidOfi_eq (f g : Quotes) (level : Nat) (pb cb pa ca : Simple) (h : At f g level pb cb pa ca) :
    f.bidOfi level g = .ok (bidFlow pb cb) := by
  unfold Quotes.bidOfi
  refine bind_of_ok (levelCheck_ok level f g h.pos h.cutF h.cutG) (bind_of_ok (getL_some _ _ _ h.prevBid)
    (bind_of_ok (getL_some _ _ _ h.curBid) ?_))
  unfold bidFlow
  rcases lt_trichotomy pb.price cb.price with h1 | h1 | h1
  · rw [if_pos h1, if_pos h1.le, if_neg (not_le.2 h1)]; simp
  · rw [if_neg (by rw [h1]; exact lt_irrefl _), if_pos h1.symm, if_pos h1.le, if_pos h1.ge]
  · rw [if_neg (not_lt.2 h1.le), if_neg h1.ne, if_neg (not_le.2 h1), if_pos h1.le]; simp

theorem askOfi_eq (f g : Quotes) (level : Nat) (pb cb pa ca : Simple) (h : At f g level pb cb pa ca) :
    f.askOfi level g = .ok (askFlow pa ca) := by
  unfold Quotes.askOfi
  refine bind_of_ok (levelCheck_ok level f g h.pos h.cutF h.cutG) (bind_of_ok (getL_some _ _ _ h.prevAsk)
    (bind_of_ok (getL_some _ _ _ h.curAsk) ?_))
  unfold askFlow
  rcases lt_trichotomy pa.price ca.price with h1 | h1 | h1
  · rw [if_pos h1, if_pos h1.le, if_neg (not_le.2 h1)]; simp
  · rw [if_neg (by rw [h1]; exact lt_irrefl _), if_pos h1.symm, if_pos h1.le, if_pos h1.ge]
  · rw [if_neg (not_lt.2 h1.le), if_neg h1.ne, if_neg (not_le.2 h1), if_pos h1.le]; simp

/-- C112: the imbalance of a level is the flow at the bid less the flow at the ask. -/
theorem C112_imbalance (f g : Quotes) (level : Nat) (pb cb pa ca : Simple) (h : At f g level pb cb pa ca) :
    f.bidOfi level g = .ok (bidFlow pb cb) ∧ f.askOfi level g = .ok (askFlow pa ca) ∧
      f.ofi level g = .ok (bidFlow pb cb - askFlow pa ca) :=
  ⟨bidOfi_eq f g level pb cb pa ca h, askOfi_eq f g level pb cb pa ca h,
    bind_of_ok (bidOfi_eq f g level pb cb pa ca h) (bind_of_ok (askOfi_eq f g level pb cb pa ca h) rfl)⟩

theorem At.swap {f g : Quotes} {level : Nat} {pb cb pa ca : Simple} (h : At f g level pb cb pa ca) :
    At g f level cb pb ca pa := ⟨h.pos, h.cutG, h.cutF, h.curBid, h.prevBid, h.curAsk, h.prevAsk⟩

/-- C112: going back undoes the imbalance of going there; staying gives none. -/
theorem C112_antisymmetric (f g : Quotes) (level : Nat) (pb cb pa ca : Simple) (h : At f g level pb cb pa ca) :
    (∃ x, f.ofi level g = .ok x ∧ g.ofi level f = .ok (-x)) ∧
    f.ofi level f = .ok 0 := by
  refine ⟨⟨_, (C112_imbalance f g level pb cb pa ca h).2.2, ?_⟩, ?_⟩
  · rw [(C112_imbalance g f level cb pb ca pa h.swap).2.2]
    refine congrArg Except.ok ?_
    unfold bidFlow askFlow
    ring
  · rw [(C112_imbalance f f level pb pb pa pa ⟨h.pos, h.cutF, h.cutF, h.prevBid, h.prevBid, h.prevAsk, h.prevAsk⟩).2.2]
    refine congrArg Except.ok ?_
    simp [bidFlow, askFlow]

/-- The sum of the imbalances along a series of quotes. -/
noncomputable def flowAlong (level : Nat) : Quotes → List Quotes → Res ℝ
  | _, [] => .ok 0
  | f, g :: l => do
    let x ← f.ofi level g
    let y ← flowAlong level g l
    .ok (x + y)

/-- Specification: bid and ask of a level. -/
def Quoted (level : Nat) (f : Quotes) (b a : Simple) : Prop :=
  0 < level ∧ level ≤ f.cut ∧ f.bids[level - 1]? = some b ∧ f.asks[level - 1]? = some a

/-- C112: while the prices of a level stay, the imbalances add up to the change of the bid quantity less the change of the
ask quantity. -/
theorem C112_telescopes (level : Nat) (l : List Quotes) : ∀ (f : Quotes) (b a : Simple), Quoted level f b a →
    (∀ g ∈ l, ∃ b' a', Quoted level g b' a' ∧ b'.price = b.price ∧ a'.price = a.price) →
    ∃ b' a', Quoted level ((f :: l).getLast (by simp)) b' a' ∧
      flowAlong level f l = .ok ((b'.qty - b.qty) - (a'.qty - a.qty)) := by
  induction l with
  | nil => intro f b a hs _; exact ⟨b, a, hs, by simp [flowAlong]⟩
  | cons g l ih =>
    intro f b a hs hl
    obtain ⟨b1, a1, h1, hb, ha⟩ := hl g List.mem_cons_self
    obtain ⟨b2, a2, h2, h3⟩ := ih g b1 a1 h1 (fun k hk => by
      obtain ⟨b', a', h, hb', ha'⟩ := hl k (List.mem_cons_of_mem _ hk)
      exact ⟨b', a', h, hb'.trans hb.symm, ha'.trans ha.symm⟩)
    refine ⟨b2, a2, by simpa using h2, ?_⟩
    unfold flowAlong
    refine bind_of_ok (C112_imbalance f g level b b1 a a1
      ⟨hs.1, hs.2.1, h1.2.1, hs.2.2.1, h1.2.2.1, hs.2.2.2, h1.2.2.2⟩).2.2 (bind_of_ok h3 ?_)
    refine congrArg Except.ok ?_
    unfold bidFlow askFlow
    rw [if_pos hb.ge, if_pos hb.le, if_pos ha.ge, if_pos ha.le]
    ring

/-- 12 bid at 99 instead of 10; 25 offered at 102 after 30 at 101 -/
noncomputable def laterQuotes : Quotes := ⟨[⟨99, 12⟩], [⟨102, 25⟩], 1, 1, 1, .bond⟩

theorem at_sample : At sampleQuotes laterQuotes 1 ⟨99, 10⟩ ⟨99, 12⟩ ⟨101, 30⟩ ⟨102, 25⟩ :=
  ⟨by norm_num, le_refl _, le_refl _, rfl, rfl, rfl, rfl⟩

-- two more bid, thirty taken from the offer
example : sampleQuotes.ofi 1 laterQuotes = .ok 32 := by
  rw [(C112_imbalance _ _ 1 _ _ _ _ at_sample).2.2]
  refine congrArg Except.ok ?_
  norm_num [bidFlow, askFlow]

/-! ## C113 -/

/-- Specification: the logarithmic flow at a bid level. -/
noncomputable def bidLnFlow (prev cur : Simple) : ℝ :=
  (if prev.price ≤ cur.price then Real.log cur.qty else 0) - (if cur.price ≤ prev.price then Real.log prev.qty else 0)

/-- Specification: the logarithmic flow at an ask level. -/
noncomputable def askLnFlow (prev cur : Simple) : ℝ :=
  (if cur.price ≤ prev.price then Real.log cur.qty else 0) - (if prev.price ≤ cur.price then Real.log prev.qty else 0)

theorem ln_ok (x : ℝ) (h : 0 < x) : ln x = .ok (Real.log x) := if_pos h

theorem ln_bad (x : ℝ) (h : x ≤ 0) : ln x = .error .nonfinite := if_neg (not_lt.2 h)

/-- C113: with positive quantities the logarithmic imbalance is the same flow with logarithms of quantities. -/
theorem C113_ln (f g : Quotes) (level : Nat) (pb cb pa ca : Simple) (h : At f g level pb cb pa ca)
    (h1 : 0 < pb.qty) (h2 : 0 < cb.qty) (h3 : 0 < pa.qty) (h4 : 0 < ca.qty) :
    f.bidLnOfi level g = .ok (bidLnFlow pb cb) ∧ f.askLnOfi level g = .ok (askLnFlow pa ca) ∧
      f.lnOfi level g = .ok (bidLnFlow pb cb - askLnFlow pa ca) := by
  have hb : f.bidLnOfi level g = .ok (bidLnFlow pb cb) := by
    unfold Quotes.bidLnOfi
    refine bind_of_ok (levelCheck_ok level f g h.pos h.cutF h.cutG) (bind_of_ok (getL_some _ _ _ h.prevBid)
      (bind_of_ok (getL_some _ _ _ h.curBid) ?_))
    unfold bidLnFlow
    rcases lt_trichotomy pb.price cb.price with e | e | e
    · rw [if_pos e, if_pos h2, ln_ok _ h2, if_pos e.le, if_neg (not_le.2 e)]; simp
    · rw [if_neg (by rw [e]; exact lt_irrefl _), if_pos e.symm, if_pos h1, ln_ok _ (div_pos h2 h1), if_pos e.le, if_pos e.ge,
        Real.log_div h2.ne' h1.ne']
    · rw [if_neg (not_lt.2 e.le), if_neg e.ne, if_pos h2, ln_ok _ h1, if_neg (not_le.2 e), if_pos e.le]; simp
  have ha : f.askLnOfi level g = .ok (askLnFlow pa ca) := by
    unfold Quotes.askLnOfi
    refine bind_of_ok (levelCheck_ok level f g h.pos h.cutF h.cutG) (bind_of_ok (getL_some _ _ _ h.prevAsk)
      (bind_of_ok (getL_some _ _ _ h.curAsk) ?_))
    unfold askLnFlow
    rcases lt_trichotomy pa.price ca.price with e | e | e
    · rw [if_pos e, if_pos h4, ln_ok _ h3, if_pos e.le, if_neg (not_le.2 e)]; simp
    · rw [if_neg (by rw [e]; exact lt_irrefl _), if_pos e.symm, if_pos h3, ln_ok _ (div_pos h4 h3), if_pos e.le, if_pos e.ge,
        Real.log_div h4.ne' h3.ne']
    · rw [if_neg (not_lt.2 e.le), if_neg e.ne, if_pos h4, ln_ok _ h4, if_neg (not_le.2 e), if_pos e.le]; simp
  exact ⟨hb, ha, bind_of_ok hb (bind_of_ok ha rfl)⟩

/-- C113: with positive quantities going back undoes the imbalance of going there. -/
theorem C113_antisymmetric (f g : Quotes) (level : Nat) (pb cb pa ca : Simple) (h : At f g level pb cb pa ca)
    (h1 : 0 < pb.qty) (h2 : 0 < cb.qty) (h3 : 0 < pa.qty) (h4 : 0 < ca.qty) :
    ∃ x, f.lnOfi level g = .ok x ∧ g.lnOfi level f = .ok (-x) := by
  refine ⟨_, (C113_ln f g level pb cb pa ca h h1 h2 h3 h4).2.2, ?_⟩
  rw [(C113_ln g f level cb pb ca pa h.swap h2 h1 h4 h3).2.2]
  refine congrArg Except.ok ?_
  unfold bidLnFlow askLnFlow
  ring

/-- C113, quantities of zero: the guards test the new quantity, so the flow of a level is infinite exactly when a quantity
appears where none was and the price moved away from the market (bid down, ask up), or when the last quantity of an
unmoved price disappears; in all other cases with a zero the flow is what is finite of it. -/
theorem C113_bid_infinite (f g : Quotes) (level : Nat) (pb cb pa ca : Simple) (h : At f g level pb cb pa ca)
    (h1 : 0 ≤ pb.qty) (h2 : 0 ≤ cb.qty) : f.bidLnOfi level g = .error .nonfinite ↔
      (cb.price < pb.price ∧ pb.qty = 0 ∧ 0 < cb.qty) ∨ (cb.price = pb.price ∧ 0 < pb.qty ∧ cb.qty = 0) := by
  have e0 : f.bidLnOfi level g = (if cb.price > pb.price then
      if cb.qty > 0 then ln cb.qty else .ok 0
    else if cb.price = pb.price then
      if pb.qty > 0 then ln (cb.qty / pb.qty) else .ok 0
    else if cb.qty > 0 then do
      let x ← ln pb.qty
      .ok (-x)
    else .ok 0) := by
    unfold Quotes.bidLnOfi
    exact bind_of_ok (levelCheck_ok level f g h.pos h.cutF h.cutG) (bind_of_ok (getL_some _ _ _ h.prevBid)
      (bind_of_ok (getL_some _ _ _ h.curBid) rfl))
  rw [e0]
  rcases lt_trichotomy pb.price cb.price with e | e | e
  · rw [if_pos e]
    have : ¬ ((cb.price < pb.price ∧ pb.qty = 0 ∧ 0 < cb.qty) ∨ (cb.price = pb.price ∧ 0 < pb.qty ∧ cb.qty = 0)) := by
      rintro (⟨h, _⟩ | ⟨h, _⟩) <;> linarith
    refine ⟨fun hh => ?_, fun hh => absurd hh this⟩
    split at hh
    · rename_i hq; rw [ln_ok _ hq] at hh; simp at hh
    · simp at hh
  · rw [if_neg (by rw [e]; exact lt_irrefl _), if_pos e.symm]
    by_cases hq : pb.qty > 0
    · rw [if_pos hq]
      rcases h2.eq_or_lt with hz | hz
      · rw [← hz]
        rw [ln_bad _ (by simp)]
        exact ⟨fun _ => Or.inr ⟨e.symm, hq, rfl⟩, fun _ => rfl⟩
      · rw [ln_ok _ (div_pos hz hq)]
        refine ⟨fun hh => by simp at hh, ?_⟩
        rintro (⟨h, _⟩ | ⟨_, _, h⟩) <;> linarith
    · rw [if_neg hq]
      refine ⟨fun hh => by simp at hh, ?_⟩
      rintro (⟨h, _⟩ | ⟨_, h, _⟩)
      · linarith
      · exact absurd h hq
  · rw [if_neg (not_lt.2 e.le), if_neg e.ne]
    by_cases hq : cb.qty > 0
    · rw [if_pos hq]
      rcases h1.eq_or_lt with hz | hz
      · rw [← hz, ln_bad _ (le_refl _)]
        exact ⟨fun _ => Or.inl ⟨e, rfl, hq⟩, fun _ => rfl⟩
      · rw [ln_ok _ hz]
        refine ⟨fun hh => by simp at hh, ?_⟩
        rintro (⟨_, h, _⟩ | ⟨h, _⟩) <;> linarith
    · rw [if_neg hq]
      refine ⟨fun hh => by simp at hh, ?_⟩
      rintro (⟨_, _, h⟩ | ⟨h, _⟩)
      · exact absurd h hq
      · linarith

/-- C113, the same for the ask. -/
theorem C113_ask_infinite (f g : Quotes) (level : Nat) (pb cb pa ca : Simple) (h : At f g level pb cb pa ca)
    (h1 : 0 ≤ pa.qty) (h2 : 0 ≤ ca.qty) : f.askLnOfi level g = .error .nonfinite ↔
      (pa.price < ca.price ∧ pa.qty = 0 ∧ 0 < ca.qty) ∨ (ca.price = pa.price ∧ 0 < pa.qty ∧ ca.qty = 0) := by
  have e0 : f.askLnOfi level g = (if ca.price > pa.price then
      if ca.qty > 0 then do
        let x ← ln pa.qty
        .ok (-x)
      else .ok 0
    else if ca.price = pa.price then
      if pa.qty > 0 then ln (ca.qty / pa.qty) else .ok 0
    else if ca.qty > 0 then ln ca.qty else .ok 0) := by
    unfold Quotes.askLnOfi
    exact bind_of_ok (levelCheck_ok level f g h.pos h.cutF h.cutG) (bind_of_ok (getL_some _ _ _ h.prevAsk)
      (bind_of_ok (getL_some _ _ _ h.curAsk) rfl))
  rw [e0]
  rcases lt_trichotomy pa.price ca.price with e | e | e
  · rw [if_pos e]
    by_cases hq : ca.qty > 0
    · rw [if_pos hq]
      rcases h1.eq_or_lt with hz | hz
      · rw [← hz, ln_bad _ (le_refl _)]
        exact ⟨fun _ => Or.inl ⟨e, rfl, hq⟩, fun _ => rfl⟩
      · rw [ln_ok _ hz]
        refine ⟨fun hh => by simp at hh, ?_⟩
        rintro (⟨_, h, _⟩ | ⟨h, _⟩) <;> linarith
    · rw [if_neg hq]
      refine ⟨fun hh => by simp at hh, ?_⟩
      rintro (⟨_, _, h⟩ | ⟨h, _⟩)
      · exact absurd h hq
      · linarith
  · rw [if_neg (by rw [e]; exact lt_irrefl _), if_pos e.symm]
    by_cases hq : pa.qty > 0
    · rw [if_pos hq]
      rcases h2.eq_or_lt with hz | hz
      · rw [← hz]
        rw [ln_bad _ (by simp)]
        exact ⟨fun _ => Or.inr ⟨e.symm, hq, rfl⟩, fun _ => rfl⟩
      · rw [ln_ok _ (div_pos hz hq)]
        refine ⟨fun hh => by simp at hh, ?_⟩
        rintro (⟨h, _⟩ | ⟨_, _, h⟩) <;> linarith
    · rw [if_neg hq]
      refine ⟨fun hh => by simp at hh, ?_⟩
      rintro (⟨h, _⟩ | ⟨_, h, _⟩)
      · linarith
      · exact absurd h hq
  · rw [if_neg (not_lt.2 e.le), if_neg e.ne]
    have : ¬ ((pa.price < ca.price ∧ pa.qty = 0 ∧ 0 < ca.qty) ∨ (ca.price = pa.price ∧ 0 < pa.qty ∧ ca.qty = 0)) := by
      rintro (⟨h, _⟩ | ⟨h, _⟩) <;> linarith
    refine ⟨fun hh => ?_, fun hh => absurd hh this⟩
    split at hh
    · rename_i hq; rw [ln_ok _ hq] at hh; simp at hh
    · simp at hh

example : ∃ x, sampleQuotes.lnOfi 1 laterQuotes = .ok x ∧ laterQuotes.lnOfi 1 sampleQuotes = .ok (-x) :=
  C113_antisymmetric _ _ 1 _ _ _ _ at_sample (by norm_num) (by norm_num) (by norm_num) (by norm_num)

end Verif.Props

import Verif.QL.Portfolio
import Mathlib.Data.List.Nodup
import Mathlib.Data.List.Perm.Basic
/-!
# C79-C82, C84: lists of instruments, what they need, and how they are grouped
-/
set_option autoImplicit false
set_option linter.unusedTactic false
set_option linter.unreachableTactic false
set_option linter.unnecessarySeqFocus false
namespace Verif.Props
open Verif Verif.QL

/-! ## Specification -/

/-- The list without what has been seen before: the first of each, in order. -/
def firsts {α : Type} [DecidableEq α] : List α → List α
  | [] => []
  | x :: r => x :: (firsts r).filter fun y => decide (y ≠ x)

/-- `s` is what is left of `l` when everything without `p` is struck out. -/
inductive Selects {α : Type} (p : α → Prop) : List α → List α → Prop
  | nil : Selects p [] []
  | keep {x l s} : p x → Selects p l s → Selects p (x :: l) (x :: s)
  | drop {x l s} : ¬ p x → Selects p l s → Selects p (x :: l) s

/-! ## Helpers -/

theorem selects_filter {α : Type} (p : α → Bool) (q : α → Prop) (hq : ∀ x, p x = true ↔ q x) :
    ∀ l : List α, Selects q l (l.filter p)
  | [] => .nil
  | x :: r => by
    rw [List.filter_cons]
    split
    · rename_i h
      exact .keep ((hq x).1 h) (selects_filter p q hq r)
    · rename_i h
      exact .drop (fun hx => h ((hq x).2 hx)) (selects_filter p q hq r)

theorem Selects.mem {α : Type} {p : α → Prop} {l s : List α} (h : Selects p l s) (x : α) : x ∈ s ↔ x ∈ l ∧ p x := by
  induction h with
  | nil => simp
  | keep hp _ ih => 
    rename_i y _ _ _
    constructor
    · intro hx
      rcases List.mem_cons.1 hx with rfl | hx
      · exact ⟨List.mem_cons_self, hp⟩
      · exact ⟨List.mem_cons_of_mem _ (ih.1 hx).1, (ih.1 hx).2⟩
    · rintro ⟨hx, hpx⟩
      rcases List.mem_cons.1 hx with rfl | hx
      · exact List.mem_cons_self
      · exact List.mem_cons_of_mem _ (ih.2 ⟨hx, hpx⟩)
  | drop hp _ ih =>
    constructor
    · intro hx
      exact ⟨List.mem_cons_of_mem _ (ih.1 hx).1, (ih.1 hx).2⟩
    · rintro ⟨hx, hpx⟩
      rcases List.mem_cons.1 hx with rfl | hx
      · exact absurd hpx hp
      · exact ih.2 ⟨hx, hpx⟩

section
variable {α : Type} [DecidableEq α]

theorem mem_firsts (x : α) : ∀ l : List α, x ∈ firsts l ↔ x ∈ l
  | [] => by simp [firsts]
  | y :: r => by
    unfold firsts
    rw [List.mem_cons, List.mem_cons, List.mem_filter, mem_firsts x r]
    by_cases h : x = y <;> simp [h]

theorem nodup_firsts : ∀ l : List α, (firsts l).Nodup
  | [] => by simp [firsts]
  | y :: r => by
    unfold firsts
    rw [List.nodup_cons]
    exact ⟨by simp, (nodup_firsts r).filter _⟩

theorem addNew_eq : ∀ (l acc : List α), addNew acc l = acc ++ (firsts l).filter fun y => decide (y ∉ acc)
  | [], acc => by simp [addNew, firsts]
  | x :: r, acc => by
    unfold addNew firsts
    split
    · rename_i h
      rw [addNew_eq r acc, List.filter_cons, if_neg (by simpa using h), List.filter_filter]
      congr 1
      apply List.filter_congr
      intro y _
      by_cases hy : y = x
      · subst hy; simp [h]
      · simp [hy]
    · rename_i h
      rw [addNew_eq r, List.filter_cons, if_pos (by simpa using h), List.filter_filter, List.append_assoc]
      congr 1
      rw [List.singleton_append]
      congr 1
      apply List.filter_congr
      intro y _
      simp [List.mem_append]

theorem addNew_append (l₁ l₂ acc : List α) : addNew acc (l₁ ++ l₂) = addNew (addNew acc l₁) l₂ := by
  induction l₁ generalizing acc with
  | nil => rfl
  | cons x r ih =>
    rw [List.cons_append]
    simp only [addNew]
    split <;> exact ih _

theorem collect_eq (f : Instr → List α) : ∀ (l : List Instr) (acc : List α), collect f acc l = addNew acc (l.flatMap f)
  | [], acc => by simp [collect, addNew]
  | i :: r, acc => by
    rw [collect, collect_eq f r, List.flatMap_cons, addNew_append]

theorem addNew_nil (l : List α) : addNew [] l = firsts l := by
  rw [addNew_eq]; simp

theorem collect_firsts (f : Instr → List α) (l : List Instr) : collect f [] l = firsts (l.flatMap f) := by
  rw [collect_eq, addNew_nil]

theorem firsts_append (l₁ l₂ : List α) : firsts l₁ <+: firsts (l₁ ++ l₂) := by
  rw [← addNew_nil, ← addNew_nil, addNew_append, addNew_eq l₂]
  exact List.prefix_append _ _

end

/-! ## C79 -/

/-- C79 (the lists of a portfolio). The underlyings, currency pairs, underlyings with volatility, quantos and type names of a
portfolio are those of its instruments, each once, in the order in which they come up first; adding instruments at the end
leaves the beginning of the lists as it is. -/
theorem C79_lists (l : List Instr) :
    (allUnds l = firsts (l.flatMap Instr.unds)) ∧ (allFxCodes l = firsts (l.flatMap Instr.fxCodes)) ∧
    (allVolUnds l = firsts (l.flatMap Instr.volUnds)) ∧ (allQuantos l = firsts (l.flatMap Instr.quantos)) ∧
    (allTypes l = firsts (l.map Instr.typeName)) := by
  refine ⟨collect_firsts _ l, collect_firsts _ l, collect_firsts _ l, collect_firsts _ l, ?_⟩
  rw [allTypes, collect_firsts, List.map_eq_flatMap]

/-- C79 (what such a list is): no name twice, exactly the given names, and a longer list begins the same way. -/
theorem C79_firsts {α : Type} [DecidableEq α] (l m : List α) :
    (firsts l).Nodup ∧ (∀ x, x ∈ firsts l ↔ x ∈ l) ∧ firsts l <+: firsts (l ++ m) :=
  ⟨nodup_firsts l, fun x => mem_firsts x l, firsts_append l m⟩

/-- C79 (each instrument). What the instruments name: an underlying exactly the futures, options and stocks; volatility
exactly the options; a quanto exactly the options paid in another currency than their underlying's; a currency pair the FX
futures and the swaps with two currencies. -/
theorem C79_each (i : Instr) :
    (i.unds ≠ [] ↔ i.typeName ∈ ["Futures", "VanillaCall", "VanillaPut", "Stock"]) ∧
    (i.volUnds ≠ [] ↔ i.typeName ∈ ["VanillaCall", "VanillaPut"]) ∧ (∀ u, u ∈ i.volUnds → u ∈ i.unds) ∧
    (∀ u c, (u, c) ∈ i.quantos → u ∈ i.unds ∧ c.ccy2 = i.ccy ∧ c.ccy1 ≠ c.ccy2) ∧
    (∀ c ∈ i.fxCodes, i.typeName ∈ ["FxFutures", "IRS", "CRS", "FxSwap", "FxForward", "FxSpot"]) := by
  obtain ⟨code, k, ccy, n, m, rest⟩ := i
  cases k <;> simp [Instr.unds, Instr.typeName, Instr.volUnds, Instr.quantos, Instr.fxCodes]
  case swap t a b x =>
    cases t <;> simp [SwapType.asStr]
  case option c u uc s =>
    cases c <;> simp
    all_goals
      rintro u' c' h rfl rfl
      exact ⟨rfl, rfl, fun e => h e.symm⟩

/-! ## C80 -/

/-- C80 (selections). The instruments with an underlying, with a currency, of given types, maturing up to or after a date:
each selection keeps exactly the instruments meant, in their order. An instrument without maturity counts as maturing after
every date. -/
theorem C80_selections (l : List Instr) (u : String) (c : Currency) (ts excl : List String) (d : DT) :
    Selects (fun i => u ∈ i.unds ∧ i.typeName ∉ excl) l (withUnderlying l u excl) ∧
    Selects (fun i => i.ccy = c) l (withCurrency l c) ∧
    Selects (fun i => i.typeName ∈ ts) l (withTypes l ts) ∧
    Selects (fun i => i.typeName ∉ excl ∧ ∃ m, i.maturity = some m ∧ m.instant ≤ d.instant) l (maturityUpto l d excl) ∧
    Selects (fun i => i.typeName ∉ excl ∧ ∀ m, i.maturity = some m → d.instant < m.instant) l (maturityOver l d excl) := by
  refine ⟨selects_filter _ _ (fun i => ?_) l, selects_filter _ _ (fun i => ?_) l, selects_filter _ _ (fun i => ?_) l,
    selects_filter _ _ (fun i => ?_) l, selects_filter _ _ (fun i => ?_) l⟩
  · simp
  · simp
  · simp
  · cases h : i.maturity <;> simp
  · cases h : i.maturity <;> simp

/-- C80 (no instrument is lost). Up to a date and after it together are exactly the instruments not excluded. -/
theorem C80_split (l : List Instr) (d : DT) (excl : List String) :
    (maturityUpto l d excl ++ maturityOver l d excl).Perm (l.filter fun i => decide (i.typeName ∉ excl)) ∧
    ∀ i, i ∈ maturityUpto l d excl → i ∉ maturityOver l d excl := by
  constructor
  · induction l with
    | nil => simp [maturityUpto, maturityOver]
    | cons x r ih =>
      simp only [maturityUpto, maturityOver, List.filter_cons] at ih ⊢
      by_cases he : x.typeName ∈ excl
      · simpa [he] using ih
      · cases hm : x.maturity with
        | none => 
          simp only [he, decide_false, decide_true, Bool.not_false, Bool.and_false, Bool.and_true, if_true, Bool.false_eq_true, if_false, not_false_eq_true]
          exact (List.perm_middle).trans (ih.cons x)
        | some m =>
          by_cases hle : m.instant ≤ d.instant
          · have : ¬ m.instant > d.instant := by omega
            simp only [he, hle, this, decide_false, decide_true, Bool.not_false, Bool.and_false, Bool.and_true, if_true, Bool.false_eq_true, if_false, not_false_eq_true]
            exact ih.cons x
          · have h2 : m.instant > d.instant := by omega
            simp only [he, hle, h2, decide_false, decide_true, Bool.not_false, Bool.and_false, Bool.and_true, if_true, Bool.false_eq_true, if_false, not_false_eq_true]
            exact (List.perm_middle).trans (ih.cons x)
  · intro i h1 h2
    have s := C80_selections l "" .krw [] excl d
    obtain ⟨-, -, m, hm, hle⟩ := (s.2.2.2.1.mem i).1 h1
    obtain ⟨-, -, h⟩ := (s.2.2.2.2.mem i).1 h2
    have := h m hm
    omega

theorem shortestLoop_spec : ∀ (l : List Instr) (acc : Option DT),
    (shortestLoop acc l = none ↔ acc = none ∧ ∀ i ∈ l, i.maturity = none) ∧
    (∀ m, shortestLoop acc l = some m → (acc = some m ∨ ∃ i ∈ l, i.maturity = some m) ∧
      (∀ a, acc = some a → m.instant ≤ a.instant) ∧ ∀ i ∈ l, ∀ n, i.maturity = some n → m.instant ≤ n.instant)
  | [], acc => by
    simp only [shortestLoop]
    refine ⟨by simp, fun m h => ⟨.inl h, fun a ha => ?_, by simp⟩⟩
    rw [h] at ha; cases ha; exact le_refl _
  | i :: r, acc => by
    unfold shortestLoop
    cases hm : i.maturity with
    | none =>
      obtain ⟨h1, h2⟩ := shortestLoop_spec r acc
      refine ⟨by simpa [hm] using h1, fun m h => ?_⟩
      obtain ⟨a, b, c⟩ := h2 m h
      refine ⟨?_, b, ?_⟩
      · rcases a with a | ⟨j, hj, e⟩
        · exact .inl a
        · exact .inr ⟨j, List.mem_cons_of_mem _ hj, e⟩
      · intro j hj n hn
        rcases List.mem_cons.1 hj with rfl | hj
        · rw [hm] at hn; cases hn
        · exact c j hj n hn
    | some x =>
      have step : ∀ y : DT, (y = x ∨ acc = some y) → y.instant ≤ x.instant → (∀ a, acc = some a → y.instant ≤ a.instant) →
          (shortestLoop (some y) r = none ↔ acc = none ∧ ∀ j ∈ i :: r, j.maturity = none) ∧
          (∀ m, shortestLoop (some y) r = some m → (acc = some m ∨ ∃ j ∈ i :: r, j.maturity = some m) ∧
            (∀ a, acc = some a → m.instant ≤ a.instant) ∧ ∀ j ∈ i :: r, ∀ n, j.maturity = some n → m.instant ≤ n.instant) := by
        intro y hy hx ha
        obtain ⟨h1, h2⟩ := shortestLoop_spec r (some y)
        refine ⟨?_, fun m h => ?_⟩
        · rw [h1]
          simp [hm]
        · obtain ⟨a, b, c⟩ := h2 m h
          have hb := b y rfl
          refine ⟨?_, fun a' ha' => le_trans hb (ha a' ha'), ?_⟩
          · rcases a with a | ⟨j, hj, e⟩
            · cases a
              rcases hy with rfl | hy
              · exact .inr ⟨i, List.mem_cons_self, hm⟩
              · exact .inl hy
            · exact .inr ⟨j, List.mem_cons_of_mem _ hj, e⟩
          · intro j hj n hn
            rcases List.mem_cons.1 hj with rfl | hj
            · rw [hm] at hn; cases hn
              omega
            · exact c j hj n hn
      cases acc with
      | none => exact step x (.inl rfl) (le_refl _) (by simp)
      | some s =>
        dsimp only
        split
        · rename_i hlt
          exact step x (.inl rfl) (le_refl _) (by rintro a ⟨⟩; omega)
        · rename_i hlt
          exact step s (.inr rfl) (by omega) (by rintro a ⟨⟩; exact le_refl _)

theorem longestLoop_spec : ∀ (l : List Instr) (acc : Option DT),
    (longestLoop acc l = none ↔ (acc = none ∧ l = []) ∨ ∃ i ∈ l, i.maturity = none) ∧
    (∀ m, longestLoop acc l = some m → (acc = some m ∨ ∃ i ∈ l, i.maturity = some m) ∧
      (∀ a, acc = some a → a.instant ≤ m.instant) ∧ ∀ i ∈ l, ∃ n, i.maturity = some n ∧ n.instant ≤ m.instant)
  | [], acc => by
    simp only [longestLoop]
    refine ⟨by simp, fun m h => ⟨.inl h, fun a ha => ?_, by simp⟩⟩
    rw [h] at ha; cases ha; exact le_refl _
  | i :: r, acc => by
    unfold longestLoop
    cases hm : i.maturity with
    | none =>
      refine ⟨by simp [hm], fun m h => by cases h⟩
    | some x =>
      have step : ∀ y : DT, (y = x ∨ acc = some y) → x.instant ≤ y.instant → (∀ a, acc = some a → a.instant ≤ y.instant) →
          (longestLoop (some y) r = none ↔ (acc = none ∧ i :: r = []) ∨ ∃ j ∈ i :: r, j.maturity = none) ∧
          (∀ m, longestLoop (some y) r = some m → (acc = some m ∨ ∃ j ∈ i :: r, j.maturity = some m) ∧
            (∀ a, acc = some a → a.instant ≤ m.instant) ∧ ∀ j ∈ i :: r, ∃ n, j.maturity = some n ∧ n.instant ≤ m.instant) := by
        intro y hy hx ha
        obtain ⟨h1, h2⟩ := longestLoop_spec r (some y)
        refine ⟨?_, fun m h => ?_⟩
        · rw [h1]
          simp [hm]
        · obtain ⟨a, b, c⟩ := h2 m h
          have hb := b y rfl
          refine ⟨?_, fun a' ha' => le_trans (ha a' ha') hb, ?_⟩
          · rcases a with a | ⟨j, hj, e⟩
            · cases a
              rcases hy with rfl | hy
              · exact .inr ⟨i, List.mem_cons_self, hm⟩
              · exact .inl hy
            · exact .inr ⟨j, List.mem_cons_of_mem _ hj, e⟩
          · intro j hj
            rcases List.mem_cons.1 hj with rfl | hj
            · exact ⟨x, hm, le_trans hx hb⟩
            · exact c j hj
      cases acc with
      | none => exact step x (.inl rfl) (le_refl _) (by simp)
      | some s =>
        dsimp only
        split
        · rename_i hlt
          exact step x (.inl rfl) (le_refl _) (by rintro a ⟨⟩; omega)
        · rename_i hlt
          exact step s (.inr rfl) (by omega) (by rintro a ⟨⟩; exact le_refl _)

/-- C80 (shortest maturity). It is the earliest maturity of the instruments that have one; none if none has. -/
theorem C80_shortest (l : List Instr) :
    (shortestMaturity l = none ↔ ∀ i ∈ l, i.maturity = none) ∧
    (∀ m, shortestMaturity l = some m → (∃ i ∈ l, i.maturity = some m) ∧
      ∀ i ∈ l, ∀ n, i.maturity = some n → m.instant ≤ n.instant) := by
  obtain ⟨h1, h2⟩ := shortestLoop_spec l none
  refine ⟨by simpa [shortestMaturity] using h1, fun m h => ?_⟩
  obtain ⟨a, -, c⟩ := h2 m h
  exact ⟨by simpa using a, c⟩

/-- C80 (longest maturity). It is the latest maturity, if there are instruments and every one has a maturity; a single
instrument without maturity makes it none. -/
theorem C80_longest (l : List Instr) :
    (longestMaturity l = none ↔ l = [] ∨ ∃ i ∈ l, i.maturity = none) ∧
    (∀ m, longestMaturity l = some m → (∃ i ∈ l, i.maturity = some m) ∧
      ∀ i ∈ l, ∃ n, i.maturity = some n ∧ n.instant ≤ m.instant) := by
  obtain ⟨h1, h2⟩ := longestLoop_spec l none
  refine ⟨by simpa [longestMaturity] using h1, fun m h => ?_⟩
  obtain ⟨a, -, c⟩ := h2 m h
  exact ⟨by simpa using a, c⟩

/-! ## C81 -/

/-- The currencies named by an instrument as the code reads them: its own, and its underlying's for futures only. -/
def namedCurrencies (i : Instr) : List Currency :=
  match i.kind with
  | .futures _ c => [i.ccy, c]
  | .fxFutures c _ => [i.ccy, c]
  | _ => [i.ccy]

theorem currencies_eq (i : Instr) : i.currencies = .ok (namedCurrencies i) := by
  obtain ⟨code, k, ccy, n, m, rest⟩ := i
  cases k <;> simp [Instr.currencies, Instr.typeName, namedCurrencies]
  case swap t a b x => cases t <;> simp [SwapType.asStr]
  case option c u uc s => cases c <;> simp

theorem allCurrencies_eq : ∀ (l : List Instr) (acc : List Currency),
    allCurrencies acc l = .ok (addNew acc (l.flatMap namedCurrencies))
  | [], acc => by simp [allCurrencies, addNew]
  | i :: r, acc => by
    rw [allCurrencies, currencies_eq, Res.bind_ok, allCurrencies_eq r, List.flatMap_cons, addNew_append]

/-- C81 (currencies). `get_all_currencies` never fails: it lists the currency of every instrument and the currency of the
underlying of every future (on stocks or currencies), each once, in the order in which they come up first. -/
theorem C81_currencies (l : List Instr) : allCurrencies [] l = .ok (firsts (l.flatMap namedCurrencies)) := by
  rw [allCurrencies_eq, addNew_nil]

/-- C81 (what is left out). The floating currency of a swap and the underlying's currency of an option are not listed:
whatever the portfolio, if all of it are swaps and options, exactly their own currencies are. -/
theorem fault_currencies_left_out (l : List Instr)
    (h : ∀ i ∈ l, (∃ t a b x, i.kind = .swap t a b x) ∨ ∃ c u uc s, i.kind = .option c u uc s) :
    allCurrencies [] l = .ok (firsts (l.map Instr.ccy)) := by
  rw [C81_currencies, List.map_eq_flatMap]
  refine congrArg Except.ok (congrArg firsts ?_)
  apply List.flatMap_congr
  intro i hi
  rcases h i hi with ⟨t, a, b, x, e⟩ | ⟨c, u, uc, s, e⟩ <;> simp [namedCurrencies, e]

/-! ## C82 -/

/-- Specification: the curves an instrument is valued with, one entry per role; `none` where a name is asked for and not
given. A bond without discount curve name is let through. The index of a swap has two roles: discounting and fixing. -/
def curveRoles (p : MatchParam) (i : Instr) : List (Option String) :=
  match i.kind with
  | .futures u _ => [p.collateral u]
  | .stock u => [p.collateral u]
  | .option _ u _ settled => (if settled then [] else [p.funding i.ccy]) ++ [p.collateral u]
  | .bond n t r x =>
    (match p.bondDiscount (n, t, r, i.ccy) with | some d => [some d] | none => []) ++
    (match x with | some x => [p.rateForward x.code] | none => [])
  | .swap t a b x =>
    (match x with | some x => [p.rateForward x.code, p.rateForward x.code] | none => []) ++
    (if t = .irs then [] else [p.crs a, p.crs b])
  | .fxFutures c _ => [p.crs i.ccy, p.crs c]
  | .bondFutures => []
  | .ktbf _ => []
  | .cash => []

/-- Every name asked for is given. -/
def CurvesNamed (p : MatchParam) (i : Instr) : Prop := none ∉ curveRoles p i

theorem orErr_ok {α : Type} (o : Option α) (x : α) : orErr o = .ok x ↔ o = some x := by
  cases o <;> simp [orErr]

/-- The names looked up, in order -/
def flatNames (n : String × List String × String × String × String) : List String :=
  [n.1] ++ n.2.1 ++ [n.2.2.1, n.2.2.2.1, n.2.2.2.2]

theorem names_cases (p : MatchParam) (i : Instr) :
    (∃ n, p.names i = .ok n ∧ n.2.1.length ≤ 1 ∧ CurvesNamed p i ∧
      (flatNames n).filter (fun x => decide (x ≠ dummy)) =
        ((curveRoles p i).filterMap id).filter fun x => decide (x ≠ dummy)) ∨
    (p.names i = .error .err ∧ ¬ CurvesNamed p i) := by
  obtain ⟨code, k, ccy, n, m, rest⟩ := i
  cases k with
  | futures u c =>
    cases h : p.collateral u <;>
      simp [MatchParam.names, MatchParam.discountName, MatchParam.collateralNames, MatchParam.rateIndexName, MatchParam.crsName,
        MatchParam.floatCrsName, Instr.unds, mapRes, orErr, h, CurvesNamed, curveRoles, flatNames] <;> simp [List.filter_cons]
  | stock u => 
    cases h : p.collateral u <;>
      simp [MatchParam.names, MatchParam.discountName, MatchParam.collateralNames, MatchParam.rateIndexName, MatchParam.crsName,
        MatchParam.floatCrsName, Instr.unds, mapRes, orErr, h, CurvesNamed, curveRoles, flatNames] <;> simp [List.filter_cons]
  | option c u uc st =>
    cases h : p.collateral u <;> cases st <;> cases h2 : p.funding ccy <;>
      simp [MatchParam.names, MatchParam.discountName, MatchParam.collateralNames, MatchParam.rateIndexName, MatchParam.crsName,
        MatchParam.floatCrsName, Instr.unds, mapRes, orErr, h, h2, CurvesNamed, curveRoles, flatNames] <;> simp [List.filter_cons]
  | bond a b c x =>
    cases x with
    | none =>
      cases h : p.bondDiscount (a, b, c, ccy) <;>
      simp [MatchParam.names, MatchParam.discountName, MatchParam.collateralNames, MatchParam.rateIndexName, MatchParam.crsName,
        MatchParam.floatCrsName, MatchParam.indexName, Instr.unds, mapRes, orErr, h, CurvesNamed, curveRoles, flatNames] <;> simp [List.filter_cons]
    | some x =>
      cases h : p.bondDiscount (a, b, c, ccy) <;> cases h2 : p.rateForward x.code <;>
      simp [MatchParam.names, MatchParam.discountName, MatchParam.collateralNames, MatchParam.rateIndexName, MatchParam.crsName,
        MatchParam.floatCrsName, MatchParam.indexName, Instr.unds, mapRes, orErr, h, h2, CurvesNamed, curveRoles, flatNames] <;> simp [List.filter_cons]
  | swap t a b x =>
    by_cases ht : t = .irs
    · cases x with
      | none =>
        simp [MatchParam.names, MatchParam.discountName, MatchParam.collateralNames, MatchParam.rateIndexName, MatchParam.crsName,
          MatchParam.floatCrsName, MatchParam.indexName, Instr.unds, mapRes, ht, CurvesNamed, curveRoles, flatNames]
      | some x =>
        cases h2 : p.rateForward x.code <;>
        simp [MatchParam.names, MatchParam.discountName, MatchParam.collateralNames, MatchParam.rateIndexName, MatchParam.crsName,
          MatchParam.floatCrsName, MatchParam.indexName, Instr.unds, mapRes, orErr, ht, h2, CurvesNamed, curveRoles, flatNames] <;> simp [List.filter_cons]
    · cases x with
      | none =>
        cases h3 : p.crs a <;> cases h4 : p.crs b <;>
        simp [MatchParam.names, MatchParam.discountName, MatchParam.collateralNames, MatchParam.rateIndexName, MatchParam.crsName,
          MatchParam.floatCrsName, MatchParam.indexName, Instr.unds, mapRes, orErr, ht, h3, h4, CurvesNamed, curveRoles, flatNames] <;> simp [List.filter_cons]
      | some x =>
        cases h2 : p.rateForward x.code <;> cases h3 : p.crs a <;> cases h4 : p.crs b <;>
        simp [MatchParam.names, MatchParam.discountName, MatchParam.collateralNames, MatchParam.rateIndexName, MatchParam.crsName,
          MatchParam.floatCrsName, MatchParam.indexName, Instr.unds, mapRes, orErr, ht, h2, h3, h4, CurvesNamed, curveRoles, flatNames] <;> simp [List.filter_cons]
  | fxFutures c f =>
    cases h3 : p.crs ccy <;> cases h4 : p.crs c <;>
        simp [MatchParam.names, MatchParam.discountName, MatchParam.collateralNames, MatchParam.rateIndexName, MatchParam.crsName,
          MatchParam.floatCrsName, Instr.unds, mapRes, orErr, h3, h4, CurvesNamed, curveRoles, flatNames] <;> simp [List.filter_cons]
  | bondFutures => simp [MatchParam.names, MatchParam.discountName, MatchParam.collateralNames, MatchParam.rateIndexName, MatchParam.crsName,
          MatchParam.floatCrsName, Instr.unds, mapRes, CurvesNamed, curveRoles, flatNames]
  | ktbf t => simp [MatchParam.names, MatchParam.discountName, MatchParam.collateralNames, MatchParam.rateIndexName, MatchParam.crsName,
          MatchParam.floatCrsName, Instr.unds, mapRes, CurvesNamed, curveRoles, flatNames]
  | cash => simp [MatchParam.names, MatchParam.discountName, MatchParam.collateralNames, MatchParam.rateIndexName, MatchParam.crsName,
          MatchParam.floatCrsName, Instr.unds, mapRes, CurvesNamed, curveRoles, flatNames]

/-- C82 (borrowing). The borrowing curves of an instrument: one per underlying of futures, options and stocks, and the
one of the tag of a KTBF; an error if one of them is not named. -/
theorem C82_borrowing (p : MatchParam) (i : Instr) (l : List String) :
    p.borrowingNames i = .ok l ↔
      (match i.kind with
        | .futures u _ => [p.borrowing u]
        | .option _ u _ _ => [p.borrowing u]
        | .stock u => [p.borrowing u]
        | .ktbf t => [p.borrowing t]
        | _ => []) = l.map some := by
  obtain ⟨code, k, ccy, n, m, rest⟩ := i
  have one : ∀ u : String, (mapRes (fun u => orErr (p.borrowing u)) [u] = .ok l ↔ [p.borrowing u] = l.map some) := by
    intro u
    cases h : p.borrowing u with
    | none =>
      simp only [mapRes, h, orErr, Res.bind_error, reduceCtorEq, false_iff]
      rcases l with _ | ⟨a, l⟩ <;> simp
    | some b =>
      simp only [mapRes, h, orErr, Res.bind_ok]
      rcases l with _ | ⟨a, _ | ⟨a', l⟩⟩ <;> simp
  have zero : (mapRes (fun u => orErr (p.borrowing u)) [] = .ok l ↔ [] = l.map some) := by
    simp only [mapRes]
    rcases l with _ | ⟨a, l⟩ <;> simp
  cases k <;> first | exact one _ | exact zero

/-- The names in use by a portfolio, `Dummy` left out -/
def curvesInUse (p : MatchParam) (l : List Instr) : List String :=
  (l.flatMap fun i => (curveRoles p i).filterMap id).filter fun x => decide (x ≠ dummy)

theorem allCurves_cases (p : MatchParam) : ∀ (l : List Instr) (acc : List String),
    ((∀ i ∈ l, CurvesNamed p i) ∧ allCurves p acc l = .ok (addNew acc (curvesInUse p l))) ∨
    ((∃ i ∈ l, ¬ CurvesNamed p i) ∧ allCurves p acc l = .error .err)
  | [], acc => by simp [allCurves, curvesInUse, addNew]
  | i :: r, acc => by
    rw [allCurves]
    rcases names_cases p i with ⟨n, hn, -, hi, he⟩ | ⟨hn, hi⟩
    · rw [hn, Res.bind_ok]
      have e : addCurves acc ([n.1] ++ n.2.1 ++ [n.2.2.1, n.2.2.2.1, n.2.2.2.2]) =
          addNew acc (((curveRoles p i).filterMap id).filter fun x => decide (x ≠ dummy)) := congrArg (addNew acc) he
      rw [e]
      rcases allCurves_cases p r (addNew acc (((curveRoles p i).filterMap id).filter fun x => decide (x ≠ dummy))) with ⟨h1, h2⟩ | ⟨⟨j, hj, h1⟩, h2⟩
      · refine .inl ⟨fun j hj => ?_, ?_⟩
        · rcases List.mem_cons.1 hj with rfl | hj
          · exact hi
          · exact h1 j hj
        · rw [h2, ← addNew_append]
          simp only [curvesInUse, List.flatMap_cons, List.filter_append]
      · exact .inr ⟨⟨j, List.mem_cons_of_mem _ hj, h1⟩, h2⟩
    · refine .inr ⟨⟨i, List.mem_cons_self, hi⟩, ?_⟩
      rw [hn]; rfl

/-- C82 (names of curves). `get_all_curve_names` succeeds exactly if every name asked for is given; then it lists the names
in use, each once, in the order in which they come up first, without `Dummy`. -/
theorem C82_curves (p : MatchParam) (l : List Instr) :
    ((∀ i ∈ l, CurvesNamed p i) → allCurves p [] l = .ok (firsts (curvesInUse p l))) ∧
    ((∃ i ∈ l, ¬ CurvesNamed p i) → allCurves p [] l = .error .err) := by
  rcases allCurves_cases p l [] with ⟨h1, h2⟩ | ⟨⟨i, hi, h1⟩, h2⟩
  · refine ⟨fun _ => by rw [h2, addNew_nil], ?_⟩
    rintro ⟨i, hi, h⟩
    exact absurd (h1 i hi) h
  · exact ⟨fun h => absurd (h i hi) h1, fun _ => h2⟩

theorem rep_if {α : Type} (x : α) (P : Prop) [Decidable P] : (if P then [x] else []) = List.replicate (if P then 1 else 0) x := by
  split <;> rfl

theorem pushes_eq {α : Type} (n : String × List String × String × String × String) (name : String) (x : α) (h : n.2.1.length ≤ 1) :
    (if n.1 = name then [x] else []) ++ (if name ∈ n.2.1 then [x] else []) ++ (if n.2.2.1 = name then [x] else [])
        ++ (if n.2.2.2.1 = name then [x] else []) ++ (if n.2.2.2.2 = name then [x] else []) =
      List.replicate ((flatNames n).count name) x := by
  obtain ⟨d, c, y, a, b⟩ := n
  dsimp only at h ⊢
  have hc : (if name ∈ c then 1 else 0) = c.count name := by
    match c, h with
    | [], _ => rfl
    | [z], _ =>
      by_cases e : name = z
      · simp [e]
      · simp [e, Ne.symm e]
  simp only [rep_if, List.replicate_append_replicate, flatNames, List.count_append, List.count_cons, List.count_nil, hc, beq_iff_eq, Nat.zero_add]
  congr 1
  omega

theorem usingCurve_cases (p : MatchParam) (name : String) (hname : name ≠ dummy) (excl : List String) : ∀ l : List Instr,
    ((∀ i ∈ l, i.typeName ∉ excl → CurvesNamed p i) ∧
      usingCurve p name excl l = .ok (l.flatMap fun i => if i.typeName ∈ excl then []
        else List.replicate ((curveRoles p i).count (some name)) i)) ∨
    ((∃ i ∈ l, i.typeName ∉ excl ∧ ¬ CurvesNamed p i) ∧ usingCurve p name excl l = .error .err)
  | [] => by simp [usingCurve]
  | i :: r => by
    rw [usingCurve]
    by_cases he : i.typeName ∈ excl
    · rw [if_pos he]
      rcases usingCurve_cases p name hname excl r with ⟨h1, h2⟩ | ⟨⟨j, hj, h1⟩, h2⟩
      · refine .inl ⟨fun j hj hx => ?_, ?_⟩
        · rcases List.mem_cons.1 hj with rfl | hj
          · exact absurd he hx
          · exact h1 j hj hx
        · rw [h2, List.flatMap_cons, if_pos he, List.nil_append]
      · exact .inr ⟨⟨j, List.mem_cons_of_mem _ hj, h1⟩, h2⟩
    · rw [if_neg he]
      rcases names_cases p i with ⟨n, hn, hl, hi, hf⟩ | ⟨hn, hi⟩
      · rw [hn, Res.bind_ok, pushes_eq n name i hl]
        have hcount : (flatNames n).count name = (curveRoles p i).count (some name) := by
          have e := congrArg (List.count name) hf
          rw [List.count_filter (by simpa using hname), List.count_filter (by simpa using hname)] at e
          rw [e]
          generalize curveRoles p i = L
          induction L with
          | nil => rfl
          | cons o L ih =>
            cases o with
            | none => simpa using ih
            | some z =>
              have e1 : List.filterMap id (some z :: L) = z :: List.filterMap id L := rfl
              rw [e1, List.count_cons, List.count_cons, ih]
              simp
        rcases usingCurve_cases p name hname excl r with ⟨h1, h2⟩ | ⟨⟨j, hj, h1⟩, h2⟩
        · refine .inl ⟨fun j hj hx => ?_, ?_⟩
          · rcases List.mem_cons.1 hj with rfl | hj
            · exact hi
            · exact h1 j hj hx
          · rw [h2, Res.bind_ok, List.flatMap_cons, if_neg he, hcount]
        · refine .inr ⟨⟨j, List.mem_cons_of_mem _ hj, h1⟩, ?_⟩
          rw [h2]; rfl
      · refine .inr ⟨⟨i, List.mem_cons_self, he, hi⟩, ?_⟩
        rw [hn]; rfl

/-- C82 (who uses a curve). For a name other than `Dummy`, `instruments_using_curve` succeeds exactly if every name asked for
by the instruments not excluded is given; it then lists these instruments in order, each as often as the curve has a role
for it: a swap with a rate index comes twice for the index's curve. -/
theorem C82_using (p : MatchParam) (name : String) (hname : name ≠ dummy) (excl : List String) (l : List Instr) :
    ((∀ i ∈ l, i.typeName ∉ excl → CurvesNamed p i) →
      usingCurve p name excl l = .ok (l.flatMap fun i => if i.typeName ∈ excl then []
        else List.replicate ((curveRoles p i).count (some name)) i)) ∧
    ((∃ i ∈ l, i.typeName ∉ excl ∧ ¬ CurvesNamed p i) → usingCurve p name excl l = .error .err) := by
  rcases usingCurve_cases p name hname excl l with ⟨h1, h2⟩ | ⟨⟨i, hi, he, h1⟩, h2⟩
  · refine ⟨fun _ => h2, ?_⟩
    rintro ⟨i, hi, he, h⟩
    exact absurd (h1 i hi he) h
  · exact ⟨fun h => absurd (h i hi he) h1, fun _ => h2⟩

/-- C82 (consistency). The names listed are exactly those (other than `Dummy`) some instrument of the portfolio uses. -/
theorem C82_consistent (p : MatchParam) (l : List Instr) (h : ∀ i ∈ l, CurvesNamed p i) (name : String) (hname : name ≠ dummy) :
    ∃ ns us, allCurves p [] l = .ok ns ∧ usingCurve p name [] l = .ok us ∧ (name ∈ ns ↔ us ≠ []) := by
  refine ⟨_, _, (C82_curves p l).1 h, (C82_using p name hname [] l).1 (fun i hi _ => h i hi), ?_⟩
  rw [mem_firsts, curvesInUse, List.mem_filter]
  simp only [List.mem_flatMap, List.mem_filterMap, id, decide_eq_true_eq, hname, ne_eq, not_false_eq_true, and_true,
    List.not_mem_nil, if_false, List.flatMap_eq_nil_iff, List.replicate_eq_nil_iff, List.count_eq_zero]
  constructor
  · rintro ⟨i, hi, o, ho, rfl⟩ hall
    exact hall i hi ho
  · intro hcon
    by_contra hno
    apply hcon
    intro i hi hmem
    exact hno ⟨i, hi, some name, hmem, rfl⟩

/-! ## C84 -/

/-- C84 (what a category contains). Every restriction given must hold; that on underlyings means the very list of
underlyings, not some of them, and does not touch instruments without underlying. -/
theorem C84_contains (c : Category) (i : Instr) : c.contains i = true ↔
    (∀ ts, c.types = some ts → i.typeName ∈ ts) ∧ (∀ cs, c.ccys = some cs → i.ccy ∈ cs) ∧
    (∀ us, c.unds = some us → i.unds = [] ∨ us = i.unds) := by
  obtain ⟨ts, cs, us⟩ := c
  cases ts <;> cases cs <;> cases us <;> simp [Category.contains, and_assoc]

/-- The first category an instrument is in, by position -/
def firstCategory (cats : List Category) (i : Instr) : Option Nat := cats.findIdx? fun c => c.contains i

theorem groupOf_eq (c : Category) : ∀ fl : List (Instr × Bool),
    groupOf c fl = ((fl.filter fun x => !x.2 && c.contains x.1).map Prod.fst, fl.map fun x => (x.1, x.2 || c.contains x.1))
  | [] => rfl
  | (i, t) :: r => by
    rw [groupOf, groupOf_eq c r]
    cases t <;> cases h : c.contains i <;> simp [h]

theorem distLoop_eq : ∀ (cats : List Category) (fl : List (Instr × Bool)),
    distLoop cats fl =
      ((List.range cats.length).filterMap (fun k =>
        let g := (fl.filter fun x => !x.2 && decide (firstCategory cats x.1 = some k)).map Prod.fst
        if g.isEmpty then none else some g),
      fl.map fun x => (x.1, x.2 || (firstCategory cats x.1).isSome))
  | [], fl => by
    simp [distLoop, firstCategory]
  | c :: cs, fl => by
    rw [distLoop]
    simp only [groupOf_eq, distLoop_eq cs]
    have hfirst : ∀ i, firstCategory (c :: cs) i = if c.contains i then some 0 else (firstCategory cs i).map (· + 1) := by
      intro i; unfold firstCategory; rw [List.findIdx?_cons]; 
    have h0 : (fl.filter fun x => !x.2 && c.contains x.1) =
        fl.filter fun x => !x.2 && decide (firstCategory (c :: cs) x.1 = some 0) := by
      apply List.filter_congr
      intro x _
      rw [hfirst]
      cases h : c.contains x.1 <;> simp
    have hk : ∀ k, (((fl.map fun x => (x.1, x.2 || c.contains x.1)).filter fun x => !x.2 && decide (firstCategory cs x.1 = some k)).map Prod.fst) =
        (fl.filter fun x => !x.2 && decide (firstCategory (c :: cs) x.1 = some (k + 1))).map Prod.fst := by
      intro k
      rw [List.filter_map, List.map_map]
      congr 1
      apply List.filter_congr
      intro x _
      rw [hfirst]
      cases h : c.contains x.1 <;> simp [h]
    have hflag : ((fl.map fun x => (x.1, x.2 || c.contains x.1)).map fun x => (x.1, x.2 || (firstCategory cs x.1).isSome)) =
        fl.map fun x => (x.1, x.2 || (firstCategory (c :: cs) x.1).isSome) := by
      rw [List.map_map]
      apply List.map_congr_left
      intro x _
      simp only [Function.comp, hfirst]
      cases h : c.contains x.1 <;> simp
    rw [hflag, List.length_cons, List.range_succ_eq_map, List.filterMap_cons, List.filterMap_map]
    simp only [hk, ← h0, Function.comp_def]
    split <;> simp

/-- C84 (groups). `distribute_instruments` fails exactly if some instrument is in no category. Else every instrument is in
exactly one group, that of the first category it is in: the groups are, in the order of the categories, the instruments
whose first category that is, in their order; empty groups are left out. -/
theorem C84_groups (cats : List Category) (l : List Instr) :
    ((∃ i ∈ l, ∀ c ∈ cats, c.contains i = false) → distributeInstruments cats l = .error .err) ∧
    ((∀ i ∈ l, ∃ c ∈ cats, c.contains i = true) → ∃ gs, distributeInstruments cats l = .ok gs ∧
      gs.flatten.Perm l ∧ (∀ g ∈ gs, g ≠ []) ∧
      ∃ ks : List Nat, ks.Pairwise (· < ·) ∧
        List.Forall₂ (fun k g => Selects (fun i => ∃ c, cats[k]? = some c ∧ c.contains i = true ∧
          ∀ j < k, ∀ c, cats[j]? = some c → c.contains i = false) l g) ks gs) := by
  have hmap : ∀ p : Instr → Bool, ((l.map fun i => (i, false)).filter fun x => !x.2 && p x.1).map Prod.fst = l.filter p := by
    intro p
    rw [List.filter_map, List.map_map]
    simp [Function.comp_def]
  unfold distributeInstruments
  rw [distLoop_eq]
  have hmap' : ∀ k, ((l.map fun i => (i, false)).filter fun x => !x.2 && decide (firstCategory cats x.1 = some k)).map Prod.fst =
      l.filter fun i => decide (firstCategory cats i = some k) :=
    fun k => hmap fun i => decide (firstCategory cats i = some k)
  simp only [hmap']
  have hall : ((l.map fun i => (i, false)).map fun x => (x.1, x.2 || (firstCategory cats x.1).isSome)).all (fun x => x.2) = true ↔
      ∀ i ∈ l, ∃ c ∈ cats, c.contains i = true := by
    simp [List.all_eq_true, firstCategory, List.findIdx?_isSome]
  constructor
  · rintro ⟨i, hi, h⟩
    rw [if_neg]
    rw [hall]
    intro hcon
    obtain ⟨c, hc, hc'⟩ := hcon i hi
    rw [h c hc] at hc'
    cases hc'
  · intro h
    rw [if_pos (hall.2 h)]
    refine ⟨_, rfl, ?_, ?_, ?_⟩
    · -- every instrument is in one group
      have key : ∀ n, (∀ i ∈ l, ∀ k, firstCategory cats i = some k → k < n) →
          (((List.range n).filterMap fun k =>
            if (l.filter fun i => decide (firstCategory cats i = some k)).isEmpty then none
            else some (l.filter fun i => decide (firstCategory cats i = some k))).flatten).Perm l := by
        intro n hn
        have e : (((List.range n).filterMap fun k =>
            if (l.filter fun i => decide (firstCategory cats i = some k)).isEmpty then none
            else some (l.filter fun i => decide (firstCategory cats i = some k))).flatten) =
            (List.range n).flatMap fun k => l.filter fun i => decide (firstCategory cats i = some k) := by
          clear hn
          induction n with
          | zero => rfl
          | succ n ih =>
            rw [List.range_succ, List.filterMap_append, List.flatten_append, ih, List.flatMap_append]
            congr 1
            by_cases hg : (l.filter fun i => decide (firstCategory cats i = some n)).isEmpty
            · have : (l.filter fun i => decide (firstCategory cats i = some n)) = [] := List.isEmpty_iff.1 hg
              simp [this]
            · rw [List.filterMap_cons, if_neg hg]; simp
        rw [e]
        have hsome : ∀ i ∈ l, ∃ k < n, firstCategory cats i = some k := by
          intro i hi
          obtain ⟨c, hc, hc'⟩ := h i hi
          have : (firstCategory cats i).isSome := by
            simp only [firstCategory, List.findIdx?_isSome, List.any_eq_true]
            exact ⟨c, hc, hc'⟩
          obtain ⟨k, hk⟩ := Option.isSome_iff_exists.1 this
          exact ⟨k, hn i hi k hk, hk⟩
        have gen : ∀ m, ((List.range m).flatMap fun k => l.filter fun i => decide (firstCategory cats i = some k)).Perm
            (l.filter fun i => decide (∃ k < m, firstCategory cats i = some k)) := by
          intro m
          induction m with
          | zero => simp
          | succ m ih =>
            rw [List.range_succ, List.flatMap_append, List.flatMap_singleton]
            refine (ih.append_right _).trans ?_
            clear ih
            generalize l = L
            induction L with
            | nil => simp
            | cons x L ih =>
              simp only [List.filter_cons, decide_eq_true_eq]
              by_cases h1 : ∃ k < m, firstCategory cats x = some k
              · have h2 : ¬ firstCategory cats x = some m := by
                  obtain ⟨k, hk, e⟩ := h1
                  rw [e]; simp; omega
                have h3 : ∃ k < m + 1, firstCategory cats x = some k := by
                  obtain ⟨k, hk, e⟩ := h1
                  exact ⟨k, by omega, e⟩
                rw [if_pos h1, if_neg h2, if_pos h3]
                exact ih.cons x
              · rw [if_neg h1]
                by_cases h2 : firstCategory cats x = some m
                · rw [if_pos h2, if_pos ⟨m, by omega, h2⟩]
                  exact List.perm_middle.trans (ih.cons x)
                · have h3 : ¬ ∃ k < m + 1, firstCategory cats x = some k := by
                    rintro ⟨k, hk, e⟩
                    rcases Nat.lt_succ_iff_lt_or_eq.1 hk with hk | rfl
                    · exact h1 ⟨k, hk, e⟩
                    · exact h2 e
                  rw [if_neg h2, if_neg h3]
                  exact ih
        refine (gen n).trans ?_
        rw [List.filter_eq_self.2]
        intro i hi
        exact decide_eq_true (hsome i hi)
      apply key
      intro i _ k hk
      unfold firstCategory at hk
      rw [List.findIdx?_eq_some_iff_getElem] at hk
      exact hk.1
    · intro g hg
      rw [List.mem_filterMap] at hg
      obtain ⟨k, -, hk⟩ := hg
      split at hk
      · cases hk
      · rename_i hne
        cases hk
        simpa using hne
    · refine ⟨(List.range cats.length).filter fun k => !(l.filter fun i => decide (firstCategory cats i = some k)).isEmpty,
        (List.pairwise_lt_range).filter _, ?_⟩
      generalize List.range cats.length = R
      induction R with
      | nil => exact .nil
      | cons k R ih =>
        rw [List.filterMap_cons, List.filter_cons]
        by_cases hg : (l.filter fun i => decide (firstCategory cats i = some k)).isEmpty
        · rw [if_pos hg, if_neg (by rw [hg]; simp)]
          exact ih
        · rw [if_neg hg, if_pos (by simpa using hg)]
          refine .cons ?_ ih
          apply selects_filter
          intro i
          unfold firstCategory
          rw [decide_eq_true_eq, List.findIdx?_eq_some_iff_getElem]
          constructor
          · rintro ⟨hk, hc, hj⟩
            refine ⟨cats[k], List.getElem?_eq_getElem hk, hc, fun j hj' c hc' => ?_⟩
            obtain ⟨_, rfl⟩ := List.getElem?_eq_some_iff.1 hc'
            have := hj j hj'
            simpa using this
          · rintro ⟨c, hc, hc', hj⟩
            obtain ⟨hk, rfl⟩ := List.getElem?_eq_some_iff.1 hc
            refine ⟨hk, hc', fun j hj' => ?_⟩
            rw [hj j hj' _ (List.getElem?_eq_getElem (by omega))]
            simp

theorem mergeInto_append {α : Type} : ∀ (a b : List (String × α)) (m : Map String α),
    mergeInto m (a ++ b) = mergeInto (mergeInto m a) b
  | [], _, _ => rfl
  | (k, v) :: a, b, m => mergeInto_append a b (m.put k v)

theorem mergeInto_lookup {α : Type} : ∀ (l : List (String × α)), (l.map Prod.fst).Nodup → ∀ (m : Map String α) (k : String),
    (∀ v, (k, v) ∈ l → mergeInto m l k = some v) ∧ ((∀ v, (k, v) ∉ l) → mergeInto m l k = m k)
  | [], _, m, k => by simp [mergeInto]
  | (k', v') :: r, h, m, k => by
    rw [List.map_cons, List.nodup_cons] at h
    obtain ⟨h1, h2⟩ := mergeInto_lookup r h.2 (m.put k' v') k
    constructor
    · intro v hv
      rcases List.mem_cons.1 hv with e | hv
      · obtain ⟨e1, e2⟩ := Prod.mk.inj e
        have : ∀ w, (k, w) ∉ r := fun w hw => h.1 (List.mem_map.2 ⟨_, hw, e1⟩)
        rw [mergeInto, h2 this, Map.put, if_pos e1, e2]
      · exact h1 v hv
    · intro hv
      rw [mergeInto, h2 (fun v hvr => hv v (List.mem_cons_of_mem _ hvr)), Map.put]
      rw [if_neg]
      intro e
      exact hv v' (e ▸ List.mem_cons_self)

theorem generatorRun_eq {α : Type} (engine : List Instr → Res (List (String × α))) : ∀ (gs : List (List Instr)) (m : Map String α),
    generatorRun engine m gs = mergeInto m (gs.flatMap fun g => match engine g with | .ok r => r | .error _ => [])
  | [], m => rfl
  | g :: gs, m => by
    rw [generatorRun, List.flatMap_cons, mergeInto_append]
    cases engine g with
    | ok r => exact generatorRun_eq engine gs _
    | error e => exact generatorRun_eq engine gs m

/-- C84 (schedules). If no code appears twice among the results of the groups, the results of the generator do not depend on
the order in which the threads finish: under every code there is the result of the one group that has it, and a group that
fails takes nothing from the others. -/
theorem C84_schedule {α : Type} (engine : List Instr → Res (List (String × α))) (gs order : List (List Instr))
    (hperm : order.Perm gs)
    (hnd : ((gs.flatMap fun g => match engine g with | .ok r => r | .error _ => []).map Prod.fst).Nodup) :
    generatorRun engine (fun _ => none) order = generatorRun engine (fun _ => none) gs ∧
    ∀ k v, generatorRun engine (fun _ => none) order k = some v ↔ ∃ g ∈ gs, ∃ r, engine g = .ok r ∧ (k, v) ∈ r := by
  have hp : (order.flatMap fun g => match engine g with | .ok r => r | .error _ => []).Perm
      (gs.flatMap fun g => match engine g with | .ok r => r | .error _ => []) := hperm.flatMap_right _
  have hnd' := (hp.map Prod.fst).nodup_iff.2 hnd
  have char : ∀ (L : List (String × α)), (L.map Prod.fst).Nodup → ∀ k v, mergeInto (fun _ => none) L k = some v ↔ (k, v) ∈ L := by
    intro L hL k v
    obtain ⟨h1, h2⟩ := mergeInto_lookup L hL (fun _ => none) k
    constructor
    · intro h
      by_contra hcon
      by_cases hex : ∃ w, (k, w) ∈ L
      · obtain ⟨w, hw⟩ := hex
        rw [h1 w hw] at h
        cases h
        exact hcon hw
      · rw [h2 (fun w hw => hex ⟨w, hw⟩)] at h
        cases h
    · exact h1 v
  have c1 := char _ hnd'
  have c2 := char _ hnd
  constructor
  · rw [generatorRun_eq, generatorRun_eq]
    funext k
    apply Option.ext
    intro v
    rw [c1, c2]
    exact hp.mem_iff
  · intro k v
    rw [generatorRun_eq, c1, hp.mem_iff, List.mem_flatMap]
    constructor
    · rintro ⟨g, hg, h⟩
      refine ⟨g, hg, ?_⟩
      split at h
      · rename_i r hr
        exact ⟨r, hr, h⟩
      · simp at h
    · rintro ⟨g, hg, r, hr, h⟩
      exact ⟨g, hg, by rw [hr]; exact h⟩

/-- C84 (the condition is needed). Two groups with an instrument of the same code: the later thread wins. -/
theorem fault_same_code (g₁ g₂ : List Instr) (hne : g₁ ≠ g₂) (code : String) :
    ∃ engine : List Instr → Res (List (String × Nat)), engine g₁ = .ok [(code, 1)] ∧
      generatorRun engine (fun _ => none) [g₁, g₂] code ≠ generatorRun engine (fun _ => none) [g₂, g₁] code := by
  classical
  refine ⟨fun g => .ok [(code, if g = g₁ then 1 else 2)], by simp, ?_⟩
  simp [generatorRun, mergeInto, Map.put, hne.symm]

end Verif.Props

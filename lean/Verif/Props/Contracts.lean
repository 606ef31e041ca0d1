import Verif.QL.Contracts
import Verif.Props.Portfolio
/-!
# C151: what instruments answer
-/
set_option autoImplicit false
namespace Verif.Props
open Verif Verif.QL

/-- A question is answered (not refused). -/
def Answered {α : Type} (r : Res α) : Prop := ∃ x, r = .ok x

theorem answered_ok {α : Type} (x : α) : Answered (.ok x : Res α) := ⟨x, rfl⟩
theorem refused {α : Type} : ¬ Answered (.error .err : Res α) := fun ⟨_, h⟩ => by cases h

/-- **C151** (who answers what). Each optional question is answered by exactly the kinds of instrument it is for — with what the
instrument was made with — and refused with an error by all others; the rank by none at all, not even a bond, which is given one. -/
theorem C151_only (c : Contract) :
    (∀ x, c.answers.strike = .ok x ↔ ∃ t, c = .option t ∧ t.strike = x) ∧
    (∀ x, c.answers.isCall = .ok x ↔ ∃ t, c = .option t ∧ t.call = x) ∧
    (∀ x, c.answers.settled = .ok x ↔ ∃ t, c = .option t ∧ t.settled = x) ∧
    (∀ x, c.answers.undCcy = .ok x ↔ (∃ t, c = .option t ∧ t.undCcy = x) ∨ (∃ t, c = .futures t ∧ t.undCcy = x) ∨
      ∃ t, c = .fxFutures t ∧ t.undCcy = x) ∧
    (∀ x, c.answers.fixedCcy = .ok x ↔ ∃ t, c = .swap t ∧ t.fixedCcy = x) ∧
    (∀ x, c.answers.floatCcy = .ok x ↔ ∃ t, c = .swap t ∧ t.floatCcy = x) ∧
    (∀ x, c.answers.swapType = .ok x ↔ ∃ t, c = .swap t ∧ t.type = x) ∧
    (∀ x, c.answers.index = .ok x ↔ (∃ t, c = .swap t ∧ t.index = x) ∨ ∃ t, c = .bond t ∧ t.index = x) ∧
    (∀ x, c.answers.rating = .ok x ↔ ∃ t, c = .bond t ∧ t.rating = x) ∧
    (∀ x, c.answers.issuerType = .ok x ↔ ∃ t, c = .bond t ∧ t.issuerType = x) ∧
    (∀ x, c.answers.issuer = .ok x ↔ ∃ t, c = .bond t ∧ t.issuer = x) ∧
    (∀ x, c.answers.pricing = .ok x ↔ ∃ t, c = .bond t ∧ t.pricing = x) ∧
    (∀ x, c.answers.strip = .ok x ↔ ∃ t, c = .bond t ∧ t.strip = x) ∧
    (∀ x, c.answers.freq = .ok x ↔ ∃ t, c = .bond t ∧ t.freq = x) ∧
    (∀ x, c.answers.issueDate = .ok x ↔ ∃ t, c = .bond t ∧ t.issueDate = x) ∧
    ¬ Answered c.answers.rank := by
  cases c <;>
    simp [Contract.answers, FuturesTerms.answers, BondTerms.answers, BondFuturesTerms.answers, KtbfTerms.answers, SwapTerms.answers,
      FxFuturesTerms.answers, OptionTerms.answers, StockTerms.answers, CashTerms.answers, Answers.default, Answered]

/-- **C151** (currency pairs). A future on a currency is priced with the pair underlying/own currency; a swap with floating/fixed and
only if they differ; an option is quanto, with underlying/own, exactly if they differ; nothing else needs a rate of exchange. -/
theorem C151_pairs (c : Contract) :
    (∀ f, f ∈ c.answers.fxCodes ↔ (∃ t, c = .fxFutures t ∧ f = { ccy1 := t.undCcy, ccy2 := t.ccy }) ∨
      ∃ t, c = .swap t ∧ t.fixedCcy ≠ t.floatCcy ∧ f = { ccy1 := t.floatCcy, ccy2 := t.fixedCcy }) ∧
    (∀ f, c.answers.fxUnd = .ok f ↔ ∃ t, c = .fxFutures t ∧ f = { ccy1 := t.undCcy, ccy2 := t.ccy }) ∧
    (∀ o, c.answers.swapFx = .ok o ↔ ∃ t, c = .swap t ∧
      ((t.fixedCcy = t.floatCcy ∧ o = none) ∨ (t.fixedCcy ≠ t.floatCcy ∧ o = some { ccy1 := t.floatCcy, ccy2 := t.fixedCcy }))) ∧
    (∀ l, c.answers.quantos = .ok l → l ≠ [] → ∃ t u r, c = .option t ∧ t.unds = u :: r ∧ t.ccy ≠ t.undCcy ∧
      l = [(u, { ccy1 := t.undCcy, ccy2 := t.ccy })]) ∧
    (∀ t, c = .option t → t.ccy = t.undCcy → c.answers.quantos = .ok []) ∧
    ∀ t u r, c = .option t → t.ccy ≠ t.undCcy → t.unds = u :: r → c.answers.quantos = .ok [(u, { ccy1 := t.undCcy, ccy2 := t.ccy })] := by
  cases c with
  | swap t =>
    by_cases h : t.fixedCcy = t.floatCcy
    · simp [Contract.answers, SwapTerms.answers, Answers.default, SwapTerms.fx, h]
      intro o; exact eq_comm
    · simp [Contract.answers, SwapTerms.answers, Answers.default, SwapTerms.fx, h]
      intro o; exact eq_comm
  | fxFutures t =>
    simp [Contract.answers, FxFuturesTerms.answers, Answers.default, FxFuturesTerms.fx]
    intro f; exact eq_comm
  | option t =>
    cases hu : t.unds with
    | nil =>
      by_cases h : t.ccy = t.undCcy <;>
        simp [Contract.answers, OptionTerms.answers, Answers.default, OptionTerms.pairs, OptionTerms.quanto, firstOf, hu, h, bind, Except.bind]
      all_goals
        rintro _ u r rfl - e
        rw [hu] at e; cases e
    | cons u r =>
      by_cases h : t.ccy = t.undCcy
      · simp [Contract.answers, OptionTerms.answers, Answers.default, OptionTerms.pairs, OptionTerms.quanto, h]
        rintro _ _ _ rfl e -
        exact e h
      · simp [Contract.answers, OptionTerms.answers, Answers.default, OptionTerms.pairs, OptionTerms.quanto, firstOf, hu, h, bind, Except.bind]
        rintro _ v q rfl - e
        rw [hu] at e
        exact ⟨(List.cons.inj e).1, rfl, rfl⟩
  | _ => simp [Contract.answers, FuturesTerms.answers, BondTerms.answers, BondFuturesTerms.answers, KtbfTerms.answers,
      StockTerms.answers, CashTerms.answers, Answers.default]

/-- **C151** (underlyings). Of the underlyings an option or a stock is made with only the first counts, and with none asking for them
panics; a future has its one; no other instrument has any. Only options require volatilities. -/
theorem C151_underlyings (c : Contract) :
    (∀ l, c.answers.unds = .ok l ↔ match c with
      | .futures t => l = [t.und]
      | .option t => ∃ u r, t.unds = u :: r ∧ l = [u]
      | .stock t => ∃ u r, t.unds = u :: r ∧ l = [u]
      | _ => l = []) ∧
    (∀ l, c.answers.volUnds = .ok l ↔ match c with
      | .option t => ∃ u r, t.unds = u :: r ∧ l = [u]
      | _ => l = []) ∧
    (∀ t, c = .option t → t.unds = [] → c.answers.unds = .error .index ∧ c.answers.volUnds = .error .index) ∧
    ∀ t, c = .stock t → t.unds = [] → c.answers.unds = .error .index := by
  have e : ∀ (x l : List String), x = l ↔ l = x := fun _ _ => eq_comm
  cases c with
  | option t =>
    cases hu : t.unds <;>
      simp [Contract.answers, OptionTerms.answers, Answers.default, firstList, firstOf, hu, bind, Except.bind]
    intro l; exact e _ _
  | stock t =>
    cases hu : t.unds <;>
      simp [Contract.answers, StockTerms.answers, Answers.default, firstList, firstOf, hu, bind, Except.bind]
    try (intro l; exact e _ _)
  | _ =>
    simp [Contract.answers, FuturesTerms.answers, BondTerms.answers, BondFuturesTerms.answers, KtbfTerms.answers, SwapTerms.answers,
      FxFuturesTerms.answers, CashTerms.answers, Answers.default]
    try (intro l; exact e _ _)

/-- **C151** (the terms). Name, code, currency, notional, average price and maturity are the given ones, except: a swap's currency is that
of its fixed leg, stock and cash have notional 1, only futures have an average price, stock and cash have no maturity, and the code of cash is its *name*: the code
it was given is never seen again. -/
theorem C151_terms : (∀ t, let a := (Contract.futures t).answers
      a.name = t.name ∧ a.code = t.code ∧ a.ccy = t.ccy ∧ a.notional = t.notional ∧ a.avgPrice = t.avgPrice ∧ a.maturity = some t.maturity) ∧
    (∀ t, let a := (Contract.bond t).answers
      a.name = t.name ∧ a.code = t.code ∧ a.ccy = t.ccy ∧ a.notional = t.notional ∧ a.avgPrice = 0 ∧ a.maturity = some t.maturity) ∧
    (∀ t, let a := (Contract.bondFutures t).answers
      a.name = t.name ∧ a.code = t.code ∧ a.ccy = t.ccy ∧ a.notional = t.notional ∧ a.avgPrice = 0 ∧ a.maturity = some t.maturity) ∧
    (∀ t, let a := (Contract.ktbf t).answers
      a.name = t.name ∧ a.code = t.code ∧ a.ccy = t.ccy ∧ a.notional = t.notional ∧ a.avgPrice = 0 ∧ a.maturity = some t.maturity ∧ a.tags = [t.tag]) ∧
    (∀ t, let a := (Contract.swap t).answers
      a.name = t.name ∧ a.code = t.code ∧ a.ccy = t.fixedCcy ∧ a.notional = t.notional ∧ a.avgPrice = 0 ∧ a.maturity = some t.maturity) ∧
    (∀ t, let a := (Contract.fxFutures t).answers
      a.name = t.name ∧ a.code = t.code ∧ a.ccy = t.ccy ∧ a.notional = t.notional ∧ a.avgPrice = t.avgPrice ∧ a.maturity = some t.maturity) ∧
    (∀ t, let a := (Contract.option t).answers
      a.name = t.name ∧ a.code = t.code ∧ a.ccy = t.ccy ∧ a.notional = t.notional ∧ a.avgPrice = 0 ∧ a.maturity = some t.maturity) ∧
    (∀ t, let a := (Contract.stock t).answers
      a.name = t.name ∧ a.code = t.code ∧ a.ccy = t.ccy ∧ a.notional = 1 ∧ a.avgPrice = 0 ∧ a.maturity = none) ∧
    ∀ t, let a := (Contract.cash t).answers
      a.name = t.name ∧ a.code = t.name ∧ a.ccy = t.ccy ∧ a.notional = 1 ∧ a.avgPrice = 0 ∧ a.maturity = none := by
  refine ⟨fun t => ?_, fun t => ?_, fun t => ?_, fun t => ?_, fun t => ?_, fun t => ?_, fun t => ?_, fun t => ?_, fun t => ?_⟩ <;>
    refine ⟨rfl, rfl, rfl, rfl, rfl, ?_⟩ <;> first | rfl | exact ⟨rfl, rfl⟩

/-- The instrument of the portfolio model (`Verif.QL.Portfolio`) for a contract; `none` if an option or stock has no underlying. -/
noncomputable def contractInstr (rest : Nat) (d : DT) : Contract → Option Instr
  | .futures t => some { code := t.code, kind := .futures t.und t.undCcy, ccy := t.ccy, notional := t.notional, mat := t.maturity, rest := rest }
  | .bond t => some
      { code := t.code, kind := .bond t.issuer t.issuerType t.rating t.index, ccy := t.ccy, notional := t.notional, mat := t.maturity, rest := rest }
  | .bondFutures t => some { code := t.code, kind := .bondFutures, ccy := t.ccy, notional := t.notional, mat := t.maturity, rest := rest }
  | .ktbf t => some { code := t.code, kind := .ktbf t.tag, ccy := t.ccy, notional := t.notional, mat := t.maturity, rest := rest }
  | .swap t => some
      { code := t.code, kind := .swap t.type t.fixedCcy t.floatCcy t.index, ccy := t.fixedCcy, notional := t.notional, mat := t.maturity, rest := rest }
  | .fxFutures t => some
      { code := t.code, kind := .fxFutures t.undCcy { ccy1 := t.undCcy, ccy2 := t.ccy }, ccy := t.ccy, notional := t.notional, mat := t.maturity, rest := rest }
  | .option t => match t.unds with
    | [] => none
    | u :: _ => some { code := t.code, kind := .option t.call u t.undCcy t.settled, ccy := t.ccy, notional := t.notional, mat := t.maturity, rest := rest }
  | .stock t => match t.unds with
    | [] => none
    | u :: _ => some { code := t.code, kind := .stock u, ccy := t.ccy, notional := 1, mat := d, rest := rest }
  | .cash t => some { code := t.name, kind := .cash, ccy := t.ccy, notional := 1, mat := d, rest := rest }

/-- The currencies `get_all_currencies` takes from an instrument, from its answers (instrument.rs 344-379). -/
def Answers.currencies (a : Answers) : Res (List Currency) :=
  if a.typeName = "Futures" ∨ a.typeName = "FxFutures" then a.undCcy.bind fun u => .ok [a.ccy, u]
  else if a.typeName = "PlainSwap" then a.floatCcy.bind fun u => .ok [a.ccy, u]
  else .ok [a.ccy]

/-- **C151** (portfolios). Everything the portfolio functions read of an instrument is what the contract answers: the properties of
portfolios hold for the contracts as they are made. -/
theorem C151_portfolio (c : Contract) (rest : Nat) (d : DT) (i : Instr) (h : contractInstr rest d c = some i) :
    i.code = c.answers.code ∧ i.ccy = c.answers.ccy ∧ i.notional = c.answers.notional ∧ i.typeName = c.answers.typeName ∧
    i.maturity = c.answers.maturity ∧ c.answers.unds = .ok i.unds ∧ c.answers.volUnds = .ok i.volUnds ∧ i.fxCodes = c.answers.fxCodes ∧
    c.answers.quantos = .ok i.quantos ∧ i.currencies = Answers.currencies c.answers := by
  have one : ∀ t : SwapType, ¬(t.asStr = "Futures" ∨ t.asStr = "FxFutures") ∧ t.asStr ≠ "PlainSwap" := by
    intro t; cases t <;> simp [SwapType.asStr]
  cases c with
  | futures t => obtain rfl := Option.some.inj h; exact ⟨rfl, rfl, rfl, rfl, rfl, rfl, rfl, rfl, rfl, rfl⟩
  | bond t => obtain rfl := Option.some.inj h; exact ⟨rfl, rfl, rfl, rfl, rfl, rfl, rfl, rfl, rfl, rfl⟩
  | bondFutures t => obtain rfl := Option.some.inj h; exact ⟨rfl, rfl, rfl, rfl, rfl, rfl, rfl, rfl, rfl, rfl⟩
  | ktbf t => obtain rfl := Option.some.inj h; exact ⟨rfl, rfl, rfl, rfl, rfl, rfl, rfl, rfl, rfl, rfl⟩
  | cash t => obtain rfl := Option.some.inj h; exact ⟨rfl, rfl, rfl, rfl, rfl, rfl, rfl, rfl, rfl, rfl⟩
  | fxFutures t => obtain rfl := Option.some.inj h; exact ⟨rfl, rfl, rfl, rfl, rfl, rfl, rfl, rfl, rfl, rfl⟩
  | swap t =>
    obtain rfl := Option.some.inj h
    refine ⟨rfl, rfl, rfl, rfl, rfl, rfl, rfl, ?_, rfl, ?_⟩
    · show (if t.fixedCcy = t.floatCcy then [] else [_]) = (match t.fx with | some f => [f] | none => [])
      unfold SwapTerms.fx
      split <;> rfl
    · unfold Instr.currencies Answers.currencies
      show (if t.type.asStr = _ ∨ t.type.asStr = _ then _ else if t.type.asStr = _ then _ else _) =
        (if t.type.asStr = _ ∨ t.type.asStr = _ then _ else if t.type.asStr = _ then _ else _)
      rw [if_neg (one t.type).1, if_neg (one t.type).2, if_neg (one t.type).1, if_neg (one t.type).2]
      rfl
  | option t =>
    cases hu : t.unds with
    | nil => simp [contractInstr, hu] at h
    | cons u r =>
      simp only [contractInstr, hu] at h
      obtain rfl := Option.some.inj h
      refine ⟨rfl, rfl, rfl, rfl, rfl, ?_, ?_, rfl, ?_, ?_⟩
      · show firstList t.unds = _
        rw [hu]; rfl
      · show firstList t.unds = _
        rw [hu]; rfl
      · show t.pairs = .ok (if t.ccy = t.undCcy then [] else _)
        unfold OptionTerms.pairs OptionTerms.quanto
        by_cases e : t.ccy = t.undCcy
        · rw [if_pos e, if_neg (fun k => k e)]
        · rw [if_neg e, if_pos e, hu]; rfl
      · have n1 : ∀ b : Bool, ¬((if b then "VanillaCall" else "VanillaPut") = "Futures" ∨ (if b then "VanillaCall" else "VanillaPut") = "FxFutures") ∧
            (if b then "VanillaCall" else "VanillaPut") ≠ "PlainSwap" := by decide
        exact (if_neg (n1 t.call).1).trans ((if_neg (n1 t.call).2).trans ((if_neg (n1 t.call).1).trans (if_neg (n1 t.call).2)).symm)
  | stock t =>
    cases hu : t.unds with
    | nil => simp [contractInstr, hu] at h
    | cons u r =>
      simp only [contractInstr, hu] at h
      obtain rfl := Option.some.inj h
      refine ⟨rfl, rfl, rfl, rfl, rfl, ?_, rfl, rfl, rfl, rfl⟩
      show firstList t.unds = _
      rw [hu]; rfl

/-- **C151** (no underlying). The contracts without such a description are exactly the options and stocks without underlyings, for which
collecting the underlyings of a portfolio panics. -/
theorem C151_empty (c : Contract) (rest : Nat) (d : DT) : contractInstr rest d c = none ↔ c.answers.unds = .error .index := by
  cases c with
  | option t => cases hu : t.unds <;> simp [contractInstr, Contract.answers, OptionTerms.answers, firstList, firstOf, hu, bind, Except.bind]
  | stock t => cases hu : t.unds <;> simp [contractInstr, Contract.answers, StockTerms.answers, firstList, firstOf, hu, bind, Except.bind]
  | _ => simp [contractInstr, Contract.answers, FuturesTerms.answers, BondTerms.answers, BondFuturesTerms.answers, KtbfTerms.answers, SwapTerms.answers,
      FxFuturesTerms.answers, CashTerms.answers, Answers.default]

/-- Concrete case: a dollar option settled in won, with two underlyings of which only the first is seen; and cash, whose code is its name. -/
theorem C151_case (d : DT) : ∃ o k : Contract, o.answers.unds = .ok ["SPX"] ∧
    o.answers.quantos = .ok [("SPX", { ccy1 := .usd, ccy2 := .krw })] ∧ o.answers.strike = .ok 100 ∧
    k.answers.code = "Won" ∧ k = .cash { ccy := .krw, name := "Won", code := "KRW" } :=
  ⟨.option { strike := 100, notional := 1, maturity := d, unds := ["SPX", "NKY"], undCcy := .usd, ccy := .krw, call := true, settled := false, name := "o", code := "o" },
    .cash { ccy := .krw, name := "Won", code := "KRW" }, rfl, rfl, rfl, rfl, rfl⟩

end Verif.Props

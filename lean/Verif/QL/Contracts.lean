import Verif.QL.Portfolio
/-!
# Model of the instruments' own data and of what each answers through `InstrumentTrait`
(`quantlib/src/instruments/*.rs`, `quantlib/src/instrument.rs` 36-234)

Cash flows, virtual bond prices and schedules are in `Verif.QL.Cashflow` and `Verif.QL.Ktbf`; here are all the other functions of the trait.
Ratings, issuer types and ranks are numbers, a bond's schedule and calendar and the basket of a KTBF are left out.
-/
set_option autoImplicit false
namespace Verif.QL
open Verif

/-- What an instrument answers: one field for each function of `InstrumentTrait` (instrument.rs 36-234). -/
structure Answers where
  name : String
  code : String
  ccy : Currency
  notional : ℝ
  typeName : String
  avgPrice : ℝ
  maturity : Option DT
  unds : Res (List String)
  quantos : Res (List (String × FxCode))
  fxCodes : List FxCode
  volUnds : Res (List String)
  rating : Res Nat
  issuerType : Res Nat
  rank : Res Nat
  issuer : Res String
  index : Res (Option IndexId)
  tags : List String
  pricing : Res (Option DT)
  strip : Res Bool
  freq : Res Freq
  issueDate : Res DT
  fixedCcy : Res Currency
  floatCcy : Res Currency
  undCcy : Res Currency
  strike : Res ℝ
  isCall : Res Bool
  settled : Res Bool
  fxUnd : Res FxCode
  swapFx : Res (Option FxCode)
  swapType : Res SwapType

/-- The default answers (instrument.rs 42-233): average price 0, no maturity, empty lists, and errors; the five mandatory ones are
arguments -/
noncomputable def Answers.default (name code : String) (ccy : Currency) (notional : ℝ) (typeName : String) : Answers where
  name := name
  code := code
  ccy := ccy
  notional := notional
  typeName := typeName
  avgPrice := 0
  maturity := none
  unds := .ok []
  quantos := .ok []
  fxCodes := []
  volUnds := .ok []
  rating := .error .err
  issuerType := .error .err
  rank := .error .err
  issuer := .error .err
  index := .error .err
  tags := []
  pricing := .error .err
  strip := .error .err
  freq := .error .err
  issueDate := .error .err
  fixedCcy := .error .err
  floatCcy := .error .err
  undCcy := .error .err
  strike := .error .err
  isCall := .error .err
  settled := .error .err
  fxUnd := .error .err
  swapFx := .error .err
  swapType := .error .err

/-- `underlying_codes[0]` -/
def firstOf (l : List String) : Res String :=
  match l with
  | [] => .error .index
  | u :: _ => .ok u

/-- The arguments of `Futures::new` (futures.rs 43-69); the trade and settlement dates, which nothing reads, are left out -/
structure FuturesTerms where
  avgPrice : ℝ
  maturity : DT
  notional : ℝ
  ccy : Currency
  undCcy : Currency
  und : String
  name : String
  code : String

/-- The arguments of `Bond::new` (bond.rs 54-89) that the trait functions give back -/
structure BondTerms where
  issuerType : Nat
  rating : Nat
  issuer : String
  rank : Nat
  ccy : Currency
  notional : ℝ
  strip : Bool
  issueDate : DT
  pricing : Option DT
  maturity : DT
  index : Option IndexId
  freq : Freq
  name : String
  code : String

/-- `BondFutures` (bond_futures.rs 8-15) -/
structure BondFuturesTerms where
  ccy : Currency
  notional : ℝ
  issueDate : DT
  maturity : DT
  name : String
  code : String

/-- `KTBF` (ktbf.rs 66-81) -/
structure KtbfTerms where
  ccy : Currency
  notional : ℝ
  maturity : DT
  tag : String
  name : String
  code : String

/-- The arguments of `PlainSwap::new` (plain_swap.rs 91-126) that the trait functions give back, and the type it found -/
structure SwapTerms where
  type : SwapType
  index : Option IndexId
  notional : ℝ
  maturity : DT
  fixedCcy : Currency
  floatCcy : Currency
  name : String
  code : String

/-- The arguments of `FxFutures::new` (fx_futures.rs 43-55) -/
structure FxFuturesTerms where
  avgPrice : ℝ
  maturity : DT
  notional : ℝ
  ccy : Currency
  undCcy : Currency
  name : String
  code : String

/-- The arguments of `VanillaOption::new` (vanilla_option.rs 54-69) that the trait functions give back -/
structure OptionTerms where
  strike : ℝ
  notional : ℝ
  maturity : DT
  unds : List String
  undCcy : Currency
  ccy : Currency
  call : Bool
  settled : Bool
  name : String
  code : String

/-- The arguments of `Stock::new` (stock.rs 17-23) -/
structure StockTerms where
  name : String
  code : String
  unds : List String
  ccy : Currency

/-- The arguments of `Cash::new` (cash.rs 15) -/
structure CashTerms where
  ccy : Currency
  name : String
  code : String

/-- `Instrument` (instrument.rs 237-247) -/
inductive Contract where
  | futures (c : FuturesTerms)
  | bond (c : BondTerms)
  | bondFutures (c : BondFuturesTerms)
  | ktbf (c : KtbfTerms)
  | swap (c : SwapTerms)
  | fxFutures (c : FxFuturesTerms)
  | option (c : OptionTerms)
  | stock (c : StockTerms)
  | cash (c : CashTerms)

/-- `InstrumentTrait for Futures` (futures.rs 72-109) -/
noncomputable def FuturesTerms.answers (c : FuturesTerms) : Answers :=
  { Answers.default c.name c.code c.ccy c.notional "Futures" with
    undCcy := .ok c.undCcy
    maturity := some c.maturity
    unds := .ok [c.und]
    avgPrice := c.avgPrice }

/-- `InstrumentTrait for Bond` (bond.rs 237-300); `get_rank_type` is not overridden -/
noncomputable def BondTerms.answers (c : BondTerms) : Answers :=
  { Answers.default c.name c.code c.ccy c.notional "Bond" with
    pricing := .ok c.pricing
    maturity := some c.maturity
    freq := .ok c.freq
    index := .ok c.index
    rating := .ok c.rating
    issuerType := .ok c.issuerType
    issuer := .ok c.issuer
    issueDate := .ok c.issueDate
    strip := .ok c.strip }

/-- `InstrumentTrait for BondFutures` (bond_futures.rs 17-41) -/
noncomputable def BondFuturesTerms.answers (c : BondFuturesTerms) : Answers :=
  { Answers.default c.name c.code c.ccy c.notional "BondFutures" with
    maturity := some c.maturity }

/-- `InstrumentTrait for KTBF` (ktbf.rs 122-158) -/
noncomputable def KtbfTerms.answers (c : KtbfTerms) : Answers :=
  { Answers.default c.name c.code c.ccy c.notional "KTBF" with
    maturity := some c.maturity
    tags := [c.tag] }

/-- `floating_to_fixed_fxcode` as `PlainSwap::new` sets it (plain_swap.rs 202-205, 397-400) -/
def SwapTerms.fx (c : SwapTerms) : Option FxCode :=
  if c.fixedCcy = c.floatCcy then none else some { ccy1 := c.floatCcy, ccy2 := c.fixedCcy }

/-- `InstrumentTrait for PlainSwap` (plain_swap.rs 551-603) -/
noncomputable def SwapTerms.answers (c : SwapTerms) : Answers :=
  { Answers.default c.name c.code c.fixedCcy c.notional c.type.asStr with
    maturity := some c.maturity
    index := .ok c.index
    fixedCcy := .ok c.fixedCcy
    floatCcy := .ok c.floatCcy
    swapType := .ok c.type
    swapFx := .ok c.fx
    fxCodes := match c.fx with
      | some f => [f]
      | none => [] }

/-- `fx_code` as `FxFutures::new` sets it (fx_futures.rs 56) -/
def FxFuturesTerms.fx (c : FxFuturesTerms) : FxCode := { ccy1 := c.undCcy, ccy2 := c.ccy }

/-- `InstrumentTrait for FxFutures` (fx_futures.rs 73-113) -/
noncomputable def FxFuturesTerms.answers (c : FxFuturesTerms) : Answers :=
  { Answers.default c.name c.code c.ccy c.notional "FxFutures" with
    undCcy := .ok c.undCcy
    maturity := some c.maturity
    avgPrice := c.avgPrice
    fxUnd := .ok c.fx
    fxCodes := [c.fx] }

/-- `quanto_fx_code` as `VanillaOption::new` sets it (vanilla_option.rs 70-74) -/
def OptionTerms.quanto (c : OptionTerms) : Option FxCode :=
  if c.ccy ≠ c.undCcy then some { ccy1 := c.undCcy, ccy2 := c.ccy } else none

/-- `get_quanto_fxcode_und_pair` (vanilla_option.rs 146-151) -/
def OptionTerms.pairs (c : OptionTerms) : Res (List (String × FxCode)) :=
  match c.quanto with
  | some fx => do
    let u ← firstOf c.unds
    .ok [(u, fx)]
  | none => .ok []

/-- `vec![&self.underlying_codes[0]]` (vanilla_option.rs 130-132, 153-155, stock.rs 56-58) -/
def firstList (l : List String) : Res (List String) := do
  let u ← firstOf l
  .ok [u]

/-- `InstrumentTrait for VanillaOption` (vanilla_option.rs 99-156) -/
noncomputable def OptionTerms.answers (c : OptionTerms) : Answers :=
  { Answers.default c.name c.code c.ccy c.notional (if c.call then "VanillaCall" else "VanillaPut") with
    undCcy := .ok c.undCcy
    maturity := some c.maturity
    unds := firstList c.unds
    isCall := .ok c.call
    settled := .ok c.settled
    strike := .ok c.strike
    quantos := c.pairs
    volUnds := firstList c.unds }

/-- `InstrumentTrait for Stock` (stock.rs 35-59) -/
noncomputable def StockTerms.answers (c : StockTerms) : Answers :=
  { Answers.default c.name c.code c.ccy 1 "Stock" with
    unds := firstList c.unds }

/-- `InstrumentTrait for Cash` (cash.rs 24-43); `get_code` gives the name -/
noncomputable def CashTerms.answers (c : CashTerms) : Answers :=
  Answers.default c.name c.name c.ccy 1 "Cash"

/-- `#[enum_dispatch(InstrumentTrait)]` (instrument.rs 235-247) -/
noncomputable def Contract.answers : Contract → Answers
  | .futures c => c.answers
  | .bond c => c.answers
  | .bondFutures c => c.answers
  | .ktbf c => c.answers
  | .swap c => c.answers
  | .fxFutures c => c.answers
  | .option c => c.answers
  | .stock c => c.answers
  | .cash c => c.answers

end Verif.QL

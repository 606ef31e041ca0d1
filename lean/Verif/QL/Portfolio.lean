import Verif.QL.Currency
import Verif.QL.Cashflow
/-!
# Model of `quantlib/src/instrument.rs`, `pricing_engines/match_parameter.rs`, `pricing_engines/pricer_factory.rs` and
`pricing_engines/engine_generator.rs`

An instrument is modelled by what its `InstrumentTrait` functions answer; everything only its own pricer looks at is
represented by a number `rest` (two instruments that differ only there have different numbers). Names are strings.
-/
set_option autoImplicit false
namespace Verif.QL
open Verif

/-- A `HashMap`, as far as looking up goes -/
abbrev Map (κ α : Type) := κ → Option α

/-- `HashMap::insert` -/
def Map.put {κ α : Type} [DecidableEq κ] (m : Map κ α) (k : κ) (v : α) : Map κ α := fun x => if x = k then some v else m x

/-- `RateIndex` (rate_index.rs 12-20): code and name -/
structure IndexId where
  code : String
  name : String
  deriving DecidableEq, Repr

/-- The nine instruments (instrument.rs 237-247) with what the trait functions of each read. A `Stock` or
`VanillaOption` with an empty list of underlyings panics in `underlying_codes[0]` (stock.rs 56-58, vanilla_option.rs 130-132);
the model has exactly one. -/
inductive Kind
  | futures (und : String) (undCcy : Currency)
  | bond (issuer : String) (issuerType rating : Nat) (index : Option IndexId)
  | bondFutures
  | ktbf (tag : String)
  | swap (type : SwapType) (fixedCcy floatCcy : Currency) (index : Option IndexId)
  | fxFutures (undCcy : Currency) (fx : FxCode)
  | option (call : Bool) (und : String) (undCcy : Currency) (settled : Bool)
  | stock (und : String)
  | cash
  deriving DecidableEq, Repr

/-- `Instrument` (instrument.rs 237-247) -/
structure Instr where
  code : String
  kind : Kind
  ccy : Currency
  notional : ℝ
  mat : DT
  rest : Nat

/-- `PlainSwapType::as_str` (plain_swap.rs 25-33) -/
def SwapType.asStr : SwapType → String
  | .irs => "IRS"
  | .crs => "CRS"
  | .fxSwap => "FxSwap"
  | .fxForward => "FxForward"
  | .fxSpot => "FxSpot"

/-- `get_type_name` (futures.rs 97-99, bond.rs 258-260, bond_futures.rs 18-20, ktbf.rs 123-125, plain_swap.rs 575-578,
fx_futures.rs 78-80, vanilla_option.rs 104-109, stock.rs 48-50, cash.rs 40-42) -/
def Instr.typeName (i : Instr) : String :=
  match i.kind with
  | .futures .. => "Futures"
  | .bond .. => "Bond"
  | .bondFutures => "BondFutures"
  | .ktbf .. => "KTBF"
  | .swap t .. => t.asStr
  | .fxFutures .. => "FxFutures"
  | .option c .. => if c then "VanillaCall" else "VanillaPut"
  | .stock .. => "Stock"
  | .cash => "Cash"

/-- `get_maturity` (instrument.rs 53-55 and the overrides: all but `Stock` and `Cash`) -/
def Instr.maturity (i : Instr) : Option DT :=
  match i.kind with
  | .stock .. => none
  | .cash => none
  | _ => some i.mat

/-- `get_underlying_codes` (instrument.rs 58-60; futures.rs 101-104, stock.rs 56-58, vanilla_option.rs 130-132) -/
def Instr.unds (i : Instr) : List String :=
  match i.kind with
  | .futures u _ => [u]
  | .option _ u _ _ => [u]
  | .stock u => [u]
  | _ => []

/-- `get_underlying_codes_requiring_volatility` (instrument.rs 70-72; vanilla_option.rs 153-155) -/
def Instr.volUnds (i : Instr) : List String :=
  match i.kind with
  | .option _ u _ _ => [u]
  | _ => []

/-- `get_all_fxcodes_for_pricing` (instrument.rs 66-68; fx_futures.rs 110-112; plain_swap.rs 596-602 with 203-206) -/
def Instr.fxCodes (i : Instr) : List FxCode :=
  match i.kind with
  | .fxFutures _ fx => [fx]
  | .swap _ a b _ => if a = b then [] else [{ ccy1 := b, ccy2 := a }]
  | _ => []

/-- `get_quanto_fxcode_und_pair` (instrument.rs 62-64; vanilla_option.rs 66-70, 146-151) -/
def Instr.quantos (i : Instr) : List (String × FxCode) :=
  match i.kind with
  | .option _ u uc _ => if i.ccy = uc then [] else [(u, { ccy1 := uc, ccy2 := i.ccy })]
  | _ => []

/-! ### the container -/

/-- The loop "push what is not contained yet" (instrument.rs 298-300, 311-313, 334-336 and others) -/
def addNew {α : Type} [DecidableEq α] (acc : List α) : List α → List α
  | [] => acc
  | x :: r => if x ∈ acc then addNew acc r else addNew (acc ++ [x]) r

/-- Such a loop over the names of each instrument -/
def collect {α : Type} [DecidableEq α] (f : Instr → List α) (acc : List α) : List Instr → List α
  | [] => acc
  | i :: r => collect f (addNew acc (f i)) r

/-- `get_all_underlying_codes` (instrument.rs 293-304) -/
def allUnds (l : List Instr) : List String := collect Instr.unds [] l

/-- `get_all_fxcodes_for_pricing` (instrument.rs 306-317) -/
def allFxCodes (l : List Instr) : List FxCode := collect Instr.fxCodes [] l

/-- `get_all_unerlying_codes_requiring_volatility` (instrument.rs 708-739) -/
def allVolUnds (l : List Instr) : List String := collect Instr.volUnds [] l

/-- `get_all_quanto_fxcode_und_pairs` (instrument.rs 319-328): a set -/
def allQuantos (l : List Instr) : List (String × FxCode) := collect Instr.quantos [] l

/-- `get_all_type_names` (instrument.rs 330-339) -/
def allTypes (l : List Instr) : List String := collect (fun i => [i.typeName]) [] l

/-- The currencies one instrument adds (instrument.rs 344-379): its own; by type name, that of the underlying or of the
floating leg. `get_underlying_currency` exists for `Futures`, `FxFutures` and options (futures.rs 85-87, fx_futures.rs 90-92, vanilla_option.rs 122-124),
`get_floating_leg_currency` for swaps (plain_swap.rs 584-586), else they are errors (instrument.rs 192-202). -/
def Instr.currencies (i : Instr) : Res (List Currency) :=
  if i.typeName = "Futures" ∨ i.typeName = "FxFutures" then
    match i.kind with
    | .futures _ c => .ok [i.ccy, c]
    | .fxFutures c _ => .ok [i.ccy, c]
    | .option _ _ c _ => .ok [i.ccy, c]
    | _ => .error .err
  else if i.typeName = "PlainSwap" then
    match i.kind with
    | .swap _ _ c _ => .ok [i.ccy, c]
    | _ => .error .err
  else .ok [i.ccy]

/-- `get_all_currencies` (instrument.rs 341-382) -/
def allCurrencies : List Currency → List Instr → Res (List Currency)
  | acc, [] => .ok acc
  | acc, i :: r => do
    let cs ← i.currencies
    allCurrencies (addNew acc cs) r

/-- `instruments_with_underlying` (instrument.rs 384-399) -/
def withUnderlying (l : List Instr) (u : String) (excl : List String) : List Instr :=
  l.filter fun i => decide (u ∈ i.unds) && !decide (i.typeName ∈ excl)

/-- `instruments_with_currency` (instrument.rs 401-409) -/
def withCurrency (l : List Instr) (c : Currency) : List Instr := l.filter fun i => decide (i.ccy = c)

/-- `instruments_with_types` (instrument.rs 411-420) -/
def withTypes (l : List Instr) (ts : List String) : List Instr := l.filter fun i => decide (i.typeName ∈ ts)

/-- `instruments_with_maturity_upto` (instrument.rs 500-538) -/
def maturityUpto (l : List Instr) (d : DT) (excl : List String) : List Instr :=
  l.filter fun i => !decide (i.typeName ∈ excl) &&
    (match i.maturity with | some m => decide (m.instant ≤ d.instant) | none => false)

/-- `instruments_with_maturity_over` (instrument.rs 540-588) -/
def maturityOver (l : List Instr) (d : DT) (excl : List String) : List Instr :=
  l.filter fun i => !decide (i.typeName ∈ excl) &&
    (match i.maturity with | some m => decide (m.instant > d.instant) | none => true)

/-- The loop of `get_shortest_maturity` (instrument.rs 594-630) -/
def shortestLoop : Option DT → List Instr → Option DT
  | acc, [] => acc
  | acc, i :: r =>
    match i.maturity with
    | none => shortestLoop acc r
    | some m =>
      match acc with
      | some s => if m.instant < s.instant then shortestLoop (some m) r else shortestLoop (some s) r
      | none => shortestLoop (some m) r

/-- `get_shortest_maturity` (instrument.rs 594-630) -/
def shortestMaturity (l : List Instr) : Option DT := shortestLoop none l

/-- The loop of `get_longest_maturity` (instrument.rs 636-684): `break` with `None` at the first without maturity -/
def longestLoop : Option DT → List Instr → Option DT
  | acc, [] => acc
  | acc, i :: r =>
    match i.maturity with
    | none => none
    | some m =>
      match acc with
      | some s => if m.instant > s.instant then longestLoop (some m) r else longestLoop (some s) r
      | none => longestLoop (some m) r

/-- `get_longest_maturity` (instrument.rs 636-684) -/
def longestMaturity (l : List Instr) : Option DT := longestLoop none l

/-! ### names of curves -/

/-- `MatchParameter` (match_parameter.rs 15-38) -/
structure MatchParam where
  collateral : Map String String
  borrowing : Map String String
  bondDiscount : Map (String × Nat × Nat × Currency) String
  rateForward : Map String String
  crs : Map Currency String
  funding : Map Currency String

/-- `dummy_string` (match_parameter.rs 59, 79) -/
def dummy : String := "Dummy"

/-- `get(..).ok_or_else(..)?` -/
def orErr {α : Type} (o : Option α) : Res α :=
  match o with
  | some x => .ok x
  | none => .error .err

/-- `get_crs_curve_name` (match_parameter.rs 85-115) -/
def MatchParam.crsName (p : MatchParam) (i : Instr) : Res String :=
  match i.kind with
  | .swap t a _ _ => if t = .irs then .ok dummy else orErr (p.crs a)
  | .fxFutures _ _ => orErr (p.crs i.ccy)
  | _ => .ok dummy

/-- `get_floating_crs_curve_name` (match_parameter.rs 117-147) -/
def MatchParam.floatCrsName (p : MatchParam) (i : Instr) : Res String :=
  match i.kind with
  | .swap t _ b _ => if t = .irs then .ok dummy else orErr (p.crs b)
  | .fxFutures c _ => orErr (p.crs c)
  | _ => .ok dummy

/-- The forward curve of a rate index (match_parameter.rs 190-203, 280-308) -/
def MatchParam.indexName (p : MatchParam) (x : Option IndexId) : Res String :=
  match x with
  | none => .ok dummy
  | some x => orErr (p.rateForward x.code)

/-- `get_discount_curve_name` (match_parameter.rs 148-233) -/
def MatchParam.discountName (p : MatchParam) (i : Instr) : Res String :=
  match i.kind with
  | .bond n t r _ => .ok ((p.bondDiscount (n, t, r, i.ccy)).getD dummy)
  | .swap _ _ _ x => p.indexName x
  | .option _ _ _ settled => if settled then .ok dummy else orErr (p.funding i.ccy)
  | _ => .ok dummy

/-- `get_collateral_curve_names` (match_parameter.rs 236-245) -/
def MatchParam.collateralNames (p : MatchParam) (i : Instr) : Res (List String) := mapRes (fun u => orErr (p.collateral u)) i.unds

/-- `get_bond_futures_borrowing_curve_tags` (instrument.rs 116-118; ktbf.rs 155-157) -/
def Instr.borrowTags (i : Instr) : List String :=
  match i.kind with
  | .ktbf t => [t]
  | _ => []

/-- `get_borrowing_curve_names` (match_parameter.rs 260-274) -/
def MatchParam.borrowingNames (p : MatchParam) (i : Instr) : Res (List String) :=
  mapRes (fun u => orErr (p.borrowing u)) (i.unds ++ i.borrowTags)

/-- `get_rate_index_curve_name` (match_parameter.rs 276-312) -/
def MatchParam.rateIndexName (p : MatchParam) (i : Instr) : Res String :=
  match i.kind with
  | .bond _ _ _ x => p.indexName x
  | .swap _ _ _ x => p.indexName x
  | _ => .ok dummy

/-- The names looked up for one instrument, in order (instrument.rs 434-461, 473-496): discount, collateral, index, CRS and
floating CRS curve -/
def MatchParam.names (p : MatchParam) (i : Instr) : Res (String × List String × String × String × String) := do
  let d ← p.discountName i
  let c ← p.collateralNames i
  let x ← p.rateIndexName i
  let a ← p.crsName i
  let b ← p.floatCrsName i
  .ok (d, c, x, a, b)

/-- `instruments_using_curve` (instrument.rs 422-463): an instrument is pushed once per role the curve has for it -/
def usingCurve (p : MatchParam) (name : String) (excl : List String) : List Instr → Res (List Instr)
  | [] => .ok []
  | i :: r =>
    if i.typeName ∈ excl then usingCurve p name excl r
    else do
      let n ← p.names i
      let rest ← usingCurve p name excl r
      .ok ((if n.1 = name then [i] else []) ++ (if name ∈ n.2.1 then [i] else []) ++ (if n.2.2.1 = name then [i] else [])
        ++ (if n.2.2.2.1 = name then [i] else []) ++ (if n.2.2.2.2 = name then [i] else []) ++ rest)

/-- `if !res.contains(..) && .. != dummy { res.push(..) }` (instrument.rs 474-496) -/
def addCurves (acc : List String) (l : List String) : List String := addNew acc (l.filter fun x => decide (x ≠ dummy))

/-- `get_all_curve_names` (instrument.rs 466-498) -/
def allCurves (p : MatchParam) : List String → List Instr → Res (List String)
  | acc, [] => .ok acc
  | acc, i :: r => do
    let n ← p.names i
    allCurves p (addCurves acc ([n.1] ++ n.2.1 ++ [n.2.2.1, n.2.2.2.1, n.2.2.2.2])) r

/-! ### pricers -/

/-- What is loaded (engine.rs 50-60), as far as the factory looks: whether there is an entry -/
structure Loaded where
  fxs : FxCode → Bool
  equities : String → Bool
  curves : String → Bool
  vols : String → Bool
  quantos : String × FxCode → Bool
  pasts : String → Bool

/-- `get(name).ok_or_else(..)?` -/
def need {κ : Type} (f : κ → Bool) (k : κ) : Res κ := if f k then .ok k else .error .err

/-- The parameters a pricer is made of, by name -/
inductive Plan
  | bond (disc : String) (fwd past : Option String)
  | futures (eq coll borrow : String)
  | option (eq vol disc coll borrow : String) (quanto : Option (String × FxCode))
  | ktbf (disc coll : String)
  | fxFutures (fx : FxCode) (und fut : String)
  | swap (fixed float : String) (fwd past : Option String) (fx : Option FxCode)
  | stock (eq : String)
  | cash
  deriving DecidableEq, Repr

/-- `names[0]`: panics on an empty list -/
def firstName (l : List String) : Res String :=
  match l with
  | x :: _ => .ok x
  | [] => .error .index

/-- The optional forward curve and past fixings (pricer_factory.rs 102-138, 370-394) -/
def indexParts (p : MatchParam) (m : Loaded) (i : Instr) (x : Option IndexId) : Res (Option String × Option String) :=
  match x with
  | none => .ok (none, none)
  | some x => do
    let n ← p.rateIndexName i
    let f ← need m.curves n
    let h ← need m.pasts x.name
    .ok (some f, some h)

/-- The quanto parameter (pricer_factory.rs 236-256) -/
def quantoPart (m : Loaded) (u : String) (uc ccy : Currency) : Res (Option (String × FxCode)) :=
  if uc = ccy then .ok none
  else do
    let q ← need m.quantos (u, { ccy1 := uc, ccy2 := ccy })
    .ok (some q)

/-- The exchange rate of a swap (pricer_factory.rs 396-415; plain_swap.rs 203-206) -/
def swapFxPart (m : Loaded) (a b : Currency) : Res (Option FxCode) :=
  if a = b then .ok none
  else do
    let f ← need m.fxs { ccy1 := b, ccy2 := a }
    .ok (some f)

/-- `create_pricer` (pricer_factory.rs 61-84) with the functions it calls: bond (86-148), futures (149-181; a missing equity
panics), option (183-276; the only method supported is the analytic one), KTBF (278-310), FX futures (312-350), swap
(352-427), stock (429-445), cash (447-450). -/
def createPricer (p : MatchParam) (m : Loaded) (analytic : Bool) (i : Instr) : Res Plan :=
  match i.kind with
  | .bond _ _ _ x => do
    let d ← p.discountName i
    let d ← need m.curves d
    let f ← indexParts p m i x
    .ok (.bond d f.1 f.2)
  | .futures u _ =>
    if m.equities u = false then .error .unwrapNone
    else do
      let cs ← p.collateralNames i
      let c ← firstName cs
      let bs ← p.borrowingNames i
      let b ← firstName bs
      let c ← need m.curves c
      let b ← need m.curves b
      .ok (.futures u c b)
  | .option _ u uc _ => do
    let e ← need m.equities u
    let v ← need m.vols u
    let d ← p.discountName i
    let d ← need m.curves d
    let cs ← p.collateralNames i
    let c ← firstName cs
    let c ← need m.curves c
    let bs ← p.borrowingNames i
    let b ← firstName bs
    let b ← need m.curves b
    let q ← quantoPart m u uc i.ccy
    if analytic then .ok (.option e v d c b q) else .error .err
  | .ktbf _ => do
    let d ← need m.curves "KRWGOV"
    let cs ← p.collateralNames i
    let c ← firstName cs
    let c ← need m.curves c
    .ok (.ktbf d c)
  | .fxFutures _ fx => do
    let f ← need m.fxs fx
    let u ← p.floatCrsName i
    let u ← need m.curves u
    let c ← p.crsName i
    let c ← need m.curves c
    .ok (.fxFutures f u c)
  | .swap _ a b x => do
    let c ← p.crsName i
    let c ← need m.curves c
    let u ← p.floatCrsName i
    let u ← need m.curves u
    let f ← indexParts p m i x
    let fx ← swapFxPart m a b
    .ok (.swap c u f.1 f.2 fx)
  | .stock _ => do
    let e ← need m.equities i.code
    .ok (.stock e)
  | .cash => .ok .cash
  | .bondFutures => .error .err

/-! ### loading market data -/

/-- The market data an engine is given (engine.rs 98-109). Of curves, dividends, volatilities and past values only whether
there is an entry, and whether the constructor accepts it (`ZeroCurve::new` and the others; modelled elsewhere), matters
here. -/
structure DataSet where
  fx : Map FxCode ℝ
  stocks : Map String ℝ
  curves : Map String (Res Unit)
  dividends : Map String (Res Unit)
  constVols : Map String (Res Unit)
  surfaces : Map String (Res Unit)
  fxVols : Map FxCode ℝ
  corrs : Map (String × FxCode) ℝ
  pasts : List (String × Res Unit)

/-- `contains_key`, else `bail!`; then the constructor -/
def make {κ : Type} (m : Map κ (Res Unit)) (k : κ) : Res Unit :=
  match m k with
  | some r => r
  | none => .error .err

/-- The rate of a currency pair (engine.rs 113-162): itself, else one over the reciprocal, else across KRW -/
noncomputable def fxRate (d : DataSet) (c : FxCode) : Res ℝ :=
  match d.fx c with
  | some x => .ok x
  | none =>
    match d.fx c.reciprocal with
    | some x => divK 1 x
    | none =>
      match d.fx { ccy1 := c.ccy1, ccy2 := .krw }, d.fx { ccy1 := c.ccy2, ccy2 := .krw } with
      | some x, some y => divK x y
      | _, _ => .error .err

/-- The volatility of an underlying (engine.rs 277-417): from a constant, else from a surface, over the collateral and the
borrowing curve of the underlying -/
def loadVol (p : MatchParam) (d : DataSet) (curves : List String) (u : String) : Res Unit :=
  match (match d.constVols u with | some r => some r | none => d.surfaces u) with
  | none => .error .err
  | some r => do
    let c ← orErr (p.collateral u)
    let _ ← need (fun x => decide (x ∈ curves)) c
    let b ← orErr (p.borrowing u)
    let _ ← need (fun x => decide (x ∈ curves)) b
    r

/-- `with_parameter_data` (engine.rs 98-530): what is loaded, or an error. The correlation of each quanto pair needs the FX
volatility of its currency pair, loaded just before (engine.rs 421-489). -/
noncomputable def engineLoad (p : MatchParam) (d : DataSet) (l : List Instr) : Res Loaded := do
  let _ ← mapRes (fxRate d) (allFxCodes l)
  let names ← allCurves p [] l
  let _ ← mapRes (make d.curves) names
  let _ ← mapRes (fun u => match d.dividends u with
    | some r => (do let _ ← orErr (d.stocks u); r)
    | none => .ok ()) (allUnds l)
  let _ ← mapRes (make d.curves) (allUnds l)
  let _ ← mapRes (fun u => orErr (d.stocks u)) (allUnds l)
  let _ ← mapRes (loadVol p d (names ++ allUnds l)) (allVolUnds l)
  let _ ← mapRes (fun q : String × FxCode => orErr (d.fxVols q.2)) (allQuantos l)
  let _ ← mapRes (fun q => orErr (d.corrs q)) (allQuantos l)
  let _ ← mapRes (fun e : String × Res Unit => e.2) d.pasts
  .ok { fxs := fun c => decide (c ∈ allFxCodes l), equities := fun u => decide (u ∈ allUnds l)
        curves := fun n => decide (n ∈ names ++ allUnds l), vols := fun u => decide (u ∈ allVolUnds l)
        quantos := fun q => decide (q ∈ allQuantos l), pasts := fun n => decide (n ∈ d.pasts.map Prod.fst) }

/-- `with_instruments` (engine.rs 532-659): no instruments, or one maturing by the evaluation date, is an error (the list of
currencies, 545, never is: C81) -/
def engineAccepts (eval : DT) (l : List Instr) : Res Unit :=
  if l.isEmpty then .error .err
  else do
    let _ ← allCurrencies [] l
    if (maturityUpto l eval []).isEmpty then .ok () else .error .err

/-- `with_instruments`, `with_parameter_data`, `initialize_pricers` (engine.rs 661-689) in turn, as `EngineGenerator` calls
them (engine_generator.rs 236-262): the pricer of each instrument -/
noncomputable def engineStart (p : MatchParam) (d : DataSet) (analytic : Bool) (eval : DT) (l : List Instr) : Res (List Plan) := do
  let _ ← engineAccepts eval l
  let m ← engineLoad p d l
  mapRes (createPricer p m analytic) l

/-! ### groups -/

/-- `InstrumentCategory` (engine_generator.rs 23-28) -/
structure Category where
  types : Option (List String)
  ccys : Option (List Currency)
  unds : Option (List String)

/-- `InstrumentCategory::contains` (engine_generator.rs 43-69) -/
def Category.contains (c : Category) (i : Instr) : Bool :=
  (match c.types with | some ts => decide (i.typeName ∈ ts) | none => true) &&
  (match c.ccys with | some cs => decide (i.ccy ∈ cs) | none => true) &&
  (match c.unds with | some us => decide (i.unds = [] ∨ us = i.unds) | none => true)

/-- The inner loop of `distribute_instruments` (engine_generator.rs 184-190): the group of a category, and the flags after -/
def groupOf (c : Category) : List (Instr × Bool) → List Instr × List (Instr × Bool)
  | [] => ([], [])
  | (i, taken) :: r =>
    if taken = false ∧ c.contains i = true then (i :: (groupOf c r).1, (i, true) :: (groupOf c r).2)
    else ((groupOf c r).1, (i, taken) :: (groupOf c r).2)

/-- The outer loop (engine_generator.rs 182-194): empty groups are left out -/
def distLoop : List Category → List (Instr × Bool) → List (List Instr) × List (Instr × Bool)
  | [], fl => ([], fl)
  | c :: cs, fl =>
    let g := groupOf c fl
    let r := distLoop cs g.2
    if g.1.isEmpty then r else (g.1 :: r.1, r.2)

/-- `distribute_instruments` (engine_generator.rs 179-225) -/
def distributeInstruments (cats : List Category) (l : List Instr) : Res (List (List Instr)) :=
  let r := distLoop cats (l.map fun i => (i, false))
  if r.2.all (fun x => x.2) then .ok r.1 else .error .err

/-- One group's engine putting its results into the shared map (engine_generator.rs 263-270): one entry after the other -/
def mergeInto {α : Type} (m : Map String α) : List (String × α) → Map String α
  | [] => m
  | (k, v) :: r => mergeInto (m.put k v) r

/-- `EngineGenerator::calculate` (engine_generator.rs 228-283): each group's engine runs in a thread of its own, and puts its
results into the shared map under a lock held for all of them. `engine g` is what the engine of a group answers (with it, an
error or a panic ends that group's run without results), `order` the groups in the order in which they take the lock. -/
def generatorRun {α : Type} (engine : List Instr → Res (List (String × α))) : Map String α → List (List Instr) → Map String α
  | m, [] => m
  | m, g :: r =>
    match engine g with
    | .ok res => generatorRun engine (mergeInto m res) r
    | .error _ => generatorRun engine m r

end Verif.QL

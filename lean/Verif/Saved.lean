import Verif.QL.Currency
import Verif.TE.Numeric
import Verif.TE.InstId
import Verif.Float.Ieee
/-!
# Saving and loading: the `Serialize` and `Deserialize` implementations

The text format (`serde_json`) is modelled by its values; writing and parsing the text itself, and that a finite `f32` is read back from
the decimal number written for it, are trusted. What `#[derive(Serialize, Deserialize)]` generates is modelled by `structC` and `enumC`:
a struct is an object with its fields in order; it is read from an object (unknown keys skipped, a key of a field twice is an error, an absent key is an error
unless the field is an `Option`) or from an array of exactly its fields; a variant without data is its name, or an object with the name and null.
-/
set_option autoImplicit false
namespace Verif.Saved
open Verif Verif.QL Verif.Float Verif.Civil

/-- A value of the format. `dec s q`: a number written with a fraction or exponent, standing for the floating-point number nearest to it. -/
inductive Json where
  | null
  | bool (b : Bool)
  | int (z : Int)
  | dec (s : Bool) (q : ℚ)
  | str (s : String)
  | arr (l : List Json)
  | obj (l : List (String × Json))

/-- `Serialize` and `Deserialize` of a type (`none` = `Err`) -/
structure Codec (α : Type) where
  write : α → Json
  read : Json → Option α

/-- `bool` -/
def boolC : Codec Bool := ⟨.bool, fun j => match j with | .bool b => some b | _ => none⟩

/-- An unsigned integer type of `w` bits -/
def natC (w : Nat) : Codec Nat := ⟨fun n => .int n, fun j => match j with | .int z => if 0 ≤ z ∧ z < 2 ^ w then some z.toNat else none | _ => none⟩

/-- A signed integer type of `w + 1` bits -/
def intC (w : Nat) : Codec Int := ⟨.int, fun j => match j with | .int z => if -(2 ^ w) ≤ z ∧ z < 2 ^ w then some z else none | _ => none⟩

/-- `String` -/
def strC : Codec String := ⟨.str, fun j => match j with | .str s => some s | _ => none⟩

/-- `f32` (`Real`, quantlib/src/definitions.rs): numbers that are not finite are written as null -/
def realC : Codec Fl :=
  ⟨fun x => match x with | .fin s q => .dec s q | _ => .null, fun j => match j with | .dec s q => some (.fin s q) | .int z => some (f32.ofInt z) | _ => none⟩

/-- `Option<T>` -/
def optC {α : Type} (c : Codec α) : Codec (Option α) :=
  ⟨fun o => match o with | none => .null | some x => c.write x, fun j => match j with | .null => some none | j => (c.read j).map some⟩

/-- `Vec<T>` -/
def vecC {α : Type} (c : Codec α) : Codec (List α) := ⟨fun l => .arr (l.map c.write), fun j => match j with | .arr l => l.mapM c.read | _ => none⟩

/-- `[u8; n]` -/
def bytesC (n : Nat) : Codec (List UInt8) :=
  ⟨fun l => .arr (l.map fun b => .int b.toNat), fun j => match j with
    | .arr l => if l.length = n then l.mapM fun j => ((natC 8).read j).map UInt8.ofNat else none
    | _ => none⟩

/-- A type with another representation -/
def mapC {α β : Type} (c : Codec α) (f : α → β) (g : β → α) : Codec β := ⟨fun x => c.write (g x), fun j => (c.read j).map f⟩

/-- An enum without data: `all` its variants with their names -/
def enumC {α : Type} (all : List (String × α)) (name : α → String) : Codec α :=
  ⟨fun x => .str (name x), fun j => match j with
    | .str s => all.lookup s
    | .obj [(s, .null)] => all.lookup s
    | _ => none⟩

/-! ## Structs -/

/-- A field: `missing` is its value if its key is absent (`None` for an `Option`) -/
structure Field where
  name : String
  ty : Type
  codec : Codec ty
  missing : Option ty := none

/-- The field of an `Option<T>` -/
def Field.opt {α : Type} (name : String) (c : Codec α) : Field := ⟨name, Option α, optC c, some none⟩

/-- The values of the fields -/
def Rec : List Field → Type
  | [] => Unit
  | f :: fs => f.ty × Rec fs

def writeFields : (fs : List Field) → Rec fs → List (String × Json)
  | [], _ => []
  | f :: fs, r => (f.name, f.codec.write r.1) :: writeFields fs r.2

def readFields : (fs : List Field) → List (Option Json) → Option (Rec fs)
  | [], [] => some ()
  | f :: fs, o :: os => do
    let x ← match o with | some j => f.codec.read j | none => f.missing
    let r ← readFields fs os
    some (x, r)
  | _, _ => none

/-- What is found for each name -/
def fieldsOf (names : List String) : Json → Option (List (Option Json))
  | .obj l => if names.all (fun n => (l.map (·.1)).count n ≤ 1) then some (names.map fun n => l.lookup n) else none
  | .arr l => if l.length = names.length then some (l.map some) else none
  | _ => none

/-- `#[derive(Serialize, Deserialize)]` on a struct -/
def structC (fs : List Field) : Codec (Rec fs) := ⟨fun r => .obj (writeFields fs r), fun j => (fieldsOf (fs.map (·.name)) j).bind (readFields fs)⟩

/-! ## Currencies and pairs (quantlib/src/currency.rs) -/

/-- The variants of `Currency` in the order of the source (currency.rs 8-56) -/
def currencies : List Currency :=
  [.nil, .krw, .usd, .eur, .jpy, .cny, .cnh, .gbp, .aud, .cad, .chf, .nzd, .sek, .nok, .mxn, .zar, .brl, .inr, .rub, .try_, .hkd, .sgd, .twd, .thb, .idr, .myr, .php, .vnd,
   .pkr, .lkr, .bdt, .npr, .kzt, .uzs, .kgs, .tjs, .mnt, .aed, .sar, .qar, .omr, .kwd, .bhd, .jod, .ils, .egp, .zmw]

/-- The name of a variant, which is also what `{:?}` prints: it is the same as `as_str` (currency.rs 8-56, 122-173) -/
def Currency.name (c : Currency) : String := String.ofList (c.asStr.map Char.ofNat)

/-- `derive(Serialize, Deserialize)` of `Currency` (currency.rs 5-7) -/
def currencyC : Codec Currency := enumC (currencies.map fun c => (Currency.name c, c)) Currency.name

/-- The fields of `FxCode` (currency.rs 177-180) -/
def fxCodeFields : List Field := [⟨"currency1", Currency, currencyC, none⟩, ⟨"currency2", Currency, currencyC, none⟩]

/-- `FxCode`: `Serialize` by hand (currency.rs 182-190), `Deserialize` derived (currency.rs 176) -/
def fxCodeC : Codec FxCode :=
  ⟨fun c => .str (Currency.name c.ccy1 ++ "_" ++ Currency.name c.ccy2), fun j => ((structC fxCodeFields).read j).map fun r => ⟨r.1, r.2.1⟩⟩

/-! ## Dates: `OffsetDateTime` of the crate `time` without `serde-human-readable` (quantlib/Cargo.toml 13) -/

/-- The tuple written: year, day of the year, hour, minute, second, nanosecond, hours, minutes and seconds of the offset -/
def dateWrite (d : DT) : Json :=
  let y := yearOf d.day
  .arr ([y, d.day - dby y, (d.tod / 3600000000000 : Nat), (d.tod / 60000000000 % 60 : Nat), (d.tod / 1000000000 % 60 : Nat), (d.tod % 1000000000 : Nat),
    d.off.tdiv 3600, (d.off.tdiv 60).tmod 60, d.off.tmod 60].map Json.int)

/-- Read back with the checks of `Date::from_ordinal_date`, `Time::from_hms_nano` and `UtcOffset::from_hms` (which gives all parts of an offset the sign of
the first that is not zero) -/
def dateRead : Json → Option DT
  | .arr [.int y, .int o, .int h, .int mi, .int s, .int ns, .int oh, .int om, .int os] =>
    if -9999 ≤ y ∧ y ≤ 9999 ∧ 1 ≤ o ∧ o ≤ yearLen y ∧ 0 ≤ h ∧ h < 24 ∧ 0 ≤ mi ∧ mi < 60 ∧ 0 ≤ s ∧ s < 60 ∧ 0 ≤ ns ∧ ns < 1000000000 ∧
        -25 ≤ oh ∧ oh ≤ 25 ∧ -59 ≤ om ∧ om ≤ 59 ∧ -59 ≤ os ∧ os ≤ 59 then
      let off := if 0 < oh then oh * 3600 + |om| * 60 + |os|
        else if oh < 0 then oh * 3600 - |om| * 60 - |os|
        else if 0 < om then om * 60 + |os|
        else if om < 0 then om * 60 - |os|
        else os
      some ⟨dby y + o, (h * 3600000000000 + mi * 60000000000 + s * 1000000000 + ns).toNat, off⟩
    else none
  | _ => none

def dateC : Codec DT := ⟨dateWrite, dateRead⟩

/-! ## Instruments -/

/-- `OptionType`, `OptionExerciseType`, `OptionDailySettlementType` (quantlib/src/enums.rs 63-84) -/
inductive OptType | call | put
  deriving DecidableEq
inductive Exercise | european | american | bermudan
  deriving DecidableEq
inductive Settlement | settled | notSettled
  deriving DecidableEq

def OptType.name : OptType → String | .call => "Call" | .put => "Put"
def Exercise.name : Exercise → String | .european => "European" | .american => "American" | .bermudan => "Bermudan"
def Settlement.name : Settlement → String | .settled => "Settled" | .notSettled => "NotSettled"

def optTypeC : Codec OptType := enumC [("Call", .call), ("Put", .put)] OptType.name
def exerciseC : Codec Exercise := enumC [("European", .european), ("American", .american), ("Bermudan", .bermudan)] Exercise.name
def settlementC : Codec Settlement := enumC [("Settled", .settled), ("NotSettled", .notSettled)] Settlement.name

/-- `VanillaOption` (instruments/vanilla_option.rs 10-27) -/
def optionFields : List Field :=
  [⟨"strike", Fl, realC, none⟩, ⟨"unit_notional", Fl, realC, none⟩, ⟨"issue_date", DT, dateC, none⟩, ⟨"last_trade_date", DT, dateC, none⟩, ⟨"maturity", DT, dateC, none⟩,
   ⟨"settlement_date", DT, dateC, none⟩, ⟨"underlying_codes", List String, vecC strC, none⟩, ⟨"underlying_currency", Currency, currencyC, none⟩,
   ⟨"currency", Currency, currencyC, none⟩, .opt "quanto_fx_code" fxCodeC, ⟨"option_type", OptType, optTypeC, none⟩, ⟨"exercise_type", Exercise, exerciseC, none⟩,
   ⟨"daily_settlement_type", Settlement, settlementC, none⟩, ⟨"name", String, strC, none⟩, ⟨"code", String, strC, none⟩]

/-- `VanillaOption::new` (vanilla_option.rs 53-94) -/
def optionNew (strike notional : Fl) (issue last maturity settle : DT) (unds : List String) (und ccy : Currency) (ty : OptType) (ex : Exercise) (ds : Settlement)
    (name code : String) : Rec optionFields :=
  (strike, notional, issue, last, maturity, settle, unds, und, ccy, if ccy ≠ und then some ⟨und, ccy⟩ else none, ty, ex, ds, name, code, ())

/-- `Futures` (instruments/futures.rs 9-22) -/
def futuresFields : List Field :=
  [⟨"average_trade_price", Fl, realC, none⟩, ⟨"first_trade_date", DT, dateC, none⟩, ⟨"last_trade_date", DT, dateC, none⟩, ⟨"maturity", DT, dateC, none⟩,
   ⟨"settlement_date", DT, dateC, none⟩, ⟨"unit_notional", Fl, realC, none⟩, ⟨"currency", Currency, currencyC, none⟩, ⟨"underlying_currency", Currency, currencyC, none⟩,
   ⟨"underlying_codes", List String, vecC strC, none⟩, ⟨"name", String, strC, none⟩, ⟨"code", String, strC, none⟩]

/-- `Futures::new` (futures.rs 43-74) -/
def futuresNew (avg : Fl) (first last maturity settle : DT) (notional : Fl) (ccy und : Currency) (code : String) (name own : String) : Rec futuresFields :=
  (avg, first, last, maturity, settle, notional, ccy, und, [code], name, own, ())

/-- `FxFutures` (instruments/fx_futures.rs 9-22) -/
def fxFuturesFields : List Field :=
  [⟨"average_trade_price", Fl, realC, none⟩, ⟨"first_trade_date", DT, dateC, none⟩, ⟨"last_trade_date", DT, dateC, none⟩, ⟨"maturity", DT, dateC, none⟩,
   ⟨"settlement_date", DT, dateC, none⟩, ⟨"unit_notional", Fl, realC, none⟩, ⟨"underlying_currency", Currency, currencyC, none⟩, ⟨"currency", Currency, currencyC, none⟩,
   ⟨"fx_code", FxCode, fxCodeC, none⟩, ⟨"name", String, strC, none⟩, ⟨"code", String, strC, none⟩]

/-- `FxFutures::new` (fx_futures.rs 43-72) -/
def fxFuturesNew (avg : Fl) (first last maturity settle : DT) (notional : Fl) (ccy und : Currency) (name code : String) : Rec fxFuturesFields :=
  (avg, first, last, maturity, settle, notional, und, ccy, ⟨und, ccy⟩, name, code, ())

/-- The parts of a swap that are not looked into: schedules, rate index, calendar, conventions and kind, with what is derived for them -/
structure SwapParts where
  sch : Type
  idx : Type
  cal : Type
  dcc : Type
  bdc : Type
  freq : Type
  kind : Type
  schC : Codec sch
  idxC : Codec idx
  calC : Codec cal
  dccC : Codec dcc
  bdcC : Codec bdc
  freqC : Codec freq
  kindC : Codec kind

/-- `PlainSwap` (instruments/plain_swap.rs 42-80) -/
def swapFields (P : SwapParts) : List Field :=
  [⟨"fixed_legs", P.sch, P.schC, none⟩, ⟨"floating_legs", P.sch, P.schC, none⟩, .opt "fixed_rate" realC, .opt "rate_index" P.idxC, .opt "floating_compound_tenor" strC,
   ⟨"calendar", P.cal, P.calC, none⟩, ⟨"unit_notional", Fl, realC, none⟩, ⟨"issue_date", DT, dateC, none⟩, ⟨"effective_date", DT, dateC, none⟩, ⟨"maturity", DT, dateC, none⟩,
   ⟨"fixed_leg_currency", Currency, currencyC, none⟩, ⟨"floating_leg_currency", Currency, currencyC, none⟩, .opt "floating_to_fixed_fxcode" fxCodeC,
   .opt "initial_fixed_side_endorsement" realC, .opt "initial_floating_side_payment" realC, .opt "last_fixed_side_payment" realC, .opt "last_floating_side_endorsement" realC,
   ⟨"fixed_daycounter", P.dcc, P.dccC, none⟩, ⟨"floating_daycounter", P.dcc, P.dccC, none⟩, ⟨"fixed_busi_convention", P.bdc, P.bdcC, none⟩,
   ⟨"floating_busi_convention", P.bdc, P.bdcC, none⟩, ⟨"fixed_frequency", P.freq, P.freqC, none⟩, ⟨"floating_frequency", P.freq, P.freqC, none⟩,
   ⟨"fixing_gap_days", Int, intC 63, none⟩, ⟨"payment_gap_days", Int, intC 63, none⟩, ⟨"specific_type", P.kind, P.kindC, none⟩, ⟨"name", String, strC, none⟩,
   ⟨"code", String, strC, none⟩]

/-- The arguments of `PlainSwap::new` and the kind it finds (plain_swap.rs 84-202; C63) -/
structure SwapArgs (P : SwapParts) where
  fixedLegs : P.sch
  floatingLegs : P.sch
  fixedRate : Option Fl
  rateIndex : Option P.idx
  tenor : Option String
  calendar : P.cal
  notional : Fl
  issue : DT
  effective : DT
  maturity : DT
  fixedCcy : Currency
  floatingCcy : Currency
  initialFixed : Option Fl
  initialFloating : Option Fl
  lastFixed : Option Fl
  lastFloating : Option Fl
  fixedDcc : P.dcc
  floatingDcc : P.dcc
  fixedBdc : P.bdc
  floatingBdc : P.bdc
  fixedFreq : P.freq
  floatingFreq : P.freq
  fixingGap : Int
  paymentGap : Int
  kind : P.kind
  name : String
  code : String

/-- What `PlainSwap::new` and `new_from_conventions` make of them (plain_swap.rs 203-246, 405-448) -/
def swapNew {P : SwapParts} (a : SwapArgs P) : Rec (swapFields P) :=
  (a.fixedLegs, a.floatingLegs, a.fixedRate, a.rateIndex, a.tenor, a.calendar, a.notional, a.issue, a.effective, a.maturity, a.fixedCcy, a.floatingCcy,
   if a.fixedCcy = a.floatingCcy then none else some ⟨a.floatingCcy, a.fixedCcy⟩, a.initialFixed, a.initialFloating, a.lastFixed, a.lastFloating, a.fixedDcc, a.floatingDcc,
   a.fixedBdc, a.floatingBdc, a.fixedFreq, a.floatingFreq, a.fixingGap, a.paymentGap, a.kind, a.name, a.code, ())

/-! ## Converters (trading-engine/src/utils/numeric_converter.rs) -/

open Verif.TE.Num

/-- `NumReprCfg` (numeric_converter.rs 27-38) -/
def cfgFields : List Field :=
  [⟨"digit_length", Nat, natC 64, none⟩, ⟨"decimal_point_length", Nat, natC 64, none⟩, ⟨"is_signed", Bool, boolC, none⟩, ⟨"unused_length", Nat, natC 64, none⟩,
   ⟨"total_length", Nat, natC 64, none⟩, .opt "float_normalizer" (intC 31), ⟨"drop_decimal_point", Bool, boolC, none⟩]

/-- A configuration with its normalizer, which the model of the converters leaves out -/
structure FullCfg where
  cfg : Cfg
  normalizer : Option Int

def cfgC : Codec FullCfg :=
  mapC (structC cfgFields) (fun r => match r with | (d, c, s, u, t, n, p, ()) => ⟨⟨d, c, s, u, t, p⟩, n⟩)
    (fun f => (f.cfg.digit, f.cfg.dec, f.cfg.signed, f.cfg.unused, f.cfg.total, f.normalizer, f.cfg.drop, ()))

/-- `IntegerConverter::new` with the sums and differences of `usize` (numeric_converter.rs 40-62, 344-391) -/
def convNew (m : Mode) (c : Cfg) : Res Conv := do
  let s ← addW 64 m c.digit c.dec
  let s ← addW 64 m s c.unused
  let s ← addW 64 m s c.signed.toNat
  if s ≠ c.total then .error .err
  else do
    let all ← subU m c.total c.unused
    let all ← subU m all c.signed.toNat
    let start ← addW 64 m c.signed.toNat c.unused
    let size ← if c.drop then subU m all c.dec else .ok all
    let dec := if c.drop then 0 else c.dec
    if size ≤ 8 then .ok ⟨c.signed, start, size, dec, size, .p8⟩
    else if size ≤ 16 then .ok ⟨c.signed, start, size, dec, size, .p16⟩
    else if size ≤ 18 then .ok ⟨c.signed, start, size, dec, size, .p32⟩
    else .error .err

/-- A converter: the configuration it was made from (field `numcfg`, numeric_converter.rs 296) and the rest -/
structure FullConv where
  of : FullCfg
  conv : Conv

/-- `derive(Serialize)` of `IntegerConverter` (numeric_converter.rs 294-305; `parser` is skipped) -/
def FullConv.write (v : FullConv) : Json :=
  .obj [("numcfg", cfgC.write v.of), ("is_signed", .bool v.conv.signed), ("start_index", .int v.conv.start), ("end_index", .int v.conv.stop),
    ("decimal_point_length", .int v.conv.dec), ("decimal_number_point_length_i32", .int (max ((v.conv.dec : Int) - 1) 0)), ("parsing_length", .int v.conv.size)]

/-- `Deserialize for IntegerConverter` (numeric_converter.rs 307-317) -/
def convRead (m : Mode) (j : Json) : Res FullConv :=
  match cfgC.read j with
  | none => .error .err
  | some f => do
    let c ← convNew m f.cfg
    .ok ⟨f, c⟩

/-- The same as a codec, an error and a panic alike -/
def convC (m : Mode) : Codec FullConv := ⟨FullConv.write, fun j => match convRead m j with | .ok v => some v | .error _ => none⟩

/-- `OrderCounter` (490-493), `OrderConverter` (510-514), `TimeStampConverter` (542-546), `YieldConverter` and `CumQntConverter` (601-616), all derived -/
def orderCounterFields (m : Mode) : List Field := [⟨"order_count", FullConv, convC m, none⟩]
def orderConverterFields (m : Mode) : List Field := [⟨"price", FullConv, convC m, none⟩, ⟨"quantity", FullConv, convC m, none⟩]
def timeConverterFields (m : Mode) : List Field := [⟨"converter", FullConv, convC m, none⟩, ⟨"offset_nanos", Nat, natC 64, none⟩]
def singleConverterFields (m : Mode) : List Field := [⟨"converter", FullConv, convC m, none⟩]

/-! ## Identifiers (trading-engine/src/types/id) -/

open Verif.TE.Id

/-- `Venue` (types/venue.rs 3-11) -/
def Venue.name : Venue → String
  | .undefined => "Undefined"
  | .ccp => "CCP"
  | .krx => "KRX"
  | .kis => "KIS"
  | .si => "SI"

def venueC : Codec Venue := enumC [("Undefined", .undefined), ("CCP", .ccp), ("KRX", .krx), ("KIS", .kis), ("SI", .si)] Venue.name

/-- `IsinCode` (isin_code.rs 6-9), `Ticker` (ticker.rs 16-19) -/
def isinC : Codec (List UInt8) := mapC (structC [⟨"isin", List UInt8, bytesC 12, none⟩]) (·.1) (fun b => (b, ()))
def tickerC : Codec (List UInt8) := mapC (structC [⟨"ticker", List UInt8, bytesC 32, none⟩]) (·.1) (fun b => (b, ()))

/-- `Symbol` (id/mod.rs 19-23): an enum with data, the name of the variant and the data -/
def symbolC : Codec Symbol :=
  ⟨fun s => match s with | .isin b => .obj [("Isin", isinC.write b)] | .ticker b => .obj [("Ticker", tickerC.write b)], fun j => match j with
    | .obj [(n, j)] => if n = "Isin" then (isinC.read j).map .isin else if n = "Ticker" then (tickerC.read j).map .ticker else none
    | _ => none⟩

/-- `IdData` (id/mod.rs 31-35) -/
def idDataC : Codec IdData :=
  mapC (structC [⟨"symbol", Symbol, symbolC, none⟩, ⟨"venue", Venue, venueC, none⟩]) (fun r => ⟨r.1, r.2.1⟩) (fun d => (d.symbol, d.venue, ()))

/-- `Serialize for InstId` (id/mod.rs 53-57): the fields of its data -/
def saveId (c : Cache) (a : Nat) : Option Json := (c.read a).map idDataC.write

/-- `Deserialize for InstId` (id/mod.rs 74-84) -/
def loadId (c : Cache) (j : Json) : Option (Nat × Cache) := (idDataC.read j).map c.intern

end Verif.Saved

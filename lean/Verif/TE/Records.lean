import Verif.TE.InstId
/-!
# Model of `trading-engine/src/types/enums.rs`, `types/inst_info.rs` and `conductor/oms/account.rs`
-/
set_option autoImplicit false
namespace Verif.TE.Records
open Verif Verif.TE.Id

/-- `OrderSide` (enums.rs 10-17) -/
inductive OrderSide
  | ask | bid
  deriving DecidableEq, Repr

/-- `as u8` -/
def OrderSide.code : OrderSide → Nat
  | .ask => 1
  | .bid => 2

/-- `OrderSide::from_u8` (enums.rs 19-27) -/
def OrderSide.fromU8 (v : Nat) : Res OrderSide :=
  if v = 1 then .ok .ask else if v = 2 then .ok .bid else .error .err

/-- `OrderSide::opposite` (account.rs 10-18) -/
def OrderSide.opposite : OrderSide → OrderSide
  | .bid => .ask
  | .ask => .bid

/-- `DataType` (enums.rs 29-35) -/
inductive DataType
  | l1 | l2 | l3
  deriving DecidableEq, Repr

/-- `as u8` -/
def DataType.code : DataType → Nat
  | .l1 => 1
  | .l2 => 2
  | .l3 => 3

/-- `DataType::from_u8` (enums.rs 37-46) -/
def DataType.fromU8 (v : Nat) : Res DataType :=
  if v = 1 then .ok .l1 else if v = 2 then .ok .l2 else if v = 3 then .ok .l3 else .error .err

/-- `TradeType` (enums.rs 48-54) -/
inductive TradeType
  | undefined | sell | buy
  deriving DecidableEq, Repr

/-- `as u8` -/
def TradeType.code : TradeType → Nat
  | .undefined => 0
  | .sell => 1
  | .buy => 2

/-- `TradeType::from_u8` (enums.rs 56-65) -/
def TradeType.fromU8 (v : Nat) : Res TradeType :=
  if v = 0 then .ok .undefined else if v = 1 then .ok .sell else if v = 2 then .ok .buy else .error .err

/-- `Currency` (enums.rs 67-77) -/
inductive Currency
  | krw | usd | eur | gbp | jpy | cny | hkd
  deriving DecidableEq, Repr

/-- `Currency::as_str` (enums.rs 80-92), as bytes -/
def Currency.text : Currency → List UInt8
  | .krw => [75, 82, 87]
  | .usd => [85, 83, 68]
  | .eur => [69, 85, 82]
  | .gbp => [71, 66, 80]
  | .jpy => [74, 80, 89]
  | .cny => [67, 78, 89]
  | .hkd => [72, 75, 68]

/-- `Currency::as_isin_bytes` (enums.rs 94-106) -/
def Currency.isinBytes : Currency → List UInt8
  | .krw => [75, 82, 87, 48, 48, 48, 48, 48, 48, 48, 48, 48]
  | .usd => [85, 83, 68, 48, 48, 48, 48, 48, 48, 48, 48, 48]
  | .eur => [69, 85, 82, 48, 48, 48, 48, 48, 48, 48, 48, 48]
  | .gbp => [71, 66, 80, 48, 48, 48, 48, 48, 48, 48, 48, 48]
  | .jpy => [74, 80, 89, 48, 48, 48, 48, 48, 48, 48, 48, 48]
  | .cny => [67, 78, 89, 48, 48, 48, 48, 48, 48, 48, 48, 48]
  | .hkd => [72, 75, 68, 48, 48, 48, 48, 48, 48, 48, 48, 48]

/-- `Currency::as_isin_code` (enums.rs 108-112): `expect` panics on an error -/
def Currency.isinCode (c : Currency) : Res (List UInt8) :=
  match isinNew c.isinBytes with
  | .ok b => .ok b
  | .error _ => .error .unwrapNone

/-- `BaseInstInfo` (inst_info.rs 21-34): the kind of instrument (a number) and its currency -/
structure Info where
  kind : Nat
  ccy : Currency
  deriving DecidableEq, Repr

/-- `BaseInstMap` (inst_info.rs 36-39), keyed by identifiers, that is, addresses (`PartialEq for InstId`); the table the identifiers
come from beside it -/
structure Directory where
  cache : Cache
  map : Nat → Option Info

/-- `BaseInstMap::new` (inst_info.rs 42-46) at the start of the program -/
def Directory.new : Directory := { cache := Cache.init, map := fun _ => none }

/-- `insert(InstId::new(..), info)` (inst_info.rs 48-50; id/mod.rs 87-92) -/
def Directory.insert (m : Directory) (d : IdData) (i : Info) : Directory :=
  let r := m.cache.intern d
  { cache := r.2, map := fun a => if a = r.1 then some i else m.map a }

/-- An identifier made for another purpose -/
def Directory.make (m : Directory) (d : IdData) : Directory := { m with cache := (m.cache.intern d).2 }

/-- `get(InstId::new(..))` (inst_info.rs 52-54) -/
def Directory.get (m : Directory) (d : IdData) : Option Info := m.map (m.cache.intern d).1

/-- What a program does with the directory -/
inductive Op
  | insert (d : IdData) (i : Info)
  | make (d : IdData)

/-- A history of calls -/
def Directory.run (m : Directory) : List Op → Directory
  | [] => m
  | .insert d i :: l => (m.insert d i).run l
  | .make d :: l => (m.make d).run l

/-- `Balance` (account.rs 20-28); quantities are 64 bit numbers, here natural -/
structure Balance where
  side : OrderSide
  outstanding : Nat
  pending : Nat
  liquidatable : Nat
  upper : Option Nat
  lower : Option Nat
  deriving DecidableEq, Repr

/-- `Balance::initialize` (account.rs 31-40) -/
def Balance.initialize (s : OrderSide) (q : Nat) : Balance :=
  { side := s, outstanding := q, pending := 0, liquidatable := q, upper := none, lower := none }

/-- `without_short_sell`, `with_upper_bound`, `with_lower_bound` (account.rs 42-56) -/
inductive Bound
  | noShort
  | upper (q : Nat)
  | lower (q : Nat)
  deriving DecidableEq, Repr

def Balance.bound (b : Balance) : Bound → Balance
  | .noShort => { b with lower := some 0 }
  | .upper q => { b with upper := some q }
  | .lower q => { b with lower := some q }

/-- `is_empty` (account.rs 58-61) -/
def Balance.isEmpty (b : Balance) : Bool := b.outstanding == 0

end Verif.TE.Records

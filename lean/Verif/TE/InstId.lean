import Verif.Basic
/-!
# Model of instrument identifiers

`trading-engine/src/types/id/mod.rs`, `types/id/isin_code.rs`, `types/id/ticker.rs`, `types/venue.rs`,
`utils/checkers.rs`. The table of interned identifiers is only touched with its mutex held, so every history of
calls, from however many threads, is a sequence of calls. An address (`&'static IdData`, leaked and never freed) is a
number: the position of the data in the sequence of leaked boxes. The hash map is a function from keys to addresses.
Serialization formats are not modelled: `Deserialize` is modelled from the point where the data has been read.
-/
set_option autoImplicit false
namespace Verif.TE.Id
open Verif

/-- `Venue` (types/venue.rs 4-11). -/
inductive Venue
  | undefined | ccp | krx | kis | si
  deriving DecidableEq, Repr

/-- `contains_white_space` (utils/checkers.rs 3-5): a blank or a tab. -/
def whiteSpace (b : List UInt8) : Bool := b.contains 32 || b.contains 9

/-- `is_ascii` (utils/checkers.rs 15-17). -/
def isAscii (b : List UInt8) : Bool := b.all (· < 128)

/-- `IsinCode::new` (isin_code.rs 18-35): the code is the array of bytes. -/
def isinNew (b : List UInt8) : Res (List UInt8) :=
  if whiteSpace b then .error .err
  else if !isAscii b then .error .err
  else if b.length ≠ 12 then .error .err
  else .ok b

/-- `Ticker::new` (ticker.rs 28-36): at most 32 bytes, filled up with zeros on the right. -/
def tickerNew (b : List UInt8) : Res (List UInt8) :=
  if b.length > 32 then .error .err else .ok (b ++ List.replicate (32 - b.length) 0)

/-- `Symbol` (id/mod.rs 20-23). -/
inductive Symbol
  | isin (b : List UInt8)
  | ticker (b : List UInt8)
  deriving DecidableEq, Repr

/-- `IdData` (id/mod.rs 32-35). -/
structure IdData where
  symbol : Symbol
  venue : Venue
  deriving DecidableEq, Repr

/-- `IdData::default()` (id/mod.rs 25-29 and 31; isin_code.rs 11-15; venue.rs 7). -/
def IdData.default : IdData := ⟨.isin (List.replicate 12 0), .krx⟩

/-- The memory of leaked boxes and the table `ID_CACHE` (id/mod.rs 37-50). -/
structure Cache where
  boxes : List IdData
  table : IdData → Option Nat

/-- The table right after its creation (id/mod.rs 38-47): the default identifier at address 0. -/
def Cache.init : Cache := ⟨[IdData.default], fun d => if d = IdData.default then some 0 else none⟩

/-- `InstId::new` (id/mod.rs 87-92) and the second half of `InstId::deserialize` (id/mod.rs 79-82):
`entry(data).or_insert_with(leak a copy)`. Returns the address. -/
def Cache.intern (c : Cache) (d : IdData) : Nat × Cache :=
  match c.table d with
  | some a => (a, c)
  | none => (c.boxes.length, ⟨c.boxes ++ [d], fun e => if e = d then some c.boxes.length else c.table e⟩)

/-- `InstId::default()` (id/mod.rs 68-72, 49). -/
def Cache.defaultId (c : Cache) : Res Nat :=
  match c.table IdData.default with
  | some a => .ok a
  | none => .error .unwrapNone

/-- `get_id`, `get_id_clone` (id/mod.rs 94-104): dereferencing the address. -/
def Cache.read (c : Cache) (a : Nat) : Option IdData := c.boxes[a]?

/-- `symbol_str` (id/mod.rs 106-111), as the bytes of the string. -/
def Cache.symbolBytes (c : Cache) (a : Nat) : Option (List UInt8) :=
  (c.read a).map fun d => match d.symbol with | .isin b => b | .ticker b => b

/-- `PartialEq for InstId` (id/mod.rs 118-122): equality of addresses. -/
def sameId (a b : Nat) : Bool := a == b

/-- A history: the identifiers interned one after the other, with the addresses returned. -/
def internAll : Cache → List IdData → List Nat × Cache
  | c, [] => ([], c)
  | c, d :: l =>
    let (a, c) := c.intern d
    let (as, c) := internAll c l
    (a :: as, c)

end Verif.TE.Id

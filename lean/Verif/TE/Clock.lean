import Verif.TE.Numeric
/-!
# Model of `TimeStampConverter` and `DateUnixNanoGenerator`

`trading-engine/src/utils/numeric_converter.rs` 542-600 and `trading-engine/src/types/timestamp.rs`.
`get_unix_nano()` (the system clock) only feeds the `update_stamp` field; it is a parameter `now`. Logging is
not modelled.
-/
set_option autoImplicit false
namespace Verif.TE.Clock
open Verif Verif.TE.Num

/-- `HOUR_NANOSCALE` (timestamp.rs 18). -/
def HOUR : Nat := 3600000000000
/-- `DAY_NANOSCALE` (timestamp.rs 19). -/
def DAY : Nat := 86400000000000
/-- `FIFTEEN_HOURS_NANOSCALE` (timestamp.rs 20). -/
def FIFTEEN : Nat := 54000000000000

/-- `DateUnixNanoGenerator` (timestamp.rs 36-40). -/
structure Gen where
  date : Nat
  prev : Nat
  update : Nat
  deriving DecidableEq, Repr

/-- `DateUnixNanoGenerator::from_unixnano` (timestamp.rs 79-87): cannot overflow. -/
def Gen.fromUnixNano (nano now : Nat) : Gen := { date := nano / DAY * DAY, prev := 0, update := now }

/-- `From<time::Date>` (timestamp.rs 51-61): `days` is the number of days since 1970-01-01 (a date before 1970
or after 2554 would wrap in the `as u64` cast and is outside the model). -/
def Gen.fromDate (days now : Nat) : Gen := { date := days * DAY, prev := 0, update := now }

/-- `set_timestamp` (timestamp.rs 101-107); `set_today` (110-115) is the same with the system clock. -/
def Gen.setTimestamp (g : Gen) (stamp : Nat) : Gen := { g with date := stamp / DAY * DAY, update := stamp }

/-- `cache_timestamp` (timestamp.rs 73-76). -/
def Gen.cacheTimestamp (g : Gen) (stamp : Nat) : Gen := { g with prev := stamp }

/-- `increment` (timestamp.rs 117-121). -/
def Gen.increment (m : Mode) (g : Gen) (stamp : Nat) : Res Gen := do
  let d ← addU m g.date DAY
  .ok { g with date := d, update := stamp }

/-- The `while` loop of `parse_hhmmssuuuuuu` (numeric_converter.rs 569-585). The exit test depends on `cur`
only, so a run of 2^64 iterations repeats a value of `cur` and never ends: `fuel` is started at 2^64. -/
def dayLoop (m : Mode) (prev stamp : Nat) : Nat → Gen → Nat → Res (Gen × Nat)
  | 0, _, _ => .error .diverges
  | fuel + 1, g, cur => do
    let lim ← addU m FIFTEEN cur
    if lim ≤ prev then do
      let g ← g.increment m stamp
      let cur ← addU m cur DAY
      dayLoop m prev stamp fuel g cur
    else .ok (g, cur)

/-- `TimeStampConverter::parse_hhmmssuuuuuu` (numeric_converter.rs 556-590). `offset` is the field
`offset_nanos`; `stamp` is the system time stamp (given, or read from the clock). -/
def parseStamp (m : Mode) (offset : Nat) (v : Slice) (stamp : Nat) (g : Gen) : Res (Nat × Gen) := do
  let us ← v.sub 6 12
  let us ← under8 m us 6
  let us ← mulW 64 m us 1000
  let hms ← v.sub 0 6
  let hms ← parseHhmmss m hms
  let cur ← addU m us hms
  let cur ← addU m cur offset
  let cur ← addU m cur g.date
  let (g', cur') ← dayLoop m g.prev stamp U64 g cur
  .ok (cur', { g' with prev := cur' })

/-- `krx_timestamp_converter` (krx_converter.rs 262-279): offset of 9 hours. -/
def krxOffset : Nat := 9 * HOUR

/-- Parsing a stream of fields with one generator, as the exchange feed does: the stamps returned so far and
the generator, or the first fault. -/
def parseStream (m : Mode) (offset : Nat) : List (Slice × Nat) → Gen → Res (List Nat × Gen)
  | [], g => .ok ([], g)
  | (v, stamp) :: rest, g => do
    let (x, g) ← parseStamp m offset v stamp g
    let (xs, g) ← parseStream m offset rest g
    .ok (x :: xs, g)

/-- `diff_in_nanos` (timestamp.rs 174-177) as the exact integer before the cast to float. -/
def diffNanos (m : Mode) (a b : Nat) : Res Nat := subU m a b

/-- `diff_in_micros` … `diff_in_days` (timestamp.rs 179-213): `div_rem` by the scale, then quotient plus
remainder over scale, here as the pair (quotient, remainder). -/
def diffScale (m : Mode) (scale a b : Nat) : Res (Nat × Nat) := do
  let d ← subU m a b
  let q := d / scale
  let p ← mulW 64 m q scale
  let r ← subU m d p
  .ok (q, r)

end Verif.TE.Clock

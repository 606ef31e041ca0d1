import Verif.TE.Clock
import Verif.QL.DateTime
/-!
# Dates of time stamps: `trading-engine/src/types/timestamp.rs` 42-61, 136-166

Dates are those of the `time` crate (`Verif/QL/DateTime`), the same crate in both workspaces.
-/
set_option autoImplicit false
namespace Verif.TE.Clock
open Verif Verif.Civil Verif.QL

/-- `OffsetDateTime::from_unix_timestamp_nanos`: UTC, an error outside the years -9999 to 9999. -/
def ofNanos (z : Int) : Res DT :=
  if minDay ≤ epoch + z / dayNs ∧ epoch + z / dayNs ≤ maxDay then .ok ⟨epoch + z / dayNs, (z % dayNs).toNat, 0⟩ else .error .err

/-- `TimeStamp::to_datetime` (timestamp.rs 145-149); the `Debug` output unwraps the same call (137-142). -/
def toDatetime (stamp : Nat) : Res DT := do
  let d ← ofNanos stamp
  .ok d

/-- `TimeStamp::to_date_utc` (timestamp.rs 161-165). -/
def toDateUtc (stamp : Nat) : Res Int := do
  let d ← ofNanos stamp
  .ok d.day

/-- `From<time::Date>` (timestamp.rs 51-61) of any date: the nanoseconds since 1970-01-01, an `i128`, lose all but their low 64 bits in `as u64`. -/
def Gen.ofDate (day : Int) (now : Nat) : Gen := { date := ((day - epoch) * dayNs % 2 ^ 64).toNat, prev := 0, update := now }

/-- `Debug` of the generator (timestamp.rs 42-49): the three date-times it shows, or the panic of an `unwrap`. -/
def Gen.shown (g : Gen) : Res (Int × DT × DT) :=
  match ofNanos g.date, ofNanos g.prev, ofNanos g.update with
  | .ok d, .ok p, .ok u => .ok (d.day, p, u)
  | _, _, _ => .error .unwrapNone

end Verif.TE.Clock

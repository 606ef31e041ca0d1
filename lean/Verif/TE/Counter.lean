import Verif.Basic
/-!
# Model of `trading-engine/src/utils/counter.rs` and `VirtualOrderId` (types/base.rs 11-26)

A call of `next` touches the shared counter in one atomic `fetch_add`, so an execution of any number of threads
is an order of those operations: a list of thread names. `usize` has 64 bits, so both widths are one model.
-/
set_option autoImplicit false
namespace Verif.TE.Counter
open Verif

/-- `CounterUsize` / `CounterU64` (counter.rs 4-9, 37-42); `cur` is the atomic. -/
structure Counter where
  start : Nat
  stop : Nat
  cur : Nat
  deriving DecidableEq, Repr

/-- `new` (counter.rs 12-18, 45-51). -/
def Counter.new (start stop : Nat) : Counter := { start := start, stop := stop, cur := start }

/-- `next` (counter.rs 20-34, 53-67): `fetch_add(1)` (which wraps in every build), then `Err` if the old value is
above the end; `none` = `Err`. -/
def Counter.next (c : Counter) : Option Nat × Counter :=
  let res := c.cur
  let c := { c with cur := (c.cur + 1) % U64 }
  if res > c.stop then (none, c) else (some res, c)

/-- `UnboundedCounterUsize` / `UnboundedCounterU64` `next` (counter.rs 82-84, 99-101). -/
def unboundedNext (cur : Nat) : Nat × Nat := (cur, (cur + 1) % U64)

/-- The calls of `next` in the order of their atomic operations: who called, and what was returned. -/
def run : List Nat → Counter → List (Nat × Option Nat)
  | [], _ => []
  | t :: ts, c => (t, c.next.1) :: run ts c.next.2

/-- The same for the unbounded counter. -/
def runUnbounded : List Nat → Nat → List (Nat × Nat)
  | [], _ => []
  | t :: ts, c => (t, (unboundedNext c).1) :: runUnbounded ts (unboundedNext c).2

/-- `VirtualOrderId::next_id` (base.rs 21-25). -/
def nextId (m : Mode) (id : Nat) : Res (Nat × Nat) := do
  let n ← addU m id 1
  .ok (id, n)

end Verif.TE.Counter

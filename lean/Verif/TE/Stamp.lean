import Verif.Basic
/-!
# Model of `trading-engine/src/utils/timer.rs` 6-55: time stamps of a process

Any number of threads (numbers) call `get_unix_nano`. `raw` is the counter of the crate `quanta`, which does not run backwards and is the same for all threads
(its own promise, trusted); `ns` is its conversion of counter differences to nanoseconds (`delta_as_nanos`, which subtracts modulo 2^64). `sys` is the system time in
nanoseconds since 1970, absent before 1970; it may be set to anything at any time. Which pairs of readings are possible is given by `W`. The two `Lazy` statics are
initialized by the thread that first needs them; the instant at which its initializer reads the clock is taken for the whole initialization (others wait for it).
A `Lazy` whose initializer panicked is poisoned: every later use panics.
-/
set_option autoImplicit false
namespace Verif.TE.Stamp
open Verif

/-- Where a thread is in `get_unix_nano`: outside; called when the counter was `c`; past the clock anchor; past the reading `r` of the counter -/
inductive Pc where
  | idle
  | called (c : Nat)
  | anchored (c : Nat)
  | read (c r : Nat)
  deriving DecidableEq

/-- The clocks, `UNIVERSIAL_CLOCK_ANCHOR` (timer.rs 51), `UNIVERSIAL_SYSTEMTIME_ANCHOR` (timer.rs 44-50; `some none` = poisoned) and the threads -/
structure State where
  raw : Nat
  sys : Option Nat
  anchor : Option Nat
  base : Option (Option Nat)
  pc : Nat → Pc

def start (raw : Nat) (sys : Option Nat) : State := ⟨raw, sys, none, none, fun _ => .idle⟩

/-- `UNIX_NANO_ANCHOR_BUFFER` (timer.rs 6) -/
def BUFFER : Nat := 10

/-- The initializer of `UNIVERSIAL_SYSTEMTIME_ANCHOR` (timer.rs 44-50) -/
def sysInit (m : Mode) : Option Nat → Option Nat
  | none => none
  | some v => match addU m v BUFFER with
    | .ok w => some w
    | .error _ => none

/-- `delta_as_nanos(anchor, r) + base` (timer.rs 53-54) -/
def value (m : Mode) (ns : Nat → Nat) (a r w : Nat) : Res Nat := addU m (ns ((r + U64 - a) % U64)) w

/-- The call of thread `t`, made when the counter was `c`, returns `x` when it is `q`, or panics. -/
inductive Ev where
  | ret (t c q x : Nat)
  | fail (t c q : Nat)
  deriving DecidableEq

def State.at (s : State) (t : Nat) (p : Pc) : Nat → Pc := fun u => if u = t then p else s.pc u

/-- How a call ends -/
def outcome (m : Mode) (ns : Nat → Nat) (t c q a r : Nat) (base : Option Nat) : Ev :=
  match base with
  | none => .fail t c q
  | some w => match value m ns a r w with
    | .ok x => .ret t c q x
    | .error _ => .fail t c q

/-- One step of the clocks or of a thread in `get_unix_nano` (timer.rs 43-55) -/
inductive Step (W : Nat → Option Nat → Prop) (m : Mode) (ns : Nat → Nat) : State → List Ev → State → Prop
  /-- time passes, the system time is what it is or is set -/
  | tick (s : State) (raw : Nat) (sys : Option Nat) : s.raw ≤ raw → raw < U64 → W raw sys → Step W m ns s [] { s with raw := raw, sys := sys }
  | call (s : State) (t : Nat) : s.pc t = .idle → Step W m ns s [] { s with pc := s.at t (.called s.raw) }
  /-- `*UNIVERSIAL_CLOCK_ANCHOR` -/
  | anchor (s : State) (t c : Nat) : s.pc t = .called c →
      Step W m ns s [] { s with anchor := some (s.anchor.getD s.raw), pc := s.at t (.anchored c) }
  /-- `UNIVERSIAL_CLOCK.raw()` -/
  | read (s : State) (t c : Nat) : s.pc t = .anchored c → Step W m ns s [] { s with pc := s.at t (.read c s.raw) }
  /-- `+ *UNIVERSIAL_SYSTEMTIME_ANCHOR` -/
  | stamp (s : State) (t c r a : Nat) : s.pc t = .read c r → s.anchor = some a →
      Step W m ns s [outcome m ns t c s.raw a r (s.base.getD (sysInit m s.sys))] { s with base := some (s.base.getD (sysInit m s.sys)), pc := s.at t .idle }

/-- All executions from the start of the process: the ends of calls in order, and the state -/
inductive Run (W : Nat → Option Nat → Prop) (m : Mode) (ns : Nat → Nat) : List Ev → State → Prop
  | start (raw : Nat) (sys : Option Nat) : raw < U64 → W raw sys → Run W m ns [] (start raw sys)
  | step {es es' : List Ev} {s s' : State} : Run W m ns es s → Step W m ns s es' s' → Run W m ns (es ++ es') s'

/-! ## The clock of one thread (timer.rs 14-38) -/

/-- The thread's `SYSTEMTIME_ANCHOR` and `CLOCK_ANCHOR` -/
structure Local where
  base : Nat
  anchor : Nat

/-- One call of `get_thread_local_unix_nano`: the system time is read at `sys` and then the counter is `c` if the thread has no anchors yet; the counter is `r` at the end.
A panic (system time before 1970, overflow) leaves the thread without anchors. -/
def Local.call (m : Mode) (ns : Nat → Nat) (l : Option Local) (sys : Option Nat) (c r : Nat) : Option Local × Res Nat :=
  match l with
  | some l => (some l, value m ns l.anchor r l.base)
  | none => match sysInit m sys with
    | none => (none, .error .unwrapNone)
    | some w => (some ⟨w, c⟩, value m ns c r w)

/-- The calls of one thread: for each the readings and the result -/
inductive LocalRun (m : Mode) (ns : Nat → Nat) : List (Option Nat × Nat × Nat × Res Nat) → Option Local → Prop
  | nil : LocalRun m ns [] none
  | snoc {tr : List (Option Nat × Nat × Nat × Res Nat)} {l : Option Local} (sys : Option Nat) (c r : Nat) : LocalRun m ns tr l →
      LocalRun m ns (tr ++ [(sys, c, r, (Local.call m ns l sys c r).2)]) (Local.call m ns l sys c r).1

end Verif.TE.Stamp

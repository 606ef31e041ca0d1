import Verif.Basic
/-!
# Model of `trading-engine/src/logger.rs`

The callers (any number of threads) and the worker thread share an unbounded first-in-first-out channel, so an
execution is a sequence of actions: a caller sends, a flag is changed, or the worker takes the next message. The
worker is modelled from the point where the channel exists (first use of `LOG_SENDER`). `BufWriter<File>` is modelled
with its capacity of 8192 bytes (standard library); the file system as the journal of the appends it was asked for,
each of which succeeds; opening a file may fail. The text of a message (JSON, date) is computed by the closure the
worker calls, which may panic. The clock is a parameter of every step of the worker.
-/
set_option autoImplicit false
namespace Verif.TE.Log
open Verif

/-- Text, as bytes. -/
abbrev Bytes := List UInt8

/-- `LogLevel` (logger.rs 164-171). -/
inductive Level
  | nil | error | warn | info | debug | trace
  deriving DecidableEq, Repr

/-- `LogLevel::as_usize` (logger.rs 174-183); the derived order (163) is that of the declaration. -/
def Level.num : Level → Nat
  | .nil => 0 | .error => 1 | .warn => 2 | .info => 3 | .debug => 4 | .trace => 5

/-- `LogLevel::from_usize` (logger.rs 185-198). -/
def Level.read : Nat → Res Level
  | 0 => .ok .nil | 1 => .ok .error | 2 => .ok .warn | 3 => .ok .info | 4 => .ok .debug | 5 => .ok .trace
  | _ => .error .err

/-- `LogMessage` (logger.rs 532-539). A lazy message is the outcome of its closure: text, or `none` for a panic. -/
inductive Msg
  | lazy (e : Option Bytes)
  | flushing (e : Option Bytes)
  | static (s : Bytes)
  | setFile (path : String)
  | setCore
  | close
  deriving DecidableEq, Repr

/-- `LOG_MESSAGE_BUFFER_SIZE` (logger.rs 22). -/
def bufferSize : Nat := 2000000

/-- `LOG_MESSAGE_FLUSH_INTERVAL` (logger.rs 23), compared with nanoseconds. -/
def flushInterval : Nat := 2000000

/-- The capacity of a `BufWriter` (standard library). -/
def capacity : Nat := 8192

/-- `BufWriter<File>`: the file it appends to and what it holds back. -/
structure Writer where
  path : String
  buf : Bytes

/-- The journal of appends: file and bytes. -/
abbrev Disk := List (String × Bytes)

/-- The bytes of a file that held `old` before. -/
def Disk.content (d : Disk) (old : String → Bytes) (path : String) : Bytes :=
  old path ++ (d.filterMap fun e => if e.1 = path then some e.2 else none).flatten

/-- `write_all` (standard library: `BufWriter::write_all`, `write_all_cold`). -/
def Writer.writeAll (w : Writer) (d : Disk) (s : Bytes) : Writer × Disk :=
  if s.length < capacity - w.buf.length then ({ w with buf := w.buf ++ s }, d)
  else
    let (w, d) := if s.length > capacity - w.buf.length then
      ({ w with buf := [] }, d ++ [(w.path, w.buf)]) else (w, d)
    if s.length ≥ capacity then (w, d ++ [(w.path, s)]) else ({ w with buf := w.buf ++ s }, d)

/-- `flush` (and the destructor). -/
def Writer.flush (w : Writer) (d : Disk) : Writer × Disk := ({ w with buf := [] }, d ++ [(w.path, w.buf)])

/-- The variables of the worker thread (logger.rs 35-39). -/
structure Worker where
  queue : List Bytes
  last : Nat
  writer : Option Writer

/-- What the outside contributes to one step of the worker: two readings of the clock, whether a file can be opened,
whether the thread can be bound to a core. -/
structure Env where
  now : Nat
  later : Nat
  opens : Bool
  core : Bool

/-- The files, and the texts printed (each followed by a line break). -/
structure Out where
  disk : Disk
  console : List Bytes

/-- What becomes of the worker: it goes on, it leaves the loop, or it panics. -/
inductive Outcome
  | goes (w : Worker)
  | ends
  | panics

/-- Writing the queue (logger.rs 53-61, 70-77, 89-97). -/
def Worker.drain (report : Bool) (w : Worker) (wr : Writer) (later : Nat) (o : Out) : Worker × Out :=
  let output := w.queue.flatten
  let (wr, d) := wr.writeAll o.disk output
  ({ queue := [], last := later, writer := some wr }, ⟨d, if report then o.console ++ [output] else o.console⟩)

/-- Is the queue to be written (logger.rs 50-52, 86-88)? Measured in messages and bytes of the new message, before it is
put into the queue. -/
def Worker.due (m : Mode) (w : Worker) (s : Bytes) (now : Nat) : Res Bool :=
  if w.queue.length + s.length > bufferSize then .ok true
  else do
    let dt ← subU m now w.last
    .ok (decide (dt > flushInterval))

/-- A message with its text, not flushing (logger.rs 43-63, 79-99). -/
def Worker.take (m : Mode) (report : Bool) (w : Worker) (s : Bytes) (env : Env) (o : Out) : Res (Worker × Out) := do
  let due ← w.due m s env.now
  let w := { w with queue := w.queue ++ [s] }
  if due then
    match w.writer with
    | some wr => .ok (w.drain report wr env.later o)
    | none => .ok (w, o)
  else .ok (w, o)

/-- A flushing message (logger.rs 65-78). -/
def Worker.takeFlushing (report : Bool) (w : Worker) (s : Bytes) (env : Env) (o : Out) : Worker × Out :=
  let w := { w with queue := w.queue ++ [s] }
  match w.writer with
  | some wr => w.drain report wr env.later o
  | none => (w, o)

/-- The destructor of the writer when the thread ends. -/
def dropWriter (w : Option Writer) (o : Out) : Out :=
  match w with
  | some wr => { o with disk := (wr.flush o.disk).2 }
  | none => o

/-- One round of the loop (logger.rs 40-141). When the thread panics its writer is dropped, which flushes it; the queue
is gone. -/
def Worker.handle (m : Mode) (report : Bool) (w : Worker) (msg : Msg) (env : Env) (o : Out) : Outcome × Out :=
  match msg with
  | .lazy none => (.panics, dropWriter w.writer o)
  | .lazy (some s) =>
    match w.take m report s env o with
    | .ok (w, o) => (.goes w, o)
    | .error _ => (.panics, dropWriter w.writer o)
  | .flushing none => (.panics, dropWriter w.writer o)
  | .flushing (some s) => let (w, o) := w.takeFlushing report s env o; (.goes w, o)
  | .static s =>
    match w.take m report s env o with
    | .ok (w, o) => (.goes w, o)
    | .error _ => (.panics, dropWriter w.writer o)
  | .setFile path =>
    match w.writer with
    | some wr =>
      let (wr, d) := wr.flush o.disk
      if env.opens then (.goes { w with writer := some ⟨path, []⟩ }, ⟨(wr.flush d).2, o.console⟩)
      else (.panics, dropWriter (some wr) ⟨d, o.console⟩)
    | none => if env.opens then (.goes { w with writer := some ⟨path, []⟩ }, o) else (.panics, o)
  | .setCore => if env.core then (.goes w, o) else (.panics, dropWriter w.writer o)
  | .close =>
    match w.writer with
    | some wr =>
      let (wr, d) := wr.writeAll o.disk w.queue.flatten
      let (wr, d) := wr.flush d
      (.ends, dropWriter (some wr) ⟨d, o.console⟩)
    | none => (.ends, o)

/-- The worker thread. -/
inductive Thread
  | running (w : Worker)
  | ended
  | dead

/-- The whole logger: the channel, the worker, what it wrote, and the flags `MAX_LOG_LEVEL` and `CONSOLE_REPORT`
(logger.rs 25-28). -/
structure Sys where
  chan : List Msg
  thread : Thread
  out : Out
  maxLevel : Nat
  report : Bool

/-- The logger at the first use of `LOG_SENDER` (logger.rs 25-39), at time `t`. -/
def Sys.init (t : Nat) : Sys := ⟨[], .running ⟨[], t, none⟩, ⟨[], []⟩, Level.nil.num, false⟩

/-- `try_send`, `send` on the unbounded channel: fails exactly if the receiver is gone. -/
def Sys.send (s : Sys) (x : Msg) : Res Sys :=
  match s.thread with
  | .running _ => .ok { s with chan := s.chan ++ [x] }
  | _ => .error .err

/-- What happens next. -/
inductive Act
  /-- `log_fn_json!` (logger.rs 311-335) and the macros built on it, with the outcome of the closure. -/
  | log (l : Level) (e : Option Bytes)
  /-- `flushing_log_fn_json!` (logger.rs 407-433). -/
  | flushingLog (l : Level) (e : Option Bytes)
  /-- A send of which the result is ignored: `launch` (logger.rs 520-527), `finalize` (477-478). -/
  | control (x : Msg)
  /-- `with_max_log_level` (logger.rs 510-513). -/
  | setLevel (l : Level)
  /-- `with_console_report` (logger.rs 505-508). -/
  | setReport (b : Bool)
  /-- The worker takes the next message. -/
  | work (env : Env)

/-- A log macro: below the level a message is sent and a failure to send is a panic of the caller. -/
def Sys.log (s : Sys) (l : Level) (x : Msg) : Res Sys := do
  match Level.read s.maxLevel with
  | .error _ => .error .unwrapNone
  | .ok max =>
    if l.num ≤ max.num then
      match s.send x with
      | .ok s => .ok s
      | .error _ => .error .unwrapNone
    else .ok s

/-- One action; the worker waits when the channel is empty. -/
def Sys.step (m : Mode) (s : Sys) : Act → Res Sys
  | .log l e => s.log l (.lazy e)
  | .flushingLog l e => s.log l (.flushing e)
  | .control x => match s.send x with
    | .ok s => .ok s
    | .error _ => .ok s
  | .setLevel l => .ok { s with maxLevel := l.num }
  | .setReport b => .ok { s with report := b }
  | .work env =>
    match s.thread, s.chan with
    | .running w, x :: l =>
      match w.handle m s.report x env s.out with
      | (.goes w, o) => .ok { s with thread := .running w, chan := l, out := o }
      | (.ends, o) => .ok { s with thread := .ended, chan := l, out := o }
      | (.panics, o) => .ok { s with thread := .dead, chan := l, out := o }
    | _, _ => .ok s

/-- A caller that panics (or ignores the failure) leaves the logger as it is. -/
def Sys.act (m : Mode) (s : Sys) (a : Act) : Sys :=
  match s.step m a with
  | .ok s => s
  | .error _ => s

/-- An execution. -/
def Sys.run (m : Mode) : List Act → Sys → Sys
  | [], s => s
  | a :: l, s => Sys.run m l (s.act m a)

end Verif.TE.Log

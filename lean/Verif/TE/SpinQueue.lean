import Verif.Basic
/-!
# Model of `trading-engine/src/spinqueue.rs`

One writer and up to sixteen workers share `DataSpinQueue`. The only atomic location that changes is
`worker_status` (the pointer in `data_buffer` is never replaced). The model follows the C11/Rust
release-acquire semantics of that location: its modification order is a sequence of messages, an (acquire)
load may return any message that is not older than what the thread has already seen, a read-modify-write reads
the newest message, and a store may be placed anywhere after what the thread has seen. Messages carry views
(which data accesses happen before them), so that data races on the item can be expressed. Threads run the
loops the API is made for:

* writer: `if let Some(p) = q.get_mut() { *p = item; q.notify_all_workers() }`
* worker: `if let Some(p) = q.get(&id) { use(*p); q.work_done(&id) }`
-/
set_option autoImplicit false
namespace Verif.TE.Spin
open Verif

/-- `WorkerId` (spinqueue.rs 14-19). -/
structure WorkerId where
  id : Nat
  bit : BitVec 16
  neg : BitVec 16
  deriving DecidableEq

/-- `WorkerId::new` (spinqueue.rs 22-33); `none` = `Err`. -/
def WorkerId.new (id : Nat) : Option WorkerId :=
  if id > 15 then none
  else
    let bit := 1#16 <<< id
    some { id := id, bit := bit, neg := ~~~bit }

/-- The duplicate check of `DataSpinQueue::new` (spinqueue.rs 84-90): the ids in order, or `none`. -/
def checkIds : List Nat → List WorkerId → Option (List Nat)
  | acc, [] => some acc
  | acc, w :: ws => if acc.contains w.id then none else checkIds (acc ++ [w.id]) ws

/-- `full_status` of `DataSpinQueue::new` (spinqueue.rs 79-101); `none` = `Err`. -/
def newFull (workers : List WorkerId) : Option (BitVec 16) :=
  match checkIds [] workers with
  | none => none
  | some ids => some (ids.foldl (fun acc i => acc ||| (1#16 <<< i)) 0#16)

/-- `ready_to_update` on a loaded status (spinqueue.rs 116-118). -/
def readyToUpdate (status : BitVec 16) : Bool := status == 0#16

/-- `ready_to_work` on a loaded status (spinqueue.rs 121-123). -/
def readyToWork (w : WorkerId) (status : BitVec 16) : Bool := (0#16).ult (status &&& w.bit)

/-- The value stored by `work_done` (spinqueue.rs 145-148). -/
def doneValue (w : WorkerId) (status : BitVec 16) : BitVec 16 := status &&& w.neg

/-- A view: how many writes of the item, and how many reads by each worker, happen before. -/
structure View where
  w : Nat
  r : Nat → Nat

/-- Union of two views. -/
def View.join (a b : View) : View := { w := max a.w b.w, r := fun i => max (a.r i) (b.r i) }

/-- A message of `worker_status`. -/
structure Msg where
  val : BitVec 16
  view : View

/-- A thread's knowledge: the index of the oldest message it may still read, and its view. -/
structure Thr where
  bound : Nat
  view : View

/-- Where the writer is: before `get_mut`, holding the pointer, having written. -/
inductive WPc
  | idle | holds | wrote
  deriving DecidableEq

/-- Where a worker is: before `get`, holding the pointer, having used the item. -/
inductive RPc
  | idle | holds | used
  deriving DecidableEq

/-- State of the system. `hist` up to `len` is the modification order of `worker_status`. `published` are the
items written so far, `seen i` those used by worker `i`; `race` records whether some access to the item ran
without all conflicting accesses happening before it (undefined behaviour in Rust). -/
structure State (α : Type) where
  hist : Nat → Msg
  len : Nat
  writer : Thr
  wpc : WPc
  worker : Nat → Thr
  rpc : Nat → RPc
  data : α
  published : List α
  seen : Nat → List α
  race : Prop

/-- The queue after `DataSpinQueue::new` (spinqueue.rs 94-100): status 0. -/
def init {α : Type} (a : α) : State α :=
  { hist := fun _ => ⟨0#16, ⟨0, fun _ => 0⟩⟩, len := 1, writer := ⟨0, ⟨0, fun _ => 0⟩⟩, wpc := .idle
    worker := fun _ => ⟨0, ⟨0, fun _ => 0⟩⟩, rpc := fun _ => .idle, data := a, published := [], seen := fun _ => []
    race := False }

/-- Update of a function at one place. -/
def upd {β : Type} (f : Nat → β) (i : Nat) (x : β) : Nat → β := fun j => if j = i then x else f j

/-- Insertion of a message at place `p` of the modification order. -/
def insertMsg (h : Nat → Msg) (p : Nat) (x : Msg) : Nat → Msg :=
  fun j => if j < p then h j else if j = p then x else h (j - 1)

/-- A thread's bound after an insertion at `p`. -/
def shiftBound (p b : Nat) : Nat := if b < p then b else b + 1

/-- One step of one thread. `ids` are the registered workers, `full` is `full_status`. -/
inductive Step {α : Type} (full : BitVec 16) : State α → State α → Prop
  /-- `get_mut` (spinqueue.rs 107-112): acquire load of message `j`. -/
  | getMut (s : State α) (j : Nat) (hpc : s.wpc = .idle) (hj : s.writer.bound ≤ j) (hl : j < s.len) :
      Step full s { s with
        writer := ⟨j, s.writer.view.join (s.hist j).view⟩
        wpc := if readyToUpdate (s.hist j).val then .holds else .idle }
  /-- The writer writes an item through the pointer. It must know all reads that have taken place. -/
  | write (s : State α) (x : α) (hpc : s.wpc = .holds) :
      Step full s { s with
        data := x
        published := s.published ++ [x]
        writer := { s.writer with view := { s.writer.view with w := s.published.length + 1 } }
        race := s.race ∨ s.writer.view.w ≠ s.published.length ∨ ∃ i, s.writer.view.r i ≠ (s.seen i).length
        wpc := .wrote }
  /-- `notify_all_workers` (spinqueue.rs 139-142): release store, placed at `p`. -/
  | notify (s : State α) (p : Nat) (hpc : s.wpc = .wrote) (hp : s.writer.bound < p) (hl : p ≤ s.len) :
      Step full s { s with
        hist := insertMsg s.hist p ⟨full, s.writer.view⟩
        len := s.len + 1
        writer := { s.writer with bound := p }
        worker := fun i => { s.worker i with bound := shiftBound p (s.worker i).bound }
        wpc := .idle }
  /-- `get` (spinqueue.rs 130-135): acquire load of message `j` by worker `w`. -/
  | get (s : State α) (w : WorkerId) (j : Nat) (hw : WorkerId.new w.id = some w) (hpc : s.rpc w.id = .idle)
      (hj : (s.worker w.id).bound ≤ j) (hl : j < s.len) :
      Step full s { s with
        worker := upd s.worker w.id ⟨j, (s.worker w.id).view.join (s.hist j).view⟩
        rpc := upd s.rpc w.id (if readyToWork w (s.hist j).val then .holds else .idle) }
  /-- The worker reads the item. It must know all writes that have taken place. -/
  | use (s : State α) (w : WorkerId) (hw : WorkerId.new w.id = some w) (hpc : s.rpc w.id = .holds) :
      Step full s { s with
        seen := upd s.seen w.id (s.seen w.id ++ [s.data])
        worker := upd s.worker w.id { s.worker w.id with
          view := { (s.worker w.id).view with r := upd (s.worker w.id).view.r w.id ((s.seen w.id).length + 1) } }
        race := s.race ∨ (s.worker w.id).view.w ≠ s.published.length
        rpc := upd s.rpc w.id .used }
  /-- `work_done` (spinqueue.rs 145-148): release read-modify-write on the newest message, which continues its
  release sequence. -/
  | done (s : State α) (w : WorkerId) (hw : WorkerId.new w.id = some w) (hpc : s.rpc w.id = .used) :
      Step full s { s with
        hist := upd s.hist s.len
          ⟨doneValue w (s.hist (s.len - 1)).val, (s.worker w.id).view.join (s.hist (s.len - 1)).view⟩
        len := s.len + 1
        worker := upd s.worker w.id { s.worker w.id with bound := s.len }
        rpc := upd s.rpc w.id .idle }

/-- All states of all interleavings, for all items written. -/
inductive Reach {α : Type} (full : BitVec 16) (a : α) : State α → Prop
  | start : Reach full a (init a)
  | step (s t : State α) : Reach full a s → Step full s t → Reach full a t

end Verif.TE.Spin

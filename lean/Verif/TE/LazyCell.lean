import Verif.Basic
/-!
# Model of `trading-engine/src/utils/lazy_string.rs`

A `LazyString` shared by any number of threads (identified by numbers). The initializer is an arbitrary `Fn() -> String`: its `k`-th call
returns a text or panics (`none`), and different calls may return different texts. The atomic steps are those of
`once_cell::sync::OnceCell::get_or_init` (once_cell 1.x, `imp_std`): look whether the cell is complete; if not, wait until no other
thread runs the initializer and claim the cell or find it complete; the thread that claimed it runs the initializer, stores the
result and releases the cell, or releases it empty if the initializer panics. An initializer that dereferences the very `LazyString` it
initializes (which would block for ever) is not modelled.
-/
set_option autoImplicit false
namespace Verif.TE.LazyCell

/-- Where a thread is in `deref`: outside, past the first look, or in call number `k` of the initializer -/
inductive Pc where
  | idle
  | entered
  | running (k : Nat)
  deriving DecidableEq

/-- `LazyString` (lazy_string.rs 5-8): the cell, whether a thread holds it (`RUNNING`), the calls of the initializer begun so far, and
the threads -/
structure Lazy where
  cell : Option String
  busy : Bool
  calls : Nat
  pc : Nat → Pc

/-- `LazyString::new` (lazy_string.rs 11-19) -/
def new : Lazy := { cell := none, busy := false, calls := 0, pc := fun _ => .idle }

/-- What is observed of one step: a thread begins to wait, the initializer is called, `deref` (or `serialize`, which calls it,
lazy_string.rs 30-38) returns a text, or it panics because the initializer did -/
inductive Ev where
  | look (t : Nat)
  | call (t : Nat)
  | ret (t : Nat) (v : String)
  | fail (t : Nat)
  deriving DecidableEq

def Lazy.at (s : Lazy) (t : Nat) (p : Pc) : Nat → Pc := fun u => if u = t then p else s.pc u

/-- One atomic step of `deref` (lazy_string.rs 22-28) in some thread `t`; `out k` is what the `k`-th call of the initializer does. -/
inductive Step (out : Nat → Option String) : Lazy → Ev → Lazy → Prop
  /-- `self.get()` finds a value -/
  | fast (s : Lazy) (t : Nat) (v : String) : s.pc t = .idle → s.cell = some v → Step out s (.ret t v) s
  /-- `self.get()` finds none -/
  | look (s : Lazy) (t : Nat) : s.pc t = .idle → s.cell = none → Step out s (.look t) { s with pc := s.at t .entered }
  /-- INCOMPLETE to RUNNING: the thread calls the initializer -/
  | claim (s : Lazy) (t : Nat) : s.pc t = .entered → s.cell = none → s.busy = false →
      Step out s (.call t) { s with busy := true, calls := s.calls + 1, pc := s.at t (.running s.calls) }
  /-- COMPLETE: another thread was faster -/
  | late (s : Lazy) (t : Nat) (v : String) : s.pc t = .entered → s.cell = some v → Step out s (.ret t v) { s with pc := s.at t .idle }
  /-- the initializer returns: the value is stored and the cell COMPLETE -/
  | done (s : Lazy) (t k : Nat) (v : String) : s.pc t = .running k → out k = some v →
      Step out s (.ret t v) { s with cell := some v, busy := false, pc := s.at t .idle }
  /-- the initializer panics: the cell is INCOMPLETE again -/
  | fail (s : Lazy) (t k : Nat) : s.pc t = .running k → out k = none →
      Step out s (.fail t) { s with busy := false, pc := s.at t .idle }

/-- An execution from `s`: its events and the state reached -/
inductive Run (out : Nat → Option String) : Lazy → List Ev → Lazy → Prop
  | nil (s : Lazy) : Run out s [] s
  | cons {s s' s'' : Lazy} {e : Ev} {tr : List Ev} : Step out s e s' → Run out s' tr s'' → Run out s (e :: tr) s''

end Verif.TE.LazyCell

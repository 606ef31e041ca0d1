/-!
# Faults, overflow modes and u64 arithmetic

Rust panics are explicit values of `Fault`; a model function that can panic returns `Res α`.
-/
namespace Verif

/-- The ways a Rust function of the modelled code can fail to return. -/
inductive Fault
  /-- arithmetic overflow / underflow (panics when overflow checks are on) -/
  | overflow
  /-- `unwrap`/`expect` on `None`/`Err` -/
  | unwrapNone
  /-- slice or vector index out of range -/
  | index
  /-- integer division by zero -/
  | divZero
  /-- a failed `assert!` / `debug_assert!` -/
  | assertion
  /-- a loop whose iteration leaves its state unchanged: it never terminates -/
  | diverges
  /-- the function returned `Err(..)` (anyhow): not a panic, propagated by `?` -/
  | err
  /-- a floating-point operation left the real numbers (division by zero, square root of a negative): the Rust
  program goes on with an infinity or a NaN, the exact-arithmetic model stops here -/
  | nonfinite
  deriving DecidableEq, Repr

/-- Result of running a Rust function: a value, or a fault. -/
abbrev Res (α : Type) := Except Fault α

/-- Overflow behaviour of the build: `checked` = debug profile (overflow panics),
`wrapping` = release profile (two's complement wrap-around).  The workspace `Cargo.toml` does not
override `overflow-checks`. -/
inductive Mode
  | checked
  | wrapping
  deriving DecidableEq, Repr

/-- 2^64: `u64` values are naturals below it. -/
def U64 : Nat := 2 ^ 64

/-- Rust `a + b` on `u64` (`BookQuantity`, `OrderId`). -/
def addU (m : Mode) (a b : Nat) : Res Nat :=
  if a + b < U64 then .ok (a + b)
  else match m with
    | .checked => .error .overflow
    | .wrapping => .ok ((a + b) % U64)

/-- Rust `a - b` on `u64`. -/
def subU (m : Mode) (a b : Nat) : Res Nat :=
  if b ≤ a then .ok (a - b)
  else match m with
    | .checked => .error .overflow
    | .wrapping => .ok ((a + U64 - b) % U64)

theorem addU_ok {m : Mode} {a b : Nat} (h : a + b < U64) : addU m a b = .ok (a + b) := by
  simp [addU, h]

theorem subU_ok {m : Mode} {a b : Nat} (h : b ≤ a) : subU m a b = .ok (a - b) := by
  simp [subU, h]

@[simp] theorem Res.bind_ok {α β : Type} (a : α) (f : α → Res β) :
    (Except.ok a >>= f) = f a := rfl

@[simp] theorem Res.bind_error {α β : Type} (e : Fault) (f : α → Res β) :
    (Except.error e >>= f) = Except.error e := rfl

@[simp] theorem Res.pure_eq {α : Type} (a : α) : (pure a : Res α) = .ok a := rfl

@[simp] theorem Res.map_ok {α β : Type} (a : α) (f : α → β) :
    (f <$> (Except.ok a : Res α)) = .ok (f a) := rfl

end Verif

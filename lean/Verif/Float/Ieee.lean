import Mathlib.Data.Int.Log
import Mathlib.Data.Rat.Floor
import Mathlib.Algebra.Order.Field.Rat
/-!
# IEEE 754 binary floating point: `f32` and `f64`

The arithmetic of Rust's `f32` and `f64` (the Rust reference prescribes IEEE 754-2008 binary32 and binary64, round to nearest,
ties to even, for `+`, `-`, `*`, `/` and for `as` from integers and between the two formats). Finite numbers are rational, so
everything here is computable: concrete results are checked by the kernel. Payloads and the sign of NaN are dropped.
-/
set_option autoImplicit false
namespace Verif.Float

/-- A binary format: `prec` bits of precision, and every finite number is a multiple of `2 ^ emin`, at most
`(2 ^ prec - 1) * 2 ^ emax`. -/
structure Fmt where
  prec : Nat
  emin : Int
  emax : Int
  hprec : 2 ≤ prec
  hexp : emin ≤ emax

/-- `f32` -/
def f32 : Fmt := ⟨24, -149, 104, by decide, by decide⟩

/-- `f64` -/
def f64 : Fmt := ⟨53, -1074, 971, by decide, by decide⟩

/-- The integer next to `x`; of two equally near ones the even one. -/
def rne (x : ℚ) : Int :=
  let f := ⌊x⌋
  if x - f < 1 / 2 then f
  else if 1 / 2 < x - f then f + 1
  else if f % 2 = 0 then f else f + 1

/-- The exponent of the last place of a number of the size of `x`. -/
def Fmt.expo (F : Fmt) (x : ℚ) : Int := max F.emin (Int.log 2 |x| - (F.prec - 1))

/-- `x` rounded to `prec` bits, or to a multiple of the smallest number; no upper bound yet. -/
def Fmt.rnd (F : Fmt) (x : ℚ) : ℚ := rne (x / 2 ^ F.expo x) * 2 ^ F.expo x

/-- The largest finite number. -/
def Fmt.maxFin (F : Fmt) : ℚ := (2 ^ F.prec - 1) * 2 ^ F.emax

/-- The numbers of a format. `fin s x` is the finite number `x` with sign bit `s`; the sign bit matters for zero only. -/
inductive Fl
  | nan
  | inf (neg : Bool)
  | fin (neg : Bool) (x : ℚ)
  deriving DecidableEq

/-- The result of an operation whose exact value is `x`: rounded, infinite if that is too large; `s` is the sign bit in case
the exact value is zero. -/
def Fmt.of (F : Fmt) (s : Bool) (x : ℚ) : Fl :=
  let y := F.rnd x
  let neg := if x < 0 then true else if 0 < x then false else s
  if F.maxFin < |y| then .inf neg else .fin neg y

/-- Unary `-` -/
def Fl.neg : Fl → Fl
  | .nan => .nan
  | .inf s => .inf (!s)
  | .fin s x => .fin (!s) (-x)

/-- `abs` -/
def Fl.abs : Fl → Fl
  | .nan => .nan
  | .inf _ => .inf false
  | .fin _ x => .fin false |x|

/-- `+`: opposite numbers give `+0`, and `-0 + -0` is `-0`. -/
def Fmt.add (F : Fmt) : Fl → Fl → Fl
  | .nan, _ => .nan
  | _, .nan => .nan
  | .inf s, .inf t => if s = t then .inf s else .nan
  | .inf s, .fin _ _ => .inf s
  | .fin _ _, .inf t => .inf t
  | .fin s x, .fin t y => F.of (s && t) (x + y)

/-- `-` -/
def Fmt.sub (F : Fmt) (a b : Fl) : Fl := F.add a b.neg

/-- `*` -/
def Fmt.mul (F : Fmt) : Fl → Fl → Fl
  | .nan, _ => .nan
  | _, .nan => .nan
  | .inf s, .inf t => .inf (s != t)
  | .inf s, .fin t y => if y = 0 then .nan else .inf (s != t)
  | .fin s x, .inf t => if x = 0 then .nan else .inf (s != t)
  | .fin s x, .fin t y => F.of (s != t) (x * y)

/-- `/` -/
def Fmt.div (F : Fmt) : Fl → Fl → Fl
  | .nan, _ => .nan
  | _, .nan => .nan
  | .inf _, .inf _ => .nan
  | .inf s, .fin t _ => .inf (s != t)
  | .fin s _, .inf t => .fin (s != t) 0
  | .fin s x, .fin t y => if y = 0 then (if x = 0 then .nan else .inf (s != t)) else F.of (s != t) (x / y)

/-- `<` -/
def Fl.lt : Fl → Fl → Bool
  | .nan, _ => false
  | _, .nan => false
  | .inf s, .inf t => s && !t
  | .inf s, .fin _ _ => s
  | .fin _ _, .inf t => !t
  | .fin _ x, .fin _ y => decide (x < y)

/-- `==` -/
def Fl.beq : Fl → Fl → Bool
  | .inf s, .inf t => s == t
  | .fin _ x, .fin _ y => decide (x = y)
  | _, _ => false

/-- `<=` -/
def Fl.le (a b : Fl) : Bool := a.lt b || a.beq b

/-- An integer `as f32` or `as f64`. -/
def Fmt.ofInt (F : Fmt) (n : Int) : Fl := F.of false n

/-- A decimal literal. -/
def Fmt.lit (F : Fmt) (x : ℚ) : Fl := F.of false x

/-- A float of one format `as` the other. -/
def Fmt.cast (F : Fmt) : Fl → Fl
  | .nan => .nan
  | .inf s => .inf s
  | .fin s x => F.of s x

/-- The numbers that have a representation if there is no upper bound. -/
def Fmt.Rep (F : Fmt) (x : ℚ) : Prop := ∃ (m e : Int), |m| ≤ 2 ^ F.prec ∧ F.emin ≤ e ∧ x = m * 2 ^ e

/-- A finite value of the format. -/
def Fmt.Finite (F : Fmt) (a : Fl) (x : ℚ) : Prop := ∃ s, a = .fin s x ∧ F.Rep x ∧ |x| ≤ F.maxFin ∧ (x < 0 → s = true) ∧ (0 < x → s = false)

example : f64.add (f64.lit (1/10)) (f64.lit (2/10)) ≠ f64.lit (3/10) := by decide +kernel
example : f32.add (f32.ofInt 16777216) (f32.ofInt 1) = f32.ofInt 16777216 := by decide +kernel
example : f32.mul (f32.lit (10^38)) (f32.lit 10) = .inf false := by decide +kernel
example : f64.lit (1/10) = .fin false (3602879701896397 / 36028797018963968) := by decide +kernel

end Verif.Float

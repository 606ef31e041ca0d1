import Verif.QL.Period
import Mathlib.Algebra.Order.Floor.Semiring
import Mathlib.Data.Rat.Floor
/-!
# Printed numbers, periods as numbers, and the helpers of `util.rs`

Models `quantlib/src/utils/number_format.rs`, `from_period_string_to_float` of `quantlib/src/utils/string_arithmetic.rs`
and `is_ndarray_sorted` (also for elements that cannot be compared; `Interp.isSorted` is the case of an order) of `quantlib/src/util.rs`. A floating-point number is a sign and a rational size; `format!("{:.1}")`
rounds to a nearest decimal, ties going either way.
-/
set_option autoImplicit false
namespace Verif.QL
open Verif

/-! ### printed numbers -/

/-- `str::split('.')` (number_format.rs 6, 40) -/
def splitDot : List Char → List (List Char)
  | [] => [[]]
  | c :: r =>
    if c = '.' then [] :: splitDot r
    else match splitDot r with
      | [] => [[c]]
      | p :: ps => (c :: p) :: ps

/-- The loop over the reversed digits, which inserts at the front (number_format.rs 19-24, 53-58) -/
def commaLoop : Nat → List Char → List Char → List Char
  | _, [], acc => acc
  | count, c :: r, acc => commaLoop (count + 1) r (c :: (if 0 < count ∧ count % 3 = 0 then ',' :: acc else acc))

/-- The body of `write_number_with_commas` and of `formatted_number` after `format!` (number_format.rs 6-33, 40-67) -/
def withCommas (s : List Char) : List Char :=
  let parts := splitDot s
  let int := parts.headD []
  let dec := if 1 < parts.length then parts[1]?.getD [] else []
  let neg := int.head? == some '-'
  let abs := if neg then int.tail else int
  let body := commaLoop 0 abs.reverse []
  let signed := if neg then '-' :: body else body
  if dec ≠ [] then signed ++ '.' :: dec else signed

/-- A finite floating-point number: its sign and its size. -/
structure Num where
  neg : Bool
  size : ℚ

/-- Rounding to a nearest whole number; `tie f` tells whether `f + 1/2` goes up. -/
def nearest (tie : Nat → Bool) (q : ℚ) : Nat :=
  let f := ⌊q⌋.toNat
  if q - f < 1 / 2 then f else if 1 / 2 < q - f then f + 1 else if tie f then f + 1 else f

/-- `format!("{:.1}", x)` (number_format.rs 5) for a finite number -/
def oneDecimal (tie : Nat → Bool) (x : Num) : List Char :=
  let n := nearest tie (x.size * 10)
  (if x.neg then ['-'] else []) ++ Nat.toDigits 10 (n / 10) ++ ['.', Nat.digitChar (n % 10)]

/-- `format!("{:.0}", x)` (number_format.rs 39) for a finite number -/
def noDecimals (tie : Nat → Bool) (x : Num) : List Char :=
  (if x.neg then ['-'] else []) ++ Nat.toDigits 10 (nearest tie x.size)

/-- `write_number_with_commas` (number_format.rs 4-36) of a finite number -/
def writeNumber (tie : Nat → Bool) (x : Num) : List Char := withCommas (oneDecimal tie x)

/-- `formatted_number` (number_format.rs 38-70) of a finite number -/
def formattedNumber (tie : Nat → Bool) (x : Num) : List Char := withCommas (noDecimals tie x)

/-! ### periods as numbers -/

/-- One term of `from_period_string_to_float` (string_arithmetic.rs 26-33) -/
def periodTerm (t : Nat × PerUnit) : ℚ :=
  match t.2 with
  | .Y => t.1
  | .M => t.1 * 30.5 / 365.25
  | .W => t.1 * 7 / 365.25
  | .D => t.1 / 365.25
  | .h => t.1 / (365.25 * 24)
  | .min => t.1 / (365.25 * 24 * 60)
  | .sec => t.1 / (365.25 * 24 * 60 * 60)

/-- The loop over the matches (string_arithmetic.rs 22-42) -/
def periodSum : List (Nat × PerUnit) → ℚ → ℚ
  | [], acc => acc
  | t :: r, acc => periodSum r (acc + periodTerm t)

/-- `from_period_string_to_float` (string_arithmetic.rs 10-44). Numbers are exact: rounding and overflow of `f32` are not
modelled. -/
def periodYears (s : List Char) : Res ℚ :=
  match scan true [] s with
  | [] => .error .err
  | t :: r => .ok (periodSum (t :: r) 0)

/-! ### util.rs -/

/-- The loop of `is_ndarray_sorted` (util.rs 35-39): `gt` is `>` of the element type, which is false for two elements that
cannot be compared. -/
def sortedLoop {α : Type} (gt : α → α → Bool) : List α → Bool
  | a :: b :: r => if gt a b then false else sortedLoop gt (b :: r)
  | _ => true

/-- `is_ndarray_sorted` (util.rs 31-41). For an empty array `len() - 1` underflows: a panic with overflow checks, and an index
out of bounds without. -/
def sortedArray {α : Type} (md : Mode) (gt : α → α → Bool) (l : List α) : Res Bool :=
  match l with
  | [] => match md with
    | .checked => .error .overflow
    | .wrapping => .error .index
  | l => .ok (sortedLoop gt l)

/-- `format!("{:.2}", x)` for a finite number -/
def twoDecimals (tie : Nat → Bool) (x : Num) : List Char :=
  let n := nearest tie (x.size * 100)
  (if x.neg then ['-'] else []) ++ Nat.toDigits 10 (n / 100) ++ ['.', Nat.digitChar (n / 10 % 10), Nat.digitChar (n % 10)]

/-- `format_duration` (util.rs 51-60). The whole minutes are exact: rounding of `secs / 60.0` is not modelled. `%` has the sign
of its first argument. -/
def formatDuration (tie : Nat → Bool) (secs : Num) : List Char :=
  let whole := ⌊secs.size / 60⌋.toNat
  let seconds : Num := ⟨secs.neg, secs.size - 60 * whole⟩
  if !secs.neg && 0 < whole then Nat.toDigits 10 whole ++ ['m', ' '] ++ twoDecimals tie seconds ++ ['s']
  else twoDecimals tie seconds ++ ['s']

end Verif.QL

import Verif.Basic
import Verif.QL.Interp
import Mathlib.Algebra.Order.Field.Basic

/-! # Model of `math/cholescky_factorization.rs`

Exact arithmetic over an ordered field with a square-root function `sq` (see `Interp.lean` for the treatment of `f32`);
a matrix is its two sizes and its entries. The warning that is logged is not modelled. -/

set_option autoImplicit false

namespace Verif.QL

variable {K : Type} [Field K] [LinearOrder K]

/-- An `ndarray::Array2`: the entries inside `rows × cols` count. -/
structure Mat (K : Type) where
  rows : Nat
  cols : Nat
  entry : Nat → Nat → K

/-- Writing one entry, `l[[i, j]] = v`. -/
def setEntry (l : Nat → Nat → K) (i j : Nat) (v : K) : Nat → Nat → K :=
  fun p q => if p = i ∧ q = j then v else l p q

/-- cholescky_factorization.rs 20-25: the loop over `k in 0..j`, `sum += l[[i, k]] * l[[j, k]]`. -/
def dotLoop (l : Nat → Nat → K) (i j : Nat) : Nat → K
  | 0 => 0
  | k + 1 => dotLoop l i j k + l i k * l j k

/-- cholescky_factorization.rs 19-39: the body for one `(i, j)`. -/
def cholCell (sq : K → K) (a : Nat → Nat → K) (i j : Nat) (l : Nat → Nat → K) : Res (Nat → Nat → K) :=
  if i = j then
    if a i i - dotLoop l i j j ≤ 0 then .error .err
    else .ok (setEntry l i i (sq (a i i - dotLoop l i j j)))
  else do
    let v ← divK (a i j - dotLoop l i j j) (l j j)
    .ok (setEntry l i j v)

/-- `for x in from..from+count` over a state, leaving with the first error. -/
def loopRes {S : Type} (f : Nat → S → Res S) : Nat → Nat → S → Res S
  | 0, _, s => .ok s
  | count + 1, i, s => do
    let s ← f i s
    loopRes f count (i + 1) s

/-- cholescky_factorization.rs 18: the loop `for j in 0..=i`. -/
def cholRow (sq : K → K) (a : Nat → Nat → K) (i : Nat) (l : Nat → Nat → K) : Res (Nat → Nat → K) :=
  loopRes (fun j l => cholCell sq a i j l) (i + 1) 0 l

/-- cholescky_factorization.rs 5-43 `cholesky_decomposition` -/
def cholesky (sq : K → K) (m : Mat K) : Res (Mat K) :=
  if m.rows ≠ m.cols then .error .err
  else do
    let l ← loopRes (cholRow sq m.entry) m.rows 0 (fun _ _ => 0)
    .ok { rows := m.rows, cols := m.rows, entry := l }

end Verif.QL

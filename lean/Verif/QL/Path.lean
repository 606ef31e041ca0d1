import Verif.QL.Cholesky
/-!
# Model of `pricing_engines/montecarlo/rand_generator.rs`

`correlated_path` draws a matrix of standard normal numbers and multiplies it by the Cholesky factor of the correlation. The
numbers drawn are a parameter. Exact arithmetic as in `QL/Cholesky`.
-/
set_option autoImplicit false
namespace Verif.QL
open Verif

variable {K : Type} [Field K] [LinearOrder K]

/-- One entry of a matrix product: the sum over the first `c` columns of a row. -/
def rowTimes (l z : Nat → Nat → K) (i t : Nat) : Nat → K
  | 0 => 0
  | k + 1 => rowTimes l z i t k + l i k * z k t

/-- `ndarray`'s `dot` of two matrices, which panics if the sizes do not fit (rand_generator.rs 23). -/
def Mat.dot (l z : Mat K) : Res (Mat K) :=
  if l.cols ≠ z.rows then .error .assertion
  else .ok { rows := l.rows, cols := z.cols, entry := fun i t => rowTimes l.entry z.entry i t l.cols }

/-- `cholesky_decomposition(..).unwrap()` (rand_generator.rs 17). -/
def unwrapChol (sq : K → K) (m : Mat K) : Res (Mat K) :=
  match cholesky sq m with
  | .ok l => .ok l
  | .error .err => .error .unwrapNone
  | .error e => .error e

/-- `correlated_path` (rand_generator.rs 13-26); `draw i t` is the number drawn for object `i` and step `t`. -/
def correlatedPath (sq : K → K) (steps : Nat) (corr : Mat K) (draw : Nat → Nat → K) : Res (Mat K) := do
  let l ← unwrapChol sq corr
  l.dot { rows := corr.rows, cols := steps, entry := draw }

end Verif.QL

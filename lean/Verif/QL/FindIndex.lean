import Verif.Basic
/-!
# Model of `quantlib/src/utils/find_index.rs` and `find_index_ndarray.rs`

The two files contain the same code for slices and for one-dimensional arrays; one model covers both. The element
type is any type with the three comparisons the code uses (`==`, `<`, `>=`), which for floats need not form an order
(NaN). Index arithmetic cannot overflow (`len ≤ isize::MAX`).
-/
set_option autoImplicit false
namespace Verif.QL
open Verif

variable {T : Type} [BEq T] [LT T] [DecidableLT T] [LE T] [DecidableLE T]

/-- `vec[i]`. -/
def at_ {T : Type} (v : List T) (i : Nat) : Res T :=
  match v[i]? with
  | some x => .ok x
  | none => .error .index

/-- The `while` loop of `binary_search_index` (find_index.rs 23-35): `inl` is `return mid`, `inr` is `low` at the end
of the loop. -/
def bsLoop (v : List T) (x : T) (low high : Nat) : Res (Nat ⊕ Nat) :=
  if low ≤ high then
    match at_ v ((low + high) / 2) with
    | .error e => .error e
    | .ok y =>
      if y == x then .ok (.inl ((low + high) / 2))
      else if y < x then bsLoop v x ((low + high) / 2 + 1) high
      else if (low + high) / 2 = 0 then .ok (.inr low)
      else bsLoop v x low ((low + high) / 2 - 1)
  else .ok (.inr low)
termination_by high + 1 - low
decreasing_by all_goals omega

/-- `binary_search_index` (find_index.rs 19-50), `binary_search_index_ndarray` (find_index_ndarray.rs 4-35). For the
empty vector the first access panics, so `len() - 1` is never computed for it. -/
def searchIndex (v : List T) (x : T) : Res Nat := do
  let high := if v.isEmpty then 0 else v.length - 1
  let r ← bsLoop v x 0 high
  match r with
  | .inl mid => .ok mid
  | .inr low =>
    if low > v.length - 1 then .ok (v.length - 1)
    else do
      let y ← at_ v low
      if y < x then .ok low
      else if low = 0 then .ok 0
      else .ok (low - 1)

/-- The inner `while` loop of the vectorised search (find_index.rs 93-99): the result entry (0 when nothing was
found) and the new `j`. -/
def bracketLoop (v : List T) (x : T) (last j : Nat) : Res (Nat × Nat) :=
  if j < last then do
    let a ← at_ v j
    let hit ← if x ≥ a then do let b ← at_ v (j + 1); .ok (decide (x < b)) else .ok false
    if hit then .ok (j, j) else bracketLoop v x last (j + 1)
  else .ok (0, j)
termination_by last - j

/-- The `for` loop of the vectorised search (find_index.rs 87-101). -/
def vecLoop (v : List T) (first last : Nat) : Nat → List T → Res (List Nat)
  | _, [] => .ok []
  | j, x :: xs => do
    let f ← at_ v first
    if x < f then do
      let rs ← vecLoop v first last j xs
      .ok (first :: rs)
    else do
      let l ← at_ v last
      if x ≥ l then do
        let rs ← vecLoop v first last j xs
        .ok (last :: rs)
      else do
        let (r, j) ← bracketLoop v x last j
        let rs ← vecLoop v first last j xs
        .ok (r :: rs)

/-- The result of calling the pointwise search for each query in turn. -/
def searchEach (v : List T) : List T → Res (List Nat)
  | [] => .ok []
  | x :: xs => do
    let i ← searchIndex v x
    let is ← searchEach v xs
    .ok (i :: is)

/-- `vectorized_search_index_for_sorted_vector` (find_index.rs 72-104),
`vectorized_search_index_for_sorted_ndarray` (find_index_ndarray.rs 38-70). -/
def searchVec (v : List T) (qs : List T) : Res (List Nat) :=
  if qs.length ≤ 2 then searchEach v qs
  else do
    let q0 ← at_ qs 0
    let first ← searchIndex v q0
    let q1 ← at_ qs (qs.length - 1)
    let last ← searchIndex v q1
    vecLoop v first last first qs

end Verif.QL

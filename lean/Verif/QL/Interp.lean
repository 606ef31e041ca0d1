import Verif.QL.FindIndex
import Mathlib.Algebra.Order.Field.Basic
/-!
# Model of `quantlib/src/math/interpolators/*.rs` and `quantlib/src/utils/distribute_value.rs`

`Real` (an alias of `f32`, definitions.rs 6) is modelled by an arbitrary linearly ordered field `K`: exact arithmetic,
no rounding, no NaN. A division by zero, which in the program yields an infinity or a NaN, stops the model with
`Fault.nonfinite`. `Err(..)` results are `Fault.err`.
-/
set_option autoImplicit false
namespace Verif.QL
open Verif

variable {K : Type} [Field K] [LinearOrder K]

/-- `a / b` on floats, see the file comment. -/
def divK (a b : K) : Res K := if b = 0 then .error .nonfinite else .ok (a / b)

/-- `is_ndarray_sorted` (util.rs 31-41): `0..arr.len() - 1` panics for the empty array (subtraction overflow in a
debug build; in a release build the loop indexes out of range). -/
def isSorted {T : Type} [LT T] [DecidableLT T] : List T → Res Bool
  | [] => .error .overflow
  | [_] => .ok true
  | a :: b :: r => if b < a then .ok false else isSorted (b :: r)

/-- `ExtraPolationType` (interpolator.rs 7-12). -/
inductive Extra
  | none
  | flat
  | linear
  deriving DecidableEq, Repr

/-- `LinearInterpolator1D` (linear_interpolator.rs 10-17). -/
structure Lin (K : Type) where
  dom : List K
  val : List K
  der : List K
  extra : Extra
  allow : Bool
  deriving DecidableEq, Repr

/-- The loop that fills `derivatives` (linear_interpolator.rs 51-54), for equally long lists. -/
def slopes : List K → List K → Res (List K)
  | d0 :: d1 :: ds, v0 :: v1 :: vs => do
    let q ← divK (v1 - v0) (d1 - d0)
    let qs ← slopes (d1 :: ds) (v1 :: vs)
    .ok (q :: qs)
  | _, _ => .ok []

/-- `LinearInterpolator1D::new` (linear_interpolator.rs 32-63). -/
def Lin.new (dom val : List K) (extra : Extra) (allow : Bool) : Res (Lin K) := do
  if dom.length ≠ val.length then .error .err
  else do
    let s ← isSorted dom
    if s then do
      let der ← slopes dom val
      .ok { dom := dom, val := val, der := der, extra := extra, allow := allow }
    else .error .err

/-- `interpolate` (linear_interpolator.rs 67-120). With a single knot `n - 2` panics (subtraction overflow in a debug
build, index out of range in a release build): here the access to the empty `der` is the panic. -/
def Lin.interp (f : Lin K) (x : K) : Res K := do
  let d0 ← at_ f.dom 0
  if x < d0 then
    if f.allow then
      match f.extra with
      | .flat => at_ f.val 0
      | .linear => do
        let v ← at_ f.val 0
        let g ← at_ f.der 0
        .ok (v + g * (x - d0))
      | .none => .error .err
    else .error .err
  else do
    let dl ← at_ f.dom (f.dom.length - 1)
    if x ≥ dl then
      if f.allow then
        match f.extra with
        | .flat => at_ f.val (f.dom.length - 1)
        | .linear => do
          let v ← at_ f.val (f.dom.length - 1)
          let g ← at_ f.der (f.dom.length - 2)
          .ok (v + g * (x - dl))
        | .none => .error .err
      else .error .err
    else do
      let i ← searchIndex f.dom x
      let v ← at_ f.val i
      let g ← at_ f.der i
      let d ← at_ f.dom i
      .ok (v + g * (x - d))

/-- One iteration of the loop of `vectorized_interpolate_for_sorted_ndarray` (linear_interpolator.rs 130-184): query
`x` whose index in the domain was found to be `idx`. -/
def Lin.vecAt (f : Lin K) (x : K) (idx : Nat) : Res K := do
  let d0 ← at_ f.dom 0
  if x < d0 then
    if f.allow then
      match f.extra with
      | .flat => at_ f.val 0
      | .linear => do
        let v ← at_ f.val 0
        let g ← at_ f.der 0
        .ok (v + g * (x - d0))
      | .none => .error .err
    else .error .err
  else do
    let dl ← at_ f.dom (f.dom.length - 1)
    if x ≥ dl then
      if f.allow then
        match f.extra with
        | .flat => at_ f.val (f.dom.length - 1)
        | .linear => do
          let v ← at_ f.val (f.dom.length - 1)
          let g ← at_ f.der (f.dom.length - 2)
          .ok (v + g * (x - dl))
        | .none => .error .err
      else .error .err
    else do
      let v ← at_ f.val idx
      let g ← at_ f.der idx
      let d ← at_ f.dom idx
      .ok (v + g * (x - d))

/-- The loop (linear_interpolator.rs 130-185) over the queries and their indices. -/
def Lin.vecLoop (f : Lin K) : List K → List Nat → Res (List K)
  | [], _ => .ok []
  | _ :: _, [] => .error .index
  | x :: xs, i :: is => do
    let y ← f.vecAt x i
    let ys ← Lin.vecLoop f xs is
    .ok (y :: ys)

/-- `vectorized_interpolate_for_sorted_ndarray` (linear_interpolator.rs 123-187). -/
def Lin.interpVec (f : Lin K) (xs : List K) : Res (List K) := do
  let is ← searchVec f.dom xs
  f.vecLoop xs is

/-- `BilinearInterpolator` (bilinear_interpolator.rs 11-17). -/
structure Bilin (K : Type) where
  dom : List K
  rows : List (Lin K)
  allow : Bool
  extra : Extra

/-- `BilinearInterpolator::new` (bilinear_interpolator.rs 31-62). -/
def Bilin.new (dom : List K) (rows : List (Lin K)) (allow : Bool) (extra : Extra) : Res (Bilin K) := do
  if dom.length ≠ rows.length then .error .err
  else do
    let s ← isSorted dom
    if s then .ok { dom := dom, rows := rows, allow := allow, extra := extra } else .error .err

/-- The loop that builds one row interpolator per time (bilinear_interpolator.rs 109-127). -/
def mkRows (xdom : List K) (extra : Extra) (allow : Bool) : List (List K) → Res (List (Lin K))
  | [] => .ok []
  | r :: rs => do
    let f ← Lin.new xdom r extra allow
    let fs ← mkRows xdom extra allow rs
    .ok (f :: fs)

/-- `new_from_rectangle_data` (bilinear_interpolator.rs 64-134): `values` is a matrix given by its rows, all of
length `cols`. The time domain is not checked to be sorted. -/
def Bilin.ofRect (tdom xdom : List K) (values : List (List K)) (cols : Nat) (xallow : Bool) (xextra : Extra)
    (tallow : Bool) (textra : Extra) : Res (Bilin K) := do
  if tdom.length < 2 ∨ xdom.length < 2 then .error .err
  else if tdom.length ≠ values.length then .error .err
  else if xdom.length ≠ cols then .error .err
  else do
    let rows ← mkRows xdom xextra xallow values
    .ok { dom := tdom, rows := rows, allow := tallow, extra := textra }

/-- `BilinearInterpolator::interpolate` (bilinear_interpolator.rs 136-209). -/
def Bilin.interp (f : Bilin K) (t x : K) : Res K := do
  let d0 ← at_ f.dom 0
  if t < d0 then
    if f.allow then
      match f.extra with
      | .flat => do
        let r ← at_ f.rows 0
        r.interp x
      | .linear => do
        let r0 ← at_ f.rows 0
        let v0 ← r0.interp x
        let r1 ← at_ f.rows 1
        let v1 ← r1.interp x
        let d1 ← at_ f.dom 1
        let q ← divK ((t - d0) * (v1 - v0)) (d1 - d0)
        .ok (v0 + q)
      | .none => .error .err
    else .error .err
  else do
    let dl ← at_ f.dom (f.dom.length - 1)
    if t ≥ dl then
      if f.allow then
        match f.extra with
        | .flat => do
          let r ← at_ f.rows (f.dom.length - 1)
          r.interp x
        | .linear => do
          let rl ← at_ f.rows (f.dom.length - 1)
          let vl ← rl.interp x
          let rp ← if f.dom.length < 2 then .error .index else at_ f.rows (f.dom.length - 2)
          let vp ← rp.interp x
          let dp ← at_ f.dom (f.dom.length - 2)
          let q ← divK ((t - dl) * (vl - vp)) (dl - dp)
          .ok (vl + q)
        | .none => .error .err
      else .error .err
    else do
      let i ← searchIndex f.dom t
      let dp ← at_ f.dom i
      let dn ← at_ f.dom (i + 1)
      let rp ← at_ f.rows i
      let vp ← rp.interp x
      let rn ← at_ f.rows (i + 1)
      let vn ← rn.interp x
      let q ← divK ((t - dp) * (vn - vp)) (dn - dp)
      .ok (vp + q)

/-- `StepwiseInterpolator1D` (stepwise_interpolatior.rs 13-23); the domain type `T` is any ordered type, the values
are only copied. -/
structure Step (T V : Type) where
  dom : List T
  val : List V
  allow : Bool
  left : Option V
  right : Option V
  deriving DecidableEq, Repr

section
variable {T V : Type} [LinearOrder T]

/-- `StepwiseInterpolator1D::new` (stepwise_interpolatior.rs 29-59). -/
def Step.new (dom : List T) (val : List V) (allow : Bool) (left right : Option V) : Res (Step T V) := do
  if dom.length ≠ val.length then .error .err
  else if dom.length = 0 then .error .err
  else do
    let s ← isSorted dom
    if s then .ok { dom := dom, val := val, allow := allow, left := left, right := right } else .error .err

/-- `interpolate` (stepwise_interpolatior.rs 66-98). -/
def Step.interp (f : Step T V) (x : T) : Res V := do
  let d0 ← at_ f.dom 0
  if x < d0 then
    if f.allow then
      match f.left with
      | none => at_ f.val 0
      | some l => .ok l
    else .error .err
  else do
    let dl ← at_ f.dom (f.dom.length - 1)
    if x > dl then
      if f.allow then
        match f.right with
        | none => at_ f.val (f.dom.length - 1)
        | some r => .ok r
      else .error .err
    else do
      let i ← searchIndex f.dom x
      at_ f.val i

/-- `interpolate` on each query in turn (stepwise_interpolatior.rs 104-106). -/
def Step.interpEach (f : Step T V) : List T → Res (List V)
  | [] => .ok []
  | x :: xs => do
    let y ← f.interp x
    let ys ← Step.interpEach f xs
    .ok (y :: ys)

/-- The loop over long query vectors (stepwise_interpolatior.rs 111-120). -/
def Step.vecLoop (f : Step T V) (lb rb : T) : List T → List Nat → Res (List V)
  | [], _ => .ok []
  | _ :: _, [] => .error .index
  | x :: xs, i :: is =>
    if !f.allow && (decide (x < lb) || decide (x > rb)) then .error .err
    else do
      let y ← at_ f.val i
      let ys ← Step.vecLoop f lb rb xs is
      .ok (y :: ys)

/-- `vectorized_interpolate_for_sorted_ndarray` (stepwise_interpolatior.rs 100-123). -/
def Step.interpVec (f : Step T V) (xs : List T) : Res (List V) :=
  if xs.length ≤ 2 then f.interpEach xs
  else do
    let is ← searchVec f.dom xs
    let lb ← at_ f.dom 0
    let rb ← at_ f.dom (f.dom.length - 1)
    f.vecLoop lb rb xs is

end

/-- `v[i] += a`. -/
def addAt (v : List K) (i : Nat) (a : K) : Res (List K) := do
  let y ← at_ v i
  .ok (v.set i (y + a))

/-- `distribute_value_on_vector` (distribute_value.rs 5-37). -/
def distribute (v : List K) (value loc : K) (locs : List K) : Res (List K) := do
  if v.length ≠ locs.length then .error .err
  else if v.length = 0 then .ok v
  else do
    let l0 ← at_ locs 0
    if loc ≤ l0 then addAt v 0 value
    else do
      let ll ← at_ locs (v.length - 1)
      if loc ≥ ll then addAt v (v.length - 1) value
      else do
        let i ← searchIndex locs loc
        let a ← at_ locs i
        let b ← at_ locs (i + 1)
        let rw_ ← divK (loc - a) (b - a)
        let v1 ← addAt v i ((1 - rw_) * value)
        addAt v1 (i + 1) (rw_ * value)

end Verif.QL

import Verif.Float.Ieee
import Verif.QL.Interp
/-!
# Floating-point model of `quantlib/src/math/interpolators/linear_interpolator.rs`

The same functions as in `QL/Interp` in the arithmetic they run in: `Real` is `f32`. The searches and the sortedness check are
those of `QL/FindIndex` and `QL/Interp`, which are generic in the comparisons: here the IEEE ones.
-/
set_option autoImplicit false
namespace Verif.Float
open Verif Verif.QL

/-- `==` of floats -/
instance : BEq Fl := ⟨Fl.beq⟩
/-- `<` of floats -/
instance : LT Fl := ⟨fun a b => a.lt b = true⟩
instance : DecidableLT Fl := fun a b => inferInstanceAs (Decidable (a.lt b = true))
/-- `<=` of floats; `x >= y` is `y <= x` -/
instance : LE Fl := ⟨fun a b => a.le b = true⟩
instance : DecidableLE Fl := fun a b => inferInstanceAs (Decidable (a.le b = true))

/-- The loop that fills `derivatives` (linear_interpolator.rs 51-54) -/
def slopesF : List Fl → List Fl → List Fl
  | d0 :: d1 :: ds, v0 :: v1 :: vs => f32.div (f32.sub v1 v0) (f32.sub d1 d0) :: slopesF (d1 :: ds) (v1 :: vs)
  | _, _ => []

/-- `LinearInterpolator1D::new` (linear_interpolator.rs 32-63) -/
def linNewF (dom val : List Fl) (extra : Extra) (allow : Bool) : Res (Lin Fl) := do
  if dom.length ≠ val.length then .error .err
  else do
    let s ← isSorted dom
    if s then .ok { dom := dom, val := val, der := slopesF dom val, extra := extra, allow := allow }
    else .error .err

/-- `value + derivative * (x - knot)` (linear_interpolator.rs 74, 100, 118) -/
def lineF (v g d x : Fl) : Fl := f32.add v (f32.mul g (f32.sub x d))

/-- `interpolate` (linear_interpolator.rs 67-120), see `Lin.interp`. -/
def linInterpF (f : Lin Fl) (x : Fl) : Res Fl := do
  let d0 ← at_ f.dom 0
  if x < d0 then
    if f.allow then
      match f.extra with
      | .flat => at_ f.val 0
      | .linear => do
        let v ← at_ f.val 0
        let g ← at_ f.der 0
        .ok (lineF v g d0 x)
      | .none => .error .err
    else .error .err
  else do
    let dl ← at_ f.dom (f.dom.length - 1)
    if x ≥ dl then
      if f.allow then
        match f.extra with
        | .flat => at_ f.val (f.dom.length - 1)
        | .linear => do
          let v ← at_ f.val (f.dom.length - 1)
          let g ← at_ f.der (f.dom.length - 2)
          .ok (lineF v g dl x)
        | .none => .error .err
      else .error .err
    else do
      let i ← searchIndex f.dom x
      let v ← at_ f.val i
      let g ← at_ f.der i
      let d ← at_ f.dom i
      .ok (lineF v g d x)

end Verif.Float

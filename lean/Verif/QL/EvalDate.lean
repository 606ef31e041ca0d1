import Verif.QL.Dividend
import Verif.QL.Period
/-!
# Model of the operators of `quantlib/src/evaluation_date.rs`

The evaluation date with its observers is `World` of `QL/Dividend`.
-/
set_option autoImplicit false
namespace Verif.QL
open Verif Verif.Civil

variable {K : Type} [Field K] [LinearOrder K] [IsStrictOrderedRing K]

/-- `+=` with a period string (evaluation_date.rs 134-139): the date is moved, then the observers are notified. -/
def World.addAssign (md : Mode) (w : World K) (p : List Char) : Res (World K) := do
  let d ← addPeriod md w.date p
  w.setDate d

/-- `-=` with a period string (evaluation_date.rs 141-146) -/
def World.subAssign (md : Mode) (w : World K) (p : List Char) : Res (World K) := do
  let d ← subPeriod md w.date p
  w.setDate d

/-- `+` (evaluation_date.rs 148-154): takes the evaluation date by value and returns a date; no observer is notified. -/
def World.plus (md : Mode) (w : World K) (p : List Char) : Res DT := addPeriod md w.date p

/-- `-` (evaluation_date.rs 156-162) -/
def World.minus (md : Mode) (w : World K) (p : List Char) : Res DT := subPeriod md w.date p

/-- `==` with a date and time (evaluation_date.rs 25-29): `OffsetDateTime`s are equal if they are the same instant. -/
def World.eqDateTime (w : World K) (d : DT) : Bool := decide (w.date.instant = d.instant)

/-- `partial_cmp` with a date and time (evaluation_date.rs 31-35) -/
def World.cmpDateTime (w : World K) (d : DT) : Ordering := compare w.date.instant d.instant

/-- `==` with a calendar date (evaluation_date.rs 37-41): the local day of the evaluation date. -/
def World.eqDate (w : World K) (d : Int) : Bool := decide (w.date.day = d)

/-- `partial_cmp` with a calendar date (evaluation_date.rs 43-47) -/
def World.cmpDate (w : World K) (d : Int) : Ordering := compare w.date.day d

end Verif.QL

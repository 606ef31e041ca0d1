import Verif.QL.Period
import Verif.QL.Calendar
/-!
# Model of `quantlib/src/instruments/schedule.rs` and `PaymentFrequency` (quantlib/src/time/conventions.rs)
-/
set_option autoImplicit false
namespace Verif.QL
open Verif Verif.Civil

/-- quantlib/src/time/conventions.rs 27-41 -/
inductive Freq
  | daily | weekly | biWeekly | semiMonthly | monthly | semiQuarterly | quarterly | triAnnually | semiAnnually
  | annually | none
  deriving DecidableEq, Repr

/-- quantlib/src/time/conventions.rs 48-62 `as_str` -/
def Freq.asStr : Freq → List Char
  | .daily => ['1', 'D']
  | .weekly => ['1', 'W']
  | .biWeekly => ['2', 'W']
  | .semiMonthly => ['2', 'W']
  | .monthly => ['1', 'M']
  | .semiQuarterly => ['2', 'M']
  | .quarterly => ['3', 'M']
  | .triAnnually => ['4', 'M']
  | .semiAnnually => ['6', 'M']
  | .annually => ['1', 'Y']
  | .none => ['N', 'o', 'n', 'e']

/-- `head.parse::<i32>().unwrap()` for the heads that occur (one digit; "Non" panics). -/
def parseHead (s : List Char) : Res Nat :=
  if s ≠ [] ∧ s.all Char.isDigit then .ok (digitsVal s) else .error .unwrapNone

/-- quantlib/src/time/conventions.rs 64-74 `to_string_with_multiple`. An `i32` product that overflows is reported as an
overflow in both build modes: `build_schedule` never gets that far, since the date leaves the supported range first. -/
def Freq.withMultiple (f : Freq) (multiple : Nat) : Res (List Char) := do
  let s := f.asStr
  let head ← parseHead (s.take (s.length - 1))
  if head * multiple < 2 ^ 31 then .ok (Nat.toDigits 10 (head * multiple) ++ s.drop (s.length - 1))
  else .error .overflow

/-- quantlib/src/instruments/schedule.rs 138-143: the `while` loop of forward generation. `raw` is `raw_start_date`;
the result is what the loop appends. -/
def rollForward (md : Mode) (eff mat : DT) (f : Freq) (count : Nat) (raw : DT) : Res (List DT) :=
  if raw.instant < mat.instant then
    if count < 2 ^ 31 then do
      let s ← f.withMultiple count
      let r ← addPeriod md eff s
      let rest ← rollForward md eff mat f (count + 1) r
      .ok (r :: rest)
    else .error .overflow
  else .ok []
termination_by 2 ^ 31 - count

/-- quantlib/src/instruments/schedule.rs 149-153: the loop of backward generation; the result is what the loop puts in
front, the earliest (last generated) date first. -/
def rollBackward (md : Mode) (eff mat : DT) (f : Freq) (count : Nat) (raw : DT) : Res (List DT) :=
  if raw.instant > eff.instant then
    if count < 2 ^ 31 then do
      let s ← f.withMultiple count
      let r ← subPeriod md mat s
      let rest ← rollBackward md eff mat f (count + 1) r
      .ok (rest ++ [r])
    else .error .overflow
  else .ok []
termination_by 2 ^ 31 - count

/-- `iter().map(f).collect::<Result<Vec<_>>>()` -/
def mapRes {α β : Type} (f : α → Res β) : List α → Res (List β)
  | [] => .ok []
  | x :: xs => do
    let y ← f x
    let ys ← mapRes f xs
    .ok (y :: ys)

/-- quantlib/src/instruments/schedule.rs 10-17 `BaseSchedule` (`amount` is `None` here) -/
structure Coupon where
  fixing : DT
  start : DT
  stop : DT
  payment : DT
  deriving DecidableEq, Repr

/-- The payment date: the maturity itself for the last of several periods (schedule.rs 187), else the adjusted end plus
the gap (176-177, 195-196). -/
def payDate (hol : DT → Res Bool) (conv : BDC) (payGap : Int) (mat stop : DT) (final : Bool) : Res DT :=
  if final then .ok mat
  else do
    let p ← stop.addDays payGap
    adjust hol p conv

/-- One iteration of the loop of quantlib/src/instruments/schedule.rs 166-226. -/
def coupon (hol : DT → Res Bool) (conv : BDC) (fixGap payGap : Int) (eff mat : DT) (vec : List DT) (i : Nat) :
    Res Coupon := do
  let n := vec.length - 1
  let start : DT := if i = 0 then eff else vec.getD i default
  let stop : DT := if i = 0 then vec.getD (i + 1) default else if i = n - 1 then mat else vec.getD (i + 1) default
  let f ← start.addDays (-fixGap)
  let fixing ← adjust hol f .preceding
  let payment ← payDate hol conv payGap mat stop (i ≠ 0 ∧ i = n - 1)
  if stop.instant ≤ start.instant then .error .err
  else .ok { fixing := fixing, start := start, stop := stop, payment := payment }
where default : DT := { day := 0, tod := 0, off := 0 }

/-- quantlib/src/instruments/schedule.rs 132-155: the unadjusted dates. -/
def rawDates (md : Mode) (forward : Bool) (eff mat : DT) (f : Freq) : Res (List DT) :=
  if forward then do
    let ds ← rollForward md eff mat f 1 eff
    .ok (eff :: ds)
  else do
    let ds ← rollBackward md eff mat f 1 mat
    .ok (ds ++ [mat])

/-- quantlib/src/instruments/schedule.rs 106-231 `build_schedule`, for any calendar given by its `is_holiday`. -/
def buildSchedule (md : Mode) (hol : DT → Res Bool) (forward : Bool) (eff mat : DT) (conv : BDC) (f : Freq)
    (fixGap payGap : Int) : Res (List Coupon) :=
  if payGap < 0 ∨ fixGap < 0 then .error .err
  else do
    let raw ← rawDates md forward eff mat f
    let vec ← mapRes (fun x => adjust hol x conv) raw
    mapRes (coupon hol conv fixGap payGap eff mat vec) (List.range (vec.length - 1))

end Verif.QL

import Verif.QL.Interp
import Verif.QL.Schedule
/-!
# Model of `quantlib/src/parameters/{discrete_ratio_dividend,market_price}.rs` and `quantlib/src/evaluation_date.rs`

`Real` (`f32`) is an ordered field: exact arithmetic, `.nonfinite` where the float would become infinite or NaN.
`Rc<RefCell<..>>` sharing is modelled by a heap of dividend objects that prices refer to by index. Names, codes,
currencies and log lines are dropped.
-/
set_option autoImplicit false
namespace Verif.QL
open Verif Verif.Civil

/-- quantlib/src/util.rs 41-47 `to_yyyymmdd_int` (within `i32` for the years -9999..9999) -/
def yyyymmdd (d : DT) : Int := d.ymd.y * 10000 + d.ymd.m * 100 + d.ymd.d

section
variable {K : Type} [Field K] [LinearOrder K] [IsStrictOrderedRing K]

/-- discrete_ratio_dividend.rs 15-19 `DividendInterpolator` -/
inductive DivInterp (K : Type) where
  | step (f : Step Int K)
  | const (v : K)

/-- discrete_ratio_dividend.rs 21-33 `DiscreteRatioDividend`; `date_integers` is `dates.map yyyymmdd`. -/
structure Dividend (K : Type) where
  dates : List DT
  amounts : List K
  yields : List K
  spot : K
  interp : DivInterp K

/-- `Vec::remove` -/
def removeAt {α : Type} (l : List α) (i : Nat) : Res (List α) := if i < l.length then .ok (l.eraseIdx i) else .error .index

/-- The loop dropping past dividends, discrete_ratio_dividend.rs 91-103 and 253-265: `ex` are all ex-dividend dates,
`ys` and `ns` the yields and date integers still kept. -/
def dropPast (ex : List DT) (eval : DT) (i checker : Nat) (ys : List K) (ns : List Int) : Res (List K × List Int) :=
  if i < ex.length then
    if h : checker < ex.length then
      if ex[checker].instant < eval.instant then do
        let ys ← removeAt ys i
        let ns ← removeAt ns i
        dropPast ex eval i (checker + 1) ys ns
      else dropPast ex eval (i + 1) checker ys ns
    else .error .index
  else .ok (ys, ns)
termination_by (ex.length - i) + (ex.length - checker)

/-- The accumulated deduction ratios, discrete_ratio_dividend.rs 106-111, 220-225, 268-273. -/
def ratios (temp : K) : List K → List K
  | [] => []
  | y :: ys => (temp * (1 - y)) :: ratios (temp * (1 - y)) ys

/-- The interpolator over the kept dividends, discrete_ratio_dividend.rs 113-126, 229-242, 275-288. -/
def mkInterp (ns : List Int) (rs : List K) : Res (DivInterp K) :=
  if rs.isEmpty then .ok (.const 1)
  else do
    let f ← Step.new ns rs true (some 1) (rs.getLast?)
    .ok (.step f)

/-- Division of each amount by the spot. -/
def yieldsOf (amounts : List K) (spot : K) : Res (List K) := mapRes (fun a => divK a spot) amounts

/-- discrete_ratio_dividend.rs 51-140 `new`; `VectorData` guarantees as many amounts as dates. -/
def Dividend.new (eval : DT) (dates : Option (List DT)) (amounts : List K) (spot : K) : Res (Dividend K) :=
  match dates with
  | none => .error .err
  | some [] => .error .err
  | some ds => do
    let ys ← yieldsOf amounts spot
    let kept ← dropPast ds eval 0 0 ys (ds.map yyyymmdd)
    let it ← mkInterp kept.2 (ratios 1 kept.1)
    .ok { dates := ds, amounts := amounts, yields := ys, spot := spot, interp := it }

/-- The dispatch on the interpolator, discrete_ratio_dividend.rs 144-147. -/
def DivInterp.eval (it : DivInterp K) (x : Int) : Res K :=
  match it with
  | .const c => .ok c
  | .step f => f.interp x

/-- discrete_ratio_dividend.rs 142-148 `get_deduction_ratio` -/
def Dividend.ratio (v : Dividend K) (d : DT) : Res K := v.interp.eval (yyyymmdd d)

/-- discrete_ratio_dividend.rs 178-184 `get_dividend_ratio` -/
def Dividend.pairs (v : Dividend K) : List (DT × K) := v.dates.zip v.yields

/-- discrete_ratio_dividend.rs 194-197, 199-202: the bounds of a bump. -/
def bumpLow : Option DT → Int
  | none => -99999999
  | some d => yyyymmdd d

def bumpHigh : Option DT → Int
  | none => 99999999
  | some d => yyyymmdd d

/-- discrete_ratio_dividend.rs 188-245 `bump_date_interval` -/
def Dividend.bump (v : Dividend K) (d1 d2 : Option DT) (b : K) : Res (Dividend K) :=
  let n1 := bumpLow d1
  let n2 := bumpHigh d2
  if n1 ≥ n2 then .error .err
  else do
    let ns := v.dates.map yyyymmdd
    let amounts := List.zipWith (fun a n => a + (if n1 < n ∧ n ≤ n2 then 1 else 0) * b) v.amounts ns
    let ys ← yieldsOf amounts v.spot
    let it ← mkInterp ns (ratios 1 ys)
    .ok { v with amounts := amounts, yields := ys, interp := it }

/-- discrete_ratio_dividend.rs 247-290 `update_evaluation_date` -/
def Dividend.update (v : Dividend K) (eval : DT) : Res (Dividend K) := do
  let kept ← dropPast v.dates eval 0 0 v.yields (v.dates.map yyyymmdd)
  let it ← mkInterp kept.2 (ratios 1 kept.1)
  .ok { v with interp := it }

/-- market_price.rs 15-22 `MarketPrice`; `div` is the index of its dividend object. -/
structure Price (K : Type) where
  value : K
  at_ : DT
  div : Option Nat

/-- The loop of market_price.rs 92-102: forward from `a` to `b`, the price drops by each dividend passed. -/
def deduct (a b : DT) : K → List (DT × K) → K
  | v, [] => v
  | v, (d, y) :: rest =>
    if d.instant > a.instant ∧ d.instant ≤ b.instant then deduct a b (v * (1 - y)) rest
    else deduct a b v rest

/-- The loop of market_price.rs 105-114: backward from `a` to `b`, each dividend is put back. -/
def restore (a b : DT) : K → List (DT × K) → Res K
  | v, [] => .ok v
  | v, (d, y) :: rest =>
    if d.instant > b.instant ∧ d.instant ≤ a.instant then do
      let v ← divK v (1 - y)
      restore a b v rest
    else restore a b v rest

/-- market_price.rs 88-119 `update_evaluation_date` -/
def Price.update (p : Price K) (divs : List (Dividend K)) (eval : DT) : Res (Price K) :=
  match p.div with
  | none => .ok p
  | some i =>
    match divs[i]? with
    | none => .error .index   -- no such object: cannot happen, an `Rc` always points to one
    | some v =>
      if p.at_.instant < eval.instant then .ok { p with value := deduct p.at_ eval p.value v.pairs, at_ := eval }
      else do
        let x ← restore p.at_ eval p.value v.pairs
        .ok { p with value := x, at_ := eval }

/-- The evaluation date with its observers (evaluation_date.rs 16-23). `divs` is the heap of dividend objects, each
with a flag telling whether it is registered as an observer; all `prices` are registered. -/
structure World (K : Type) where
  date : DT
  prices : List (Price K)
  divs : List (Dividend K × Bool)

/-- evaluation_date.rs 84-87, 97-117: `set_date` and `notify_observers` (market prices first, then dividends; `+=` and
`-=` are `set_date` after `add_period` / `sub_period`). -/
def World.setDate (w : World K) (d : DT) : Res (World K) := do
  let ps ← mapRes (fun p => Price.update p (w.divs.map Prod.fst) d) w.prices
  let ds ← mapRes (fun v => if v.2 then (do let x ← Dividend.update v.1 d; .ok (x, true)) else .ok v) w.divs
  .ok { date := d, prices := ps, divs := ds }

/-- A chain of moves of the evaluation date. -/
def World.moves (w : World K) : List DT → Res (World K)
  | [] => .ok w
  | d :: ds => do
    let w ← w.setDate d
    w.moves ds

end
end Verif.QL

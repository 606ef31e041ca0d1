import Verif.QL.Pricers
/-!
# The yield of a bond and the price of a KTB future

Models `quantlib/src/pricing_engines/{krx_yield_pricer, ktbf_pricer}.rs` (the yield search and the pricer) and
`quantlib/src/instruments/ktbf.rs` (the constructor). Real numbers stand for floating-point numbers. The optimiser of the
crate `argmin` (steepest descent with a More-Thuente line search, at most 30 steps) is a parameter: any function that is
given the objective, its slope and a first guess and returns the best argument it met, if there is one.
-/
set_option autoImplicit false
namespace Verif.QL
open Verif

/-- What the pricers read of a `Bond` (bond.rs 24-47): the bond of the cash-flow model, its coupon frequency and its issue
date. -/
structure ListedBond where
  bond : Bond
  freq : Freq
  issue : DT

/-- No forward curve and no fixings (ktbf_pricer.rs 37-42, 48) -/
def noMarket : Market := { fwd := none, close := none }

/-- `KrxYieldPricer::npv` at a yield (krx_yield_pricer.rs 109-174) -/
noncomputable def ListedBond.price (md : Mode) (eval : DT) (mk : Market) (b : ListedBond) (yld : ℝ) : Res ℝ :=
  krxNpv md eval mk yld b.freq b.issue b.bond

/-- `KrxYieldPricerCostFunction::cost` (krx_yield_pricer.rs 89-95) -/
noncomputable def ListedBond.cost (md : Mode) (eval : DT) (mk : Market) (b : ListedBond) (target yld : ℝ) : Res ℝ := do
  let v ← b.price md eval mk yld
  .ok ((v - target) ^ 2)

/-- The step of the slope (krx_yield_pricer.rs 103) -/
noncomputable def yieldStep : ℝ := 5.0e-5

/-- `KrxYieldPricerCostFunction::gradient` (krx_yield_pricer.rs 102-106) -/
noncomputable def ListedBond.slope (md : Mode) (eval : DT) (mk : Market) (b : ListedBond) (target yld : ℝ) : Res ℝ := do
  let up ← b.cost md eval mk target (yld + yieldStep)
  let down ← b.cost md eval mk target (yld - yieldStep)
  divK (up - down) (2 * yieldStep)

/-- The optimiser: objective, slope, first guess (krx_yield_pricer.rs 54-62). Not part of the repository. -/
abbrev Search := (ℝ → Res ℝ) → (ℝ → Res ℝ) → ℝ → Res (Option ℝ)

/-- `find_bond_yield` (krx_yield_pricer.rs 51-66) -/
noncomputable def findYield (search : Search) (md : Mode) (eval : DT) (mk : Market) (b : ListedBond) (target : ℝ)
    (guess : Option ℝ) : Res ℝ := do
  let r ← search (b.cost md eval mk target) (b.slope md eval mk target) (guess.getD 0.02)
  match r with
  | some y => .ok y
  | none => .error .err

/-- `KTBF` (ktbf.rs 50-62) with its `KtbfVirtualBond` (ktbf.rs 11-17); names, codes, currency and dates that no pricer reads
are left out. -/
structure Ktbf where
  maturity : DT
  bonds : List ListedBond
  years : Int
  coupon : ℝ
  freq : Freq
  notional : ℝ

/-- The check of one bond of the basket (ktbf.rs 80-101): `==` of two date-times compares instants. -/
def Ktbf.checkBond (mat : DT) (b : ListedBond) : Res Unit :=
  match b.bond.pricing with
  | none => .error .err
  | some p => if p.instant = mat.instant then .ok () else .error .err

/-- `KTBF::new` (ktbf.rs 66-116) -/
def Ktbf.new (k : Ktbf) : Res Ktbf := do
  let _ ← mapRes (Ktbf.checkBond k.maturity) k.bonds
  .ok k

/-- The yield of one bond of the basket (ktbf_pricer.rs 58-62) -/
noncomputable def Ktbf.bondYield (search : Search) (md : Mode) (eval : DT) (disc : Curve) (guess : ℝ) (b : ListedBond) : Res ℝ := do
  let v ← BondPricer.npv md { eval := eval, disc := disc, mkt := noMarket } b.bond
  findYield search md eval noMarket b v (some guess)

/-- `underlying_bonds[0]` (ktbf_pricer.rs 54) -/
def Ktbf.firstBond (k : Ktbf) : Res ListedBond :=
  match k.bonds with
  | [] => .error .index
  | b :: _ => .ok b

/-- `KtbfPricer::npv` (ktbf_pricer.rs 35-76). The sum of an empty basket is not reached: its first bond is asked for
before. -/
noncomputable def Ktbf.npv (search : Search) (md : Mode) (eval : DT) (disc borrow : Curve) (k : Ktbf) : Res ℝ := do
  let first ← k.firstBond
  let guess ← disc.fwdFromEval eval first.bond.maturity .simple
  let ys ← mapRes (Ktbf.bondYield search md eval disc guess) k.bonds
  let avg ← divK ys.sum (ys.length : ℝ)
  let p ← ktbfNpv md k.years k.coupon k.freq k.notional avg
  let d ← borrow.dfAt eval k.maturity
  .ok (p * d)

end Verif.QL

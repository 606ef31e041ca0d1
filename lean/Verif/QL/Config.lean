import Verif.QL.Engine
import Verif.Float.Interp
/-!
# `quantlib/src/pricing_engines/calculation_configuration.rs`

The whole `CalculationConfiguration` with its constructor and its setters. The numbers are a parameter: `f32` (`Fl`) in the code
and for the checks of the constructor, reals for the engine (`QL/Engine`).
-/
set_option autoImplicit false
namespace Verif.QL
open Verif Verif.Float

/-- `StickynessType` (enums.rs 85-89) -/
inductive Stickyness | toMoneyness | toStrike
  deriving DecidableEq

/-- `VolatilityInterplator` (volatiltiy_interpolator.rs 26-31) -/
inductive VolInterpolator | andreasenHuge | dupire
  deriving DecidableEq

/-- `VanillaOptionCalculationMethod` (enums.rs 91-96) -/
inductive OptionMethod | monteCarlo | finiteDifference | analytic
  deriving DecidableEq

/-- `CalculationConfiguration` (calculation_configuration.rs 13-46) -/
structure FullConf (α : Type) where
  npv : Bool
  exposure : Bool
  delta : Bool
  gamma : Bool
  vega : Bool
  rho : Bool
  divDelta : Bool
  theta : Bool
  vegaS : Bool
  rhoS : Bool
  divS : Bool
  vegaM : Bool
  sticky : Stickyness
  lv : VolInterpolator
  deltaRatio : α
  gammaRatio : α
  vegaBump : α
  vegaSBump : α
  vegaMBump : α
  rhoBump : α
  divBump : α
  thetaDay : Int
  rhoTenors : List (List Char)
  vegaTenors : List (List Char)
  divTenors : List (List Char)
  moneyness : List α
  method : OptionMethod

/-- `CalculationConfiguration::new` (calculation_configuration.rs 117-237): the arguments are the fields of `c`. -/
def FullConf.new (c : FullConf Fl) : Res (FullConf Fl) :=
  if c.delta ≠ c.gamma then .error .err
  else if c.deltaRatio ≤ f32.lit 0 then .error .err
  else if c.gammaRatio ≤ f32.lit 0 then .error .err
  else if c.rhoBump ≤ f32.lit 0 then .error .err
  else if c.vegaBump ≤ f32.lit 0 then .error .err
  else if c.vegaSBump ≤ f32.lit 0 then .error .err
  else if c.vegaMBump ≤ f32.lit 0 then .error .err
  else if c.thetaDay ≤ 0 then .error .err
  else if c.divBump ≤ f32.lit 0 then .error .err
  else .ok c

/-- The default (calculation_configuration.rs 48-115); `linspace(0.6, 1.4, 17)` is the argument. -/
def FullConf.default (moneyness : List Fl) : FullConf Fl :=
  { npv := true, exposure := true, delta := false, gamma := false, vega := false, rho := false, divDelta := false, theta := false
    vegaS := false, rhoS := false, divS := false, vegaM := false, sticky := .toMoneyness, lv := .andreasenHuge
    deltaRatio := f32.lit (1 / 100), gammaRatio := f32.lit (1 / 100), vegaBump := f32.lit (1 / 100), vegaSBump := f32.lit (1 / 100)
    vegaMBump := f32.lit (1 / 1000), rhoBump := f32.lit (1 / 10000), divBump := f32.lit (1 / 10000), thetaDay := 1
    rhoTenors := ["1M", "2M", "3M", "6M", "9M", "1Y", "1Y6M", "2Y", "3Y", "5Y", "7Y", "10Y", "15Y", "20Y", "30Y"].map String.toList
    vegaTenors := ["1M", "2M", "3M", "6M", "9M", "1Y", "1Y6M", "2Y", "3Y"].map String.toList
    divTenors := ["1M", "2M", "3M", "6M", "9M", "1Y", "1Y6M", "2Y", "3Y"].map String.toList
    moneyness := moneyness, method := .analytic }

/-- A call of one of the setters `with_*` (calculation_configuration.rs 239-387). -/
inductive ConfCall (α : Type)
  | thetaDay (n : Int)
  | delta (b : Bool)
  | gamma (b : Bool)
  | vega (b : Bool)
  | vegaS (b : Bool)
  | vegaM (b : Bool)
  | theta (b : Bool)
  | rho (b : Bool)
  | rhoS (b : Bool)
  | sticky (s : Stickyness)
  | divDelta (b : Bool)
  | divS (b : Bool)
  | deltaRatio (x : α)
  | gammaRatio (x : α)
  | vegaBump (x : α)
  | vegaSBump (x : α)
  | vegaMBump (x : α)
  | rhoBump (x : α)
  | rhoTenors (l : List (List Char))
  | vegaTenors (l : List (List Char))
  | divTenors (l : List (List Char))
  | moneyness (l : List α)
  | method (m : OptionMethod)
  | lv (v : VolInterpolator)

/-- The setters (calculation_configuration.rs 239-387): each assigns one field, none checks anything. -/
def FullConf.call {α : Type} (c : FullConf α) : ConfCall α → FullConf α
  | .thetaDay n => { c with thetaDay := n }
  | .delta b => { c with delta := b }
  | .gamma b => { c with gamma := b }
  | .vega b => { c with vega := b }
  | .vegaS b => { c with vegaS := b }
  | .vegaM b => { c with vegaM := b }
  | .theta b => { c with theta := b }
  | .rho b => { c with rho := b }
  | .rhoS b => { c with rhoS := b }
  | .sticky s => { c with sticky := s }
  | .divDelta b => { c with divDelta := b }
  | .divS b => { c with divS := b }
  | .deltaRatio x => { c with deltaRatio := x }
  | .gammaRatio x => { c with gammaRatio := x }
  | .vegaBump x => { c with vegaBump := x }
  | .vegaSBump x => { c with vegaSBump := x }
  | .vegaMBump x => { c with vegaMBump := x }
  | .rhoBump x => { c with rhoBump := x }
  | .rhoTenors l => { c with rhoTenors := l }
  | .vegaTenors l => { c with vegaTenors := l }
  | .divTenors l => { c with divTenors := l }
  | .moneyness l => { c with moneyness := l }
  | .method m => { c with method := m }
  | .lv v => { c with lv := v }

/-- A chain of calls `c.with_..(..).with_..(..)` -/
def FullConf.calls {α : Type} (c : FullConf α) : List (ConfCall α) → FullConf α
  | [] => c
  | s :: l => (c.call s).calls l

/-- What the engine asks the configuration for during `calculate` (the getters called in engine.rs 883-2161) -/
def FullConf.engine (c : FullConf ℝ) : CalcConf :=
  { npv := c.npv, exposure := c.exposure, delta := c.delta, vega := c.vega, rho := c.rho, divDelta := c.divDelta, theta := c.theta
    vegaS := c.vegaS, rhoS := c.rhoS, divS := c.divS, vegaM := c.vegaM, deltaRatio := c.deltaRatio, vegaBump := c.vegaBump
    vegaSBump := c.vegaSBump, rhoBump := c.rhoBump, divBump := c.divBump, thetaDay := c.thetaDay
    rhoTenors := c.rhoTenors, vegaTenors := c.vegaTenors, divTenors := c.divTenors, moneyness := c.moneyness }

end Verif.QL

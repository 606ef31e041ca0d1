import Verif.Float.Ieee
/-!
# Floating-point model of the sensitivities: the formulas of `quantlib/src/pricing_engines/engine.rs`

The expressions by which the engine turns the prices of a run into sensitivities, in the arithmetic they run in (`Real` is `f32`).
The prices are arguments; the runs that produce them are modelled in `QL/Engine`.
-/
set_option autoImplicit false
namespace Verif.Float

/-- `(npv_up - npv) / bump_val * UNIT * unitamt`: rho (engine.rs 1059, 1791, `UNIT` 0.0001), vega (1157, 1312, 1488, 0.01) and
dividend delta (1573, 1920, 0.0001) -/
def slopeF (pnl : Fl) (up npv bump unit : Fl) : Fl := f32.mul (f32.mul (f32.div (f32.sub up npv) bump) pnl) unit

/-- `RHO_PNL_UNIT`, `DIV_PNL_UNIT` (definitions.rs 30-31) -/
def rhoUnitF : Fl := f32.lit (1 / 10000)

/-- `DELTA_PNL_UNIT`, `VEGA_PNL_UNIT` (definitions.rs 27-29) -/
def deltaUnitF : Fl := f32.lit (1 / 100)

/-- The price of the underlying in the upper run (engine.rs 900, 928; market_price.rs `*=`): `price * (1.0 + ratio)` -/
def upPriceF (price ratio : Fl) : Fl := f32.mul price (f32.add (f32.lit 1) ratio)

/-- The price of the underlying in the lower run (engine.rs 901, 940): `price * (1.0 - ratio)` -/
def downPriceF (price ratio : Fl) : Fl := f32.mul price (f32.sub (f32.lit 1) ratio)

/-- Delta (engine.rs 954, 966): `(up - down) / (2.0 * ratio) * DELTA_PNL_UNIT`, times `unitamt` -/
def deltaF (up down ratio unit : Fl) : Fl :=
  f32.mul (f32.mul (f32.div (f32.sub up down) (f32.mul (f32.lit 2) ratio)) deltaUnitF) unit

/-- `delta_up - mid + delta_down - mid` (engine.rs 976) -/
def bendF (up mid down : Fl) : Fl := f32.sub (f32.add (f32.sub up mid) down) mid

/-- Gamma (engine.rs 976-978, 992) -/
def gammaF (up mid down ratio unit : Fl) : Fl :=
  f32.mul (f32.mul (f32.mul (bendF up mid down) (f32.div deltaUnitF ratio)) (f32.mul (f32.lit (1 / 2)) (f32.div deltaUnitF ratio))) unit

/-- Theta (engine.rs 1689): `(npv_theta - npv + cash_sum) * unitamt / time_diff / 365.0 * THETA_PNL_UNIT` -/
def thetaF (later npv cash unit time : Fl) : Fl :=
  f32.mul (f32.div (f32.div (f32.mul (f32.add (f32.sub later npv) cash) unit) time) (f32.lit 365)) (f32.lit 1)

/-- Delta of a stock or futures contract (engine.rs 854): `npv * DELTA_PNL_UNIT * unitamt` -/
def ownDeltaF (npv unit : Fl) : Fl := f32.mul (f32.mul npv deltaUnitF) unit

end Verif.Float

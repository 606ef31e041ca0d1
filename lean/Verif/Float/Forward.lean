import Verif.Float.Greeks
/-!
# Floating-point model of forwards

`Real` is `f32`; the prices, discount factors and ratios are given numbers here.
-/
set_option autoImplicit false
namespace Verif.Float

/-- `FuturesPricer::fair_forward` (futures_pricer.rs 60-61): `price * borrowing_discount / collateral_discount * dividend_deduction_ratio` -/
def forwardF (price borrowing collateral ratio : Fl) : Fl := f32.mul (f32.div (f32.mul price borrowing) collateral) ratio

/-- `FxFuturesPricer::npv` (fx_futures_pricer.rs 62): `fx_rate * underlying_discount / futures_discount` -/
def fxForwardF (fx underlying futures : Fl) : Fl := f32.div (f32.mul fx underlying) futures

/-- `CalculationResult::set_value` (calculation_result.rs 257): `npv * unit` -/
def valueF (npv unit : Fl) : Fl := f32.mul npv unit


/-- The delta of stocks and futures (engine.rs 854): `npv * DELTA_PNL_UNIT * unitamt` -/
def plainDeltaF (npv unit : Fl) : Fl := f32.mul (f32.mul npv deltaUnitF) unit

/-- `FuturesPricer::fx_exposure` (futures_pricer.rs 106): `(npv - average_trade_price) * unit_notional` -/
def exposureF (npv average unit : Fl) : Fl := f32.mul (f32.sub npv average) unit

/-- `FxFuturesPricer::fx_exposure` (fx_futures_pricer.rs 97-98): `-futures_discount * average_trade_price` in the currency of the future, the underlying's discount factor in its currency -/
def fxExposureF (futures underlying average : Fl) : Fl × Fl := (f32.mul futures.neg average, underlying)

end Verif.Float

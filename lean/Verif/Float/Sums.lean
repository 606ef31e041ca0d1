import Verif.Float.Greeks
/-!
# Floating-point model of the sums over cash flows

`quantlib/src/pricing_engines/bond_pricer.rs` 53-61, 88-95 and `plain_swap_pricer.rs` 67-90, 118-132 add up the cash flows in the order in which they come out of a
`HashMap` (instruments/bond.rs 302-381, instruments/plain_swap.rs), and the standard map gives every map another order. So the lists below are in any order.
-/
set_option autoImplicit false
namespace Verif.Float

/-- `res = 0.0; for (date, amount) in cashflow.iter() { res += amount * disc_factor }`: the cash flows after the pricing date in the order of the map, each with its
discount factor (bond_pricer.rs 40, 53-61, 74, 88-95; plain_swap_pricer.rs 51-52, 67-72, 80-85, 105-106, 118-132) -/
def legF (flows : List (Fl × Fl)) : Fl := flows.foldl (fun s p => f32.add s (f32.mul p.1 p.2)) (f32.lit 0)

/-- The value of a bond (bond_pricer.rs 63-67, 103-106): divided by the discount factor of the pricing date -/
def bondF (flows : List (Fl × Fl)) (d0 : Fl) : Fl := f32.div (legF flows) d0

/-- The value of a swap (plain_swap_pricer.rs 93, 134): `fixed_res + floating_res * floating_to_fixed_fx` -/
def swapF (fixed floating : List (Fl × Fl)) (fx : Fl) : Fl := f32.add (legF fixed) (f32.mul (legF floating) fx)

end Verif.Float

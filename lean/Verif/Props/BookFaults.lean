import Verif.Props.BookOps
/-!
# Witnesses: what goes wrong outside the contract `Valid`

Each theorem runs the model on a concrete history; they delimit the properties C02–C17 and show that the
conditions in `Valid` are needed (they are not artefacts of the proof).
-/
set_option autoImplicit false
namespace Verif.Props
open Verif Verif.TE Verif.Spec

/-- Observable summary of a run: best prices, side totals, level totals and the outputs. -/
def observe (r : Res (OrderBook × List Out)) :
    Option ((Int × Int) × (Nat × Nat) × List (Int × Nat) × List (Int × Nat) × List Out) :=
  match r with
  | .ok (b, outs) => some ((b.bids.best, b.asks.best), (b.bids.total, b.asks.total),
      b.bids.levels.map (fun e => (e.1, e.2.total)), b.asks.levels.map (fun e => (e.1, e.2.total)), outs)
  | .error _ => none

/-- Debug build: a market sell for a whole bid panics. -/
theorem fault_market_sell_debug :
    (OrderBook.init 1).run .checked [.limit .buy ⟨1, 100, 5⟩, .market .sell 5] = .error .overflow := rfl

/-- Release build: after a market sell of 3 out of 5, the level reports 2^64 − 1 units while the side
reports 2: the totals disagree (`check_validity_quantity` is false). -/
theorem fault_market_sell_totals :
    observe ((OrderBook.init 1).run .wrapping [.limit .buy ⟨1, 100, 5⟩, .market .sell 3]) =
      some ((100, I64MAX), (2, 0), [(100, 18446744073709551615)], [], [.trade none, .trade (some ([(100, 3)], 0))]) := by
  rfl

/-- … and the next limit sell that consumes the two remaining units leaves a level without orders behind:
the best bid (100) is not below the best ask (100), with no buyer in the book. -/
theorem fault_market_sell_crosses :
    observe ((OrderBook.init 1).run .wrapping
      [.limit .buy ⟨1, 100, 5⟩, .market .sell 3, .limit .sell ⟨2, 100, 6⟩]) =
      some ((100, 100), (0, 4), [(100, 18446744073709551613)], [(100, 4)],
        [.trade none, .trade (some ([(100, 3)], 0)), .trade (some ([(100, 2)], 4))]) := by
  rfl

/-- Setting a quantity to zero when it is the only order of its level removes the level but keeps the id
index: the lookup of that id then panics. -/
theorem fault_zero_quantity_lookup (m : Mode) :
    ∃ b outs, (OrderBook.init 1).run m [.limit .buy ⟨1, 100, 5⟩, .changeQty 1 0] = .ok (b, outs) ∧
      b.bids.getOrder 1 = .error .unwrapNone := by
  cases m <;> exact ⟨_, _, rfl, rfl⟩

/-- A zero-quantity order at the back of a level makes `remove_order` loop forever. -/
theorem fault_zero_quantity_remove (m : Mode) :
    (OrderBook.init 1).run m [.limit .buy ⟨1, 100, 5⟩, .add .buy ⟨2, 100, 0⟩, .remove .buy 100 3] =
      .error .diverges := by
  cases m <;> rfl

/-- Reusing the id of a resting order: both orders rest, but the index knows only the second, and the
first cannot be cancelled any more. -/
theorem fault_duplicate_id :
    ∃ b outs, (OrderBook.init 1).run .checked [.limit .buy ⟨1, 100, 5⟩, .limit .buy ⟨1, 99, 7⟩, .cancel 1] =
        .ok (b, outs) ∧
      b.abs.buys = [⟨1, 100, 5⟩] ∧ (b.cancelOrder .checked 1).toOption.map (·.2) = some none := by
  refine ⟨_, _, rfl, ?_, ?_⟩ <;> decide +kernel

/-- `add_limit_order` and `change_price` do not match: they can cross the book (hence C04 is about the
matching entry points only). -/
theorem fault_add_crosses :
    observe ((OrderBook.init 1).run .checked [.add .buy ⟨1, 100, 5⟩, .add .sell ⟨2, 99, 5⟩]) =
      some ((100, 99), (5, 5), [(100, 5)], [(99, 5)], [.done, .done]) := by
  rfl

end Verif.Props

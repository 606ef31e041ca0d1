import Verif.Props.SnapshotIds
/-!
# Witnesses: what goes wrong with snapshots outside the hypotheses of C19–C24
-/
set_option autoImplicit false
namespace Verif.Props
open Verif Verif.TE Verif.Spec

/-- Levels, totals and cross-check after a result. -/
def observeBook (m : Mode) {α : Type} (r : Res (OrderBook × α)) :
    Option (List LevelSnapshot × List LevelSnapshot × Nat × Nat × Option Bool) :=
  match r with
  | .ok (b, _) => some (b.asks.toSnapshot, b.bids.toSnapshot, b.asks.total, b.bids.total,
      (b.checkValidity m).toOption)
  | .error _ => none

/-- A snapshot update over a level holding two client orders (3 + 4 at 101, snapshot says 9): the level shows
9, but only the last order was replaced, so the side total becomes 3 + 9 = 12 and the consistency check of the
library fails. -/
theorem fault_update_multi_order (m : Mode) :
    observeBook m (do
      let (b, _) ← (OrderBook.init 7).run m [.limit .sell ⟨1, 101, 3⟩, .limit .sell ⟨2, 101, 4⟩]
      b.updateFromSnapshot m 7 [⟨101, 9⟩] []) = some ([⟨101, 9⟩], [], 12, 0, some false) := by
  cases m <;> rfl

/-- The virtual ids start at 0 whatever ids clients use: after a client order with id 0, a snapshot update
hands out id 0 again, the id index points to the new order, and after cancelling id 0 the other order with
that id rests but can no longer be found. -/
theorem fault_virtual_id_collision (m : Mode) :
    ∃ b b' r, (OrderBook.init 7).run m [.limit .sell ⟨0, 101, 3⟩] = .ok (b, r) ∧
      b.updateFromSnapshot m 7 [⟨101, 3⟩, ⟨102, 8⟩] [] = .ok (b', .ok ()) ∧
      restingIds b' = [0, 0] := by
  cases m <;> exact ⟨_, _, _, rfl, rfl, rfl⟩

/-- `eq_level` is not symmetric when a side has a level of quantity 0 (possible with zero-quantity snapshot
levels): the empty side "equals" it, but not the other way round. -/
theorem fault_eq_level_asymmetric (m : Mode) :
    ∃ b, (OrderBook.init 7).updateFromSnapshot m 7 [⟨101, 0⟩] [] = .ok (b, .ok ()) ∧
      (OrderBook.init 7).eqLevel b = true ∧ b.eqLevel (OrderBook.init 7) = false := by
  cases m <;> exact ⟨_, rfl, rfl, rfl⟩

/-- A snapshot listing a price twice is not rejected: the last entry wins. -/
theorem fault_duplicate_prices (m : Mode) :
    observeBook m ((OrderBook.init 7).updateFromSnapshot m 7 [⟨101, 5⟩, ⟨101, 2⟩] []) =
      some ([⟨101, 2⟩], [], 2, 0, some true) := by
  cases m <;> rfl

/-- A zero-quantity snapshot level makes the decomposition emit a zero-quantity order, which then rests. -/
theorem fault_decompose_zero (m : Mode) :
    ∃ b os, (OrderBook.init 7).decompose m [⟨101, 0⟩] [] = .ok (b, .ok os) ∧
      os = [.limit ⟨101, 0, .ask, 0⟩] ∧ b.abs.sells = [⟨0, 101, 0⟩] := by
  cases m <;> exact ⟨_, _, rfl, rfl, rfl⟩

end Verif.Props

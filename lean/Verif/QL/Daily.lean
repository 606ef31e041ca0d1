import Verif.QL.Period
/-!
# Model of `data/daily_value_data.rs`, of the operators of `evaluation_date.rs` and of `instruments/cash.rs`

A hash map is walked in an order that is not known: a `HashMap` is any list of its entries, and a walk is any rearrangement of
it, given as a parameter.
-/
set_option autoImplicit false
namespace Verif.QL
open Verif

/-- The hash map of a `DailyValueData` (daily_value_data.rs 9-17): days and values. The closing time, offset, calendar and the
names are only stored. -/
abbrev DayMap (V : Type) := List (Int × V)

/-- `get` (daily_value_data.rs 65-67; past_price.rs 79-82) -/
def DayMap.get {V : Type} : DayMap V → Int → Option V
  | [], _ => none
  | e :: m, k => if e.1 = k then some e.2 else DayMap.get m k

/-- `insert` (daily_value_data.rs 81-83): a value already there is replaced. -/
def DayMap.insert {V : Type} : DayMap V → Int → V → DayMap V
  | [], k, v => [(k, v)]
  | e :: m, k, v => if e.1 = k then (k, v) :: m else e :: DayMap.insert m k v

/-- Writing through `get_mut` (daily_value_data.rs 86-88; past_price.rs 111-114): nothing happens if the day is not there. -/
def DayMap.modify {V : Type} : DayMap V → Int → (V → V) → DayMap V
  | [], _, _ => []
  | e :: m, k, f => if e.1 = k then (k, f e.2) :: m else e :: DayMap.modify m k f

/-- `get_ordered_data_by_date` (daily_value_data.rs 90-100) and, the same code, `get_ordered_data_by_datetime` (past_price.rs 120-130): the entries in the order `walk` the map is walked, sorted by day
with a stable sort, and split into two vectors. -/
def orderedByDate {V : Type} (walk : DayMap V) : List Int × List V :=
  let sorted := walk.mergeSort fun a b => decide (a.1 ≤ b.1)
  (sorted.map (·.1), sorted.map (·.2))

/-- What a user does with the data. -/
inductive DayAct (V : Type)
  | insert (k : Int) (v : V)
  | modify (k : Int) (f : V → V)

/-- One call. -/
def DayMap.act {V : Type} (m : DayMap V) : DayAct V → DayMap V
  | .insert k v => m.insert k v
  | .modify k f => m.modify k f

/-- A history of calls. -/
def DayMap.run {V : Type} (m : DayMap V) (l : List (DayAct V)) : DayMap V := l.foldl DayMap.act m

end Verif.QL

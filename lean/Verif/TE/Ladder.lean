import Verif.TE.OrderBook
/-!
# The books as text: `OrderBook::to_string` (orderbook/mod.rs 142-176) and `HalfBook::to_string_upto_depth` (orderbook/half_book.rs 206-257)

Characters are `Char`; `{:<w}` and `{:>w}` of `core::fmt` pad with spaces to at least `w` characters.
-/
set_option autoImplicit false
namespace Verif.TE
open Verif

/-- `Display` of `u64` and `usize` -/
def showNat (n : Nat) : List Char := Nat.toDigits 10 n

/-- `Display` of `i64` -/
def showInt (z : Int) : List Char := if 0 ≤ z then showNat z.toNat else '-' :: showNat (-z).toNat

/-- `{:<w}` -/
def left (w : Nat) (s : List Char) : List Char := s ++ List.replicate (w - s.length) ' '

/-- `{:>w}` -/
def right (w : Nat) (s : List Char) : List Char := List.replicate (w - s.length) ' ' ++ s

/-- The text between two columns in the format strings (mod.rs 146, 156, 163, 169; half_book.rs 217, 224, 243, 249) -/
def bar : List Char := [' ', '|', ' ']

/-- A line of the ladder without its line feed (mod.rs 145-148, 156-159, 163-166, 169-172) -/
def line5 (a b c d e : List Char) : List Char := left 12 a ++ bar ++ left 8 b ++ bar ++ left 15 c ++ bar ++ left 8 d ++ bar ++ left 12 e

/-- `output.push_str(&format!("..\n"))` for each -/
def linesText (ls : List (List Char)) : List Char := ls.flatMap fun l => l ++ ['\n']

/-- The heading (mod.rs 145-148) -/
def heading5 : List Char := line5 "Bid Qty".toList "Bid Cnt".toList "Price".toList "Ask Cnt".toList "Ask Qty".toList

/-- A level of the ask side (mod.rs 155-160) -/
def askLine (x : Int × Level) : List Char := line5 [' '] [' '] (showInt x.1) (showNat x.2.orders.length) (showNat x.2.total)

/-- A level of the bid side (mod.rs 168-173) -/
def bidLine (x : Int × Level) : List Char := line5 (showNat x.2.total) (showNat x.2.orders.length) (showInt x.1) [' '] [' ']

/-- The line between the sides (mod.rs 163-166) -/
def divider : List Char :=
  line5 (List.replicate 12 '-') (List.replicate 8 '-') (List.replicate 15 '-') (List.replicate 8 '-') (List.replicate 12 '-')

/-- `OrderBook::to_string` (mod.rs 142-176). The heading ends with a line feed that the rule does not count. -/
def OrderBook.text (b : OrderBook) : List Char :=
  linesText ([heading5, List.replicate heading5.length '-'] ++ b.asks.levels.reverse.map askLine ++ [divider] ++ b.bids.levels.reverse.map bidLine)

/-- `ask_half_book_string` (half_book.rs 213-231): the levels by falling price, at most `depth`; the rule counts the line feed of the heading. -/
def HalfBook.askText (h : HalfBook) (depth : Option Nat) : List Char :=
  let d := depth.getD h.levels.length
  let head := left 15 "Price".toList ++ bar ++ left 8 "Ask Cnt".toList ++ bar ++ left 12 "Ask Qty".toList
  linesText ([head, List.replicate (head.length + 1) '-'] ++
    (h.levels.reverse.take d).map fun x => left 15 (showInt x.1) ++ bar ++ left 8 (showNat x.2.orders.length) ++ bar ++ left 12 (showNat x.2.total))

/-- `bid_half_book_string` (half_book.rs 240-257): the levels by rising price, at most `depth` -/
def HalfBook.bidText (h : HalfBook) (depth : Option Nat) : List Char :=
  let d := depth.getD h.levels.length
  let head := right 12 "Bid Qty".toList ++ bar ++ right 8 "Bid Cnt".toList ++ bar ++ right 15 "Price".toList
  linesText ([head, List.replicate (head.length + 1) '-'] ++
    (h.levels.take d).map fun x => right 12 (showNat x.2.total) ++ bar ++ right 8 (showNat x.2.orders.length) ++ bar ++ right 15 (showInt x.1))

/-- `to_string_upto_depth` (half_book.rs 206-211) -/
def HalfBook.text (h : HalfBook) (depth : Option Nat) : List Char :=
  match h.side with
  | .ask => h.askText depth
  | .bid => h.bidText depth

end Verif.TE

import Verif.TE.Ladder
import Verif.Props.BookCore
import Verif.Props.Text
import Mathlib.Data.Nat.Digits.Defs
/-!
# C162, C163: a book as text

A reader who splits the text into lines and columns, and reads decimal numbers, finds exactly the levels of the book.
-/
set_option autoImplicit false
namespace Verif.Props
open Verif Verif.TE Verif.Spec

/-! ## Specification: how a reader reads -/

/-- A text cut at every `c` -/
def cutAt (c : Char) : List Char → List (List Char)
  | [] => [[]]
  | x :: r => if x = c then [] :: cutAt c r else match cutAt c r with | [] => [[x]] | l :: ls => (x :: l) :: ls

/-- The columns of a line, without spaces -/
def columns (l : List Char) : List (List Char) := (cutAt '|' l).map fun c => c.filter fun x => decide (x ≠ ' ')

/-- A natural number in decimal -/
def readNat (s : List Char) : Option Nat :=
  if s ≠ [] ∧ s.all Char.isDigit then some (s.foldl (fun a c => 10 * a + (c.toNat - 48)) 0) else none

/-- An integer in decimal -/
def readInt : List Char → Option Int
  | '-' :: s => (readNat s).map fun n => -(n : Int)
  | s => (readNat s).map fun n => (n : Int)

/-- Price, number of orders and quantity -/
abbrev LadderRow := Int × Nat × Nat

def readRow (p n q : List Char) : Option LadderRow :=
  match readInt p, readNat n, readNat q with
  | some p, some n, some q => some (p, n, q)
  | _, _, _ => none

/-- In the whole book: the two columns left of the price are blank for a sell level, ... -/
def readAsk (l : List Char) : Option LadderRow :=
  match columns l with
  | [[], [], p, n, q] => readRow p n q
  | _ => none

/-- ... the two on the right for a buy level. -/
def readBid (l : List Char) : Option LadderRow :=
  match columns l with
  | [q, n, p, [], []] => readRow p n q
  | _ => none

/-- The levels a reader finds in the text of a book: sell levels and buy levels, from top to bottom -/
def readBook (t : List Char) : List LadderRow × List LadderRow := ((cutAt '\n' t).filterMap readAsk, (cutAt '\n' t).filterMap readBid)

/-- One side alone: price, number and quantity for sells, the other way round for buys -/
def readSide (s : Side) (t : List Char) : List LadderRow :=
  (cutAt '\n' t).filterMap fun l => match s, columns l with
    | .ask, [p, n, q] => readRow p n q
    | .bid, [q, n, p] => readRow p n q
    | _, _ => none

/-- The rows `R` show the resting orders `l`: by falling price, one for each price, with the number and the total of the orders there. -/
structure Displays (R : List LadderRow) (l : List Resting) : Prop where
  falling : R.Pairwise fun x y => y.1 < x.1
  level : ∀ x ∈ R, x.2.1 = (l.filter fun o => o.price = x.1).length ∧ x.2.1 ≠ 0 ∧ x.2.2 = volumeAt x.1 l
  all : ∀ o ∈ l, ∃ x ∈ R, x.1 = o.price

/-! ## Cutting -/

theorem cutAt_none (c : Char) (a : List Char) (h : c ∉ a) : cutAt c a = [a] := by
  induction a with
  | nil => rfl
  | cons x r ih =>
    have hx : x ≠ c := fun e => h (by simp [e])
    unfold cutAt
    rw [if_neg hx, ih (fun m => h (List.mem_cons_of_mem _ m))]

theorem cutAt_append (c : Char) (a r : List Char) (h : c ∉ a) : cutAt c (a ++ c :: r) = a :: cutAt c r := by
  induction a with
  | nil => simp [cutAt]
  | cons x a ih =>
    have hx : x ≠ c := fun e => h (by simp [e])
    rw [List.cons_append, cutAt, if_neg hx, ih (fun m => h (List.mem_cons_of_mem _ m))]

theorem cutAt_ne (c : Char) (r : List Char) : cutAt c r ≠ [] := by
  cases r with
  | nil => simp [cutAt]
  | cons x r =>
    unfold cutAt
    split
    · simp
    · split <;> simp

theorem cut_lines (ls : List (List Char)) (h : ∀ l ∈ ls, '\n' ∉ l) : cutAt '\n' (linesText ls) = ls ++ [[]] := by
  induction ls with
  | nil => rfl
  | cons l ls ih =>
    have : linesText (l :: ls) = l ++ '\n' :: linesText ls := by simp [linesText]
    rw [this, cutAt_append _ _ _ (h l (by simp)), ih (fun l' h' => h l' (List.mem_cons_of_mem _ h'))]
    rfl

/-! ## Numbers -/

theorem showNat_digit (n : Nat) : ∀ c ∈ showNat n, c.isDigit = true := toDigits_digit n

theorem showNat_ne (n : Nat) : showNat n ≠ [] := Nat.toDigits_ne_nil

theorem readNat_show (n : Nat) : readNat (showNat n) = some n := by
  unfold readNat
  rw [if_pos ⟨showNat_ne n, List.all_eq_true.2 (showNat_digit n)⟩]
  exact congrArg some (value_toDigits n .D)

theorem readInt_show (z : Int) : readInt (showInt z) = some z := by
  unfold showInt
  by_cases h : 0 ≤ z
  · rw [if_pos h]
    have hd := showNat_digit z.toNat
    have hr := readNat_show z.toNat
    revert hd hr
    cases hs : showNat z.toNat with
    | nil => exact absurd hs (showNat_ne _)
    | cons c s =>
      intro hd hr
      have hc : c ≠ '-' := by
        intro e
        have := hd c (by simp)
        rw [e] at this
        exact absurd this (by decide)
      unfold readInt
      split
      · rename_i e; injection e with e _; exact absurd e hc
      · rw [hr]
        simp [Int.toNat_of_nonneg h]
  · rw [if_neg h]
    rw [readInt, readNat_show]
    simp
    omega

theorem readRow_show (p : Int) (n q : Nat) : readRow (showInt p) (showNat n) (showNat q) = some (p, n, q) := by
  unfold readRow
  rw [readInt_show, readNat_show, readNat_show]

/-! ## Columns -/

/-- Nothing that ends a column or a line -/
def InColumn (s : List Char) : Prop := ∀ c ∈ s, c ≠ '|' ∧ c ≠ '\n'

theorem plain_nat (n : Nat) : InColumn (showNat n) := by
  intro c hc
  have := showNat_digit n c hc
  constructor <;> (intro e; rw [e] at this; exact absurd this (by decide))

theorem plain_int (z : Int) : InColumn (showInt z) := by
  unfold showInt
  split
  · exact plain_nat _
  · intro c hc
    rcases List.mem_cons.1 hc with rfl | hc
    · decide
    · exact plain_nat _ c hc

theorem plain_append (a b : List Char) (ha : InColumn a) (hb : InColumn b) : InColumn (a ++ b) := by
  intro c hc
  rcases List.mem_append.1 hc with h | h
  · exact ha c h
  · exact hb c h

theorem plain_replicate (n : Nat) (c : Char) (h : c ≠ '|' ∧ c ≠ '\n') : InColumn (List.replicate n c) := by
  intro x hx
  rw [List.eq_of_mem_replicate hx]
  exact h

theorem plain_left (w : Nat) (s : List Char) (h : InColumn s) : InColumn (left w s) := plain_append _ _ h (plain_replicate _ _ (by decide))

theorem plain_right (w : Nat) (s : List Char) (h : InColumn s) : InColumn (right w s) := plain_append _ _ (plain_replicate _ _ (by decide)) h

/-- Without spaces -/
def Solid (s : List Char) : Prop := ∀ c ∈ s, c ≠ ' '

theorem solid_nat (n : Nat) : Solid (showNat n) := by
  intro c hc e
  have := showNat_digit n c hc
  rw [e] at this
  exact absurd this (by decide)

theorem solid_int (z : Int) : Solid (showInt z) := by
  unfold showInt
  split
  · exact solid_nat _
  · intro c hc
    rcases List.mem_cons.1 hc with rfl | hc
    · decide
    · exact solid_nat _ c hc

theorem filter_solid (s : List Char) (h : Solid s) : (s.filter fun x => decide (x ≠ ' ')) = s :=
  List.filter_eq_self.2 fun c hc => decide_eq_true (h c hc)

theorem filter_spaces (n : Nat) : ((List.replicate n ' ').filter fun x => decide (x ≠ ' ')) = [] :=
  List.filter_eq_nil_iff.2 fun c hc => by rw [List.eq_of_mem_replicate hc]; decide

/-- Two columns of a line -/
theorem columns_two (a r : List Char) (ha : InColumn a) : columns (a ++ bar ++ r) = (a.filter fun x => decide (x ≠ ' ')) :: columns r := by
  have h1 : '|' ∉ a ++ [' '] := by
    intro h
    rcases List.mem_append.1 h with h | h
    · exact (ha _ h).1 rfl
    · simp at h
  have h2 : a ++ bar ++ r = (a ++ [' ']) ++ '|' :: (' ' :: r) := by simp [bar]
  unfold columns
  rw [h2, cutAt_append _ _ _ h1, List.map_cons]
  have h3 : ((a ++ [' ']).filter fun x => decide (x ≠ ' ')) = a.filter fun x => decide (x ≠ ' ') := by simp
  rw [h3]
  congr 1
  -- the space before the next column
  rw [show cutAt '|' (' ' :: r) = match cutAt '|' r with | [] => [[' ']] | l :: ls => (' ' :: l) :: ls from by rw [cutAt, if_neg (by decide)]]
  cases hc : cutAt '|' r with
  | nil => exact absurd hc (cutAt_ne _ _)
  | cons l ls => simp

theorem columns_one (a : List Char) (ha : InColumn a) : columns a = [a.filter fun x => decide (x ≠ ' ')] := by
  unfold columns
  rw [cutAt_none _ _ (fun h => (ha _ h).1 rfl)]
  rfl

theorem columns5 (a b c d e : List Char) (ha : InColumn a) (hb : InColumn b) (hc : InColumn c) (hd : InColumn d) (he : InColumn e) :
    columns (line5 a b c d e) = [a, b, c, d, e].map fun s => s.filter fun x => decide (x ≠ ' ') := by
  have key : ∀ w s, ((left w s).filter fun x => decide (x ≠ ' ')) = s.filter fun x => decide (x ≠ ' ') := by
    intro w s
    unfold left
    rw [List.filter_append, filter_spaces, List.append_nil]
  have e1 : line5 a b c d e = left 12 a ++ bar ++ (left 8 b ++ bar ++ (left 15 c ++ bar ++ (left 8 d ++ bar ++ left 12 e))) := by
    unfold line5
    simp only [List.append_assoc]
  rw [e1, columns_two _ _ (plain_left _ _ ha), columns_two _ _ (plain_left _ _ hb), columns_two _ _ (plain_left _ _ hc), columns_two _ _ (plain_left _ _ hd), columns_one _ (plain_left _ _ he)]
  simp only [key, List.map_cons, List.map_nil]

/-- What a level says -/
def rowOf (x : Int × Level) : LadderRow := (x.1, x.2.orders.length, x.2.total)

theorem plain_space : InColumn [' '] := by intro c hc; rw [List.mem_singleton.1 hc]; decide

theorem ask_columns (x : Int × Level) : columns (askLine x) = [[], [], showInt x.1, showNat x.2.orders.length, showNat x.2.total] := by
  unfold askLine
  rw [columns5 _ _ _ _ _ plain_space plain_space (plain_int _) (plain_nat _) (plain_nat _)]
  simp only [List.map_cons, List.map_nil, filter_solid _ (solid_int _), filter_solid _ (solid_nat _)]
  rfl

theorem bid_columns (x : Int × Level) : columns (bidLine x) = [showNat x.2.total, showNat x.2.orders.length, showInt x.1, [], []] := by
  unfold bidLine
  rw [columns5 _ _ _ _ _ (plain_nat _) (plain_nat _) (plain_int _) plain_space plain_space]
  simp only [List.map_cons, List.map_nil, filter_solid _ (solid_int _), filter_solid _ (solid_nat _)]
  rfl

theorem showInt_ne (z : Int) : showInt z ≠ [] := by
  unfold showInt
  split
  · exact showNat_ne _
  · simp

theorem readAsk_ask (x : Int × Level) : readAsk (askLine x) = some (rowOf x) := by
  unfold readAsk
  rw [ask_columns]
  exact readRow_show _ _ _

theorem readBid_bid (x : Int × Level) : readBid (bidLine x) = some (rowOf x) := by
  unfold readBid
  rw [bid_columns]
  exact readRow_show _ _ _

theorem readBid_ask (x : Int × Level) : readBid (askLine x) = none := by
  unfold readBid
  rw [ask_columns]
  split
  · rename_i h
    injection h with _ h; injection h with _ h; injection h with _ h; injection h with h _
    exact absurd h (showNat_ne _)
  · rfl

theorem readAsk_bid (x : Int × Level) : readAsk (bidLine x) = none := by
  unfold readAsk
  rw [bid_columns]
  split
  · rename_i h
    injection h with h _
    exact absurd h (showNat_ne _)
  · rfl

theorem line5_plain (a b c d e : List Char) (ha : InColumn a) (hb : InColumn b) (hc : InColumn c) (hd : InColumn d) (he : InColumn e) : '\n' ∉ line5 a b c d e := by
  have bar' : '\n' ∉ bar := by decide
  unfold line5
  simp only [List.mem_append, not_or]
  exact ⟨⟨⟨⟨⟨⟨⟨⟨fun h => (plain_left _ _ ha _ h).2 rfl, bar'⟩, fun h => (plain_left _ _ hb _ h).2 rfl⟩, bar'⟩, fun h => (plain_left _ _ hc _ h).2 rfl⟩, bar'⟩,
    fun h => (plain_left _ _ hd _ h).2 rfl⟩, bar'⟩, fun h => (plain_left _ _ he _ h).2 rfl⟩

theorem filterMap_some {α β : Type} (f : α → Option β) (g : α → β) (l : List α) (h : ∀ x ∈ l, f x = some (g x)) : l.filterMap f = l.map g := by
  induction l with
  | nil => rfl
  | cons x l ih => rw [List.filterMap_cons, h x (by simp), ih fun y hy => h y (List.mem_cons_of_mem _ hy), List.map_cons]

/-! ## C162 -/

/-- The lines of the text -/
theorem book_lines (b : OrderBook) : cutAt '\n' b.text =
    [heading5, List.replicate heading5.length '-'] ++ b.asks.levels.reverse.map askLine ++ [divider] ++ b.bids.levels.reverse.map bidLine ++ [[]] := by
  unfold OrderBook.text
  rw [cut_lines]
  intro l hl
  simp only [List.mem_append, List.mem_map, List.mem_cons, List.not_mem_nil, or_false] at hl
  rcases hl with ((((rfl | rfl) | ⟨x, -, rfl⟩) | rfl) | ⟨x, -, rfl⟩)
  · decide
  · decide
  · exact line5_plain _ _ _ _ _ plain_space plain_space (plain_int _) (plain_nat _) (plain_nat _)
  · decide
  · exact line5_plain _ _ _ _ _ (plain_nat _) (plain_nat _) (plain_int _) plain_space plain_space

/-- **C162.** From the text of any book a reader recovers every level: price, number of orders and total, by falling price on both sides. -/
theorem C162_read (b : OrderBook) : readBook b.text = (b.asks.levels.reverse.map rowOf, b.bids.levels.reverse.map rowOf) := by
  unfold readBook
  rw [book_lines]
  have h1 : readAsk heading5 = none := by decide
  have h2 : readAsk (List.replicate heading5.length '-') = none := by decide
  have h3 : readAsk divider = none := by decide
  have h4 : readAsk [] = none := by decide
  have k1 : readBid heading5 = none := by decide
  have k2 : readBid (List.replicate heading5.length '-') = none := by decide
  have k3 : readBid divider = none := by decide
  have k4 : readBid [] = none := by decide
  simp only [List.filterMap_append, List.filterMap_cons, List.filterMap_nil, h1, h2, h3, h4, k1, k2, k3, k4, List.filterMap_map, List.append_nil, List.nil_append]
  congr 1
  · rw [filterMap_some (readAsk ∘ askLine) rowOf _ (fun x _ => readAsk_ask x)]
    rw [List.filterMap_eq_nil_iff (f := readAsk ∘ bidLine) |>.2 (fun x _ => readAsk_bid x), List.append_nil]
  · rw [filterMap_some (readBid ∘ bidLine) rowOf _ (fun x _ => readBid_bid x)]
    rw [List.filterMap_eq_nil_iff (f := readBid ∘ askLine) |>.2 (fun x _ => readBid_ask x), List.nil_append]

/-- Two books with the same text have the same levels. -/
theorem C162_same (a b : OrderBook) (h : a.text = b.text) : a.asks.levels.map rowOf = b.asks.levels.map rowOf ∧ a.bids.levels.map rowOf = b.bids.levels.map rowOf := by
  have ha := C162_read a
  rw [h, C162_read b] at ha
  injection ha with h1 h2
  simp only [List.map_reverse, List.reverse_inj] at h1 h2
  exact ⟨h1.symm, h2.symm⟩

/-! ### The resting orders -/

theorem filter_flat (l : List (Int × Level)) (hd : l.Pairwise fun a b => a.1 ≠ b.1) (e : Int × Level) (he : e ∈ l) :
    ((flat l).filter fun o => o.price = e.1) = e.2.orders.map (toR e.1) := by
  have none : ∀ (l : List (Int × Level)), (∀ x ∈ l, x.1 ≠ e.1) → ((flat l).filter fun o => o.price = e.1) = [] := by
    intro l hl
    rw [List.filter_eq_nil_iff]
    intro o ho
    unfold flat at ho
    obtain ⟨x, hx, ho⟩ := List.mem_flatMap.1 ho
    obtain ⟨y, -, rfl⟩ := List.mem_map.1 ho
    simp [hl x hx]
  induction l with
  | nil => cases he
  | cons x l ih =>
    obtain ⟨h1, h2⟩ := List.pairwise_cons.1 hd
    rw [flat_cons, List.filter_append]
    rcases List.mem_cons.1 he with rfl | he
    · rw [none l (fun y hy => (h1 y hy).symm), List.append_nil]
      exact List.filter_eq_self.2 fun o ho => by obtain ⟨y, -, rfl⟩ := List.mem_map.1 ho; simp
    · rw [ih h2 he]
      have : ((x.2.orders.map (toR x.1)).filter fun o => o.price = e.1) = [] := by
        rw [List.filter_eq_nil_iff]
        intro o ho
        obtain ⟨y, -, rfl⟩ := List.mem_map.1 ho
        simp [h1 e he]
      rw [this, List.nil_append]

theorem displays_of_wf {h : HalfBook} (wf : h.WF) : Displays (h.levels.reverse.map rowOf) h.queue := by
  have hq : ∃ l : List (Int × Level), h.queue = flat l ∧ (∀ x, x ∈ l ↔ x ∈ h.levels) ∧ l.Pairwise fun a b => a.1 ≠ b.1 := by
    unfold HalfBook.queue queueOf
    cases h.side with
    | ask => exact ⟨h.levels, rfl, fun _ => Iff.rfl, wf.sorted.imp fun hlt => by omega⟩
    | bid => exact ⟨h.levels.reverse, rfl, fun _ => List.mem_reverse, List.pairwise_reverse.2 (wf.sorted.imp fun hlt => by omega)⟩
  obtain ⟨l, e1, e2, e3⟩ := hq
  refine ⟨?_, ?_, ?_⟩
  · rw [List.pairwise_map, List.pairwise_reverse]
    exact wf.sorted
  · intro x hx
    obtain ⟨e, he, rfl⟩ := List.mem_map.1 hx
    have he' : e ∈ h.levels := List.mem_reverse.1 he
    have ok := wf.levels e he'
    have hf := filter_flat l e3 e ((e2 e).2 he')
    refine ⟨?_, ?_, ?_⟩
    · rw [e1]
      show e.2.orders.length = ((flat l).filter fun o => o.price = e.1).length
      rw [hf, List.length_map]
    · show e.2.orders.length ≠ 0
      exact fun h0 => ok.nonempty (List.length_eq_zero_iff.1 h0)
    · rw [e1]
      show e.2.total = volume ((flat l).filter fun o => o.price = e.1)
      rw [hf, volume_map_toR, ok.total]
  · intro o ho
    rw [e1] at ho
    unfold flat at ho
    obtain ⟨x, hx, ho⟩ := List.mem_flatMap.1 ho
    obtain ⟨y, -, rfl⟩ := List.mem_map.1 ho
    exact ⟨rowOf x, List.mem_map.2 ⟨x, List.mem_reverse.2 ((e2 x).1 hx), rfl⟩, rfl⟩

/-- After any history of valid commands the text shows exactly the resting orders by price, the best sell price in the last sell row and the best buy price in the
first buy row. -/
theorem C162_resting (m : Mode) (inst : Nat) (b : OrderBook) (h : Reachable AnyCmd m inst b) :
    Displays (readBook b.text).1 b.abs.sells ∧ Displays (readBook b.text).2 b.abs.buys ∧
    (∀ x, (readBook b.text).1.getLast? = some x → x.1 = b.asks.best) ∧ ∀ x, (readBook b.text).2.head? = some x → x.1 = b.bids.best := by
  have wf := h.wf
  rw [C162_read]
  refine ⟨displays_of_wf wf.asks, displays_of_wf wf.bids, ?_, ?_⟩
  · intro x hx
    have hx' : (b.asks.levels.reverse.map rowOf).getLast? = some x := hx
    rw [List.getLast?_map, List.getLast?_reverse] at hx'
    obtain ⟨e, he, rfl⟩ := Option.map_eq_some_iff.1 hx'
    rw [wf.asks.best, wf.aside]
    unfold HalfBook.bestOf
    simp [he, rowOf]
  · intro x hx
    have hx' : (b.bids.levels.reverse.map rowOf).head? = some x := hx
    rw [List.head?_map, List.head?_reverse] at hx'
    obtain ⟨e, he, rfl⟩ := Option.map_eq_some_iff.1 hx'
    rw [wf.bids.best, wf.bside]
    unfold HalfBook.bestOf
    simp [he, rowOf]

/-! ### The shape -/

theorem left_length (w : Nat) (s : List Char) (h : s.length ≤ w) : (left w s).length = w := by
  unfold left
  rw [List.length_append, List.length_replicate]
  omega

theorem showNat_length (n e : Nat) (he : 0 < e) (h : n < 10 ^ e) : (showNat n).length ≤ e := Nat.toDigits_length 10 n e he h

theorem showInt_length (z : Int) (e : Nat) (he : 0 < e) (h1 : -10 ^ e < z) (h2 : z < 10 ^ (e + 1)) : (showInt z).length ≤ e + 1 := by
  unfold showInt
  split
  · refine showNat_length _ _ (by omega) ?_
    have : ((z.toNat : Nat) : Int) < ((10 ^ (e + 1) : Nat) : Int) := by push_cast; omega
    exact_mod_cast this
  · have := showNat_length (-z).toNat e he (by
      have : (((-z).toNat : Nat) : Int) < ((10 ^ e : Nat) : Int) := by push_cast; omega
      exact_mod_cast this)
    simp only [List.length_cons]
    omega

/-- What fits its column -/
structure Fits (x : LadderRow) : Prop where
  price : -10 ^ 14 < x.1 ∧ x.1 < 10 ^ 15
  count : x.2.1 < 10 ^ 8
  qty : x.2.2 < 10 ^ 12

/-- The text is a heading and a rule, one line for each sell level, a divider and one line for each buy level; if the numbers fit the columns all lines have the same
length. -/
theorem C162_shape (b : OrderBook) : (cutAt '\n' b.text).length = b.asks.levels.length + b.bids.levels.length + 4 ∧
    ((∀ x ∈ b.asks.levels ++ b.bids.levels, Fits (rowOf x)) → ∀ l ∈ cutAt '\n' b.text, l = [] ∨ l.length = 67) := by
  rw [book_lines]
  refine ⟨by simp; omega, fun hf l hl => ?_⟩
  have len5 : ∀ a b c d e : List Char, a.length ≤ 12 → b.length ≤ 8 → c.length ≤ 15 → d.length ≤ 8 → e.length ≤ 12 → (line5 a b c d e).length = 67 := by
    intro a b c d e h1 h2 h3 h4 h5
    unfold line5
    simp only [List.length_append, left_length _ _ h1, left_length _ _ h2, left_length _ _ h3, left_length _ _ h4, left_length _ _ h5, bar, List.length_cons, List.length_nil]
  simp only [List.mem_append, List.mem_map, List.mem_cons, List.not_mem_nil, or_false, List.mem_reverse] at hl
  rcases hl with (((((rfl | rfl) | ⟨x, hx, rfl⟩) | rfl) | ⟨x, hx, rfl⟩) | rfl)
  · exact Or.inr (by decide)
  · exact Or.inr (by decide)
  · have f := hf x (List.mem_append_left _ hx)
    exact Or.inr (len5 _ _ _ _ _ (by simp) (by simp) (showInt_length _ 14 (by omega) f.price.1 f.price.2) (showNat_length _ 8 (by omega) f.count)
      (showNat_length _ 12 (by omega) f.qty))
  · exact Or.inr (by decide)
  · have f := hf x (List.mem_append_right _ hx)
    exact Or.inr (len5 _ _ _ _ _ (showNat_length _ 12 (by omega) f.qty) (showNat_length _ 8 (by omega) f.count) (showInt_length _ 14 (by omega) f.price.1 f.price.2) (by simp) (by simp))
  · exact Or.inl rfl

example : ∃ b, Reachable AnyCmd .checked 7 b ∧ b.abs = demoBook := demo_any _

/-- What a reader sees of a book with two levels on each side -/
def ladderBook : OrderBook where
  asks := { side := .ask, levels := [(101, ⟨101, [(1, 5), (2, 4)], 9⟩), (103, ⟨103, [(3, 5)], 5⟩)], cache := fun _ => none, best := 101, total := 14 }
  bids := { side := .bid, levels := [(-7, ⟨-7, [(6, 8)], 8⟩), (99, ⟨99, [(5, 6)], 6⟩)], cache := fun _ => none, best := 99, total := 14 }
  inst := 0
  ctr := 0

example : readBook ladderBook.text = ([(103, 1, 5), (101, 2, 9)], [(99, 1, 6), (-7, 1, 8)]) := C162_read _
example : ∀ l ∈ cutAt '\n' ladderBook.text, l = [] ∨ l.length = 67 := (C162_shape ladderBook).2 (by
  intro x hx
  have : x ∈ [((101, ⟨101, [(1, 5), (2, 4)], 9⟩) : Int × Level), (103, ⟨103, [(3, 5)], 5⟩), (-7, ⟨-7, [(6, 8)], 8⟩), (99, ⟨99, [(5, 6)], 6⟩)] := hx
  simp only [List.mem_cons, List.not_mem_nil, or_false] at this
  rcases this with rfl | rfl | rfl | rfl <;> exact ⟨by decide, by decide, by decide⟩)

/-! ## C163: one side, up to a depth -/

theorem key_left (w : Nat) (s : List Char) (h : Solid s) : ((left w s).filter fun x => decide (x ≠ ' ')) = s := by
  unfold left
  rw [List.filter_append, filter_spaces, List.append_nil, filter_solid _ h]

theorem key_right (w : Nat) (s : List Char) (h : Solid s) : ((right w s).filter fun x => decide (x ≠ ' ')) = s := by
  unfold right
  rw [List.filter_append, filter_spaces, List.nil_append, filter_solid _ h]

theorem columns3 (a b c : List Char) (ha : InColumn a) (hb : InColumn b) (hc : InColumn c) :
    columns (a ++ bar ++ b ++ bar ++ c) = [a.filter fun x => decide (x ≠ ' '), b.filter fun x => decide (x ≠ ' '), c.filter fun x => decide (x ≠ ' ')] := by
  have e : a ++ bar ++ b ++ bar ++ c = a ++ bar ++ (b ++ bar ++ c) := by simp only [List.append_assoc]
  rw [e, columns_two _ _ ha, columns_two _ _ hb, columns_one _ hc]

theorem plain3 (a b c : List Char) (ha : InColumn a) (hb : InColumn b) (hc : InColumn c) : '\n' ∉ a ++ bar ++ b ++ bar ++ c := by
  have bar' : '\n' ∉ bar := by decide
  simp only [List.mem_append, not_or]
  exact ⟨⟨⟨⟨fun h => (ha _ h).2 rfl, bar'⟩, fun h => (hb _ h).2 rfl⟩, bar'⟩, fun h => (hc _ h).2 rfl⟩

/-- **C163.** From the text of a side a reader recovers levels exactly: all of them without a depth; with a depth, that many from the end of the price ladder that is
farther from the market: the highest sell prices, the lowest buy prices. -/
theorem C163_read (h : HalfBook) (depth : Option Nat) : readSide h.side (h.text depth) =
    match h.side with
    | .ask => (h.levels.reverse.take (depth.getD h.levels.length)).map rowOf
    | .bid => (h.levels.take (depth.getD h.levels.length)).map rowOf := by
  unfold readSide HalfBook.text
  cases h.side with
  | ask =>
    dsimp only
    unfold HalfBook.askText
    dsimp only
    rw [cut_lines]
    · simp only [List.filterMap_append, List.filterMap_cons, List.filterMap_nil, List.filterMap_map]
      rw [show (match Side.ask, columns (left 15 "Price".toList ++ bar ++ left 8 "Ask Cnt".toList ++ bar ++ left 12 "Ask Qty".toList) with | .ask, [p, n, q] => readRow p n q | .bid, [q, n, p] => readRow p n q | _, _ => none) = none by decide,
        show (match Side.ask, columns (List.replicate ((left 15 "Price".toList ++ bar ++ left 8 "Ask Cnt".toList ++ bar ++ left 12 "Ask Qty".toList).length + 1) '-') with | .ask, [p, n, q] => readRow p n q | .bid, [q, n, p] => readRow p n q | _, _ => none) = none by decide,
        show (match Side.ask, columns [] with | .ask, [p, n, q] => readRow p n q | .bid, [q, n, p] => readRow p n q | _, _ => none) = none by decide]
      simp only [List.nil_append, List.append_nil]
      refine filterMap_some _ rowOf _ fun x _ => ?_
      simp only [Function.comp]
      rw [columns3 _ _ _ (plain_left _ _ (plain_int _)) (plain_left _ _ (plain_nat _)) (plain_left _ _ (plain_nat _)), key_left _ _ (solid_int _), key_left _ _ (solid_nat _),
        key_left _ _ (solid_nat _)]
      exact readRow_show _ _ _
    · intro l hl
      simp only [List.mem_append, List.mem_map, List.mem_cons, List.not_mem_nil, or_false] at hl
      rcases hl with ((rfl | rfl) | ⟨x, -, rfl⟩)
      · decide
      · decide
      · exact plain3 _ _ _ (plain_left _ _ (plain_int _)) (plain_left _ _ (plain_nat _)) (plain_left _ _ (plain_nat _))
  | bid =>
    dsimp only
    unfold HalfBook.bidText
    dsimp only
    rw [cut_lines]
    · simp only [List.filterMap_append, List.filterMap_cons, List.filterMap_nil, List.filterMap_map]
      rw [show (match Side.bid, columns (right 12 "Bid Qty".toList ++ bar ++ right 8 "Bid Cnt".toList ++ bar ++ right 15 "Price".toList) with | .ask, [p, n, q] => readRow p n q | .bid, [q, n, p] => readRow p n q | _, _ => none) = none by decide,
        show (match Side.bid, columns (List.replicate ((right 12 "Bid Qty".toList ++ bar ++ right 8 "Bid Cnt".toList ++ bar ++ right 15 "Price".toList).length + 1) '-') with | .ask, [p, n, q] => readRow p n q | .bid, [q, n, p] => readRow p n q | _, _ => none) = none by decide,
        show (match Side.bid, columns [] with | .ask, [p, n, q] => readRow p n q | .bid, [q, n, p] => readRow p n q | _, _ => none) = none by decide]
      simp only [List.nil_append, List.append_nil]
      refine filterMap_some _ rowOf _ fun x _ => ?_
      simp only [Function.comp]
      rw [columns3 _ _ _ (plain_right _ _ (plain_nat _)) (plain_right _ _ (plain_nat _)) (plain_right _ _ (plain_int _)), key_right _ _ (solid_int _), key_right _ _ (solid_nat _),
        key_right _ _ (solid_nat _)]
      exact readRow_show _ _ _
    · intro l hl
      simp only [List.mem_append, List.mem_map, List.mem_cons, List.not_mem_nil, or_false] at hl
      rcases hl with ((rfl | rfl) | ⟨x, -, rfl⟩)
      · decide
      · decide
      · exact plain3 _ _ _ (plain_right _ _ (plain_nat _)) (plain_right _ _ (plain_nat _)) (plain_right _ _ (plain_int _))

/-- After any history of valid commands: without a depth a side shows exactly its resting orders. With a depth it shows so many rows and every price not shown is nearer
to the market than every price shown; so the best price is only shown if all levels are. -/
theorem C163_depth (m : Mode) (inst : Nat) (b : OrderBook) (hb : Reachable AnyCmd m inst b) :
    Displays (readSide .ask (b.asks.text none)) b.abs.sells ∧ Displays (readSide .bid (b.bids.text none)).reverse b.abs.buys ∧
    ∀ k, ((readSide .ask (b.asks.text (some k))).length = min k b.asks.levels.length ∧
        (∀ x ∈ readSide .ask (b.asks.text (some k)), ∀ o ∈ b.abs.sells, (∀ y ∈ readSide .ask (b.asks.text (some k)), y.1 ≠ o.price) → o.price < x.1) ∧
        (k < b.asks.levels.length → ∀ x ∈ readSide .ask (b.asks.text (some k)), b.asks.best < x.1)) ∧
      (readSide .bid (b.bids.text (some k))).length = min k b.bids.levels.length ∧
        (∀ x ∈ readSide .bid (b.bids.text (some k)), ∀ o ∈ b.abs.buys, (∀ y ∈ readSide .bid (b.bids.text (some k)), y.1 ≠ o.price) → x.1 < o.price) ∧
        (k < b.bids.levels.length → ∀ x ∈ readSide .bid (b.bids.text (some k)), x.1 < b.bids.best) := by
  have wf := hb.wf
  have hA : ∀ d, readSide .ask (b.asks.text d) = (b.asks.levels.reverse.take (d.getD b.asks.levels.length)).map rowOf := by
    intro d
    have := C163_read b.asks d
    rw [wf.aside] at this
    exact this
  have hB : ∀ d, readSide .bid (b.bids.text d) = (b.bids.levels.take (d.getD b.bids.levels.length)).map rowOf := by
    intro d
    have := C163_read b.bids d
    rw [wf.bside] at this
    exact this
  have dA := displays_of_wf wf.asks
  have dB := displays_of_wf wf.bids
  refine ⟨?_, ?_, fun k => ?_⟩
  · rw [hA]
    show Displays ((b.asks.levels.reverse.take b.asks.levels.length).map rowOf) _
    rw [List.take_of_length_le (by simp)]
    exact dA
  · rw [hB]
    show Displays ((b.bids.levels.take b.bids.levels.length).map rowOf).reverse _
    rw [List.take_of_length_le (Nat.le_refl _), ← List.map_reverse]
    exact dB
  · rw [hA, hB]
    show ((List.map rowOf (List.take k _)).length = _ ∧ (∀ x ∈ List.map rowOf (List.take k _), _) ∧ (_ → ∀ x ∈ List.map rowOf (List.take k _), _)) ∧
      (List.map rowOf (List.take k _)).length = _ ∧ (∀ x ∈ List.map rowOf (List.take k _), _) ∧ (_ → ∀ x ∈ List.map rowOf (List.take k _), _)
    have sA : (b.asks.levels.reverse.take k ++ b.asks.levels.reverse.drop k).Pairwise (fun x y => y.1 < x.1) := by
      rw [List.take_append_drop, List.pairwise_reverse]
      exact wf.asks.sorted
    have sB : (b.bids.levels.take k ++ b.bids.levels.drop k).Pairwise (fun x y => x.1 < y.1) := by
      rw [List.take_append_drop]
      exact wf.bids.sorted
    have pA := (List.pairwise_append.1 sA).2.2
    have pB := (List.pairwise_append.1 sB).2.2
    refine ⟨⟨by simp, ?_, ?_⟩, by simp, ?_, ?_⟩
    · intro x hx o ho hn
      obtain ⟨e, he, rfl⟩ := List.mem_map.1 hx
      obtain ⟨y, hy, hyp⟩ := dA.all o ho
      obtain ⟨f, hf, rfl⟩ := List.mem_map.1 hy
      rw [← List.take_append_drop k b.asks.levels.reverse] at hf
      rcases List.mem_append.1 hf with hf | hf
      · exact absurd hyp (hn _ (List.mem_map.2 ⟨f, hf, rfl⟩))
      · rw [← hyp]
        exact pA e he f hf
    · intro hk x hx
      obtain ⟨e, he, rfl⟩ := List.mem_map.1 hx
      rw [wf.asks.best, wf.aside]
      unfold HalfBook.bestOf
      cases hl : b.asks.levels with
      | nil => rw [hl] at hk; cases hk
      | cons f ls =>
        simp only [List.head?_cons]
        refine pA e he f ?_
        rw [hl, List.reverse_cons]
        rw [hl, List.length_cons] at hk
        rw [List.drop_append_of_le_length (by simp; omega)]
        simp
    · intro x hx o ho hn
      obtain ⟨e, he, rfl⟩ := List.mem_map.1 hx
      obtain ⟨y, hy, hyp⟩ := dB.all o ho
      obtain ⟨f, hf, rfl⟩ := List.mem_map.1 hy
      rw [List.mem_reverse, ← List.take_append_drop k b.bids.levels] at hf
      rcases List.mem_append.1 hf with hf | hf
      · exact absurd hyp (hn _ (List.mem_map.2 ⟨f, hf, rfl⟩))
      · rw [← hyp]
        exact pB e he f hf
    · intro hk x hx
      obtain ⟨e, he, rfl⟩ := List.mem_map.1 hx
      rw [wf.bids.best, wf.bside]
      unfold HalfBook.bestOf
      rcases List.eq_nil_or_concat b.bids.levels with hl | ⟨ls, f, hl⟩
      · rw [hl] at hk; cases hk
      · rw [List.concat_eq_append] at hl
        rw [hl, List.getLast?_append, List.getLast?_singleton]
        simp only [Option.some_or]
        refine pB e he f ?_
        rw [hl, List.length_append, List.length_singleton] at hk
        rw [hl, List.drop_append_of_le_length (by omega)]
        simp

/-- A user who asks for one level of this book sees 103 and -7, not 101 and 99. -/
theorem fault_depth_hides_the_best : readSide .ask (ladderBook.asks.text (some 1)) = [(103, 1, 5)] ∧ readSide .bid (ladderBook.bids.text (some 1)) = [(-7, 1, 8)] ∧
    ladderBook.asks.best = 101 ∧ ladderBook.bids.best = 99 :=
  ⟨C163_read ladderBook.asks (some 1), C163_read ladderBook.bids (some 1), rfl, rfl⟩

end Verif.Props

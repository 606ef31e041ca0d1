import Verif.QL.Schedule
/-!
# Model of `quantlib/src/currency.rs` and `quantlib/src/utils/make_fx.rs`

A string is the list of its bytes. `serde` derives are modelled in `Verif/Saved`. The enum and its two tables are generated from the
source, in the order of the source.
-/
set_option autoImplicit false
namespace Verif.QL
open Verif

/-- `Currency` (currency.rs 5-56) -/
inductive Currency
  | nil
  | krw
  | usd
  | eur
  | jpy
  | cny
  | cnh
  | gbp
  | aud
  | cad
  | chf
  | nzd
  | sek
  | nok
  | mxn
  | zar
  | brl
  | inr
  | rub
  | try_
  | hkd
  | sgd
  | twd
  | thb
  | idr
  | myr
  | php
  | vnd
  | pkr
  | lkr
  | bdt
  | npr
  | kzt
  | uzs
  | kgs
  | tjs
  | mnt
  | aed
  | sar
  | qar
  | omr
  | kwd
  | bhd
  | jod
  | ils
  | egp
  | zmw
  deriving DecidableEq, Repr

/-- The bytes of an ASCII literal -/
def ascii (s : List Char) : List Nat := s.map Char.toNat

/-- `Currency::as_str` (currency.rs 123-173) -/
def Currency.asStr : Currency → List Nat
  | .nil => ascii ['N', 'I', 'L']
  | .krw => ascii ['K', 'R', 'W']
  | .usd => ascii ['U', 'S', 'D']
  | .eur => ascii ['E', 'U', 'R']
  | .jpy => ascii ['J', 'P', 'Y']
  | .cny => ascii ['C', 'N', 'Y']
  | .cnh => ascii ['C', 'N', 'H']
  | .gbp => ascii ['G', 'B', 'P']
  | .aud => ascii ['A', 'U', 'D']
  | .cad => ascii ['C', 'A', 'D']
  | .chf => ascii ['C', 'H', 'F']
  | .nzd => ascii ['N', 'Z', 'D']
  | .sek => ascii ['S', 'E', 'K']
  | .nok => ascii ['N', 'O', 'K']
  | .mxn => ascii ['M', 'X', 'N']
  | .zar => ascii ['Z', 'A', 'R']
  | .brl => ascii ['B', 'R', 'L']
  | .inr => ascii ['I', 'N', 'R']
  | .rub => ascii ['R', 'U', 'B']
  | .try_ => ascii ['T', 'R', 'Y']
  | .hkd => ascii ['H', 'K', 'D']
  | .sgd => ascii ['S', 'G', 'D']
  | .twd => ascii ['T', 'W', 'D']
  | .thb => ascii ['T', 'H', 'B']
  | .idr => ascii ['I', 'D', 'R']
  | .myr => ascii ['M', 'Y', 'R']
  | .php => ascii ['P', 'H', 'P']
  | .vnd => ascii ['V', 'N', 'D']
  | .pkr => ascii ['P', 'K', 'R']
  | .lkr => ascii ['L', 'K', 'R']
  | .bdt => ascii ['B', 'D', 'T']
  | .npr => ascii ['N', 'P', 'R']
  | .kzt => ascii ['K', 'Z', 'T']
  | .uzs => ascii ['U', 'Z', 'S']
  | .kgs => ascii ['K', 'G', 'S']
  | .tjs => ascii ['T', 'J', 'S']
  | .mnt => ascii ['M', 'N', 'T']
  | .aed => ascii ['A', 'E', 'D']
  | .sar => ascii ['S', 'A', 'R']
  | .qar => ascii ['Q', 'A', 'R']
  | .omr => ascii ['O', 'M', 'R']
  | .kwd => ascii ['K', 'W', 'D']
  | .bhd => ascii ['B', 'H', 'D']
  | .jod => ascii ['J', 'O', 'D']
  | .ils => ascii ['I', 'L', 'S']
  | .egp => ascii ['E', 'G', 'P']
  | .zmw => ascii ['Z', 'M', 'W']

/-- The arms of `From<&str> for Currency` (currency.rs 69-117), in order -/
def currencyArms : List (List Nat × Currency) := [
  (ascii ['N', 'I', 'L'], .nil),
  (ascii ['K', 'R', 'W'], .krw),
  (ascii ['U', 'S', 'D'], .usd),
  (ascii ['E', 'U', 'R'], .eur),
  (ascii ['J', 'P', 'Y'], .jpy),
  (ascii ['C', 'N', 'Y'], .cny),
  (ascii ['C', 'N', 'H'], .cnh),
  (ascii ['G', 'B', 'P'], .gbp),
  (ascii ['A', 'U', 'D'], .aud),
  (ascii ['C', 'A', 'D'], .cad),
  (ascii ['C', 'H', 'F'], .chf),
  (ascii ['N', 'Z', 'D'], .nzd),
  (ascii ['S', 'E', 'K'], .sek),
  (ascii ['N', 'O', 'K'], .nok),
  (ascii ['M', 'X', 'N'], .mxn),
  (ascii ['Z', 'A', 'R'], .zar),
  (ascii ['B', 'R', 'L'], .brl),
  (ascii ['I', 'N', 'R'], .inr),
  (ascii ['R', 'U', 'B'], .rub),
  (ascii ['T', 'R', 'Y'], .try_),
  (ascii ['H', 'K', 'D'], .hkd),
  (ascii ['S', 'G', 'D'], .sgd),
  (ascii ['T', 'W', 'D'], .twd),
  (ascii ['T', 'H', 'B'], .thb),
  (ascii ['I', 'D', 'R'], .idr),
  (ascii ['M', 'Y', 'R'], .myr),
  (ascii ['P', 'H', 'P'], .php),
  (ascii ['V', 'N', 'D'], .vnd),
  (ascii ['P', 'K', 'R'], .pkr),
  (ascii ['L', 'K', 'R'], .lkr),
  (ascii ['B', 'D', 'T'], .bdt),
  (ascii ['N', 'P', 'R'], .npr),
  (ascii ['K', 'Z', 'T'], .kzt),
  (ascii ['U', 'Z', 'S'], .uzs),
  (ascii ['K', 'G', 'S'], .kgs),
  (ascii ['T', 'J', 'S'], .tjs),
  (ascii ['M', 'N', 'T'], .mnt),
  (ascii ['A', 'E', 'D'], .aed),
  (ascii ['S', 'A', 'R'], .sar),
  (ascii ['Q', 'A', 'R'], .qar),
  (ascii ['O', 'M', 'R'], .omr),
  (ascii ['K', 'W', 'D'], .kwd),
  (ascii ['B', 'H', 'D'], .bhd),
  (ascii ['J', 'O', 'D'], .jod),
  (ascii ['I', 'L', 'S'], .ils),
  (ascii ['E', 'G', 'P'], .egp),
  (ascii ['Z', 'M', 'W'], .zmw)]

/-- A `match` on strings: the first arm that is equal, else the default -/
def firstArm (s : List Nat) : List (List Nat × Currency) → Currency
  | [] => .nil
  | (t, c) :: r => if s = t then c else firstArm s r

/-- `Currency::from(&str)` (currency.rs 67-120) -/
def Currency.ofStr (s : List Nat) : Currency := firstArm s currencyArms

/-- `FxCode` (currency.rs 176-180) -/
structure FxCode where
  ccy1 : Currency
  ccy2 : Currency
  deriving DecidableEq, Repr

/-- `FxCode::reciprocal` (currency.rs 208-213) -/
def FxCode.reciprocal (c : FxCode) : FxCode := { ccy1 := c.ccy2, ccy2 := c.ccy1 }

/-- `Display for FxCode` (currency.rs 215-219) -/
def FxCode.display (c : FxCode) : List Nat := c.ccy1.asStr ++ c.ccy2.asStr

/-- `str::is_char_boundary`: the ends, or a byte that does not continue a UTF-8 sequence -/
def isBoundary (s : List Nat) (i : Nat) : Bool :=
  i == s.length || (match s[i]? with | some b => !(128 ≤ b && b < 192) | none => false)

/-- `&s[a..b]`: panics unless both ends are char boundaries -/
def strSlice (s : List Nat) (a b : Nat) : Res (List Nat) :=
  if a ≤ b && isBoundary s a && isBoundary s b then .ok ((s.drop a).take (b - a)) else .error .index

/-- `From<&str> for FxCode` (currency.rs 229-239) -/
def FxCode.ofStr (s : List Nat) : Res FxCode := do
  let a ← strSlice s 0 3
  let b ← strSlice s 3 6
  .ok { ccy1 := Currency.ofStr a, ccy2 := Currency.ofStr b }

/-- The double loop of `currencies_to_fx_codes` (make_fx.rs 7-14) -/
def fxPairs (l : List Currency) : List FxCode :=
  l.flatMap fun a => l.flatMap fun b => if a ≠ b then [{ ccy1 := a, ccy2 := b }] else []

/-- The second loop (make_fx.rs 16-22): `must_include` without those already listed -/
def addMissing (acc : List FxCode) : List FxCode → List FxCode
  | [] => acc
  | c :: r => if c ∈ acc then addMissing acc r else addMissing (acc ++ [c]) r

/-- `currencies_to_fx_codes` (make_fx.rs 3-24) -/
def currenciesToFxCodes (l : List Currency) (must : Option (List FxCode)) : List FxCode :=
  match must with
  | none => fxPairs l
  | some m => addMissing (fxPairs l) m

end Verif.QL

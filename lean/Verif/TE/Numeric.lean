import Verif.Basic
/-!
# Model of `trading-engine/src/utils/numeric_converter.rs`

Byte slices carry the memory behind their data pointer without an end, because the code reads 8 or 16 bytes
with `read_unaligned` regardless of the slice length. Rust calls such a read past the allocation undefined
behaviour; the model lets it return arbitrary bytes. The target is little endian (checked by
`IntegerConverter::new`, line 346). `usize` is 64 bits wide.
-/
namespace Verif.TE.Num
open Verif

/-- A byte slice: `mem i` is the byte at `as_ptr() + i`, also beyond `len`. -/
structure Slice where
  mem : Nat → UInt8
  len : Nat

/-- `&s[a..b]`: panics when out of range. -/
def Slice.sub (s : Slice) (a b : Nat) : Res Slice :=
  if a ≤ b ∧ b ≤ s.len then .ok { mem := fun i => s.mem (a + i), len := b - a } else .error .index

/-- `s.split_at(k)`: panics when `k > len`. -/
def Slice.splitAt (s : Slice) (k : Nat) : Res (Slice × Slice) :=
  if k ≤ s.len then .ok ({ mem := s.mem, len := k }, { mem := fun i => s.mem (k + i), len := s.len - k })
  else .error .index

/-- Little-endian number with digits `l` in base `B`. -/
def le (B : Nat) : List Nat → Nat
  | [] => 0
  | x :: xs => x + B * le B xs

/-- The first `n` bytes behind the pointer. -/
def Slice.bytes (s : Slice) (n : Nat) : List Nat := (List.range n).map (fun i => (s.mem i).toNat)

/-- `read_unaligned(u.as_ptr() as *const uN)` with `N = 8 n` on a little-endian machine. -/
def Slice.read (s : Slice) (n : Nat) : Nat := le 256 (s.bytes n)

/-- `a + b` on an unsigned type of `w` bits. -/
def addW (w : Nat) (m : Mode) (a b : Nat) : Res Nat :=
  if a + b < 2 ^ w then .ok (a + b)
  else match m with
    | .checked => .error .overflow
    | .wrapping => .ok ((a + b) % 2 ^ w)

/-- `a * b` on an unsigned type of `w` bits. -/
def mulW (w : Nat) (m : Mode) (a b : Nat) : Res Nat :=
  if a * b < 2 ^ w then .ok (a * b)
  else match m with
    | .checked => .error .overflow
    | .wrapping => .ok ((a * b) % 2 ^ w)

/-- `a << k` on an unsigned type of `w` bits (`w` a power of two): bits pushed out are lost; a shift amount of
`w` or more panics in debug builds and is reduced modulo `w` in release builds. -/
def shlW (w : Nat) (m : Mode) (a k : Nat) : Res Nat :=
  if k < w then .ok ((a * 2 ^ k) % 2 ^ w)
  else match m with
    | .checked => .error .overflow
    | .wrapping => .ok ((a * 2 ^ (k % w)) % 2 ^ w)

/-- `10u128.pow(k)`. -/
def pow10 (m : Mode) (k : Nat) : Res Nat :=
  if 10 ^ k < 2 ^ 128 then .ok (10 ^ k)
  else match m with
    | .checked => .error .overflow
    | .wrapping => .ok (10 ^ k % 2 ^ 128)

/-- `debug_assert!`: only in debug builds. -/
def debugAssert (m : Mode) (b : Bool) : Res Unit :=
  match m with
  | .checked => if b then .ok () else .error .assertion
  | .wrapping => .ok ()

/-- One masking step of the parallel decimal conversion:
`lower = (chunk & lo) >> sh; upper = (chunk & up) * mul; lower + upper`. -/
def swarStep (w : Nat) (m : Mode) (chunk lo up sh mul : Nat) : Res Nat := do
  let upper ← mulW w m (chunk &&& up) mul
  addW w m ((chunk &&& lo) >>> sh) upper

/-- `u8_chunk_to_u64_decimal` (numeric_converter.rs 111-127). -/
def chunk64 (m : Mode) (chunk : Nat) : Res Nat := do
  let c ← swarStep 64 m chunk 0x0f000f000f000f00 0x000f000f000f000f 8 10
  let c ← swarStep 64 m c 0x00ff000000ff0000 0x000000ff000000ff 16 100
  swarStep 64 m c 0x0000ffff00000000 0x000000000000ffff 32 10000

/-- `u8_chunk_to_u128_decimal` (numeric_converter.rs 130-149). -/
def chunk128 (m : Mode) (chunk : Nat) : Res Nat := do
  let c ← swarStep 128 m chunk 0x0f000f000f000f000f000f000f000f00 0x000f000f000f000f000f000f000f000f 8 10
  let c ← swarStep 128 m c 0x00ff000000ff000000ff000000ff0000 0x000000ff000000ff000000ff000000ff 16 100
  let c ← swarStep 128 m c 0x0000ffff000000000000ffff00000000 0x000000000000ffff000000000000ffff 32 10000
  swarStep 128 m c 0x00000000ffffffff0000000000000000 0x000000000000000000000000ffffffff 64 100000000

/-- `parse_hhmmss_to_nanos` (numeric_converter.rs 80-108); `SECOND_NANOSCALE` = 10^9 (types/timestamp.rs 16). -/
def parseHhmmss (m : Mode) (u : Slice) : Res Nat := do
  let s ← shlW 64 m (u.read 8) 16
  let s ← swarStep 64 m s 0x0f000f000f000f00 0x000f000f000f000f 8 10
  let s ← swarStep 64 m s 0x00ff000000ff0000 0x000000ff000000ff 16 60
  let s ← swarStep 64 m s 0x0000ffff00000000 0x000000000000ffff 32 3600
  mulW 64 m s 1000000000

/-- `parse_2digits` (numeric_converter.rs 236-241), `u16` arithmetic. -/
def parse2 (m : Mode) (u : Slice) : Res Nat := swarStep 16 m (u.read 2) 0x0f00 0x000f 8 10

/-- `parse_3digits` (numeric_converter.rs 244-264), `u32` arithmetic. -/
def parse3 (m : Mode) (u : Slice) : Res Nat := do
  let c ← shlW 32 m (u.read 4) 8
  let c ← swarStep 32 m c 0x0f000f00 0x000f000f 8 10
  swarStep 32 m c 0x00ff0000 0x000000ff 16 100

/-- `parse_under8` (numeric_converter.rs 266-274). -/
def under8 (m : Mode) (u : Slice) (length : Nat) : Res Nat := do
  debugAssert m (length ≤ 8)
  let k ← subU m 64 (length * 8)
  let c ← shlW 64 m (u.read 8) k
  chunk64 m c

/-- `parse_under16` (numeric_converter.rs 277-285). -/
def under16 (m : Mode) (u : Slice) (length : Nat) : Res Nat := do
  debugAssert m (length ≤ 16)
  let k ← subU m 128 (length * 8)
  let c ← shlW 128 m (u.read 16) k
  chunk128 m c

/-- `parse_under32` (numeric_converter.rs 288-295). -/
def under32 (m : Mode) (u : Slice) (length : Nat) : Res Nat := do
  debugAssert m (16 ≤ length ∧ length ≤ 32)
  let (upper, lower) ← u.splitAt 16
  let a ← under16 m upper 16
  let e ← subU m length 16
  let p ← pow10 m e
  let x ← mulW 128 m a p
  let b ← under16 m lower e
  addW 128 m x b

/-- Moving the part before the decimal point up by one byte over the point
(numeric_converter.rs 170-173 and 191-194): `(chunk & pm) + ((chunk & (!pm >> 8)) << 8)`. -/
def dropPoint (w : Nat) (m : Mode) (chunk pm : Nat) : Res Nat := do
  let y ← shlW w m (chunk &&& ((2 ^ w - 1 - pm) >>> 8)) 8
  addW w m (chunk &&& pm) y

/-- `parse_under8_with_floating_point` (numeric_converter.rs 152-176). -/
def under8fp (m : Mode) (u : Slice) (length pl : Nat) : Res Nat := do
  debugAssert m (1 ≤ length ∧ length ≤ 8)
  match pl with
  | 0 => under8 m u length
  | 1 => do
    let n ← subU m length 1
    let v ← u.sub 0 n
    under8 m v n
  | pl => do
    let k ← subU m 64 (length * 8)
    let c ← shlW 64 m (u.read 8) k
    let d ← subU m 9 pl
    let pm ← shlW 64 m 0xffffffffffffffff (d * 8)
    let c ← dropPoint 64 m c pm
    chunk64 m c

/-- `parse_under16_with_floating_point` (numeric_converter.rs 179-197); the final `as u64` truncates. -/
def under16fp (m : Mode) (u : Slice) (length pl : Nat) : Res Nat := do
  debugAssert m (1 ≤ length ∧ length ≤ 16)
  match pl with
  | 0 => do
    let v ← under16 m u length
    .ok (v % 2 ^ 64)
  | 1 => do
    let n ← subU m length 1
    let s ← u.sub 0 n
    let v ← under16 m s n
    .ok (v % 2 ^ 64)
  | pl => do
    let k ← subU m 128 (length * 8)
    let c ← shlW 128 m (u.read 16) k
    let d ← subU m 17 pl
    let pm ← shlW 128 m 0xffffffffffffffffffffffffffffffff (d * 8)
    let c ← dropPoint 128 m c pm
    let v ← chunk128 m c
    .ok (v % 2 ^ 64)

/-- `left_point_length` (numeric_converter.rs 212-216). -/
def leftPoint (m : Mode) (loc : Nat) : Res Nat := if loc > 16 then .ok 0 else subU m 16 loc

/-- The exponent of `power_val` (numeric_converter.rs 225-229). -/
def powLen (m : Mode) (length loc : Nat) : Res Nat := if loc ≤ 15 then subU m length 16 else subU m length 17

/-- `parse_under32_with_floating_point` (numeric_converter.rs 200-233). -/
def under32fp (m : Mode) (u : Slice) (length pl : Nat) : Res Nat := do
  debugAssert m (16 ≤ length ∧ length ≤ 32)
  match pl with
  | 0 => do
    let v ← under32 m u length
    .ok (v % 2 ^ 64)
  | 1 => do
    let n ← subU m length 1
    let s ← u.sub 0 n
    let v ← under32 m s n
    .ok (v % 2 ^ 64)
  | pl => do
    let loc ← subU m length pl
    let left ← leftPoint m loc
    let right := if loc < 16 then 0 else pl
    let (upper, lower) ← u.splitAt 16
    let a ← under16fp m upper 16 left
    let n ← subU m length 16
    let b ← under16fp m lower n right
    let e ← powLen m length loc
    let p ← pow10 m e
    let x ← mulW 64 m a (p % 2 ^ 64)
    addW 64 m x b

/-- `NumReprCfg` (numeric_converter.rs 30-38). The fields `digit_length`, `decimal_point_length` (which
counts the point itself), `is_signed`, `unused_length`, `total_length`, `drop_decimal_point`; the
normalizer only affects the float views, which are not modelled. -/
structure Cfg where
  digit : Nat
  dec : Nat
  signed : Bool
  unused : Nat
  total : Nat
  drop : Bool
  deriving DecidableEq, Repr

/-- `NumReprCfg::check_validity` (numeric_converter.rs 41-63); sums of lengths do not overflow `usize`. -/
def Cfg.checkValidity (c : Cfg) : Bool := c.digit + c.dec + c.unused + c.signed.toNat == c.total

/-- Which parsing function was chosen. -/
inductive Parser
  | p8 | p16 | p32
  deriving DecidableEq, Repr

/-- `IntegerConverter` (numeric_converter.rs 297-308). -/
structure Conv where
  signed : Bool
  start : Nat
  stop : Nat
  dec : Nat
  size : Nat
  parser : Parser
  deriving DecidableEq, Repr

/-- `IntegerConverter::new` (numeric_converter.rs 344-391); `none` = `Err`. -/
def Conv.new (c : Cfg) : Option Conv :=
  if c.checkValidity then
    let all := c.total - c.unused - c.signed.toNat
    let start := c.signed.toNat + c.unused
    let (size, dec) := if c.drop then (all - c.dec, 0) else (all, c.dec)
    if size ≤ 8 then some ⟨c.signed, start, size, dec, size, .p8⟩
    else if size ≤ 16 then some ⟨c.signed, start, size, dec, size, .p16⟩
    else if size ≤ 18 then some ⟨c.signed, start, size, dec, size, .p32⟩
    else none
  else none

/-- The call through the function pointer. -/
def Parser.run (p : Parser) (m : Mode) (u : Slice) (length pl : Nat) : Res Nat :=
  match p with
  | .p8 => under8fp m u length pl
  | .p16 => under16fp m u length pl
  | .p32 => under32fp m u length pl

/-- `IntegerConverter::to_u64` (numeric_converter.rs 394-400). -/
def Conv.toU64 (m : Mode) (c : Conv) (v : Slice) : Res Nat := do
  let s ← v.sub c.start c.stop
  c.parser.run m s c.size c.dec

/-- `x as i64` for a `u64`. -/
def asI64 (n : Nat) : Int := if n < 2 ^ 63 then n else (n : Int) - 2 ^ 64

/-- `IntegerConverter::to_i64` (numeric_converter.rs 432-441): a first byte other than `'0'` negates. -/
def Conv.toI64 (m : Mode) (c : Conv) (v : Slice) : Res Int :=
  if c.signed then
    if 0 < v.len then
      if v.mem 0 = 48 then do
        let x ← c.toU64 m v
        .ok (asI64 x)
      else do
        let x ← c.toU64 m v
        .ok (asI64 ((2 ^ 64 - x) % 2 ^ 64))
    else .error .index
  else do
    let x ← c.toU64 m v
    .ok (asI64 x)

/-- `IntegerConverter::to_u64_unchecked` (numeric_converter.rs 413-415). -/
def Conv.toU64Unchecked (m : Mode) (c : Conv) (v : Slice) : Res Nat := do
  let x ← under16 m v c.size
  .ok (x % 2 ^ 64)

/-- `IntegerConverter::to_nonnegative_i64_unchecked` (numeric_converter.rs 406-408), which is also
`OrderConverter::to_book_price_unchecked` (lines 517-520). -/
def Conv.toI64Unchecked (m : Mode) (c : Conv) (v : Slice) : Res Int := do
  let x ← c.toU64Unchecked m v
  .ok (asI64 x)

/-- `IntegerConverter::to_u32_unchecked` (numeric_converter.rs 426-429), used for order counts. -/
def Conv.toU32Unchecked (m : Mode) (c : Conv) (v : Slice) : Res Nat := do
  let x ← under8 m v c.size
  .ok (x % 2 ^ 32)

/-- `IntegerConverter::to_long_u64_unchecked` (numeric_converter.rs 420-423). -/
def Conv.toLongUnchecked (m : Mode) (c : Conv) (v : Slice) : Res Nat := do
  let x ← under32 m v c.size
  .ok (x % 2 ^ 64)

end Verif.TE.Num

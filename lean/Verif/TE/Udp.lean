import Verif.Basic
/-!
# Model of `trading-engine/src/communication/udp_client.rs`

A datagram is a list of bytes. `recv_from` with a buffer of 1024 bytes delivers the first 1024 bytes of the datagram, the rest is lost
(`recvfrom(2)`). Loss, duplication and reordering of datagrams are the network's, not the client's, and not modelled: what is modelled
is what becomes of a datagram that arrives.
-/
set_option autoImplicit false
namespace Verif.TE.Udp
open Verif

/-- A continuation byte: `safe_get(i) & 192 == TAG_CONT_U8` (core::str::lossy) -/
def cont (b : Nat) : Bool := decide (0x80 ≤ b ∧ b ≤ 0xBF)

/-- The second byte of three: the `match (byte, safe_get(self.source, i))` for width 3 (core::str::lossy) -/
def second3 (a b : Nat) : Bool := decide ((if a = 0xE0 then 0xA0 else 0x80) ≤ b ∧ b ≤ (if a = 0xED then 0x9F else 0xBF))

/-- The second byte of four: the same for width 4 -/
def second4 (a b : Nat) : Bool := decide ((if a = 0xF0 then 0x90 else 0x80) ≤ b ∧ b ≤ (if a = 0xF4 then 0x8F else 0xBF))

/-- One round of `Utf8Chunks::next` (core::str::lossy): the next four bytes (0 beyond the end); the code of the character, or `none`
for an invalid sequence, and the number of bytes consumed. `utf8_char_width` is 2 for C2..DF, 3 for E0..EF, 4 for F0..F4. -/
def chunk (a b c d : Nat) : Option Nat × Nat :=
  if a < 0x80 then (some a, 1)
  else if 0xC2 ≤ a ∧ a ≤ 0xDF then
    if cont b then (some ((a - 0xC0) * 64 + (b - 0x80)), 2) else (none, 1)
  else if 0xE0 ≤ a ∧ a ≤ 0xEF then
    if second3 a b then
      if cont c then (some ((a - 0xE0) * 4096 + (b - 0x80) * 64 + (c - 0x80)), 3) else (none, 2)
    else (none, 1)
  else if 0xF0 ≤ a ∧ a ≤ 0xF4 then
    if second4 a b then
      if cont c then
        if cont d then (some ((a - 0xF0) * 262144 + (b - 0x80) * 4096 + (c - 0x80) * 64 + (d - 0x80)), 4) else (none, 3)
      else (none, 2)
    else (none, 1)
  else (none, 1)

/-- `safe_get(source, i)`: 0 beyond the end -/
def byteAt (l : List UInt8) (i : Nat) : Nat := (l[i]?.getD 0).toNat

/-- U+FFFD, the replacement character -/
def replacement : Char := Char.ofNat 0xFFFD

/-- `String::from_utf8_lossy` (alloc::string): valid text is copied, every invalid chunk becomes one U+FFFD -/
def lossy : List UInt8 → List Char
  | [] => []
  | a :: l =>
    let r := chunk a.toNat (byteAt l 0) (byteAt l 1) (byteAt l 2)
    (match r.1 with
      | some n => Char.ofNat n
      | none => replacement) :: lossy (l.drop (r.2 - 1))
termination_by l => l.length
decreasing_by simp only [List.length_drop, List.length_cons]; omega

/-- The bytes `message.as_bytes()` of a text: the datagram of `send_message` (udp_client.rs 26-29) -/
def datagram (s : List Char) : List UInt8 := s.flatMap String.utf8EncodeChar

/-- `receive_response` (udp_client.rs 31-36) for a datagram that arrives -/
def receive (d : List UInt8) : List Char := lossy (d.take 1024)

end Verif.TE.Udp

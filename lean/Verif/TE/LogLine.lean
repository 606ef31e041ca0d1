import Verif.TE.Logger
import Verif.TE.Timer
/-!
# The lines of the log (logger.rs 307-380, 405-475)

`log_fn_json!` and `flushing_log_fn_json!` make the text of a message on the worker: a `serde_json` object printed compactly, and a line break.
`serde_json` 1.0.120 (Cargo.lock, without `preserve_order`): an object is a `BTreeMap`, so its fields are in the order of their names; the printer is
`CompactFormatter`. Text is bytes (UTF-8), as `format_escaped_str` works on bytes. Numbers (`itoa`, `ryu`) are their text.
-/
set_option autoImplicit false
namespace Verif.TE.Log
open Verif

mutual
/-- `serde_json::Value`; a number is its printed text -/
inductive Json
  | null
  | bool (b : Bool)
  | num (text : Bytes)
  | str (s : Bytes)
  | arr (l : Items)
  | obj (l : Fields)
/-- `Vec<Value>` -/
inductive Items
  | nil
  | cons (v : Json) (l : Items)
/-- `BTreeMap<String, Value>`, in the order of its keys -/
inductive Fields
  | nil
  | cons (k : Bytes) (v : Json) (l : Fields)
end

/-- `Ord` of `String`: lexicographic in the bytes -/
def bytesLt : Bytes → Bytes → Bool
  | [], [] => false
  | [], _ :: _ => true
  | _ :: _, [] => false
  | a :: l, b :: r => if a < b then true else if b < a then false else bytesLt l r

/-- `BTreeMap::insert` -/
def Fields.put (k : Bytes) (v : Json) : Fields → Fields
  | .nil => .cons k v .nil
  | .cons k' v' l => if k = k' then .cons k' v l else if bytesLt k k' then .cons k v (.cons k' v' l) else .cons k' v' (l.put k v)

/-- `json!({k: v, ..})`: the fields are put in one after the other -/
def Fields.of : List (Bytes × Json) → Fields → Fields
  | [], f => f
  | (k, v) :: l, f => Fields.of l (f.put k v)

/-- A digit of `{:x}` -/
def hexDigit (n : Nat) : UInt8 := UInt8.ofNat (if n < 10 then 48 + n else 87 + n)

/-- One byte of a string (`format_escaped_str_contents`, `CharEscape`): `\b \t \n \f \r \" \\`, other control characters as `\u00xx` -/
def escape (b : UInt8) : Bytes :=
  if b = 8 then [92, 98] else if b = 9 then [92, 116] else if b = 10 then [92, 110] else if b = 12 then [92, 102]
  else if b = 13 then [92, 114] else if b = 34 then [92, 34] else if b = 92 then [92, 92]
  else if b < 32 then [92, 117, 48, 48, hexDigit (b.toNat / 16), hexDigit (b.toNat % 16)] else [b]

/-- `format_escaped_str` -/
def quoted (s : Bytes) : Bytes := 34 :: (s.flatMap escape ++ [34])

mutual
/-- `to_string` of a value -/
def Json.text : Json → Bytes
  | .null => [110, 117, 108, 108]
  | .bool true => [116, 114, 117, 101]
  | .bool false => [102, 97, 108, 115, 101]
  | .num t => t
  | .str s => quoted s
  | .arr l => 91 :: (l.text ++ [93])
  | .obj l => 123 :: (l.text ++ [125])
/-- The elements of an array, with commas -/
def Items.text : Items → Bytes
  | .nil => []
  | .cons v .nil => v.text
  | .cons v (.cons w l) => v.text ++ 44 :: (Items.cons w l).text
/-- The fields of an object -/
def Fields.text : Fields → Bytes
  | .nil => []
  | .cons k v .nil => quoted k ++ 58 :: v.text
  | .cons k v (.cons k' v' l) => quoted k ++ 58 :: (v.text ++ 44 :: (Fields.cons k' v' l).text)
end

/-- ASCII text as bytes -/
def ascii (l : List Char) : Bytes := l.map fun c => UInt8.ofNat c.toNat

/-- The text of an `i32` (`itoa`) -/
def intText (z : Int) : Bytes :=
  if 0 ≤ z then ascii (Timer.pad 1 z.toNat) else 45 :: ascii (Timer.pad 1 (-z).toNat)

/-- `Display for LogLevel` (logger.rs 201-212) -/
def Level.name : Level → Bytes
  | .nil => ascii ['N', 'i', 'l']
  | .error => ascii ['E', 'r', 'r', 'o', 'r']
  | .warn => ascii ['W', 'a', 'r', 'n']
  | .info => ascii ['I', 'n', 'f', 'o']
  | .debug => ascii ['D', 'e', 'b', 'u', 'g']
  | .trace => ascii ['T', 'r', 'a', 'c', 'e']

/-- What a log call holds on to: its level, its topic, file and line of the call, the time of the call, its values -/
structure Record where
  level : Level
  topic : Bytes
  src : Bytes
  nano : Nat
  data : List (Bytes × Json)

/-- The names of the fields (logger.rs 322-330) -/
def key (s : String) : Bytes := ascii s.toList

/-- The object (logger.rs 315-330): `zone` is the offset in force when the worker runs the closure -/
def Record.json (r : Record) (zone : Int) (date time : Bytes) : Json :=
  .obj (Fields.of [(key "date", .str date), (key "time", .str time), (key "offset", .num (intText zone)), (key "level", .str r.level.name),
    (key "src", .str r.src), (key "topic", .str r.topic), (key "data", .obj (Fields.of r.data .nil))] .nil)

/-- The line made of the object (logger.rs 332) -/
def Record.write (r : Record) (zone : Int) (p : List Char × List Char) : Bytes := (r.json zone (ascii p.1) (ascii p.2)).text ++ [10]

/-- The closure of `log_fn_json!` and `flushing_log_fn_json!` (logger.rs 314-333, 409-428) -/
def Record.line (m : Mode) (r : Record) (zone : Int) : Res Bytes := do
  let p ← Timer.convert m r.nano zone
  .ok (r.write zone p)

/-- What the worker meets when it calls a closure: its text, or a panic -/
def outcome : Res Bytes → Option Bytes
  | .ok s => some s
  | .error _ => none

/-- The message a log call sends, as the worker meets it (logger.rs 334, 429) -/
def Record.message (m : Mode) (r : Record) (zone : Int) : Option Bytes := outcome (r.line m zone)

end Verif.TE.Log

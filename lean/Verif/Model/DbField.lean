import Verif.Base.Nom
import Verif.Base.Unicode
import Verif.Base.Outcome

/-!
# Remote-DB fields and arguments

`/repo/src/rekordbox/db_field.rs` and `/repo/src/rekordbox/db_message_argument.rs`.
-/

namespace PDJ

/-- `DBFieldType` (db_field.rs 116-123) and `ArgumentType` (db_message_argument.rs 8-15).
The two Rust enums have the same variants and are converted one-to-one (40-62); one type here. -/
inductive FieldKind
  | u8
  | u16
  | u32
  | string
  | binary
deriving DecidableEq, Repr

namespace FieldKind

/-- `DBFieldType::name` (db_field.rs 126-137); `none` is `Err("unmatched type.")`. -/
def name (v : UInt8) : Option FieldKind :=
  if v = 0x0f then some u8
  else if v = 0x10 then some u16
  else if v = 0x11 then some u32
  else if v = 0x14 then some binary
  else if v = 0x26 then some string
  else none

/-- `DBFieldType::value` (db_field.rs 139-147). -/
def value : FieldKind → UInt8
  | u8 => 0x0f
  | u16 => 0x10
  | u32 => 0x11
  | binary => 0x14
  | string => 0x26

/-- `ArgumentType::new` (db_message_argument.rs 18-27); `none` is the `panic!`. -/
def argNew (v : UInt8) : Option FieldKind :=
  if v = 0x04 then some u8
  else if v = 0x05 then some u16
  else if v = 0x06 then some u32
  else if v = 0x02 then some string
  else if v = 0x03 then some binary
  else none

/-- `ArgumentType::value` (db_message_argument.rs 29-37). -/
def argValue : FieldKind → UInt8
  | u8 => 0x04
  | u16 => 0x05
  | u32 => 0x06
  | string => 0x02
  | binary => 0x03

end FieldKind

/-- `DBField` (db_field.rs 15-19). -/
structure DBField where
  kind : FieldKind
  value : Bytes
deriving DecidableEq, Repr

namespace DBField

/-- `DBField::from(u32)` (db_field.rs 27-31). -/
def ofU32 (v : UInt32) : DBField := ⟨.u32, be32 v⟩

/-- `DBField::from(u16)` (db_field.rs 33-37). -/
def ofU16 (v : UInt16) : DBField := ⟨.u16, be16 v⟩

/-- `DBField::from(u8)` (db_field.rs 39-43). -/
def ofU8 (v : UInt8) : DBField := ⟨.u8, [v]⟩

/-- `DBField::from(&str)` (db_field.rs 45-61).  The `value.len() > 0` guard is immaterial: the
empty text has no UTF-16 units. -/
def ofStr (s : Str) : DBField := ⟨.string, utf16be s⟩

/-- `DBField::from([u8; 4])` (db_field.rs 63-67). -/
def ofArr4 (a b c d : UInt8) : DBField := ⟨.u32, [a, b, c, d]⟩

/-- `DBField::from([u8; 2])` (db_field.rs 69-73). -/
def ofArr2 (a b : UInt8) : DBField := ⟨.u16, [a, b]⟩

/-- `DBField::as_bytes` (db_field.rs 83-107).  `self.value.len() as u8 / 2+1` is
`((len as u8) / 2) + 1`, which never overflows. -/
def asBytes (f : DBField) : Bytes :=
  match f.kind with
  | .string =>
    [f.kind.value] ++ [0x00, 0x00, 0x00, UInt8.ofNat f.value.length / 2 + 1] ++ f.value ++
      [0x00, 0x00]
  | .binary =>
    if f.value.length > 0 then
      [f.kind.value] ++ be32 (UInt32.ofNat f.value.length) ++ f.value
    else []
  | _ => [f.kind.value] ++ f.value

end DBField

/-- `ArgumentCollection` (db_message_argument.rs 64-65). -/
abbrev Args := List DBField

/-- The `u32` expression `(variable_size - 1) * 2` (db_message_argument.rs 147); `none` is an
overflow panic. -/
def strTakeLen (m : Mode) (v : UInt32) : Option Nat :=
  match m with
  | .debug =>
    if v.toNat = 0 then none
    else if (v.toNat - 1) * 2 < 4294967296 then some ((v.toNat - 1) * 2)
    else none
  | .release => some ((v - 1) * 2).toNat

/-- The non-empty case of the binary arm of `Argument::decode` (db_message_argument.rs 172-174). -/
def argDecodeBlob : Parser DBField := do
  let v ← P.beU32
  let data ← P.take v.toNat
  pure ⟨.binary, data⟩

/-- The binary arm of `Argument::decode` (db_message_argument.rs 167-175): with fewer than four
bytes left the value is empty; the field tag is not expected. -/
def argDecodeBinary : Parser DBField := fun i =>
  if i.length < 4 then PRes.ok i ⟨.binary, []⟩ else argDecodeBlob i

/-- `Argument::decode` (db_message_argument.rs 141-178). -/
def argDecode (m : Mode) : FieldKind → Parser DBField
  | .string => do
    let _ ← P.take 1
    let v ← P.beU32
    match strTakeLen m v with
    | none => P.panic
    | some n => do
      let data ← P.take n
      let _ ← P.beU16
      pure ⟨.string, data⟩
  | .u8 => do
    let _ ← P.take 1
    let data ← P.take 1
    pure ⟨.u8, data⟩
  | .u16 => do
    let _ ← P.take 1
    let data ← P.take 2
    pure ⟨.u16, data⟩
  | .u32 => do
    let _ ← P.take 1
    let data ← P.take 4
    pure ⟨.u32, data⟩
  | .binary => argDecodeBinary

/-- The loop `(0 .. argument_count[1]).map(..)` of `ArgumentCollection::decode`
(db_message_argument.rs 101-106): `counter` is the loop variable, `n` the iterations left.
Indexing past the twelve type bytes panics, an unknown type byte panics, and a failing
`Argument::decode` panics through `unwrap`. -/
def argsLoop (m : Mode) (types : Bytes) : (counter n : Nat) → Bytes → Outcome (List DBField)
  | _, 0, _ => .ok []
  | c, n + 1, i =>
    match types[c]? with
    | none => .panic
    | some t =>
      match FieldKind.argNew t with
      | none => .panic
      | some k =>
        match argDecode m k i with
        | .ok rest f =>
          match argsLoop m types (c + 1) n rest with
          | .ok fs => .ok (f :: fs)
          | .panic => .panic
        | _ => .panic

/-- The tail of `ArgumentCollection::decode` (db_message_argument.rs 101-108): the unread input is
always reported as empty. -/
def argsBody (m : Mode) (types : Bytes) (n : Nat) : Parser Args := fun input =>
  match argsLoop m types 0 n input with
  | .ok items => PRes.ok [] items
  | .panic => PRes.panic

/-- `ArgumentCollection::decode` (db_message_argument.rs 96-109). -/
def argsDecode (m : Mode) : Parser Args := do
  let cnt ← P.take 2
  let _ ← P.take 5
  let types ← P.take 12
  argsBody m types (cnt.getD 1 0).toNat

/-- `From<ArgumentCollection> for Bytes` (db_message_argument.rs 112-132). -/
def argsEncode (a : Args) : Bytes :=
  let argCount : UInt8 := UInt8.ofNat a.length
  [0x0f, argCount, 0x14, 0x00, 0x00, 0x00, 0x0c] ++
    a.map (fun f => f.kind.argValue) ++
    (if argCount.toNat < 12 then List.replicate (12 - argCount.toNat) 0x00 else []) ++
    a.flatMap DBField.asBytes

end PDJ

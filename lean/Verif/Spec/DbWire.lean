import Verif.Base.Bytes
import Verif.Base.Unicode

/-!
# Specification: the remote-DB wire format as a player reads it

An independent, tag-driven reader of the format, written from the protocol rather than from the
model: a message is a 4-byte number field holding the magic, a 4-byte number field holding the
transaction id, a 2-byte number field holding the message type, a 1-byte number field holding the
argument count, a blob field with twelve argument tags, and then the argument fields.  An argument
tagged as blob whose preceding number argument is zero is absent from the wire.
-/

namespace PDJ.Spec

/-- A field value on the wire. -/
inductive Val
  | u8 (v : UInt8)
  | u16 (v : UInt16)
  | u32 (v : UInt32)
  | text (s : Str)
  | blob (b : Bytes)
deriving DecidableEq, Repr

/-- A message as the player sees it. -/
structure Msg where
  tx : UInt32
  type : UInt16
  args : List Val
deriving DecidableEq, Repr

/-- Group bytes into big-endian units. -/
def units : Bytes → Option (List UInt16)
  | [] => some []
  | [_] => none
  | a :: b :: r => (units r).map (ofBe16 a b :: ·)

/-- A text payload of `n` units: the last unit is the terminator 0. -/
def textOf (b : Bytes) : Option Str :=
  match units b with
  | none => none
  | some us =>
    match us.reverse with
    | [] => none
    | z :: front => if z = 0 then fromUtf16 front.reverse else none

/-- Read one field: the tag byte decides the width. -/
def readField : Bytes → Option (Val × Bytes)
  | [] => none
  | t :: i =>
    if t = 0x0f then
      match i with
      | a :: r => some (.u8 a, r)
      | _ => none
    else if t = 0x10 then
      match i with
      | a :: b :: r => some (.u16 (ofBe16 a b), r)
      | _ => none
    else if t = 0x11 then
      match i with
      | a :: b :: c :: d :: r => some (.u32 (ofBe32 a b c d), r)
      | _ => none
    else if t = 0x14 then
      match i with
      | a :: b :: c :: d :: r =>
        if r.length < (ofBe32 a b c d).toNat then none
        else some (.blob (r.take (ofBe32 a b c d).toNat), r.drop (ofBe32 a b c d).toNat)
      | _ => none
    else if t = 0x26 then
      match i with
      | a :: b :: c :: d :: r =>
        if r.length < 2 * (ofBe32 a b c d).toNat then none
        else
          (textOf (r.take (2 * (ofBe32 a b c d).toNat))).map
            (fun s => (.text s, r.drop (2 * (ofBe32 a b c d).toNat)))
      | _ => none
    else none

/-- The argument tag of a value in the message header. -/
def tagOf : Val → UInt8
  | .text _ => 0x02
  | .blob _ => 0x03
  | .u8 _ => 0x04
  | .u16 _ => 0x05
  | .u32 _ => 0x06

/-- Read the arguments announced by `tags`; `prev` is the preceding argument. -/
def readArgs : (tags : List UInt8) → (prev : Option Val) → Bytes → Option (List Val × Bytes)
  | [], _, i => some ([], i)
  | t :: ts, prev, i =>
    if t = 0x03 ∧ prev = some (.u32 0) then
      (readArgs ts (some (.blob [])) i).map (fun x => (.blob [] :: x.1, x.2))
    else
      match readField i with
      | none => none
      | some (v, r) =>
        if t = tagOf v then (readArgs ts (some v) r).map (fun x => (v :: x.1, x.2))
        else none

/-- Read a field that must be a 4-byte number. -/
def readU32 (i : Bytes) : Option (UInt32 × Bytes) :=
  match readField i with
  | some (.u32 v, r) => some (v, r)
  | _ => none

/-- Read a field that must be a 2-byte number. -/
def readU16 (i : Bytes) : Option (UInt16 × Bytes) :=
  match readField i with
  | some (.u16 v, r) => some (v, r)
  | _ => none

/-- Read a field that must be a 1-byte number. -/
def readU8 (i : Bytes) : Option (UInt8 × Bytes) :=
  match readField i with
  | some (.u8 v, r) => some (v, r)
  | _ => none

/-- Read a field that must be a blob. -/
def readBlob (i : Bytes) : Option (Bytes × Bytes) :=
  match readField i with
  | some (.blob v, r) => some (v, r)
  | _ => none

/-- Read one message. -/
def readMsg (i : Bytes) : Option (Msg × Bytes) := do
  let (magic, i) ← readU32 i
  guard (magic = 0x872349ae)
  let (tx, i) ← readU32 i
  let (type, i) ← readU16 i
  let (n, i) ← readU8 i
  let (tags, i) ← readBlob i
  guard (tags.length = 12 ∧ n.toNat ≤ 12 ∧ (tags.drop n.toNat).all (· = 0) = true)
  let (args, i) ← readArgs (tags.take n.toNat) none i
  return ({ tx := tx, type := type, args := args }, i)

/-- Read a stream of messages up to its end (`fuel` bounds the number of messages; every message
has at least one byte, so the length of the input is enough). -/
def readMany : (fuel : Nat) → Bytes → Option (List Msg)
  | _, [] => some []
  | 0, _ => none
  | n + 1, i =>
    match readMsg i with
    | none => none
    | some (m, r) => (readMany n r).map (m :: ·)

/-- Read a whole reply. -/
def readReply (i : Bytes) : Option (List Msg) := readMany i.length i

end PDJ.Spec

namespace PDJ.Spec

/-- A text that fits the one-byte text length the wire format is written with. -/
def Fits (s : Str) : Prop := (utf16 s).length ≤ 127

/-- Which values a player can recover from the wire: texts of at most 127 UTF-16 units (one length
byte is used), blobs below 4 GiB, an empty blob exactly after a zero number. -/
def Readable : Option Val → List Val → Prop
  | _, [] => True
  | prev, v :: vs =>
    (match v with
      | .text s => (utf16 s).length ≤ 127
      | .blob b => b.length < 4294967296 ∧ (b = [] ↔ prev = some (.u32 0))
      | _ => True) ∧ Readable (some v) vs

/-- The part of `Readable` about blobs only, which depends on how a message is put together and not
on the texts in it. -/
def BlobsOk : Option Val → List Val → Prop
  | _, [] => True
  | prev, v :: vs =>
    (match v with
      | .blob b => b.length < 4294967296 ∧ (b = [] ↔ prev = some (.u32 0))
      | _ => True) ∧ BlobsOk (some v) vs

end PDJ.Spec

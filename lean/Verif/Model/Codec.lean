import Verif.Model.DbMessage

/-!
# The remote-DB codec and the argument writer

`/repo/src/rekordbox/library/codec.rs` and `Argument::encode` of
`/repo/src/rekordbox/db_message_argument.rs`.  Nothing in the application uses them yet; they are part
of its interface.

A connection framed with the codec (`Framed` of tokio-util 0.6.7, from memory): every read appends a
chunk to the buffer, then frames are decoded until there is none.
-/

namespace PDJ

/-- What a decoder yields (codec.rs 24-35): a message, or an `Error`. -/
inductive DbFrame
  | message (d : DBMessage)
  | invalid
deriving DecidableEq, Repr

/-- `DbBytesCodec::decode` (codec.rs 24-36) with `TryFrom<Bytes> for DBMessage` (packets.rs 182-191):
what is yielded, and the buffer afterwards. -/
def codecDecode (m : Mode) (buf : Bytes) : Outcome (Option DbFrame × Bytes) :=
  if buf.length > 0 then
    match DBMessage.parse m (buf.take buf.length) with
    | .ok _ d => .ok (some (.message d), buf.drop buf.length)
    | .err => .ok (some .invalid, buf.drop buf.length)
    | .fail => .ok (some .invalid, buf.drop buf.length)
    | .panic => .panic
  else .ok (none, buf)

/-- `DbBytesCodec::encode` (codec.rs 41-45): the buffer afterwards. -/
def codecEncode (d : DBMessage) (buf : Bytes) : Bytes := buf ++ d.encode

/-- Decode until there is no frame (use of the trait at codec.rs 20-36; `fuel` bounds the number of
frames, and since each takes at least one byte, the length of the buffer is enough). -/
def drain (m : Mode) : (fuel : Nat) → Bytes → Outcome (List DbFrame × Bytes)
  | 0, buf => .ok ([], buf)
  | n + 1, buf =>
    (codecDecode m buf).bind fun r =>
      match r.1 with
      | none => .ok ([], r.2)
      | some f => (drain m n r.2).bind fun rs => .ok (f :: rs.1, rs.2)

/-- A connection framed with the codec: the frames yielded for the chunks read (use of the trait at
codec.rs 20-36). -/
def framed (m : Mode) : Bytes → List Bytes → Outcome (List DbFrame)
  | _, [] => .ok []
  | buf, c :: cs =>
    (drain m (buf ++ c).length (buf ++ c)).bind fun r =>
      (framed m r.2 cs).bind fun fs => .ok (r.1 ++ fs)

/-- `Argument::encode` (db_message_argument.rs 180-204); the two enums of kinds are one type here. -/
def argEncode (kind : FieldKind) (value : Bytes) : Bytes :=
  match kind with
  | .string =>
    [kind.value, 0x00, 0x00, 0x00, UInt8.ofNat value.length / 2 + 1] ++ value ++ [0x00, 0x00]
  | _ => [kind.value] ++ value

end PDJ

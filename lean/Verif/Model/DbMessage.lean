import Verif.Model.DbField

/-!
# Remote-DB messages

`/repo/src/rekordbox/db_request_type.rs` and the `DBMessage` part of
`/repo/src/rekordbox/packets.rs`.
-/

namespace PDJ

/-- `DBRequestType` (db_request_type.rs 4-28). -/
inductive ReqType
  | albumByArtist
  | album
  | artist
  | genre
  | history
  | key
  | menuFooter
  | menuHeader
  | menuItem
  | metadata
  | mountInfo
  | loadTrack
  | loadTrackSuccess
  | playlist
  | previewWaveform
  | render
  | rootMenu
  | searchQuery
  | setup
  | success
  | titleByArtistAlbum
  | title
  | unknown (code : UInt16)
deriving DecidableEq, Repr

namespace ReqType

/-- `DBRequestType::value` (db_request_type.rs 31-50). -/
def value : ReqType → Bytes
  | albumByArtist => [0x11, 0x02]
  | artist => [0x10, 0x02]
  | loadTrack => [0x2b, 0x04]
  | menuFooter => [0x42, 0x01]
  | menuHeader => [0x40, 0x01]
  | menuItem => [0x41, 0x01]
  | loadTrackSuccess => [0x4e, 0x02]
  | metadata => [0x20, 0x02]
  | mountInfo => [0x21, 0x02]
  | previewWaveform => [0x20, 0x04]
  | rootMenu => [0x10, 0x00]
  | render => [0x30, 0x00]
  | setup => [0x00, 0x00]
  | success => [0x40, 0x00]
  | titleByArtistAlbum => [0x12, 0x02]
  | _ => [0x00, 0x00]

/-- `DBRequestType::new` (db_request_type.rs 52-77). -/
def new (v : UInt16) : ReqType :=
  if v = 0 then setup
  else if v = 4096 then rootMenu
  else if v = 4097 then genre
  else if v = 4098 then artist
  else if v = 4099 then album
  else if v = 4100 then title
  else if v = 4114 then history
  else if v = 4116 then key
  else if v = 4354 then albumByArtist
  else if v = 4357 then playlist
  else if v = 4610 then titleByArtistAlbum
  else if v = 4864 then searchQuery
  else if v = 8194 then metadata
  else if v = 8196 then previewWaveform
  else if v = 8450 then mountInfo
  else if v = 11012 then loadTrack
  else if v = 12288 then render
  else if v = 16384 then success
  else if v = 16385 then menuHeader
  else if v = 16641 then menuItem
  else if v = 16897 then menuFooter
  else unknown v

end ReqType

/-- `DBMessage` (packets.rs 49-54). -/
structure DBMessage where
  txid : DBField
  rtype : ReqType
  args : Args
deriving DecidableEq, Repr

/-- `Arguments` with its `Default` (packets.rs 56-78); the default type is `ROOT_ARTIST` (0x81). -/
structure ItemArgs where
  entryId1 : UInt32 := 0
  entryId2 : UInt32 := 0
  entryId3 : UInt32 := 0
  entryId4 : UInt32 := 0
  value1 : Str := []
  value2 : Str := []
  ty : UInt32 := 0x81
deriving DecidableEq, Repr

/-- `From<Arguments> for ArgumentCollection` (packets.rs 80-97).  `to_be_bytes` followed by
`DBField::from([u8; 4])` is the same field as `DBField::from(u32)`. -/
def ItemArgs.toArgs (a : ItemArgs) : Args :=
  [ .ofU32 a.entryId1,
    .ofU32 a.entryId2,
    .ofU32 (UInt32.ofNat ((utf16 a.value1).length * 2 + 2)),
    .ofStr a.value1,
    .ofU32 (UInt32.ofNat ((utf16 a.value2).length * 2 + 2)),
    .ofStr a.value2,
    .ofU32 a.ty,
    .ofU32 0,
    .ofU32 a.entryId3,
    .ofU32 0,
    .ofU32 a.entryId4,
    .ofU32 0 ]

namespace DBMessage

/-- `DBMessage::MAGIC` (packets.rs 100). -/
def magicBytes : Bytes := [0x87, 0x23, 0x49, 0xae]

/-- `DBMessage::magic` (packets.rs 114-117): the tag byte itself is skipped, not checked. -/
def magic : Parser Bytes := do
  let _ ← P.take 1
  P.tag magicBytes

/-- `DBMessage::transaction_id` (packets.rs 119-130): an unknown tag panics through `unwrap`.
The panic is only reached after the four payload bytes were read. -/
def transactionId : Parser DBField := do
  let kind ← P.take 1
  let t ← P.take 4
  match FieldKind.name (kind.getD 0 0) with
  | none => P.panic
  | some k => pure ⟨k, t⟩

/-- `DBMessage::request_type` (packets.rs 132-140). -/
def requestType : Parser ReqType := do
  let _ ← P.take 1
  let v ← P.beU16
  pure (ReqType.new v)

/-- `DBMessage::parse` (packets.rs 146-157). -/
def parse (m : Mode) : Parser DBMessage := do
  let _ ← magic
  let t ← transactionId
  let r ← requestType
  let a ← argsDecode m
  pure ⟨t, r, a⟩

/-- `DBMessage::to_response` (packets.rs 159-167). -/
def toResponse (d : DBMessage) : Bytes :=
  [0x11] ++ magicBytes ++ d.txid.asBytes

/-- `From<DBMessage> for Bytes` (packets.rs 170-180). -/
def encode (d : DBMessage) : Bytes :=
  d.toResponse ++ [0x10] ++ d.rtype.value ++ argsEncode d.args

/-- `From<ManyDBMessages> for Bytes` (packets.rs 193-200). -/
def encodeMany (l : List DBMessage) : Bytes :=
  l.foldl (fun acc d => acc ++ d.encode) []

end DBMessage

end PDJ

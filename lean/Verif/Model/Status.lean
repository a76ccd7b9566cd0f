import Verif.Model.Keepalive

/-!
# Status packets and the status server

`/repo/src/rekordbox/packets.rs` 257-734 and `/repo/src/rekordbox/status_event_server.rs`.
-/

namespace PDJ

/-- `PlayerSlot` (packets.rs 257-265). -/
inductive PlayerSlot
  | empty
  | cd
  | sd
  | usb
  | rekordbox
  | unknown (v : UInt8)
deriving DecidableEq, Repr

/-- `PlayerSlot::decode` (packets.rs 268-279). -/
def PlayerSlot.decode : Parser PlayerSlot := do
  let v ← P.beU8
  pure (
    if v = 0 then .empty
    else if v = 1 then .cd
    else if v = 2 then .sd
    else if v = 3 then .usb
    else if v = 4 then .rekordbox
    else .unknown v)

/-- `From<PlayerSlot> for Bytes` (packets.rs 282-293). -/
def PlayerSlot.encode : PlayerSlot → Bytes
  | .empty => [0]
  | .cd => [1]
  | .sd => [2]
  | .usb => [3]
  | .rekordbox => [4]
  | .unknown v => [v]

/-- `StatusPacketType` (packets.rs 396-407). -/
inductive StatusKind
  | cdj
  | djm
  | loadCmd
  | loadCmdReply
  | linkQuery
  | linkReply
  | rekordboxHello
  | rekordboxReply
  | unknown (v : UInt8)
deriving DecidableEq, Repr

/-- `StatusPacketType::decode` (packets.rs 410-424). -/
def StatusKind.decode : Parser StatusKind := do
  let k ← P.beU8
  pure (
    if k = 0x0a then .cdj
    else if k = 0x29 then .djm
    else if k = 0x19 then .loadCmd
    else if k = 0x1a then .loadCmdReply
    else if k = 0x05 then .linkQuery
    else if k = 0x06 then .linkReply
    else if k = 0x10 then .rekordboxHello
    else if k = 0x11 then .rekordboxReply
    else .unknown k)

/-- `From<StatusPacketType> for Bytes` (packets.rs 442-456). -/
def StatusKind.encode : StatusKind → Bytes
  | .cdj => [0x0a]
  | .djm => [0x29]
  | .loadCmd => [0x19]
  | .loadCmdReply => [0x1a]
  | .linkQuery => [0x05]
  | .linkReply => [0x06]
  | .rekordboxHello => [0x10]
  | .rekordboxReply => [0x11]
  | .unknown v => [v]

/-- `Utf16FixedString` (packets.rs 458-462). -/
structure FixedString where
  capacity : Nat
  value : Str
deriving DecidableEq, Repr

/-- `Utf16FixedString::decode` (packets.rs 472-484). -/
def FixedString.decode (capacity : Nat) : Parser FixedString := do
  let v ← P.count P.beU16 (capacity / 2)
  match fromUtf16 v with
  | some s => pure ⟨capacity, s⟩
  | none => P.err

/-- Zero bytes up to a capacity; `capacity - len` is a `usize` subtraction, which panics when the
string is longer (with overflow checks in the subtraction, without them in `vec!`) (packets.rs 494,
729). -/
def fillTo (capacity : Nat) (b : Bytes) : Outcome Bytes :=
  if b.length ≤ capacity then .ok (b ++ List.replicate (capacity - b.length) 0x00) else .panic

/-- `From<Utf16FixedString> for Bytes` (packets.rs 487-498). -/
def FixedString.encode (f : FixedString) : Outcome Bytes := fillTo f.capacity (utf16be f.value)

/-- `TrackAnalyzeType` (packets.rs 500-506). -/
inductive AnalyzeType
  | unknown
  | rekordbox
  | file
  | cd
deriving DecidableEq, Repr

/-- `TrackAnalyzeType::decode` (packets.rs 511-524). -/
def AnalyzeType.decode : Parser AnalyzeType := do
  let t ← P.beU8
  pure (
    if t = 0 then .unknown
    else if t = 1 then .rekordbox
    else if t = 2 then .file
    else if t = 5 then .cd
    else .unknown)

/-- `Cdj` (packets.rs 527-535). -/
structure CdjStatus where
  activity : UInt16
  loadedPlayerNumber : UInt16
  loadedSlot : PlayerSlot
  analyzeType : AnalyzeType
  trackId : UInt32
  trackNumber : UInt32
deriving DecidableEq, Repr

/-- `LinkReply` (packets.rs 579-592). -/
structure LinkReply where
  sourcePlayerNumber : UInt8
  slot : PlayerSlot
  name : FixedString
  date : FixedString
  unknown5 : FixedString
  trackCount : UInt32
  unknown6 : UInt16
  unknown7 : UInt16
  playlistCount : UInt32
  bytesTotal : UInt64
  bytesFree : UInt64
deriving DecidableEq, Repr

/-- `LinkQuery` (packets.rs 649-654). -/
structure LinkQuery where
  sourceIp : Ip4
  remotePlayerNumber : UInt8
  slot : PlayerSlot
deriving DecidableEq, Repr

/-- `StatusContentType` (packets.rs 685-696). -/
inductive StatusContent
  | cdj (c : CdjStatus)
  | djm
  | loadCmd
  | loadCmdReply
  | linkQuery (q : LinkQuery)
  | linkReply (r : LinkReply)
  | rekordboxHello
  | rekordboxReply (name : Str)
  | unknown (v : UInt8)
deriving DecidableEq, Repr

/-- `Cdj::decode` (packets.rs 546-566). -/
def decodeCdj : Parser StatusContent := do
  let activity ← P.beU16
  let n ← P.beU16
  let slot ← PlayerSlot.decode
  let t ← AnalyzeType.decode
  let _ ← P.take 1
  let id ← P.beU32
  let number ← P.beU32
  pure (.cdj ⟨activity, n, slot, t, id, number⟩)

/-- `Djm::decode` (packets.rs 572-577). -/
def decodeDjm : Parser StatusContent := pure .djm

/-- `LinkReply::decode` (packets.rs 595-623). -/
def decodeLinkReply : Parser StatusContent := do
  let slot ← PlayerSlot.decode
  let name ← FixedString.decode 64
  let date ← FixedString.decode 24
  let unknown5 ← FixedString.decode 32
  let trackCount ← P.beU32
  let unknown6 ← P.beU16
  let unknown7 ← P.beU16
  let playlistCount ← P.beU32
  let bytesTotal ← P.beU64
  let bytesFree ← P.beU64
  pure (.linkReply ⟨0x11, slot, name, date, unknown5, trackCount, unknown6, unknown7, playlistCount,
    bytesTotal, bytesFree⟩)

/-- `LinkQuery::decode` (packets.rs 657-675).  The indices 0 to 3 of the four bytes taken exist; the
address they form is the big-endian word. -/
def decodeLinkQuery : Parser StatusContent := do
  let _ ← P.beU16
  let ip ← P.beU32
  let _ ← P.take 3
  let n ← P.beU8
  let _ ← P.take 3
  let slot ← PlayerSlot.decode
  pure (.linkQuery ⟨ip, n, slot⟩)

/-- `RekordboxHello::decode` (packets.rs 680-682). -/
def decodeRekordboxHello : Parser StatusContent := pure .rekordboxHello

/-- `StatusPacketType::decode_content` (packets.rs 426-439). -/
def StatusKind.decodeContent : StatusKind → Parser StatusContent
  | .linkQuery => decodeLinkQuery
  | .rekordboxHello => decodeRekordboxHello
  | .linkReply => decodeLinkReply
  | .cdj => decodeCdj
  | .djm => decodeDjm
  | _ => P.panic

/-- `StatusPacket` (packets.rs 311-318). -/
structure StatusPacket where
  kind : StatusKind
  model : ModelName
  unknown1 : UInt8
  playerNumber : UInt8
  content : StatusContent
deriving DecidableEq, Repr

/-- `StatusPacket::decode` (packets.rs 336-352). -/
def StatusPacket.decode : Parser StatusPacket := do
  let _ ← UdpMagic.decode
  let kind ← StatusKind.decode
  let model ← ModelName.decode
  let _ ← P.beU8
  let unknown1 ← P.beU8
  let playerNumber ← P.beU8
  let content ← kind.decodeContent
  pure ⟨kind, model, unknown1, playerNumber, content⟩

/-- `From<LinkReply> for Bytes` (packets.rs 626-647). -/
def LinkReply.encode (r : LinkReply) : Outcome Bytes :=
  (r.name.encode).bind fun name =>
  (r.date.encode).bind fun date =>
  (r.unknown5.encode).bind fun unknown5 =>
    .ok (be16 156 ++ [0x00, 0x00, 0x00] ++ [r.sourcePlayerNumber] ++ [0x00, 0x00, 0x00] ++
      r.slot.encode ++ name ++ date ++ unknown5 ++ be32 r.trackCount ++ be16 r.unknown6 ++
      be16 r.unknown7 ++ be32 r.playlistCount ++ be64 r.bytesTotal ++ be64 r.bytesFree)

/-- `From<RekordboxReply> for Bytes` (packets.rs 713-734). -/
def encodeRekordboxReply (name : Str) : Outcome Bytes :=
  (fillTo 256 (utf16be name)).bind fun n => .ok ([0x01, 0x04, 0x11, 0x01, 0x00, 0x00] ++ n)

/-- `From<StatusContentType> for Bytes` (packets.rs 698-706). -/
def StatusContent.encode : StatusContent → Outcome Bytes
  | .rekordboxReply name => encodeRekordboxReply name
  | .linkReply r => r.encode
  | _ => .panic

/-- `From<StatusPacket> for Bytes` (packets.rs 359-375). -/
def StatusPacket.encode (p : StatusPacket) : Outcome Bytes :=
  (ModelName.encode p.model).bind fun model =>
  (p.content.encode).bind fun content =>
    .ok (udpMagic ++ p.kind.encode ++ model ++ [0x01, p.unknown1, 0x11] ++ content)

/-- `StatusPacket::new` (packets.rs 321-334). -/
def StatusPacket.new (kind : StatusKind) (unknown1 playerNumber : UInt8) (content : StatusContent) :
    StatusPacket := ⟨kind, ['L', 'i', 'n', 'u', 'x'], unknown1, playerNumber, content⟩

/-- The library name announced (status_event_server.rs 62, 74). -/
def termDj : Str := ['T', 'e', 'r', 'm', ' ', 'D', 'J']

/-- `StatusEventServer::process_packet` (status_event_server.rs 50-91). -/
def processPacket (p : StatusPacket) : Option StatusPacket :=
  match p.kind with
  | .cdj => none
  | .rekordboxHello => some (.new .rekordboxReply 1 1 (.rekordboxReply termDj))
  | .linkQuery =>
    some (.new .linkReply p.unknown1 p.playerNumber (.linkReply
      { sourcePlayerNumber := 17
        slot := .rekordbox
        name := ⟨64, termDj⟩
        date := ⟨24, []⟩
        unknown5 := ⟨32, []⟩
        trackCount := 1051
        unknown6 := 0
        unknown7 := 257
        playlistCount := 94
        bytesTotal := 0
        bytesFree := 0 }))
  | _ => none

/-- What the status server gets from its socket; the sender is its IPv4 address (the port is not
used) (status_event_server.rs 124-150). -/
inductive StatusRecv
  | ioError
  | datagram (d : Bytes) (sender : Ip4)

/-- `STATUS_EVENT_SERVER_PORT` (status_event_server.rs 24). -/
def statusPort : UInt16 := 50002

/-- One iteration of `StatusEventServer::run` (status_event_server.rs 107-122) with `recv_from`
(124-150) and `send_to` (93-105); the flag tells whether the thread still runs.  The outputs are the
datagrams given to the OS with their destination; whether the OS sends them does not matter. -/
def statusStep (r : StatusRecv) : Bool → List (Bytes × Ip4 × UInt16) × Bool
  | false => ([], false)
  | true =>
    match r with
    | .ioError => ([], true)
    | .datagram d sender =>
      match StatusPacket.decode (d.take 1024) with
      | .err => ([], true)
      | .fail => ([], true)
      | .panic => ([], false)
      | .ok _ p =>
        match processPacket p with
        | none => ([], true)
        | some reply =>
          match reply.encode with
          | .ok b => ([(b, sender, statusPort)], true)
          | .panic => ([], false)

/-- The status server over a history (the loop of status_event_server.rs 108-121). -/
def statusRun : Bool → List StatusRecv → List (Bytes × Ip4 × UInt16) × Bool
  | b, [] => ([], b)
  | b, x :: xs =>
    let r := statusStep x b
    let rs := statusRun r.2 xs
    (r.1 ++ rs.1, rs.2)

end PDJ

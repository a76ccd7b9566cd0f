import Verif.Base.Nom
import Verif.Model.Network

/-!
# Keep-alive packets

`/repo/src/rekordbox/keepalive.rs`, and `ModelName` and `UdpMagic` of `/repo/src/rekordbox/packets.rs`.
-/

namespace PDJ

/-- `UDP_MAGIC` (packets.rs 202). -/
def udpMagic : Bytes := [0x51, 0x73, 0x70, 0x74, 0x31, 0x57, 0x6d, 0x4a, 0x4f, 0x4c]

/-- `UdpMagic::decode` (packets.rs 299-302). -/
def UdpMagic.decode : Parser Unit := do
  let _ ← P.tag udpMagic
  pure ()

/-- `str::trim_end_matches('\u{0}')` (used in packets.rs 231). -/
def trimEndNul (s : Str) : Str := (s.reverse.dropWhile (· == '\x00')).reverse

/-- `ModelName(String)` (packets.rs 221-222). -/
abbrev ModelName := Str

/-- `ModelName::decode` (packets.rs 227-234). -/
def ModelName.decode : Parser ModelName := do
  let model ← P.take 20
  match fromUtf8 model with
  | some s => pure (trimEndNul s)
  | none => P.err

/-- `ModelName::encode` (packets.rs 236-244).  `20 - model.len()` is a `usize` subtraction: for a
longer name it panics with overflow checks, and without them the wrapped length makes `vec!` panic
(capacity overflow). -/
def ModelName.encode (s : ModelName) : Outcome Bytes :=
  if (utf8 s).length ≤ 20 then .ok (utf8 s ++ List.replicate (20 - (utf8 s).length) 0x00)
  else .panic

/-- `DeviceType` (keepalive.rs 229-234). -/
inductive DeviceType
  | djm
  | cdj
  | rekordbox
deriving DecidableEq, Repr

/-- `DeviceType::decode` (keepalive.rs 237-246). -/
def DeviceType.decode : Parser DeviceType := do
  let t ← P.beU8
  if t = 1 then pure .djm
  else if t = 2 then pure .cdj
  else if t = 3 then pure .rekordbox
  else P.err

/-- `From<DeviceType> for Bytes` (keepalive.rs 249-261). -/
def DeviceType.encode : DeviceType → Bytes
  | .djm => [1]
  | .cdj => [2]
  | .rekordbox => [3]

/-- `KeepAlivePacketType` (keepalive.rs 263-271). -/
inductive KaKind
  | hello
  | number
  | mac
  | ip
  | status
  | change
deriving DecidableEq, Repr

/-- `KeepAlivePacketType::decode` (keepalive.rs 274-286). -/
def KaKind.decode : Parser KaKind := do
  let k ← P.beU8
  if k = 0x0a then pure .hello
  else if k = 0x04 then pure .number
  else if k = 0x00 then pure .mac
  else if k = 0x02 then pure .ip
  else if k = 0x06 then pure .status
  else if k = 0x08 then pure .change
  else P.err

/-- `From<KeepAlivePacketType> for Bytes` (keepalive.rs 304-320). -/
def KaKind.encode : KaKind → Bytes
  | .hello => [0x0a]
  | .number => [0x04]
  | .mac => [0x00]
  | .ip => [0x02]
  | .status => [0x06]
  | .change => [0x08]

/-- `KeepAlivePacketSubType` (keepalive.rs 617-627). -/
inductive KaSubKind
  | hello
  | number
  | mac
  | ip
  | status
  | change
  | statusMixer
  | unknown (v : UInt8)
deriving DecidableEq, Repr

/-- `KeepAlivePacketSubType::decode` (keepalive.rs 630-646). -/
def KaSubKind.decode : Parser KaSubKind := do
  let k ← P.beU8
  pure (
    if k = 0x25 then .hello
    else if k = 0x26 then .number
    else if k = 0x2c then .mac
    else if k = 0x32 then .ip
    else if k = 0x36 then .status
    else if k = 0x29 then .change
    else if k = 0x00 then .statusMixer
    else .unknown k)

/-- `From<KeepAlivePacketSubType> for Bytes` (keepalive.rs 649-662). -/
def KaSubKind.encode : KaSubKind → Bytes
  | .hello => [0x25]
  | .number => [0x26]
  | .mac => [0x2c]
  | .ip => [0x32]
  | .status => [0x36]
  | .change => [0x29]
  | .statusMixer => [0x00]
  | .unknown v => [v]

/-- `PlayerNumberAssignment` (keepalive.rs 358-362). -/
inductive Assignment
  | auto
  | manual
deriving DecidableEq, Repr

/-- `PlayerNumberAssignment::decode` (keepalive.rs 365-372). -/
def Assignment.decode : Parser Assignment := do
  let a ← P.beU8
  if a = 1 then pure .auto
  else if a = 2 then pure .manual
  else P.err

/-- `From<PlayerNumberAssignment> for Bytes` (keepalive.rs 375-385). -/
def Assignment.encode : Assignment → Bytes
  | .auto => [1]
  | .manual => [2]

/-- `Status` (keepalive.rs 529-538). -/
structure KaStatus where
  playerNumber : UInt8
  unknown2 : UInt8
  mac : Mac
  ip : Ip4
  deviceCount : UInt8
  unknown3 : UInt16
  unknown4 : UInt8
deriving DecidableEq, Repr

/-- `KeepAliveContentType` (keepalive.rs 664-672) with `Mac` 322-327, `Ip` 387-395,
`Change` 451-455, `Number` 483-487, `Hello` 510-513. -/
inductive KaContent
  | hello (unknown2 : UInt8)
  | number (proposed iteration : UInt8)
  | mac (iteration unknown2 : UInt8) (mac : Mac)
  | ip (ip : Ip4) (mac : Mac) (iteration index : UInt8) (assignment : Assignment)
  | status (s : KaStatus)
  | change (oldNumber : UInt8) (ip : Ip4)
deriving DecidableEq, Repr

/-- `MacAddr::decode` (keepalive.rs 597-603). -/
def Mac.decode : Parser Mac := do
  let a ← P.beU8
  let b ← P.beU8
  let c ← P.beU8
  let d ← P.beU8
  let e ← P.beU8
  let f ← P.beU8
  pure ⟨a, b, c, d, e, f⟩

/-- `Hello::decode` (keepalive.rs 516-520). -/
def decodeHello : Parser KaContent := do
  let u ← P.beU8
  pure (.hello u)

/-- `Number::decode` (keepalive.rs 490-501). -/
def decodeNumber : Parser KaContent := do
  let n ← P.beU8
  let i ← P.beU8
  pure (.number n i)

/-- `Mac::decode` (keepalive.rs 330-343). -/
def decodeMac : Parser KaContent := do
  let i ← P.beU8
  let u ← P.beU8
  let m ← Mac.decode
  pure (.mac i u m)

/-- `Ip::decode` (keepalive.rs 416-434); `Ipv4Addr::decode` (609-615) is `be_u32`. -/
def decodeIp : Parser KaContent := do
  let a ← P.beU32
  let m ← Mac.decode
  let iteration ← P.beU8
  let index ← P.beU8
  let _ ← P.beU8
  let p ← Assignment.decode
  pure (.ip a m iteration index p)

/-- `Status::decode` (keepalive.rs 551-573). -/
def decodeStatus : Parser KaContent := do
  let n ← P.beU8
  let u2 ← P.beU8
  let m ← Mac.decode
  let a ← P.beU32
  let c ← P.beU8
  let _ ← P.take 2
  let u3 ← P.beU16
  let u4 ← P.beU8
  pure (.status ⟨n, u2, m, a, c, u3, u4⟩)

/-- `Change::decode` (keepalive.rs 458-469). -/
def decodeChange : Parser KaContent := do
  let n ← P.beU8
  let a ← P.beU32
  pure (.change n a)

/-- `KeepAlivePacketType::decode_content` (keepalive.rs 290-301). -/
def KaKind.decodeContent : KaKind → Parser KaContent
  | .status => decodeStatus
  | .hello => decodeHello
  | .change => decodeChange
  | .number => decodeNumber
  | .mac => decodeMac
  | .ip => decodeIp

/-- `Ip::map_sequence_byte` (keepalive.rs 398-412). -/
def mapSequenceByte (index : UInt8) : UInt8 :=
  if index = 1 then 0x11
  else if index = 2 then 0x12
  else if index = 3 then 0x29
  else if index = 4 then 0x2a
  else if index = 5 then 0x2b
  else 0x2c

/-- `From<KeepAliveContentType> for Bytes` (keepalive.rs 674-685) with the encoders of `Mac`
346-356, `Ip` 437-449, `Change` 472-481, `Number` 504-508, `Hello` 523-527, `Status` 576-591. -/
def KaContent.encode : KaContent → Bytes
  | .hello u => [u]
  | .number n i => [n, i]
  | .mac i u m => [i, u] ++ m.octets
  | .ip a m iteration index p =>
    be32 a ++ m.octets ++ [mapSequenceByte index, iteration, 4] ++ p.encode
  | .status s =>
    [s.playerNumber, s.unknown2] ++ s.mac.octets ++ be32 s.ip ++ [s.deviceCount, 1, 0] ++
      be16 s.unknown3 ++ [8]
  | .change n a => [n] ++ be32 a

/-- `KeepAlivePacket` (keepalive.rs 150-158). -/
structure KaPacket where
  kind : KaKind
  subkind : KaSubKind
  model : ModelName
  unknown1 : UInt8
  deviceType : DeviceType
  content : KaContent
deriving DecidableEq, Repr

/-- `KeepAlivePacket::decode` (keepalive.rs 174-198). -/
def KaPacket.decode : Parser KaPacket := do
  let _ ← UdpMagic.decode
  let kind ← KaKind.decode
  let _ ← P.take 1
  let model ← ModelName.decode
  let unknown1 ← P.beU8
  let deviceType ← DeviceType.decode
  let _ ← P.take 1
  let subkind ← KaSubKind.decode
  let content ← kind.decodeContent
  pure ⟨kind, subkind, model, unknown1, deviceType, content⟩

/-- `From<KeepAlivePacket> for Bytes` (keepalive.rs 200-216). -/
def KaPacket.encode (p : KaPacket) : Outcome Bytes :=
  (ModelName.encode p.model).bind fun model =>
    .ok (udpMagic ++ p.kind.encode ++ [0x00] ++ model ++ [p.unknown1] ++ p.deviceType.encode ++
      [0x00] ++ p.subkind.encode ++ p.content.encode)

/-- The name of the application in keep-alive packets (keepalive.rs 24, 42, 67). -/
def rekordboxName : ModelName := ['r', 'e', 'k', 'o', 'r', 'd', 'b', 'o', 'x']

/-- `KeepAliveMacPackage::new` (keepalive.rs 18-34). -/
def kaMacPackage (iteration : UInt8) (mac : Mac) : KaPacket :=
  ⟨.mac, .mac, rekordboxName, 1, .rekordbox, .mac iteration 4 mac⟩

/-- `KeepAliveIpPackage::new` (keepalive.rs 36-54). -/
def kaIpPackage (iteration index : UInt8) (ip : Ip4) (mac : Mac) : KaPacket :=
  ⟨.ip, .ip, rekordboxName, 1, .rekordbox, .ip ip mac iteration index .auto⟩

/-- `KeepAliveStatusPackage::new` (keepalive.rs 56-81). -/
def kaStatusPackage (ip : Ip4) (mac : Mac) (unknown3 : UInt16) (unknown4 : UInt8) : KaPacket :=
  ⟨.status, .status, rekordboxName, 1, .rekordbox, .status ⟨17, 1, mac, ip, 1, unknown3, unknown4⟩⟩

/-- `KeepAliveServer::recv_from` up to the event handler (keepalive.rs 123-138) and
`TryFrom<Bytes>` (218-227): the packet handed to the handler, if any.  A datagram of more than 1024
bytes is cut by the OS; unread bytes after the content are dropped. -/
def kaReceive (d : Bytes) : Outcome (Option KaPacket) :=
  match KaPacket.decode (d.take 1024) with
  | .ok _ p => .ok (some p)
  | .err => .ok none
  | .fail => .ok none
  | .panic => .panic

end PDJ

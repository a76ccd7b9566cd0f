import Verif.Spec.Numbers
import Verif.Spec.Status

/-!
# Specification: received packets by byte positions

Where each field of a packet lies in the datagram, and which code stands for which value.  Only data
types are taken from the model.
-/

namespace PDJ.Spec

/-- The number in `k` bytes at an offset, most significant byte first. -/
def numberAt (d : Bytes) (i k : Nat) : Nat := digits ((d.drop i).take k)

/-- The text in `k` bytes at an offset, in UTF-16BE, with any padding. -/
def TextAt (d : Bytes) (i k : Nat) (f : FixedString) : Prop :=
  f.capacity = k ∧ (d.drop i).take k = utf16be f.value

/-- A device name of 20 bytes at an offset, in UTF-8, padded with NULs. -/
def NameAt (d : Bytes) (i : Nat) (name : Str) : Prop :=
  ∃ whole, fromUtf8 ((d.drop i).take 20) = some whole ∧ NulPadded whole name

/-- A MAC address at an offset. -/
def MacAt (d : Bytes) (i : Nat) (m : Mac) : Prop := (d.drop i).take 6 = macBytes m

/-- Slots. -/
def SlotCode (b : UInt8) : PlayerSlot → Prop
  | .empty => b = 0
  | .cd => b = 1
  | .sd => b = 2
  | .usb => b = 3
  | .rekordbox => b = 4
  | .unknown v => b = v ∧ 4 < b

/-- Track analysis. -/
def AnalyzeCode (b : UInt8) : AnalyzeType → Prop
  | .rekordbox => b = 1
  | .file => b = 2
  | .cd => b = 5
  | .unknown => b ≠ 1 ∧ b ≠ 2 ∧ b ≠ 5

/-- The kinds of status packets that can be decoded. -/
def StatusCode (b : UInt8) : StatusKind → Prop
  | .linkQuery => b = 0x05
  | .linkReply => b = 0x06
  | .cdj => b = 0x0a
  | .rekordboxHello => b = 0x10
  | .djm => b = 0x29
  | _ => False

/-- A slot at an offset. -/
def SlotAt (d : Bytes) (i : Nat) (s : PlayerSlot) : Prop := ∃ b, d[i]? = some b ∧ SlotCode b s

/-- The content of a kind of status packet, with the offset of its end. -/
inductive StatusContentAt (d : Bytes) : StatusKind → StatusContent → Nat → Prop
  | djm : StatusContentAt d .djm .djm 34
  | hello : StatusContentAt d .rekordboxHello .rekordboxHello 34
  | query (q : LinkQuery) (ip : numberAt d 36 4 = q.sourceIp.toNat)
      (player : d[43]? = some q.remotePlayerNumber) (slot : SlotAt d 47 q.slot) :
      StatusContentAt d .linkQuery (.linkQuery q) 48
  | cdj (c : CdjStatus) (activity : numberAt d 34 2 = c.activity.toNat)
      (player : numberAt d 36 2 = c.loadedPlayerNumber.toNat) (slot : SlotAt d 38 c.loadedSlot)
      (analyze : ∃ b, d[39]? = some b ∧ AnalyzeCode b c.analyzeType)
      (track : numberAt d 41 4 = c.trackId.toNat) (number : numberAt d 45 4 = c.trackNumber.toNat) :
      StatusContentAt d .cdj (.cdj c) 49
  | reply (r : LinkReply) (source : r.sourcePlayerNumber = 17) (slot : SlotAt d 34 r.slot)
      (name : TextAt d 35 64 r.name) (date : TextAt d 99 24 r.date)
      (other : TextAt d 123 32 r.unknown5) (tracks : numberAt d 155 4 = r.trackCount.toNat)
      (u6 : numberAt d 159 2 = r.unknown6.toNat) (u7 : numberAt d 161 2 = r.unknown7.toNat)
      (playlists : numberAt d 163 4 = r.playlistCount.toNat)
      (total : numberAt d 167 8 = r.bytesTotal.toNat) (free : numberAt d 175 8 = r.bytesFree.toNat) :
      StatusContentAt d .linkReply (.linkReply r) 183

/-- A datagram that is a status packet, with the offset of its end. -/
structure StatusPacketAt (d : Bytes) (p : StatusPacket) (size : Nat) : Prop where
  magic : d.take 10 = signature
  kind : ∃ b, d[10]? = some b ∧ StatusCode b p.kind
  name : NameAt d 11 p.model
  echo : d[32]? = some p.unknown1
  player : d[33]? = some p.playerNumber
  content : StatusContentAt d p.kind p.content size
  complete : size ≤ d.length

/-- The kinds of keep-alive packets. -/
def KaCode (b : UInt8) : KaKind → Prop
  | .mac => b = 0
  | .ip => b = 2
  | .number => b = 4
  | .status => b = 6
  | .change => b = 8
  | .hello => b = 10

/-- The sub-kinds of keep-alive packets. -/
def KaSubCode (b : UInt8) : KaSubKind → Prop
  | .statusMixer => b = 0
  | .hello => b = 0x25
  | .number => b = 0x26
  | .change => b = 0x29
  | .mac => b = 0x2c
  | .ip => b = 0x32
  | .status => b = 0x36
  | .unknown v => b = v ∧ b ∉ [0x00, 0x25, 0x26, 0x29, 0x2c, 0x32, 0x36]

/-- Device types. -/
def DeviceCode (b : UInt8) : DeviceType → Prop
  | .djm => b = 1
  | .cdj => b = 2
  | .rekordbox => b = 3

/-- How a player number was chosen. -/
def AssignmentCode (b : UInt8) : Assignment → Prop
  | .auto => b = 1
  | .manual => b = 2

/-- The content of a kind of keep-alive packet, with the offset of its end. -/
inductive KaContentAt (d : Bytes) : KaKind → KaContent → Nat → Prop
  | hello (u : UInt8) (hu : d[36]? = some u) : KaContentAt d .hello (.hello u) 37
  | number (n i : UInt8) (hn : d[36]? = some n) (hi : d[37]? = some i) :
      KaContentAt d .number (.number n i) 38
  | mac (i u : UInt8) (m : Mac) (hi : d[36]? = some i) (hu : d[37]? = some u) (hm : MacAt d 38 m) :
      KaContentAt d .mac (.mac i u m) 44
  | ip (a : UInt32) (m : Mac) (iteration index : UInt8) (t : Assignment)
      (ha : numberAt d 36 4 = a.toNat) (hm : MacAt d 40 m) (hi : d[46]? = some iteration)
      (hx : d[47]? = some index) (ht : ∃ b, d[49]? = some b ∧ AssignmentCode b t) :
      KaContentAt d .ip (.ip a m iteration index t) 50
  | status (s : KaStatus) (player : d[36]? = some s.playerNumber) (u2 : d[37]? = some s.unknown2)
      (mac : MacAt d 38 s.mac) (ip : numberAt d 44 4 = s.ip.toNat)
      (devices : d[48]? = some s.deviceCount) (u3 : numberAt d 51 2 = s.unknown3.toNat)
      (u4 : d[53]? = some s.unknown4) : KaContentAt d .status (.status s) 54
  | change (n : UInt8) (a : UInt32) (hn : d[36]? = some n) (ha : numberAt d 37 4 = a.toNat) :
      KaContentAt d .change (.change n a) 41

/-- A datagram that is a keep-alive packet, with the offset of its end. -/
structure KaPacketAt (d : Bytes) (p : KaPacket) (size : Nat) : Prop where
  magic : d.take 10 = signature
  kind : ∃ b, d[10]? = some b ∧ KaCode b p.kind
  name : NameAt d 12 p.model
  u1 : d[32]? = some p.unknown1
  device : ∃ b, d[33]? = some b ∧ DeviceCode b p.deviceType
  sub : ∃ b, d[35]? = some b ∧ KaSubCode b p.subkind
  content : KaContentAt d p.kind p.content size
  complete : size ≤ d.length

end PDJ.Spec

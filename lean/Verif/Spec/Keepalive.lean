import Verif.Model.Keepalive

/-!
# Specification: keep-alive packets

Only the packet types are taken from the model.
-/

namespace PDJ.Spec

/-- The signature every packet of the protocol starts with (`Qspt1WmJOL`). -/
def signature : Bytes := [0x51, 0x73, 0x70, 0x74, 0x31, 0x57, 0x6d, 0x4a, 0x4f, 0x4c]

/-- A device name that fits its field and can be told from its padding. -/
def FieldName (s : Str) : Prop := (utf8 s).length ≤ 20 ∧ s.getLast? ≠ some '\x00'

/-- A text without trailing NULs followed by NULs only. -/
def NulPadded (whole text : Str) : Prop :=
  ∃ k, whole = text ++ List.replicate k '\x00' ∧ text.getLast? ≠ some '\x00'

/-- The content belongs to the kind of packet. -/
def Agrees : KaKind → KaContent → Prop
  | .hello, .hello _ => True
  | .number, .number _ _ => True
  | .mac, .mac _ _ _ => True
  | .ip, .ip _ _ _ _ _ => True
  | .status, .status _ => True
  | .change, .change _ _ => True
  | _, _ => False

/-- A sub-kind is written in its canonical form: the codes that have a name are not `unknown`. -/
def Canonical : KaSubKind → Prop
  | .unknown v => v ∉ [0x00, 0x25, 0x26, 0x29, 0x2c, 0x32, 0x36]
  | _ => True

/-- The datagram of a packet sent by the application: name `rekordbox`, device type 3. -/
def ownDatagram (kind sub : UInt8) (content : Bytes) : Bytes :=
  signature ++ [kind, 0x00] ++
  [0x72, 0x65, 0x6b, 0x6f, 0x72, 0x64, 0x62, 0x6f, 0x78, 0, 0, 0, 0, 0, 0, 0, 0, 0, 0, 0] ++
  [0x01, 0x03, 0x00, sub] ++ content

/-- The octets of a MAC address. -/
def macBytes (m : Mac) : Bytes := [m.b0, m.b1, m.b2, m.b3, m.b4, m.b5]

/-- First negotiation stage. -/
def macDatagram (sequence : UInt8) (m : Mac) : Bytes :=
  ownDatagram 0x00 0x2c ([sequence, 4] ++ macBytes m)

/-- Second negotiation stage, for one of the six device codes. -/
def ipDatagram (sequence code : UInt8) (ip : UInt32) (m : Mac) : Bytes :=
  ownDatagram 0x02 0x32 (be32 ip ++ macBytes m ++ [code, sequence, 4, 1])

/-- Announcement of the application as player 17. -/
def statusDatagram (ip : UInt32) (m : Mac) (mode : UInt8) : Bytes :=
  ownDatagram 0x06 0x36 ([17, 1] ++ macBytes m ++ be32 ip ++ [1, 1, 0, 0, mode, 8])

/-- What matters of a status packet. -/
structure Announcement where
  model : Str
  number : UInt8
  ip : UInt32
deriving DecidableEq, Repr

/-- A datagram that is a status packet, read by byte positions: signature, kind 6 at offset 10, a
name of 20 bytes at 12, device type 1 to 3 at 33, player number at 36, address at 44, at least 54
bytes. -/
def IsAnnouncement (d : Bytes) (a : Announcement) : Prop :=
  54 ≤ d.length ∧ d.take 10 = signature ∧ d[10]? = some 6 ∧
  (∃ whole, fromUtf8 ((d.drop 12).take 20) = some whole ∧ NulPadded whole a.model) ∧
  (∃ t, d[33]? = some t ∧ (t = 1 ∨ t = 2 ∨ t = 3)) ∧
  d[36]? = some a.number ∧ (d.drop 44).take 4 = be32 a.ip

end PDJ.Spec

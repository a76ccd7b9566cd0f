import Verif.Model.Status
import Verif.Spec.Keepalive

/-!
# Specification: status packets

Only data types are taken from the model.
-/

namespace PDJ.Spec

/-- The header of a status packet, read by byte positions: signature, kind at offset 10, a name of 20
bytes at 11, a byte that is echoed at 32, at least 34 bytes. -/
def StatusHeader (d : Bytes) (kind echo : UInt8) : Prop :=
  34 ≤ d.length ∧ d.take 10 = signature ∧ d[10]? = some kind ∧
  (∃ s, fromUtf8 ((d.drop 11).take 20) = some s) ∧ d[32]? = some echo

/-- The header of a packet of the application: name `Linux`, player 17. -/
def ownHeader (kind echo : UInt8) : Bytes :=
  signature ++ [kind] ++
  [0x4c, 0x69, 0x6e, 0x75, 0x78, 0, 0, 0, 0, 0, 0, 0, 0, 0, 0, 0, 0, 0, 0, 0] ++ [0x01, echo, 0x11]

/-- `Term DJ` in UTF-16BE. -/
def termDjBytes : Bytes :=
  [0, 0x54, 0, 0x65, 0, 0x72, 0, 0x6d, 0, 0x20, 0, 0x44, 0, 0x4a]

/-- The reply to a hello. -/
def helloReply : Bytes :=
  ownHeader 0x11 1 ++ [0x01, 0x04, 0x11, 0x01, 0x00, 0x00] ++ termDjBytes ++ List.replicate 242 0

/-- The reply to a link query: player 17, slot 4, name `Term DJ` in 64 bytes, date and a further field
empty (24 and 32 bytes), 1051 tracks, 94 playlists, no sizes. -/
def queryReply (echo : UInt8) : Bytes :=
  ownHeader 0x06 echo ++ [0, 156, 0, 0, 0, 17, 0, 0, 0, 4] ++
  (termDjBytes ++ List.replicate 50 0) ++ List.replicate 24 0 ++ List.replicate 32 0 ++
  [0, 0, 0x04, 0x1b] ++ [0, 0] ++ [1, 1] ++ [0, 0, 0, 94] ++ List.replicate 16 0

/-- The kinds of packets that are decoded. -/
def implementedKinds : List UInt8 := [0x05, 0x06, 0x0a, 0x10, 0x29]

/-- A datagram on which the status server stops. -/
def Stops (d : Bytes) : Prop := ∃ kind echo, StatusHeader d kind echo ∧ kind ∉ implementedKinds

/-- The answers to what comes from the socket. -/
inductive Answers : StatusRecv → List (Bytes × UInt32 × UInt16) → Prop
  | hello (d : Bytes) (sender : UInt32) (echo : UInt8) (h : StatusHeader d 0x10 echo) :
      Answers (.datagram d sender) [(helloReply, sender, 50002)]
  | query (d : Bytes) (sender : UInt32) (echo : UInt8) (h : StatusHeader d 0x05 echo)
      (hl : 48 ≤ d.length) : Answers (.datagram d sender) [(queryReply echo, sender, 50002)]
  | error : Answers .ioError []
  | silent (d : Bytes) (sender : UInt32) (hh : ∀ echo, ¬ StatusHeader d 0x10 echo)
      (hq : ∀ echo, StatusHeader d 0x05 echo → d.length < 48) : Answers (.datagram d sender) []

/-- The answers to a whole history, in order. -/
inductive AnswersAll : List StatusRecv → List (Bytes × UInt32 × UInt16) → Prop
  | nil : AnswersAll [] []
  | cons {x xs a as} (h : Answers x a) (hs : AnswersAll xs as) : AnswersAll (x :: xs) (a ++ as)

/-- Canonical form of a kind: codes with a name are not `unknown`. -/
def CanonicalStatusKind : StatusKind → Prop
  | .unknown v => v ∉ [0x0a, 0x29, 0x19, 0x1a, 0x05, 0x06, 0x10, 0x11]
  | _ => True

/-- Canonical form of a slot. -/
def CanonicalSlot : PlayerSlot → Prop
  | .unknown v => v ∉ [0, 1, 2, 3, 4]
  | _ => True

end PDJ.Spec

import Verif.Spec.DbWire

/-!
# Specification: how a player writes a request

The inverse of the reader in `Spec/DbWire.lean`, again written from the protocol.
-/

namespace PDJ.Spec

/-- Write one field. -/
def writeVal : Val → Bytes
  | .u8 v => [0x0f, v]
  | .u16 v => 0x10 :: be16 v
  | .u32 v => 0x11 :: be32 v
  | .text s => 0x26 :: be32 (UInt32.ofNat ((utf16 s).length + 1)) ++ utf16be s ++ [0, 0]
  | .blob b => 0x14 :: be32 (UInt32.ofNat b.length) ++ b

/-- Write a message: magic, transaction id, type, argument count, twelve tags, arguments. -/
def writeMsg (m : Msg) : Bytes :=
  writeVal (.u32 0x872349ae) ++ writeVal (.u32 m.tx) ++ writeVal (.u16 m.type) ++
    writeVal (.u8 (UInt8.ofNat m.args.length)) ++
    writeVal (.blob (m.args.map tagOf ++ List.replicate (12 - m.args.length) 0)) ++
    m.args.flatMap writeVal

/-- A request a player can send: at most twelve arguments, numbers and texts whose bytes can be counted in 32
bits. -/
def Sendable (m : Msg) : Prop :=
  m.args.length ≤ 12 ∧
  ∀ v ∈ m.args, match v with
    | .text s => (utf16 s).length < 2147483648
    | .blob _ => False
    | _ => True

end PDJ.Spec

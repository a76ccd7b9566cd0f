import Verif.Spec.Numbers
import Verif.Spec.Rpc

/-!
# Specification: which datagrams are calls

By byte offsets, independently of the decoder.
-/

namespace PDJ.Spec

/-- The 32-bit number at a byte offset. -/
def wordAt (i : Nat) (d : Bytes) : Nat := digits ((d.drop i).take 4)

/-- The bytes after the call header begin with the arguments of a procedure.  A length word that is
odd counts as the even number below; after the path of MNT two more bytes are wanted; GETPORT must
ask for a known program over UDP; whatever follows is irrelevant. -/
def Carries : Proc → Bytes → Prop
  | .pmapGetport prog vers port, a =>
    (prog = 100000 ∨ prog = 100003 ∨ prog = 100005) ∧
      ∃ rest, a = be32 prog ++ be32 vers ++ be32 17 ++ be32 port ++ rest
  | .nfsGetattr fh, a => fh.length = 32 ∧ ∃ rest, a = fh ++ rest
  | .nfsLookup fh name, a => fh.length = 32 ∧
      ∃ n rest, a = fh ++ be32 n ++ utf16le name ++ rest ∧ n.toNat / 2 = (utf16 name).length
  | .nfsRead fh o c t, a => fh.length = 32 ∧ ∃ rest, a = fh ++ be32 o ++ be32 c ++ be32 t ++ rest
  | .mntMnt path, a =>
      ∃ n rest, a = be32 n ++ utf16le path ++ rest ∧ n.toNat / 2 = (utf16 path).length ∧
        2 ≤ rest.length
  | _, _ => True

/-- A datagram that calls a procedure under a transaction id: message type CALL at offset 4, program
at 12, procedure at 20, seven words of credentials from 24 on that may hold anything, the verifier
flavour (AUTH_NULL or AUTH_UNIX) at 52 with any length word, and the arguments from 60 on.  The RPC
version at 8 and the program version at 16 may be anything. -/
structure IsCall (d : Bytes) (xid : UInt32) (p : Proc) : Prop where
  header : 60 ≤ d.length
  xid_ : wordAt 0 d = xid.toNat
  call : wordAt 4 d = 0
  prog : wordAt 12 d = p.prog.toNat
  proc : wordAt 20 d = p.num.toNat
  verifier : wordAt 52 d ≤ 1
  args : Carries p (d.drop 60)

end PDJ.Spec

import Verif.Base.Bytes
import Verif.Base.Unicode

/-!
# Specification: ONC-RPC, XDR and the NFS version 2 formats

Written from RFC 1014 (XDR), RFC 1057 (RPC) and RFC 1094 (NFS, MOUNT), independently of the model.
The players send path names as UTF-16LE opaque data.
-/

namespace PDJ.Spec

/-- XDR fill: zero bytes up to the next multiple of four. -/
def xdrPad (n : Nat) : Bytes := List.replicate ((4 - n % 4) % 4) 0

/-- XDR variable-length opaque data. -/
def xdrOpaque (b : Bytes) : Bytes := be32 (UInt32.ofNat b.length) ++ b ++ xdrPad b.length

/-- RFC 1057 `opaque_auth`: flavour and opaque body. -/
def opaqueAuth (flavor : UInt32) (body : Bytes) : Bytes := be32 flavor ++ xdrOpaque body

/-- RFC 1057 section 9.2: body of an AUTH_UNIX credential. -/
def authUnixBody (stamp : UInt32) (machine : Bytes) (uid gid : UInt32) (gids : List UInt32) :
    Bytes :=
  be32 stamp ++ xdrOpaque machine ++ be32 uid ++ be32 gid ++
    (be32 (UInt32.ofNat gids.length) ++ gids.flatMap be32)

/-- RFC 1057 section 8: a call message. -/
def rfcCall (xid rpcvers prog vers proc : UInt32) (cred verf args : Bytes) : Bytes :=
  be32 xid ++ be32 0 ++ be32 rpcvers ++ be32 prog ++ be32 vers ++ be32 proc ++ cred ++ verf ++ args

/-- RFC 1057 section 8: an accepted, successful reply with AUTH_NULL verifier: message type REPLY
(1), reply_stat MSG_ACCEPTED (0), verifier, accept_stat SUCCESS (0), results. -/
def rfcReply (xid : UInt32) (results : Bytes) : Bytes :=
  be32 xid ++ be32 1 ++ be32 0 ++ opaqueAuth 0 [] ++ be32 0 ++ results

/-- The procedures the application implements, with their arguments. -/
inductive Proc
  /-- portmapper 0, 1, 2, 4 and 5; the arguments (if any) are irrelevant to the application -/
  | pmapNull
  | pmapSet
  | pmapUnset
  | pmapDump
  | pmapCallit
  /-- portmapper 3: program, version, protocol UDP (17), port -/
  | pmapGetport (prog vers port : UInt32)
  | nfsGetattr (fh : Bytes)
  | nfsLookup (fh : Bytes) (name : Str)
  | nfsRead (fh : Bytes) (offset count total : UInt32)
  | mntMnt (path : Str)
  | mntExport
deriving DecidableEq, Repr

/-- Program number. -/
def Proc.prog : Proc → UInt32
  | .nfsGetattr .. | .nfsLookup .. | .nfsRead .. => 100003
  | .mntMnt .. | .mntExport => 100005
  | _ => 100000

/-- Procedure number. -/
def Proc.num : Proc → UInt32
  | .pmapNull => 0
  | .pmapSet => 1
  | .pmapUnset => 2
  | .pmapGetport .. => 3
  | .pmapDump => 4
  | .pmapCallit => 5
  | .nfsGetattr .. => 1
  | .nfsLookup .. => 4
  | .nfsRead .. => 6
  | .mntMnt .. => 1
  | .mntExport => 5

/-- XDR encoding of the arguments. -/
def Proc.args : Proc → Bytes
  | .pmapGetport prog vers port => be32 prog ++ be32 vers ++ be32 17 ++ be32 port
  | .nfsGetattr fh => fh
  | .nfsLookup fh name => fh ++ xdrOpaque (utf16le name)
  | .nfsRead fh offset count total => fh ++ be32 offset ++ be32 count ++ be32 total
  | .mntMnt path => xdrOpaque (utf16le path)
  | _ => []

/-! ## Reading XDR results -/

/-- Read a word. -/
def getWord : Bytes → Option (UInt32 × Bytes)
  | a :: b :: c :: d :: r => some (ofBe32 a b c d, r)
  | _ => none

/-- A datagram that is an RPC reply: second word 1. -/
def IsReply (d : Bytes) : Prop := 8 ≤ d.length ∧ getWord (d.drop 4) = some (1, d.drop 8)

/-- Read variable-length opaque data with its fill. -/
def getOpaque (i : Bytes) : Option (Bytes × Bytes) :=
  match getWord i with
  | none => none
  | some (n, r) =>
    if r.length < n.toNat + (4 - n.toNat % 4) % 4 then none
    else some (r.take n.toNat, r.drop (n.toNat + (4 - n.toNat % 4) % 4))

/-- RFC 1094 `groups`: a linked list of names.  `fuel` bounds the number of nodes. -/
def getGroups : Nat → Bytes → Option (List Bytes × Bytes)
  | 0, _ => none
  | fuel + 1, i =>
    match getWord i with
    | none => none
    | some (w, r) =>
      if w = 0 then some ([], r)
      else if w = 1 then
        match getOpaque r with
        | none => none
        | some (g, r) => (getGroups fuel r).map (fun x => (g :: x.1, x.2))
      else none

/-- RFC 1094 `exports`: a linked list of directories with their groups. -/
def getExports : Nat → Bytes → Option (List (Bytes × List Bytes) × Bytes)
  | 0, _ => none
  | fuel + 1, i =>
    match getWord i with
    | none => none
    | some (w, r) =>
      if w = 0 then some ([], r)
      else if w = 1 then
        match getOpaque r with
        | none => none
        | some (d, r) =>
          match getGroups fuel r with
          | none => none
          | some (gs, r) => (getExports fuel r).map (fun x => ((d, gs) :: x.1, x.2))
      else none

/-- An accepted, successful reply as a client reads it: xid and results. -/
def readRpcReply (i : Bytes) : Option (UInt32 × Bytes) :=
  match getWord i with
  | none => none
  | some (xid, r) =>
  match getWord r with
  | none => none
  | some (mtype, r) =>
  match getWord r with
  | none => none
  | some (stat, r) =>
  match getWord r with
  | none => none
  | some (_, r) =>
  match getOpaque r with
  | none => none
  | some (_, r) =>
  match getWord r with
  | none => none
  | some (accept, r) =>
    if mtype = 1 ∧ stat = 0 ∧ accept = 0 then some (xid, r) else none

end PDJ.Spec

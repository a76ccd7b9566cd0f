import Verif.Spec.Rpc
import Verif.Model.Nfs

/-!
# Specification: NFS requests, path walks and files

Only the interface to the operating system (`World`, `Meta`) and the event type are taken from the
model.
-/

namespace PDJ.Spec

/-- Header values of a player's RPC call. -/
structure Hdr where
  xid : UInt32
  rpcvers : UInt32
  vers : UInt32
  stamp : UInt32
  uid : UInt32
  gid : UInt32

/-- The datagram of an RPC call as the players encode it: AUTH_UNIX credentials with empty machine
name and no auxiliary gids, AUTH_NULL verifier. -/
def callDatagram (h : Hdr) (p : Proc) : Bytes :=
  rfcCall h.xid h.rpcvers p.prog h.vers p.num
    (opaqueAuth 1 (authUnixBody h.stamp [] h.uid h.gid [])) (opaqueAuth 0 []) p.args

/-- One component of a path. -/
def Component (n : Str) : Prop := n ≠ [] ∧ '/' ∉ n ∧ (utf16le n).length < 4294967296

/-- Metadata with all three time stamps, birth time included. -/
def Dated (m : Meta) : Prop := m.accessed ≠ none ∧ m.modified ≠ none ∧ m.created ≠ none

/-- A LOOKUP request of one name, with the environment in which it is handled. -/
structure LookupReq (F : Type) where
  world : World F
  hdr : Hdr
  peer : Addr
  fh : Bytes
  name : Str

/-- The request as an event at the NFS socket; the OS accepts every datagram for sending. -/
def LookupReq.event {F : Type} (r : LookupReq F) : NfsEvent F :=
  ⟨r.world, fun _ _ _ => true, .datagram (callDatagram r.hdr (.nfsLookup r.fh r.name)) r.peer⟩

/-- `Walk p rs m f`: looking up the names of `rs` one after the other below the path `p` passes
through directories and ends at the regular file `f` with metadata `m`.  The root is the empty
path. -/
inductive Walk {F : Type} : Str → List (LookupReq F) → Meta → F → Prop
  | last {p : Str} {r : LookupReq F} {m : Meta} {f : F}
      (hn : Component r.name) (hh : r.fh.length = 32)
      (hs : r.world.stat (p ++ '/' :: r.name) = some m) (hf : m.isFile = true) (hd : Dated m)
      (ho : r.world.openFile (p ++ '/' :: r.name) = some f) : Walk p [r] m f
  | dir {p : Str} {r : LookupReq F} {rs : List (LookupReq F)} {d : Meta} {g : F} {m : Meta} {f : F}
      (hn : Component r.name) (hh : r.fh.length = 32)
      (hs : r.world.stat (p ++ '/' :: r.name) = some d) (hf : d.isFile = false) (hd : Dated d)
      (ho : r.world.openFile (p ++ '/' :: r.name) = some g)
      (hw : Walk (p ++ '/' :: r.name) rs m f) : Walk p (r :: rs) m f

/-- RFC 1094 attributes of a file: the words of `fattr`.  The mode is constant, fsid and fileid
are zero, 64-bit values are cut to 32 bits, times are whole seconds modulo 2^32. -/
def secondsOf (t : Option SysTime) : UInt32 :=
  match t with
  | some t => if 0 ≤ t.secs then UInt32.ofNat t.secs.toNat else 0
  | none => 0

/-- The attribute words of a file. -/
def fattr (m : Meta) : List UInt32 :=
  [if m.isDir then 2 else 1, 20760, UInt32.ofNat m.nlink.toNat, m.uid, m.gid,
   UInt32.ofNat m.size.toNat, UInt32.ofNat m.blksize.toNat, UInt32.ofNat m.rdev.toNat,
   UInt32.ofNat m.blocks.toNat, 0, 0, secondsOf m.accessed, 0, secondsOf m.modified, 0,
   secondsOf m.created, 0]

/-- The 32-byte handle of an inode: eight bytes little-endian, then zeroes. -/
def handleOf (ino : UInt64) : Bytes := (be64 ino).reverse ++ List.replicate 24 0

/-- A successful LOOKUP reply (RFC 1094 `diropres`). -/
def lookupReply (xid : UInt32) (m : Meta) : Bytes :=
  rfcReply xid (be32 0 ++ handleOf m.ino ++ (fattr m).flatMap be32)

/-- A successful GETATTR reply (RFC 1094 `attrstat`). -/
def getattrReply (xid : UInt32) (m : Meta) : Bytes :=
  rfcReply xid (be32 0 ++ (fattr m).flatMap be32)

/-- A successful READ reply (RFC 1094 `readres`). -/
def readReplyOf (xid : UInt32) (m : Meta) (data : Bytes) : Bytes :=
  rfcReply xid (be32 0 ++ (fattr m).flatMap be32 ++ xdrOpaque data)

/-- The OS reads files faithfully: what `pread` returns is the wanted part of the contents. -/
def FullReads {F : Type} (w : World F) (content : F → Bytes) : Prop :=
  ∀ f o n, w.pread f o n = some (((content f).drop o).take n)

/-- The path a name stands for in a directory: an absolute name stands for itself, any other is
separated from the directory by exactly the slash that is there already or one more. -/
inductive Resolves : (dir name path : Str) → Prop
  | absolute (dir name : Str) : Resolves dir ('/' :: name) ('/' :: name)
  | below (dir name : Str) (h : name.head? ≠ some '/') :
      Resolves (dir ++ ['/']) name (dir ++ '/' :: name)
  | inside (dir : Str) (c : Char) (name : Str) (hc : c ≠ '/') (h : name.head? ≠ some '/') :
      Resolves (dir ++ [c]) name (dir ++ c :: '/' :: name)

end PDJ.Spec

import Verif.Spec.Calls
import Verif.Spec.Nfs

/-!
# Specification: what the file service may send

Every datagram sent must be accounted for by what was asked and what the operating system said.
-/

namespace PDJ.Spec

variable {F : Type}

/-- A LOOKUP of that name is among the events. -/
def LookedUp (evs : List (NfsEvent F)) (name : Str) : Prop :=
  ∃ ev ∈ evs, ∃ d peer xid fh, ev.recv = .datagram d peer ∧ IsCall d xid (.nfsLookup fh name)

/-- The paths made of names looked up, from the root on. -/
inductive Named (evs : List (NfsEvent F)) : Str → Prop
  | root : Named evs ['/']
  | name {dir name path : Str} (hd : Named evs dir) (hl : LookedUp evs name)
      (hr : Resolves dir name path) : Named evs path

/-- The 32-byte handles that mean an inode: eight digits, least significant first, the rest of no
meaning. -/
def HandleFor (fh : Bytes) (i : UInt64) : Prop :=
  fh.length = 32 ∧ digits (fh.take 8).reverse = i.toNat

/-- By one of these events the OS opened the file as a regular file, at a path made of names looked up
so far, with the inode the handle means. -/
def Opened (evs : List (NfsEvent F)) (fh : Bytes) (f : F) : Prop :=
  ∃ before ev after path m, evs = before ++ ev :: after ∧ Named (before ++ [ev]) path ∧
    ev.world.stat path = some m ∧ m.isFile = true ∧ HandleFor fh m.ino ∧
    ev.world.openFile path = some f

/-- What may be answered to a datagram after the events `before`. -/
inductive MayAnswer (before : List (NfsEvent F)) (ev : NfsEvent F) (d : Bytes) : Bytes → Prop
  | lookup {xid fh name path m f} (hc : IsCall d xid (.nfsLookup fh name))
      (hp : Named (before ++ [ev]) path) (hs : ev.world.stat path = some m)
      (ho : ev.world.openFile path = some f) : MayAnswer before ev d (lookupReply xid m)
  | getattr {xid fh f m} (hc : IsCall d xid (.nfsGetattr fh)) (ho : Opened before fh f)
      (hm : ev.world.fstat f = some m) : MayAnswer before ev d (getattrReply xid m)
  | read {xid fh o c t f m b} (hc : IsCall d xid (.nfsRead fh o c t)) (ho : Opened before fh f)
      (hb : ev.world.pread f o.toNat c.toNat = some b) (hm : ev.world.fstat f = some m) :
      MayAnswer before ev d
        (readReplyOf xid m (b.take c.toNat ++ List.replicate (c.toNat - b.length) 0))

/-- The datagrams are answers to some of the events, one each, in their order, and each goes to who sent
the datagram answered. -/
inductive Accounted : List (NfsEvent F) → List (NfsEvent F) → List (Bytes × Addr) → Prop
  | nil {before} : Accounted before [] []
  | unanswered {before ev evs xs} (h : Accounted (before ++ [ev]) evs xs) : Accounted before (ev :: evs) xs
  | answered {before ev evs xs d b peer} (hr : ev.recv = .datagram d peer) (ha : MayAnswer before ev d b)
      (h : Accounted (before ++ [ev]) evs xs) : Accounted before (ev :: evs) ((b, peer) :: xs)

end PDJ.Spec

import Verif.Spec.Calls
import Verif.Spec.Nfs

/-!
# Specification: the files an NFS handler has open
-/

namespace PDJ.Spec

variable {F : Type}

/-- These are the inodes of the files the handler has open, each once. -/
def HasOpen (t : NfsTask F) (l : List UInt64) : Prop :=
  l.Nodup ∧ match t with
    | .dead => l = []
    | .running s _ => ∀ i, i ∈ l ↔ s.handlers i ≠ none

/-- The OS lets the handler have at most `limit` files open: it opens nothing when that many are. -/
def Limited (e : Endian) (limit : Nat) : NfsTask F → List (NfsEvent F) → Prop
  | _, [] => True
  | t, ev :: evs =>
    (∀ l, HasOpen t l → limit ≤ l.length → ∀ p, ev.world.openFile p = none) ∧
    Limited e limit (nfsStep e ev.world ev.os ev.recv t).2 evs

/-- The same file system when nothing more can be opened. -/
def exhausted (w : World F) : World F := { w with openFile := fun _ => none }

/-- A LOOKUP call among these events was answered with the handle and the attributes of something that has
the inode `i` and is not a directory. -/
def AnsweredFile (e : Endian) (evs : List (NfsEvent F)) (i : UInt64) : Prop :=
  ∃ before ev after d peer xid fh name m, evs = before ++ ev :: after ∧ ev.recv = .datagram d peer ∧
    IsCall d xid (.nfsLookup fh name) ∧ m.ino = i ∧ m.isDir = false ∧
    (nfsStep e ev.world ev.os ev.recv (nfsRun e .start before).2).1 = [(lookupReply xid m, peer)]

/-- Everything in the file system is either a regular file or a directory. -/
def FilesAndDirs (w : World F) : Prop := ∀ p m, w.stat p = some m → (m.isFile = true ↔ m.isDir = false)

end PDJ.Spec

import Verif.Model.Memory
import Verif.Spec.RpcServer
import Verif.Spec.Volume

/-!
# Specification: calls and the memory they ask for
-/

namespace PDJ.Spec

variable {F : Type}

/-- At the port listens an NFS handler at which a file with that inode number has been looked up. -/
def FileKnown (s : System F) (p : UInt16) (ino : UInt64) : Prop :=
  ∃ st pending f, listener p s.services.rpc.tasks = some (.nfs (.running st pending)) ∧
    st.handlers ino = some f

/-- The event is the arrival of a READ call at a port: for a handle that starts with the bytes of an inode number,
and for that many bytes. -/
def ReadArrives (x : SysAction F) (p : UInt16) (ino : UInt64) (count : Nat) : Prop :=
  ∃ ev d peer xid fh o c t, x = .port p ev ∧ ev.recv = .datagram d peer ∧ IsCall d xid (.nfsRead fh o c t) ∧
    fh.take 8 = le64 ino ∧ count = c.toNat

/-- The datagram arrives at an RPC service: at the portmapper while it runs, or at a port where a handler listens. -/
def ReachesRpc (s : System F) (x : SysAction F) (d : Bytes) : Prop :=
  (∃ os bound peer, x = .portmap os bound (.datagram d peer) ∧ s.services.rpc.portmap = true) ∨
    ∃ p ev peer, x = .port p ev ∧ ev.recv = .datagram d peer ∧ listener p s.services.rpc.tasks ≠ none

/-- By byte offsets: the datagram begins like a MNT or LOOKUP call up to the length of its text, and that is `n`.
The text itself need not follow. -/
def AnnouncesText (d : Bytes) (n : Nat) : Prop :=
  wordAt 4 d = 0 ∧ wordAt 52 d ≤ 1 ∧
    ((wordAt 12 d = 100005 ∧ wordAt 20 d = 1 ∧ 64 ≤ d.length ∧ n = wordAt 60 d) ∨
      (wordAt 12 d = 100003 ∧ wordAt 20 d = 4 ∧ 96 ≤ d.length ∧ n = wordAt 92 d))

/-- The number of bytes a datagram asks for, wherever it arrives: the length of the text of MNT and LOOKUP, and what
READ is to read; 0 for every other datagram. -/
def wantedBytes (d : Bytes) : Nat :=
  if wordAt 12 d = 100005 ∧ wordAt 20 d = 1 then wordAt 60 d
  else if wordAt 12 d = 100003 ∧ wordAt 20 d = 4 then wordAt 92 d
  else askedBytes d

end PDJ.Spec

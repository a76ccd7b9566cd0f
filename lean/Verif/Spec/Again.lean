import Verif.Spec.Nfs

/-!
# Specification: calls that are sent again

RPC runs over UDP: a player that gets no answer sends its call again, and the network may lose, repeat
and exchange the datagrams in both directions.  Only the interface to the operating system and the event
type are taken from the model.
-/

namespace PDJ.Spec

variable {F : Type}

/-- The file `f` with inode `i` and contents `data` is left alone: no other regular file is found under
its inode, and what the OS reads of it is the wanted part of its contents.  (Reading may fail.) -/
def LeftAlone (w : World F) (i : UInt64) (f : F) (data : Bytes) : Prop :=
  (∀ p m g, w.stat p = some m → m.isFile = true → m.ino = i → w.openFile p = some g → g = f) ∧
    ∀ o n b, w.pread f o n = some b → b = (data.drop o).take n

/-- The READ call for the `j`-th block of `k` bytes of a file of `len` bytes.  Each block has a
transaction id of its own, by which the player knows the answer. -/
def blockCall (h : Hdr) (i : UInt64) (len k j : Nat) : Bytes :=
  callDatagram { h with xid := h.xid + UInt32.ofNat j }
    (.nfsRead (handleOf i) (UInt32.ofNat (j * k)) (UInt32.ofNat (min k (len - j * k))) 0)

/-- The number of blocks of `k` bytes of a file of `len` bytes. -/
def blocks (len k : Nat) : Nat := (len + k - 1) / k

/-- The transaction id of an answer. -/
def xidOf (reply : Bytes) : Option UInt32 := (readRpcReply reply).map (·.1)

/-- The data of the answer to a READ call: after the status and the attributes. -/
def dataOf (reply : Bytes) : Option Bytes :=
  (readRpcReply reply).bind fun r => (getOpaque (r.2.drop 72)).map (·.1)

/-- What the player takes for the `j`-th block: the data of the first answer under its transaction id. -/
def blockFrom (h : Hdr) (got : List Bytes) (j : Nat) : Option Bytes :=
  got.findSome? fun b => if xidOf b = some (h.xid + UInt32.ofNat j) then dataOf b else none

/-- The file as the player puts it together from the answers it has got. -/
def assembled (h : Hdr) (n : Nat) (got : List Bytes) : Option Bytes :=
  ((List.range n).mapM (blockFrom h got)).map List.flatten

end PDJ.Spec

import Verif.Spec.Files
import Verif.Spec.System
import Verif.Spec.Calls

/-!
# Specification: the sockets and files the process holds

An operating system lets a process have a fixed number of sockets and files.  Counted here are those
the process takes for its clients: the sockets of the RPC handlers, the files of the NFS handlers, the
listeners and connections of the library handlers, and the connections at the library's well-known port.  `limit` is what the OS leaves for them.
-/

namespace PDJ.Spec

variable {F : Type}

/-- The sockets and files of RPC handlers: a socket for each that runs, and the files it has open. -/
inductive RpcUses : List (UInt16 × RpcTask F) → Nat → Prop
  | nil : RpcUses [] 0
  | nfs {port s p l ts n} (h : HasOpen (.running s p) l) (ht : RpcUses ts n) :
      RpcUses ((port, .nfs (.running s p)) :: ts) (n + 1 + l.length)
  | program {port ts n} (ht : RpcUses ts n) : RpcUses ((port, .program true) :: ts) (n + 1)
  | ended {port t ts n} (h : t.live = false) (ht : RpcUses ts n) : RpcUses ((port, t) :: ts) n

/-- The sockets of library handlers: the listener as long as the handler exists, and the connection. -/
def libUses : List Handler → Nat
  | [] => 0
  | h :: hs => (match h.phase with | .listening => 1 | .serving _ => 2 | .finished => 0) + libUses hs

/-- The connections at the library's well-known port: those accepted and not closed, except those whose task
has panicked. -/
def mainUses (s : System F) : Nat := (s.mains.filter fun c => decide (c ∉ s.lib.deadMains)).length

/-- The process holds this many sockets and files for its clients. -/
def Uses (s : System F) (n : Nat) : Prop :=
  ∃ k, RpcUses s.services.rpc.tasks k ∧ n = k + libUses s.lib.handlers + mainUses s

/-- The action finds that the OS gives no socket and no file.  (No connection is accepted then.) -/
def Refused : SysAction F → Prop
  | .app (.broadcast ok) => ok = false
  | .app (.appLink oks) => oks.head? = some false
  | .app _ => True
  | .portmap _ bound _ => bound = none
  | .port _ ev => ∀ p, ev.world.openFile p = none
  | .accept _ => False
  | .main _ bound => bound = none
  | .hangup _ => True
  | .handler _ .connect => False
  | .handler _ _ => True
  | .status _ => True

/-- The action finds that the OS gives the sockets it needs. -/
def Supplied : SysAction F → Prop
  | .app (.broadcast ok) => ok = true
  | .app (.appLink oks) => ∀ b ∈ oks, b = true
  | .portmap _ bound _ => bound ≠ none
  | _ => True

/-- In this history the OS gives no more than `limit`. -/
def LimitedSys (e : Endian) (m : Mode) (db : Db) (limit : Nat) : System F → List (SysAction F) → Prop
  | _, [] => True
  | s, x :: xs => (∀ n, Uses s n → limit ≤ n → Refused x) ∧ LimitedSys e m db limit (sysStep e m db s x).2 xs

/-- In this history the OS gives whatever is needed up to `limit`. -/
def Generous (e : Endian) (m : Mode) (db : Db) (limit : Nat) : System F → List (SysAction F) → Prop
  | _, [] => True
  | s, x :: xs => (∀ n, Uses s n → n < limit → Supplied x) ∧ Generous e m db limit (sysStep e m db s x).2 xs

/-- What a client does that makes the process take a socket or a file: a GETPORT call at the portmapper, a
LOOKUP call at an RPC handler, a connection to the library's well-known port or a chunk on one, a connection
to a library handler. -/
inductive Asking : SysAction F → Prop
  | getport {os bound d peer xid prog vers port} (h : IsCall d xid (.pmapGetport prog vers port)) :
      Asking (.portmap os bound (.datagram d peer))
  | lookup {p ev d peer xid fh name} (hev : ev.recv = .datagram d peer)
      (h : IsCall d xid (.nfsLookup fh name)) : Asking (.port p ev)
  | accept {c} : Asking (.accept c)
  | chunk {c bound} : Asking (.main c bound)
  | connect {h} : Asking (.handler h .connect)

/-- How often that happens in a history. -/
inductive AskedFor : List (SysAction F) → Nat → Prop
  | nil : AskedFor [] 0
  | ask {x xs n} (h : Asking x) (hx : AskedFor xs n) : AskedFor (x :: xs) (n + 1)
  | other {x xs n} (h : ¬ Asking x) (hx : AskedFor xs n) : AskedFor (x :: xs) n

/-- A GETPORT call: the datagram, where it comes from, what it asks for, and the port the OS binds for it. -/
structure GetportCall where
  data : Bytes
  peer : Addr
  xid : UInt32
  program : UInt32
  version : UInt32
  port : UInt32
  bound : UInt16

/-- Its datagram is what it should be. -/
def GetportCall.Good (g : GetportCall) : Prop := IsCall g.data g.xid (.pmapGetport g.program g.version g.port)

/-- The portmapper receives it. -/
def GetportCall.action (g : GetportCall) : SysAction F :=
  .portmap (fun _ _ => true) (some g.bound) (.datagram g.data g.peer)

/-- The portmapper answers it. -/
def GetportCall.answer (g : GetportCall) : SysOut := .rpc (none, rfcReply g.xid (portWord g.bound), g.peer)

end PDJ.Spec

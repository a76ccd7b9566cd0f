import Verif.Spec.System

/-!
# Specification: questions and answers at the sockets of the process

Only the action and output types are taken from the model.
-/

namespace PDJ.Spec

variable {F : Type}

/-- The sockets of the process: the portmapper's, those of the RPC handlers, the connections to the
library's well-known port, the library handlers, and the status server's. -/
inductive Sock
  | portmap
  | rpc (port : UInt16)
  | main (conn : Nat)
  | lib (handler : Nat)
  | status
deriving DecidableEq

/-- Who asks and who is answered: by datagrams a transaction id and an address, at the status server a
host and a port, otherwise the other end of the connection. -/
inductive Party
  | peer (xid : Bytes) (addr : Addr)
  | host (ip : UInt32) (port : UInt16)
  | connection
deriving DecidableEq

/-- What is received, and by whom an answer may be expected: datagrams by their first four bytes and
sender, at the status server by port 50002 of the sender. -/
def question : SysAction F → Option (Sock × Party)
  | .portmap _ _ (.datagram d peer) => some (.portmap, .peer (d.take 4) peer)
  | .port p ⟨_, _, .datagram d peer⟩ => some (.rpc p, .peer (d.take 4) peer)
  | .main c _ => some (.main c, .connection)
  | .handler h (.data _ _) => some (.lib h, .connection)
  | .status (.datagram _ sender) => some (.status, .host sender 50002)
  | _ => none

/-- What is sent, except for the broadcasts. -/
def answer : SysOut → Option (Sock × Party)
  | .broadcast _ => none
  | .rpc (none, b, to) => some (.portmap, .peer (b.take 4) to)
  | .rpc (some p, b, to) => some (.rpc p, .peer (b.take 4) to)
  | .lib (.toMain c _) => some (.main c, .connection)
  | .lib (.toHandler h _) => some (.lib h, .connection)
  | .status (_, ip, port) => some (.status, .host ip port)

/-- The questions at a socket, in order. -/
def questionsAt (k : Sock) (xs : List (SysAction F)) : List Party :=
  ((xs.filterMap question).filter fun q => q.1 = k).map (·.2)

/-- The answers from a socket, in order. -/
def answersAt (k : Sock) (out : List SysOut) : List Party :=
  ((out.filterMap answer).filter fun q => q.1 = k).map (·.2)

end PDJ.Spec

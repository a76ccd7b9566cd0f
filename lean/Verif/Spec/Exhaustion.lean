import Verif.Spec.RpcServer
import Verif.Spec.Calls
import Verif.Model.LibServer

/-!
# Specification: the ports the operating system has

An operating system hands out ports of a fixed, finite pool, and none that a socket holds.
-/

namespace PDJ.Spec

variable {F : Type}

/-- In this history of the RPC services, the OS hands out ports of the pool on which nobody listens. -/
def HonestRpc (e : Endian) (pool : List UInt16) : RpcSystem F → List (RpcEvent F) → Prop
  | _, [] => True
  | s, x :: xs =>
    (∀ os port r, x = .portmap os (some port) r → port ∈ pool ∧ listener port s.tasks = none) ∧
    HonestRpc e pool (rpcStep e s x).2 xs

/-- There are at least that many GETPORT calls in the history. -/
inductive Getports : List (RpcEvent F) → Nat → Prop
  | nil : Getports [] 0
  | getport {os bound d peer xid prog vers port xs n} (h : IsCall d xid (.pmapGetport prog vers port))
      (hx : Getports xs n) : Getports (.portmap os bound (.datagram d peer) :: xs) (n + 1)
  | other {x xs n} (hx : Getports xs n) : Getports (x :: xs) n

/-- The handlers that no longer listen. -/
def ended (s : RpcSystem F) : Nat := (s.tasks.filter fun t => !t.2.live).length

/-- The handler of the library holds this port. -/
def Holds (h : Handler) (port : UInt16) : Prop := h.port = port ∧ h.phase ≠ .finished

/-- In this history of the library service, the OS hands out ports of the pool that no handler holds. -/
def HonestLib (m : Mode) (db : Db) (pool : List UInt16) : LibServer → List LibEvent → Prop
  | _, [] => True
  | s, x :: xs =>
    (∀ c port, x = .main c (some port) → port ∈ pool ∧ ∀ h ∈ s.handlers, ¬ Holds h port) ∧
    HonestLib m db pool (libStep m db s x).2 xs

/-- The answers on connections to the well-known port. -/
def portAnswers (o : List LibOut) : Nat :=
  (o.filter fun x => match x with | .toMain _ _ => true | _ => false).length

/-- The handlers of the library whose player has gone. -/
def finishedHandlers (s : LibServer) : Nat :=
  (s.handlers.filter fun h => h.phase = .finished).length

/-- What the OS gives to a socket of the portmapper that asks for a port: one of the pool on which nobody
listens; and none only if there is none. -/
def HandsOut (pool : List UInt16) (s : RpcSystem F) (bound : Option UInt16) : Prop :=
  (∀ port, bound = some port → port ∈ pool ∧ listener port s.tasks = none) ∧
  (bound = none → ∀ port ∈ pool, listener port s.tasks ≠ none)

/-- What the OS gives to a socket of the library that asks for a port: one of the pool that no handler holds;
and none only if there is none. -/
def HandsOutLib (pool : List UInt16) (s : LibServer) (bound : Option UInt16) : Prop :=
  (∀ port, bound = some port → port ∈ pool ∧ ∀ h ∈ s.handlers, ¬ Holds h port) ∧
  (bound = none → ∀ port ∈ pool, ∃ h ∈ s.handlers, Holds h port)

end PDJ.Spec

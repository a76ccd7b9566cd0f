import Verif.Model.System
import Verif.Spec.App
import Verif.Spec.RpcServer
import Verif.Spec.Numbers
import Verif.Spec.Status
import Verif.Spec.Traffic

/-!
# Specification: the process as a whole

Only the action and output types are taken from the model.
-/

namespace PDJ.Spec

variable {F : Type}

/-- The steps of main thread, receiver and broadcaster in a history. -/
def appPart : List (SysAction F) → List AppAction
  | [] => []
  | .app x :: xs => x :: appPart xs
  | _ :: xs => appPart xs

/-- What the status server received in a history. -/
def statusPart : List (SysAction F) → List StatusRecv
  | [] => []
  | .status r :: xs => r :: statusPart xs
  | _ :: xs => statusPart xs

/-- What happened at one library handler in a history. -/
def handlerPart (h : Nat) : List (SysAction F) → List HandlerEvent
  | [] => []
  | .handler k e :: xs => if k = h then e :: handlerPart h xs else handlerPart h xs
  | _ :: xs => handlerPart h xs

/-- What was received at the port of an RPC handler in a history. -/
def portPart (p : UInt16) : List (SysAction F) → List (NfsEvent F)
  | [] => []
  | .port q ev :: xs => if q = p then ev :: portPart p xs else portPart p xs
  | _ :: xs => portPart p xs

/-- What was received at the port of an RPC handler, each with the network the threads of the application know then:
the one in their state, as long as the lock can be taken. -/
def mountPart (p : UInt16) : AppSystem → List (SysAction F) → List (Option PioneerNetwork × NfsEvent F)
  | _, [] => []
  | a, .app x :: xs => mountPart p (appStep a x).2 xs
  | a, .port q ev :: xs =>
    if q = p then (if a.poisoned then none else a.state.address, ev) :: mountPart p a xs else mountPart p a xs
  | a, _ :: xs => mountPart p a xs

/-- The broadcasts among the outputs. -/
def broadcastsOf (o : List SysOut) : List (Bytes × UInt32 × UInt16) :=
  o.filterMap fun x => match x with | .broadcast b => some b | _ => none

/-- The datagrams of the status server among the outputs. -/
def statusOf (o : List SysOut) : List (Bytes × UInt32 × UInt16) :=
  o.filterMap fun x => match x with | .status b => some b | _ => none

/-- The replies of a library handler among the outputs. -/
def handlerOf (h : Nat) (o : List SysOut) : List Bytes :=
  o.filterMap fun x => match x with
    | .lib (.toHandler k b) => if k = h then some b else none
    | _ => none

/-- The datagrams sent from the port of an RPC handler among the outputs. -/
def portOf (p : UInt16) (o : List SysOut) : List (Bytes × Addr) :=
  o.filterMap fun x => match x with
    | .rpc (some q, b) => if q = p then some b else none
    | _ => none

/-- Nothing happens that could end a service: no announcement from outside the local networks, no
status packet of a kind the status server does not implement, no RPC reply at the portmapper, and an
operating system that provides sockets. -/
structure Peaceful (xs : List (SysAction F)) : Prop where
  sockets : SocketsWork (appPart xs)
  local_ : AllLocal (appPart xs)
  portmap : ∀ os bound r, .portmap os bound r ∈ xs → Harmless (F := F) (.portmap os bound r)
  status : ∀ d s, .status (.datagram d s) ∈ xs → ¬ Stops d

/-- The OS does not bind this port again during the history. -/
def NeverRebound (p : UInt16) (xs : List (SysAction F)) : Prop :=
  ∀ os bound r, .portmap os bound r ∈ xs → bound ≠ some p

/-- The number of tracks a link reply announces: the 32-bit number at offset 164. -/
def announcedTracks (b : Bytes) : Nat := digits ((b.drop 164).take 4)

/-- The number of playlists a link reply announces: the 32-bit number at offset 172. -/
def announcedPlaylists (b : Bytes) : Nat := digits ((b.drop 172).take 4)

end PDJ.Spec

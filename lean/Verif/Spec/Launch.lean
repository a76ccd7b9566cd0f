import Verif.Model.Launch
import Verif.Spec.System

/-!
# Specification: start-up step by step
-/

namespace PDJ.Spec

variable {F : Type}

/-- The datagram of an RPC reply, as short as can be, arrives at the portmapper; it does not survive that (C29). -/
def fatalReply : SysAction F := .portmap (fun _ _ => true) none (.datagram [0, 0, 0, 0, 0, 0, 0, 1] ⟨0, 0⟩)

/-- The steps of the main thread, all successful, and the two sockets of the tasks, both free. -/
def launched : List (LaunchAction F) := List.replicate 7 (.begin true) ++ [.portmapBind true, .libraryBind true]

/-- What a process started at once sees of an action: no steps of the start, and a portmapper that gets no socket is
one that is ended by a datagram. -/
def seen : LaunchAction F → List (SysAction F)
  | .act y => [y]
  | .portmapBind false => [fatalReply]
  | _ => []

/-- The connection that is accepted, if this is it. -/
def acceptOf : SysAction F → Option Nat
  | .accept c => some c
  | _ => none

/-- All that happens, except that connections are accepted. -/
def unlessAccepts (ys : List (SysAction F)) : List (SysAction F) := ys.filter fun y => acceptOf y = none

/-- The datagram that announces the application on a network, and where to. -/
def presence (n : PioneerNetwork) : Bytes × UInt32 × UInt16 := toAll n (statusDatagram n.network.addr n.mac 1)

end PDJ.Spec

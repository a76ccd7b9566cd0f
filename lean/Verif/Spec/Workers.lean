import Verif.Model.Workers
import Verif.Spec.System
import Verif.Spec.Calls

/-!
# Specification: waiting and being served

Only the action and output types are taken from the model.
-/

namespace PDJ.Spec

variable {F : Type}

/-- What workers and threads take up in a history, in order; the end of a negotiation is a step of the
main thread. -/
def takenUp : List (PoolAction F) → List (SysAction F)
  | [] => []
  | .take x :: h => x :: takenUp h
  | .thread x :: h => x :: takenUp h
  | .unlock oks :: h => .app (.appLink oks) :: takenUp h
  | _ :: h => takenUp h

/-- Is something received at the port of an RPC handler? -/
def atPort : SysAction F → Bool
  | .port _ _ => true
  | _ => false

/-- Everything but what is received at the ports of RPC handlers. -/
def notAtPorts (xs : List (SysAction F)) : List (SysAction F) := xs.filter fun x => !atPort x

/-- The event is an EXPORT call. -/
def AsksForExports (ev : NfsEvent F) : Prop :=
  ∃ d peer xid, ev.recv = .datagram d peer ∧ IsCall d xid .mntExport

/-- A task, not one of the other threads, deals with the event. -/
def ForTask : SysAction F → Prop
  | .app _ => False
  | .status _ => False
  | _ => True

end PDJ.Spec

import Verif.Model.Pipes
import Verif.Spec.Workers
import Verif.Spec.Nfs

/-!
# Specification: waiting for a pipe
-/

namespace PDJ.Spec

variable {F : Type}

/-- The event is a LOOKUP call whose name, in the given directory, stands for a pipe. -/
def OpensPipe (pipe : Str → Bool) (dir : Str) (ev : NfsEvent F) : Prop :=
  ∃ d peer xid fh name path, ev.recv = .datagram d peer ∧ IsCall d xid (.nfsLookup fh name) ∧
    Resolves dir name path ∧ ev.world.stat path ≠ none ∧ pipe path = true

/-- What workers and threads take up in a history, in order. -/
def pipesTakenUp (h : List (PipesAction F)) : List (SysAction F) :=
  takenUp (h.filterMap fun x => match x with
    | .act _ x => some x
    | .opened _ => none)

end PDJ.Spec

import Verif.Spec.Overlap
import Verif.Spec.RpcServer

/-!
# Specification: a port while steps overlap
-/

namespace PDJ.Spec

variable {F : Type}

/-- The handler started last at a port is one of the NFS service in this state, and no other listens there. -/
def OnlyNfs (p : UInt16) (tasks : List (UInt16 × RpcTask F)) (t : NfsTask F) : Prop :=
  ∃ others, tasks.filter (fun x => x.1 = p) = others ++ [(p, .nfs t)] ∧ listener p others = none

end PDJ.Spec

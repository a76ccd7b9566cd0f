import Verif.Spec.System
import Verif.Spec.Calls

/-!
# Specification: how many bytes the process sends for those it receives

Only the action and output types are taken from the model.
-/

namespace PDJ.Spec

variable {F : Type}

/-- The number of bytes a READ call asks for (the word at offset 96); 0 for every other datagram. -/
def askedBytes (d : Bytes) : Nat :=
  if wordAt 12 d = 100003 ∧ wordAt 20 d = 6 then wordAt 96 d else 0

/-- How many bytes may be sent for what is received: at the portmapper as many, at the handlers twice as many
and what a READ call asks for, at the status server nine times as many. -/
def allowed : SysAction F → Nat
  | .portmap _ _ (.datagram d _) => d.length
  | .port _ ⟨_, _, .datagram d _⟩ => 2 * d.length + askedBytes d
  | .status (.datagram d _) => 9 * d.length
  | _ => 0

/-- The bytes of a datagram sent in answer to another. -/
def datagramBytes : SysOut → Nat
  | .rpc (_, b, _) => b.length
  | .status (b, _, _) => b.length
  | _ => 0

end PDJ.Spec

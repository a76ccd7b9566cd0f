import Verif.Spec.Nfs

/-!
# Specification: which replies reach the network

Only the event type is taken from the model.
-/

namespace PDJ.Spec

variable {F : Type}

/-- The same event with an operating system that accepts every datagram for sending. -/
def accepting (ev : NfsEvent F) : NfsEvent F := { ev with os := fun _ _ _ => true }

/-- The reply a handler still holds back because the operating system refused it. -/
def held : NfsTask F → List (Bytes × Addr)
  | .running _ pending => pending.toList
  | .dead => []

/-- Two handlers in the same state, apart from what they hold back. -/
def SameState : NfsTask F → NfsTask F → Prop
  | .running s _, .running s' _ => s = s'
  | .dead, .dead => True
  | _, _ => False

/-- The datagrams received in a history: the transaction id (the first four bytes) and the sender. -/
def asked : List (NfsEvent F) → List (Bytes × Addr)
  | [] => []
  | ev :: evs =>
    match ev.recv with
    | .datagram d peer => (d.take 4, peer) :: asked evs
    | .ioError => asked evs

/-- Transaction id and receiver of a datagram sent. -/
def answered (o : Bytes × Addr) : Bytes × Addr := (o.1.take 4, o.2)

end PDJ.Spec

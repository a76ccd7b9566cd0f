import Verif.Spec.Timed
import Verif.Spec.Traffic

/-!
# Specification: presence in time

Only data types and the transition functions are taken from the model.
-/

namespace PDJ.Spec

/-- The broadcaster is never late by more than `late` ms: time never passes beyond that while it has slept enough and
the lock is free. -/
def PromptCaster (late : Nat) : Clocked → List TimedAction → Prop
  | _, [] => True
  | s, x :: xs => x.time ≤ max s.castFree s.lockFree + late ∧
    ∀ r, timedStep s x = some r → PromptCaster late r.2 xs

/-- The process announces itself: nothing has failed, and a network is known. -/
structure Announcing (s : AppSystem) : Prop where
  healthy : Healthy s
  broadcaster : s.broadcaster = true
  network : s.state.address ≠ none

/-- No negotiation takes longer than `L` ms: 3950 ms for its sleeps, and what it is late. -/
def Lasting (L : Nat) (xs : List TimedAction) : Prop :=
  ∀ x ∈ xs, 3950 + (x.late.take 39).sum ≤ L

/-- The datagram announces the presence of the application on a network. -/
def IsPresence (d : Nat × Caster × Bytes × UInt32 × UInt16) : Prop :=
  d.2.1 = .broadcaster ∧ ∃ n : PioneerNetwork, d.2.2 = toAll n (statusDatagram n.network.addr n.mac 1)

/-- When the presence was announced. -/
def presenceTimes (o : List (Nat × Caster × Bytes × UInt32 × UInt16)) : List Nat :=
  (o.filter fun d => d.2.1 = .broadcaster).map Prod.fst

end PDJ.Spec

import Verif.Model.Timed
import Verif.Spec.App

/-!
# Specification: time

Only data types and the transition functions are taken from the model.
-/

namespace PDJ.Spec

/-- The moment lies in the `T` milliseconds from `a` on. -/
def Within (a T t : Nat) : Bool := decide (a ≤ t) && decide (t < a + T)

/-- The action is the handling of a received datagram. -/
def isReceive : AppAction → Bool
  | .receive _ _ => true
  | _ => false

/-- The times at which received datagrams are handled, in order. -/
def receiveTimes : List TimedAction → List Nat
  | [] => []
  | x :: xs => if isReceive x.act then x.time :: receiveTimes xs else receiveTimes xs

/-- The main thread has something to do. -/
def Busy (s : AppSystem) : Prop := s.running = true ∧ (s.pending = true ∨ s.queue ≠ [])

/-- The main thread is never late by more than `late` ms: time never passes beyond that while it has
slept enough and has something to do.  `since` is the time since when it has something to do. -/
def Prompt (late : Nat) : Clocked → Nat → List TimedAction → Prop
  | _, _, [] => True
  | s, since, x :: xs =>
    (Busy s.app → x.time ≤ max since s.appFree + late) ∧
    ∀ r, timedStep s x = some r →
      ((s.app.pending = true ∨ s.app.queue ≠ []) → Prompt late r.2 since xs) ∧
      ((s.app.pending = false ∧ s.app.queue = []) → Prompt late r.2 x.time xs)

/-- The datagrams of the main thread. -/
def negotiated (o : List (Nat × Caster × Bytes × UInt32 × UInt16)) : List (Bytes × UInt32 × UInt16) :=
  o.filterMap fun d => if d.2.1 = .main then some d.2.2 else none

end PDJ.Spec

import Verif.Model.Stall
import Verif.Spec.Log
import Verif.Spec.Workers

/-!
# Specification: waiting for the log

Only the types of actions, outputs, and of what waits are taken from the model.
-/

namespace PDJ.Spec

variable {F : Type}

/-- The steps that are taken up in a history, in order. -/
def takenSteps : List (StallAction F) → List (SysAction F)
  | [] => []
  | .take x _ _ :: h => x :: takenSteps h
  | .resume _ _ :: h => takenSteps h

/-- Whose step it is: each thread and each task is a party. -/
def isOf : Party → SysAction F → Bool
  | .main, .app .appRecv => true
  | .main, .app (.appLink _) => true
  | .receiver, .app (.receive _ _) => true
  | .broadcaster, .app (.broadcast _) => true
  | .status, .status _ => true
  | .portmapper, .portmap _ _ _ => true
  | .listener, .accept _ => true
  | .port p, .port q _ => p == q
  | .conn c, .main d _ => c == d
  | .conn c, .hangup d => c == d
  | .handler h, .handler k _ => h == k
  | _, _ => false

/-- The steps of a party among others, in order. -/
def stepsOf (p : Party) (xs : List (SysAction F)) : List (SysAction F) := xs.filter (isOf p)

/-- Nobody who waits goes on: nobody reads the log. -/
def Unread (h : List (StallAction F)) : Prop := ∀ i full, StallAction.resume i full ∉ h

/-- The log is full all the time. -/
def Full (h : List (StallAction F)) : Prop :=
  Unread h ∧ ∀ x o full, StallAction.take x o full ∈ h → full = some 0

/-- The log takes every line. -/
def Open (h : List (StallAction F)) : Prop := ∀ x o full, StallAction.take x o full ∈ h → full = none

/-- The party waits. -/
def Waits (p : Party) (ws : List (Wait F)) : Prop := ∃ w ∈ ws, isOf p w.step = true

/-- The step takes the lock of the shared state: the broadcaster does, a negotiation, an announcement that is accepted,
and an EXPORT call. -/
def TakesLock : SysAction F → Prop
  | .app (.broadcast _) => True
  | .app (.appLink _) => True
  | .app (.receive _ d) => ∃ a, Accepted d a
  | .port _ ev => AsksForExports ev
  | _ => False

/-- Somebody waits who can have the lock: the broadcaster or the main thread. -/
def LockTaken (ws : List (Wait F)) : Prop := Waits .broadcaster ws ∨ Waits .main ws

/-- A step that waits with the lock: the broadcaster does, at its line, and the main thread in a negotiation after the
first line. -/
def HasLock (w : Wait F) : Prop :=
  (∃ ok k, w.step = .app (.broadcast ok) ∧ w.place = .log k) ∨
  (∃ oks k, w.step = .app (.appLink oks) ∧ w.place = .log (k + 1))

/-- The steps that wait on worker threads. -/
def onWorkers (ws : List (Wait F)) : Nat :=
  (ws.filter fun w => !(isOf .main w.step || isOf .receiver w.step || isOf .broadcaster w.step ||
    isOf .status w.step)).length

end PDJ.Spec

import Verif.Model.Overlap
import Verif.Spec.Stall

/-!
# Specification: steps that overlap in time

Only the types of actions and outputs, and the process of `Model/System.lean`, are taken from the model.
-/

namespace PDJ.Spec

variable {F : Type}

/-- The steps that are begun in a history, in order. -/
def begunSteps : List (OverlapAction F) → List (SysAction F)
  | [] => []
  | .take x :: h => x :: begunSteps h
  | .go _ :: h => begunSteps h

/-- What a party sends among what is sent, in order. -/
def sentOf (p : Party) (o : List (Party × SysOut)) : List SysOut :=
  o.filterMap fun x => if x.1 = p then some x.2 else none

/-- What a party sends in a history of whole steps, one after the other. -/
def sentBy (e : Endian) (m : Mode) (db : Db) (p : Party) : System F → List (SysAction F) → List SysOut
  | _, [] => []
  | s, x :: xs =>
    (if isOf p x then (sysStep e m db s x).1 else []) ++ sentBy e m db p (sysStep e m db s x).2 xs

/-- Nothing but going on with what is under way. -/
def OnlyGoing (h : List (OverlapAction F)) : Prop := ∀ x, OverlapAction.take x ∉ h

end PDJ.Spec

import Verif.Model.Control
import Verif.Spec.App

/-!
# Specification: control from outside
-/

namespace PDJ.Spec

/-- The events the application takes off the channel during a history. -/
def takenBy : AppSystem → List Act → List AppEvent
  | _, [] => []
  | s, x :: xs => (match x with | .control _ => [] | .thread x => takenNow s x) ++
      takenBy (ctlStep s x).2 xs

/-- The history without the calls of `set_discovery`. -/
def withoutDiscovery : List Act → List Act
  | [] => []
  | .control (.setDiscovery _) :: xs => withoutDiscovery xs
  | x :: xs => x :: withoutDiscovery xs

/-- The two states differ in the discovery flag at most. -/
def SameButDiscovery (s t : AppSystem) : Prop :=
  ∃ v, t = { s with state := { s.state with discovery := v } }

end PDJ.Spec

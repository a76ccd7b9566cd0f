import Verif.Model.Linger
import Verif.Spec.Pipes

/-!
# Specification: a process that is there, and one that is gone
-/

namespace PDJ.Spec

variable {F : Type}

/-- The process is gone: nothing happens in it any more. -/
def Gone (e : Endian) (m : Mode) (db : Db) (workers : Nat) (s : Linger F) : Prop :=
  ∀ x, lingerStep e m db workers s x = none

/-- The main thread has panicked. -/
def MainFailed (s : Linger F) : Prop := s.pipes.pool.sys.app.running = false

/-- One of the pipes that calls wait for is opened. -/
def opensOne : LingerAction F → Bool
  | ⟨.opened _, _⟩ => true
  | _ => false

/-- A step of a thread other than the main thread. -/
def byThread (pipe : Str → Bool) (x : SysAction F) : LingerAction F := ⟨.act pipe (.thread x), false⟩

end PDJ.Spec

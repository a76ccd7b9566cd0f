import Verif.Model.Pipes

/-!
# When the main thread panics

A panic of the main thread (`/repo/src/component/mod.rs` 37) unwinds out of `block_on`, which `#[tokio::main]`
puts around `main` (`/repo/src/main.rs` 9-15).  On the way the application and with it the receiving end of the
channel of events (`/repo/src/component/mod.rs` 8) are dropped, then the runtime.  Dropping the runtime takes no task
up again and waits for the worker threads; only after that the process ends, and with it the threads of the
receiver, the broadcaster and the status server (`/repo/src/rekordbox/server.rs` 167, 180, 191).  A worker that is
in the midst of a call of the operating system cannot be interrupted: a LOOKUP that waits for a named pipe
(`Model/Pipes.lean`) keeps the process in this state.

* Everything else that unwinding and dropping the runtime does takes no time: without such a LOOKUP the process
  ends at once.  Calls that wait for the lock (`Model/Workers.lean`) are not dealt with any more; they would be
  given an error by the callback, which is not answered.
* Whether the answer to a LOOKUP whose pipe is opened in this state still leaves is left open.
-/

namespace PDJ

variable {F : Type}

/-- The process; and, once the main thread has panicked, what its threads go on with: the shared state, and whether
the status server runs (rekordbox/server.rs 157-207). -/
structure Linger (F : Type) where
  pipes : Pipes F
  left : Option (AppSystem × Bool)

/-- The process just started (component/mod.rs 27-28). -/
def Linger.start : Linger F := ⟨.start, none⟩

/-- What can happen (main.rs 9-15), and whether an answer still leaves while the runtime shuts down. -/
structure LingerAction (F : Type) where
  act : PipesAction F
  sent : Bool

/-- What a panic of the main thread leaves to the other threads (component/mod.rs 36-38).  The negotiation has the lock
when it fails to send, which poisons it (rekordbox/server.rs 105-139, 318-319); it has released it when there is no
network (142-149).  The receiving end of the channel is gone. -/
def leftBehind (a : AppSystem) : AppSystem :=
  { a with
    poisoned := a.poisoned || a.state.address.isSome
    queue := []
    pending := false
    running := true }

/-- Events cannot be sent any more, which is only logged (rekordbox/server.rs 246-257). -/
def noEvents (a : AppSystem) : AppSystem := { a with queue := [] }

/-- A step of a thread after that (rekordbox/server.rs 167, 180-207). -/
def leftStep (t : AppSystem × Bool) : SysAction F → Option (List SysOut × AppSystem × Bool)
  | .app (.receive i d) => some ([], noEvents (appStep t.1 (.receive i d)).2, t.2)
  | .app (.broadcast ok) =>
    let r := appStep t.1 (.broadcast ok)
    some (r.1.map .broadcast, r.2, t.2)
  | .status r =>
    let r := statusStep r t.2
    some (r.1.map .status, t.1, r.2)
  | _ => none

/-- One action, or `none` if it is not possible (main.rs 9-15). -/
def lingerStep (e : Endian) (m : Mode) (db : Db) (workers : Nat) (s : Linger F) (x : LingerAction F) :
    Option (List SysOut × Linger F) :=
  match s.left with
  | none =>
    match pipesStep e m db workers s.pipes x.act with
    | none => none
    | some (o, p) =>
      some (o, ⟨p, if p.pool.sys.app.running then none
        else some (leftBehind p.pool.sys.app, p.pool.sys.status)⟩)
  | some t =>
    if s.pipes.opening.isEmpty then none
    else
      match x.act with
      | .act _ (.thread y) =>
        match leftStep t y with
        | none => none
        | some (o, t') => some (o, { s with left := some t' })
      | .act _ _ => none
      | .opened i =>
        match s.pipes.opening[i]? with
        | none => none
        | some y =>
          let r := servicesStep e s.pipes.pool.sys.services (.port y.1 none y.2)
          some (if x.sent then r.1.map .rpc else [],
            { s with pipes := { s.pipes with opening := s.pipes.opening.eraseIdx i } })

/-- A history, or `none` if it is not possible (main.rs 9-15). -/
def lingerRun (e : Endian) (m : Mode) (db : Db) (workers : Nat) : Linger F → List (LingerAction F) →
    Option (List SysOut × Linger F)
  | s, [] => some ([], s)
  | s, x :: xs =>
    match lingerStep e m db workers s x with
    | none => none
    | some (o, s') =>
      match lingerRun e m db workers s' xs with
      | none => none
      | some (os, s'') => some (o ++ os, s'')

end PDJ

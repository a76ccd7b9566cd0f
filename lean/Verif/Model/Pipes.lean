import Verif.Model.Workers

/-!
# Named pipes

A LOOKUP opens whatever it finds with `File::open` (`/repo/src/rpc/nfs_program.rs` 54, `/repo/src/rpc/fs.rs`
16), a call of the standard library that is not asynchronous.  Opening a named pipe for reading waits until
another process opens it for writing, and with it waits the worker thread (`/repo/src/main.rs` 9) that runs
the handler.  The other calls of the operating system work on regular files only
(`/repo/src/rpc/nfs_program.rs` 56-57, 79, 93) and do not wait.

* Which paths are pipes that nobody has opened for writing is a parameter of every step.
* Devices whose opening waits are counted as pipes.
-/

namespace PDJ

variable {F : Type}

/-- The process, and the events at NFS handlers that wait inside `File::open`, each on a worker of its own
(rpc/fs.rs 16). -/
structure Pipes (F : Type) where
  pool : Pool F
  opening : List (UInt16 × NfsEvent F)

/-- The process just started (component/mod.rs 27-28). -/
def Pipes.start : Pipes F := ⟨.start, []⟩

/-- What can happen (main.rs 9-15). -/
inductive PipesAction (F : Type)
  /-- an action of `Model/Workers.lean`, and the pipes there are at that time -/
  | act (pipe : Str → Bool) (x : PoolAction F)
  /-- one of the pipes is opened for writing: `File::open` returns (rpc/fs.rs 16) -/
  | opened (i : Nat)

/-- Does the event make a handler open a pipe (rpc/nfs_program.rs 44-54)? -/
def opensPipe (pipe : Str → Bool) (s : System F) : SysAction F → Option (UInt16 × NfsEvent F)
  | .port p ev =>
    match s.services.rpc.tasks.find? (fun t => t.1 = p && t.2.live) with
    | some (_, .nfs (.running st _)) =>
      match ev.recv with
      | .ioError => none
      | .datagram d _ =>
        match rpcFrame d with
        | .request q =>
          match q.call.procedure with
          | .nfsLookup a =>
            match ev.world.stat (pushPath st.path a.filename) with
            | some _ => if pipe (pushPath st.path a.filename) then some (p, ev) else none
            | none => none
          | _ => none
        | _ => none
    | _ => none
  | _ => none

/-- One action, or `none` if it is not possible.  Handlers that open pipes leave fewer workers to the
others; when the pipe is opened, the event is dealt with (main.rs 9-15; rpc/nfs_program.rs 117-148). -/
def pipesStep (e : Endian) (m : Mode) (db : Db) (workers : Nat) (s : Pipes F) :
    PipesAction F → Option (List SysOut × Pipes F)
  | .act pipe (.take x) =>
    if notWaiting s.opening x then
      match poolStep e m db (workers - s.opening.length) s.pool (.take x), opensPipe pipe s.pool.sys x with
      | some _, some y => some ([], { s with opening := s.opening ++ [y] })
      | some r, none => some (r.1, { s with pool := r.2 })
      | none, _ => none
    else none
  | .act _ x =>
    match poolStep e m db (workers - s.opening.length) s.pool x with
    | some r => some (r.1, { s with pool := r.2 })
    | none => none
  | .opened i =>
    if s.pool.sys.app.running then
      match s.opening[i]? with
      | some y =>
        let r := sysStep e m db s.pool.sys (.port y.1 y.2)
        some (r.1, ⟨{ s.pool with sys := r.2 }, s.opening.eraseIdx i⟩)
      | none => none
    else none

/-- A history, or `none` if it is not possible (main.rs 9-15). -/
def pipesRun (e : Endian) (m : Mode) (db : Db) (workers : Nat) : Pipes F → List (PipesAction F) →
    Option (List SysOut × Pipes F)
  | s, [] => some ([], s)
  | s, x :: xs =>
    match pipesStep e m db workers s x with
    | none => none
    | some (o, s') =>
      match pipesRun e m db workers s' xs with
      | none => none
      | some (os, s'') => some (o ++ os, s'')

end PDJ

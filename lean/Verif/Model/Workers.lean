import Verif.Model.System

/-!
# The worker threads and the lock

`#[tokio::main]` (`/repo/src/main.rs` 9) runs the tasks of the RPC and library services on a fixed
number of worker threads.  `App::run` (`/repo/src/component/mod.rs` 27-34) is not a task: it runs on the
main thread, which holds the lock of the state during a negotiation (`/repo/src/rekordbox/server.rs`
101-150) and sleeps in between (`thread::sleep`).  The only task that takes the lock is the one of the
mount program, in its EXPORT callback (`/repo/src/rekordbox/rpc.rs` 40): `Mutex::lock` of the standard
library, which blocks the worker thread until the lock is released.

* The number of workers is a parameter (tokio takes the number of cores).
* A step of a task needs a free worker for no time, unless it waits for the lock.  Which task a free worker
  runs next is left open: a step that is possible here need not be the next one tokio runs.
* Files are read on the workers as well (`std::fs`); that is taken to need no time (named pipes are in
  `Model/Pipes.lean`).
* The datagrams of a negotiation appear when it ends.
-/

namespace PDJ

variable {F : Type}

/-- The process with its worker threads: whether the main thread holds the lock for a negotiation
(rekordbox/server.rs 105), and the events at mount handlers that wait for it, each on a worker of its own
(rekordbox/rpc.rs 40). -/
structure Pool (F : Type) where
  sys : System F
  held : Bool
  stuck : List (UInt16 × NfsEvent F)

/-- The process just started (component/mod.rs 27-28). -/
def Pool.start : Pool F := ⟨.start, false, []⟩

/-- What can happen (main.rs 9-15; rekordbox/server.rs 76-105). -/
inductive PoolAction (F : Type)
  /-- a worker takes up the step of a task -/
  | take (x : SysAction F)
  /-- one of the waiting mount handlers gets the lock -/
  | resume (i : Nat)
  /-- the main thread takes the lock for a negotiation -/
  | lock
  /-- the negotiation ends, and the lock is released -/
  | unlock (oks : List Bool)
  /-- a step of another thread -/
  | thread (x : SysAction F)

/-- The steps of tasks (rpc/server.rs 119-162; rekordbox/rpc.rs 22-28; library.rs 741-785).  The others
are steps of threads of their own (rekordbox/server.rs 157-208; component/mod.rs 30-33). -/
def SysAction.ofTask : SysAction F → Bool
  | .app _ => false
  | .status _ => false
  | _ => true

/-- Does the event call the EXPORT callback of a mount handler, which locks the state
(rekordbox/rpc.rs 39-40, 76; rpc/server.rs 64-72)? -/
def locksState (s : System F) : SysAction F → Option (UInt16 × NfsEvent F)
  | .port p ev =>
    match s.services.rpc.tasks.find? (fun t => t.1 = p && t.2.live) with
    | some (_, .program _) =>
      match ev.recv with
      | .ioError => none
      | .datagram d _ =>
        match rpcFrame d with
        | .request q =>
          match q.call.procedure with
          | .mountExport => some (p, ev)
          | _ => none
        | _ => none
    | _ => none
  | _ => none

/-- Does the step of a thread take the lock (rekordbox/server.rs 175-200 and 220)?  The main thread does
nothing else while it holds it. -/
def threadLocks : SysAction F → Bool
  | .app (.receive _ d) =>
    match kaReceive d with
    | .ok (some p) => (acceptedStatus p).isSome
    | _ => false
  | .app _ => true
  | _ => false

/-- The task that deals with the event is not one of those that wait: a task does one thing at a time
(rpc/server.rs 64-83). -/
def notWaiting (stuck : List (UInt16 × NfsEvent F)) : SysAction F → Bool
  | .port p _ => stuck.all fun y => y.1 != p
  | _ => true

/-- One action, or `none` if it is not possible: no worker is free, or the task or thread waits for the
lock (main.rs 9-15; rekordbox/rpc.rs 40; rekordbox/server.rs 105). -/
def poolStep (e : Endian) (m : Mode) (db : Db) (workers : Nat) (s : Pool F) :
    PoolAction F → Option (List SysOut × Pool F)
  | .take x =>
    if s.sys.app.running && x.ofTask && decide (s.stuck.length < workers) && notWaiting s.stuck x then
      match s.held, locksState s.sys x with
      | true, some y => some ([], { s with stuck := s.stuck ++ [y] })
      | _, _ =>
        let r := sysStep e m db s.sys x
        some (r.1, { s with sys := r.2 })
    else none
  | .resume i =>
    if s.sys.app.running && !s.held then
      match s.stuck[i]? with
      | some y =>
        let r := sysStep e m db s.sys (.port y.1 y.2)
        some (r.1, { s with sys := r.2, stuck := s.stuck.eraseIdx i })
      | none => none
    else none
  | .lock => if s.sys.app.running && s.sys.app.pending && !s.held then some ([], { s with held := true }) else none
  | .unlock oks =>
    if s.sys.app.running && s.held then
      let r := sysStep e m db s.sys (.app (.appLink oks))
      some (r.1, { s with sys := r.2, held := false })
    else none
  | .thread x =>
    match x with
    | .app (.appLink _) => none
    | _ =>
      if s.sys.app.running && !x.ofTask && !(s.held && threadLocks x) then
        let r := sysStep e m db s.sys x
        some (r.1, { s with sys := r.2 })
      else none

/-- A history, or `none` if it is not possible (main.rs 9-15). -/
def poolRun (e : Endian) (m : Mode) (db : Db) (workers : Nat) : Pool F → List (PoolAction F) →
    Option (List SysOut × Pool F)
  | s, [] => some ([], s)
  | s, x :: xs =>
    match poolStep e m db workers s x with
    | none => none
    | some (o, s') =>
      match poolRun e m db workers s' xs with
      | none => none
      | some (os, s'') => some (o ++ os, s'')

end PDJ

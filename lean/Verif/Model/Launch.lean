import Verif.Model.System

/-!
# Start-up step by step

`Model/Startup.lean` gives the state after start-up.  Here the main thread goes through `App::new` and `Server::run`
(`/repo/src/component/mod.rs` 12-28, `/repo/src/rekordbox/server.rs` 76-99) one call of the operating system at a time,
and what has been started already runs meanwhile: the broadcaster and the receiver before the status socket is bound,
and the tasks of portmapper and library, which bind their sockets in any order, before the task that joins them
(`try_join!`, server.rs 93-98) is run again after one of them has ended.

* Each call may be refused: indexing may panic, a thread may not be created (`thread::spawn` panics then), a port may
  be taken.  All of these end the main thread and with it the process, except for the two ports of the tasks.
* A thread or task that has not been started does nothing, like one that has ended.
* The main thread takes no events before it is in its loop (component/mod.rs 30-33).
* The log is left out (`Model/Log.lean` deals with it); if a line of the start cannot be written the main thread or the
  portmapper panics, as if its next call were refused (server.rs 77, 91; rekordbox/rpc.rs 21).
-/

namespace PDJ

variable {F : Type}

/-- What the main thread asks of the operating system until it is in its loop. -/
inductive StartStep
  /-- `Database::new` (component/mod.rs 14) -/
  | index
  /-- the thread of the broadcaster (server.rs 79, 188) -/
  | broadcaster
  /-- the socket of the receiver (server.rs 80, 176-178; keepalive.rs 107-113) -/
  | keepalive
  /-- the thread of the receiver (server.rs 180) -/
  | receiver
  /-- the socket of the status server (server.rs 85, 165; status_event_server.rs 31-33) -/
  | status
  /-- the thread of the status server (server.rs 167) -/
  | statusThread
  /-- the task that joins portmapper and library (server.rs 93) -/
  | services
deriving DecidableEq, Repr

/-- In this order (component/mod.rs 12-28; server.rs 76-99). -/
def startSteps : List StartStep := [.index, .broadcaster, .keepalive, .receiver, .status, .statusThread, .services]

/-- A process on its way (server.rs 76-99). -/
structure Launch (F : Type) where
  /-- what the main thread has still to do -/
  todo : List StartStep
  sys : System F
  /-- the portmapper has asked for its socket (rpc/server.rs 103) -/
  portmapTried : Bool
  /-- the library has asked for its socket (library.rs 739) -/
  libraryTried : Bool
  /-- the task that joins the two runs (server.rs 93-98) -/
  joined : Bool

/-- The process before its first step (main.rs 10-11). -/
def Launch.start : Launch F :=
  ⟨startSteps, ⟨{ AppSystem.start with receiver := false, broadcaster := false }, ⟨⟨false, []⟩, false⟩, [], .start, false⟩,
    false, false, false⟩

/-- What can happen (component/mod.rs 12-33; server.rs 76-99). -/
inductive LaunchAction (F : Type)
  /-- the next step of the main thread, and whether it succeeds -/
  | begin (ok : Bool)
  /-- the portmapper asks for its socket (rpc/server.rs 103) -/
  | portmapBind (ok : Bool)
  /-- the library asks for its socket (library.rs 739) -/
  | libraryBind (ok : Bool)
  /-- the task that joins the two is run after the portmapper has ended (rekordbox/rpc.rs 30; server.rs 93-98) -/
  | supervise
  /-- anything else -/
  | act (x : SysAction F)

/-- The process after a step of the main thread (server.rs 79-98): what it has started runs. -/
def Launch.begun (s : Launch F) : StartStep → Launch F
  | .broadcaster => { s with sys := { s.sys with app := { s.sys.app with broadcaster := true } } }
  | .receiver => { s with sys := { s.sys with app := { s.sys.app with receiver := true } } }
  | .statusThread => { s with sys := { s.sys with status := true } }
  | .services => { s with joined := true }
  | _ => s

/-- Is it the main thread that does this (component/mod.rs 30-33)? -/
def byMain : SysAction F → Bool
  | .app .appRecv => true
  | .app (.appLink _) => true
  | _ => false

/-- One action; nothing happens if it is not possible (component/mod.rs 12-33; server.rs 76-99).  A failing portmapper
task panics (rekordbox/rpc.rs 24-26); the accept loop of the library goes on until the joining task is run.  A failing
library ends the joining task, but not the task of the portmapper (rekordbox/rpc.rs 18). -/
def launchStep (e : Endian) (m : Mode) (db : Db) (s : Launch F) (x : LaunchAction F) : List SysOut × Launch F :=
  if s.sys.app.running then
    match x with
    | .begin ok =>
      match s.todo with
      | [] => ([], s)
      | t :: ts =>
        ([], if ok then { s with todo := ts }.begun t
          else { s with sys := { s.sys with app := { s.sys.app with running := false } } })
    | .portmapBind ok =>
      ([], if s.todo.isEmpty && !s.portmapTried then
          { s with
            portmapTried := true
            sys := { s.sys with services := ⟨{ s.sys.services.rpc with portmap := ok }, s.sys.services.accepting⟩ } }
        else s)
    | .libraryBind ok =>
      ([], if s.joined && !s.libraryTried then
          { s with
            libraryTried := true
            joined := ok
            sys := { s.sys with services := ⟨s.sys.services.rpc, ok⟩ } }
        else s)
    | .supervise =>
      ([], if s.joined && s.portmapTried && !s.sys.services.rpc.portmap then
          { s with joined := false, sys := { s.sys with services := ⟨s.sys.services.rpc, false⟩ } }
        else s)
    | .act x =>
      if byMain x && !s.todo.isEmpty then ([], s)
      else
        let r := sysStep e m db s.sys x
        (r.1, { s with sys := { r.2 with services := ⟨r.2.services.rpc, s.sys.services.accepting⟩ } })
  else ([], s)

/-- A history (any interleaving of the above; server.rs 76-99). -/
def launchRun (e : Endian) (m : Mode) (db : Db) : Launch F → List (LaunchAction F) → List SysOut × Launch F
  | s, [] => ([], s)
  | s, x :: xs =>
    let r := launchStep e m db s x
    let rs := launchRun e m db r.2 xs
    (r.1 ++ rs.1, rs.2)

end PDJ

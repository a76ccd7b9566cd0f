import Verif.Model.App
import Verif.Model.RpcServer
import Verif.Model.LibServer
import Verif.Model.Status

/-!
# All services of the process together

`Server::run` (`/repo/src/rekordbox/server.rs` 76-99) starts the broadcaster, the keep-alive receiver
and the status server as threads, and the RPC services and the library service as tasks, which share
the state behind one mutex; `App::run` (`/repo/src/component/mod.rs` 27-34) is the main thread.

* The critical sections are those of `Model/App.lean`, and the one of the mount program's EXPORT
  callback (`/repo/src/rekordbox/rpc.rs` 40-41), which reads the known network.
* When the main thread panics, `main` (`/repo/src/main.rs` 9-15) ends and with it the process and all
  threads and tasks.
* The status server and the two listeners are taken to have been bound at the start.
-/

namespace PDJ

variable {F : Type}

/-- Everything in the process: the threads of `Model/App.lean`, the RPC and library services, the
connections accepted at the library's well-known port, and whether the status server runs
(rekordbox/server.rs 76-99; component/mod.rs 27-34). -/
structure System (F : Type) where
  app : AppSystem
  services : Services F
  mains : List Nat
  lib : LibServer
  status : Bool

/-- `App::run` up to the loop, `Server::run` (server.rs 76-99). -/
def System.start : System F := ⟨.start, .start, [], .start, true⟩

/-- What can happen (rekordbox/server.rs 76-99). -/
inductive SysAction (F : Type)
  /-- a step of the main thread, the receiver or the broadcaster -/
  | app (x : AppAction)
  /-- something received at the portmapper -/
  | portmap (os : Bytes → Addr → Bool) (bound : Option UInt16) (recv : Recv)
  /-- something received at the port of an RPC handler -/
  | port (p : UInt16) (ev : NfsEvent F)
  /-- a connection to the library's well-known port -/
  | accept (conn : Nat)
  /-- a chunk on such a connection, with the port the OS binds -/
  | main (conn : Nat) (bound : Option UInt16)
  /-- the player closes such a connection, or it breaks: the task's loop and with it the task ends
  (library.rs 750-779) -/
  | hangup (conn : Nat)
  /-- an event at a library handler -/
  | handler (h : Nat) (e : HandlerEvent)
  /-- something received by the status server -/
  | status (r : StatusRecv)

/-- What is sent (server.rs 314-333; status_event_server.rs 93-105; library.rs 706-780). -/
inductive SysOut
  | broadcast (o : Bytes × Ip4 × UInt16)
  | rpc (o : Option UInt16 × Bytes × Addr)
  | lib (o : LibOut)
  | status (o : Bytes × Ip4 × UInt16)
deriving DecidableEq

/-- `state.lock()` and `state.address()` in the EXPORT callback (rekordbox/rpc.rs 40-41). -/
def knownNetwork (a : AppSystem) : Option PioneerNetwork :=
  if a.poisoned then none else a.state.address

/-- One event. Nothing happens once the process has ended (interleaving of everything started in
rekordbox/server.rs 76-99 and component/mod.rs 30-33). -/
def sysStep (e : Endian) (m : Mode) (db : Db) (s : System F) (x : SysAction F) :
    List SysOut × System F :=
  if s.app.running then
    match x with
    | .app x =>
      let r := appStep s.app x
      (r.1.map .broadcast, { s with app := r.2 })
    | .portmap os bound recv =>
      let r := servicesStep e s.services (.portmap os bound recv)
      (r.1.map .rpc, { s with services := r.2 })
    | .port p ev =>
      let r := servicesStep e s.services (.port p (knownNetwork s.app) ev)
      (r.1.map .rpc, { s with services := r.2 })
    | .accept c => ([], if s.services.accepting then { s with mains := c :: s.mains } else s)
    | .main c bound =>
      if c ∈ s.mains then
        let r := libStep m db s.lib (.main c bound)
        (r.1.map .lib, { s with lib := r.2 })
      else ([], s)
    | .hangup c => ([], { s with mains := s.mains.erase c })
    | .handler h ev =>
      let r := libStep m db s.lib (.handler h ev)
      (r.1.map .lib, { s with lib := r.2 })
    | .status r =>
      let r := statusStep r s.status
      (r.1.map .status, { s with status := r.2 })
  else ([], s)

/-- A history of the process (any interleaving of the above; rekordbox/server.rs 76-99). -/
def sysRun (e : Endian) (m : Mode) (db : Db) : System F → List (SysAction F) →
    List SysOut × System F
  | s, [] => ([], s)
  | s, x :: xs =>
    let r := sysStep e m db s x
    let rs := sysRun e m db r.2 xs
    (r.1 ++ rs.1, rs.2)

end PDJ

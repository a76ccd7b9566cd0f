import Verif.Model.Log

/-!
# The queue at the library's port

A connection to the library's well-known port is made by the operating system, which puts it into the queue of the
listening socket; the loop in `DBLibraryServer::spawn` (`/repo/src/rekordbox/library.rs` 741-784) takes it from there with
`accept`.  That can fail, above all when the process has no descriptor left; the loop writes a line (782) and begins
anew.

* This is `Model/Log.lean` with that queue.
* When there is no descriptor left, `accept` leaves the connection in the queue (Linux reserves the descriptor before it
  takes a connection out), and tokio goes on to take the socket for ready, so that the next `accept` fails at once as
  well.  Other errors concern the first connection, which is gone then.
* A connection that the OS does not put into the queue is not an event.
* When the loop ends the listening socket is closed, and the OS drops the connections in the queue.
-/

namespace PDJ

variable {F : Type}

/-- The process and the queue of its listening socket (library.rs 738-741). -/
structure Listen (F : Type) where
  sys : System F
  waiting : List Nat

/-- The process just started (component/mod.rs 27-28). -/
def Listen.start : Listen F := ⟨.start, []⟩

/-- What `accept` makes of the first connection in the queue: it hands it over, or fails and leaves it there, or fails
and drops it (below library.rs 742). -/
inductive Handed
  | over | stays | gone
deriving DecidableEq

/-- What can happen: the OS puts a connection into the queue; `accept` returns; anything else (library.rs 741-784;
`Model/System.lean`). -/
inductive ListenAction (F : Type)
  | connect (c : Nat)
  | accept (r : Handed) (o : LogOs)
  | other (x : SysAction F) (o : LogOs)

/-- `accept` fails (library.rs 782): if the line cannot be written the loop ends, with the task that it is part of
(rekordbox/server.rs 93-98).  The portmapper is a task of its own (rekordbox/rpc.rs 18). -/
def acceptFails (o : LogOs) (s : System F) : List LogLine × System F :=
  let w := writeLine o 0 .acceptError
  (w.1, if w.2 then s else { s with services := { s.services with accepting := false } })

/-- The queue of a listening socket that is closed when its loop has ended (rekordbox/server.rs 93-98). -/
def Listen.settled (s : Listen F) : Listen F :=
  if s.sys.app.running && s.sys.services.accepting then s else { s with waiting := [] }

/-- One turn of the loop with a connection in the queue (library.rs 741-784). -/
def acceptStep (e : Endian) (m : Mode) (db : Db) (s : Listen F) (r : Handed) (o : LogOs) :
    List SysOut × List LogLine × Listen F :=
  match s.waiting with
  | [] => ([], [], s)
  | c :: cs =>
    match r with
    | .over =>
      let t := sysLog e m db s.sys (.accept c) o
      (t.1, t.2.1, ⟨t.2.2, cs⟩)
    | .stays =>
      let t := acceptFails o s.sys
      ([], t.1, ⟨t.2, c :: cs⟩)
    | .gone =>
      let t := acceptFails o s.sys
      ([], t.1, ⟨t.2, cs⟩)

/-- One event (library.rs 741-784; `Model/System.lean`).  That a connection is accepted is the event `accept` here. -/
def listenStep (e : Endian) (m : Mode) (db : Db) (s : Listen F) :
    ListenAction F → List SysOut × List LogLine × Listen F
  | .connect c =>
    if s.sys.app.running && s.sys.services.accepting then ([], [], { s with waiting := s.waiting ++ [c] })
    else ([], [], s)
  | .accept r o =>
    if s.sys.app.running && s.sys.services.accepting then
      let t := acceptStep e m db s r o
      (t.1, t.2.1, t.2.2.settled)
    else ([], [], s)
  | .other (.accept _) _ => ([], [], s)
  | .other x o =>
    let t := sysLog e m db s.sys x o
    (t.1, t.2.1, ({ s with sys := t.2.2 } : Listen F).settled)

/-- A history (rekordbox/server.rs 76-99). -/
def listenRun (e : Endian) (m : Mode) (db : Db) : Listen F → List (ListenAction F) →
    List SysOut × List LogLine × Listen F
  | s, [] => ([], [], s)
  | s, x :: xs =>
    let r := listenStep e m db s x
    let rs := listenRun e m db r.2.2 xs
    (r.1 ++ rs.1, r.2.1 ++ rs.2.1, rs.2.2)

end PDJ

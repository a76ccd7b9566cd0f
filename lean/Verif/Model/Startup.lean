import Verif.Model.System

/-!
# Start-up

`App::new` and `App::run` up to its loop (`/repo/src/component/mod.rs` 12-28), `Server::run`
(`/repo/src/rekordbox/server.rs` 76-99) and the functions that bind the sockets of the services.

Simplifications: the state is the one in which the failures of start-up have taken effect.  What happens
until then (broadcaster and receiver run before the status socket is bound; if the portmapper's port is
taken, the library's listener may exist for a moment) and failing thread creation are in `Launch.lean`.
-/

namespace PDJ

variable {F : Type}

/-- What the OS answers at start-up: is UDP port 50000 free (keepalive.rs 107-109, 146-148), may it be
used for broadcasts (keepalive.rs 111, 139-143), are UDP port 50002 (status_event_server.rs 31-33), UDP
port 50111 (rekordbox/rpc.rs 15, rpc/server.rs 103) and TCP port 12523 (library.rs 738-739, 791)
free? -/
structure Binds where
  keepalive : Bool
  broadcast : Bool
  status : Bool
  portmap : Bool
  library : Bool
deriving DecidableEq, Repr

/-- `App::new` (component/mod.rs 12-25), in which indexing the music folder may panic, then
`Server::run` (server.rs 76-99).  `expect` on the keep-alive socket (server.rs 176-178) and on the
status socket (status_event_server.rs 32-33) panics in the main thread.  A portmapper that cannot bind
(rpc/server.rs 103) panics (rekordbox/rpc.rs 24-26), which ends `try_join!` (server.rs 93-98) and with
it the library's listener; a library that cannot bind (library.rs 739) ends `try_join!` as well, but
the portmapper is a task of its own (rekordbox/rpc.rs 18) and goes on. -/
def boot (b : Binds) (indexed : Outcome Db) : System F :=
  match indexed with
  | .panic => { (System.start : System F) with app := { AppSystem.start with running := false } }
  | .ok _ =>
    if b.keepalive = false ∨ b.broadcast = false ∨ b.status = false then
      { (System.start : System F) with app := { AppSystem.start with running := false } }
    else { (System.start : System F) with services := ⟨⟨b.portmap, []⟩, b.portmap && b.library⟩ }

end PDJ

import Verif.Model.Library

/-!
# The library TCP service: connections and listeners

`/repo/src/rekordbox/library.rs` 700-793.

* The tokio tasks share nothing but the read-only database, so the service is a set of independent
  task states; an event names the task it happens to.
* `BytesCodec` delivers whatever bytes one read returned (never an empty chunk); `send` writes the
  reply; I/O errors of `next` and `send` are only logged (`Model/Log.lean`, `Model/Stream.lean`), and so are those
  of `accept` at the well-known port, which are not modelled.
* A panic in a task ends that task only (tokio catches it at the task boundary).
-/

namespace PDJ

/-- One accepted player connection: open with its session state, or ended (the loop in library.rs
706-729). -/
inductive Conn
  | open (ctx : Ctx)
  | dead
deriving DecidableEq

/-- One iteration of the loop in `spawn_library_client_handler` (library.rs 710-724). -/
def connStep (m : Mode) (db : Db) (io : IterOrder) (chunk : Bytes) : Conn → Option Bytes × Conn
  | .dead => (none, .dead)
  | .open ctx =>
    match process m io db chunk ctx with
    | .ok (reply, ctx') => (some reply, .open ctx')
    | .panic => (none, .dead)

/-- The loop in `spawn_library_client_handler` (library.rs 710-724) over the chunks read. -/
def connRun (m : Mode) (db : Db) : Conn → List (IterOrder × Bytes) → List (Option Bytes) × Conn
  | c, [] => ([], c)
  | c, x :: xs =>
    let r := connStep m db x.1 x.2 c
    let rs := connRun m db r.2 xs
    (r.1 :: rs.1, rs.2)

/-- The state of one task of `spawn_library_client_handler` (library.rs 700-729): waiting in
`accept`, serving its one connection, or finished. -/
inductive Phase
  | listening
  | serving (ctx : Ctx)
  | finished
deriving DecidableEq

/-- A listener handed out to a player (library.rs 755-773). -/
structure Handler where
  port : UInt16
  phase : Phase

/-- What can happen to a handler task (library.rs 705-728). -/
inductive HandlerEvent
  | connect
  /-- `accept` fails -/
  | refused
  | data (io : IterOrder) (chunk : Bytes)
  | close

/-- One event at a handler (library.rs 700-729).  `ClientState::new` (35-41) starts with no
previous request; a second connection attempt stays in the backlog. -/
def handlerStep (m : Mode) (db : Db) (e : HandlerEvent) (p : Phase) : List Bytes × Phase :=
  match e, p with
  | .connect, .listening => ([], .serving none)
  | .refused, .listening => ([], .finished)
  | .data io chunk, .serving ctx =>
    match process m io db chunk ctx with
    | .ok (reply, ctx') => ([reply], .serving ctx')
    | .panic => ([], .finished)
  | .close, .serving _ => ([], .finished)
  | _, p => ([], p)

/-- The library service: which connections to the well-known port have died, and all handlers in the
order of their creation (library.rs 733-785). -/
structure LibServer where
  deadMains : List Nat
  handlers : List Handler

/-- `DBLibraryServer::run` starts with nothing (library.rs 787-792). -/
def LibServer.start : LibServer := ⟨[], []⟩

/-- What can happen to the service: a chunk on a connection to the well-known port, with the port
the OS binds (or a failing bind), or an event at a handler (library.rs 741-785). -/
inductive LibEvent
  | main (conn : Nat) (bound : Option UInt16)
  | handler (h : Nat) (e : HandlerEvent)

/-- Where bytes are sent (the two `send` calls, library.rs 706-780). -/
inductive LibOut
  | toMain (conn : Nat) (b : Bytes)
  | toHandler (h : Nat) (b : Bytes)
deriving DecidableEq

/-- One event (library.rs 751-780 for the well-known port). -/
def libStep (m : Mode) (db : Db) (s : LibServer) : LibEvent → List LibOut × LibServer
  | .main c bound =>
    if c ∈ s.deadMains then ([], s)
    else
      match bound with
      | some p => ([.toMain c (be16 p)], { s with handlers := s.handlers ++ [⟨p, .listening⟩] })
      | none => ([], { s with deadMains := c :: s.deadMains })
  | .handler h e =>
    match s.handlers[h]? with
    | none => ([], s)
    | some hd =>
      let r := handlerStep m db e hd.phase
      (r.1.map (.toHandler h), { s with handlers := s.handlers.set h ⟨hd.port, r.2⟩ })

/-- A history of events (the loops of library.rs 700-785). -/
def libRun (m : Mode) (db : Db) : LibServer → List LibEvent → List LibOut × LibServer
  | s, [] => ([], s)
  | s, e :: es =>
    let r := libStep m db s e
    let rs := libRun m db r.2 es
    (r.1 ++ rs.1, rs.2)

end PDJ

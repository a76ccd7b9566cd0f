import Verif.Model.LibServer

/-!
# A library connection as a stream of bytes

`/repo/src/rekordbox/library.rs` 710-724.  `remote_client.send(...)` appends the reply to the write buffer
of the `Framed` and writes the buffer until it is empty or the OS reports an error (tokio-util, from
memory); an error is only logged (library.rs 716-719), and what has not been written stays in the buffer
and goes out in front of the next reply.  If more than 8192 bytes are in the buffer already, these are
written first, and after an error then the reply is not appended at all.
-/

namespace PDJ

/-- The end of the connection in the task: the session, and the write buffer of the `Framed`
(library.rs 707-708). -/
structure StreamEnd where
  conn : Conn
  buffer : Bytes

/-- `ClientState::new` and `Framed::new` (library.rs 707-708). -/
def StreamEnd.start : StreamEnd := ⟨.open none, []⟩

/-- `Framed::poll_ready`, `start_send` and `poll_flush` (tokio-util, from memory), called through `send`
(library.rs 715): what goes out, and the write buffer.  `taken` is how many bytes the OS takes before it
reports an error; it reports none if that is all of them. -/
def sendReply (buffer reply : Bytes) (taken : Nat) : Bytes × Bytes :=
  if 8192 < buffer.length ∧ taken < buffer.length then (buffer.take taken, buffer.drop taken)
  else ((buffer ++ reply).take taken, (buffer ++ reply).drop taken)

/-- One iteration of the loop (library.rs 710-724): the bytes that go out.  With the task the buffer is
gone. -/
def streamStep (m : Mode) (db : Db) (io : IterOrder) (chunk : Bytes) (taken : Nat) (s : StreamEnd) :
    Bytes × StreamEnd :=
  match connStep m db io chunk s.conn with
  | (some reply, c) => ((sendReply s.buffer reply taken).1, ⟨c, (sendReply s.buffer reply taken).2⟩)
  | (none, c) => ([], ⟨c, []⟩)

/-- A piece of what a player sends, with what the OS does with the answer (library.rs 710-724). -/
structure StreamEvent where
  order : IterOrder
  chunk : Bytes
  taken : Nat

/-- The loop (library.rs 710-724): all bytes that go out. -/
def streamRun (m : Mode) (db : Db) : StreamEnd → List StreamEvent → Bytes × StreamEnd
  | s, [] => ([], s)
  | s, x :: xs =>
    let r := streamStep m db x.order x.chunk x.taken s
    let rs := streamRun m db r.2 xs
    (r.1 ++ rs.1, rs.2)

end PDJ

import Verif.Model.Stream

/-!
# A library connection whose player reads when it likes

`/repo/src/rekordbox/library.rs` 710-724.  While the OS does not take what is to be written, because the
player does not read (TCP flow control), `remote_client.send(...).await` waits (library.rs 714-716), and
nothing is read from the connection meanwhile.  The waiting task holds no worker thread.  tokio-util and
tokio, from memory, as in `Model/Stream.lean`.
-/

namespace PDJ

/-- Where the task is: waiting for a chunk (library.rs 710), writing what is in the buffer before the reply
is appended (`poll_ready` in `send`, 714-715), or writing the buffer with the reply (`poll_flush`). -/
inductive Sending
  | idle
  | before (reply : Bytes)
  | flushing
deriving DecidableEq

/-- The end of the connection in the task (library.rs 707-708). -/
structure FlowEnd where
  conn : Conn
  buffer : Bytes
  sending : Sending

/-- `ClientState::new` and `Framed::new` (library.rs 707-708). -/
def FlowEnd.start : FlowEnd := ⟨.open none, [], .idle⟩

/-- What happens: a chunk is read (library.rs 710), the OS takes some bytes, or it reports an error
(716-719). -/
inductive FlowEvent
  | chunk (io : IterOrder) (bytes : Bytes)
  | takes (n : Nat)
  | error

/-- `poll_flush` is done when the buffer is empty (library.rs 714-716; tokio-util). -/
def flushed (c : Conn) (buffer : Bytes) : FlowEnd :=
  if buffer = [] then ⟨c, [], .idle⟩ else ⟨c, buffer, .flushing⟩

/-- One event (library.rs 710-724); `none`: it cannot happen, since a task that waits in `send` reads no
chunk.  With the task the buffer is gone. -/
def flowStep (m : Mode) (db : Db) (s : FlowEnd) : FlowEvent → Option (Bytes × FlowEnd)
  | .chunk io bytes =>
    if s.sending = .idle then
      match connStep m db io bytes s.conn with
      | (some reply, c) =>
        if 8192 < s.buffer.length then some ([], ⟨c, s.buffer, .before reply⟩)
        else some ([], flushed c (s.buffer ++ reply))
      | (none, c) => some ([], ⟨c, [], .idle⟩)
    else none
  | .takes n =>
    match s.sending with
    | .idle => some ([], s)
    | .before reply =>
      if s.buffer.drop n = [] then some (s.buffer, flushed s.conn reply)
      else some (s.buffer.take n, ⟨s.conn, s.buffer.drop n, .before reply⟩)
    | .flushing => some (s.buffer.take n, flushed s.conn (s.buffer.drop n))
  | .error => some ([], ⟨s.conn, s.buffer, .idle⟩)

/-- The loop (library.rs 710-724): all bytes that go out. -/
def flowRun (m : Mode) (db : Db) : FlowEnd → List FlowEvent → Option (Bytes × FlowEnd)
  | s, [] => some ([], s)
  | s, x :: xs =>
    match flowStep m db s x with
    | none => none
    | some (o, s') => (flowRun m db s' xs).map fun r => (o ++ r.1, r.2)

end PDJ

import Verif.Model.Timed

/-!
# The socket of the keep-alive receiver

`Model/Timed.lean` with the receive buffer of the socket the keep-alive receiver reads from
(`/repo/src/rekordbox/keepalive.rs` 107-138), which the OS keeps: datagrams wait there in the order of
their arrival, and one that finds it full is lost.  The capacity is counted in datagrams, and a datagram
occupies its place until it is handled (the receiver takes it off the socket before it waits for the lock,
server.rs 219, so there is room for one more).  Errors of the socket are not modelled here.
-/

namespace PDJ

/-- The threads and the socket (keepalive.rs 95-98, 116-121): what waits, with the time of its arrival, and how
many datagrams were lost. -/
structure Inbox where
  clock : Clocked
  queue : List (Nat × Bytes)
  lost : Nat
deriving DecidableEq, Repr

/-- The start of the threads (server.rs 172-207; keepalive.rs 105-113). -/
def Inbox.start : Inbox := ⟨.start, [], 0⟩

/-- A datagram arrives, the receiver handles one with the table of interfaces of that moment (keepalive.rs
123-138; server.rs 216-230), or another thread does something (server.rs 188-207; component/mod.rs 27-51). -/
inductive InboxEvent
  | arrive (time : Nat) (d : Bytes)
  | take (time : Nat) (ifaces : List Interface)
  | other (x : TimedAction)

/-- When it happens (keepalive.rs 116-121). -/
def InboxEvent.time : InboxEvent → Nat
  | .arrive t _ => t
  | .take t _ => t
  | .other x => x.time

/-- Is it an action of the receiver?  (keepalive.rs 116-121) -/
def ofReceiver : AppAction → Bool
  | .receive _ _ => true
  | _ => false

/-- One event (keepalive.rs 116-138): the receiver takes the oldest datagram. -/
def inboxStep (cap : Nat) (s : Inbox) :
    InboxEvent → Option (List (Nat × Caster × Bytes × Ip4 × UInt16) × Inbox)
  | .arrive t d =>
    if s.clock.now ≤ t then
      some ([], if s.queue.length < cap then
          { s with clock := { s.clock with now := t }, queue := s.queue ++ [(t, d)] }
        else { s with clock := { s.clock with now := t }, lost := s.lost + 1 })
    else none
  | .take t ifaces =>
    match s.queue with
    | [] => none
    | e :: q =>
      if s.clock.app.receiver = true ∧ s.clock.app.running = true then
        (timedStep s.clock ⟨t, .receive ifaces e.2, []⟩).bind fun r =>
          some (r.1, { s with clock := r.2, queue := q })
      else none
  | .other x =>
    if ofReceiver x.act then none
    else (timedStep s.clock x).bind fun r => some (r.1, { s with clock := r.2 })

/-- A history (the loop of keepalive.rs 117-120 and the other threads). -/
def inboxRun (cap : Nat) : Inbox → List InboxEvent →
    Option (List (Nat × Caster × Bytes × Ip4 × UInt16) × Inbox)
  | s, [] => some ([], s)
  | s, x :: xs =>
    (inboxStep cap s x).bind fun r => (inboxRun cap r.2 xs).bind fun rs => some (r.1 ++ rs.1, rs.2)

end PDJ

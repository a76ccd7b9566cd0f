import Verif.Model.Status

/-!
# The status server in time

`StatusEventServer::run` (`/repo/src/rekordbox/status_event_server.rs` 107-122) with its sleep of 150 ms
after every datagram (46-48, 120), and the receive buffer of its socket, which the OS keeps: datagrams
wait there in the order of their arrival, and one that finds it full is lost.  The capacity is counted in
datagrams.

Times are in milliseconds.  A sleep takes at least its duration and everything else takes any time; an
event that is impossible at its time makes the history impossible (`none`).  Errors of the socket are not
modelled here.
-/

namespace PDJ

/-- The server and its socket (status_event_server.rs 26-48): what waits, with the time of its arrival,
whether the thread runs, the time, when the thread has slept enough, and how many datagrams were lost. -/
structure StatusClock where
  queue : List (Nat × Bytes × Ip4)
  running : Bool
  now : Nat
  free : Nat
  lost : Nat
deriving DecidableEq, Repr

/-- The server at start-up (status_event_server.rs 31-38). -/
def StatusClock.start : StatusClock := ⟨[], true, 0, 0, 0⟩

/-- A datagram arrives, or the server takes one (status_event_server.rs 124-129). -/
inductive StatusEvent
  | arrive (time : Nat) (d : Bytes) (sender : Ip4)
  | handle (time : Nat)

/-- When it happens (status_event_server.rs 107-122). -/
def StatusEvent.time : StatusEvent → Nat
  | .arrive t _ _ => t
  | .handle t => t

/-- One event (status_event_server.rs 107-122); a reply is given with the time at which the datagram it
answers arrived and with its own. -/
def statusTimedStep (cap : Nat) (s : StatusClock) (x : StatusEvent) :
    Option (List (Nat × Nat × Bytes × Ip4 × UInt16) × StatusClock) :=
  match x with
  | .arrive t d sender =>
    if s.now ≤ t then
      some ([], if s.queue.length < cap then { s with queue := s.queue ++ [(t, d, sender)], now := t }
        else { s with lost := s.lost + 1, now := t })
    else none
  | .handle t =>
    match s.queue with
    | [] => none
    | (a, d, sender) :: q =>
      if s.running = true ∧ s.now ≤ t ∧ s.free ≤ t then
        let r := statusStep (.datagram d sender) s.running
        some (r.1.map fun o => (a, t, o),
          { s with queue := q, running := r.2, now := t, free := t + 150 })
      else none

/-- A history (the loop of status_event_server.rs 108-121). -/
def statusTimedRun (cap : Nat) : StatusClock → List StatusEvent →
    Option (List (Nat × Nat × Bytes × Ip4 × UInt16) × StatusClock)
  | s, [] => some ([], s)
  | s, x :: xs =>
    (statusTimedStep cap s x).bind fun r =>
      (statusTimedRun cap r.2 xs).bind fun rs => some (r.1 ++ rs.1, rs.2)

end PDJ

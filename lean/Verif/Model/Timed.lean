import Verif.Model.App

/-!
# The threads of the application in time

`Model/App.lean` with the calls of `thread::sleep`: the receiver sleeps 250 ms after every datagram
(`/repo/src/rekordbox/keepalive.rs` 116-121), the broadcaster 500 ms after every iteration
(`/repo/src/rekordbox/server.rs` 204), the main thread 150 ms after every event
(`/repo/src/component/mod.rs` 30-33) and 50 ms after every datagram of a negotiation, 100 ms in most
cases (server.rs 104, 118, 130, 154).

Times are in milliseconds.  A sleep takes at least its duration, and everything else takes any time,
so a history is a list of actions with the times at which their critical sections begin; the actions
that a sleep or the lock forbids at that time are impossible (`none`).  Only the negotiation takes time
while the lock is held.
-/

namespace PDJ

/-- The threads, the time, and when the receiver, the broadcaster and the main thread have slept enough
and the lock is released (keepalive.rs 116-121; server.rs 101-155, 188-207; component/mod.rs 27-34). -/
structure Clocked where
  app : AppSystem
  now : Nat
  recvFree : Nat
  castFree : Nat
  appFree : Nat
  lockFree : Nat
deriving DecidableEq, Repr

/-- The start of the threads (server.rs 172-207). -/
def Clocked.start : Clocked := ⟨.start, 0, 0, 0, 0, 0⟩

/-- An action and when it begins; for a negotiation, by how much more than the sleeps each datagram
comes after the one before (server.rs 101-155). -/
structure TimedAction where
  time : Nat
  act : AppAction
  late : List Nat

/-- The threads that broadcast (server.rs 101-155, 188-207). -/
inductive Caster
  | main
  | broadcaster
deriving DecidableEq, Repr

/-- Does the action lock the state?  (server.rs 105, 193, 217-224; the channel needs no lock) -/
def usesLock : AppAction → Bool
  | .receive _ d =>
    match kaReceive d with
    | .ok (some p) => (acceptedStatus p).isSome
    | _ => false
  | .broadcast _ => true
  | .appRecv => false
  | .appLink _ => true

/-- When the thread of the action has slept enough (keepalive.rs 119; server.rs 204; component/mod.rs
32). -/
def wakes (s : Clocked) : AppAction → Nat
  | .receive _ _ => s.recvFree
  | .broadcast _ => s.castFree
  | .appRecv => s.appFree
  | .appLink _ => s.appFree

/-- The time does not run backwards, the thread has slept enough, and the lock is free if it is needed
(as above). -/
def possible (s : Clocked) (x : TimedAction) : Bool :=
  decide (s.now ≤ x.time) && decide (wakes s x.act ≤ x.time) &&
    (!usesLock x.act || decide (s.lockFree ≤ x.time))

/-- The times of the datagrams of a negotiation: two sleeps of 50 ms after each (server.rs 104, 110-131,
152-155). -/
def paced {α : Type} (t : Nat) (late : List Nat) : List α → List (Nat × α)
  | [] => []
  | a :: as => (t, a) :: paced (t + 50 + 50 + late.headD 0) late.tail as

/-- The time of the datagram with that index (server.rs 110-131, 152-155). -/
def sentAt (t : Nat) (late : List Nat) : Nat → Nat
  | 0 => t
  | n + 1 => sentAt (t + 50 + 50 + late.headD 0) late.tail n

/-- When a negotiation that begins at `t` releases the lock: 50 ms after the last of its 40 datagrams
(server.rs 133-138, 152-155). -/
def negotiationEnd (t : Nat) (late : List Nat) : Nat := sentAt t late 39 + 50

/-- One action (references above). The main thread is woken by an event in the channel and sleeps after
having handled it (component/mod.rs 30-33, 40-51). -/
def timedStep (s : Clocked) (x : TimedAction) :
    Option (List (Nat × Caster × Bytes × Ip4 × UInt16) × Clocked) :=
  if possible s x then
    let r := appStep s.app x.act
    let s' := { s with app := r.2, now := x.time }
    some (match x.act with
      | .receive _ _ => ([], { s' with recvFree := x.time + 250 })
      | .broadcast _ =>
        (r.1.map fun d => (x.time, .broadcaster, d), { s' with castFree := x.time + 500 })
      | .appRecv =>
        ([], if s.app.pending = false ∧ s.app.queue ≠ [] then
            { s' with appFree := if r.2.pending then x.time else x.time + 150 }
          else s')
      | .appLink _ =>
        ((paced x.time x.late r.1).map fun d => (d.1, .main, d.2),
          if s.app.pending then
            { s' with
              lockFree := negotiationEnd x.time x.late
              appFree := negotiationEnd x.time x.late + 150 }
          else s'))
  else none

/-- A history (as above). -/
def timedRun : Clocked → List TimedAction →
    Option (List (Nat × Caster × Bytes × Ip4 × UInt16) × Clocked)
  | s, [] => some ([], s)
  | s, x :: xs =>
    (timedStep s x).bind fun r => (timedRun r.2 xs).bind fun rs => some (r.1 ++ rs.1, rs.2)

end PDJ

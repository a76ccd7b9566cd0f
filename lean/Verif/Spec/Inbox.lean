import Verif.Model.Inbox
import Verif.Spec.Timed
import Verif.Spec.StatusTimed

/-!
# Specification: the keep-alive receiver and its socket

Only data types and the transition functions are taken from the model.
-/

namespace PDJ.Spec

/-- The datagrams that arrive, in order. -/
def came : List InboxEvent → List (Nat × Bytes)
  | [] => []
  | .arrive t d :: xs => (t, d) :: came xs
  | .take _ _ :: xs => came xs
  | .other _ :: xs => came xs

/-- What the threads do in an event. -/
def actionOf (s : Inbox) : InboxEvent → List TimedAction
  | .arrive _ _ => []
  | .take t ifaces => s.queue.head?.toList.map fun e => ⟨t, .receive ifaces e.2, []⟩
  | .other x => [x]

/-- What the threads do in a history. -/
def actions (cap : Nat) : Inbox → List InboxEvent → List TimedAction
  | _, [] => []
  | s, x :: xs =>
    actionOf s x ++ match inboxStep cap s x with
      | none => []
      | some r => actions cap r.2 xs

/-- The datagrams handled, each with the time at which it is. -/
def received : List TimedAction → List (Nat × Bytes)
  | [] => []
  | x :: xs =>
    match x.act with
    | .receive _ d => (x.time, d) :: received xs
    | _ => received xs

/-- The receiver is never late by more than `late` ms: time does not pass beyond that while it has slept
enough, a datagram waits and the lock is free. -/
def PromptReceiver (cap late : Nat) : Inbox → List InboxEvent → Prop
  | _, [] => True
  | s, x :: xs =>
    (∀ e q, s.queue = e :: q → s.clock.app.receiver = true → s.clock.app.running = true →
      x.time ≤ max (max s.clock.recvFree e.1) s.clock.lockFree + late) ∧
    ∀ r, inboxStep cap s x = some r → PromptReceiver cap late r.2 xs

/-- For how long the lock is held by negotiations altogether, with the lateness of the receiver for each. -/
def heldUp (cap late : Nat) : Inbox → List InboxEvent → Nat
  | _, [] => 0
  | s, x :: xs =>
    match inboxStep cap s x with
    | none => 0
    | some r =>
      (if r.2.clock.lockFree = s.clock.lockFree then 0 else r.2.clock.lockFree - x.time + late) +
        heldUp cap late r.2 xs

/-- The main thread is never late by more than `late` ms (as `Prompt`, with the arrivals). -/
def PromptMain (cap late : Nat) : Inbox → Nat → List InboxEvent → Prop
  | _, _, [] => True
  | s, since, x :: xs =>
    (Busy s.clock.app → x.time ≤ max since s.clock.appFree + late) ∧
    ∀ r, inboxStep cap s x = some r →
      ((s.clock.app.pending = true ∨ s.clock.app.queue ≠ []) → PromptMain cap late r.2 since xs) ∧
      ((s.clock.app.pending = false ∧ s.clock.app.queue = []) → PromptMain cap late r.2 x.time xs)

end PDJ.Spec

import Verif.Model.StatusTimed
import Verif.Spec.Status

/-!
# Specification: the status server in time
-/

namespace PDJ.Spec

/-- The datagrams that arrive, in order. -/
def arrivals : List StatusEvent → List (Nat × Bytes × UInt32)
  | [] => []
  | .arrive t d sender :: xs => (t, d, sender) :: arrivals xs
  | .handle _ :: xs => arrivals xs

/-- At most `burst` datagrams arrive at a time, and in the long run one per `gap` ms: `j - i` datagrams later
at least as much time has passed, but for a burst. -/
def Bursts {α : Type} (burst gap : Nat) (l : List (Nat × α)) : Prop :=
  ∀ i j a b, i ≤ j → l[i]? = some a → l[j]? = some b → a.1 + (j - i) * gap ≤ b.1 + (burst - 1) * gap

/-- The server is never late by more than `late` ms: time does not pass beyond that while it has slept
enough and a datagram waits. -/
def PromptStatus (cap late : Nat) : StatusClock → List StatusEvent → Prop
  | _, [] => True
  | s, x :: xs =>
    (∀ e q, s.queue = e :: q → s.running = true → x.time ≤ max s.free e.1 + late) ∧
    ∀ r, statusTimedStep cap s x = some r → PromptStatus cap late r.2 xs

/-- The datagrams handled (arrival, time of handling, contents, sender) and the answers to them, each
with these two times, in order. -/
inductive AnsweredAt : List (Nat × Nat × Bytes × UInt32) →
    List (Nat × Nat × Bytes × UInt32 × UInt16) → Prop
  | nil : AnsweredAt [] []
  | cons {a t d sender as hs os} (h : Answers (.datagram d sender) as) (hx : AnsweredAt hs os) :
      AnsweredAt ((a, t, d, sender) :: hs) (as.map (fun o => (a, t, o)) ++ os)

end PDJ.Spec

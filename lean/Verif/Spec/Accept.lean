import Verif.Model.Accept
import Verif.Spec.Log
import Verif.Spec.Descriptors

/-!
# Specification: connections that wait, and the length of the log
-/

namespace PDJ.Spec

variable {F : Type}

/-- The connections that are made in a history, in order. -/
def made : List (ListenAction F) → List Nat
  | [] => []
  | .connect c :: xs => c :: made xs
  | _ :: xs => made xs

/-- The connections that are accepted in a history of the process, in order. -/
def acceptedIn : List (SysAction F × LogOs) → List Nat
  | [] => []
  | (.accept c, _) :: xs => c :: acceptedIn xs
  | _ :: xs => acceptedIn xs

/-- Everything else in a history of the process. -/
def besideAccepts : List (SysAction F × LogOs) → List (SysAction F × LogOs)
  | [] => []
  | (.accept _, _) :: xs => besideAccepts xs
  | x :: xs => x :: besideAccepts xs

/-- Everything else in a history with the queue. -/
def othersIn : List (ListenAction F) → List (SysAction F × LogOs)
  | [] => []
  | .other (.accept _) _ :: xs => othersIn xs
  | .other x o :: xs => (x, o) :: othersIn xs
  | _ :: xs => othersIn xs

/-- The line about a failing `accept` can be written whenever there is one. -/
def ErrorsWritten (h : List (ListenAction F)) : Prop :=
  ∀ r o, .accept r o ∈ h → r ≠ .over → o.written 0 = true

/-- No error takes a connection with it. -/
def NoneDropped (h : List (ListenAction F)) : Prop := ∀ o, .accept .gone o ∉ h

/-- The loop that accepts connections runs. -/
def Listening (s : Listen F) : Prop := s.sys.app.running = true ∧ s.sys.services.accepting = true

/-- How many lines an event may be worth: one, but two at the RPC handlers and at library handlers, and for a negotiation one and one for
each of its forty datagrams. -/
def worthLines : SysAction F → Nat
  | .app (.appLink _) => 41
  | .port _ _ => 2
  | .handler _ _ => 2
  | .accept _ => 0
  | .hangup _ => 0
  | _ => 1

/-- The same for events with the queue: none for a connection that is made or accepted. -/
def worth : ListenAction F → Nat
  | .other x _ => worthLines x
  | _ => 0

/-- The number of times `accept` fails in a history. -/
def failures : List (ListenAction F) → Nat
  | [] => 0
  | .accept .over _ :: xs => failures xs
  | .accept _ _ :: xs => failures xs + 1
  | _ :: xs => failures xs

/-- The event finds that the OS gives no socket and no file. -/
def RefusedHere : ListenAction F → Prop
  | .connect _ => True
  | .accept r _ => r = .stays
  | .other x _ => Refused x

/-- In this history the OS gives no more than `limit`. -/
def LimitedHere (e : Endian) (m : Mode) (db : Db) (limit : Nat) : Listen F → List (ListenAction F) → Prop
  | _, [] => True
  | s, x :: xs => (∀ n, Uses s.sys n → limit ≤ n → RefusedHere x) ∧
      LimitedHere e m db limit (listenStep e m db s x).2.2 xs

end PDJ.Spec

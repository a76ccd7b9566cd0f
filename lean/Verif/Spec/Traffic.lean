import Verif.Spec.App

/-!
# Specification: how much is broadcast, and progress of the application
-/

namespace PDJ.Spec

/-- The number of iterations of the broadcaster in a schedule. -/
def broadcasts : List AppAction → Nat
  | [] => 0
  | .broadcast _ :: xs => broadcasts xs + 1
  | _ :: xs => broadcasts xs

/-- All 40 datagrams of a negotiation were sent, in order and without anything in between. -/
def Negotiated (out : List (Bytes × UInt32 × UInt16)) : Prop :=
  ∃ n pre post, out = pre ++ (negotiation n).map (toAll n) ++ post

/-- The application runs at least `k` rounds of its loop during the schedule; anything may happen
before, in between and after. -/
inductive Rounds : Nat → List AppAction → Prop
  | none (xs : List AppAction) : Rounds 0 xs
  | wait {k : Nat} {xs : List AppAction} (x : AppAction) (h : Rounds k xs) : Rounds k (x :: xs)
  | round {k : Nat} {xs : List AppAction} (between : List AppAction) (oks : List Bool)
      (h : Rounds k xs) : Rounds (k + 1) (.appRecv :: between ++ .appLink oks :: xs)

/-- Every player heard in the schedule is on a local network. -/
def AllLocal (xs : List AppAction) : Prop :=
  ∀ ifaces d, .receive ifaces d ∈ xs → ∀ a, Accepted d a → ∃ n, FirstMatch ifaces a.ip n

/-- No player heard in the schedule is on a local network. -/
def NoneLocal (xs : List AppAction) : Prop :=
  ∀ ifaces d, .receive ifaces d ∈ xs → ∀ a, Accepted d a → ∀ n, ¬ FirstMatch ifaces a.ip n

end PDJ.Spec

import Verif.Spec.Overlap

/-!
# Specification: histories of overlapping steps without an end

Nothing is known of the order in which threads and tasks are run but that none is stopped for ever (the OS and tokio)
and, if it is asked for, that the mutex passes nobody over for ever, which `std::sync::Mutex` does not promise.
-/

namespace PDJ.Spec

variable {F : Type}

/-- A history without an end: in every state something is done that can be done. -/
structure Endless (e : Endian) (m : Mode) (db : Db) (F : Type) where
  state : Nat → Overlap F
  act : Nat → OverlapAction F
  out : Nat → List (PDJ.Party × SysOut)
  start : state 0 = .start
  step : ∀ n, overlapStep e m db (state n) (act n) = some (out n, state (n + 1))

/-- The thread or task can go on. -/
def CanGo (e : Endian) (m : Mode) (db : Db) (s : Overlap F) (p : PDJ.Party) : Prop :=
  ∃ o s', overlapStep e m db s (.go p) = some (o, s')

/-- A thread or task that can go on from some time on goes on again and again. -/
def Endless.NotStopped {e : Endian} {m : Mode} {db : Db} (r : Endless e m db F) (p : PDJ.Party) : Prop :=
  (∃ n, ∀ k, n ≤ k → CanGo e m db (r.state k) p) → ∀ n, ∃ k, n ≤ k ∧ r.act k = .go p

/-- A thread or task that can go on again and again, though perhaps not in between, goes on again and again. -/
def Endless.NotPassedOver {e : Endian} {m : Mode} {db : Db} (r : Endless e m db F) (p : PDJ.Party) : Prop :=
  (∀ n, ∃ k, n ≤ k ∧ CanGo e m db (r.state k) p) → ∀ n, ∃ k, n ≤ k ∧ r.act k = .go p

/-- What a thread or task sends in some steps of the history, from one of its states on. -/
def Endless.sent {e : Endian} {m : Mode} {db : Db} (r : Endless e m db F) (p : PDJ.Party) (n d : Nat) : List SysOut :=
  sentOf p ((List.range d).flatMap fun i => r.out (n + i))

/-- The main thread takes events off the channel one by one, and after a request to link it negotiates before it takes the
next (component/mod.rs 30-44). -/
def Endless.MainLoops {e : Endian} {m : Mode} {db : Db} (r : Endless e m db F) : Prop :=
  (∀ n, (r.state n).doing .main = .idle → ∃ k x, n ≤ k ∧ r.act k = .take x ∧ x.party = .main) ∧
  ∀ n x, r.act n = .take x → x.party = .main →
    if (r.state n).sys.app.pending = true then ∃ oks, x = .app (.appLink oks) else x = .app .appRecv

/-- The broadcaster does its loop (rekordbox/server.rs 188-207), and the OS gives it a socket each time. -/
def Endless.CasterLoops {e : Endian} {m : Mode} {db : Db} (r : Endless e m db F) : Prop :=
  ∀ n, (r.state n).doing .broadcaster = .idle → ∃ k, n ≤ k ∧ r.act k = .take (.app (.broadcast true))

/-- Somebody gets the lock. -/
def Endless.Gets {e : Endian} {m : Mode} {db : Db} (r : Endless e m db F) (k : Nat) : Prop :=
  (r.state k).lock = none ∧ (r.state (k + 1)).lock ≠ none

/-- A thread or task has come to where it needs the lock. -/
def Endless.Wants {e : Endian} {m : Mode} {db : Db} (r : Endless e m db F) (p : PDJ.Party) (k : Nat) : Prop :=
  ∃ x, (r.state k).doing p = .taken x ∧ needsLock (r.state k).sys x = true

/-- While it waits for the lock from some moment on, the lock is given to others `B` times at most. -/
def Endless.OvertakenFrom {e : Endian} {m : Mode} {db : Db} (r : Endless e m db F) (p : PDJ.Party) (n B : Nat) : Prop :=
  ∀ d, (∀ k, n ≤ k → k ≤ n + d → r.Wants p k) → ∀ ks : List Nat, ks.Nodup →
    (∀ k ∈ ks, n ≤ k ∧ k < n + d ∧ r.Gets k) → ks.length ≤ B

/-- The lock is given in turn: whoever gets it has waited for it as long as anyone else who waits. -/
def Endless.InTurn {e : Endian} {m : Mode} {db : Db} (r : Endless e m db F) : Prop :=
  ∀ p q n k, n ≤ k → (∀ j, n ≤ j → j ≤ k → r.Wants p j) → r.Gets k → r.act k = .go q →
    ∀ j, n ≤ j → j ≤ k → r.Wants q j

end PDJ.Spec

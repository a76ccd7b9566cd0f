import Verif.Model.Log
import Verif.Model.Workers

/-!
# A log that nobody reads

A line of the log is written while the lock of the standard error is held.  When the log is a pipe that is full, or a
terminal that was stopped, the write lasts until somebody reads; until then that thread waits, and with it every other
that wants to write a line.  A task waits on its worker thread (`/repo/src/main.rs` 9), and who has the lock of the state
when he waits keeps it: the broadcaster (`/repo/src/rekordbox/server.rs` 188-207, 329-330), and the main thread in a
negotiation (105-150).

* This is `Model/Log.lean` with a log that takes every line, but not at once, and with the worker threads of
  `Model/Workers.lean`; a negotiation takes time here only if it waits.
* The standard output, to which one line goes (`/repo/src/rekordbox/status_event_server.rs` 140), counts as the same log.
* What a step that waits does, sends and writes appears when it is done; only what is refused, the datagrams of a
  negotiation, and the listener whose port cannot be told, come before a line.
* Which of the steps that wait goes on next is left open.
* The log takes the lines of the start (`bootLog`).
-/

namespace PDJ

variable {F : Type}

/-- Who takes a step: the threads and tasks of the process (rekordbox/server.rs 76-99, 157-208; rekordbox/rpc.rs 18-28;
rpc/server.rs 119-137; library.rs 741-765; component/mod.rs 30-33). -/
inductive Party
  | main | receiver | broadcaster | status | portmapper | listener
  | port (p : UInt16)
  | conn (c : Nat)
  | handler (h : Nat)
deriving DecidableEq

/-- Who takes the step (rekordbox/server.rs 76-99 and the loops cited in `Model/System.lean`). -/
def SysAction.party : SysAction F → Party
  | .app (.receive _ _) => .receiver
  | .app (.broadcast _) => .broadcaster
  | .app _ => .main
  | .portmap _ _ _ => .portmapper
  | .port p _ => .port p
  | .accept _ => .listener
  | .main c _ => .conn c
  | .hangup c => .conn c
  | .handler h _ => .handler h
  | .status _ => .status

/-- Where a step waits: for the log to take the line with a number, or for the lock of the state (below
rekordbox/server.rs 105, 194, 220 and the macros). -/
inductive Place
  | log (k : Nat)
  | lock
deriving DecidableEq

/-- A step that waits (a thread or task inside one of the functions cited in `Model/Log.lean`). -/
structure Wait (F : Type) where
  step : SysAction F
  os : LogOs
  place : Place

/-- The process and what waits (main.rs 9-15). -/
structure Stall (F : Type) where
  sys : System F
  waiting : List (Wait F)

/-- The process just started (component/mod.rs 27-28). -/
def Stall.start : Stall F := ⟨.start, []⟩

/-- What can happen: a thread or task takes a step, or goes on with a step that waits.  The log takes every line of the
step at once, or the lines from a number on have to wait (main.rs 9-15; the macros cited in `Model/Log.lean`). -/
inductive StallAction (F : Type)
  | take (x : SysAction F) (o : LogOs) (full : Option Nat)
  | resume (i : Nat) (full : Option Nat)

/-- Is it a negotiation (rekordbox/server.rs 101)? -/
def SysAction.links : SysAction F → Bool
  | .app (.appLink _) => true
  | _ => false

/-- The step has the lock while it waits: the broadcaster has it when it writes a line, the main thread after the first
line of a negotiation (rekordbox/server.rs 102-105, 194, 330). -/
def Wait.holds (w : Wait F) : Bool :=
  match w.step, w.place with
  | .app (.broadcast _), .log _ => true
  | .app (.appLink _), .log (_ + 1) => true
  | _, _ => false

/-- Somebody who waits has the lock (rekordbox/server.rs 105, 194). -/
def Stall.held (s : Stall F) : Bool := s.waiting.any Wait.holds

/-- Somebody is writing a line (`eprintln!`, which has the lock of the standard error meanwhile). -/
def Stall.writing (s : Stall F) : Bool :=
  s.waiting.any fun w => match w.place with | .log _ => true | .lock => false

/-- The step takes the lock before it writes a line (rekordbox/server.rs 194, 220; rekordbox/rpc.rs 40). -/
def locksFirst (s : System F) (x : SysAction F) : Bool :=
  match x with
  | .app (.receive i d) => threadLocks (F := F) (.app (.receive i d))
  | .app (.broadcast _) => true
  | x => (locksState s x).isSome

/-- How many of the workers wait (main.rs 9). -/
def Stall.busy (s : Stall F) : Nat := (s.waiting.filter fun w => w.step.ofTask).length

/-- The step can be taken up: the process runs, a task finds a worker, and the thread or task is not one that waits
(main.rs 9-15). -/
def canTake (workers : Nat) (s : Stall F) (x : SysAction F) : Bool :=
  s.sys.app.running && (!x.ofTask || decide (s.busy < workers)) &&
    s.waiting.all fun w => decide (w.step.party ≠ x.party)

/-- The number of lines of a step (the macros cited in `Model/Log.lean`). -/
def lineCount (e : Endian) (m : Mode) (db : Db) (s : System F) (x : SysAction F) (o : LogOs) : Nat :=
  (sysLog e m db s x ⟨fun _ => true, o.accepted⟩).2.1.length

/-- The line at which a step that was just taken up waits, if any (the macros cited in `Model/Log.lean`). -/
def waitsAt (n : Nat) (full : Option Nat) (writing : Bool) : Option Nat :=
  if n = 0 then none
  else if writing then some 0
  else full.filter fun k => decide (k < n)

/-- Where a step that was just taken up waits, if it does (rekordbox/server.rs 102-105, 194, 220; rekordbox/rpc.rs 40). -/
def stopAt (e : Endian) (m : Mode) (db : Db) (s : System F) (x : SysAction F) (o : LogOs) (full : Option Nat)
    (held writing : Bool) : Option Place :=
  if held && locksFirst s x then some .lock
  else
    match waitsAt (lineCount e m db s x o) full writing with
    | some 0 => some (.log 0)
    | b => if held && x.links then some .lock else b.map .log

/-- The number of the next line of a step that waits and goes on (rekordbox/server.rs 102-105). -/
def Wait.next (w : Wait F) : Nat :=
  match w.place with
  | .log k => k + 1
  | .lock => if w.step.links then 1 else 0

/-- The step needs the lock to go on (rekordbox/server.rs 105, 194, 220; rekordbox/rpc.rs 40). -/
def Wait.wantsLock (w : Wait F) : Bool :=
  match w.place with
  | .log 0 => w.step.links
  | .log _ => false
  | .lock => true

/-- The line at which a step with `n` lines that goes on waits again, if any (the macros cited in `Model/Log.lean`). -/
def Wait.again (w : Wait F) (n : Nat) (full : Option Nat) : Option Nat :=
  (full.map (max w.next)).filter fun k => decide (k < n)

/-- One action, or `none` if it is not possible (main.rs 9-15; rekordbox/server.rs 76-99). -/
def stallStep (e : Endian) (m : Mode) (db : Db) (workers : Nat) (s : Stall F) :
    StallAction F → Option (List SysOut × List LogLine × Stall F)
  | .take x o full =>
    if canTake workers s x then
      match stopAt e m db s.sys x o full s.held s.writing with
      | some p => some ([], [], { s with waiting := s.waiting ++ [⟨x, o, p⟩] })
      | none =>
        let r := sysLog e m db s.sys x ⟨fun _ => true, o.accepted⟩
        some (r.1, r.2.1, { s with sys := r.2.2 })
    else none
  | .resume i full =>
    match s.waiting[i]? with
    | none => none
    | some w =>
      if s.sys.app.running && !(w.wantsLock && s.held) then
        match w.again (lineCount e m db s.sys w.step w.os) full with
        | some k => some ([], [], { s with waiting := s.waiting.set i ⟨w.step, w.os, .log k⟩ })
        | none =>
          let r := sysLog e m db s.sys w.step ⟨fun _ => true, w.os.accepted⟩
          some (r.1, r.2.1, ⟨r.2.2, s.waiting.eraseIdx i⟩)
      else none

/-- A history, or `none` if it is not possible (main.rs 9-15). -/
def stallRun (e : Endian) (m : Mode) (db : Db) (workers : Nat) : Stall F → List (StallAction F) →
    Option (List SysOut × List LogLine × Stall F)
  | s, [] => some ([], [], s)
  | s, x :: xs =>
    match stallStep e m db workers s x with
    | none => none
    | some (o, l, s') =>
      match stallRun e m db workers s' xs with
      | none => none
      | some (os, ls, s'') => some (o ++ os, l ++ ls, s'')

end PDJ

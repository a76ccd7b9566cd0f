import Verif.Model.Stall

/-!
# Steps that overlap in time

The threads of the process and the tasks on its worker threads (`/repo/src/main.rs` 9,
`/repo/src/rekordbox/server.rs` 76-99) work at the same time.  Here a step of `Model/System.lean` is not one action: a
thread or task takes up an event, has an effect on what others can see, and sends what it has to send, datagram by
datagram, and others take steps in between.  What they share:

* the state behind its lock: the receiver takes notice of a player (rekordbox/server.rs 222-223, 238-244) and tells the
  main thread of it, one event after the other (247-257), while it has the lock; the broadcaster sends while it has the
  lock (193-202); the main thread has it during a whole negotiation (105-150); an EXPORT call reads the state while it
  has the lock and is answered afterwards (rekordbox/rpc.rs 40-55, rpc/server.rs 66-79);
* the channel of events, from which the main thread takes them one by one (component/mod.rs 41);
* the handlers that are started (rpc/server.rs 119-137; library.rs 755-773) and the end of the portmapper
  (rekordbox/server.rs 93-98): one effect each.

Everything else belongs to one thread or task, which does one thing at a time.

* The writes to the state are actions of their own, and so is every event told and every datagram.
* Waiting for workers, pipes and the log is in `Model/Workers.lean`, `Model/Pipes.lean` and `Model/Stall.lean`; here
  any step may last as long as it likes.
* When the process ends, steps that are under way are never finished.
-/

namespace PDJ

variable {F : Type}

/-- A write to what is shared, by the receiver with the lock (rekordbox/server.rs 239, 240-244, 248, 254). -/
inductive Write
  | address (a : Option PioneerNetwork)
  | players (ps : List Player)
  | tell (ev : AppEvent)

/-- How far a thread or task is with its step (the loops cited in the header). -/
inductive Stage (F : Type)
  /-- between two steps -/
  | idle
  /-- it has taken up an event -/
  | taken (x : SysAction F)
  /-- the receiver has the lock and has these writes to do -/
  | updating (ws : List Write)
  /-- the main thread has the lock for a negotiation and has these datagrams to send -/
  | linking (x : SysAction F) (rest : List SysOut)
  /-- the broadcaster has the lock and has this to send -/
  | holding (outs : List SysOut)
  /-- an EXPORT call has the lock; this will be sent without it -/
  | reading (outs : List SysOut)
  /-- it has this to send -/
  | sending (outs : List SysOut)

/-- The process with the steps that are under way and who has the lock of the state (main.rs 9-15; rekordbox/server.rs
58). -/
structure Overlap (F : Type) where
  sys : System F
  lock : Option Party
  doing : Party → Stage F

/-- The process just started (component/mod.rs 27-28). -/
def Overlap.start : Overlap F := ⟨.start, none, fun _ => .idle⟩

/-- What can happen: a thread or task takes up an event, or goes on with what it is at (main.rs 9-15). -/
inductive OverlapAction (F : Type)
  | take (x : SysAction F)
  | go (p : Party)

/-- A thread or task gets to another stage (the loops cited in the header). -/
def Overlap.now (s : Overlap F) (p : Party) (st : Stage F) : Overlap F :=
  { s with doing := fun q => if q = p then st else s.doing q }

/-- A write (rekordbox/server.rs 239, 240-244, 248, 254). -/
def Write.apply (s : System F) : Write → System F
  | .address a => { s with app := { s.app with state := { s.app.state with address := a } } }
  | .players ps => { s with app := { s.app with state := { s.app.state with players := ps } } }
  | .tell ev => { s with app := { s.app with queue := s.app.queue ++ [ev] } }

/-- The writes of the receiver from one state of the process to the next, in the order of `handle_keepalive_status`
(rekordbox/server.rs 238-257). -/
def writesTo (old new : AppSystem) : List Write :=
  .address new.state.address :: .players new.state.players ::
    (new.queue.drop old.queue.length).map .tell

/-- The step needs the lock of the state (rekordbox/server.rs 105, 193, 222; rekordbox/rpc.rs 40). -/
def needsLock (s : System F) (x : SysAction F) : Bool := locksFirst s x || x.links

/-- The step is to take an event off the channel, and there is none (component/mod.rs 41). -/
def awaitsEvent (s : System F) : SysAction F → Bool
  | .app .appRecv => !s.app.pending && s.app.queue.isEmpty
  | _ => false

/-- A step gets the lock (rekordbox/server.rs 105, 193, 222; rekordbox/rpc.rs 40). -/
def enter (e : Endian) (m : Mode) (db : Db) (s : Overlap F) (p : Party) (x : SysAction F) : Overlap F :=
  let r := sysStep e m db s.sys x
  let s' := { s with lock := some p }
  match x with
  | .app (.receive _ _) =>
    { s' with sys := { r.2 with app := { r.2.app with state := s.sys.app.state, queue := s.sys.app.queue } } }.now p
      (.updating (writesTo s.sys.app r.2.app))
  | .app (.appLink _) => s'.now p (.linking x r.1)
  | .app _ => { s' with sys := r.2 }.now p (.holding r.1)
  | _ => { s' with sys := r.2 }.now p (.reading r.1)

/-- A thread or task goes on: what it sends and the state afterwards, or `none` if it has nothing to do or waits
(the loops cited in the header). -/
def goOn (e : Endian) (m : Mode) (db : Db) (s : Overlap F) (p : Party) : Option (List SysOut × Overlap F) :=
  match s.doing p with
  | .idle => none
  | .taken x =>
    if needsLock s.sys x then
      if s.lock = none then some ([], enter e m db s p x) else none
    else if awaitsEvent s.sys x then none
    else
      let r := sysStep e m db s.sys x
      some ([], { s with sys := r.2 }.now p (.sending r.1))
  | .updating [] => some ([], { s with lock := none }.now p (.sending []))
  | .updating (w :: ws) => some ([], { s with sys := w.apply s.sys }.now p (.updating ws))
  | .linking x [] =>
    some ([], { s with sys := (sysStep e m db s.sys x).2, lock := none }.now p (.sending []))
  | .linking x (o :: os) => some ([o], s.now p (.linking x os))
  | .holding [] => some ([], { s with lock := none }.now p (.sending []))
  | .holding (o :: os) => some ([o], s.now p (.holding os))
  | .reading os => some ([], { s with lock := none }.now p (.sending os))
  | .sending [] => some ([], s.now p .idle)
  | .sending (o :: os) => some ([o], s.now p (.sending os))

/-- One action, with who sends something, or `none` if it is not possible (main.rs 9-15; rekordbox/server.rs 76-99). -/
def overlapStep (e : Endian) (m : Mode) (db : Db) (s : Overlap F) :
    OverlapAction F → Option (List (Party × SysOut) × Overlap F)
  | .take x =>
    if s.sys.app.running then
      match s.doing x.party with
      | .idle => some ([], s.now x.party (.taken x))
      | _ => none
    else none
  | .go p =>
    if s.sys.app.running then (goOn e m db s p).map fun r => (r.1.map fun o => (p, o), r.2)
    else none

/-- A history, or `none` if it is not possible (main.rs 9-15). -/
def overlapRun (e : Endian) (m : Mode) (db : Db) : Overlap F → List (OverlapAction F) →
    Option (List (Party × SysOut) × Overlap F)
  | s, [] => some ([], s)
  | s, x :: xs =>
    match overlapStep e m db s x with
    | none => none
    | some (o, s') =>
      match overlapRun e m db s' xs with
      | none => none
      | some (os, s'') => some (o ++ os, s'')

end PDJ

import Verif.Model.Keepalive

/-!
# The player registry, the shared server state and the application

`/repo/src/rekordbox/player.rs`, `/repo/src/rekordbox/server.rs`, `/repo/src/component/mod.rs`.

Three threads share the state behind one mutex: the keep-alive receiver, the broadcaster and the
application (main thread), which gets its events from an unbounded channel.  Every critical section
is one action, so a schedule is any list of actions:

* `receive`: the receiver handles a datagram (decoding touches no shared state; the events are sent
  while the lock is held);
* `broadcast`: one iteration of the broadcaster;
* `appRecv`: the application takes the next event off the channel (it waits while there is none);
* `appLink`: the application runs the negotiation it took an event for, holding the lock throughout.

A panic while the lock is held poisons the mutex.  A panic in the main thread ends the process.
`UdpSocket::bind` and `set_broadcast` may fail (both are unwrapped); that is an oracle of the action.
The table of interfaces is read from the OS at every status packet and is an oracle as well.
-/

namespace PDJ

/-! ## Players -/

/-- `Player` (player.rs 4-10). -/
structure Player where
  model : Str
  address : Ip4
  number : UInt8
  linking : Bool
deriving DecidableEq, Repr

/-- `Player::new` (player.rs 13-15). -/
def Player.new (model : Str) (number : UInt8) (address : Ip4) : Player :=
  ⟨model, address, number, false⟩

/-- The update of a known player in `add_or_update` (player.rs 66-73). -/
def Player.update (p new : Player) : Player :=
  { p with
    number := new.number
    linking := if p.linking = false ∧ new.linking = true then new.linking else p.linking }

/-- `PlayerCollection::add_or_update` (player.rs 64-79) with `get_mut` (60-62): the first player with
the address is updated in place; a new one goes to the end. -/
def addOrUpdate (new : Player) : List Player → List Player
  | [] => [new]
  | p :: ps => if p.address = new.address then p.update new :: ps else p :: addOrUpdate new ps

/-! ## Server state -/

/-- `ServerState` (server.rs 35-42). -/
structure ServerState where
  linking : Bool
  discovery : Bool
  linked : Bool
  address : Option PioneerNetwork
  players : List Player
deriving DecidableEq, Repr

/-- `ServerState::default` (server.rs 44-54). -/
def ServerState.default : ServerState := ⟨false, false, false, none, []⟩

/-- `ServerState::is_linking_possible` (server.rs 273-283). -/
def ServerState.isLinkingPossible (s : ServerState) : Bool :=
  if s.players.length > 0 then (if s.linking = false then true else false) else false

/-- `ApplicationEvent` (server.rs 29-33). -/
inductive AppEvent
  | initiateLink
  | deviceChange
deriving DecidableEq, Repr

/-- `handle_keepalive_status` (server.rs 232-258) with `synchronize_player_broadcast_network`
(266-271): the new state and the events sent.  The receiver of the channel lives as long as the
process, so `tx.send` succeeds. -/
def handleKeepaliveStatus (ifaces : List Interface) (model : Str) (st : KaStatus) (s : ServerState) :
    Outcome (ServerState × List AppEvent) :=
  let previous := s.players.length
  (matchInterface st.ip ifaces).bind fun network =>
    let s' := { s with
      address := network
      players := addOrUpdate (Player.new model st.playerNumber st.ip) s.players }
    .ok (s', (if previous ≠ s'.players.length then [.deviceChange] else []) ++
      (if s'.isLinkingPossible then [.initiateLink] else []))

/-- The packets `KeepaliveEventHandler::on_event` acts on (server.rs 217-228). -/
def acceptedStatus (p : KaPacket) : Option KaStatus :=
  match p.kind, p.content with
  | .status, .status st => if p.model ≠ rekordboxName then some st else none
  | _, _ => none

/-! ## Broadcasts -/

/-- `send_broadcast_payload` (server.rs 314-322) with `send_data` (324-333): a datagram to port
50000 of the broadcast address; `ok` is whether the socket could be set up.  Whether the OS accepts
the datagram does not matter. -/
def sendBroadcast (a : PioneerNetwork) (p : KaPacket) (ok : Bool) : Outcome (Bytes × Ip4 × UInt16) :=
  if ok then p.encode.bind fun b => .ok (b, a.broadcast, 50000) else .panic

/-- The packets of a negotiation in order (server.rs 110-139). -/
def negotiationPackets (a : PioneerNetwork) : List KaPacket :=
  ([1, 2, 3].map fun sequence => kaMacPackage sequence a.mac) ++
  ([1, 2, 3, 4, 5, 6].flatMap fun sequence =>
    [1, 2, 3, 4, 5, 6].map fun index => kaIpPackage sequence index a.ip a.mac) ++
  [kaStatusPackage a.ip a.mac 4 8]

/-- Send packets one after the other, up to the first panic: what was sent, and whether all went
well (the calls of `broadcast_message` in `initiate_mac_ip_negotiation` (server.rs 110-138,
152-155)). -/
def sendAll (a : PioneerNetwork) : List KaPacket → List Bool → List (Bytes × Ip4 × UInt16) × Bool
  | [], _ => ([], true)
  | p :: ps, oks =>
    match sendBroadcast a p (oks.headD true) with
    | .panic => ([], false)
    | .ok x =>
      let r := sendAll a ps oks.tail
      (x :: r.1, r.2)

/-! ## The system -/

/-- All threads (rekordbox/server.rs 35-61, 172-207; component/mod.rs 6-9; `pending` and the thread
flags are program counters). -/
structure AppSystem where
  state : ServerState
  /-- the mutex around the state -/
  poisoned : Bool
  /-- the channel from the receiver to the application, oldest event first -/
  queue : List AppEvent
  /-- the receiver thread still runs -/
  receiver : Bool
  /-- the broadcaster thread still runs -/
  broadcaster : Bool
  /-- the application has taken an `InitiateLink` event and not yet acted on it -/
  pending : Bool
  /-- the process still runs -/
  running : Bool
deriving DecidableEq, Repr

/-- `App::new` and the start of the threads (component/mod.rs 13-32). -/
def AppSystem.start : AppSystem := ⟨.default, false, [], true, true, false, true⟩

/-- Actions of the threads (see the header: server.rs 188-207, 217-230, component/mod.rs 27-51). -/
inductive AppAction
  | receive (ifaces : List Interface) (d : Bytes)
  | broadcast (ok : Bool)
  | appRecv
  | appLink (oks : List Bool)

/-- One iteration of the receiver (keepalive.rs 116-138; server.rs 216-230). -/
def receiveStep (ifaces : List Interface) (d : Bytes) (s : AppSystem) : AppSystem :=
  match kaReceive d with
  | .panic => { s with receiver := false }
  | .ok none => s
  | .ok (some p) =>
    match acceptedStatus p with
    | none => s
    | some st =>
      if s.poisoned then s
      else
        match handleKeepaliveStatus ifaces p.model st s.state with
        | .panic => { s with receiver := false, poisoned := true }
        | .ok (state, events) => { s with state := state, queue := s.queue ++ events }

/-- One iteration of the broadcaster (server.rs 188-207). -/
def broadcastStep (ok : Bool) (s : AppSystem) : List (Bytes × Ip4 × UInt16) × AppSystem :=
  if s.poisoned then ([], s)
  else
    match s.state.address with
    | none => ([], s)
    | some a =>
      match sendBroadcast a (kaStatusPackage a.ip a.mac 1 0) ok with
      | .ok x => ([x], s)
      | .panic => ([], { s with broadcaster := false, poisoned := true })

/-- `App::next` up to the call of `initiate_linking` (component/mod.rs 40-45). -/
def appRecvStep (s : AppSystem) : AppSystem :=
  match s.queue with
  | [] => s
  | .initiateLink :: q => { s with queue := q, pending := true }
  | .deviceChange :: q => { s with queue := q }

/-- `App::initiate_linking` (component/mod.rs 36-38) with `initiate_mac_ip_negotiation` (server.rs
101-150). -/
def appLinkStep (oks : List Bool) (s : AppSystem) : List (Bytes × Ip4 × UInt16) × AppSystem :=
  if s.poisoned then ([], { s with running := false })
  else
    match s.state.address with
    | none => ([], { s with state := { s.state with linking := true }, running := false })
    | some a =>
      let r := sendAll a (negotiationPackets a) oks
      (r.1, { s with
        state := { s.state with linking := true }
        pending := false
        running := r.2 })

/-- One action; a thread that has ended or waits does nothing (interleaving of server.rs 172-207 and
component/mod.rs 30-33). -/
def appStep (s : AppSystem) (x : AppAction) : List (Bytes × Ip4 × UInt16) × AppSystem :=
  if s.running then
    match x with
    | .receive ifaces d => ([], if s.receiver then receiveStep ifaces d s else s)
    | .broadcast ok => if s.broadcaster then broadcastStep ok s else ([], s)
    | .appRecv => ([], if s.pending then s else appRecvStep s)
    | .appLink oks => if s.pending then appLinkStep oks s else ([], s)
  else ([], s)

/-- A schedule (any interleaving of the threads of server.rs 172-207 and component/mod.rs 30-33). -/
def appRun : AppSystem → List AppAction → List (Bytes × Ip4 × UInt16) × AppSystem
  | s, [] => ([], s)
  | s, x :: xs =>
    let r := appStep s x
    let rs := appRun r.2 xs
    (r.1 ++ rs.1, rs.2)

end PDJ

import Verif.Model.Startup

/-!
# What the program writes to its log

Diagnostics are written with `eprintln!` and `dbg!`, and once with `println!`
(`/repo/src/rekordbox/status_event_server.rs` 140).  These macros panic when the line cannot be written: when the
reader of a pipe is gone, or a file system is full (a standard error that was closed is not an error).  So every
line is a place at which the thread or task that writes it can end.

* This is `Model/System.lean` with the lines of every step.  For every step two oracles tell which of its lines can be
  written, and which of its datagrams the OS refuses (which is logged).
* A datagram that is refused counts as given to the OS, as in `Model/System.lean`.
* The messages of panics are not counted as lines; that they cannot be written is no error.
* A reply or port that a TCP connection of the library does not take (`/repo/src/rekordbox/library.rs` 719, 773) counts as
  given to it as well; that a connection ends with an error (723) is the event `close` with a line.  What is in the
  buffer of such a connection is in `Model/Stream.lean`.
* A failing `accept` at the library's port (`/repo/src/rekordbox/library.rs` 782) is in `Model/Accept.lean`.  The two lines
  for a channel without receiver (`/repo/src/rekordbox/server.rs` 249, 255) are not modelled; it exists as long as the
  process does in `Model/System.lean`.
* The line for an error of `status_event_server` (`/repo/src/rekordbox/server.rs` 87) is never written: that function
  does not return one (158-170; `/repo/src/rekordbox/status_event_server.rs` 31-38).
* The line for a failed `send_to` (`/repo/src/rekordbox/status_event_server.rs` 114) is never written: `send_to` does
  not fail (94-105).
* `LogLine` has what distinguishes the lines; texts of the operating system are left out.
-/

namespace PDJ

variable {F : Type}

/-- A line of the log. -/
inductive LogLine
  /-- `Received no-op event: DeviceChange` (component/mod.rs 45) -/
  | noOpEvent
  /-- `"InitiateLink"` (rekordbox/server.rs 102) -/
  | initiateLink
  /-- the error of the poisoned lock (rekordbox/server.rs 146) -/
  | lockPoisoned
  /-- a broadcast that the OS refuses (rekordbox/server.rs 330) -/
  | broadcastRefused
  /-- `Failed decoding KeepAlivePacket` (keepalive.rs 129-132) -/
  | badAnnouncement (d : Bytes)
  /-- `Failed decoding StatusPacket` (status_event_server.rs 134) -/
  | badStatus (d : Bytes)
  /-- a kind of status packet that is not implemented (rekordbox/packets.rs 434) -/
  | statusKind
  /-- `Other event` (status_event_server.rs 87) -/
  | otherStatus (p : StatusPacket)
  /-- a reply that the OS refuses (status_event_server.rs 98) -/
  | statusRefused
  /-- `Something went wrong`, on the standard output (status_event_server.rs 140) -/
  | statusUnreadable
  /-- `TryFrom failed` (rpc/packets.rs 66) -/
  | badRpc (d : Bytes)
  /-- `error decoding bytes into RPC Message` (rpc/server.rs 81) -/
  | rpcError
  /-- the error of an NFS procedure (rpc/nfs_program.rs 139) -/
  | nfsError (e : NfsError)
  /-- `DBRequestType: .. has no controller implemented.` (library.rs 680-683) -/
  | noController (r : ReqType) (chunk : Bytes)
  /-- `Error` (library.rs 693) -/
  | queryError
  /-- `Not covered` (library.rs 694) -/
  | queryNotCovered (chunk : Bytes)
  /-- `failed reading connection on socket` (library.rs 727) -/
  | acceptFailed
  /-- `failed sending library query response` (library.rs 719) -/
  | replyRefused
  /-- `library client handler got error` (library.rs 723) -/
  | connectionFailed
  /-- `failed sending library server port to client` (library.rs 773) -/
  | portRefused
  /-- `error accepting socket` (library.rs 782) -/
  | acceptError
  /-- `"server starting"` (rekordbox/server.rs 77) -/
  | serverStarting
  /-- `"server started"` (rekordbox/server.rs 91) -/
  | serverStarted
  /-- `"Starting portmap server"` (rekordbox/rpc.rs 21) -/
  | portmapStarting
deriving DecidableEq

/-- What the OS does during a step: can the line with this number be written, and is the datagram, reply or port with
this number accepted, or the end of a connection in order?  (below status_event_server.rs 96, rekordbox/server.rs 329,
library.rs 710-714 and 772, and the macros) -/
structure LogOs where
  written : Nat → Bool
  accepted : Nat → Bool

/-- Write the line with a number: what is in the log, and whether the thread goes on (`eprintln!`, for instance
keepalive.rs 129). -/
def writeLine (o : LogOs) (k : Nat) (l : LogLine) : List LogLine × Bool :=
  if o.written k then ([l], true) else ([], false)

/-! ## The threads -/

/-- One iteration of the receiver (keepalive.rs 116-138; server.rs 216-230).  It does not hold the lock when it
writes. -/
def receiveLog (ifaces : List Interface) (d : Bytes) (o : LogOs) (s : AppSystem) : List LogLine × AppSystem :=
  match kaReceive d with
  | .ok none =>
    let w := writeLine o 0 (.badAnnouncement (d.take 1024))
    (w.1, if w.2 then s else { s with receiver := false })
  | _ => ([], receiveStep ifaces d s)

/-- One iteration of the broadcaster (server.rs 188-207, 314-333).  It holds the lock when it writes. -/
def broadcastLog (ok : Bool) (o : LogOs) (s : AppSystem) :
    List (Bytes × Ip4 × UInt16) × List LogLine × AppSystem :=
  if s.poisoned then ([], [], s)
  else
    match s.state.address with
    | none => ([], [], s)
    | some a =>
      match sendBroadcast a (kaStatusPackage a.ip a.mac 1 0) ok with
      | .ok x =>
        if o.accepted 0 then ([x], [], s)
        else
          let w := writeLine o 0 .broadcastRefused
          ([x], w.1, if w.2 then s else { s with broadcaster := false, poisoned := true })
      | .panic => ([], [], { s with broadcaster := false, poisoned := true })

/-- `App::next` up to the call of `initiate_linking` (component/mod.rs 40-45). -/
def appRecvLog (o : LogOs) (s : AppSystem) : List LogLine × AppSystem :=
  match s.queue with
  | [] => ([], s)
  | .initiateLink :: q => ([], { s with queue := q, pending := true })
  | .deviceChange :: q =>
    let w := writeLine o 0 .noOpEvent
    (w.1, { s with queue := q, running := w.2 })

/-- The calls of `broadcast_message` in a negotiation (server.rs 110-138, 152-155, 324-333), from the datagram with
number `k` and the line with number `n` on. -/
def sendAllLog (a : PioneerNetwork) (o : LogOs) : (k n : Nat) → List KaPacket → List Bool →
    List (Bytes × Ip4 × UInt16) × List LogLine × Bool
  | _, _, [], _ => ([], [], true)
  | k, n, p :: ps, oks =>
    match sendBroadcast a p (oks.headD true) with
    | .panic => ([], [], false)
    | .ok x =>
      if o.accepted k then
        let r := sendAllLog a o (k + 1) n ps oks.tail
        (x :: r.1, r.2.1, r.2.2)
      else
        let w := writeLine o n .broadcastRefused
        if w.2 then
          let r := sendAllLog a o (k + 1) (n + 1) ps oks.tail
          (x :: r.1, w.1 ++ r.2.1, r.2.2)
        else ([x], w.1, false)

/-- `initiate_mac_ip_negotiation` after its first line (server.rs 104-150) and the `unwrap` of its result
(component/mod.rs 37). -/
def appLinkBody (oks : List Bool) (o : LogOs) (s : AppSystem) :
    List (Bytes × Ip4 × UInt16) × List LogLine × AppSystem :=
  if s.poisoned then ([], (writeLine o 1 .lockPoisoned).1, { s with running := false })
  else
    match s.state.address with
    | none => ([], [], { s with state := { s.state with linking := true }, running := false })
    | some a =>
      let r := sendAllLog a o 0 1 (negotiationPackets a) oks
      (r.1, r.2.1, { s with
        state := { s.state with linking := true }
        pending := false
        running := r.2.2 })

/-- `App::initiate_linking` (component/mod.rs 36-38) with `initiate_mac_ip_negotiation` (server.rs 101-150). -/
def appLinkLog (oks : List Bool) (o : LogOs) (s : AppSystem) :
    List (Bytes × Ip4 × UInt16) × List LogLine × AppSystem :=
  let w := writeLine o 0 .initiateLink
  if w.2 then
    let r := appLinkBody oks o s
    (r.1, w.1 ++ r.2.1, r.2.2)
  else ([], w.1, { s with running := false })

/-- One action of a thread (interleaving of server.rs 172-207 and component/mod.rs 30-33). -/
def appLog (s : AppSystem) (o : LogOs) (x : AppAction) : List (Bytes × Ip4 × UInt16) × List LogLine × AppSystem :=
  if s.running then
    match x with
    | .receive ifaces d => ([], if s.receiver then receiveLog ifaces d o s else ([], s))
    | .broadcast ok => if s.broadcaster then broadcastLog ok o s else ([], [], s)
    | .appRecv => ([], if s.pending then ([], s) else appRecvLog o s)
    | .appLink oks => if s.pending then appLinkLog oks o s else ([], [], s)
  else ([], [], s)

/-- A status packet that was decoded: the reply and its sending, or the line of an event without reply
(status_event_server.rs 50-105). -/
def statusEventLog (o : LogOs) (p : StatusPacket) (sender : Ip4) :
    List (Bytes × Ip4 × UInt16) × List LogLine × Bool :=
  match processPacket p with
  | none => if p.kind = .cdj then ([], [], true) else ([], writeLine o 0 (.otherStatus p))
  | some reply =>
    match reply.encode with
    | .ok b =>
      if o.accepted 0 then ([(b, sender, statusPort)], [], true)
      else ([(b, sender, statusPort)], writeLine o 0 .statusRefused)
    | .panic => ([], [], false)

/-- One iteration of `StatusEventServer::run` (status_event_server.rs 107-150; rekordbox/packets.rs 426-439). -/
def statusLog (o : LogOs) (r : StatusRecv) : Bool → List (Bytes × Ip4 × UInt16) × List LogLine × Bool
  | false => ([], [], false)
  | true =>
    match r with
    | .ioError => ([], writeLine o 0 .statusUnreadable)
    | .datagram d sender =>
      match StatusPacket.decode (d.take 1024) with
      | .err => ([], writeLine o 0 (.badStatus (d.take 1024)))
      | .fail => ([], writeLine o 0 (.badStatus (d.take 1024)))
      | .panic => ([], (writeLine o 0 .statusKind).1, false)
      | .ok _ p => statusEventLog o p sender

/-! ## The RPC services -/

/-- One iteration of `rpc_program_server` (rpc/server.rs 60-86; rpc/packets.rs 62-70). -/
def progLog (net : Option PioneerNetwork) (os : Bytes → Addr → Bool) (r : Recv) (o : LogOs) :
    Bool → List (Bytes × Addr) × List LogLine × Bool
  | false => ([], [], false)
  | true =>
    match r with
    | .ioError => ([], writeLine o 0 .rpcError)
    | .datagram d _ =>
      match rpcFrame d with
      | .invalid =>
        let w := writeLine o 0 (.badRpc d)
        if w.2 then
          let v := writeLine o 1 .rpcError
          ([], w.1 ++ v.1, v.2)
        else ([], w.1, false)
      | _ =>
        let x := progStep net os r true
        (x.1, [], x.2)

/-- One iteration of `PortmapServer::run` (rpc/server.rs 106-158; rpc/packets.rs 62-70): an error of the socket is not
logged. -/
def portmapLog (os : Bytes → Addr → Bool) (bound : Option UInt16) (r : Recv) (o : LogOs) (s : RpcSystem F) :
    List (Bytes × Addr) × List LogLine × RpcSystem F :=
  if s.portmap then
    match r with
    | .ioError => ([], [], s)
    | .datagram d _ =>
      match rpcFrame d with
      | .invalid =>
        let w := writeLine o 0 (.badRpc d)
        ([], w.1, { s with portmap := w.2 })
      | _ =>
        let x := portmapStep os bound r s
        (x.1, [], x.2)
  else ([], [], s)

/-- The continuation of `RpcNfsProgramHandler::run` after the procedure call (rpc/nfs_program.rs 122-143). -/
def nfsReplyLog (os : SendOs) (pending : Option (Bytes × Addr)) (xid : UInt32) (peer : Addr) (o : LogOs)
    (r : NfsResult F) : List (Bytes × Addr) × List LogLine × NfsTask F :=
  match r with
  | .ok (.error er, s) =>
    let w := writeLine o 0 (.nfsError er)
    ([], w.1, if w.2 then .running s pending else .dead)
  | _ =>
    let x := nfsReply os pending xid peer r
    (x.1, [], x.2)

/-- One iteration of `RpcNfsProgramHandler::run` (rpc/nfs_program.rs 117-148; rpc/packets.rs 62-70): an error of the
socket is not logged. -/
def nfsLog (e : Endian) (w : World F) (os : SendOs) (r : Recv) (o : LogOs) :
    NfsTask F → List (Bytes × Addr) × List LogLine × NfsTask F
  | .dead => ([], [], .dead)
  | .running s pending =>
    match r with
    | .ioError => ([], [], .running s pending)
    | .datagram d peer =>
      match rpcFrame d with
      | .nothing => ([], [], .running s pending)
      | .invalid =>
        let w := writeLine o 0 (.badRpc d)
        ([], w.1, if w.2 then .running s pending else .dead)
      | .panic => ([], [], .dead)
      | .request q => nfsReplyLog os pending q.xid peer o (s.callProcedure e w q.call.procedure)

/-- One step of a handler (rpc/server.rs 64-83; rpc/nfs_program.rs 118-147). -/
def taskLog (e : Endian) (net : Option PioneerNetwork) (ev : NfsEvent F) (o : LogOs) :
    RpcTask F → List (Bytes × Addr) × List LogLine × RpcTask F
  | .nfs t =>
    let r := nfsLog e ev.world ev.os ev.recv o t
    (r.1, r.2.1, .nfs r.2.2)
  | .program b =>
    let r := progLog net (ev.os false) ev.recv o b
    (r.1, r.2.1, .program r.2.2)

/-- Deliver an event to the handler that listens at a port (the OS; sockets bound in rpc/server.rs 110). -/
def deliverLog (e : Endian) (net : Option PioneerNetwork) (port : UInt16) (ev : NfsEvent F) (o : LogOs) :
    List (UInt16 × RpcTask F) → List (Bytes × Addr) × List LogLine × List (UInt16 × RpcTask F)
  | [] => ([], [], [])
  | t :: ts =>
    if t.1 = port ∧ t.2.live = true then
      let r := taskLog e net ev o t.2
      (r.1, r.2.1, (t.1, r.2.2) :: ts)
    else
      let r := deliverLog e net port ev o ts
      (r.1, r.2.1, t :: r.2.2)

/-! ## The library -/

/-- The line that dealing with a chunk writes before it replies (library.rs 667-698). -/
def queryLine (m : Mode) (chunk : Bytes) : Option LogLine :=
  if chunk.length = 5 then none
  else
    match DBMessage.parse m chunk with
    | .ok _ d =>
      match getController d.rtype with
      | some _ => none
      | none => some (.noController d.rtype chunk)
    | .err => some .queryError
    | .fail => some (.queryNotCovered chunk)
    | .panic => none

/-- Write it (library.rs 680-694). -/
def queryLog (m : Mode) (o : LogOs) (chunk : Bytes) : List LogLine × Bool :=
  match queryLine m chunk with
  | none => ([], true)
  | some l => writeLine o 0 l

/-- Send the reply to a chunk, if there is one, after `n` lines (library.rs 712-721). -/
def replyLog (o : LogOs) (n : Nat) (r : List Bytes × Phase) : List Bytes × List LogLine × Phase :=
  match r.1 with
  | [] => ([], [], r.2)
  | b :: bs =>
    if o.accepted 0 then (b :: bs, [], r.2)
    else
      let w := writeLine o n .replyRefused
      (b :: bs, w.1, if w.2 then r.2 else .finished)

/-- One event at a handler (library.rs 700-729). -/
def handlerLog (m : Mode) (db : Db) (o : LogOs) (e : HandlerEvent) (p : Phase) :
    List Bytes × List LogLine × Phase :=
  match e, p with
  | .refused, .listening => ([], (writeLine o 0 .acceptFailed).1, .finished)
  | .data io chunk, .serving ctx =>
    let w := queryLog m o chunk
    if w.2 then
      let r := replyLog o w.1.length (handlerStep m db (.data io chunk) (.serving ctx))
      (r.1, w.1 ++ r.2.1, r.2.2)
    else ([], w.1, .finished)
  | .close, .serving _ =>
    if o.accepted 0 then ([], [], .finished)
    else ([], (writeLine o 0 .connectionFailed).1, .finished)
  | e, p =>
    let r := handlerStep m db e p
    (r.1, [], r.2)

/-- A chunk on a connection to the well-known port (library.rs 751-779): when the task ends because a line is lost, the
listener that it has made stays. -/
def mainLog (o : LogOs) (c : Nat) (r : List LibOut × LibServer) : List LibOut × List LogLine × LibServer :=
  match r.1 with
  | [] => ([], [], r.2)
  | b :: bs =>
    if o.accepted 0 then (b :: bs, [], r.2)
    else
      let w := writeLine o 0 .portRefused
      (b :: bs, w.1, if w.2 then r.2 else { r.2 with deadMains := c :: r.2.deadMains })

/-- One event at the library (library.rs 700-785). -/
def libLog (m : Mode) (db : Db) (o : LogOs) (s : LibServer) : LibEvent → List LibOut × List LogLine × LibServer
  | .main c bound => mainLog o c (libStep m db s (.main c bound))
  | .handler h e =>
    match s.handlers[h]? with
    | none => ([], [], s)
    | some hd =>
      let r := handlerLog m db o e hd.phase
      (r.1.map (.toHandler h), r.2.1, { s with handlers := s.handlers.set h ⟨hd.port, r.2.2⟩ })

/-! ## All together -/

/-- One event: what is sent, what is in the log, and the new state (rekordbox/server.rs 76-99 and component/mod.rs
30-33). -/
def sysLog (e : Endian) (m : Mode) (db : Db) (s : System F) (x : SysAction F) (o : LogOs) :
    List SysOut × List LogLine × System F :=
  if s.app.running then
    match x with
    | .app x =>
      let r := appLog s.app o x
      (r.1.map .broadcast, r.2.1, { s with app := r.2.2 })
    | .portmap os bound recv =>
      let r := portmapLog os bound recv o s.services.rpc
      (r.1.map (fun y => .rpc (none, y)), r.2.1,
        { s with services := ⟨r.2.2, s.services.accepting && r.2.2.portmap⟩ })
    | .port p ev =>
      let r := deliverLog e (knownNetwork s.app) p ev o s.services.rpc.tasks
      (r.1.map (fun y => .rpc (some p, y)), r.2.1,
        { s with services := ⟨{ s.services.rpc with tasks := r.2.2 },
            s.services.accepting && s.services.rpc.portmap⟩ })
    | .main c bound =>
      if c ∈ s.mains then
        let r := libLog m db o s.lib (.main c bound)
        (r.1.map .lib, r.2.1, { s with lib := r.2.2 })
      else ([], [], s)
    | .handler h ev =>
      let r := libLog m db o s.lib (.handler h ev)
      (r.1.map .lib, r.2.1, { s with lib := r.2.2 })
    | .status r =>
      let r := statusLog o r s.status
      (r.1.map .status, r.2.1, { s with status := r.2.2 })
    | x =>
      let r := sysStep e m db s x
      (r.1, [], r.2)
  else ([], [], s)

/-- A history of the process (rekordbox/server.rs 76-99). -/
def sysLogRun (e : Endian) (m : Mode) (db : Db) : System F → List (SysAction F × LogOs) →
    List SysOut × List LogLine × System F
  | s, [] => ([], [], s)
  | s, x :: xs =>
    let r := sysLog e m db s x.1 x.2
    let rs := sysLogRun e m db r.2.2 xs
    (r.1 ++ rs.1, r.2.1 ++ rs.2.1, rs.2.2)

/-- The process that has ended before its loop (component/mod.rs 27-28). -/
def notStarted : System F := { (System.start : System F) with app := { AppSystem.start with running := false } }

/-- The start with its lines (rekordbox/server.rs 76-99; rekordbox/rpc.rs 14-28): the first two are written by the main
thread, the third by the task that becomes the portmapper, before it binds its port. -/
def bootLog (b : Binds) (indexed : Outcome Db) (o : LogOs) : List LogLine × System F :=
  match indexed with
  | .panic => ([], notStarted)
  | .ok _ =>
    let w := writeLine o 0 .serverStarting
    if w.2 then
      if b.keepalive = false ∨ b.broadcast = false ∨ b.status = false then (w.1, notStarted)
      else
        let v := writeLine o 1 .serverStarted
        if v.2 then
          let u := writeLine o 2 .portmapStarting
          (w.1 ++ v.1 ++ u.1, boot { b with portmap := b.portmap && u.2 } indexed)
        else (w.1 ++ v.1, notStarted)
    else (w.1, notStarted)

end PDJ

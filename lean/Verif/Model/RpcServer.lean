import Verif.Model.Nfs
import Verif.Model.Network

/-!
# The portmapper, the mount program and the supervision of the services

`/repo/src/rpc/server.rs`, `/repo/src/rekordbox/rpc.rs` and `Server::run` in
`/repo/src/rekordbox/server.rs`.

* Tasks spawned with `tokio::spawn` are independent; a panic ends the task it happens in.
* A UDP socket is known by its port.  `bind` to port 0 is an oracle: the port the OS chose, or a
  failure.
* `state.lock()` followed by `state.address()` is an oracle of each event: the known network, or
  `none` (also for a poisoned lock).
-/

namespace PDJ

variable {F : Type}

/-! ## The mount program -/

/-- `mount_export_rpc_callback` (rekordbox/rpc.rs 39-57); `none` is the `Err`. -/
def mountExport (net : Option PioneerNetwork) : Option RpcReplyMessage :=
  match net with
  | some n => some (.mountExport [⟨['/'], [ipText n.ip ++ '/' :: ipText n.mask]⟩])
  | none => none

/-- `mount_mnt_rpc_callback` (rekordbox/rpc.rs 35-37). -/
def mountMnt : RpcReplyMessage := .mountMnt 0 ⟨List.replicate 32 0x00⟩

/-- `EventHandler::on_event` (rekordbox/rpc.rs 71-93) with `rpc_procedure_router`
(rpc/server.rs 41-55): the reply, or `none` for either kind of error. -/
def routeProcedure (net : Option PioneerNetwork) : RpcProcedure → Option RpcReplyMessage
  | .mountExport => mountExport net
  | .mountMnt _ => some mountMnt
  | _ => none

/-- One iteration of `rpc_program_server` (rpc/server.rs 60-86); the flag tells whether the task
still runs.  A failed send ends it, so nothing ever waits in the write buffer. -/
def progStep (net : Option PioneerNetwork) (os : Bytes → Addr → Bool) (r : Recv) :
    Bool → List (Bytes × Addr) × Bool
  | false => ([], false)
  | true =>
    match r with
    | .ioError => ([], true)
    | .datagram d peer =>
      match rpcFrame d with
      | .nothing => ([], true)
      | .invalid => ([], true)
      | .panic => ([], false)
      | .request q =>
        match routeProcedure net q.call.procedure with
        | none => ([], false)
        | some reply =>
          if os (rpcDatagram (successReply q.xid reply)) peer then
            ([(rpcDatagram (successReply q.xid reply), peer)], true)
          else ([], false)

/-! ## The portmapper -/

/-- A spawned handler (rpc/server.rs 119-133). -/
inductive RpcTask (F : Type)
  | nfs (t : NfsTask F)
  | program (alive : Bool)

/-- Does the handler still listen on its socket? (a task drops its socket when it ends,
rpc/server.rs 121-132). -/
def RpcTask.live : RpcTask F → Bool
  | .nfs (.running _ _) => true
  | .nfs .dead => false
  | .program b => b

/-- The portmapper task and the handlers it spawned, with their ports (rpc/server.rs 102-162). -/
structure RpcSystem (F : Type) where
  portmap : Bool
  tasks : List (UInt16 × RpcTask F)

/-- The RPC services just started (rekordbox/rpc.rs 14-33). -/
def RpcSystem.start : RpcSystem F := ⟨true, []⟩

/-- The handler spawned for a call (rpc/server.rs 114-139). -/
def spawned (p : RpcProcedure) : Option (RpcTask F) :=
  match p with
  | .portmapGetport a =>
    match a.program with
    | .nfs => some (.nfs .start)
    | _ => some (.program true)
  | _ => none

/-- One iteration of `PortmapServer::run` (rpc/server.rs 106-158).  The handler is spawned before
the reply is sent; a failed bind or send ends `run`, and its caller panics
(rekordbox/rpc.rs 22-27). -/
def portmapStep (os : Bytes → Addr → Bool) (bound : Option UInt16) (r : Recv) (s : RpcSystem F) :
    List (Bytes × Addr) × RpcSystem F :=
  if s.portmap then
    match r with
    | .ioError => ([], s)
    | .datagram d peer =>
      match rpcFrame d with
      | .nothing => ([], s)
      | .invalid => ([], s)
      | .panic => ([], { s with portmap := false })
      | .request q =>
        match bound with
        | none => ([], { s with portmap := false })
        | some port =>
          let tasks := match spawned q.call.procedure with
            | some t => s.tasks ++ [(port, t)]
            | none => s.tasks
          let reply := rpcDatagram (successReply q.xid (.portmapGetport (UInt32.ofNat port.toNat)))
          if os reply peer then ([(reply, peer)], { s with tasks := tasks })
          else ([], ⟨false, tasks⟩)
  else ([], s)

/-- One step of a handler (rpc/server.rs 64-83; rpc/nfs_program.rs 118-147). -/
def taskStep (e : Endian) (net : Option PioneerNetwork) (ev : NfsEvent F) :
    RpcTask F → List (Bytes × Addr) × RpcTask F
  | .nfs t =>
    let r := nfsStep e ev.world ev.os ev.recv t
    (r.1, .nfs r.2)
  | .program b =>
    let r := progStep net (ev.os false) ev.recv b
    (r.1, .program r.2)

/-- Deliver an event to the socket bound to a port: the handler that still listens there (the OS;
sockets bound in rpc/server.rs 110). -/
def deliver (e : Endian) (net : Option PioneerNetwork) (port : UInt16) (ev : NfsEvent F) :
    List (UInt16 × RpcTask F) → List (Bytes × Addr) × List (UInt16 × RpcTask F)
  | [] => ([], [])
  | t :: ts =>
    if t.1 = port ∧ t.2.live = true then
      let r := taskStep e net ev t.2
      (r.1, (t.1, r.2) :: ts)
    else
      let r := deliver e net port ev ts
      (r.1, t :: r.2)

/-- What can happen to the RPC services (rpc/server.rs 64, 106; rpc/nfs_program.rs 118). -/
inductive RpcEvent (F : Type)
  /-- something received on the portmapper's socket, with the port the OS would bind -/
  | portmap (os : Bytes → Addr → Bool) (bound : Option UInt16) (recv : Recv)
  /-- something received on the socket bound to a port, with the known network -/
  | port (p : UInt16) (net : Option PioneerNetwork) (ev : NfsEvent F)

/-- One event; the outputs carry the sending port (`none` is the portmapper's) (rpc/server.rs
60-162). -/
def rpcStep (e : Endian) (s : RpcSystem F) :
    RpcEvent F → List (Option UInt16 × Bytes × Addr) × RpcSystem F
  | .portmap os bound r =>
    let x := portmapStep os bound r s
    (x.1.map (fun o => (none, o)), x.2)
  | .port p net ev =>
    let x := deliver e net p ev s.tasks
    (x.1.map (fun o => (some p, o)), { s with tasks := x.2 })

/-- A history of events (the loops of rpc/server.rs 64-83, 106-159). -/
def rpcRun (e : Endian) : RpcSystem F → List (RpcEvent F) →
    List (Option UInt16 × Bytes × Addr) × RpcSystem F
  | s, [] => ([], s)
  | s, x :: xs =>
    let r := rpcStep e s x
    let rs := rpcRun e r.2 xs
    (r.1 ++ rs.1, rs.2)

/-! ## Supervision -/

/-- The services run together by `try_join!` (rekordbox/server.rs 76-99): the RPC services and the
accept loop of the library's well-known port. -/
structure Services (F : Type) where
  rpc : RpcSystem F
  accepting : Bool

/-- One event at the RPC services.  When the portmapper task ends, `join.await?`
(rekordbox/rpc.rs 30) is an error, `try_join!` returns it and drops the accept loop of the library
(library.rs 741-785), which closes the listener. -/
def servicesStep (e : Endian) (s : Services F) (ev : RpcEvent F) :
    List (Option UInt16 × Bytes × Addr) × Services F :=
  let r := rpcStep e s.rpc ev
  (r.1, ⟨r.2, s.accepting && r.2.portmap⟩)

/-- A history of events (rekordbox/server.rs 93-98). -/
def servicesRun (e : Endian) : Services F → List (RpcEvent F) →
    List (Option UInt16 × Bytes × Addr) × Services F
  | s, [] => ([], s)
  | s, x :: xs =>
    let r := servicesStep e s x
    let rs := servicesRun e r.2 xs
    (r.1 ++ rs.1, rs.2)

/-- Everything just started, the library port bound (rekordbox/server.rs 81-98; library.rs 739). -/
def Services.start : Services F := ⟨.start, true⟩

end PDJ

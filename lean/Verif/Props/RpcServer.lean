import Verif.Lemmas.RpcServer

/-!
# Portmapper, mount program and supervision: properties C30 - C33, C60
-/

namespace PDJ

open Spec

variable {F : Type}

/-! ## C30: GETPORT -/

theorem getport_step (e : Endian) (s : RpcSystem F) (hp : s.portmap = true) (h : Hdr)
    (p : Proc) (a : PortmapGetport) (hm : Means p .portmap (.portmapGetport a)) (t : RpcTask F)
    (ht : spawned (.portmapGetport a) = some t) (hlive : t.live = true) (peer : Addr)
    (port : UInt16) (hfresh : listener port s.tasks = none) (os : Bytes → Addr → Bool)
    (hos : os (rfcReply h.xid (portWord port)) peer = true) :
    ∃ s', rpcStep e s (.portmap os (some port) (.datagram (callDatagram h p) peer)) =
        ([(none, rfcReply h.xid (portWord port), peer)], s') ∧
      s'.portmap = true ∧ listener port s'.tasks = some t ∧
      (∀ q, q ≠ port → listener q s'.tasks = listener q s.tasks) ∧
      s'.tasks = s.tasks ++ [(port, t)] := by
  have hf := frame_callDatagram h p _ _ hm (by intro path e; subst e; cases hm)
  refine ⟨⟨true, s.tasks ++ [(port, t)]⟩, ?_, rfl, ?_, ?_, rfl⟩
  · simp only [rpcStep]
    rw [portmapStep_request os port _ peer _ hf s hp hos]
    simp [ht]
  · rw [listener_append, hfresh]
    simp [listener, hlive]
  · intro q hq
    rw [listener_append]
    have : listener q [(port, t)] = none := by
      simp [listener, Ne.symm hq]
    rw [this]
    cases listener q s.tasks <;> rfl

/-- C30: after any history (any state with a running portmapper) a GETPORT call for NFS is answered
with the port the OS just bound, a fresh NFS handler listens on that port, and the handlers on all
other ports are the same as before. -/
theorem C30_getport_nfs (e : Endian) (s : RpcSystem F) (hp : s.portmap = true) (h : Hdr)
    (v pt : UInt32) (peer : Addr) (port : UInt16) (hfresh : listener port s.tasks = none)
    (os : Bytes → Addr → Bool) (hos : os (rfcReply h.xid (portWord port)) peer = true) :
    ∃ s', rpcStep e s (.portmap os (some port)
        (.datagram (callDatagram h (.pmapGetport 100003 v pt)) peer)) =
        ([(none, rfcReply h.xid (portWord port), peer)], s') ∧
      s'.portmap = true ∧ listener port s'.tasks = some (.nfs .start) ∧
      (∀ q, q ≠ port → listener q s'.tasks = listener q s.tasks) := by
  obtain ⟨s', h1, h2, h3, h4, _⟩ := getport_step e s hp h _ _ (.getportNfs v pt) (.nfs .start) rfl
    rfl peer port hfresh os hos
  exact ⟨s', h1, h2, h3, h4⟩

/-- C30: the same for MOUNT. -/
theorem C30_getport_mount (e : Endian) (s : RpcSystem F) (hp : s.portmap = true) (h : Hdr)
    (v pt : UInt32) (peer : Addr) (port : UInt16) (hfresh : listener port s.tasks = none)
    (os : Bytes → Addr → Bool) (hos : os (rfcReply h.xid (portWord port)) peer = true) :
    ∃ s', rpcStep e s (.portmap os (some port)
        (.datagram (callDatagram h (.pmapGetport 100005 v pt)) peer)) =
        ([(none, rfcReply h.xid (portWord port), peer)], s') ∧
      s'.portmap = true ∧ listener port s'.tasks = some (.program true) ∧
      (∀ q, q ≠ port → listener q s'.tasks = listener q s.tasks) := by
  obtain ⟨s', h1, h2, h3, h4, _⟩ := getport_step e s hp h _ _ (.getportMount v pt) (.program true)
    rfl rfl peer port hfresh os hos
  exact ⟨s', h1, h2, h3, h4⟩

/-- C30: the handler behind the announced port is an NFS handler of its own: whatever else happens
at the portmapper and at other ports, what is sent from that port is exactly what a fresh NFS
handler sends for the datagrams arriving there. -/
theorem C30_announced_port_serves_nfs (e : Endian) (s : RpcSystem F) (hp : s.portmap = true)
    (h : Hdr) (v pt : UInt32) (peer : Addr) (port : UInt16)
    (hfresh : listener port s.tasks = none) (os : Bytes → Addr → Bool)
    (hos : os (rfcReply h.xid (portWord port)) peer = true) (es : List (RpcEvent F))
    (hre : NotRebound port es) :
    sentFrom port (rpcRun e s (.portmap os (some port)
        (.datagram (callDatagram h (.pmapGetport 100003 v pt)) peer) :: es)).1 =
      (nfsRun e .start (eventsAt port es)).1 := by
  obtain ⟨s', h1, h2, h3, h4, h5⟩ := getport_step e s hp h _ _ (.getportNfs v pt) (.nfs .start) rfl
    rfl peer port hfresh os hos
  simp only [rpcRun, h1]
  have hsent : ∀ a b, sentFrom port (a ++ b) = sentFrom port a ++ sentFrom port b := by
    intro a b; simp [sentFrom]
  rw [hsent, show sentFrom port [(none, rfcReply h.xid (portWord port), peer)] = [] from rfl,
    List.nil_append]
  refine (handler_isolated e port es hre s' (s.tasks.filter fun x => x.1 = port) .start ?_ ?_).1
  · rw [h5]; simp
  · rw [listener_filter]; exact hfresh

/-- C30: and a mount handler of its own behind a port announced for MOUNT, with the network known at each time. -/
theorem C30_announced_port_serves_mount (e : Endian) (s : RpcSystem F) (hp : s.portmap = true)
    (h : Hdr) (v pt : UInt32) (peer : Addr) (port : UInt16)
    (hfresh : listener port s.tasks = none) (os : Bytes → Addr → Bool)
    (hos : os (rfcReply h.xid (portWord port)) peer = true) (es : List (RpcEvent F))
    (hre : NotRebound port es) :
    sentFrom port (rpcRun e s (.portmap os (some port)
        (.datagram (callDatagram h (.pmapGetport 100005 v pt)) peer) :: es)).1 =
      (mountRun true (portArrivals port es)).1 := by
  obtain ⟨s', h1, h2, h3, h4, h5⟩ := getport_step e s hp h _ _ (.getportMount v pt) (.program true)
    rfl rfl peer port hfresh os hos
  simp only [rpcRun, h1]
  have hsent : ∀ a b, sentFrom port (a ++ b) = sentFrom port a ++ sentFrom port b := by
    intro a b; simp [sentFrom]
  rw [hsent, show sentFrom port [(none, rfcReply h.xid (portWord port), peer)] = [] from rfl,
    List.nil_append]
  refine (mount_isolated e port es hre s' (s.tasks.filter fun x => x.1 = port) true ?_ ?_).1
  · rw [h5]; simp
  · rw [listener_filter]; exact hfresh

/-- C30, non-vacuity: at the start every port is free. -/
example (port : UInt16) : (RpcSystem.start : RpcSystem F).portmap = true ∧
    listener port (RpcSystem.start : RpcSystem F).tasks = none := ⟨rfl, rfl⟩

/-- C30_announced_port_serves_nfs, C30_announced_port_serves_mount: and a history in which datagrams arrive at the port
and another port is bound. -/
example (w : World F) (o : SendOs) (os : Bytes → Addr → Bool) (d : Bytes) (peer : Addr) :
    NotRebound (F := F) 1000 [.port 1000 none ⟨w, o, .datagram d peer⟩, .portmap os (some 1001) (.datagram d peer)] ∧
    portArrivals (F := F) 1000 [.port 1000 none ⟨w, o, .datagram d peer⟩, .portmap os (some 1001) (.datagram d peer)] =
      [(none, ⟨w, o, .datagram d peer⟩)] := by
  refine ⟨?_, by simp [portArrivals]⟩
  intro _ _ _ hm
  simp only [List.mem_cons, reduceCtorEq, RpcEvent.portmap.injEq, List.not_mem_nil, or_false, false_or] at hm
  rw [hm.2.1]
  decide

/-! ## C31: dead ports -/

theorem dead_port_announced (e : Endian) (s : RpcSystem F) (hp : s.portmap = true) (d : Bytes)
    (q : RpcRequest) (hf : rpcFrame d = .request q)
    (hq : ∀ a, q.call.procedure ≠ .portmapGetport a) (peer : Addr) (port : UInt16)
    (hfresh : listener port s.tasks = none) (os : Bytes → Addr → Bool)
    (hos : os (rfcReply q.xid (portWord port)) peer = true) :
    ∃ s', rpcStep e s (.portmap os (some port) (.datagram d peer)) =
        ([(none, rfcReply q.xid (portWord port), peer)], s') ∧
      listener port s'.tasks = none := by
  refine ⟨⟨true, s.tasks⟩, ?_, hfresh⟩
  have hn : spawned (F := F) q.call.procedure = none := by
    unfold spawned
    split
    · rename_i a ha
      exact absurd ha (hq a)
    · rfl
  simp only [rpcStep]
  rw [portmapStep_request os port d peer q hf s hp hos, hn]
  simp

/-- C31, the negation: every call that is not GETPORT is answered with the port of a socket nobody
listens on. -/
theorem C31_dead_port_announced (e : Endian) (s : RpcSystem F) (hp : s.portmap = true) (d : Bytes)
    (xid : UInt32) (p : Proc) (hd : IsCall d xid p) (hg : ∀ a v t, p ≠ .pmapGetport a v t)
    (peer : Addr) (port : UInt16) (hfresh : listener port s.tasks = none) (os : Bytes → Addr → Bool)
    (hos : os (rfcReply xid (portWord port)) peer = true) :
    ∃ s', rpcStep e s (.portmap os (some port) (.datagram d peer)) =
        ([(none, rfcReply xid (portWord port), peer)], s') ∧
      listener port s'.tasks = none := by
  obtain ⟨q, hf, rfl, hm⟩ := (C81_call_iff d xid p).1 hd
  refine dead_port_announced e s hp d q hf ?_ peer port hfresh os hos
  intro a ha
  rw [ha] at hm
  obtain ⟨b, v, t, rfl⟩ := hm.to_getport
  exact hg _ _ _ rfl

/-- C31, non-vacuity: an RFC 1057 DUMP call is such a call. -/
example (h : Hdr) : IsCall (callDatagram h .pmapDump) h.xid .pmapDump :=
  isCall_callDatagram h .pmapDump _ _ .pmapDump (by intro p; simp)

/-- C31, what does hold: a port announced in answer to a GETPORT call has a listener. -/
theorem C31_getport_has_listener_partial (e : Endian) (s : RpcSystem F) (hp : s.portmap = true)
    (d : Bytes) (xid a v t : UInt32) (hd : IsCall d xid (.pmapGetport a v t)) (peer : Addr)
    (port : UInt16) (os : Bytes → Addr → Bool)
    (hos : os (rfcReply xid (portWord port)) peer = true) :
    ∃ s', rpcStep e s (.portmap os (some port) (.datagram d peer)) =
        ([(none, rfcReply xid (portWord port), peer)], s') ∧
      listener port s'.tasks ≠ none := by
  obtain ⟨q, hf, rfl, hm⟩ := (C81_call_iff d xid _).1 hd
  obtain ⟨t, ht, hl⟩ : ∃ t : RpcTask F, spawned q.call.procedure = some t ∧ t.live = true := by
    obtain ⟨b, hb⟩ := hm.of_getport
    rw [hb]
    cases hpr : b.program with
    | nfs => exact ⟨.nfs .start, by simp [spawned, hpr], rfl⟩
    | portmap => exact ⟨.program true, by simp [spawned, hpr], rfl⟩
    | mount => exact ⟨.program true, by simp [spawned, hpr], rfl⟩
  refine ⟨⟨true, s.tasks ++ [(port, t)]⟩, ?_, ?_⟩
  · simp only [rpcStep]
    rw [portmapStep_request os port d peer q hf s hp hos, ht]
    simp
  · rw [listener_append]
    have : listener port [(port, t)] = some t := by simp [listener, hl]
    rw [this]
    cases listener port s.tasks <;> simp

/-- C31, exactly: whatever call the portmapper answers, somebody listens on the port it announces if and only if the
call is GETPORT. -/
theorem C31_listener_iff (e : Endian) (s : RpcSystem F) (hp : s.portmap = true) (d : Bytes) (xid : UInt32) (p : Proc)
    (hd : IsCall d xid p) (peer : Addr) (port : UInt16) (hfresh : listener port s.tasks = none)
    (os : Bytes → Addr → Bool) (hos : os (rfcReply xid (portWord port)) peer = true) :
    ∃ s', rpcStep e s (.portmap os (some port) (.datagram d peer)) =
        ([(none, rfcReply xid (portWord port), peer)], s') ∧
      (listener port s'.tasks ≠ none ↔ ∃ a v t, p = .pmapGetport a v t) := by
  by_cases hg : ∃ a v t, p = .pmapGetport a v t
  · obtain ⟨a, v, t, rfl⟩ := hg
    obtain ⟨s', h1, h2⟩ := C31_getport_has_listener_partial e s hp d xid a v t hd peer port os hos
    exact ⟨s', h1, fun _ => ⟨a, v, t, rfl⟩, fun _ => h2⟩
  · obtain ⟨s', h1, h2⟩ := C31_dead_port_announced e s hp d xid p hd
      (fun a v t h => hg ⟨a, v, t, h⟩) peer port hfresh os hos
    exact ⟨s', h1, fun h => absurd h2 h, fun h => absurd h hg⟩

/-- C31, non-vacuity: a DUMP call at a portmapper that has handed out nothing. -/
example (e : Endian) (h : Hdr) (peer : Addr) (port : UInt16) :=
  C31_listener_iff (F := F) e ⟨true, []⟩ rfl (callDatagram h .pmapDump) h.xid .pmapDump
    (isCall_callDatagram h .pmapDump _ _ .pmapDump (by intro p; simp)) peer port rfl (fun _ _ => true) rfl

/-- C31: asked for its own port, the portmapper hands out a mount handler. -/
theorem C31_own_port_is_mount (e : Endian) (s : RpcSystem F) (hp : s.portmap = true) (h : Hdr)
    (v pt : UInt32) (peer : Addr) (port : UInt16) (hfresh : listener port s.tasks = none)
    (os : Bytes → Addr → Bool) (hos : os (rfcReply h.xid (portWord port)) peer = true) :
    ∃ s', rpcStep e s (.portmap os (some port)
        (.datagram (callDatagram h (.pmapGetport 100000 v pt)) peer)) =
        ([(none, rfcReply h.xid (portWord port), peer)], s') ∧
      listener port s'.tasks = some (.program true) := by
  obtain ⟨s', h1, _, h3, _⟩ := getport_step e s hp h _ _ (.getportPortmap v pt) (.program true)
    rfl rfl peer port hfresh os hos
  exact ⟨s', h1, h3⟩

/-! ## C32: the mount program -/

theorem mnt_answered (net : Option PioneerNetwork) (os : Bytes → Addr → Bool) (d : Bytes) (peer : Addr)
    (q : RpcRequest) (hf : rpcFrame d = .request q) (a : MountMnt)
    (hq : q.call.procedure = .mountMnt a)
    (hos : os (rfcReply q.xid (be32 0 ++ List.replicate 32 0)) peer = true) :
    progStep net os (.datagram d peer) true =
      ([(rfcReply q.xid (be32 0 ++ List.replicate 32 0), peer)], true) := by
  have hd : rpcDatagram (successReply q.xid mountMnt) =
      rfcReply q.xid (be32 0 ++ List.replicate 32 0) := by
    rw [C27_reply_header]
    simp only [mountMnt, RpcReplyMessage.encode]
    rw [pad_of_aligned (by simp), List.append_nil]
  unfold progStep
  simp only [hf, hq, routeProcedure, hd]
  rw [if_pos hos]

theorem export_answered (n : PioneerNetwork) (os : Bytes → Addr → Bool) (d : Bytes) (peer : Addr)
    (q : RpcRequest) (hf : rpcFrame d = .request q) (hq : q.call.procedure = .mountExport)
    (hos : ∀ b, os b peer = true) :
    ∃ b, progStep (some n) os (.datagram d peer) true = ([(b, peer)], true) ∧
      ∃ r, readRpcReply b = some (q.xid, r) := by
  unfold progStep
  simp only [hf, hq, routeProcedure, mountExport]
  rw [if_pos (hos _)]
  exact ⟨_, rfl, _, C27_reply_read _ _⟩

/-- C32: MNT of any path is answered with status 0 and the all-zero root handle. -/
theorem C32_mnt (net : Option PioneerNetwork) (os : Bytes → Addr → Bool) (d : Bytes) (peer : Addr)
    (xid : UInt32) (path : Str) (hd : IsCall d xid (.mntMnt path))
    (hos : os (rfcReply xid (be32 0 ++ List.replicate 32 0)) peer = true) :
    progStep net os (.datagram d peer) true =
      ([(rfcReply xid (be32 0 ++ List.replicate 32 0), peer)], true) := by
  obtain ⟨q, hf, rfl, hm⟩ := (C81_call_iff d xid _).1 hd
  exact mnt_answered net os d peer q hf _ hm.of_mnt hos

/-- C32: EXPORT is answered when a network is known. -/
theorem C32_export (n : PioneerNetwork) (os : Bytes → Addr → Bool) (d : Bytes) (peer : Addr)
    (xid : UInt32) (hd : IsCall d xid .mntExport) (hos : ∀ b, os b peer = true) :
    ∃ b, progStep (some n) os (.datagram d peer) true = ([(b, peer)], true) ∧
      ∃ r, readRpcReply b = some (xid, r) := by
  obtain ⟨q, hf, rfl, hm⟩ := (C81_call_iff d xid _).1 hd
  exact export_answered n os d peer q hf hm.of_export hos

/-- C32, non-vacuity: MNT and EXPORT calls of the players. -/
example (h : Hdr) : IsCall (callDatagram h (.mntMnt ['/'])) h.xid (.mntMnt ['/']) ∧
    IsCall (callDatagram h .mntExport) h.xid .mntExport :=
  ⟨isCall_callDatagram h _ _ _ (.mnt ['/'] (by decide)) (by intro p hp; cases hp; decide),
    isCall_callDatagram h _ _ _ .exportList (by intro p; simp)⟩

/-- C32: a datagram that is no RPC message at all is ignored. -/
theorem C32_garbage_ignored (net : Option PioneerNetwork) (os : Bytes → Addr → Bool) (d : Bytes)
    (peer : Addr) (hr : ¬ IsReply d) (hq : ∀ xid p, ¬ IsCall d xid p) (b : Bool) :
    progStep net os (.datagram d peer) b = ([], b) := by
  cases b with
  | false => rfl
  | true =>
    unfold progStep
    cases hf : rpcFrame d with
    | nothing => simp only [hf]
    | invalid => simp only [hf]
    | panic => exact absurd ((C29_panics_exactly_on_replies_partial d).1 hf) hr
    | request q =>
      obtain ⟨p, hp, _⟩ := request_isCall hf
      exact absurd hp (hq _ _)

theorem stops_exactly (net : Option PioneerNetwork) (os : Bytes → Addr → Bool)
    (hos : ∀ b to, os b to = true) (r : Recv) :
    (progStep net os r true).2 = false ↔
      ∃ d peer, r = .datagram d peer ∧
        (IsReply d ∨ ∃ q, rpcFrame d = .request q ∧
          ((q.call.procedure ≠ .mountExport ∧ ∀ a, q.call.procedure ≠ .mountMnt a) ∨
           (q.call.procedure = .mountExport ∧ net = none))) := by
  cases r with
  | ioError =>
    constructor
    · intro h; exact nomatch h
    · rintro ⟨d, peer, h, _⟩; exact nomatch h
  | datagram d peer =>
    have hpan := C29_panics_exactly_on_replies_partial d
    constructor
    · intro h
      refine ⟨d, peer, rfl, ?_⟩
      unfold progStep at h
      cases hf : rpcFrame d with
      | nothing => simp only [hf] at h; exact nomatch h
      | invalid => simp only [hf] at h; exact nomatch h
      | panic => exact .inl (hpan.1 hf)
      | request q =>
        refine .inr ⟨q, rfl, ?_⟩
        simp only [hf] at h
        cases hr : routeProcedure net q.call.procedure with
        | some x => simp only [hr, hos] at h; exact nomatch h
        | none =>
          by_cases hx : q.call.procedure = .mountExport
          · rw [hx] at hr
            cases net with
            | none => exact .inr ⟨hx, rfl⟩
            | some n => exact nomatch hr
          · refine .inl ⟨hx, ?_⟩
            intro a ha
            rw [ha] at hr
            exact nomatch hr
    · rintro ⟨d', peer', he, h⟩
      cases he
      unfold progStep
      rcases h with h | ⟨q, hf, h⟩
      · simp only [hpan.2 h]
      · simp only [hf]
        have hr : routeProcedure net q.call.procedure = none := by
          rcases h with ⟨h1, h2⟩ | ⟨h1, h2⟩
          · unfold routeProcedure
            split
            · exact absurd ‹_› h1
            · rename_i a ha; exact absurd ha (h2 a)
            · rfl
          · rw [h1, h2]; rfl
        simp only [hr]

/-- A call at which a mount handler stops: any procedure but MNT and EXPORT, or EXPORT without a known
network. -/
def StopsMount (net : Option PioneerNetwork) (p : Proc) : Prop :=
  (p ≠ .mntExport ∧ ∀ path, p ≠ .mntMnt path) ∨ (p = .mntExport ∧ net = none)

/-- C32: the handler stops exactly at a reply datagram, a call of any other procedure, or EXPORT
without a known network (given that the OS accepts every answer for sending). -/
theorem C32_stops_exactly (net : Option PioneerNetwork) (os : Bytes → Addr → Bool)
    (hos : ∀ b to, os b to = true) (r : Recv) :
    (progStep net os r true).2 = false ↔
      ∃ d peer, r = .datagram d peer ∧ (IsReply d ∨ ∃ xid p, IsCall d xid p ∧ StopsMount net p) := by
  rw [stops_exactly net os hos r]
  constructor
  · rintro ⟨d, peer, hr, h | ⟨q, hf, h⟩⟩
    · exact ⟨d, peer, hr, .inl h⟩
    · obtain ⟨p, hp, hm⟩ := request_isCall hf
      refine ⟨d, peer, hr, .inr ⟨_, p, hp, ?_⟩⟩
      rcases h with ⟨h1, h2⟩ | ⟨h1, h2⟩
      · left
        constructor
        · rintro rfl
          exact h1 hm.of_export
        · rintro path rfl
          exact h2 _ hm.of_mnt
      · right
        rw [h1] at hm
        exact ⟨hm.to_export, h2⟩
  · rintro ⟨d, peer, hr, h | ⟨xid, p, hc, h⟩⟩
    · exact ⟨d, peer, hr, .inl h⟩
    · obtain ⟨q, hf, rfl, hm⟩ := (C81_call_iff d xid p).1 hc
      refine ⟨d, peer, hr, .inr ⟨q, hf, ?_⟩⟩
      rcases h with ⟨h1, h2⟩ | ⟨h1, h2⟩
      · left
        constructor
        · intro hq
          rw [hq] at hm
          exact h1 hm.to_export
        · intro a hq
          rw [hq] at hm
          obtain ⟨path, rfl⟩ := hm.to_mnt
          exact h2 _ rfl
      · right
        subst h1
        exact ⟨hm.of_export, h2⟩

/-- C32: a send the OS refuses ends the handler as well, and nothing is sent then: it stops exactly where it
would stop if every send were accepted, or where the answer it would send then is refused. -/
theorem C32_refused_stops (net : Option PioneerNetwork) (os : Bytes → Addr → Bool) (r : Recv) :
    ((progStep net os r true).2 = false ↔
      (progStep net (fun _ _ => true) r true).2 = false ∨
      ∃ b peer, (progStep net (fun _ _ => true) r true).1 = [(b, peer)] ∧ os b peer = false) ∧
    ((progStep net os r true).2 = false → (progStep net os r true).1 = []) := by
  cases r with
  | ioError => simp [progStep]
  | datagram d peer =>
    simp only [progStep]
    cases hf : rpcFrame d with
    | nothing => simp
    | invalid => simp
    | panic => simp
    | request q =>
      cases hr : routeProcedure net q.call.procedure with
      | none => simp [hr]
      | some x =>
        cases ho : os (rpcDatagram (successReply q.xid x)) peer
        · simp only [hr, ho]
          exact ⟨⟨fun _ => .inr ⟨_, _, rfl, ho⟩, fun _ => rfl⟩, fun _ => rfl⟩
        · simp [hr, ho]

/-- C32: a stopped handler never answers again. -/
theorem C32_stopped_for_good (net : Option PioneerNetwork) (os : Bytes → Addr → Bool) (r : Recv) :
    progStep net os r false = ([], false) := rfl

/-- A mount handler over a history of received datagrams, each with the network known then. -/
def progRun (os : Bytes → Addr → Bool) : Bool → List (Option PioneerNetwork × Recv) →
    List (Bytes × Addr) × Bool
  | b, [] => ([], b)
  | b, x :: xs =>
    let r := progStep x.1 os x.2 b
    let rs := progRun os r.2 xs
    (r.1 ++ rs.1, rs.2)

/-- C32, over histories: the handler has stopped exactly if one of those datagrams was among the
received ones. -/
theorem C32_history (os : Bytes → Addr → Bool) (hos : ∀ b to, os b to = true)
    (xs : List (Option PioneerNetwork × Recv)) :
    (progRun os true xs).2 = false ↔
      ∃ net d peer, (net, Recv.datagram d peer) ∈ xs ∧
        (IsReply d ∨ ∃ xid p, IsCall d xid p ∧ StopsMount net p) := by
  have dead : ∀ xs, (progRun os false xs).2 = false := by
    intro xs
    induction xs with
    | nil => rfl
    | cons x xs ih => simpa only [progRun, C32_stopped_for_good] using ih
  induction xs with
  | nil => simp [progRun]
  | cons x xs ih =>
    obtain ⟨net, r⟩ := x
    have hs := C32_stops_exactly net os hos r
    by_cases hd : (progStep net os r true).2 = false
    · obtain ⟨d, peer, hr, h⟩ := hs.1 hd
      constructor
      · intro _
        exact ⟨net, d, peer, by simp [hr], h⟩
      · intro _
        simp only [progRun, hd]
        exact dead xs
    · have ht : (progStep net os r true).2 = true := by simpa using hd
      simp only [progRun, ht]
      refine Iff.trans ih ?_
      constructor
      · rintro ⟨net', d, peer, hm, h⟩
        exact ⟨net', d, peer, by simp [hm], h⟩
      · rintro ⟨net', d, peer, hm, h⟩
        rcases List.mem_cons.1 hm with he | hm
        · cases he
          exact absurd (hs.2 ⟨d, peer, rfl, h⟩) hd
        · exact ⟨net', d, peer, hm, h⟩

/-- C32, non-vacuity: an NFS call sent to the mount handler is one of those that stop it. -/
example (h : Hdr) : IsCall (callDatagram h (.nfsGetattr (List.replicate 32 0))) h.xid
    (.nfsGetattr (List.replicate 32 0)) ∧
    StopsMount none (.nfsGetattr (List.replicate 32 0)) :=
  ⟨isCall_callDatagram h _ _ _ (.getattr _ (by decide)) (by intro p; simp),
    .inl ⟨by simp, by intro a; simp⟩⟩

/-! ## C33: the EXPORT reply -/

set_option maxRecDepth 20000 in
theorem decimal_digits : ∀ n < 256,
    (∀ c ∈ Nat.toDigits 10 n, '0' ≤ c ∧ c ≤ '9') ∧ Nat.toDigits 10 n ≠ [] ∧
    ((Nat.toDigits 10 n).head? = some '0' → Nat.toDigits 10 n = ['0']) ∧
    readDecimal (Nat.toDigits 10 n) = n ∧ (Nat.toDigits 10 n).length ≤ 3 := by
  decide

/-- C33: the address text is the dotted decimal form. -/
theorem C33_address_text (ip : Ip4) : Dotted (ipText ip) ip ∧ (ipText ip).length ≤ 15 := by
  unfold ipText Dotted
  have hb : ∃ a b c d, be32 ip = [a, b, c, d] := ⟨_, _, _, _, rfl⟩
  obtain ⟨a, b, c, d, hb⟩ := hb
  rw [hb]
  have ha := decimal_digits a.toNat a.toNat_lt
  have hb' := decimal_digits b.toNat b.toNat_lt
  have hc := decimal_digits c.toNat c.toNat_lt
  have hd := decimal_digits d.toNat d.toNat_lt
  refine ⟨⟨_, _, _, _, a, b, c, d, rfl, ⟨ha.1, ha.2.1, ha.2.2.1, ha.2.2.2.1⟩,
    ⟨hb'.1, hb'.2.1, hb'.2.2.1, hb'.2.2.2.1⟩, ⟨hc.1, hc.2.1, hc.2.2.1, hc.2.2.2.1⟩,
    ⟨hd.1, hd.2.1, hd.2.2.1, hd.2.2.2.1⟩, rfl⟩, ?_⟩
  simp only [List.length_append, List.length_cons]
  omega

theorem length_utf8_ascii (s : Str) (h : ∀ c ∈ s, c.toNat < 128) : (utf8 s).length = s.length := by
  induction s with
  | nil => rfl
  | cons c s ih =>
    have h1 : (utf8Char c).length = 1 := by
      unfold utf8Char
      simp only [if_pos (h c (by simp)), List.length_cons, List.length_nil]
    rw [utf8_cons, List.length_append, h1, ih (fun x hx => h x (by simp [hx])), List.length_cons]
    omega

theorem dotted_ascii {s : Str} {ip : UInt32} (h : Dotted s ip) : ∀ c ∈ s, c.toNat < 128 := by
  obtain ⟨t0, t1, t2, t3, a, b, c, d, _, h0, h1, h2, h3, rfl⟩ := h
  have dig : ∀ (t : Str) n, Decimal t n → ∀ x ∈ t, x.toNat < 128 := by
    intro t n ht x hx
    have := (ht.1 x hx).2
    rw [Char.le_def, UInt32.le_iff_toNat_le] at this
    have h9 : ('9' : Char).val.toNat = 57 := rfl
    show x.val.toNat < 128
    omega
  have dot : ('.' : Char).toNat < 128 := by decide
  intro x hx
  simp only [List.mem_append, List.mem_cons] at hx
  rcases hx with ((hx | hx | hx) | hx | hx) | hx | hx
  · exact dig _ _ h0 x hx
  · rw [hx]; exact dot
  · exact dig _ _ h1 x hx
  · rw [hx]; exact dot
  · exact dig _ _ h2 x hx
  · rw [hx]; exact dot
  · exact dig _ _ h3 x hx

theorem zeros_add (a b : Nat) :
    List.replicate (a + b) (0 : UInt8) = List.replicate a 0 ++ List.replicate b 0 := by simp

theorem getWord_zeros (n : Nat) (r : Bytes) :
    getWord (List.replicate (n + 4) 0 ++ r) = some (0, List.replicate n 0 ++ r) := by
  have : List.replicate (n + 4) (0 : UInt8) = [0, 0, 0, 0] ++ List.replicate n 0 := by
    rw [Nat.add_comm, zeros_add]; rfl
  rw [this]; rfl

theorem export_read (text : Bytes) (hlen : text.length < 1000) (dir : Bytes) (hd : dir.length = 2)
    (k j : Nat) (hk : k + 2 = (4 - text.length % 4) % 4 + 8 + j) (fuel : Nat) :
    getExports (fuel + 3) (be32 1 ++ (be32 (UInt32.ofNat dir.length) ++ (dir ++ ([0, 0] ++ (be32 1 ++
      (be32 (UInt32.ofNat text.length) ++ (text ++ ([0, 0] ++ List.replicate k 0)))))))) =
      some ([(dir, [text])], List.replicate j 0) := by
  have e1 : ∀ r : Bytes, ([0, 0] : Bytes) ++ r = xdrPad dir.length ++ r := by
    intro r; rw [hd]; rfl
  have e2 : ([0, 0] : Bytes) ++ List.replicate k 0 =
      xdrPad text.length ++ (List.replicate (4 + j + 4) 0) := by
    have a : ([0, 0] : Bytes) ++ List.replicate k 0 = List.replicate (2 + k) 0 := by
      rw [zeros_add]; rfl
    rw [a, xdrPad, ← zeros_add]
    congr 1
    omega
  have z : ∀ m, getWord (List.replicate (m + 4) 0) = some (0, List.replicate m 0) := by
    intro m
    have := getWord_zeros m []
    simpa using this
  rw [e1, e2]
  unfold getExports
  simp only [getWord_be32]
  rw [if_neg (by decide), if_pos trivial, getOpaque_append dir _ (by omega)]
  unfold getGroups
  simp only [getWord_be32]
  rw [if_neg (by decide), if_pos trivial, getOpaque_append text _ (by omega)]
  unfold getGroups
  simp only [z, if_true, Option.map_some]
  unfold getExports
  rw [Nat.add_comm 4 j]
  simp only [z, if_true, Option.map_some]

theorem export_reply (n : PioneerNetwork) (os : Bytes → Addr → Bool) (d : Bytes) (peer : Addr)
    (q : RpcRequest) (hf : rpcFrame d = .request q) (hq : q.call.procedure = .mountExport)
    (hos : ∀ b, os b peer = true) :
    ∃ b results rest address mask,
      progStep (some n) os (.datagram d peer) true = ([(b, peer)], true) ∧
      readRpcReply b = some (q.xid, results) ∧
      getExports 3 results =
        some ([([0x2f, 0x00], [utf8 (address ++ '/' :: mask)])], rest) ∧
      Dotted address n.network.addr ∧ Dotted mask n.network.mask ∧
      rest = if (address ++ '/' :: mask).length % 4 = 1 ∨ (address ++ '/' :: mask).length % 4 = 2
        then [] else [0, 0, 0, 0] := by
  obtain ⟨ha, hal⟩ := C33_address_text n.ip
  obtain ⟨hm, hml⟩ := C33_address_text n.mask
  refine ⟨_, _, _, ipText n.ip, ipText n.mask, ?_, C27_reply_read q.xid
    (.mountExport [⟨['/'], [ipText n.ip ++ '/' :: ipText n.mask]⟩]), ?_, ha, hm, rfl⟩
  · unfold progStep
    simp only [hf, hq, routeProcedure, mountExport]
    rw [if_pos (hos _)]
  · have hlt : (utf8 (ipText n.ip ++ '/' :: ipText n.mask)).length =
        (ipText n.ip ++ '/' :: ipText n.mask).length := by
      apply length_utf8_ascii
      intro c hc
      simp only [List.mem_append, List.mem_cons] at hc
      rcases hc with hc | hc | hc
      · exact dotted_ascii ha c hc
      · rw [hc]; decide
      · exact dotted_ascii hm c hc
    have hlen : (ipText n.ip ++ '/' :: ipText n.mask).length < 100 := by
      simp only [List.length_append, List.length_cons]; omega
    generalize ipText n.ip ++ '/' :: ipText n.mask = text at hlt hlen
    have hu : utf16le ['/'] = [0x2f, 0x00] := by decide
    have key : ∃ k j, RpcReplyMessage.encode (.mountExport [⟨['/'], [text]⟩]) ++
        xdrPad (RpcReplyMessage.encode (.mountExport [⟨['/'], [text]⟩])).length =
        be32 1 ++ (be32 (UInt32.ofNat ([0x2f, 0x00] : Bytes).length) ++ (([0x2f, 0x00] : Bytes) ++
        ([0, 0] ++ (be32 1 ++ (be32 (UInt32.ofNat (utf8 text).length) ++ (utf8 text ++ ([0, 0] ++
          List.replicate k 0))))))) ∧ k + 2 = (4 - (utf8 text).length % 4) % 4 + 8 + j ∧
        List.replicate j 0 = if text.length % 4 = 1 ∨ text.length % 4 = 2
          then ([] : Bytes) else [0, 0, 0, 0] := by
      have hl : (RpcReplyMessage.encode (.mountExport [⟨['/'], [text]⟩])).length =
          text.length + 30 := by
        simp [RpcReplyMessage.encode, ExportListEntry.encode, encodeGroup, hu, hlt, length_be32]
        omega
      rw [hl]
      refine ⟨8 + (4 - (text.length + 30) % 4) % 4,
        if text.length % 4 = 1 ∨ text.length % 4 = 2 then 0 else 4, ?_, ?_, ?_⟩
      · rw [xdrPad, zeros_add]
        simp [RpcReplyMessage.encode, ExportListEntry.encode, encodeGroup, hu, List.append_assoc,
          show be32 1 = [0, 0, 0, 1] by decide]
      · rw [hlt]; split <;> omega
      · split <;> rfl
    obtain ⟨k, j, h1, h2, h3⟩ := key
    rw [h1, export_read (utf8 text) (by omega) _ rfl k j h2, h3]

/-- C33: the EXPORT reply read by an RFC 1094 reader, for every known network: one directory `/`
(in the UTF-16 form the players use) with one group, the text `address/mask`.  Nothing is left over
when the length of the text is 1 or 2 modulo 4; otherwise four extra zero bytes follow. -/
theorem C33_export_reply (n : PioneerNetwork) (os : Bytes → Addr → Bool) (d : Bytes) (peer : Addr)
    (xid : UInt32) (hd : IsCall d xid .mntExport) (hos : ∀ b, os b peer = true) :
    ∃ b results rest address mask,
      progStep (some n) os (.datagram d peer) true = ([(b, peer)], true) ∧
      readRpcReply b = some (xid, results) ∧
      getExports 3 results =
        some ([([0x2f, 0x00], [utf8 (address ++ '/' :: mask)])], rest) ∧
      Dotted address n.network.addr ∧ Dotted mask n.network.mask ∧
      rest = if (address ++ '/' :: mask).length % 4 = 1 ∨ (address ++ '/' :: mask).length % 4 = 2
        then [] else [0, 0, 0, 0] := by
  obtain ⟨q, hf, rfl, hm⟩ := (C81_call_iff d xid _).1 hd
  exact export_reply n os d peer q hf hm.of_export hos

/-! ## C60: supervision -/

theorem portmapStep_harmless (os : Bytes → Addr → Bool) (bound : Option UInt16) (r : Recv)
    (s : RpcSystem F) (h : Harmless (F := F) (.portmap os bound r)) :
    (portmapStep os bound r s).2.portmap = s.portmap := by
  obtain ⟨h1, h2, h3⟩ := h
  unfold portmapStep
  by_cases hp : s.portmap = true
  · rw [if_pos hp]
    cases r with
    | ioError => rfl
    | datagram d peer =>
      cases hf : rpcFrame d with
      | nothing => simp only [hf]
      | invalid => simp only [hf]
      | panic => exact absurd ((C29_panics_exactly_on_replies_partial d).1 hf) (h1 d peer rfl)
      | request q =>
        cases bound with
        | none => exact absurd rfl h2
        | some port => simp only [hf, h3, if_true]
  · rw [if_neg hp]

/-- C60, what does hold: as long as no RPC reply arrives at the portmapper (and the OS can bind and
send), the library service keeps accepting, whatever arrives at the handlers. -/
theorem C60_library_survives_partial (e : Endian) (es : List (RpcEvent F))
    (h : ∀ ev ∈ es, Harmless ev) :
    (servicesRun e Services.start es).2.accepting = true ∧
      (servicesRun e Services.start es).2.rpc.portmap = true := by
  have key : ∀ (es : List (RpcEvent F)), (∀ ev ∈ es, Harmless ev) → ∀ s : Services F,
      s.accepting = true → s.rpc.portmap = true →
      (servicesRun e s es).2.accepting = true ∧ (servicesRun e s es).2.rpc.portmap = true := by
    intro es
    induction es with
    | nil => intro _ s h1 h2; exact ⟨h1, h2⟩
    | cons ev es ih =>
      intro h s h1 h2
      have hs : (rpcStep e s.rpc ev).2.portmap = true := by
        cases ev with
        | portmap os bound r =>
          show (portmapStep os bound r s.rpc).2.portmap = true
          rw [portmapStep_harmless os bound r s.rpc (h _ (by simp)), h2]
        | port p net ev => exact h2
      refine ih (fun ev hev => h ev (by simp [hev])) _ ?_ ?_
      · show (s.accepting && (rpcStep e s.rpc ev).2.portmap) = true
        rw [h1, hs]; rfl
      · exact hs
  exact key es h _ rfl rfl

/-- C60: exactly what stops the portmapper: an RPC reply; or any call, if the OS provides no socket or
refuses the answer. -/
theorem C60_portmapper_stops_iff (e : Endian) (s : RpcSystem F) (hp : s.portmap = true)
    (ev : RpcEvent F) :
    (rpcStep e s ev).2.portmap = false ↔
      ∃ os bound d peer, ev = .portmap os bound (.datagram d peer) ∧
        (IsReply d ∨ ∃ xid p, IsCall d xid p ∧
          ∀ port, bound = some port → os (rfcReply xid (portWord port)) peer = false) := by
  cases ev with
  | port p net ev =>
    constructor
    · intro h
      have : s.portmap = false := h
      rw [hp] at this
      exact nomatch this
    · rintro ⟨_, _, _, _, h, _⟩; exact nomatch h
  | portmap os bound r =>
    show (portmapStep os bound r s).2.portmap = false ↔ _
    unfold portmapStep
    rw [if_pos hp]
    cases r with
    | ioError =>
      constructor
      · intro h
        have : s.portmap = false := h
        rw [hp] at this
        exact nomatch this
      · rintro ⟨_, _, _, _, h, _⟩; exact nomatch h
    | datagram d peer =>
      have hpan := C29_panics_exactly_on_replies_partial d
      have noCall : (∀ q, rpcFrame d ≠ .request q) → ∀ xid p, ¬ IsCall d xid p := by
        intro h xid p hc
        obtain ⟨q, hq, _⟩ := (C81_call_iff d xid p).1 hc
        exact h q hq
      cases hf : rpcFrame d with
      | nothing =>
        simp only [hf]
        constructor
        · intro h; rw [hp] at h; exact nomatch h
        · rintro ⟨_, _, _, _, h, h' | ⟨xid, p, hc, _⟩⟩
          · cases h; rw [hpan.2 h'] at hf; exact nomatch hf
          · cases h; exact absurd hc (noCall (by rw [hf]; simp) _ _)
      | invalid =>
        simp only [hf]
        constructor
        · intro h; rw [hp] at h; exact nomatch h
        · rintro ⟨_, _, _, _, h, h' | ⟨xid, p, hc, _⟩⟩
          · cases h; rw [hpan.2 h'] at hf; exact nomatch hf
          · cases h; exact absurd hc (noCall (by rw [hf]; simp) _ _)
      | panic =>
        simp only [hf, true_iff]
        exact ⟨os, bound, d, peer, rfl, .inl (hpan.1 hf)⟩
      | request q =>
        obtain ⟨p, hc, _⟩ := request_isCall hf
        have noReply : ¬ IsReply d := by
          intro hr; rw [hpan.2 hr] at hf; exact nomatch hf
        cases bound with
        | none =>
          simp only [hf, true_iff]
          exact ⟨os, none, d, peer, rfl, .inr ⟨_, p, hc, by simp⟩⟩
        | some port =>
          have hw : rpcDatagram (successReply q.xid (.portmapGetport (UInt32.ofNat port.toNat))) =
              rfcReply q.xid (portWord port) := datagram_getport q.xid port
          simp only [hf, hw]
          by_cases ho : os (rfcReply q.xid (portWord port)) peer = true
          · rw [if_pos ho]
            constructor
            · intro h
              have : s.portmap = false := h
              rw [hp] at this
              exact nomatch this
            · rintro ⟨_, _, _, _, h, h' | ⟨xid, p', hc', h'⟩⟩
              · cases h; exact absurd h' noReply
              · cases h
                obtain ⟨rfl, _⟩ := C81_call_unique d _ _ _ _ hc hc'
                rw [h' port rfl] at ho
                exact nomatch ho
          · rw [if_neg ho]
            simp only [true_iff]
            refine ⟨os, some port, d, peer, rfl, .inr ⟨_, p, hc, ?_⟩⟩
            intro port' e
            cases e
            simpa using ho

/-- C60: events at handlers (any datagrams at all) never change the portmapper or the library. -/
theorem C60_handlers_cannot_stop_services (e : Endian) (s : Services F) (p : UInt16)
    (net : Option PioneerNetwork) (ev : NfsEvent F) :
    (servicesStep e s (.port p net ev)).2.accepting = (s.accepting && s.rpc.portmap) ∧
      (servicesStep e s (.port p net ev)).2.rpc.portmap = s.rpc.portmap := ⟨rfl, rfl⟩

theorem accepting_stays_false (e : Endian) (es : List (RpcEvent F)) : ∀ s : Services F,
    s.accepting = false → (servicesRun e s es).2.accepting = false := by
  induction es with
  | nil => intro s h; exact h
  | cons ev es ih =>
    intro s h
    refine ih _ ?_
    show (s.accepting && _) = false
    rw [h]; rfl

/-- C60, the negation: one RPC reply datagram at the portmapper, at any moment, and the library
accepts nobody any more, for ever. -/
theorem C60_reply_stops_library (e : Endian) (s : Services F) (hp : s.rpc.portmap = true) (d : Bytes)
    (hd : IsReply d) (peer : Addr) (os : Bytes → Addr → Bool) (bound : Option UInt16)
    (es : List (RpcEvent F)) :
    (servicesRun e s (.portmap os bound (.datagram d peer) :: es)).2.accepting = false := by
  refine accepting_stays_false e es _ ?_
  have : (portmapStep os bound (.datagram d peer) s.rpc).2.portmap = false := by
    unfold portmapStep
    rw [if_pos hp]
    simp only [(C29_panics_exactly_on_replies_partial d).2 hd]
  show (s.accepting && (portmapStep os bound (.datagram d peer) s.rpc).2.portmap) = false
  rw [this, Bool.and_false]

/-- C60, non-vacuity: there are reply datagrams, and harmless events. -/
example : IsReply [0, 0, 0, 1, 0, 0, 0, 1] := ⟨by decide, by decide⟩

example (peer : Addr) : Harmless (F := F) (.portmap (fun _ _ => true) (some 1) (.datagram [] peer)) :=
  ⟨by rintro d p h ⟨hx, _⟩; cases h; exact absurd hx (by decide), by simp, fun _ _ => rfl⟩

/-! ## C81: the form of a call does not matter -/

theorem same_request {d d' : Bytes} {xid : UInt32} {p : Proc} (h : IsCall d xid p)
    (h' : IsCall d' xid p) : ∃ q q', rpcFrame d = .request q ∧ rpcFrame d' = .request q' ∧
      q.xid = q'.xid ∧ q.call.procedure = q'.call.procedure := by
  obtain ⟨q, hf, hx, hm⟩ := (C81_call_iff d xid p).1 h
  obtain ⟨q', hf', hx', hm'⟩ := (C81_call_iff d' xid p).1 h'
  refine ⟨q, q', hf, hf', hx.trans hx'.symm, ?_⟩
  generalize q.call.program = a at *
  generalize q.call.procedure = b at *
  generalize q'.call.program = a' at *
  generalize q'.call.procedure = b' at *
  cases hm <;> cases hm' <;> rfl

/-- C81: two datagrams that are the same call by byte offsets have the same effect at the NFS, mount
and portmapper services in every state, whatever their versions, credentials, verifiers and trailing
bytes; so everything proved of the calls as the players write them holds of all their forms. -/
theorem C81_form_is_irrelevant (d d' : Bytes) (xid : UInt32) (p : Proc) (h : IsCall d xid p)
    (h' : IsCall d' xid p) (peer : Addr) :
    (∀ (e : Endian) (w : World F) (os : SendOs) (t : NfsTask F),
      nfsStep e w os (.datagram d peer) t = nfsStep e w os (.datagram d' peer) t) ∧
    (∀ (net : Option PioneerNetwork) (os : Bytes → Addr → Bool) (b : Bool),
      progStep net os (.datagram d peer) b = progStep net os (.datagram d' peer) b) ∧
    (∀ (os : Bytes → Addr → Bool) (bound : Option UInt16) (s : RpcSystem F),
      portmapStep os bound (.datagram d peer) s = portmapStep os bound (.datagram d' peer) s) := by
  obtain ⟨q, q', hf, hf', hx, hp⟩ := same_request h h'
  refine ⟨?_, ?_, ?_⟩
  · intro e w os t
    cases t with
    | dead => rfl
    | running s pending =>
      unfold nfsStep
      simp only [hf, hf', hx, hp]
  · intro net os b
    cases b with
    | false => rfl
    | true =>
      unfold progStep
      simp only [hf, hf', hx, hp]
  · intro os bound s
    unfold portmapStep
    simp only [hf, hf', hx, hp]

/-- C81, non-vacuity: the players' form of every procedure with 32-byte handles is such a datagram. -/
example (h : Hdr) (name : Str) (hn : (utf16le name).length < 4294967296) :
    IsCall (callDatagram h (.nfsLookup (List.replicate 32 0) name)) h.xid
      (.nfsLookup (List.replicate 32 0) name) :=
  isCall_callDatagram h _ _ _ (.lookup _ name (by decide) hn) (by intro p; simp)

/-! ## Instances -/

/-- The call header, asker and operating system of the instances. -/
def exampleHdr : Hdr := ⟨7, 2, 2, 0, 0, 0⟩

def exampleAsker : Addr := ⟨ofBe32 10 0 0 2, 700⟩

def willing : Bytes → Addr → Bool := fun _ _ => true

/-- A system that has already handed out port 40000 for NFS. -/
def exampleRpcSystem : RpcSystem Nat :=
  (rpcStep .little .start (.portmap willing (some 40000)
    (.datagram (callDatagram exampleHdr (.pmapGetport 100003 2 0)) exampleAsker))).2

theorem exampleRpcSystem_serves : exampleRpcSystem.portmap = true ∧
    listener 40000 exampleRpcSystem.tasks = some (.nfs .start) := by
  obtain ⟨s', h, h1, h2, _⟩ := C30_getport_nfs (F := Nat) .little .start rfl exampleHdr 2 0 exampleAsker
    40000 rfl willing rfl
  unfold exampleRpcSystem
  rw [h]
  exact ⟨h1, h2⟩

theorem exampleRpcSystem_free : listener 40001 exampleRpcSystem.tasks = none := by
  obtain ⟨s', h, _, _, h3⟩ := C30_getport_nfs (F := Nat) .little .start rfl exampleHdr 2 0 exampleAsker
    40000 rfl willing rfl
  unfold exampleRpcSystem
  rw [h]
  exact (h3 40001 (by decide)).trans rfl

example := C30_getport_nfs .little exampleRpcSystem exampleRpcSystem_serves.1 exampleHdr 2 0
  exampleAsker 40001 exampleRpcSystem_free willing rfl

example := C30_getport_mount .little exampleRpcSystem exampleRpcSystem_serves.1 exampleHdr 1 0
  exampleAsker 40001 exampleRpcSystem_free willing rfl

example := C31_own_port_is_mount .little exampleRpcSystem exampleRpcSystem_serves.1 exampleHdr 1 0
  exampleAsker 40001 exampleRpcSystem_free willing rfl

theorem exampleGetport : IsCall (callDatagram exampleHdr (.pmapGetport 100003 2 0)) 7
    (.pmapGetport 100003 2 0) :=
  isCall_callDatagram exampleHdr _ _ _ (.getportNfs 2 0) (by intro p; simp)

/-- Also on a port that is already in use. -/
example := C31_getport_has_listener_partial .little exampleRpcSystem exampleRpcSystem_serves.1 _ 7
  100003 2 0 exampleGetport exampleAsker 40000 willing rfl

theorem exampleMnt : IsCall (callDatagram exampleHdr (.mntMnt ['/'])) 7 (.mntMnt ['/']) :=
  isCall_callDatagram exampleHdr _ _ _ (.mnt ['/'] (by decide)) (by intro p hp; cases hp; decide)

theorem exampleExport : IsCall (callDatagram exampleHdr .mntExport) 7 .mntExport :=
  isCall_callDatagram exampleHdr _ _ _ .exportList (by intro p; simp)

example := C32_mnt none willing _ exampleAsker 7 ['/'] exampleMnt rfl

example : progStep none willing (.datagram [1, 2, 3] exampleAsker) true = ([], true) :=
  C32_garbage_ignored none willing [1, 2, 3] exampleAsker (fun h => absurd h.1 (by decide))
    (fun _ _ h => absurd h.header (by decide)) true

/-- EXPORT without a known network stops the handler, with one it does not. -/
example : (progStep none willing (.datagram (callDatagram exampleHdr .mntExport) exampleAsker)
    true).2 = false :=
  (C32_stops_exactly none willing (fun _ _ => rfl) _).2
    ⟨_, _, rfl, .inr ⟨7, .mntExport, exampleExport, .inr ⟨rfl, rfl⟩⟩⟩

example : (progStep (some ⟨⟨ofBe32 10 0 0 1, 8⟩, ⟨1, 2, 3, 4, 5, 6⟩⟩) willing
    (.datagram (callDatagram exampleHdr .mntExport) exampleAsker) true).2 ≠ false := by
  intro h
  obtain ⟨d, peer, hd, h⟩ := (C32_stops_exactly _ willing (fun _ _ => rfl) _).1 h
  cases hd
  rcases h with h | ⟨xid, p, h, hs⟩
  · exact absurd h.2 (by decide)
  · obtain ⟨-, rfl⟩ := C81_call_unique _ _ _ _ _ h exampleExport
    rcases hs with ⟨hs, -⟩ | ⟨-, hs⟩
    · exact hs rfl
    · exact nomatch hs

/-- Once EXPORT has stopped it, MNT is not answered either. -/
example : progStep none willing (.datagram (callDatagram exampleHdr (.mntMnt ['/'])) exampleAsker)
    false = ([], false) := C32_stopped_for_good ..

example := C33_export_reply ⟨⟨ofBe32 10 0 0 1, 8⟩, ⟨1, 2, 3, 4, 5, 6⟩⟩ willing _ exampleAsker 7
  exampleExport (fun _ => rfl)

/-- C60: GETPORT and garbage do no harm. -/
example := C60_library_survives_partial (F := Nat) .little
  [.portmap willing (some 40000) (.datagram (callDatagram exampleHdr (.pmapGetport 100003 2 0))
     exampleAsker),
   .portmap willing (some 40001) (.datagram [1, 2, 3] exampleAsker)]
  (by
    intro ev h
    rcases List.mem_cons.1 h with rfl | h
    · exact ⟨by rintro d p h ⟨-, hx⟩; cases h; exact absurd hx (by decide), by simp, fun _ _ => rfl⟩
    · cases List.mem_singleton.1 h
      exact ⟨by rintro d p h ⟨hx, -⟩; cases h; exact absurd hx (by decide), by simp, fun _ _ => rfl⟩)

example : (rpcStep .little exampleRpcSystem
    (.portmap willing (some 40001) (.datagram [0, 0, 0, 1, 0, 0, 0, 1] exampleAsker))).2.portmap =
      false :=
  (C60_portmapper_stops_iff .little _ exampleRpcSystem_serves.1 _).2
    ⟨_, _, _, _, rfl, .inl ⟨by decide, by decide⟩⟩

/-- A reply datagram at a handed out port leaves the services alone. -/
example := C60_handlers_cannot_stop_services (F := Nat) .little ⟨exampleRpcSystem, true⟩ 40000 none
  ⟨⟨fun _ => none, fun _ => none, fun _ => none, fun _ _ _ => none⟩, fun _ _ _ => true,
    .datagram [0, 0, 0, 1, 0, 0, 0, 1] exampleAsker⟩

end PDJ

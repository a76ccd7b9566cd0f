import Verif.Lemmas.System

/-!
# The process as a whole: properties C77 - C80
-/

namespace PDJ

open Spec

variable {F : Type}

/-! ## C77: the services do not disturb each other -/

/-- C77: the receiver, the broadcaster and the main thread behave in every history of the process
exactly as they do by themselves; so C47 - C54, C71 and C72 hold in the whole process. -/
theorem C77_application_undisturbed (e : Endian) (m : Mode) (db : Db) (xs : List (SysAction F)) :
    (sysRun e m db .start xs).2.app = (appRun .start (appPart xs)).2 ∧
      broadcastsOf (sysRun e m db .start xs).1 = (appRun .start (appPart xs)).1 :=
  app_undisturbed e m db xs .start

/-- C77: while the process runs, the status server answers exactly what it would answer by itself;
so C56 and C57 hold in the whole process. -/
theorem C77_status_undisturbed (e : Endian) (m : Mode) (db : Db) (xs : List (SysAction F))
    (h : (sysRun e m db .start xs).2.app.running = true) :
    statusOf (sysRun e m db .start xs).1 = (statusRun true (statusPart xs)).1 ∧
      (sysRun e m db .start xs).2.status = (statusRun true (statusPart xs)).2 :=
  status_undisturbed e m db xs .start h

/-- C77: after any history, a chunk on an accepted library connection is answered with the number of
a port, and the handler behind that port answers, while the process runs, exactly what a fresh
handler would answer by itself to what arrives there, whatever happens everywhere else. -/
theorem C77_library_undisturbed (e : Endian) (m : Mode) (db : Db) (before : List (SysAction F))
    (c : Nat) (hr : (sysRun e m db .start before).2.app.running = true)
    (hc : c ∈ (sysRun e m db .start before).2.mains)
    (hd : c ∉ (sysRun e m db .start before).2.lib.deadMains) (p : UInt16) :
    ∃ h s', sysStep e m db (sysRun e m db .start before).2 (.main c (some p)) =
        ([.lib (.toMain c (be16 p))], s') ∧
      ∀ after, (sysRun e m db s' after).2.app.running = true →
        handlerOf h (sysRun e m db s' after).1 =
          (handlerRun m db .listening (handlerPart h after)).1 := by
  generalize (sysRun e m db .start before).2 = s at *
  refine ⟨s.lib.handlers.length, { s with lib := (libStep m db s.lib (.main c (some p))).2 }, ?_, ?_⟩
  · simp only [sysStep, hr, if_true, if_pos hc]
    rw [C61_port_announced m db s.lib c p hd]
    rfl
  · intro after ha
    refine (lib_undisturbed e m db _ after _ ⟨p, .listening⟩ ?_ ha).1
    rw [C61_port_announced m db s.lib c p hd]
    simp

/-- C77: after any history, a GETPORT call for NFS is answered with the port the OS bound, and the
handler behind it sends, while the process runs, exactly what a fresh NFS handler would send by
itself for what arrives there, whatever happens everywhere else. -/
theorem C77_nfs_undisturbed (e : Endian) (m : Mode) (db : Db) (before : List (SysAction F))
    (hr : (sysRun e m db .start before).2.app.running = true)
    (hp : (sysRun e m db .start before).2.services.rpc.portmap = true) (port : UInt16)
    (hfresh : listener port (sysRun e m db .start before).2.services.rpc.tasks = none) (h : Hdr)
    (v pt : UInt32) (peer : Addr) (os : Bytes → Addr → Bool)
    (hos : os (rfcReply h.xid (portWord port)) peer = true) (after : List (SysAction F))
    (hre : NeverRebound port after) :
    ∃ s', sysStep e m db (sysRun e m db .start before).2 (.portmap os (some port)
          (.datagram (callDatagram h (.pmapGetport 100003 v pt)) peer)) =
        ([.rpc (none, rfcReply h.xid (portWord port), peer)], s') ∧
      ((sysRun e m db s' after).2.app.running = true →
        portOf port (sysRun e m db s' after).1 = (nfsRun e .start (portPart port after)).1) := by
  generalize (sysRun e m db .start before).2 = s at *
  obtain ⟨s1, h1, h2, h3, h4, h5⟩ := getport_step e s.services.rpc hp h _ _ (.getportNfs v pt)
    (.nfs .start) rfl rfl peer port hfresh os hos
  refine ⟨{ s with services := ⟨s1, s.services.accepting && s1.portmap⟩ }, ?_, ?_⟩
  · simp only [sysStep, hr, if_true, servicesStep, h1]
    rfl
  · intro ha
    obtain ⟨i1, _⟩ := services_undisturbed e m db after _ ha
    rw [portOf_rpcOf, i1, (servicesRun_rpc e _ _).1]
    have iso := (handler_isolated e port (rpcEvents e m db
      { s with services := ⟨s1, s.services.accepting && s1.portmap⟩ } after)
      (fun os b r hm => hre os b r (mem_rpcEvents_portmap e m db after _ hm)) s1
      (s.services.rpc.tasks.filter fun x => x.1 = port) .start (by rw [h5]; simp)
      (by rw [listener_filter]; exact hfresh)).1
    rw [iso, eventsAt_rpcEvents]

/-- C77: and the same for MOUNT: the handler behind the port sends exactly what a fresh mount handler would send by
itself, with the network known to the application at each time. -/
theorem C77_mount_undisturbed (e : Endian) (m : Mode) (db : Db) (before : List (SysAction F))
    (hr : (sysRun e m db .start before).2.app.running = true)
    (hp : (sysRun e m db .start before).2.services.rpc.portmap = true) (port : UInt16)
    (hfresh : listener port (sysRun e m db .start before).2.services.rpc.tasks = none) (h : Hdr)
    (v pt : UInt32) (peer : Addr) (os : Bytes → Addr → Bool)
    (hos : os (rfcReply h.xid (portWord port)) peer = true) (after : List (SysAction F))
    (hre : NeverRebound port after) :
    ∃ s', sysStep e m db (sysRun e m db .start before).2 (.portmap os (some port)
          (.datagram (callDatagram h (.pmapGetport 100005 v pt)) peer)) =
        ([.rpc (none, rfcReply h.xid (portWord port), peer)], s') ∧
      ((sysRun e m db s' after).2.app.running = true →
        portOf port (sysRun e m db s' after).1 =
          (mountRun true (mountPart port (appRun .start (appPart before)).2 after)).1) := by
  rw [show (appRun .start (appPart before)).2 = (sysRun e m db .start before).2.app from
    (app_undisturbed e m db before .start).1.symm]
  generalize (sysRun e m db .start before).2 = s at *
  obtain ⟨s1, h1, h2, h3, h4, h5⟩ := getport_step e s.services.rpc hp h _ _ (.getportMount v pt)
    (.program true) rfl rfl peer port hfresh os hos
  refine ⟨{ s with services := ⟨s1, s.services.accepting && s1.portmap⟩ }, ?_, ?_⟩
  · simp only [sysStep, hr, if_true, servicesStep, h1]
    rfl
  · intro ha
    obtain ⟨i1, _⟩ := services_undisturbed e m db after _ ha
    rw [portOf_rpcOf, i1, (servicesRun_rpc e _ _).1]
    have iso := (mount_isolated e port (rpcEvents e m db
      { s with services := ⟨s1, s.services.accepting && s1.portmap⟩ } after)
      (fun os b r hm => hre os b r (mem_rpcEvents_portmap e m db after _ hm)) s1
      (s.services.rpc.tasks.filter fun x => x.1 = port) true (by rw [h5]; simp)
      (by rw [listener_filter]; exact hfresh)).1
    rw [iso, portArrivals_rpcEvents]

/-- C77, non-vacuity: at the start all hypotheses hold once a connection is accepted. -/
example (e : Endian) (m : Mode) (db : Db) (port : UInt16) :
    let s := (sysRun (F := F) e m db .start [.accept 0]).2
    s.app.running = true ∧ 0 ∈ s.mains ∧ 0 ∉ s.lib.deadMains ∧ s.services.rpc.portmap = true ∧
      listener port s.services.rpc.tasks = none := by
  refine ⟨rfl, ?_, ?_, rfl, rfl⟩ <;>
    simp [sysRun, sysStep, System.start, AppSystem.start, Services.start, LibServer.start]

/-! ## C78: EXPORT in the whole process -/

/-- What a delivered event does to the handler that listens on the port. -/
theorem deliver_listener (e : Endian) (net : Option PioneerNetwork) (p : UInt16) (ev : NfsEvent F)
    (ts : List (UInt16 × RpcTask F)) (t : RpcTask F) (h : listener p ts = some t) :
    (deliver e net p ev ts).1 = (taskStep e net ev t).1 ∧
      ((taskStep e net ev t).2.live = true →
        listener p (deliver e net p ev ts).2 = some (taskStep e net ev t).2) := by
  induction ts with
  | nil => exact nomatch h
  | cons x ts ih =>
    unfold listener at h
    by_cases hx : x.1 = p ∧ x.2.live = true
    · rw [if_pos hx] at h
      cases h
      unfold deliver
      rw [if_pos hx]
      refine ⟨rfl, fun hl => ?_⟩
      simp only [listener]
      rw [if_pos ⟨hx.1, hl⟩]
    · rw [if_neg hx] at h
      obtain ⟨i1, i2⟩ := ih h
      unfold deliver
      rw [if_neg hx]
      refine ⟨i1, fun hl => ?_⟩
      simp only [listener]
      rw [if_neg hx]
      exact i2 hl

/-- The network known to the mount program is that of the latest announcement. -/
theorem knownNetwork_heard (e : Endian) (m : Mode) (db : Db) (xs : List (SysAction F))
    (h : List (List Interface × Announcement)) (last : List Interface × Announcement)
    (hh : Heard (appPart xs) (h ++ [last])) (hf : Healthy (sysRun e m db .start xs).2.app)
    (n : PioneerNetwork) (hn : FirstMatch last.1 last.2.ip n) :
    knownNetwork (sysRun e m db .start xs).2.app = some n := by
  have ha := (C77_application_undisturbed e m db xs).1
  rw [ha] at hf ⊢
  unfold knownNetwork
  rw [if_neg (by rw [hf.lock]; decide)]
  exact ((C52_network (appPart xs) h last hh hf).1 n).2 hn

/-- C78: in every history of the process, once a player on a local network has been heard, EXPORT at a
mount handler is answered with the directory `/` exported to exactly the application's address and
mask on the network of the player heard last. -/
theorem C78_export_names_network (e : Endian) (m : Mode) (db : Db) (xs : List (SysAction F))
    (h : List (List Interface × Announcement)) (last : List Interface × Announcement)
    (hh : Heard (appPart xs) (h ++ [last])) (hf : Healthy (sysRun e m db .start xs).2.app)
    (n : PioneerNetwork) (hn : FirstMatch last.1 last.2.ip n) (p : UInt16)
    (hp : listener p (sysRun e m db .start xs).2.services.rpc.tasks = some (.program true))
    (hd : Hdr) (peer : Addr) (w : World F) (os : SendOs) (hos : ∀ b, os false b peer = true) :
    ∃ b results rest address mask s',
      sysStep e m db (sysRun e m db .start xs).2
          (.port p ⟨w, os, .datagram (callDatagram hd .mntExport) peer⟩) =
        ([.rpc (some p, b, peer)], s') ∧
      listener p s'.services.rpc.tasks = some (.program true) ∧
      readRpcReply b = some (hd.xid, results) ∧
      getExports 3 results = some ([([0x2f, 0x00], [utf8 (address ++ '/' :: mask)])], rest) ∧
      Dotted address n.network.addr ∧ Dotted mask n.network.mask := by
  have hk := knownNetwork_heard e m db xs h last hh hf n hn
  have hr := hf.running
  generalize (sysRun e m db .start xs).2 = s at *
  obtain ⟨b, results, rest, address, mask, h1, h2, h3, h4, h5, _⟩ :=
    C33_export_reply n (os false) (callDatagram hd .mntExport) peer _
      (isCall_callDatagram hd .mntExport _ _ .exportList (by intro p; simp)) hos
  have ht : taskStep e (some n) ⟨w, os, .datagram (callDatagram hd .mntExport) peer⟩
      (.program true) = ([(b, peer)], .program true) := by
    simp only [taskStep]
    rw [h1]
  obtain ⟨d1, d2⟩ := deliver_listener e (some n) p
    ⟨w, os, .datagram (callDatagram hd .mntExport) peer⟩ _ _ hp
  rw [ht] at d1 d2
  refine ⟨b, results, rest, address, mask, { s with services := (servicesStep e s.services
    (.port p (some n) ⟨w, os, .datagram (callDatagram hd .mntExport) peer⟩)).2 },
    ?_, ?_, h2, h3, h4, h5⟩
  · simp only [sysStep, hr, if_true, servicesStep, rpcStep, hk, d1]
    rfl
  · exact d2 rfl

/-- A port nobody listens on stays silent until it is bound again. -/
theorem dead_port_silent (e : Endian) (p : UInt16) (es : List (RpcEvent F)) (hre : NotRebound p es) :
    ∀ s : RpcSystem F, listener p s.tasks = none → sentFrom p (rpcRun e s es).1 = [] := by
  induction es with
  | nil => intro s _; rfl
  | cons x es ih =>
    intro s hs
    have hre' : NotRebound p es := fun os b r hm => hre os b r (List.mem_cons_of_mem _ hm)
    have hsent : ∀ a b, sentFrom p (a ++ b) = sentFrom p a ++ sentFrom p b := by
      intro a b; simp [sentFrom]
    simp only [rpcRun, hsent]
    cases x with
    | portmap os bound r =>
      have h1 : sentFrom p (rpcStep e s (.portmap os bound r)).1 = [] := by
        simp [rpcStep, sentFrom, List.filter_map]
      rw [h1, List.nil_append]
      refine ih hre' _ ?_
      show listener p (portmapStep os bound r s).2.tasks = none
      rcases portmap_tasks os bound r s with h2 | ⟨q, t, hb, h2⟩
      · rw [h2]; exact hs
      · rw [h2, listener_append, hs]
        have : q ≠ p := by
          rintro rfl
          exact hre os bound r (List.mem_cons_self ..) hb
        simp [listener, this]
    | port q net ev =>
      have quiet : q = p → deliver e net q ev s.tasks = ([], s.tasks) := by
        rintro rfl
        have : ∀ ts : List (UInt16 × RpcTask F), listener q ts = none →
            deliver e net q ev ts = ([], ts) := by
          intro ts
          induction ts with
          | nil => intro _; rfl
          | cons t ts iht =>
            intro ht
            unfold listener at ht
            by_cases hx : t.1 = q ∧ t.2.live = true
            · rw [if_pos hx] at ht; exact nomatch ht
            · rw [if_neg hx] at ht
              unfold deliver
              rw [if_neg hx, iht ht]
        exact this _ hs
      by_cases hq : q = p
      · have hq' := quiet hq
        have h1 : rpcStep e s (.port q net ev) = ([], s) := by
          simp only [rpcStep, hq']
          rfl
        rw [h1]
        exact ih hre' s hs
      · have h1 : sentFrom p (rpcStep e s (.port q net ev)).1 = [] := by
          simp [rpcStep, sentFrom, List.filter_map, Function.comp_def, hq]
        rw [h1, List.nil_append]
        refine ih hre' _ ?_
        show listener p (deliver e net q ev s.tasks).2 = none
        rw [← listener_filter, deliver_filter_other e net q p hq ev s.tasks, listener_filter]
        exact hs

theorem export_without_network (e : Endian) (m : Mode) (db : Db) (s : System F)
    (hk : knownNetwork s.app = none) (p : UInt16)
    (hp : s.services.rpc.tasks.filter (fun t => t.1 = p) = [(p, .program true)])
    (hd : Hdr) (peer : Addr) (w : World F) (os : SendOs) (after : List (SysAction F))
    (hre : NeverRebound p after) :
    ∃ s', sysStep e m db s
        (.port p ⟨w, os, .datagram (callDatagram hd .mntExport) peer⟩) = ([], s') ∧
      ((sysRun e m db s' after).2.app.running = true → portOf p (sysRun e m db s' after).1 = []) := by
  by_cases hr : s.app.running = true
  · have hf := deliver_filter_same e none p
      ⟨w, os, .datagram (callDatagram hd .mntExport) peer⟩ s.services.rpc.tasks
    have ht : taskStep e none ⟨w, os, .datagram (callDatagram hd .mntExport) peer⟩
        (RpcTask.program (F := F) true) = ([], .program false) := by
      simp only [taskStep, progStep]
      rw [frame_callDatagram hd .mntExport _ _ .exportList (by intro p; simp)]
      rfl
    rw [hp] at hf
    have hdl : deliver e none p ⟨w, os, .datagram (callDatagram hd .mntExport) peer⟩
        [(p, RpcTask.program (F := F) true)] = ([], [(p, .program false)]) := by
      unfold deliver
      rw [if_pos ⟨rfl, rfl⟩, ht]
    rw [hdl] at hf
    refine ⟨{ s with services := (servicesStep e s.services (.port p none
      ⟨w, os, .datagram (callDatagram hd .mntExport) peer⟩)).2 }, ?_, ?_⟩
    · simp only [sysStep, hr, if_true, servicesStep, rpcStep, hk, hf.1]
      rfl
    · intro ha
      obtain ⟨i1, _⟩ := services_undisturbed e m db after _ ha
      rw [portOf_rpcOf, i1, (servicesRun_rpc e _ _).1]
      refine dead_port_silent e p _
        (fun os b r hm => hre os b r (mem_rpcEvents_portmap e m db after _ hm)) _ ?_
      show listener p (deliver e none p _ s.services.rpc.tasks).2 = none
      rw [← listener_filter, hf.2]
      simp [listener, RpcTask.live]
  · have hr' : s.app.running = false := by simpa using hr
    refine ⟨s, sysStep_ended e m db s hr' _, fun ha => ?_⟩
    rw [sysRun_ended e m db after s hr'] at ha
    exact absurd ha hr

/-- C78: before any player has been heard, EXPORT is not answered, and it ends the mount handler: the
port it was reached at never answers anything again (unless the OS binds it anew). -/
theorem C78_export_before_players (e : Endian) (m : Mode) (db : Db) (xs : List (SysAction F))
    (hh : Heard (appPart xs) []) (p : UInt16)
    (hp : (sysRun e m db .start xs).2.services.rpc.tasks.filter (fun t => t.1 = p) =
      [(p, .program true)])
    (hd : Hdr) (peer : Addr) (w : World F) (os : SendOs) (after : List (SysAction F))
    (hre : NeverRebound p after) :
    ∃ s', sysStep e m db (sysRun e m db .start xs).2
        (.port p ⟨w, os, .datagram (callDatagram hd .mntExport) peer⟩) = ([], s') ∧
      ((sysRun e m db s' after).2.app.running = true → portOf p (sysRun e m db s' after).1 = []) := by
  have hk : knownNetwork (sysRun e m db .start xs).2.app = none := by
    unfold knownNetwork
    split
    · rfl
    · rw [(C77_application_undisturbed e m db xs).1]
      exact C52_initially_none _ hh
  exact export_without_network e m db _ hk p hp hd peer w os after hre

/-- C78, non-vacuity of `C78_export_names_network` (with `exampleMatch`): a player asks the portmapper for the mount program and then announces itself. -/
example (e : Endian) (m : Mode) (db : Db) (hd : Hdr) (v pt : UInt32) (peer : Addr) :
    let xs : List (SysAction F) := [.portmap (fun _ _ => true) (some 4711)
      (.datagram (callDatagram hd (.pmapGetport 100005 v pt)) peer),
      .app (.receive exampleInterfaces exampleDatagram)]
    Heard (appPart xs) ([] ++ [(exampleInterfaces, ⟨['X', 'D', 'J'], 2, ofBe32 192 168 10 7⟩)]) ∧
      Healthy (sysRun e m db .start xs).2.app ∧
      listener 4711 (sysRun e m db .start xs).2.services.rpc.tasks = some (.program true) ∧
      Heard (appPart (xs.take 1)) [] ∧
      (sysRun e m db .start (xs.take 1)).2.services.rpc.tasks.filter (fun t => t.1 = 4711) =
        [(4711, .program true)] := by
  intro xs
  obtain ⟨s1, h1, h2, h3, h4, h5⟩ := getport_step (F := F) e RpcSystem.start rfl hd _ _
    (.getportMount v pt) (.program true) rfl rfl peer 4711 rfl (fun _ _ => true) rfl
  refine ⟨.accepted exampleDatagram_accepted .nil, ?_, ?_, .nil, ?_⟩
  · rw [(C77_application_undisturbed e m db xs).1]
    refine (C54_survives_partial (appPart xs) (by simp [xs, appPart, SocketsWork]) ?_).1
    intro ifaces d hm a ha
    simp only [xs, appPart, List.mem_cons, List.not_mem_nil, or_false, AppAction.receive.injEq] at hm
    obtain ⟨rfl, rfl⟩ := hm
    rw [announcement_unique ha.1 exampleDatagram_accepted.1]
    exact ⟨⟨⟨ofBe32 192 168 10 50, 24⟩, ⟨1, 2, 3, 4, 5, 6⟩⟩, [], [], rfl, by simp,
      by unfold InNet; decide⟩
  · have : (sysRun e m db .start xs).2.services.rpc.tasks =
        (rpcStep e RpcSystem.start (.portmap (fun _ _ => true) (some 4711)
          (.datagram (callDatagram hd (.pmapGetport 100005 v pt)) peer))).2.tasks := rfl
    rw [this, h1]
    exact h3
  · have : (sysRun e m db .start (xs.take 1)).2.services.rpc.tasks =
        (rpcStep e RpcSystem.start (.portmap (fun _ _ => true) (some 4711)
          (.datagram (callDatagram hd (.pmapGetport 100005 v pt)) peer))).2.tasks := rfl
    rw [this, h1, h5]
    simp [RpcSystem.start]

/-! ## C79: life and death of the process -/

/-- C79: the process ends exactly in a step of the main thread that acts on a link request while the
lock is poisoned, no network is known, or the OS refuses a socket; nothing that arrives at the RPC,
library and status services can end it. -/
theorem C79_ends_exactly (e : Endian) (m : Mode) (db : Db) (s : System F) (x : SysAction F)
    (hr : s.app.running = true) :
    (sysStep e m db s x).2.app.running = false ↔ ∃ oks, x = .app (.appLink oks) ∧
      s.app.pending = true ∧
      (s.app.poisoned = true ∨ s.app.state.address = none ∨ false ∈ oks.take 40) := by
  cases x with
  | app y =>
    simp only [sysStep, hr, if_true]
    rw [C54_ends_exactly s.app y hr]
    constructor
    · rintro ⟨oks, rfl, h⟩; exact ⟨oks, rfl, h⟩
    · rintro ⟨oks, h, h'⟩; cases h; exact ⟨oks, rfl, h'⟩
  | accept c =>
    have : (sysStep e m db s (.accept c)).2.app = s.app := by
      simp only [sysStep, hr, if_true]; split <;> rfl
    rw [this, hr]
    simp
  | main c b =>
    have : (sysStep e m db s (.main c b)).2.app = s.app := by
      simp only [sysStep, hr, if_true]; split <;> rfl
    rw [this, hr]
    simp
  | hangup c => simp [sysStep, hr]
  | portmap os b r => simp [sysStep, hr]
  | port p ev => simp [sysStep, hr]
  | handler h ev => simp [sysStep, hr]
  | status r => simp [sysStep, hr]

/-- C79: after the end nothing is sent by any service, ever. -/
theorem C79_end_is_silence (e : Endian) (m : Mode) (db : Db) (s : System F)
    (h : s.app.running = false) (xs : List (SysAction F)) : (sysRun e m db s xs).1 = [] := by
  rw [sysRun_ended e m db xs s h]

/-- C79, the negation of "nothing a player sends takes the services down": one announcement from
outside the local networks, and when the main thread comes to act on it, library, file service, status
server and announcements fall silent for good, whatever was going on in them. -/
theorem C79_foreign_announcement_silences (e : Endian) (m : Mode) (db : Db) (d : Bytes)
    (a : Announcement) (ha : Accepted d a) (ifaces : List Interface) (hn : NoMatch ifaces a.ip)
    (oks : List Bool) (xs : List (SysAction F))
    (hx : appPart xs = [.receive ifaces d, .appRecv, .appRecv, .appLink oks])
    (ys : List (SysAction F)) : (sysRun e m db (sysRun e m db .start xs).2 ys).1 = [] := by
  refine C79_end_is_silence e m db _ ?_ ys
  rw [(C77_application_undisturbed e m db xs).1, hx]
  exact C54_foreign_announcement_kills d a ha ifaces hn oks

/-- C79: as long as no player announces itself from outside the local networks, nobody sends an RPC
reply to the portmapper or an unimplemented status packet, and the operating system provides sockets,
everything keeps running, in every history, whatever arrives at the RPC handlers and over the library
connections. -/
theorem C79_survives_partial (e : Endian) (m : Mode) (db : Db) (xs : List (SysAction F))
    (h : Peaceful xs) :
    Healthy (sysRun e m db .start xs).2.app ∧
      (sysRun e m db .start xs).2.app.broadcaster = true ∧
      (sysRun e m db .start xs).2.services.rpc.portmap = true ∧
      (sysRun e m db .start xs).2.services.accepting = true ∧
      (sysRun e m db .start xs).2.status = true := by
  have ha := (C77_application_undisturbed e m db xs).1
  obtain ⟨h1, h2⟩ := C54_survives_partial (appPart xs) h.sockets h.local_
  rw [← ha] at h1 h2
  have hs := (C77_status_undisturbed e m db xs h1.running).2
  have hv := (services_undisturbed e m db xs .start h1.running).2
  have hharm : ∀ ev ∈ rpcEvents e m db .start xs, Harmless ev := by
    intro ev hev
    cases ev with
    | portmap os b r => exact h.portmap os b r (mem_rpcEvents_portmap e m db xs _ hev)
    | port p net ev => trivial
  obtain ⟨h3, h4⟩ := C60_library_survives_partial e _ hharm
  refine ⟨h1, h2, ?_, ?_, ?_⟩
  · rw [hv]; exact h4
  · rw [hv]; exact h3
  · rw [hs]
    refine (C57_survives_exactly (statusPart xs)).2 ?_
    intro d sd hm
    refine h.status d sd ?_
    clear hs hv hharm h3 h4 h1 h2 ha h
    induction xs with
    | nil => exact nomatch hm
    | cons x xs ih =>
      cases x with
      | status r =>
        rcases List.mem_cons.1 hm with hm | hm
        · rw [← hm]; simp
        · exact List.mem_cons_of_mem _ (ih hm)
      | _ => exact List.mem_cons_of_mem _ (ih hm)

/-- C79, non-vacuity: a peaceful history in which every service is used. -/
example (peer : Addr) : Peaceful (F := F)
    [.portmap (fun _ _ => true) (some 4711) (.datagram [] peer), .accept 0, .main 0 (some 4712),
      .handler 0 .connect, .status .ioError, .app (.broadcast true), .app .appRecv] where
  sockets := ⟨by simp [appPart], by simp [appPart]⟩
  local_ := by simp [AllLocal, appPart]
  portmap := by
    intro os b r hm
    simp only [List.mem_cons, reduceCtorEq, SysAction.portmap.injEq, List.not_mem_nil, or_false] at hm
    obtain ⟨rfl, rfl, rfl⟩ := hm
    exact ⟨by rintro d p h ⟨hx, _⟩; cases h; exact absurd hx (by decide), by simp, fun _ _ => rfl⟩
  status := by simp

/-- C79, non-vacuity: an announcement that arrives when the local networks are gone. -/
example : Accepted exampleDatagram ⟨['X', 'D', 'J'], 2, ofBe32 192 168 10 7⟩ ∧
    NoMatch [] (ofBe32 192 168 10 7) ∧
    appPart (F := F) [.app (.receive [] exampleDatagram), .accept 3, .app .appRecv, .app .appRecv,
      .status .ioError, .app (.appLink [])] =
      [.receive [] exampleDatagram, .appRecv, .appRecv, .appLink []] :=
  ⟨exampleDatagram_accepted, by simp [NoMatch, candidates], rfl⟩

/-! ## C80: the announced number of tracks -/

/-- C80: whatever the library contains and whatever happened before, a link query is answered with
1051 tracks and 94 playlists. -/
theorem C80_announces_1051_tracks (e : Endian) (m : Mode) (db : Db) (xs : List (SysAction F))
    (hr : (sysRun e m db .start xs).2.app.running = true)
    (hs : (sysRun e m db .start xs).2.status = true) (d : Bytes) (sender : UInt32) (echo : UInt8)
    (hd : StatusHeader d 0x05 echo) (hl : 48 ≤ d.length) :
    ∃ b s', sysStep e m db (sysRun e m db .start xs).2 (.status (.datagram d sender)) =
        ([.status (b, sender, 50002)], s') ∧
      announcedTracks b = 1051 ∧ announcedPlaylists b = 94 := by
  refine ⟨queryReply echo, { (sysRun e m db .start xs).2 with status := true }, ?_, ?_, ?_⟩
  · simp only [sysStep, hr, if_true, hs]
    rw [C56_link_query d sender echo hd hl]
    rfl
  · rfl
  · rfl

/-- C80: so the claim "a link query is answered with the number of tracks in the library" holds
exactly for libraries of 1051 tracks.  Missing: all others, for which it is false. -/
theorem C80_count_right_iff_partial (e : Endian) (m : Mode) (db : Db) (xs : List (SysAction F))
    (hr : (sysRun e m db .start xs).2.app.running = true)
    (hs : (sysRun e m db .start xs).2.status = true) (d : Bytes) (sender : UInt32) (echo : UInt8)
    (hd : StatusHeader d 0x05 echo) (hl : 48 ≤ d.length) :
    (∃ b s', sysStep e m db (sysRun e m db .start xs).2 (.status (.datagram d sender)) =
        ([.status (b, sender, 50002)], s') ∧ announcedTracks b = db.tracks.rows.length) ↔
      db.tracks.rows.length = 1051 := by
  obtain ⟨b, s', h1, h2, _⟩ := C80_announces_1051_tracks e m db xs hr hs d sender echo hd hl
  constructor
  · rintro ⟨b', s'', h1', h2'⟩
    rw [h1] at h1'
    have : b = b' := by
      have := congrArg Prod.fst h1'
      simpa using this
    rw [← h2', ← this, h2]
  · intro h
    exact ⟨b, s', h1, by rw [h2, h]⟩

/-- C80, non-vacuity: a link query. -/
example : StatusHeader (ownHeader 0x05 1 ++ List.replicate 14 0) 0x05 1 ∧
    48 ≤ (ownHeader 0x05 1 ++ List.replicate 14 0).length := by
  refine ⟨⟨by decide, rfl, rfl, ⟨['L', 'i', 'n', 'u', 'x'] ++ List.replicate 15 '\x00', ?_⟩, rfl⟩,
    by decide⟩
  rw [← fromUtf8_utf8 (['L', 'i', 'n', 'u', 'x'] ++ List.replicate 15 '\x00')]
  rfl

/-! ## Instances -/

/-- A history in which a player connects to the library and asks for the link status. -/
def exampleHistory : List (SysAction F) :=
  [.accept 0, .status (.datagram (ownHeader 0x05 1 ++ List.replicate 14 0) 7), .app .appRecv]

theorem exampleHistory_runs (e : Endian) (m : Mode) (db : Db) :
    (sysRun (F := F) e m db .start exampleHistory).2.app.running = true := rfl

example (e : Endian) (m : Mode) (db : Db) :=
  C77_status_undisturbed (F := F) e m db exampleHistory (exampleHistory_runs e m db)

example (e : Endian) (m : Mode) (db : Db) :=
  C77_library_undisturbed (F := F) e m db [.accept 0] 0 rfl
    (by simp [sysRun, sysStep, System.start, AppSystem.start, Services.start, LibServer.start])
    (by simp [sysRun, sysStep, System.start, AppSystem.start, Services.start, LibServer.start]) 40000

/-- The negotiation without a known network ends the process. -/
example (e : Endian) (m : Mode) (db : Db) :
    (sysStep (F := F) e m db { System.start with
      app := { exampleLinking with state := { exampleLinking.state with address := none } } }
      (.app (.appLink []))).2.app.running = false :=
  (C79_ends_exactly e m db _ _ rfl).2 ⟨[], rfl, rfl, .inr (.inl rfl)⟩

example (e : Endian) (m : Mode) (db : Db) :=
  C79_end_is_silence (F := F) e m db { System.start with app := { exampleLinking with running := false } }
    rfl exampleHistory

example (e : Endian) (m : Mode) (db : Db) :=
  C79_foreign_announcement_silences (F := F) e m db _ _ exampleDatagram_accepted []
    (by simp [NoMatch, candidates]) []
    [.app (.receive [] exampleDatagram), .accept 3, .app .appRecv, .app .appRecv, .status .ioError,
      .app (.appLink [])] rfl exampleHistory

example (e : Endian) (m : Mode) (db : Db) :=
  C80_announces_1051_tracks (F := F) e m db [.accept 0] rfl rfl _ 7 1
    (exampleHeader 0x05 (List.replicate 14 0)) (by decide)

end PDJ

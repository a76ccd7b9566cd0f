import Verif.Props.System

/-!
# Properties C112, C113: other devices on the network and the application's place in it

`/repo/src/rekordbox/server.rs` 232-271 asks of the function that follows the players' network whether
it "might force the application to join an other hostile network".  C112 answers that.  C113 is about
the player number.
-/

namespace PDJ

open Spec

theorem heard_listed {xs : List AppAction} {h : List (List Interface × Announcement)} (hh : Heard xs h)
    {i : List Interface} {d : Bytes} {a : Announcement} (hm : .receive i d ∈ xs)
    (ha : Accepted d a) : (i, a) ∈ h := by
  induction hh with
  | nil => exact absurd hm List.not_mem_nil
  | accepted hd _ ih =>
    rcases List.mem_cons.1 hm with e | hm
    · cases e
      rw [announcement_unique ha.1 hd.1]
      exact List.mem_cons_self
    · exact List.mem_cons_of_mem _ (ih hm)
  | ignored hd _ ih =>
    rcases List.mem_cons.1 hm with e | hm
    · cases e
      exact absurd ha (hd _)
    · exact ih hm
  | broadcast _ ih | appRecv _ ih | appLink _ ih =>
    rcases List.mem_cons.1 hm with e | hm
    · exact nomatch e
    · exact ih hm

theorem firstMatch_unique {i : List Interface} {ip : Ip4} {n m : PioneerNetwork}
    (h1 : FirstMatch i ip n) (h2 : FirstMatch i ip m) : n = m := by
  rw [firstMatch_iff] at h1 h2
  rw [h1] at h2
  exact Option.some.inj (Outcome.ok.inj h2)

/-- What one announcement does to a working application, when its network can be looked up. -/
theorem step_hear {s : AppSystem} (hs : Healthy s) {i : List Interface} {d : Bytes} {a : Announcement}
    (ha : Accepted d a) {n : Option PioneerNetwork} (hm : matchInterface a.ip i = .ok n) :
    (appStep s (.receive i d)).1 = [] ∧ (appStep s (.receive i d)).2.state.address = n ∧
    Healthy (appStep s (.receive i d)).2 ∧
    (appStep s (.receive i d)).2.broadcaster = s.broadcaster ∧
    (appStep s (.receive i d)).2.state.players =
      addOrUpdate (Player.new a.model a.number a.ip) s.state.players := by
  have e : appStep s (.receive i d) = ([], { s with
      state := hear n a s.state
      queue := s.queue ++ events s.state (hear n a s.state) }) := by
    have e' : appStep s (.receive i d) =
        if s.running then ([], if s.receiver then receiveStep i d s else s) else ([], s) := rfl
    rw [e', if_pos hs.running, if_pos hs.receiver, receive_accepted ha, hm,
      if_neg (by rw [hs.lock]; decide)]
  rw [e]
  exact ⟨rfl, rfl, ⟨hs.running, hs.receiver, hs.lock⟩, rfl, rfl⟩

/-! ## C112 -/

/-- C112, the claim is false: an announcement whose address is on no local network silences a working
application, whatever network it was on: until it hears another announcement it broadcasts nothing,
whatever its threads do. -/
theorem C112_foreign_announcement_silences (s : AppSystem) (hs : Healthy s) (i : List Interface)
    (d : Bytes) (a : Announcement) (ha : Accepted d a) (hn : NoMatch i a.ip) (xs : List AppAction)
    (hx : Heard xs []) : (appRun s (.receive i d :: xs)).1 = [] := by
  have hm : matchInterface a.ip i = .ok none := (C55_no_match a.ip i).2 hn
  obtain ⟨h1, h2, _⟩ := step_hear hs ha hm
  rw [(appRun_cons s _ xs).2, h1, List.nil_append]
  cases ho : (appRun (appStep s (.receive i d)).2 xs).1 with
  | nil => rfl
  | cons o os =>
    obtain ⟨n, hn | ⟨e, he, _⟩, _⟩ := run_destinations xs [] hx (appStep s (.receive i d)).2 o
      (by rw [ho]; exact List.mem_cons_self)
    · rw [h2] at hn
      exact nomatch hn
    · exact nomatch he

/-- C112, the claim is false: an announcement from another local network takes a working application
there, whatever network it was on: all it broadcasts until the next announcement goes to that network,
and its presence is announced there. -/
theorem C112_announcement_moves (s : AppSystem) (hs : Healthy s) (i : List Interface) (d : Bytes)
    (a : Announcement) (ha : Accepted d a) (n : PioneerNetwork) (hn : FirstMatch i a.ip n)
    (xs : List AppAction) (hx : Heard xs []) :
    (∀ o ∈ (appRun s (.receive i d :: xs)).1, ∃ b, o = toAll n b) ∧
    (s.broadcaster = true → (appRun s [.receive i d, .broadcast true]).1 =
      [toAll n (statusDatagram n.network.addr n.mac 1)]) := by
  obtain ⟨h1, h2, h3, h4, _⟩ := step_hear hs ha ((firstMatch_iff _ _ _).1 hn)
  constructor
  · intro o ho
    rw [(appRun_cons s _ xs).2, h1, List.nil_append] at ho
    obtain ⟨m, hm | ⟨e, he, _⟩, b, hb, _⟩ := run_destinations xs [] hx _ o ho
    · rw [h2] at hm
      obtain rfl := Option.some.inj hm
      exact ⟨b, hb⟩
    · exact nomatch he
  · intro hbr
    rw [(appRun_cons s _ _).2, h1, List.nil_append, (appRun_cons _ _ _).2,
      C53_announcement _ h3.running (h4.trans hbr) h3.lock, h2]
    rfl

/-- C112: the broadcaster follows the latest announcement and nothing else: in every schedule after
which the threads still run, its next iteration announces the application on `n` exactly if `n` is the
first local network with the address last heard, and stays silent exactly if there is none.  So the
next announcement from the players' own network brings the application back. -/
theorem C112_follows_the_latest (xs : List AppAction) (h : List (List Interface × Announcement))
    (e : List Interface × Announcement) (hh : Heard xs (h ++ [e]))
    (hf : Healthy (appRun .start xs).2) (hb : (appRun .start xs).2.broadcaster = true) :
    (∀ n, FirstMatch e.1 e.2.ip n → (appStep (appRun .start xs).2 (.broadcast true)).1 =
      [toAll n (statusDatagram n.network.addr n.mac 1)]) ∧
    ((appStep (appRun .start xs).2 (.broadcast true)).1 = [] ↔ NoMatch e.1 e.2.ip) := by
  obtain ⟨h1, h2⟩ := C52_network xs h e hh hf
  rw [C53_announcement _ hf.running hb hf.lock, ← h2]
  constructor
  · intro n hn
    rw [(h1 n).2 hn]
  · cases (appRun .start xs).2.state.address with
    | none => simp
    | some n => simp

/-- C112: if every player heard so far is on one local network and sockets work, then every broadcast
went to that network and the next one goes there as well, whatever the threads did.  Missing for the
full claim: announcements from elsewhere, see above. -/
theorem C112_stays_partial (xs : List AppAction) (h : List (List Interface × Announcement))
    (hh : Heard xs h) (hne : h ≠ []) (n : PioneerNetwork)
    (hn : ∀ e ∈ h, FirstMatch e.1 e.2.ip n) (hs : SocketsWork xs) :
    (∀ o ∈ (appRun .start xs).1, ∃ b, o = toAll n b) ∧
    (appStep (appRun .start xs).2 (.broadcast true)).1 =
      [toAll n (statusDatagram n.network.addr n.mac 1)] := by
  obtain ⟨h1, h2⟩ := C54_survives_partial xs hs fun i d hm a ha => ⟨n, hn _ (heard_listed hh hm ha)⟩
  constructor
  · intro o ho
    obtain ⟨m, ⟨e, he, hm⟩, b, hb, _⟩ := C71_destinations xs h hh o ho
    obtain rfl := firstMatch_unique hm (hn e he)
    exact ⟨b, hb⟩
  · obtain ⟨init, e, rfl⟩ : ∃ init e, h = init ++ [e] :=
      ⟨h.dropLast, h.getLast hne, (List.dropLast_concat_getLast hne).symm⟩
    exact (C112_follows_the_latest xs init e hh h1 h2).1 n (hn e (by simp))

/-- C112, the claim is false: the library cannot be mounted either.  In every history of the process,
when the announcement heard last is from no local network, an EXPORT call is not answered and ends the
mount handler: the port it was reached at never answers anything again (unless the OS binds it
anew). -/
theorem C112_export_silenced {F : Type} (e : Endian) (m : Mode) (db : Db)
    (xs : List (SysAction F)) (h : List (List Interface × Announcement))
    (last : List Interface × Announcement) (hh : Heard (appPart xs) (h ++ [last]))
    (hf : Healthy (sysRun e m db .start xs).2.app) (hn : NoMatch last.1 last.2.ip) (p : UInt16)
    (hp : (sysRun e m db .start xs).2.services.rpc.tasks.filter (fun t => t.1 = p) =
      [(p, .program true)])
    (hd : Hdr) (peer : Addr) (w : World F) (os : SendOs) (after : List (SysAction F))
    (hre : NeverRebound p after) :
    ∃ s', sysStep e m db (sysRun e m db .start xs).2
        (.port p ⟨w, os, .datagram (callDatagram hd .mntExport) peer⟩) = ([], s') ∧
      ((sysRun e m db s' after).2.app.running = true → portOf p (sysRun e m db s' after).1 = []) := by
  refine export_without_network e m db _ ?_ p hp hd peer w os after hre
  have hc := (C77_application_undisturbed e m db xs).1
  unfold knownNetwork
  split
  · rfl
  · rw [hc] at hf ⊢
    exact (C52_network _ h last hh hf).2.2 hn

/-! ## C113 -/

theorem status_announces (ip : UInt32) (m : Mac) (mode : UInt8) :
    IsAnnouncement (statusDatagram ip m mode) ⟨appName, 17, ip⟩ := by
  refine ⟨by simp [statusDatagram, ownDatagram, signature, macBytes, be32], rfl, rfl,
    ⟨appName ++ List.replicate 11 '\x00', ?_, 11, rfl,
      show appName.getLast? ≠ some '\x00' by decide⟩, ⟨3, rfl, .inr (.inr rfl)⟩, rfl,
    rfl⟩
  rw [← fromUtf8_utf8 (appName ++ List.replicate 11 '\x00')]
  rfl

/-- C113: every announcement the application broadcasts, in any schedule, is in its own name and with
number 17, whatever numbers it has heard. -/
theorem C113_number_fixed (xs : List AppAction) (o : Bytes × Ip4 × UInt16)
    (ho : o ∈ (appRun .start xs).1) (a : Announcement) (ha : IsAnnouncement o.1 a) :
    a.model = appName ∧ a.number = 17 := by
  obtain ⟨h, hh⟩ := heard_total xs
  obtain ⟨n, _, b, rfl, hb⟩ := C71_destinations xs h hh o ho
  have key : ∀ mode, b = statusDatagram n.network.addr n.mac mode →
      a.model = appName ∧ a.number = 17 := by
    rintro mode rfl
    rw [announcement_unique ha (status_announces _ _ _)]
    exact ⟨rfl, rfl⟩
  have hk : b[10]? = some 6 := ha.2.2.1
  rcases hb with hb | hb
  · unfold negotiation at hb
    rw [List.mem_append, List.mem_append] at hb
    rcases hb with (hb | hb) | hb
    · simp only [List.mem_cons, List.not_mem_nil, or_false] at hb
      rcases hb with rfl | rfl | rfl <;>
        exact absurd (show some (0 : UInt8) = some 6 from hk) (by decide)
    · rw [List.mem_flatMap] at hb
      obtain ⟨sq, _, hb⟩ := hb
      rw [List.mem_map] at hb
      obtain ⟨c, _, rfl⟩ := hb
      exact absurd (show some (2 : UInt8) = some 6 from hk) (by decide)
    · exact key 4 (List.mem_singleton.1 hb)
  · exact key 1 hb

/-- C113, the claim is false: a working application that has just heard another device announce
itself as number 17 lists that device with number 17 and goes on to announce itself under the same
number. -/
theorem C113_taken_number (s : AppSystem) (hs : Healthy s) (hb : s.broadcaster = true)
    (i : List Interface) (d : Bytes) (a : Announcement) (ha : Accepted d a) (h17 : a.number = 17)
    (n : PioneerNetwork) (hn : FirstMatch i a.ip n) :
    (∃ p ∈ (appRun s [.receive i d, .broadcast true]).2.state.players,
      p.address = a.ip ∧ p.number = 17) ∧
    ∃ o ∈ (appRun s [.receive i d, .broadcast true]).1,
      IsAnnouncement o.1 ⟨appName, 17, n.network.addr⟩ := by
  obtain ⟨h1, h2, h3, h4, hpl⟩ := step_hear hs ha ((firstMatch_iff _ _ _).1 hn)
  have hst := C53_announcement _ h3.running (h4.trans hb) h3.lock
  rw [h2] at hst
  simp only at hst
  constructor
  · rw [(appRun_cons s _ _).1, (appRun_cons _ _ _).1, hst]
    show ∃ p ∈ (appStep s (.receive i d)).2.state.players, _
    rw [hpl, ← h17]
    generalize s.state.players = ps
    induction ps with
    | nil => exact ⟨_, List.mem_cons_self, rfl, rfl⟩
    | cons p ps ih =>
      unfold addOrUpdate
      split
      · rename_i e
        exact ⟨_, List.mem_cons_self, e, rfl⟩
      · obtain ⟨q, hq, hr⟩ := ih
        exact ⟨q, List.mem_cons_of_mem _ hq, hr⟩
  · rw [(appRun_cons s _ _).2, (appRun_cons _ _ _).2, hst]
    exact ⟨toAll n (statusDatagram n.network.addr n.mac 1), by simp, status_announces _ _ _⟩

/-- C113, the claim is false: a device that objects is not heard: every datagram but a status packet,
such as those of the other kinds a device claims or defends its number with, leaves the application as
it is and unanswered. -/
theorem C113_objections_unheard (s : AppSystem) (i : List Interface) (d : Bytes)
    (hk : d[10]? ≠ some 6) : appStep s (.receive i d) = ([], s) := by
  unfold appStep
  split
  · simp only
    rw [receive_ignored fun a h => hk h.1.2.2.1]
    simp
  · rfl

/-- C113: the number is the application's own as long as no device with number 17 is heard: then no
player in the registry has the number of any announcement the application broadcasts.  Missing for the
full claim: a device with that number, see above. -/
theorem C113_number_own_partial (xs : List AppAction) (h : List (List Interface × Announcement))
    (hh : Heard xs h) (hf : Healthy (appRun .start xs).2) (hno : ∀ e ∈ h, e.2.number ≠ 17)
    (o : Bytes × Ip4 × UInt16) (ho : o ∈ (appRun .start xs).1) (a : Announcement)
    (ha : IsAnnouncement o.1 a) :
    ∀ p ∈ (appRun .start xs).2.state.players, p.number ≠ a.number := by
  intro p hp
  rw [(C113_number_fixed xs o ho a ha).2]
  have := ((C49_registry xs h hh hf).2 p hp).2
  rw [Option.map_eq_some_iff] at this
  obtain ⟨e, he, hn⟩ := this
  rw [← hn]
  exact hno e (List.mem_filter.1 (List.mem_of_getLast? he)).1

theorem last_of_filter {α : Type} (q : α → Bool) (l : List α) (e : α) :
    (l.filter q).getLast? = some e ↔ q e = true ∧ ∃ before after, l = before ++ e :: after ∧ ∀ f ∈ after, q f = false := by
  constructor
  · intro h
    induction l with
    | nil => exact nomatch h
    | cons x l ih =>
      rw [List.filter_cons] at h
      cases hl : (l.filter q).getLast? with
      | some y =>
        have : y = e := by
          split at h
          · rw [List.getLast?_cons, hl] at h; exact Option.some.inj h
          · rw [hl] at h; exact Option.some.inj h
        subst this
        obtain ⟨h1, before, after, rfl, h2⟩ := ih hl
        exact ⟨h1, x :: before, after, rfl, h2⟩
      | none =>
        rw [List.getLast?_eq_none_iff] at hl
        rw [hl] at h
        split at h
        · rename_i hx
          have : x = e := Option.some.inj h
          subst this
          exact ⟨hx, [], l, rfl, fun f hf => by simpa using List.filter_eq_nil_iff.1 hl f hf⟩
        · exact nomatch h
  · rintro ⟨h1, before, after, rfl, h2⟩
    rw [List.filter_append, List.filter_cons_of_pos h1,
      (List.filter_eq_nil_iff (l := after)).2 (fun f hf => by simp [h2 f hf])]
    simp

/-- C113, exactly: in every schedule after which the threads still run, a registered player has the number under
which the application announces itself if and only if the latest announcement heard from some address has
number 17. -/
theorem C113_number_own_iff (xs : List AppAction) (h : List (List Interface × Announcement))
    (hh : Heard xs h) (hf : Healthy (appRun .start xs).2) :
    (∃ p ∈ (appRun .start xs).2.state.players, p.number = 17) ↔
      ∃ before e after, h = before ++ e :: after ∧ e.2.number = 17 ∧ ∀ f ∈ after, f.2.ip ≠ e.2.ip := by
  obtain ⟨h1, h2⟩ := C49_registry xs h hh hf
  constructor
  · rintro ⟨p, hp, hn⟩
    have := (h2 p hp).2
    rw [Option.map_eq_some_iff] at this
    obtain ⟨e, he, hen⟩ := this
    obtain ⟨hq, before, after, hs, ha⟩ := (last_of_filter _ _ _).1 he
    refine ⟨before, e, after, hs, hen.trans hn, fun f hf => ?_⟩
    have := ha f hf
    simp only [decide_eq_true_eq, decide_eq_false_iff_not] at hq this
    rw [hq]
    exact this
  · rintro ⟨before, e, after, rfl, hn, ha⟩
    have hm : e.2.ip ∈ (appRun .start xs).2.state.players.map Player.address := by
      rw [h1, List.mem_eraseDups]
      simp
    obtain ⟨p, hp, hpa⟩ := List.mem_map.1 hm
    refine ⟨p, hp, ?_⟩
    have := (h2 p hp).2
    rw [(last_of_filter _ _ e).2 ⟨by simp [hpa], before, after, rfl, fun f hf => by simp [hpa, ha f hf]⟩] at this
    exact (Option.some.inj this).symm.trans hn

/-! ## Cases -/

example := C113_number_own_iff _ _ exampleHeard exampleSchedule_fine.1

example := C112_foreign_announcement_silences _ exampleHealthy [] exampleDatagram
  exampleAnnouncement exampleDatagram_accepted (by simp [NoMatch, candidates])
  [.broadcast true, .appRecv] (.broadcast (.appRecv .nil))
example := C112_announcement_moves _ exampleHealthy _ _ _ exampleDatagram_accepted _ exampleMatch
  [.broadcast true] (.broadcast .nil)
example := C112_follows_the_latest _ [] _ exampleHeard exampleSchedule_fine.1 exampleSchedule_fine.2
example := C112_stays_partial _ _ exampleHeard (by simp) exampleNetwork
  (by intro e he; rw [List.mem_singleton.1 he]; exact exampleMatch)
  ⟨by simp [exampleSchedule], by simp [exampleSchedule]⟩

/-- C112: a player asks the portmapper for the mount program, then one without local network announces
itself. -/
example {F : Type} (e : Endian) (m : Mode) (db : Db) (hd : Hdr) (v pt : UInt32) (peer : Addr)
    (w : World F) (os : SendOs) :
    let xs : List (SysAction F) := [.portmap (fun _ _ => true) (some 4711)
      (.datagram (callDatagram hd (.pmapGetport 100005 v pt)) peer),
      .app (.receive [] exampleDatagram)]
    ∃ s', sysStep e m db (sysRun e m db .start xs).2
        (.port 4711 ⟨w, os, .datagram (callDatagram hd .mntExport) peer⟩) = ([], s') := by
  intro xs
  obtain ⟨s1, h1, h2, h3, h4, h5⟩ := getport_step (F := F) e RpcSystem.start rfl hd _ _
    (.getportMount v pt) (.program true) rfl rfl peer 4711 rfl (fun _ _ => true) rfl
  obtain ⟨s', hs, -⟩ := C112_export_silenced e m db xs [] ([], exampleAnnouncement)
    (.accepted exampleDatagram_accepted .nil)
    (by
      rw [(C77_application_undisturbed e m db xs).1]
      show Healthy (appStep .start (.receive [] exampleDatagram)).2
      exact (step_hear exampleHealthy exampleDatagram_accepted (n := none) rfl).2.2.1)
    (by simp [NoMatch, candidates]) 4711
    (by
      have : (sysRun e m db .start xs).2.services.rpc.tasks =
        (rpcStep e RpcSystem.start (.portmap (fun _ _ => true) (some 4711)
          (.datagram (callDatagram hd (.pmapGetport 100005 v pt)) peer))).2.tasks := rfl
      rw [this, h1, h5]
      simp [RpcSystem.start])
    hd peer w os [] (by simp [NeverRebound])
  exact ⟨s', hs⟩

/-- The player of the examples, with number 17. -/
def exampleSeventeen : Bytes :=
  signature ++ [0x06, 0x00] ++ [0x58, 0x44, 0x4a, 0, 0, 0, 0, 0, 0, 0, 0, 0, 0, 0, 0, 0, 0, 0, 0, 0] ++
  [0x01, 0x02, 0x00, 0x36] ++ [17, 1, 1, 2, 3, 4, 5, 6, 192, 168, 10, 7, 1, 1, 0, 0, 1, 8]

example := C113_taken_number _ exampleHealthy rfl
  exampleInterfaces exampleSeventeen ⟨['X', 'D', 'J'], 17, ofBe32 192 168 10 7⟩
  (by
    refine ⟨⟨by decide, rfl, rfl, ⟨['X', 'D', 'J'] ++ List.replicate 17 '\x00', ?_, 17, rfl,
      by decide⟩, ⟨2, rfl, .inr (.inl rfl)⟩, rfl, by decide⟩, by decide⟩
    rw [← fromUtf8_utf8 (['X', 'D', 'J'] ++ List.replicate 17 '\x00')]
    rfl) rfl _ exampleMatch

example := C113_objections_unheard .start [] (ownDatagram 0x08 0x29 [17, 1]) (by decide)

/-- After the schedule of the examples something was broadcast, and it is an announcement. -/
theorem exampleAnnounced : ∃ o ∈ (appRun .start exampleSchedule).1, ∃ a, IsAnnouncement o.1 a := by
  refine ⟨toAll exampleNetwork (statusDatagram exampleNetwork.network.addr exampleNetwork.mac 1), ?_,
    _, status_announces _ _ _⟩
  have h2 := C112_stays_partial [.receive exampleInterfaces exampleDatagram, .appRecv] _
    (.accepted exampleDatagram_accepted (.appRecv .nil)) (by simp) exampleNetwork
    (by intro e he; rw [List.mem_singleton.1 he]; exact exampleMatch) ⟨by simp, by simp⟩
  have e : exampleSchedule = [.receive exampleInterfaces exampleDatagram, .appRecv] ++
    [.broadcast true] := rfl
  rw [e, appRun_append]
  simp only [List.mem_append]
  right
  rw [(appRun_cons _ _ _).2, h2.2]
  simp

example : ∃ a : Announcement, a.model = appName ∧ a.number = 17 := by
  obtain ⟨o, ho, a, ha⟩ := exampleAnnounced
  exact ⟨a, C113_number_fixed _ o ho a ha⟩

example : ∃ a : Announcement, ∀ p ∈ (appRun .start exampleSchedule).2.state.players,
    p.number ≠ a.number := by
  obtain ⟨o, ho, a, ha⟩ := exampleAnnounced
  exact ⟨a, C113_number_own_partial _ _ exampleHeard exampleSchedule_fine.1
    (by intro e he; rw [List.mem_singleton.1 he]; decide) o ho a ha⟩

end PDJ

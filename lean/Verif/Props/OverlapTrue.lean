import Verif.Lemmas.OverlapTrue

/-!
# C129: what is sent while steps overlap is true at that time

The mutex around the state (rekordbox/server.rs 58, 65) makes what is broadcast true when it is sent, and what is answered true at some
time between question and answer.
-/

namespace PDJ

open Spec

variable {F : Type}

/-- **C129.**  While steps overlap in any way: whenever something is broadcast, the one who sends it has the lock, before
and after, and it names the network that is known at this very moment, with its addresses, and goes to all in it. -/
theorem C129_broadcast_true (e : Endian) (m : Mode) (db : Db) (h : List (OverlapAction F))
    (o : List (PDJ.Party × SysOut)) (s : Overlap F) (hr : overlapRun e m db .start h = some (o, s))
    (a : OverlapAction F) (o' : List (PDJ.Party × SysOut)) (s' : Overlap F)
    (hs : overlapStep e m db s a = some (o', s')) (p : PDJ.Party) (b : Bytes × UInt32 × UInt16)
    (hb : (p, .broadcast b) ∈ o') : s.lock = some p ∧ s'.lock = some p ∧
      ∃ n, s.sys.app.state.address = some n ∧ s'.sys.app.state.address = some n ∧ Names n b :=
  ((watched_start.history hr).step hs).2 p b hb

/-- **C129.**  As long as one who has the lock does not go on, nobody else gets it, nothing of the state changes and
nothing is broadcast, whatever else happens. -/
theorem C129_exclusive (e : Endian) (m : Mode) (db : Db) (h h' : List (OverlapAction F))
    (o o' : List (PDJ.Party × SysOut)) (s s' : Overlap F) (hr : overlapRun e m db .start h = some (o, s))
    (hr' : overlapRun e m db s h' = some (o', s')) (p : PDJ.Party) (hl : s.lock = some p) (hp : ∀ x ∈ h', x ≠ .go p) :
    s'.lock = some p ∧ s'.sys.app.state = s.sys.app.state ∧ s'.sys.app.poisoned = s.sys.app.poisoned ∧
      ∀ q b, (q, .broadcast b) ∉ o' := by
  have hf := watched_start.history hr
  clear hr
  induction h' generalizing s o' with
  | nil =>
    simp only [overlapRun, Option.some.injEq, Prod.mk.injEq] at hr'
    obtain ⟨rfl, rfl⟩ := hr'
    exact ⟨hl, rfl, rfl, fun _ _ => List.not_mem_nil⟩
  | cons a h' ih =>
    simp only [overlapRun] at hr'
    split at hr'
    · exact nomatch hr'
    next o1 s1 h1 =>
      split at hr'
      · exact nomatch hr'
      next o2 s2 h2 =>
        simp only [Option.some.injEq, Prod.mk.injEq] at hr'
        obtain ⟨rfl, rfl⟩ := hr'
        obtain ⟨hf1, hb1⟩ := hf.step h1
        have key : s1.lock = some p ∧ s1.sys.app.state = s.sys.app.state ∧
            s1.sys.app.poisoned = s.sys.app.poisoned := by
          rcases overlapStep_cases h1 with ⟨x, rfl, _, rfl, rfl⟩ | ⟨q, outs, rfl, hg, rfl⟩
          · exact ⟨hl, rfl, rfl⟩
          · exact hf.go_other hg hl fun hq => hp _ List.mem_cons_self (by rw [hq])
        obtain ⟨k1, k2, k3, k4⟩ := ih o2 s1 h2 key.1 (fun x hx => hp x (List.mem_cons_of_mem _ hx)) hf1
        refine ⟨k1, k2.trans key.2.1, k3.trans key.2.2, fun q b hb => ?_⟩
        rcases List.mem_append.1 hb with hb | hb
        · obtain ⟨l1, _⟩ := hb1 q b hb
          rw [hl] at l1
          cases l1
          rcases overlapStep_cases h1 with ⟨x, rfl, _, rfl, _⟩ | ⟨q, outs, rfl, _, rfl⟩
          · exact absurd hb List.not_mem_nil
          · simp only [List.mem_map, Prod.mk.injEq] at hb
            obtain ⟨_, _, rfl, _⟩ := hb
            exact absurd rfl (hp _ List.mem_cons_self)
        · exact k4 q b hb

/-- **C129.**  What a step sends, whatever overlaps with it, is what it sends as a whole in the state of the process at
some moment while it is under way, one at which nobody has the lock if the step needs it. -/
theorem C129_at_some_moment (e : Endian) (m : Mode) (db : Db) (s s' : Overlap F) (p : PDJ.Party) (x : SysAction F)
    (hd : s.doing p = .taken x) (h' : List (OverlapAction F)) (o' : List (PDJ.Party × SysOut))
    (hr' : overlapRun e m db s h' = some (o', s')) (hb : stepsOf p (begunSteps h') = []) (hi : s'.doing p = .idle) :
    ∃ h₁ h₂ o₁ s₁, h' = h₁ ++ .go p :: h₂ ∧ .go p ∉ h₁ ∧ overlapRun e m db s h₁ = some (o₁, s₁) ∧
      s₁.sys.app.running = true ∧ (needsLock s₁.sys x = true → s₁.lock = none) ∧
      sentOf p o' = (sysStep e m db s₁.sys x).1 := by
  induction h' generalizing s o' with
  | nil =>
    simp only [overlapRun, Option.some.injEq, Prod.mk.injEq] at hr'
    obtain ⟨_, rfl⟩ := hr'
    rw [hd] at hi
    exact nomatch hi
  | cons a h' ih =>
    have hrr := hr'
    simp only [overlapRun] at hr'
    split at hr'
    · exact nomatch hr'
    next o1 s1 h1 =>
      split at hr'
      · exact nomatch hr'
      next o2 s2 h2 =>
        simp only [Option.some.injEq, Prod.mk.injEq] at hr'
        obtain ⟨rfl, rfl⟩ := hr'
        rw [show a :: h' = [a] ++ h' from rfl, begunSteps_append, stepsOf_append] at hb
        obtain ⟨hb1, hb2⟩ := List.append_eq_nil_iff.1 hb
        by_cases ha : a = .go p
        · subst ha
          rcases overlapStep_cases h1 with ⟨x, hx, _⟩ | ⟨q, outs, hq, hg, rfl⟩
          · exact nomatch hx
          · cases hq
            obtain ⟨rfl, h4, h5, h6⟩ := effect_go hg hd
            obtain ⟨h7, _⟩ := rest_sent h' h2 hb2 h4
            refine ⟨[], h', [], s, rfl, List.not_mem_nil, rfl, ?_, h5, ?_⟩
            · simp only [overlapStep] at h1
              split at h1
              next hrun => exact hrun
              next => exact nomatch h1
            rw [hi, h6] at h7
            rw [sentOf_append, ← h7]
            exact (List.append_nil _).symm
        · have hd1 : s1.doing p = .taken x ∧ sentOf p o1 = [] := by
            rcases overlapStep_cases h1 with ⟨y, rfl, _, rfl, rfl⟩ | ⟨q, outs, rfl, hg, rfl⟩
            · have hy : p ≠ y.party := by
                intro hp
                simp [begunSteps, stepsOf, (isOf_party p y).2 hp.symm] at hb1
              exact ⟨by rw [now_other _ hy]; exact hd, rfl⟩
            · have hq : q ≠ p := fun hq => ha (by rw [hq])
              exact ⟨by rw [goOn_other hg (Ne.symm hq)]; exact hd, by rw [sentOf_map, if_neg hq]⟩
          obtain ⟨h₁, h₂, o₁, s₁, e1, en, e2, e0, e3, e4⟩ := ih s1 hd1.1 o2 h2 hb2
          refine ⟨a :: h₁, h₂, o1 ++ o₁, s₁, by rw [e1]; rfl, ?_, ?_, e0, e3, ?_⟩
          · exact fun hm => (List.mem_cons.1 hm).elim (fun h => ha h.symm) en
          · simp only [overlapRun, h1, e2]
          · rw [sentOf_append, hd1.2, List.nil_append, e4]

/-- **C129.**  A question for the exports that is taken up at a mount handler and answered later, whatever happens in
the meantime, is answered with the network known at some moment while it was under way at which nobody had the lock,
so that nothing half changed is told; it is answered with nothing if none was known then. -/
theorem C129_export (e : Endian) (m : Mode) (db : Db) (h h' : List (OverlapAction F))
    (o o' : List (PDJ.Party × SysOut)) (s s' : Overlap F) (hr : overlapRun e m db .start h = some (o, s))
    (p : UInt16) (w : World F) (os : SendOs) (d : Bytes) (peer : Addr) (xid : UInt32) (hc : IsCall d xid .mntExport)
    (hos : ∀ b, os false b peer = true) (hd : s.doing (.port p) = .taken (.port p ⟨w, os, .datagram d peer⟩))
    (hl : listener p s.sys.services.rpc.tasks = some (.program true))
    (hr' : overlapRun e m db s h' = some (o', s')) (hb : stepsOf (.port p) (begunSteps h') = [])
    (hi : s'.doing (.port p) = .idle) :
    ∃ h₁ h₂ o₁ s₁, h' = h₁ ++ .go (.port p) :: h₂ ∧ .go (.port p) ∉ h₁ ∧
      overlapRun e m db s h₁ = some (o₁, s₁) ∧ s₁.lock = none ∧
      (knownNetwork s₁.sys.app = none → sentOf (.port p) o' = []) ∧
      ∀ n, knownNetwork s₁.sys.app = some n → ∃ b results rest address mask,
        sentOf (.port p) o' = [.rpc (some p, b, peer)] ∧ readRpcReply b = some (xid, results) ∧
        getExports 3 results = some ([([0x2f, 0x00], [utf8 (address ++ '/' :: mask)])], rest) ∧
        Dotted address n.network.addr ∧ Dotted mask n.network.mask := by
  obtain ⟨h₁, h₂, o₁, s₁, e1, en, e2, e3, e4, e5⟩ := C129_at_some_moment e m db s s' _ _ hd h' o' hr' hb hi
  have hl1 : listener p s₁.sys.services.rpc.tasks = some (.program true) := by
    have hf := watched_start.history hr
    clear e1 e3 e4 e5 hr hd hr'
    induction h₁ generalizing s o₁ with
    | nil =>
      simp only [overlapRun, Option.some.injEq, Prod.mk.injEq] at e2
      obtain ⟨_, rfl⟩ := e2
      exact hl
    | cons a h₁ ih =>
      simp only [overlapRun] at e2
      split at e2
      · exact nomatch e2
      next o1 s1 h1 =>
        split at e2
        · exact nomatch e2
        next o2 s2 h2 =>
          simp only [Option.some.injEq, Prod.mk.injEq] at e2
          obtain ⟨_, rfl⟩ := e2
          refine ih s1 ?_ o2 (fun hm => en (List.mem_cons_of_mem _ hm)) h2 (hf.step h1).1
          rcases overlapStep_cases h1 with ⟨x, rfl, _, rfl, rfl⟩ | ⟨q, outs, rfl, hg, rfl⟩
          · exact hl
          · exact hf.listens hg (fun hq => en (by rw [hq]; exact List.mem_cons_self)) _ hl
  refine ⟨h₁, h₂, o₁, s₁, e1, en, e2, e4 ?_, fun hk => ?_, fun n hk => ?_⟩
  · have := locksState_listener (ev := ⟨w, os, .datagram d peer⟩) hl1 ⟨d, peer, xid, rfl, hc⟩
    simp only [needsLock, locksFirst, this]
    rfl
  · rw [e5]
    obtain ⟨d1, _⟩ := deliver_listener e none p ⟨w, os, .datagram d peer⟩ _ _ hl1
    simp only [sysStep, e3, if_true, servicesStep, rpcStep, hk, d1]
    obtain ⟨q, hf, _, hm⟩ := (C81_call_iff d xid _).1 hc
    simp only [taskStep, progStep, hf, hm.of_export]
    rfl
  · obtain ⟨b, results, rest, address, mask, h1, h2, h3, h4, h5, _⟩ :=
      C33_export_reply n (os false) d peer xid hc hos
    obtain ⟨d1, _⟩ := deliver_listener e (some n) p ⟨w, os, .datagram d peer⟩ _ _ hl1
    refine ⟨b, results, rest, address, mask, ?_, h2, h3, h4, h5⟩
    rw [e5]
    simp only [sysStep, e3, if_true, servicesStep, rpcStep, hk, d1, taskStep]
    rw [h1]
    rfl

/-- The application has heard a player and announces itself. -/
def exampleAnnounces : List (OverlapAction Nat) :=
  [.take (.app (.receive exampleInterfaces exampleDatagram)), .go .receiver, .go .receiver, .go .receiver, .go .receiver,
    .take (.app (.broadcast true)), .go .receiver, .go .receiver, .go .broadcaster]

/-- The hypotheses of C129_broadcast_true are met: the application's presence is sent while it has heard a player and
others have taken something up. -/
example (e : Endian) (m : Mode) (db : Db) : ∃ o s o' s' b,
    overlapRun e m db .start exampleAnnounces = some (o, s) ∧
    overlapStep e m db s (.go .broadcaster) = some (o', s') ∧ (PDJ.Party.broadcaster, .broadcast b) ∈ o' ∧
    Names exampleNetwork b := by
  have key : ∃ o s b s', overlapRun e m db .start exampleAnnounces = some (o, s) ∧
      overlapStep e m db s (.go .broadcaster) = some ([(.broadcaster, .broadcast b)], s') ∧
      s.sys.app.state.address = some exampleNetwork := by
    refine ⟨_, _, _, _, rfl, rfl, ?_⟩
    rfl
  obtain ⟨o, s, b, s', h1, h2, h3⟩ := key
  obtain ⟨_, _, n, h4, _, h5⟩ := C129_broadcast_true e m db _ o s h1 _ _ _ h2 .broadcaster b List.mem_cons_self
  rw [h3] at h4
  cases h4
  exact ⟨o, s, _, s', b, h1, h2, List.mem_cons_self, h5⟩

/-- C129_exclusive: the broadcaster has the lock while two others take something up and a third one works. -/
example (e : Endian) (m : Mode) (db : Db) :=
  C129_exclusive e m db (exampleOverlap.take 2) [.take (.app (.receive exampleInterfaces exampleDatagram)),
    .take (.app .appRecv), .take (.accept 0), .go .listener, .go .listener] _ _ _ _ rfl rfl .broadcaster rfl (by simp)

/-- A step that has been taken up, reads the state and sends one thing. -/
theorem goes_reading (e : Endian) (m : Mode) (db : Db) (s : Overlap F) (p : UInt16) (ev : NfsEvent F)
    (hr : s.sys.app.running = true) (hl : s.lock = none) (hd : s.doing (.port p) = .taken (.port p ev))
    (hn : needsLock s.sys (.port p ev) = true) (y : SysOut) (t : System F)
    (hs : sysStep e m db s.sys (.port p ev) = ([y], t)) (ht : t.app.running = true) :
    overlapRun e m db s [.go (.port p), .go (.port p), .go (.port p), .go (.port p)] =
      some ([(.port p, y)], { s with sys := t, lock := none }.now (.port p) .idle) := by
  have h1 : goOn e m db s (.port p) = some ([], { s with sys := t, lock := some (.port p) }.now (.port p) (.reading [y])) := by
    simp only [goOn, hd, hn, hl, if_true, enter, hs]
  have h2 : goOn e m db ({ s with sys := t, lock := some (.port p) }.now (.port p) (.reading [y])) (.port p) =
      some ([], { s with sys := t, lock := none }.now (.port p) (.sending [y])) := by
    simp only [goOn, now_own]
    exact congrArg (fun a => some ([], a)) (now_now { s with sys := t, lock := none } _ _ _)
  have h3 : goOn e m db ({ s with sys := t, lock := none }.now (.port p) (.sending [y])) (.port p) =
      some ([y], { s with sys := t, lock := none }.now (.port p) (.sending [])) := by
    simp only [goOn, now_own, now_now]
  have h4 : goOn e m db ({ s with sys := t, lock := none }.now (.port p) (.sending [])) (.port p) =
      some ([], { s with sys := t, lock := none }.now (.port p) .idle) := by
    simp only [goOn, now_own, now_now]
  exact overlapRun_go e m db hr _ h1 (overlapRun_go e m db (s := { s with sys := t, lock := some (.port p) }.now (.port p) (.reading [y])) ht _ h2
    (overlapRun_go e m db (s := { s with sys := t, lock := none }.now (.port p) (.sending [y])) ht _ h3
      (overlapRun_go e m db (s := { s with sys := t, lock := none }.now (.port p) (.sending [])) ht _ h4 (xs := []) rfl)))

/-- C129_export and C129_at_some_moment: a player asks for the exports after another one has been heard. -/
example (e : Endian) (m : Mode) (db : Db) (hd : Hdr) (v pt : UInt32) (peer : Addr) (w : World Nat) :
    ∃ (h h' : List (OverlapAction Nat)) (o o' : List (PDJ.Party × SysOut)) (s s' : Overlap Nat) (b results rest : Bytes)
      (address mask : Str), overlapRun e m db .start h = some (o, s) ∧ overlapRun e m db s h' = some (o', s') ∧
      sentOf (.port 4711) o' = [.rpc (some 4711, b, peer)] ∧ readRpcReply b = some (hd.xid, results) ∧
      getExports 3 results = some ([([0x2f, 0x00], [utf8 (address ++ '/' :: mask)])], rest) ∧
      Dotted address exampleNetwork.network.addr ∧ Dotted mask exampleNetwork.network.mask := by
  let xs : List (SysAction Nat) := [.portmap (fun _ _ => true) (some 4711)
      (.datagram (callDatagram hd (.pmapGetport 100005 v pt)) peer), .app (.receive exampleInterfaces exampleDatagram)]
  let x : SysAction Nat := .port 4711 ⟨w, fun _ _ _ => true, .datagram (callDatagram hd .mntExport) peer⟩
  have hc : IsCall (callDatagram hd .mntExport) hd.xid .mntExport :=
    isCall_callDatagram hd .mntExport _ _ .exportList (by intro p; simp)
  obtain ⟨h, o, s, r, _, es, hl, hi, _, _⟩ := whole_steps e m db xs (.start : Overlap Nat) rfl (fun _ _ => rfl)
  obtain ⟨s1, h1, h2, h3, h4, h5⟩ := getport_step (F := Nat) e RpcSystem.start rfl hd _ _
    (.getportMount v pt) (.program true) rfl rfl peer 4711 rfl (fun _ _ => true) rfl
  have hserv : s.sys.services.rpc = s1 := by
    rw [es]
    exact congrArg Prod.snd h1
  have hlis : listener 4711 s.sys.services.rpc.tasks = some (.program true) := by rw [hserv]; exact h3
  have happ : s.sys.app = (appRun .start [.receive exampleInterfaces exampleDatagram]).2 := by
    rw [es, (app_undisturbed e m db _ _).1]
    rfl
  have hrun : s.sys.app.running = true := by rw [happ]; rfl
  have hknown : knownNetwork s.sys.app = some exampleNetwork := by rw [happ]; rfl
  have htake : overlapRun e m db s [.take x] = some ([], s.now (.port 4711) (.taken x)) := by
    simp only [overlapRun, overlapStep, hrun, if_true]
    rw [show x.party = .port 4711 from rfl, hi hrun]
    rfl
  obtain ⟨b, results, rest, address, mask, g1, _⟩ :=
    C33_export_reply exampleNetwork (fun _ _ => true) (callDatagram hd .mntExport) peer _ hc (fun _ => rfl)
  obtain ⟨d1, _⟩ := deliver_listener e (some exampleNetwork) 4711
    ⟨w, fun _ _ _ => true, .datagram (callDatagram hd .mntExport) peer⟩ _ _ hlis
  have hstep : ∃ t, sysStep e m db s.sys x = ([.rpc (some 4711, b, peer)], t) ∧ t.app = s.sys.app := by
    refine ⟨(sysStep e m db s.sys x).2, Prod.ext ?_ rfl, ?_⟩
    · simp only [x, sysStep, hrun, if_true, servicesStep, rpcStep, hknown, d1, taskStep]
      rw [g1]
      rfl
    · simp only [x, sysStep, hrun, if_true]
  obtain ⟨t, hstep, ht⟩ := hstep
  have hneed : needsLock s.sys x = true := by
    have := locksState_listener (ev := ⟨w, fun _ _ _ => true, .datagram (callDatagram hd .mntExport) peer⟩) hlis
      ⟨_, peer, _, rfl, hc⟩
    simp only [x, needsLock, locksFirst, this]
    rfl
  have hgo := goes_reading e m db (s.now (.port 4711) (.taken x)) 4711 _ hrun hl (now_own _ _ _) hneed _ t hstep
    (by rw [ht]; exact hrun)
  have hall := overlapRun_append e m db r htake
  obtain ⟨h₁, h₂, o₁, s₁, k1, k0, k2, _, _, k5⟩ := C129_export e m db _ _ _ _ _ _ hall 4711 w (fun _ _ _ => true)
    (callDatagram hd .mntExport) peer hd.xid hc (fun _ => rfl) (now_own _ _ _) hlis hgo rfl (now_own _ _ _)
  have hs₁ : s₁ = s.now (.port 4711) (.taken x) := by
    cases h₁ with
    | nil =>
      simp only [overlapRun, Option.some.injEq, Prod.mk.injEq] at k2
      exact k2.2.symm
    | cons a h₁ =>
      simp only [List.cons_append, List.cons.injEq] at k1
      exact absurd (k1.1 ▸ List.mem_cons_self) k0
  obtain ⟨b, results, rest, address, mask, f⟩ := k5 exampleNetwork (by rw [hs₁]; exact hknown)
  exact ⟨_, _, _, _, _, _, b, results, rest, address, mask, hall, hgo, f⟩

end PDJ

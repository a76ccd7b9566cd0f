import Verif.Spec.Control
import Verif.Props.App

/-!
# Property C97: control from outside
-/

namespace PDJ

open Spec

/-- C97: the getters return what was set last, and each setter leaves the rest alone. -/
theorem C97_get_set (s : ServerState) (v : Bool) (a : PioneerNetwork) :
    (s.control (.setLinking v)).isLinking = v ∧ (s.control (.setLinking v)).isDiscovery = s.isDiscovery ∧
    (s.control (.setDiscovery v)).isDiscovery = v ∧ (s.control (.setDiscovery v)).isLinking = s.isLinking ∧
    (s.control (.setAddress a)).address = some a ∧
    (s.control (.setLinking v)).address = s.address ∧ (s.control (.setDiscovery v)).address = s.address ∧
    (s.control (.setAddress a)).isLinking = s.isLinking ∧
    (s.control (.setAddress a)).isDiscovery = s.isDiscovery ∧
    (∀ c, (s.control c).players = s.players) := by
  refine ⟨rfl, rfl, rfl, rfl, rfl, rfl, rfl, rfl, rfl, ?_⟩
  intro c
  cases c <;> rfl

/-- C97: once linking is set, and as long as it is not reset, no link request is queued, whatever the
threads do and whatever else is set. -/
theorem C97_suppressed (xs : List Act) (s : AppSystem) (h : s.state.isLinking = true)
    (hx : .control (.setLinking false) ∉ xs) :
    (ctlRun s xs).2.state.isLinking = true ∧
    (takenBy s xs ++ (ctlRun s xs).2.queue).count .initiateLink = s.queue.count .initiateLink := by
  induction xs generalizing s with
  | nil => exact ⟨h, rfl⟩
  | cons x xs ih =>
    have hx' : .control (.setLinking false) ∉ xs := fun hm => hx (List.mem_cons_of_mem _ hm)
    cases x with
    | control c =>
      have hl : (ctlStep s (.control c)).2.state.isLinking = true := by
        simp only [ctlStep]
        split
        · cases c with
          | setLinking v =>
            cases v with
            | false => exact absurd List.mem_cons_self hx
            | true => rfl
          | setDiscovery v => exact h
          | setAddress a => exact h
        · exact h
      have hq : (ctlStep s (.control c)).2.queue = s.queue := by
        simp only [ctlStep]
        split <;> rfl
      obtain ⟨h1, h2⟩ := ih _ hl hx'
      rw [hq] at h2
      exact ⟨h1, h2⟩
    | thread x =>
      obtain ⟨h1, h2⟩ := C51_not_reinitiated [x] s h
      obtain ⟨h3, h4⟩ := ih (ctlStep s (.thread x)).2 h1 hx'
      refine ⟨h3, ?_⟩
      have h2 : (takenNow s x ++ [] ++ (appStep s x).2.queue).count AppEvent.initiateLink =
          s.queue.count .initiateLink := h2
      have h4 : (takenBy (appStep s x).2 xs ++ (ctlRun (appStep s x).2 xs).2.queue).count
            AppEvent.initiateLink =
          (appStep s x).2.queue.count .initiateLink := h4
      show (takenNow s x ++ takenBy (appStep s x).2 xs ++
        (ctlRun (appStep s x).2 xs).2.queue).count AppEvent.initiateLink = _
      simp only [List.count_append, List.count_nil] at h2 h4 ⊢
      omega

/-- C97: after linking is reset, the next announcement of a player queues a link request. -/
theorem C97_permitted (s : AppSystem) (hs : Healthy s) (ifaces : List Interface) (d : Bytes)
    (a : Announcement) (ha : Accepted d a) (hm : ¬ MacMissing ifaces a.ip) :
    .initiateLink ∈ (ctlRun s [.control (.setLinking false), .thread (.receive ifaces d)]).2.queue := by
  have h1 : (ctlStep s (.control (.setLinking false))).2 =
      { s with state := s.state.control (.setLinking false) } := by
    simp [ctlStep, hs.running, hs.lock]
  show _ ∈ (appStep (ctlStep s _).2 _).2.queue
  rw [h1, C50_events_of_announcement { s with state := s.state.control (.setLinking false) }
    ⟨hs.running, hs.receiver, hs.lock⟩ ifaces d a ha hm]
  simp [ServerState.control]

/-- C97: after a network is set, the next presence announcement goes there. -/
theorem C97_address (s : AppSystem) (hr : s.running = true) (hl : s.poisoned = false)
    (hb : s.broadcaster = true) (n : PioneerNetwork) :
    (ctlRun s [.control (.setAddress n), .thread (.broadcast true)]).1 =
      [toAll n (statusDatagram n.network.addr n.mac 1)] := by
  have h1 : (ctlStep s (.control (.setAddress n))).2 =
      { s with state := s.state.control (.setAddress n) } := by
    simp [ctlStep, hr, hl]
  show [] ++ ((appStep (ctlStep s _).2 _).1 ++ []) = _
  rw [h1]
  simp [appStep, hr, hb, broadcastStep, hl, ServerState.control, sendBroadcast, status_package_broadcast,
    PioneerNetwork.ip, toAll, Outcome.bind]

theorem appStep_discovery (s : AppSystem) (x : AppAction) (v : Bool) :
    (appStep { s with state := { s.state with discovery := v } } x).1 = (appStep s x).1 ∧
    SameButDiscovery (appStep s x).2 (appStep { s with state := { s.state with discovery := v } } x).2 := by
  have hh : ∀ i m st, handleKeepaliveStatus i m st { s.state with discovery := v } =
      match handleKeepaliveStatus i m st s.state with
      | .ok r => .ok ({ r.1 with discovery := v }, r.2)
      | .panic => .panic := by
    intro i m st
    simp only [handleKeepaliveStatus]
    cases matchInterface st.ip i <;> rfl
  obtain ⟨⟨l, dsc, lk, ad, ps⟩, po, q, rc, bc, pe, ru⟩ := s
  simp only at hh
  simp only [appStep]
  split
  case isFalse => exact ⟨rfl, v, rfl⟩
  cases x with
  | receive i d =>
    refine ⟨rfl, ?_⟩
    simp only
    split
    case isFalse => exact ⟨v, rfl⟩
    simp only [receiveStep]
    cases kaReceive d with
    | panic => exact ⟨v, rfl⟩
    | ok p =>
      cases p with
      | none => exact ⟨v, rfl⟩
      | some p =>
        simp only
        cases acceptedStatus p with
        | none => exact ⟨v, rfl⟩
        | some st =>
          simp only
          split
          · exact ⟨v, rfl⟩
          · rw [hh]
            cases handleKeepaliveStatus i p.model st ⟨l, dsc, lk, ad, ps⟩ <;> exact ⟨v, rfl⟩
  | broadcast ok =>
    simp only
    split
    case isFalse => exact ⟨rfl, v, rfl⟩
    simp only [broadcastStep]
    split
    · exact ⟨rfl, v, rfl⟩
    · cases ad with
      | none => exact ⟨rfl, v, rfl⟩
      | some a =>
        simp only
        cases sendBroadcast a (kaStatusPackage a.ip a.mac 1 0) ok <;> exact ⟨rfl, v, rfl⟩
  | appRecv =>
    refine ⟨rfl, ?_⟩
    simp only
    split
    · exact ⟨v, rfl⟩
    · simp only [appRecvStep]
      cases q with
      | nil => exact ⟨v, rfl⟩
      | cons e q => cases e <;> exact ⟨v, rfl⟩
  | appLink oks =>
    simp only
    split
    case isFalse => exact ⟨rfl, v, rfl⟩
    simp only [appLinkStep]
    split
    · exact ⟨rfl, v, rfl⟩
    · cases ad <;> exact ⟨rfl, v, rfl⟩

/-- C97: the discovery flag has no effect on anything but itself: without the calls of `set_discovery` the
same datagrams are sent, and the states are the same but for the flag. -/
theorem C97_discovery_ignored (xs : List Act) (s t : AppSystem) (h : SameButDiscovery s t) :
    (ctlRun t (withoutDiscovery xs)).1 = (ctlRun s xs).1 ∧
    SameButDiscovery (ctlRun s xs).2 (ctlRun t (withoutDiscovery xs)).2 := by
  induction xs generalizing s t with
  | nil => exact ⟨rfl, h⟩
  | cons x xs ih =>
    obtain ⟨v, rfl⟩ := h
    cases x with
    | thread x =>
      obtain ⟨h1, h2⟩ := appStep_discovery s x v
      obtain ⟨h3, h4⟩ := ih _ _ h2
      refine ⟨?_, h4⟩
      show (appStep _ x).1 ++ _ = (appStep s x).1 ++ _
      rw [h1]
      exact congrArg _ h3
    | control c =>
      have key : ∀ c, SameButDiscovery (ctlStep s (.control c)).2
          (ctlStep { s with state := { s.state with discovery := v } } (.control c)).2 := by
        intro c
        simp only [ctlStep]
        split
        · cases c <;> exact ⟨_, rfl⟩
        · exact ⟨v, rfl⟩
      cases c with
      | setLinking w => exact ih _ _ (key _)
      | setAddress a => exact ih _ _ (key _)
      | setDiscovery w =>
        refine ih _ _ ?_
        simp only [ctlStep]
        split <;> exact ⟨v, rfl⟩

/-! ## Non-vacuity -/

example := C97_suppressed [.thread (.receive exampleInterfaces exampleDatagram), .thread .appRecv]
  { AppSystem.start with state := { ServerState.default with linking := true } } rfl (by simp)
example := C97_permitted .start ⟨rfl, rfl, rfl⟩ exampleInterfaces exampleDatagram exampleAnnouncement
  exampleDatagram_accepted exampleHasMac
example := C97_address .start rfl rfl rfl exampleNetwork
example := C97_discovery_ignored [.control (.setDiscovery true), .thread .appRecv] .start .start ⟨false, rfl⟩

end PDJ

import Verif.Spec.App
import Verif.Props.Keepalive
import Verif.Props.Network

/-!
# Lemmas about the application
-/

namespace PDJ

open Spec

/-! ## Announcements -/

theorem announcement_unique {d : Bytes} {a b : Announcement} (ha : IsAnnouncement d a)
    (hb : IsAnnouncement d b) : a = b := by
  obtain ⟨_, _, _, ⟨w, h1, h2⟩, _, h3, h4⟩ := ha
  obtain ⟨_, _, _, ⟨w', h1', h2'⟩, _, h3', h4'⟩ := hb
  obtain ⟨m, n, i⟩ := a
  obtain ⟨m', n', i'⟩ := b
  rw [h1] at h1'
  cases h1'
  have e1 : m = m' := by
    have := trimEndNul_unique h2
    rw [trimEndNul_unique h2'] at this
    exact this.symm
  have e2 : n = n' := Option.some.inj (h3.symm.trans h3')
  have e3 : i = i' := be32_inj (h4.symm.trans h4')
  rw [e1, e2, e3]

/-- The state after an announcement, if the lookup of the network succeeds. -/
def hear (n : Option PioneerNetwork) (a : Announcement) (s : ServerState) : ServerState :=
  { s with address := n, players := addOrUpdate (Player.new a.model a.number a.ip) s.players }

/-- The events sent for an announcement. -/
def events (s s' : ServerState) : List AppEvent :=
  (if s.players.length ≠ s'.players.length then [.deviceChange] else []) ++
  (if s'.isLinkingPossible then [.initiateLink] else [])

theorem receive_ignored {d : Bytes} (h : ∀ a, ¬ Accepted d a) (ifaces : List Interface)
    (s : AppSystem) : receiveStep ifaces d s = s := by
  unfold receiveStep
  have hp := (C45_never_panics d).2
  cases hr : kaReceive d with
  | panic => exact absurd hr hp
  | ok o =>
    cases o with
    | none => rfl
    | some p =>
      have hacc : acceptedStatus p = none := by
        unfold acceptedStatus
        split
        · rename_i st hk hc
          by_cases hm : p.model ≠ rekordboxName
          · exact absurd ⟨(C64_status_layout d ⟨p.model, st.playerNumber, st.ip⟩).1
              ⟨p, st, hr, hk, hc, rfl⟩, hm⟩ (h _)
          · rw [if_neg hm]
        · rfl
      simp only [hacc]

theorem receive_accepted {d : Bytes} {a : Announcement} (h : Accepted d a) (ifaces : List Interface)
    (s : AppSystem) : receiveStep ifaces d s =
      if s.poisoned then s else
        match matchInterface a.ip ifaces with
        | .panic => { s with receiver := false, poisoned := true }
        | .ok n => { s with
            state := hear n a s.state
            queue := s.queue ++ events s.state (hear n a s.state) } := by
  obtain ⟨p, st, hr, hk, hc, ha⟩ := (C64_status_layout d a).2 h.1
  have hm : p.model ≠ rekordboxName := by
    have := h.2
    rw [ha] at this
    exact this
  have hacc : acceptedStatus p = some st := by
    unfold acceptedStatus
    rw [hk, hc]
    simp only
    rw [if_pos hm]
  unfold receiveStep
  simp only [hr, hacc]
  subst ha
  cases s.poisoned with
  | true => rfl
  | false =>
    simp only [handleKeepaliveStatus]
    cases matchInterface st.ip ifaces with
    | panic => rfl
    | ok n => rfl

theorem accepted_or_not (d : Bytes) : (∃ a, Accepted d a) ∨ ∀ a, ¬ Accepted d a := by
  by_cases h : ∃ a, Accepted d a
  · exact .inl h
  · exact .inr fun a ha => h ⟨a, ha⟩

theorem heard_total (xs : List AppAction) : ∃ h, Heard xs h := by
  induction xs with
  | nil => exact ⟨[], .nil⟩
  | cons x xs ih =>
    obtain ⟨h, hh⟩ := ih
    cases x with
    | receive i d =>
      rcases accepted_or_not d with ⟨a, ha⟩ | hn
      · exact ⟨_, .accepted ha hh⟩
      · exact ⟨_, .ignored hn hh⟩
    | broadcast ok => exact ⟨_, .broadcast hh⟩
    | appRecv => exact ⟨_, .appRecv hh⟩
    | appLink oks => exact ⟨_, .appLink hh⟩

/-! ## The registry -/

theorem addOrUpdate_addresses (new : Player) (ps : List Player) :
    (addOrUpdate new ps).map Player.address =
      if new.address ∈ ps.map Player.address then ps.map Player.address
      else ps.map Player.address ++ [new.address] := by
  induction ps with
  | nil => rfl
  | cons p ps ih =>
    unfold addOrUpdate
    by_cases h : p.address = new.address
    · rw [if_pos h, if_pos (by simp [h])]
      rfl
    · rw [if_neg h, List.map_cons, ih]
      by_cases h2 : new.address ∈ ps.map Player.address
      · rw [if_pos h2, if_pos (by rw [List.map_cons]; exact List.mem_cons_of_mem _ h2)]
        rfl
      · rw [if_neg h2, if_neg]
        · rfl
        · rw [List.map_cons, List.mem_cons, not_or]
          exact ⟨fun e => h e.symm, h2⟩

theorem addOrUpdate_prefix (new : Player) (ps : List Player) :
    ps.map Player.address <+: (addOrUpdate new ps).map Player.address := by
  rw [addOrUpdate_addresses]
  split
  · exact List.prefix_refl _
  · exact List.prefix_append _ _

theorem addOrUpdate_nodup (new : Player) (ps : List Player) (h : (ps.map Player.address).Nodup) :
    ((addOrUpdate new ps).map Player.address).Nodup := by
  rw [addOrUpdate_addresses]
  split
  · exact h
  · rename_i hn
    rw [List.nodup_append]
    refine ⟨h, by simp, ?_⟩
    intro a ha b hb
    rw [List.mem_singleton] at hb
    rintro rfl
    exact hn (hb ▸ ha)

theorem addOrUpdate_length (new : Player) (ps : List Player) :
    (addOrUpdate new ps).length =
      if new.address ∈ ps.map Player.address then ps.length else ps.length + 1 := by
  have := congrArg List.length (addOrUpdate_addresses new ps)
  rw [List.length_map] at this
  rw [this]
  split <;> simp

/-- Every entry is the new one, an unchanged one or an updated one. -/
theorem mem_addOrUpdate {new p : Player} {ps : List Player} (hnd : (ps.map Player.address).Nodup) :
    p ∈ addOrUpdate new ps ↔
      (p = new ∧ new.address ∉ ps.map Player.address) ∨ (p ∈ ps ∧ p.address ≠ new.address) ∨
      (∃ q ∈ ps, q.address = new.address ∧ p = q.update new) := by
  induction ps with
  | nil => simp [addOrUpdate]
  | cons q ps ih =>
    rw [List.map_cons, List.nodup_cons] at hnd
    unfold addOrUpdate
    by_cases h : q.address = new.address
    · rw [if_pos h, List.mem_cons]
      constructor
      · rintro (rfl | hp)
        · exact .inr (.inr ⟨q, by simp, h, rfl⟩)
        · refine .inr (.inl ⟨List.mem_cons_of_mem _ hp, ?_⟩)
          intro e
          apply hnd.1
          rw [h, ← e]
          exact List.mem_map_of_mem hp
      · rintro (⟨_, hn⟩ | ⟨hp, hne⟩ | ⟨q', hq', he, rfl⟩)
        · exact absurd (by simp [h]) hn
        · rcases List.mem_cons.1 hp with rfl | hp
          · exact absurd h hne
          · exact .inr hp
        · rcases List.mem_cons.1 hq' with rfl | hq'
          · exact .inl rfl
          · exfalso
            apply hnd.1
            rw [h, ← he]
            exact List.mem_map_of_mem hq'
    · rw [if_neg h, List.mem_cons, ih hnd.2]
      constructor
      · rintro (rfl | ⟨rfl, hn⟩ | ⟨hp, hne⟩ | ⟨q', hq', he, rfl⟩)
        · exact .inr (.inl ⟨by simp, h⟩)
        · refine .inl ⟨rfl, ?_⟩
          rw [List.map_cons, List.mem_cons, not_or]
          exact ⟨fun e => h e.symm, hn⟩
        · exact .inr (.inl ⟨List.mem_cons_of_mem _ hp, hne⟩)
        · exact .inr (.inr ⟨q', List.mem_cons_of_mem _ hq', he, rfl⟩)
      · rintro (⟨rfl, hn⟩ | ⟨hp, hne⟩ | ⟨q', hq', he, rfl⟩)
        · rw [List.map_cons, List.mem_cons, not_or] at hn
          exact .inr (.inl ⟨rfl, hn.2⟩)
        · rcases List.mem_cons.1 hp with rfl | hp
          · exact .inl rfl
          · exact .inr (.inr (.inl ⟨hp, hne⟩))
        · rcases List.mem_cons.1 hq' with rfl | hq'
          · exact absurd he h
          · exact .inr (.inr (.inr ⟨q', hq', he, rfl⟩))

/-! ## Packets sent -/

theorem ip_package_encode (sequence index : UInt8) (ip : Ip4) (m : Mac) :
    (kaIpPackage sequence index ip m).encode =
      .ok (ipDatagram sequence (mapSequenceByte index) ip m) := rfl

theorem status_package_encode (ip : Ip4) (m : Mac) (mode : UInt16) (u : UInt8) :
    (kaStatusPackage ip m mode u).encode = .ok (ownDatagram 0x06 0x36 ([17, 1] ++ macBytes m ++
      be32 ip ++ [1, 1, 0] ++ be16 mode ++ [8])) := rfl

theorem status_package_negotiation (ip : Ip4) (m : Mac) :
    (kaStatusPackage ip m 4 8).encode = .ok (statusDatagram ip m 4) := by
  rw [status_package_encode, show be16 4 = [0, 4] by decide, statusDatagram]
  simp only [List.append_assoc, List.cons_append, List.nil_append]

theorem status_package_broadcast (ip : Ip4) (m : Mac) :
    (kaStatusPackage ip m 1 0).encode = .ok (statusDatagram ip m 1) := by
  rw [status_package_encode, show be16 1 = [0, 1] by decide, statusDatagram]
  simp only [List.append_assoc, List.cons_append, List.nil_append]

/-- Sending packets whose encodings are known. -/
theorem sendAll_encoded (a : PioneerNetwork) (ps : List KaPacket) (ds : List Bytes) (oks : List Bool)
    (h : ps.map KaPacket.encode = ds.map Outcome.ok) :
    (∀ b ∈ oks.take ps.length, b = true) ∧ sendAll a ps oks = (ds.map (toAll a), true) ∨
    ∃ k, k < ps.length ∧ oks[k]? = some false ∧ (∀ j < k, oks.getD j true = true) ∧
      sendAll a ps oks = ((ds.take k).map (toAll a), false) := by
  induction ps generalizing ds oks with
  | nil =>
    cases ds with
    | nil => exact .inl ⟨by simp, rfl⟩
    | cons d ds => simp at h
  | cons p ps ih =>
    cases ds with
    | nil => simp at h
    | cons d ds =>
      simp only [List.map_cons, List.cons.injEq] at h
      obtain ⟨h1, h2⟩ := h
      have hsend : ∀ b, sendBroadcast a p b = if b then .ok (toAll a d) else .panic := by
        intro b
        unfold sendBroadcast
        rw [h1]
        rfl
      cases oks with
      | nil =>
        rcases ih ds [] h2 with ⟨hb, hs⟩ | ⟨k, hk, hf, _⟩
        · refine .inl ⟨by simp, ?_⟩
          simp only [sendAll, List.headD_nil, hsend, if_true, List.tail_nil, hs, List.map_cons]
        · simp at hf
      | cons b oks =>
        cases b with
        | false =>
          refine .inr ⟨0, by simp, rfl, by simp, ?_⟩
          simp [sendAll, hsend]
        | true =>
          rcases ih ds oks h2 with ⟨hb, hs⟩ | ⟨k, hk, hf, hj, hs⟩
          · refine .inl ⟨?_, ?_⟩
            · intro b hm
              rw [List.length_cons, List.take_succ_cons, List.mem_cons] at hm
              rcases hm with rfl | hm
              · rfl
              · exact hb b hm
            · simp only [sendAll, List.headD_cons, hsend, if_true, List.tail_cons, hs, List.map_cons]
          · refine .inr ⟨k + 1, by simp; omega, by simpa using hf, ?_, ?_⟩
            · intro j hjk
              cases j with
              | zero => rfl
              | succ j => simpa using hj j (by omega)
            · simp only [sendAll, List.headD_cons, hsend, if_true, List.tail_cons, hs,
                List.take_succ_cons, List.map_cons]

theorem negotiation_encoded (a : PioneerNetwork) :
    (negotiationPackets a).map KaPacket.encode = (negotiation a).map Outcome.ok := by
  have h : ∀ x : UInt8, x ∈ [1, 2, 3, 4, 5, 6] →
      ([1, 2, 3, 4, 5, 6].map fun index => kaIpPackage x index a.ip a.mac).map KaPacket.encode =
      ([0x11, 0x12, 0x29, 0x2a, 0x2b, 0x2c].map fun code =>
        ipDatagram x code a.network.addr a.mac).map Outcome.ok := by
    intro x _
    have e : [0x11, 0x12, 0x29, 0x2a, 0x2b, 0x2c] =
        [mapSequenceByte 1, mapSequenceByte 2, mapSequenceByte 3, mapSequenceByte 4,
          mapSequenceByte 5, mapSequenceByte 6] := by decide
    rw [e]
    simp only [List.map_cons, List.map_nil, ip_package_encode]
    rfl
  simp only [negotiationPackets, negotiation, List.map_append, List.map_flatMap]
  have app : ∀ {a a' b b' c c' : List (Outcome Bytes)}, a = a' → b = b' → c = c' →
      a ++ b ++ c = a' ++ b' ++ c' := by
    rintro _ _ _ _ _ _ rfl rfl rfl
    rfl
  refine app rfl ?_ (congrArg (fun x => [x]) (status_package_negotiation a.ip a.mac))
  · simp only [List.flatMap_cons, List.flatMap_nil]
    rw [h 1 (by simp), h 2 (by simp), h 3 (by simp), h 4 (by simp), h 5 (by simp), h 6 (by simp)]

theorem negotiation_length (a : PioneerNetwork) :
    (negotiationPackets a).length = 40 ∧ (negotiation a).length = 40 := ⟨rfl, rfl⟩

end PDJ

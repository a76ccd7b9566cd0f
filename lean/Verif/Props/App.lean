import Verif.Lemmas.AppStep
import Mathlib.Data.List.Induction

/-!
# The application: properties C47 - C54
-/

namespace PDJ

open Spec

/-! ## C47: own broadcasts -/

theorem own_not_accepted (kind sub : UInt8) (content : Bytes) (a : Announcement) :
    ¬ Accepted (ownDatagram kind sub content) a := by
  rintro ⟨⟨_, _, _, ⟨whole, h1, h2⟩, _⟩, hne⟩
  apply hne
  have e : fromUtf8 (((ownDatagram kind sub content).drop 12).take 20) =
      some (appName ++ List.replicate 11 '\x00') := by
    rw [← fromUtf8_utf8 (appName ++ List.replicate 11 '\x00')]
    rfl
  rw [e] at h1
  obtain rfl := Option.some.inj h1
  rw [← trimEndNul_unique h2]
  exact trimEndNul_unique ⟨11, rfl, by decide⟩

/-- C47: a datagram in the name of the application changes nothing: no player, no network, no event,
no thread. -/
theorem C47_own_datagram_ignored (s : AppSystem) (ifaces : List Interface) (kind sub : UInt8)
    (content : Bytes) : appStep s (.receive ifaces (ownDatagram kind sub content)) = ([], s) := by
  unfold appStep
  split
  · simp only
    rw [receive_ignored (own_not_accepted kind sub content)]
    simp
  · rfl

theorem negotiation_own (n : PioneerNetwork) (d : Bytes) (h : d ∈ negotiation n) :
    ∃ kind sub content, d = ownDatagram kind sub content := by
  unfold negotiation at h
  rw [List.mem_append, List.mem_append] at h
  rcases h with (h | h) | h
  · simp only [List.mem_cons, List.not_mem_nil, or_false] at h
    rcases h with rfl | rfl | rfl <;> exact ⟨_, _, _, rfl⟩
  · rw [List.mem_flatMap] at h
    obtain ⟨sq, _, h⟩ := h
    rw [List.mem_map] at h
    obtain ⟨c, _, rfl⟩ := h
    exact ⟨_, _, _, rfl⟩
  · rw [List.mem_singleton] at h
    exact ⟨_, _, _, h⟩

theorem outputs_own (xs : List AppAction) (s : AppSystem) (o : Bytes × Ip4 × UInt16)
    (h : o ∈ (appRun s xs).1) : ∃ kind sub content, o.1 = ownDatagram kind sub content := by
  induction xs generalizing s with
  | nil => exact absurd h List.not_mem_nil
  | cons x xs ih =>
    rw [(appRun_cons s x xs).2, List.mem_append] at h
    rcases h with h | h
    · have hs := stepTo s x
      generalize (appStep s x).1 = out at h hs
      generalize (appStep s x).2 = s' at hs
      cases hs with
      | broadcast =>
        rw [List.mem_singleton] at h
        rw [h]
        exact ⟨_, _, _, rfl⟩
      | links =>
        rw [List.mem_map] at h
        obtain ⟨d, hd, rfl⟩ := h
        exact negotiation_own _ d hd
      | linkFails =>
        rw [List.mem_map] at h
        obtain ⟨d, hd, rfl⟩ := h
        exact negotiation_own _ d (List.mem_of_mem_take hd)
      | _ => exact absurd h List.not_mem_nil
    · exact ih _ h

/-- C47: whatever the application broadcasts in any schedule, receiving it back (or from another
instance) changes nothing. -/
theorem C47_own_broadcasts_ignored (s : AppSystem) (xs : List AppAction) (o : Bytes × Ip4 × UInt16)
    (h : o ∈ (appRun s xs).1) (s' : AppSystem) (ifaces : List Interface) :
    appStep s' (.receive ifaces o.1) = ([], s') := by
  obtain ⟨kind, sub, content, he⟩ := outputs_own xs s o h
  rw [he]
  exact C47_own_datagram_ignored s' ifaces kind sub content

/-! ## C48: one entry per address -/

theorem step_players {s s' : AppSystem} {x : AppAction} {o : List (Bytes × Ip4 × UInt16)}
    (h : StepTo s x o s') : s'.state.players = s.state.players ∨
      ∃ p, s'.state.players = addOrUpdate p s.state.players := by
  cases h with
  | heard => exact .inr ⟨_, rfl⟩
  | _ => exact .inl rfl

/-- C48: players are never dropped or reordered. -/
theorem C48_never_dropped (xs : List AppAction) (s : AppSystem) :
    s.state.players.map Player.address <+: (appRun s xs).2.state.players.map Player.address := by
  induction xs generalizing s with
  | nil => exact List.prefix_refl _
  | cons x xs ih =>
    refine List.IsPrefix.trans ?_ (ih (appStep s x).2)
    rcases step_players (stepTo s x) with h | ⟨p, h⟩
    · rw [h]
      exact List.prefix_refl _
    · rw [h]
      exact addOrUpdate_prefix _ _

theorem nodup_run (xs : List AppAction) (s : AppSystem)
    (hs : (s.state.players.map Player.address).Nodup) :
    ((appRun s xs).2.state.players.map Player.address).Nodup := by
  induction xs generalizing s with
  | nil => exact hs
  | cons x xs ih =>
    refine ih (appStep s x).2 ?_
    rcases step_players (stepTo s x) with h | ⟨p, h⟩
    · rw [h]; exact hs
    · rw [h]; exact addOrUpdate_nodup _ _ hs

/-- C48: no two players share an address, after any schedule. -/
theorem C48_one_entry_per_address (xs : List AppAction) :
    ((appRun .start xs).2.state.players.map Player.address).Nodup :=
  nodup_run xs .start List.nodup_nil

/-! ## C49, C52: what the registry and the network are -/

/-- The registry after announcements. -/
def registry (ps : List Player) (h : List (List Interface × Announcement)) : List Player :=
  h.foldl (fun ps e => addOrUpdate (Player.new e.2.model e.2.number e.2.ip) ps) ps

theorem run_state (xs : List AppAction) (h : List (List Interface × Announcement)) (hh : Heard xs h)
    (s : AppSystem) (hf : Healthy (appRun s xs).2) :
    (appRun s xs).2.state.players = registry s.state.players h ∧
    (h = [] → (appRun s xs).2.state.address = s.state.address) ∧
    ∀ h' e, h = h' ++ [e] →
      matchInterface e.2.ip e.1 = .ok (appRun s xs).2.state.address := by
  induction hh generalizing s with
  | nil => exact ⟨rfl, fun _ => rfl, fun h' e he => absurd he (by simp)⟩
  | @accepted i d a xs h hd hx ih =>
    rw [(appRun_cons s _ xs).1] at hf ⊢
    have hs' := healthy_run_back xs _ hf
    have hst := stepTo s (.receive i d)
    have hs := healthy_back hst hs'
    have hrun := ih (appStep s (.receive i d)).2 hf
    generalize (appStep s (.receive i d)).2 = s' at hs' hst hrun ⊢
    generalize (appStep s (.receive i d)).1 = o at hst
    have h1 := hs.running
    have h2 := hs.receiver
    have h3 := hs.lock
    cases hst with
    | dead h => rw [h1] at h; exact absurd h (by decide)
    | ignored _ h =>
      rcases h with h | h | h
      · rw [h2] at h; exact absurd h (by decide)
      · rw [h3] at h; exact absurd h (by decide)
      · exact absurd hd (h a)
    | macMissing => exact absurd hs'.receiver (by simp)
    | heard _ ha hm =>
      obtain rfl := announcement_unique hd.1 ha.1
      obtain ⟨r1, r2, r3⟩ := hrun
      refine ⟨r1, fun e => absurd e (by simp), ?_⟩
      intro h' e he
      cases h' with
      | nil =>
        simp only [List.nil_append, List.cons.injEq] at he
        obtain ⟨rfl, rfl⟩ := he
        rw [r2 rfl]
        exact hm
      | cons e' h' =>
        simp only [List.cons_append, List.cons.injEq] at he
        exact r3 h' e he.2
  | @ignored i d xs h hd hx ih =>
    rw [(appRun_cons s _ xs).1] at hf ⊢
    have hst := stepTo s (.receive i d)
    have hrun := ih (appStep s (.receive i d)).2 hf
    generalize (appStep s (.receive i d)).2 = s' at hst hrun ⊢
    generalize (appStep s (.receive i d)).1 = o at hst
    cases hst with
    | dead => exact hrun
    | ignored => exact hrun
    | macMissing _ ha => exact absurd ha (hd _)
    | heard _ ha => exact absurd ha (hd _)
  | @broadcast ok xs h hx ih =>
    rw [(appRun_cons s _ xs).1] at hf ⊢
    have hst := stepTo s (.broadcast ok)
    have hrun := ih (appStep s (.broadcast ok)).2 hf
    generalize (appStep s (.broadcast ok)).2 = s' at hst hrun ⊢
    generalize (appStep s (.broadcast ok)).1 = o at hst
    cases hst <;> exact hrun
  | @appRecv xs h hx ih =>
    rw [(appRun_cons s _ xs).1] at hf ⊢
    have hst := stepTo s .appRecv
    have hrun := ih (appStep s .appRecv).2 hf
    generalize (appStep s .appRecv).2 = s' at hst hrun ⊢
    generalize (appStep s .appRecv).1 = o at hst
    cases hst <;> exact hrun
  | @appLink oks xs h hx ih =>
    rw [(appRun_cons s _ xs).1] at hf ⊢
    have hst := stepTo s (.appLink oks)
    have hrun := ih (appStep s (.appLink oks)).2 hf
    generalize (appStep s (.appLink oks)).2 = s' at hst hrun ⊢
    generalize (appStep s (.appLink oks)).1 = o at hst
    cases hst <;> exact hrun

theorem registry_snoc (h : List (List Interface × Announcement)) (e : List Interface × Announcement) :
    registry [] (h ++ [e]) = addOrUpdate (Player.new e.2.model e.2.number e.2.ip) (registry [] h) := by
  unfold registry
  rw [List.foldl_append]
  rfl

theorem registry_addresses (h : List (List Interface × Announcement)) :
    (registry [] h).map Player.address = (h.map fun e => e.2.ip).eraseDups := by
  induction h using List.reverseRecOn with
  | nil => rfl
  | append_singleton h e ih =>
    rw [registry_snoc, addOrUpdate_addresses, ih, List.map_append, List.eraseDups_append,
      List.map_singleton, List.cons_removeAll]
    simp only [List.mem_eraseDups, Player.new, List.nil_removeAll]
    by_cases hm : e.2.ip ∈ h.map fun e => e.2.ip
    · simp [hm]
    · have hm' : (h.map fun e => e.2.ip).contains e.2.ip = false := by
        rw [Bool.eq_false_iff]
        intro hc
        exact hm (List.contains_iff_mem.1 hc)
      rw [if_neg hm, hm']
      rfl

theorem registry_entries (h : List (List Interface × Announcement)) (p : Player)
    (hp : p ∈ registry [] h) :
    ((h.filter fun e => e.2.ip = p.address).head?.map fun e => e.2.model) = some p.model ∧
    ((h.filter fun e => e.2.ip = p.address).getLast?.map fun e => e.2.number) = some p.number := by
  induction h using List.reverseRecOn generalizing p with
  | nil => exact absurd hp List.not_mem_nil
  | append_singleton h e ih =>
    have hnd : ((registry [] h).map Player.address).Nodup := by
      clear ih hp
      induction h using List.reverseRecOn with
      | nil => exact List.nodup_nil
      | append_singleton h e ih =>
        rw [registry_snoc]
        exact addOrUpdate_nodup _ _ ih
    rw [registry_snoc, mem_addOrUpdate hnd] at hp
    rw [List.filter_append]
    rcases hp with ⟨rfl, hn⟩ | ⟨hp, hne⟩ | ⟨q, hq, he, rfl⟩
    · have hempty : h.filter (fun x => x.2.ip = e.2.ip) = [] := by
        rw [List.filter_eq_nil_iff]
        intro x hx hxe
        apply hn
        rw [registry_addresses, List.mem_eraseDups]
        simp only [decide_eq_true_eq] at hxe
        show e.2.ip ∈ _
        rw [← hxe]
        exact List.mem_map_of_mem (f := fun e => e.2.ip) hx
      show ((h.filter (fun x => x.2.ip = e.2.ip) ++ [e].filter (fun x => x.2.ip = e.2.ip)).head?.map
          fun e => e.2.model) = some e.2.model ∧
        ((h.filter (fun x => x.2.ip = e.2.ip) ++ [e].filter (fun x => x.2.ip = e.2.ip)).getLast?.map
          fun e => e.2.number) = some e.2.number
      rw [hempty]
      simp
    · have : [e].filter (fun e => e.2.ip = p.address) = [] := by
        have : e.2.ip ≠ p.address := fun hc => hne hc.symm
        simp [this]
      rw [this, List.append_nil]
      exact ih p hp
    · have hqa : (q.update (Player.new e.2.model e.2.number e.2.ip)).address = q.address := rfl
      have hqm : (q.update (Player.new e.2.model e.2.number e.2.ip)).model = q.model := rfl
      have hqn : (q.update (Player.new e.2.model e.2.number e.2.ip)).number = e.2.number := rfl
      rw [hqa, hqm, hqn]
      have he' : e.2.ip = q.address := he.symm
      have hself : [e].filter (fun e => e.2.ip = q.address) = [e] := by simp [he']
      obtain ⟨i1, _⟩ := ih q hq
      rw [hself]
      constructor
      · cases hc : h.filter (fun e => e.2.ip = q.address) with
        | nil => rw [hc] at i1; simp at i1
        | cons y ys => rw [hc] at i1; simpa using i1
      · simp

/-- C49: every schedule tells which announcements are heard in it, in one way. -/
theorem C49_heard (xs : List AppAction) : ∃ h, Heard xs h ∧ ∀ h', Heard xs h' → h' = h := by
  obtain ⟨h, hh⟩ := heard_total xs
  refine ⟨h, hh, ?_⟩
  induction hh with
  | nil => intro h' hh'; cases hh'; rfl
  | accepted hd _ ih =>
    intro h' hh'
    cases hh' with
    | accepted hd' hx => rw [ih _ hx, announcement_unique hd'.1 hd.1]
    | ignored hd' hx => exact absurd hd (hd' _)
  | ignored hd _ ih =>
    intro h' hh'
    cases hh' with
    | accepted hd' hx => exact absurd hd' (hd _)
    | ignored hd' hx => exact ih _ hx
  | broadcast _ ih => intro h' hh'; cases hh' with | broadcast hx => exact ih _ hx
  | appRecv _ ih => intro h' hh'; cases hh' with | appRecv hx => exact ih _ hx
  | appLink _ ih => intro h' hh'; cases hh' with | appLink hx => exact ih _ hx

/-- C49: as long as the receiver works, the registry lists the announced addresses in the order of
their first appearance, each once, with the model of its first and the number of its latest
announcement. -/
theorem C49_registry (xs : List AppAction) (h : List (List Interface × Announcement))
    (hh : Heard xs h) (hf : Healthy (appRun .start xs).2) :
    (appRun .start xs).2.state.players.map Player.address = (h.map fun e => e.2.ip).eraseDups ∧
    ∀ p ∈ (appRun .start xs).2.state.players,
      ((h.filter fun e => e.2.ip = p.address).head?.map fun e => e.2.model) = some p.model ∧
      ((h.filter fun e => e.2.ip = p.address).getLast?.map fun e => e.2.number) = some p.number := by
  have hr := (run_state xs h hh .start hf).1
  rw [hr]
  exact ⟨registry_addresses h, fun p hp => registry_entries h p hp⟩

/-- C49, C52: once the process, the receiver or the lock is gone, registry and network stay as they
are. -/
theorem C49_frozen (xs : List AppAction) (s : AppSystem) (h : ¬ Healthy s) :
    (appRun s xs).2.state.players = s.state.players ∧
    (appRun s xs).2.state.address = s.state.address := by
  induction xs generalizing s with
  | nil => exact ⟨rfl, rfl⟩
  | cons x xs ih =>
    have hst := stepTo s x
    have hn : ¬ Healthy (appStep s x).2 := fun hh => h (healthy_back hst hh)
    obtain ⟨i1, i2⟩ := ih (appStep s x).2 hn
    rw [(appRun_cons s x xs).1, i1, i2]
    generalize (appStep s x).2 = s' at hst
    generalize (appStep s x).1 = o at hst
    cases hst with
    | heard hh => exact absurd hh h
    | _ => exact ⟨rfl, rfl⟩

theorem firstMatch_iff (ifaces : List Interface) (ip : Ip4) (n : PioneerNetwork) :
    FirstMatch ifaces ip n ↔ matchInterface ip ifaces = .ok (some n) := by
  obtain ⟨n, m⟩ := n
  rw [C55_first_match]
  rfl

/-- C52: as long as the receiver works, the network is the first local one that contains the address
of the latest announcement. -/
theorem C52_network (xs : List AppAction) (h : List (List Interface × Announcement))
    (e : List Interface × Announcement) (hh : Heard xs (h ++ [e]))
    (hf : Healthy (appRun .start xs).2) :
    (∀ n, (appRun .start xs).2.state.address = some n ↔ FirstMatch e.1 e.2.ip n) ∧
    ((appRun .start xs).2.state.address = none ↔ NoMatch e.1 e.2.ip) := by
  have hr := (run_state xs _ hh .start hf).2.2 h e rfl
  constructor
  · intro n
    rw [firstMatch_iff, hr]
    simp
  · unfold NoMatch
    rw [← C55_no_match, hr]
    simp

/-- C52: without an announcement there is no network. -/
theorem C52_initially_none (xs : List AppAction) (hh : Heard xs []) :
    (appRun .start xs).2.state.address = none := by
  have : ∀ s : AppSystem, s.state.address = none → (appRun s xs).2.state.address = none := by
    generalize hl : ([] : List (List Interface × Announcement)) = l at hh
    induction hh with
    | nil => exact fun s h => h
    | accepted => exact absurd hl (by simp)
    | @ignored i d xs h hd hx ih =>
      intro s hs
      rw [(appRun_cons s _ xs).1]
      refine ih hl _ ?_
      have hst := stepTo s (.receive i d)
      generalize (appStep s (.receive i d)).2 = s' at hst ⊢
      generalize (appStep s (.receive i d)).1 = o at hst
      cases hst with
      | heard _ ha => exact absurd ha (hd _)
      | _ => exact hs
    | @broadcast ok xs h hx ih =>
      intro s hs
      rw [(appRun_cons s _ xs).1]
      refine ih hl _ ?_
      have hst := stepTo s (.broadcast ok)
      generalize (appStep s (.broadcast ok)).2 = s' at hst ⊢
      generalize (appStep s (.broadcast ok)).1 = o at hst
      cases hst <;> exact hs
    | @appRecv xs h hx ih =>
      intro s hs
      rw [(appRun_cons s _ xs).1]
      refine ih hl _ ?_
      have hst := stepTo s .appRecv
      generalize (appStep s .appRecv).2 = s' at hst ⊢
      generalize (appStep s .appRecv).1 = o at hst
      cases hst <;> exact hs
    | @appLink oks xs h hx ih =>
      intro s hs
      rw [(appRun_cons s _ xs).1]
      refine ih hl _ ?_
      have hst := stepTo s (.appLink oks)
      generalize (appStep s (.appLink oks)).2 = s' at hst ⊢
      generalize (appStep s (.appLink oks)).1 = o at hst
      cases hst <;> exact hs
  exact this .start rfl

/-! ## C50, C51: events -/

theorem hear_length (n : Option PioneerNetwork) (a : Announcement) (s : ServerState) :
    (hear n a s).players.length =
      if a.ip ∈ s.players.map Player.address then s.players.length else s.players.length + 1 :=
  addOrUpdate_length _ _

theorem events_eq (n : Option PioneerNetwork) (a : Announcement) (s : ServerState) :
    events s (hear n a s) =
      (if a.ip ∈ s.players.map Player.address then [] else [.deviceChange]) ++
      (if s.linking then [] else [.initiateLink]) := by
  unfold events ServerState.isLinkingPossible
  have hpos : 0 < (hear n a s).players.length := by
    rw [hear_length]
    split
    · rename_i h
      have := List.length_pos_of_mem h
      rwa [List.length_map] at this
    · omega
  have hl : (hear n a s).linking = s.linking := rfl
  rw [if_pos hpos, hl, hear_length]
  cases s.linking <;> split <;> simp

/-- C50: what an announcement queues: a device change exactly if the address is new, and a link
request exactly if no negotiation has started. -/
theorem C50_events_of_announcement (s : AppSystem) (hs : Healthy s) (ifaces : List Interface)
    (d : Bytes) (a : Announcement) (ha : Accepted d a) (hm : ¬ MacMissing ifaces a.ip) :
    (appStep s (.receive ifaces d)).2.queue = s.queue ++
      ((if a.ip ∈ s.state.players.map Player.address then [] else [.deviceChange]) ++
      (if s.state.linking then [] else [.initiateLink])) := by
  have hst := stepTo s (.receive ifaces d)
  generalize (appStep s (.receive ifaces d)).2 = s' at hst ⊢
  generalize (appStep s (.receive ifaces d)).1 = o at hst
  have h1 := hs.running
  have h2 := hs.receiver
  have h3 := hs.lock
  cases hst with
  | dead h => rw [h1] at h; exact absurd h (by decide)
  | ignored _ h =>
    rcases h with h | h | h
    · rw [h2] at h; exact absurd h (by decide)
    · rw [h3] at h; exact absurd h (by decide)
    · exact absurd ha (h a)
  | macMissing _ ha' hp =>
    obtain rfl := announcement_unique ha.1 ha'.1
    exact absurd ((C55_panics_exactly _ _).1 hp) hm
  | heard _ ha' _ =>
    obtain rfl := announcement_unique ha.1 ha'.1
    rw [events_eq]

/-- The events of one step: what the application takes and what is added. -/
theorem step_events {s s' : AppSystem} {x : AppAction} {o : List (Bytes × Ip4 × UInt16)}
    (h : StepTo s x o s') : ∃ ev, s.queue ++ ev = takenNow s x ++ s'.queue ∧
      ev.count .deviceChange + s.state.players.length = s'.state.players.length ∧
      (s.state.linking = true → .initiateLink ∉ ev ∧ s'.state.linking = true) ∧
      (s'.state.players = s.state.players → .deviceChange ∉ ev) := by
  cases h with
  | @heard i d a n hh ha hm =>
    refine ⟨events s.state (hear n a s.state), rfl, ?_, ?_, ?_⟩
    · show _ = (hear n a s.state).players.length
      rw [events_eq, hear_length]
      cases s.state.linking <;> split <;> simp <;> omega
    · intro hl
      refine ⟨?_, hl⟩
      rw [events_eq, hl]
      split <;> simp
    · intro hp
      have hp' := congrArg List.length hp
      replace hp' : (hear n a s.state).players.length = s.state.players.length := hp'
      rw [hear_length] at hp'
      rw [events_eq]
      split at hp'
      · rename_i h
        rw [if_pos h]
        cases s.state.linking <;> simp
      · omega
  | takesLink hr hp hq => exact ⟨[], by simp [takenNow, hr, hp, hq], by simp, fun h => ⟨by simp, h⟩, by simp⟩
  | takesChange hr hp hq => exact ⟨[], by simp [takenNow, hr, hp, hq], by simp, fun h => ⟨by simp, h⟩, by simp⟩
  | dead h =>
    refine ⟨[], ?_, by simp, fun h => ⟨by simp, h⟩, by simp⟩
    cases x <;> simp [takenNow, h]
  | waits hr h =>
    refine ⟨[], ?_, by simp, fun h => ⟨by simp, h⟩, by simp⟩
    rcases h with h | h <;> simp [takenNow, h]
  | linkNowhere => exact ⟨[], by simp [takenNow], by simp, fun _ => ⟨by simp, rfl⟩, by simp⟩
  | links => exact ⟨[], by simp [takenNow], by simp, fun _ => ⟨by simp, rfl⟩, by simp⟩
  | linkFails => exact ⟨[], by simp [takenNow], by simp, fun _ => ⟨by simp, rfl⟩, by simp⟩
  | _ => exact ⟨[], by simp [takenNow], by simp, fun h => ⟨by simp, h⟩, by simp⟩

theorem run_events (xs : List AppAction) (s : AppSystem) : ∃ ev,
    s.queue ++ ev = taken s xs ++ (appRun s xs).2.queue ∧
    ev.count .deviceChange + s.state.players.length = (appRun s xs).2.state.players.length ∧
    (s.state.linking = true → .initiateLink ∉ ev ∧ (appRun s xs).2.state.linking = true) := by
  induction xs generalizing s with
  | nil => exact ⟨[], by simp [taken, appRun], by simp [appRun], fun h => ⟨by simp, h⟩⟩
  | cons x xs ih =>
    obtain ⟨e1, h1, h2, h3, _⟩ := step_events (stepTo s x)
    obtain ⟨e2, i1, i2, i3⟩ := ih (appStep s x).2
    refine ⟨e1 ++ e2, ?_, ?_, ?_⟩
    · rw [← List.append_assoc, h1, List.append_assoc, i1, (appRun_cons s x xs).1, taken,
        List.append_assoc]
    · rw [(appRun_cons s x xs).1, List.count_append]
      omega
    · intro hl
      obtain ⟨h31, h32⟩ := h3 hl
      obtain ⟨i31, i32⟩ := i3 h32
      rw [(appRun_cons s x xs).1, List.mem_append, not_or]
      exact ⟨⟨h31, i31⟩, i32⟩

/-- C50: over any schedule there are exactly as many device-change events (taken or still queued) as
players. -/
theorem C50_one_event_per_player (xs : List AppAction) :
    (taken .start xs ++ (appRun .start xs).2.queue).count .deviceChange =
      (appRun .start xs).2.state.players.length := by
  obtain ⟨ev, h1, h2, _⟩ := run_events xs .start
  rw [← h1]
  exact h2

/-- C50: an action that does not change the registry queues no device-change event. -/
theorem C50_no_other_events (s : AppSystem) (x : AppAction)
    (h : (appStep s x).2.state.players = s.state.players) :
    (appStep s x).2.queue.count .deviceChange ≤ s.queue.count .deviceChange := by
  obtain ⟨ev, h1, _, _, h4⟩ := step_events (stepTo s x)
  have h5 := List.count_eq_zero.2 (h4 h)
  have h6 := congrArg (List.count .deviceChange) h1
  rw [List.count_append, List.count_append, h5] at h6
  omega

/-- C51: once a negotiation has started, no link request is queued any more, in any schedule: the
requests taken or queued later are those that were queued before. -/
theorem C51_not_reinitiated (xs : List AppAction) (s : AppSystem) (h : s.state.linking = true) :
    (appRun s xs).2.state.linking = true ∧
    (taken s xs ++ (appRun s xs).2.queue).count .initiateLink = s.queue.count .initiateLink := by
  obtain ⟨ev, h1, _, h3⟩ := run_events xs s
  obtain ⟨h4, h5⟩ := h3 h
  refine ⟨h5, ?_⟩
  rw [← h1, List.count_append, List.count_eq_zero.2 h4, Nat.add_zero]

/-- C51: a negotiation marks the start. -/
theorem C51_marks (s : AppSystem) (oks : List Bool) (hr : s.running = true) (hp : s.pending = true)
    (hl : s.poisoned = false) : (appStep s (.appLink oks)).2.state.linking = true := by
  have hst := stepTo s (.appLink oks)
  generalize (appStep s (.appLink oks)).2 = s' at hst ⊢
  generalize (appStep s (.appLink oks)).1 = o at hst
  cases hst with
  | dead h => rw [hr] at h; exact absurd h (by decide)
  | noLink _ h => rw [hp] at h; exact absurd h (by decide)
  | linkPoisoned _ _ h => rw [hl] at h; exact absurd h (by decide)
  | linkNowhere => rfl
  | links => rfl
  | linkFails => rfl

/-! ## C53: what is broadcast -/

/-- C53: a negotiation broadcasts exactly the 40 datagrams, in order. -/
theorem C53_negotiation (s : AppSystem) (n : PioneerNetwork) (oks : List Bool)
    (hr : s.running = true) (hp : s.pending = true) (hl : s.poisoned = false)
    (hn : s.state.address = some n) (ho : ∀ b ∈ oks.take 40, b = true) :
    (appStep s (.appLink oks)).1 = (negotiation n).map (toAll n) ∧ (negotiation n).length = 40 ∧
    (appStep s (.appLink oks)).2.running = true ∧ (appStep s (.appLink oks)).2.pending = false := by
  have hst := stepTo s (.appLink oks)
  generalize (appStep s (.appLink oks)).2 = s' at hst ⊢
  generalize (appStep s (.appLink oks)).1 = o at hst ⊢
  cases hst with
  | dead h => rw [hr] at h; exact absurd h (by decide)
  | noLink _ h => rw [hp] at h; exact absurd h (by decide)
  | linkPoisoned _ _ h => rw [hl] at h; exact absurd h (by decide)
  | linkNowhere _ _ _ h => rw [hn] at h; exact absurd h (by simp)
  | links _ _ _ h =>
    rw [hn] at h
    obtain rfl := Option.some.inj h
    exact ⟨rfl, (negotiation_length n).2, hr, rfl⟩
  | @linkFails _ _ k _ _ _ _ hk hf =>
    have : false ∈ oks.take 40 := by
      refine List.mem_of_getElem? (i := k) ?_
      rw [List.getElem?_take, if_pos hk, hf]
    exact absurd (ho _ this) (by decide)

/-- C53: a negotiation that fails has broadcast the datagrams before the failure. -/
theorem C53_failed_negotiation (s : AppSystem) (n : PioneerNetwork) (k : Nat) (rest : List Bool)
    (hr : s.running = true) (hp : s.pending = true) (hl : s.poisoned = false)
    (hn : s.state.address = some n) (hk : k < 40) :
    (appStep s (.appLink (List.replicate k true ++ false :: rest))).1 =
      ((negotiation n).take k).map (toAll n) ∧
    (appStep s (.appLink (List.replicate k true ++ false :: rest))).2.running = false := by
  have hst := stepTo s (.appLink (List.replicate k true ++ false :: rest))
  generalize (appStep s (.appLink (List.replicate k true ++ false :: rest))).2 = s' at hst ⊢
  generalize (appStep s (.appLink (List.replicate k true ++ false :: rest))).1 = o at hst ⊢
  have hget : (List.replicate k true ++ false :: rest)[k]? = some false := by
    rw [List.getElem?_append_right (by simp)]
    simp
  cases hst with
  | dead h => rw [hr] at h; exact absurd h (by decide)
  | noLink _ h => rw [hp] at h; exact absurd h (by decide)
  | linkPoisoned _ _ h => rw [hl] at h; exact absurd h (by decide)
  | linkNowhere _ _ _ h => rw [hn] at h; exact absurd h (by simp)
  | links _ _ _ h ho =>
    have : false ∈ (List.replicate k true ++ false :: rest).take 40 := by
      refine List.mem_of_getElem? (i := k) ?_
      rw [List.getElem?_take, if_pos hk, hget]
    exact absurd (ho _ this) (by decide)
  | @linkFails _ n' k' _ _ _ h hk' hf hj =>
    rw [hn] at h
    obtain rfl := Option.some.inj h
    have : k' = k := by
      rcases Nat.lt_trichotomy k' k with hlt | he | hgt
      · rw [List.getElem?_append_left (by simpa using hlt), List.getElem?_replicate, if_pos hlt] at hf
        simp at hf
      · exact he
      · have := hj k hgt
        rw [List.getD_eq_getElem?_getD, hget] at this
        simp at this
    rw [this]
    exact ⟨rfl, rfl⟩

/-- C53: an iteration of the broadcaster sends one announcement of the application, if a network is
known. -/
theorem C53_announcement (s : AppSystem) (hr : s.running = true) (hb : s.broadcaster = true)
    (hp : s.poisoned = false) :
    appStep s (.broadcast true) =
      match s.state.address with
      | some n => ([toAll n (statusDatagram n.network.addr n.mac 1)], s)
      | none => ([], s) := by
  have hst := stepTo s (.broadcast true)
  have he : appStep s (.broadcast true) =
    ((appStep s (.broadcast true)).1, (appStep s (.broadcast true)).2) := rfl
  rw [he]
  generalize (appStep s (.broadcast true)).2 = s' at hst ⊢
  generalize (appStep s (.broadcast true)).1 = o at hst ⊢
  cases hst with
  | dead h => rw [hr] at h; exact absurd h (by decide)
  | noBroadcast _ h =>
    rcases h with h | h | h
    · rw [hb] at h; exact absurd h (by decide)
    · rw [hp] at h; exact absurd h (by decide)
    · rw [h]
  | broadcast _ _ _ h => rw [h]

/-! ## C54: when the application ends -/

/-- C54: the process ends exactly when a link request is acted on and the lock is poisoned, no network
is known, or the operating system refuses one of the 40 sockets. -/
theorem C54_ends_exactly (s : AppSystem) (x : AppAction) (hr : s.running = true) :
    (appStep s x).2.running = false ↔ ∃ oks, x = .appLink oks ∧ s.pending = true ∧
      (s.poisoned = true ∨ s.state.address = none ∨ false ∈ oks.take 40) := by
  have hst := stepTo s x
  generalize (appStep s x).2 = s' at hst ⊢
  generalize (appStep s x).1 = o at hst
  cases hst with
  | dead h => rw [hr] at h; exact absurd h (by decide)
  | linkPoisoned _ hp hl => exact ⟨fun _ => ⟨_, rfl, hp, .inl hl⟩, fun _ => rfl⟩
  | linkNowhere _ hp _ hn => exact ⟨fun _ => ⟨_, rfl, hp, .inr (.inl hn)⟩, fun _ => rfl⟩
  | @linkFails oks n' k _ hp _ _ hk hf =>
    refine ⟨fun _ => ⟨_, rfl, hp, .inr (.inr ?_)⟩, fun _ => rfl⟩
    refine List.mem_of_getElem? (i := k) ?_
    rw [List.getElem?_take, if_pos hk, hf]
  | links _ hp hl hn ho =>
    constructor
    · intro h
      have h : s.running = false := h
      rw [hr] at h; exact absurd h (by decide)
    · rintro ⟨oks, he, _, h | h | h⟩
      · rw [hl] at h; exact absurd h (by decide)
      · rw [hn] at h; exact absurd h (by simp)
      · cases he
        exact absurd (ho _ h) (by decide)
  | noLink _ hp =>
    constructor
    · intro h; rw [hr] at h; exact absurd h (by decide)
    · rintro ⟨_, _, h, _⟩; rw [hp] at h; exact absurd h (by decide)
  | _ =>
    constructor
    · intro h
      have h : s.running = false := h
      rw [hr] at h; exact absurd h (by decide)
    · rintro ⟨_, he, _⟩; cases he

/-- C54: the receiver thread ends exactly on an announcement whose network lookup meets an interface
without MAC address; the lock is then poisoned as well. -/
theorem C54_receiver_ends_exactly (s : AppSystem) (x : AppAction) (hr : s.receiver = true) :
    (appStep s x).2.receiver = false ↔ Healthy s ∧ ∃ ifaces d a, x = .receive ifaces d ∧
      Accepted d a ∧ MacMissing ifaces a.ip := by
  have hst := stepTo s x
  generalize (appStep s x).2 = s' at hst ⊢
  generalize (appStep s x).1 = o at hst
  have no : ∀ {t : AppSystem}, t.receiver = s.receiver → ¬ t.receiver = false := by
    intro t h h'
    rw [h, hr] at h'
    exact absurd h' (by decide)
  cases hst with
  | macMissing hh ha hm =>
    exact ⟨fun _ => ⟨hh, _, _, _, rfl, ha, (C55_panics_exactly _ _).1 hm⟩, fun _ => rfl⟩
  | heard hh ha hm =>
    constructor
    · intro h; exact absurd h (no rfl)
    · rintro ⟨_, i, d, a, he, ha', hm'⟩
      cases he
      obtain rfl := announcement_unique ha.1 ha'.1
      rw [(C55_panics_exactly _ _).2 hm'] at hm
      exact nomatch hm
  | ignored _ hi =>
    constructor
    · intro h; exact absurd h (no rfl)
    · rintro ⟨⟨h1, h2, h3⟩, i, d, a, he, ha', hm'⟩
      cases he
      rcases hi with hi | hi | hi
      · rw [h2] at hi; exact absurd hi (by decide)
      · rw [h3] at hi; exact absurd hi (by decide)
      · exact absurd ha' (hi a)
  | dead h =>
    constructor
    · intro h; exact absurd h (no rfl)
    · rintro ⟨⟨h1, _, _⟩, _⟩
      rw [h1] at h; exact absurd h (by decide)
  | _ =>
    constructor
    · intro h; exact absurd h (no rfl)
    · rintro ⟨_, _, _, _, he, _⟩; cases he

/-- C54, the negation: any announcement from outside the local networks ends the application as soon
as it acts on the link request it queues. -/
theorem C54_foreign_announcement_kills (d : Bytes) (a : Announcement) (ha : Accepted d a)
    (ifaces : List Interface) (hn : NoMatch ifaces a.ip) (oks : List Bool) :
    (appRun .start [.receive ifaces d, .appRecv, .appRecv, .appLink oks]).2.running = false := by
  have hm := (C55_no_match a.ip ifaces).2 hn
  have h1 : (appStep .start (.receive ifaces d)).2 =
      { AppSystem.start with
        state := hear none a .default
        queue := [.deviceChange, .initiateLink] } := by
    show receiveStep ifaces d .start = _
    rw [receive_accepted ha, hm]
    rfl
  rw [(appRun_cons _ _ _).1, h1]
  rfl

/-- C54, the negation for interfaces without MAC address: one such announcement ends the receiver for
good and, if a link request is queued already, the application as well. -/
theorem C54_mac_missing_kills (d : Bytes) (a : Announcement) (ha : Accepted d a)
    (ifaces ifaces' : List Interface) (n : PioneerNetwork) (hn : FirstMatch ifaces a.ip n)
    (hm : MacMissing ifaces' a.ip) (oks : List Bool) :
    (appRun .start [.receive ifaces d, .receive ifaces' d, .appRecv, .appRecv,
      .appLink oks]).2.running = false := by
  have hn' := (firstMatch_iff _ _ _).1 hn
  have hm' := (C55_panics_exactly _ _).2 hm
  have h1 : (appStep .start (.receive ifaces d)).2 =
      { AppSystem.start with
        state := hear (some n) a .default
        queue := [.deviceChange, .initiateLink] } := by
    show receiveStep ifaces d .start = _
    rw [receive_accepted ha, hn']
    rfl
  have h2 : (appStep (appStep .start (.receive ifaces d)).2 (.receive ifaces' d)).2 =
      { AppSystem.start with
        state := hear (some n) a .default
        queue := [.deviceChange, .initiateLink]
        receiver := false
        poisoned := true } := by
    rw [h1]
    show receiveStep ifaces' d _ = _
    rw [receive_accepted ha, hm']
    rfl
  rw [(appRun_cons _ _ _).1, (appRun_cons _ _ _).1, h2]
  rfl

/-- C54: if every announcement comes from a local network and the operating system provides sockets,
nothing ever ends.  Missing for the full claim: the two proved causes above. -/
theorem C54_survives_partial (xs : List AppAction) (hs : SocketsWork xs)
    (hm : ∀ ifaces d, .receive ifaces d ∈ xs → ∀ a, Accepted d a → ∃ n, FirstMatch ifaces a.ip n) :
    Healthy (appRun .start xs).2 ∧ (appRun .start xs).2.broadcaster = true := by
  have key : ∀ s : AppSystem, Healthy s → s.broadcaster = true →
      (s.pending = true ∨ .initiateLink ∈ s.queue → s.state.address ≠ none) →
      Healthy (appRun s xs).2 ∧ (appRun s xs).2.broadcaster = true := by
    induction xs with
    | nil => exact fun s h1 h2 _ => ⟨h1, h2⟩
    | cons x xs ih =>
      intro s h1 h2 h3
      rw [(appRun_cons s x xs).1]
      have hs' : SocketsWork xs :=
        ⟨fun ok h => hs.1 ok (List.mem_cons_of_mem _ h),
          fun oks h => hs.2 oks (List.mem_cons_of_mem _ h)⟩
      have step := ih hs' (fun i d h => hm i d (List.mem_cons_of_mem _ h)) (appStep s x).2
      have hst := stepTo s x
      generalize (appStep s x).2 = s' at hst step ⊢
      generalize (appStep s x).1 = o at hst
      obtain ⟨r1, r2, r3⟩ := h1
      cases hst with
      | heard hh ha hmi =>
        refine step ⟨r1, r2, r3⟩ h2 fun _ => ?_
        obtain ⟨n, hn⟩ := hm _ _ List.mem_cons_self _ ha
        rw [firstMatch_iff, hmi] at hn
        obtain rfl := Outcome.ok.inj hn
        simp [hear]
      | macMissing hh ha hmi =>
        obtain ⟨n, hn⟩ := hm _ _ List.mem_cons_self _ ha
        rw [firstMatch_iff, hmi] at hn
        exact nomatch hn
      | broadcastFails => exact absurd (hs.1 _ List.mem_cons_self) (by decide)
      | takesLink hr hp hq =>
        refine step ⟨r1, r2, r3⟩ h2 fun _ => h3 (.inr ?_)
        rw [hq]; exact List.mem_cons_self
      | takesChange hr hp hq =>
        refine step ⟨r1, r2, r3⟩ h2 fun h => h3 ?_
        rcases h with h | h
        · exact .inl h
        · refine .inr ?_
          rw [hq]; exact List.mem_cons_of_mem _ h
      | linkPoisoned _ _ hl => rw [r3] at hl; exact absurd hl (by decide)
      | linkNowhere _ hp _ hn => exact absurd hn (h3 (.inl hp))
      | links _ hp => exact step ⟨r1, r2, r3⟩ h2 fun _ => h3 (.inl hp)
      | linkFails _ _ _ _ _ hf =>
        exact absurd (hs.2 _ List.mem_cons_self false (List.mem_of_getElem? hf)) (by decide)
      | _ => exact step ⟨r1, r2, r3⟩ h2 h3
  exact key .start ⟨rfl, rfl, rfl⟩ rfl (by rintro (h | h) <;> simp [AppSystem.start] at h)

/-! ## C51: negotiations can run more than once -/

theorem appRun_append (xs ys : List AppAction) (s : AppSystem) :
    appRun s (xs ++ ys) =
      ((appRun s xs).1 ++ (appRun (appRun s xs).2 ys).1, (appRun (appRun s xs).2 ys).2) := by
  induction xs generalizing s with
  | nil => rfl
  | cons x xs ih =>
    simp only [List.cons_append, appRun, ih, List.append_assoc]

/-- A system in which some link requests are queued. -/
def queued (n : PioneerNetwork) (a : Announcement) (l : Bool) (q : List AppEvent) : AppSystem :=
  { AppSystem.start with
    state := { hear (some n) a .default with linking := l }
    queue := q }

theorem link_requests_run (n : PioneerNetwork) (a : Announcement) (l : Bool) (k : Nat) :
    (appRun (queued n a l (List.replicate k .initiateLink))
      (List.replicate k [AppAction.appRecv, .appLink []]).flatten).1.length = 40 * k := by
  induction k generalizing l with
  | zero => rfl
  | succ k ih =>
    rw [List.replicate_succ (a := [AppAction.appRecv, .appLink []]), List.flatten_cons, appRun_append]
    have hrun : (appStep (queued n a l (List.replicate (k + 1) .initiateLink)) .appRecv).2 =
        { queued n a l (List.replicate k .initiateLink) with pending := true } := rfl
    have hs := stepTo { queued n a l (List.replicate k .initiateLink) with pending := true }
      (.appLink [])
    have hneg := C53_negotiation { queued n a l (List.replicate k .initiateLink) with pending := true }
      n [] rfl rfl rfl rfl (by simp)
    have h2 : (appRun (queued n a l (List.replicate (k + 1) .initiateLink))
        [AppAction.appRecv, .appLink []]).2 = queued n a true (List.replicate k .initiateLink) := by
      rw [(appRun_cons _ _ _).1, hrun, (appRun_cons _ _ _).1]
      have hlink : (appStep { queued n a l (List.replicate k .initiateLink) with pending := true }
          (.appLink [])).2 = queued n a true (List.replicate k .initiateLink) := by
        generalize hs2 : (appStep { queued n a l (List.replicate k .initiateLink) with
          pending := true } (.appLink [])).2 = s' at hs
        generalize (appStep { queued n a l (List.replicate k .initiateLink) with
          pending := true } (.appLink [])).1 = o at hs
        cases hs with
        | dead h => exact nomatch h
        | noLink _ h => exact nomatch h
        | linkPoisoned _ _ h => exact nomatch h
        | linkNowhere _ _ _ h => exact absurd h (by simp [queued, hear])
        | links => rfl
        | linkFails _ _ _ _ _ hf => simp at hf
      exact hlink
    have h1 : (appRun (queued n a l (List.replicate (k + 1) .initiateLink))
        [AppAction.appRecv, .appLink []]).1.length = 40 := by
      rw [(appRun_cons _ _ _).2, hrun, (appRun_cons _ _ _).2, hneg.1]
      rw [List.length_append, List.length_append, List.length_map, hneg.2.1]
      rfl
    rw [h2, List.length_append, h1, ih]
    omega

/-- C51: if a player announces itself `k + 1` times before the application acts, it negotiates `k + 1`
times, with 40 datagrams each. -/
theorem C51_repeated_negotiation (d : Bytes) (a : Announcement) (ha : Accepted d a)
    (ifaces : List Interface) (n : PioneerNetwork) (hn : FirstMatch ifaces a.ip n) (k : Nat) :
    (appRun .start (List.replicate (k + 1) (.receive ifaces d) ++
      (.appRecv :: (List.replicate (k + 1) [AppAction.appRecv, .appLink []]).flatten))).1.length =
      40 * (k + 1) := by
  have hn' := (firstMatch_iff _ _ _).1 hn
  have hfirst : appStep .start (.receive ifaces d) =
      ([], queued n a false [.deviceChange, .initiateLink]) := by
    show ([], receiveStep ifaces d .start) = _
    rw [receive_accepted ha, hn']
    rfl
  have hmore : ∀ q, appStep (queued n a false q) (.receive ifaces d) =
      ([], queued n a false (q ++ [.initiateLink])) := by
    intro q
    show ([], receiveStep ifaces d (queued n a false q)) = _
    rw [receive_accepted ha, hn']
    have hst : hear (some n) a (queued n a false q).state = (queued n a false q).state := by
      have hp : addOrUpdate (Player.new a.model a.number a.ip) [Player.new a.model a.number a.ip] =
          [Player.new a.model a.number a.ip] := by
        unfold addOrUpdate
        rw [if_pos rfl]
        rfl
      show ServerState.mk false false false (some n) (addOrUpdate (Player.new a.model a.number a.ip)
        [Player.new a.model a.number a.ip]) = _
      rw [hp]
      rfl
    have hev : events (queued n a false q).state (hear (some n) a (queued n a false q).state) =
        [.initiateLink] := by
      rw [events_eq, if_pos]
      · rfl
      · exact List.mem_singleton.2 rfl
    show ([], { queued n a false q with
      state := hear (some n) a (queued n a false q).state
      queue := q ++ events (queued n a false q).state
        (hear (some n) a (queued n a false q).state) }) = _
    rw [hev, hst]
    rfl
  have hmany : ∀ j q, appRun (queued n a false q) (List.replicate j (.receive ifaces d)) =
      ([], queued n a false (q ++ List.replicate j .initiateLink)) := by
    intro j
    induction j with
    | zero => intro q; simp [appRun]
    | succ j ih =>
      intro q
      rw [List.replicate_succ, appRun, hmore, ih, List.replicate_succ]
      simp
  rw [appRun_append, List.replicate_succ (a := AppAction.receive ifaces d)]
  have h0 : appRun .start (.receive ifaces d :: List.replicate k (.receive ifaces d)) =
      ([], queued n a false (.deviceChange :: List.replicate (k + 1) .initiateLink)) := by
    rw [appRun, hfirst, hmany]
    rfl
  rw [h0, (appRun_cons _ _ _).2]
  have h1 : appStep (queued n a false (.deviceChange :: List.replicate (k + 1) .initiateLink)) .appRecv
      = ([], queued n a false (List.replicate (k + 1) .initiateLink)) := rfl
  rw [h1, List.length_append, List.length_append, link_requests_run]
  simp

/-! ## Non-vacuity -/

/-- A status packet of a player named `XDJ` with number 2 and address 192.168.10.7. -/
def exampleDatagram : Bytes :=
  signature ++ [0x06, 0x00] ++ [0x58, 0x44, 0x4a, 0, 0, 0, 0, 0, 0, 0, 0, 0, 0, 0, 0, 0, 0, 0, 0, 0] ++
  [0x01, 0x02, 0x00, 0x36] ++ [2, 1, 1, 2, 3, 4, 5, 6, 192, 168, 10, 7, 1, 1, 0, 0, 1, 8]

theorem exampleDatagram_accepted :
    Accepted exampleDatagram ⟨['X', 'D', 'J'], 2, ofBe32 192 168 10 7⟩ := by
  refine ⟨⟨by decide, rfl, rfl, ⟨['X', 'D', 'J'] ++ List.replicate 17 '\x00', ?_, 17, rfl, by decide⟩,
    ⟨2, rfl, .inr (.inl rfl)⟩, rfl, by decide⟩, by decide⟩
  rw [← fromUtf8_utf8 (['X', 'D', 'J'] ++ List.replicate 17 '\x00')]
  rfl

/-- An interface table with the address 192.168.10.50/24. -/
def exampleInterfaces : List Interface :=
  [⟨some ⟨1, 2, 3, 4, 5, 6⟩, [.v6, .v4 ⟨ofBe32 192 168 10 50, 24⟩]⟩]

example : FirstMatch exampleInterfaces (ofBe32 192 168 10 7)
    ⟨⟨ofBe32 192 168 10 50, 24⟩, ⟨1, 2, 3, 4, 5, 6⟩⟩ :=
  ⟨[], [], rfl, by simp, by unfold InNet; decide⟩

example : NoMatch [] (ofBe32 192 168 10 7) := by simp [NoMatch, candidates]

example : MacMissing [⟨none, [.v4 ⟨7, 24⟩]⟩] (ofBe32 192 168 10 7) := ⟨[], _, [], rfl, by simp⟩

example : Heard [.receive exampleInterfaces exampleDatagram, .appRecv]
    [(exampleInterfaces, ⟨['X', 'D', 'J'], 2, ofBe32 192 168 10 7⟩)] :=
  .accepted exampleDatagram_accepted (.appRecv .nil)

/-- The player of the examples. -/
def exampleAnnouncement : Announcement := ⟨['X', 'D', 'J'], 2, ofBe32 192 168 10 7⟩

/-- The network of the examples. -/
def exampleNetwork : PioneerNetwork := ⟨⟨ofBe32 192 168 10 50, 24⟩, ⟨1, 2, 3, 4, 5, 6⟩⟩

theorem exampleMatch : FirstMatch exampleInterfaces exampleAnnouncement.ip exampleNetwork :=
  ⟨[], [], rfl, by simp, by unfold InNet; decide⟩

theorem exampleHasMac : ¬ MacMissing exampleInterfaces exampleAnnouncement.ip := by
  rintro ⟨pre, n, post, h, -⟩
  have hc : candidates exampleInterfaces = [(exampleNetwork.network, some exampleNetwork.mac)] := rfl
  rw [hc] at h
  cases pre with
  | nil => simp at h
  | cons c pre => simp at h

/-- A system that knows a network and is about to negotiate. -/
def exampleLinking : AppSystem :=
  ⟨⟨false, false, false, some exampleNetwork, []⟩, false, [], true, true, true, true⟩

theorem exampleHealthy : Healthy AppSystem.start := ⟨rfl, rfl, rfl⟩

/-- A schedule without trouble: the player is heard, the application acts on it. -/
def exampleSchedule : List AppAction :=
  [.receive exampleInterfaces exampleDatagram, .appRecv, .broadcast true]

theorem exampleHeard : Heard exampleSchedule [(exampleInterfaces, exampleAnnouncement)] :=
  .accepted exampleDatagram_accepted (.appRecv (.broadcast .nil))

theorem exampleSchedule_fine : Healthy (appRun .start exampleSchedule).2 ∧
    (appRun .start exampleSchedule).2.broadcaster = true := by
  refine C54_survives_partial _ ⟨by simp [exampleSchedule], by simp [exampleSchedule]⟩ ?_
  intro ifaces d hmem a ha
  simp only [exampleSchedule, List.mem_cons, AppAction.receive.injEq, reduceCtorEq, List.not_mem_nil,
    or_false] at hmem
  obtain ⟨rfl, rfl⟩ := hmem
  have hip : be32 a.ip = be32 exampleAnnouncement.ip :=
    ha.1.2.2.2.2.2.2.symm.trans exampleDatagram_accepted.1.2.2.2.2.2.2
  have : a.ip = exampleAnnouncement.ip := be32_inj hip
  exact ⟨exampleNetwork, this ▸ exampleMatch⟩

/-- C49, C52, C54 for that schedule. -/
example := C49_registry _ _ exampleHeard exampleSchedule_fine.1
example := C52_network _ [] _ exampleHeard exampleSchedule_fine.1
example := C52_initially_none [.appRecv, .broadcast true] (.appRecv (.broadcast .nil))
example : Healthy (appRun .start exampleSchedule).2 := exampleSchedule_fine.1 -- C54_survives_partial
/-- C47_own_broadcasts_ignored: the 40 datagrams of a negotiation. -/
example (s' : AppSystem) (o) (h : o ∈ (appRun exampleLinking [.appLink []]).1) :=
  C47_own_broadcasts_ignored _ _ o h s' []
example : (appRun exampleLinking [.appLink []]).1 ≠ [] := by
  have h := (C53_negotiation exampleLinking exampleNetwork [] rfl rfl rfl rfl (by simp)).1
  rw [show (appRun exampleLinking [.appLink []]).1 = (appStep exampleLinking (.appLink [])).1 ++ [] from rfl,
    h]
  simp [negotiation]
/-- C49_frozen: after the receiver has ended. -/
example := C49_frozen exampleSchedule { AppSystem.start with receiver := false }
  (fun h => absurd h.receiver (by simp))
example := C50_events_of_announcement .start exampleHealthy _ _ _ exampleDatagram_accepted exampleHasMac
example := C50_no_other_events exampleLinking (.broadcast true)
  (by rw [C53_announcement exampleLinking rfl rfl rfl]; rfl)
example := C51_not_reinitiated exampleSchedule
  { exampleLinking with state := { exampleLinking.state with linking := true } } rfl
example := C51_marks exampleLinking [] rfl rfl rfl
example := C53_failed_negotiation exampleLinking exampleNetwork 3 [] rfl rfl rfl rfl (by decide)
example := C54_ends_exactly exampleLinking (.appLink []) rfl
example := C54_receiver_ends_exactly .start (.receive exampleInterfaces exampleDatagram) rfl
example := C54_foreign_announcement_kills _ _ exampleDatagram_accepted [] (by simp [NoMatch, candidates]) []
example := C54_mac_missing_kills _ _ exampleDatagram_accepted _ [⟨none, [.v4 ⟨7, 24⟩]⟩] _ exampleMatch
  ⟨[], _, [], rfl, by simp⟩ []
example := C51_repeated_negotiation _ _ exampleDatagram_accepted _ _ exampleMatch 2

end PDJ

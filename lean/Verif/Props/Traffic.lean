import Verif.Spec.Traffic
import Verif.Props.App

/-!
# Properties C71, C72: what is broadcast, and that linking happens
-/

namespace PDJ

open Spec

/-! ## C71 -/

theorem heard_cons {x : AppAction} {xs : List AppAction} {h : List (List Interface × Announcement)}
    (hh : Heard (x :: xs) h) : ∃ h', Heard xs h' ∧
      ((h = h' ∧ ∀ i d, x = .receive i d → ∀ a, ¬ Accepted d a) ∨
        ∃ i d a, x = .receive i d ∧ Accepted d a ∧ h = (i, a) :: h') := by
  cases hh with
  | accepted hd hx => exact ⟨_, hx, .inr ⟨_, _, _, rfl, hd, rfl⟩⟩
  | ignored hd hx => exact ⟨_, hx, .inl ⟨rfl, by rintro i d e; cases e; exact hd⟩⟩
  | broadcast hx => exact ⟨_, hx, .inl ⟨rfl, by rintro i d e; cases e⟩⟩
  | appRecv hx => exact ⟨_, hx, .inl ⟨rfl, by rintro i d e; cases e⟩⟩
  | appLink hx => exact ⟨_, hx, .inl ⟨rfl, by rintro i d e; cases e⟩⟩

/-- Link requests that are still to be acted on. -/
def openRequests (s : AppSystem) : Nat :=
  s.queue.count .initiateLink + if s.pending then 1 else 0

theorem step_traffic {s s' : AppSystem} {x : AppAction} {o : List (Bytes × Ip4 × UInt16)}
    (h : StepTo s x o s') :
    ∃ e, o.length + 40 * openRequests s' ≤ 40 * openRequests s + broadcasts [x] + e ∧ e ≤ 40 ∧
      ((∀ i d, x = .receive i d → ∀ a, ¬ Accepted d a) → e = 0) := by
  cases h with
  | @heard i d a n hh ha hm =>
    refine ⟨40, ?_, Nat.le_refl _, fun h => absurd ha (h i d rfl a)⟩
    have : List.count AppEvent.initiateLink (events s.state (hear n a s.state)) ≤ 1 := by
      rw [events_eq]
      cases s.state.linking <;> split <;> decide
    simp only [openRequests, List.count_append, List.length_nil, broadcasts]
    omega
  | broadcast => exact ⟨0, by simp [broadcasts]; omega, by omega, fun _ => rfl⟩
  | takesLink hr hp hq =>
    exact ⟨0, by simp [openRequests, hp, hq, broadcasts], by omega, fun _ => rfl⟩
  | takesChange hr hp hq =>
    exact ⟨0, by simp [openRequests, hp, hq, broadcasts], by omega, fun _ => rfl⟩
  | links hr hp hl hn ho =>
    refine ⟨0, ?_, by omega, fun _ => rfl⟩
    simp only [List.length_map, (negotiation_length _).2, openRequests, hp, if_true]
    simp
    omega
  | linkFails hr hp hl hn hk =>
    refine ⟨0, ?_, by omega, fun _ => rfl⟩
    simp only [List.length_map, List.length_take, (negotiation_length _).2, openRequests, hp, if_true]
    simp
    omega
  | _ => exact ⟨0, by simp only [openRequests, List.length_nil]; omega, by omega, fun _ => rfl⟩

theorem run_traffic (xs : List AppAction) (h : List (List Interface × Announcement))
    (hh : Heard xs h) (s : AppSystem) :
    (appRun s xs).1.length ≤ 40 * openRequests s + 40 * h.length + broadcasts xs := by
  induction xs generalizing s h with
  | nil => simp [appRun]
  | cons x xs ih =>
    obtain ⟨h', hx, hcase⟩ := heard_cons hh
    obtain ⟨e, h1, h3, h4⟩ := step_traffic (stepTo s x)
    have h2 := ih h' hx (appStep s x).2
    rw [(appRun_cons s x xs).2, List.length_append]
    have hb : broadcasts (x :: xs) = broadcasts [x] + broadcasts xs := by
      cases x <;> simp [broadcasts]; omega
    rw [hb]
    rcases hcase with ⟨rfl, hno⟩ | ⟨i, d, a, rfl, ha, rfl⟩
    · have := h4 hno
      omega
    · rw [List.length_cons]
      omega

/-- C71: in any schedule the number of datagrams broadcast is at most 40 for every announcement heard
plus one for every iteration of the broadcaster. -/
theorem C71_traffic_bounded (xs : List AppAction) (h : List (List Interface × Announcement))
    (hh : Heard xs h) : (appRun .start xs).1.length ≤ 40 * h.length + broadcasts xs := by
  have := run_traffic xs h hh .start
  simpa [openRequests, AppSystem.start] using this

theorem run_destinations (xs : List AppAction) (h : List (List Interface × Announcement))
    (hh : Heard xs h) (s : AppSystem) (o : Bytes × Ip4 × UInt16) (ho : o ∈ (appRun s xs).1) :
    ∃ n, (s.state.address = some n ∨ ∃ e ∈ h, FirstMatch e.1 e.2.ip n) ∧
      ∃ d, o = toAll n d ∧ (d ∈ negotiation n ∨ d = statusDatagram n.network.addr n.mac 1) := by
  induction xs generalizing s h with
  | nil => exact absurd ho List.not_mem_nil
  | cons x xs ih =>
    obtain ⟨h', hx, hcase⟩ := heard_cons hh
    have hsub : ∀ e ∈ h', e ∈ h := by
      intro e he
      rcases hcase with ⟨rfl, _⟩ | ⟨_, _, _, _, _, rfl⟩
      · exact he
      · exact List.mem_cons_of_mem _ he
    have hst := stepTo s x
    rw [(appRun_cons s x xs).2, List.mem_append] at ho
    rcases ho with ho | ho
    · clear ih
      generalize (appStep s x).1 = out at hst ho
      generalize (appStep s x).2 = s' at hst
      cases hst with
      | @broadcast n hr hb hp hn =>
        rw [List.mem_singleton] at ho
        exact ⟨n, .inl hn, _, ho, .inr rfl⟩
      | @links oks n hr hp hl hn =>
        rw [List.mem_map] at ho
        obtain ⟨d, hd, rfl⟩ := ho
        exact ⟨n, .inl hn, d, rfl, .inl hd⟩
      | @linkFails oks n k hr hp hl hn =>
        rw [List.mem_map] at ho
        obtain ⟨d, hd, rfl⟩ := ho
        exact ⟨n, .inl hn, d, rfl, .inl (List.mem_of_mem_take hd)⟩
      | _ => exact absurd ho List.not_mem_nil
    · obtain ⟨n, hn, hd⟩ := ih h' hx (appStep s x).2 ho
      refine ⟨n, ?_, hd⟩
      rcases hn with hn | ⟨e, he, hm⟩
      · generalize (appStep s x).1 = out at hst ho
        generalize (appStep s x).2 = s' at hst hn
        cases hst with
        | @heard i d a n' hh' ha hm =>
          rcases hcase with ⟨_, hno⟩ | ⟨i', d', a', e, ha', rfl⟩
          · exact absurd ha (hno _ _ rfl a)
          · cases e
            obtain rfl := announcement_unique ha.1 ha'.1
            have hn : n' = some n := hn
            rw [hn] at hm
            exact .inr ⟨_, List.mem_cons_self, (firstMatch_iff _ _ _).2 hm⟩
        | _ => exact .inl hn
      · exact .inr ⟨e, hsub e he, hm⟩

/-- C71: every datagram goes to port 50000 of the broadcast address of the local network of a player
that was heard in this schedule, and carries the application's address and MAC on that network;
nothing is broadcast before a player is heard. -/
theorem C71_destinations (xs : List AppAction) (h : List (List Interface × Announcement))
    (hh : Heard xs h) (o : Bytes × Ip4 × UInt16) (ho : o ∈ (appRun .start xs).1) :
    ∃ n, (∃ e ∈ h, FirstMatch e.1 e.2.ip n) ∧
      ∃ d, o = toAll n d ∧ (d ∈ negotiation n ∨ d = statusDatagram n.network.addr n.mac 1) := by
  obtain ⟨n, hn, hd⟩ := run_destinations xs h hh .start o ho
  rcases hn with hn | hn
  · exact nomatch hn
  · exact ⟨n, hn, hd⟩

/-- C71: silence before the first announcement. -/
theorem C71_silent_until_heard (xs : List AppAction) (hh : Heard xs []) : (appRun .start xs).1 = [] := by
  cases ho : (appRun .start xs).1 with
  | nil => rfl
  | cons o os =>
    obtain ⟨n, ⟨e, he, _⟩, _⟩ := C71_destinations xs [] hh o (by rw [ho]; exact List.mem_cons_self)
    exact nomatch he

/-! ## C72 -/

/-- A link request is on its way and can be carried out. -/
structure Linkable (s : AppSystem) : Prop where
  healthy : Healthy s
  broadcaster : s.broadcaster = true
  network : s.state.address ≠ none
  request : s.pending = true ∨ .initiateLink ∈ s.queue

/-- The events the application still has to take before the first link request. -/
def before (s : AppSystem) : Nat :=
  if s.pending then 0 else s.queue.idxOf .initiateLink + 1

theorem negotiated_append_right {a : List (Bytes × Ip4 × UInt16)} (h : Negotiated a)
    (b : List (Bytes × Ip4 × UInt16)) : Negotiated (a ++ b) := by
  obtain ⟨n, pre, post, rfl⟩ := h
  exact ⟨n, pre, post ++ b, by simp⟩

theorem negotiated_append_left {b : List (Bytes × Ip4 × UInt16)} (h : Negotiated b)
    (a : List (Bytes × Ip4 × UInt16)) : Negotiated (a ++ b) := by
  obtain ⟨n, pre, post, rfl⟩ := h
  exact ⟨n, a ++ pre, post, by simp⟩

/-- One step with working sockets and local players: the negotiation happens, or the request is still
there and not farther away. -/
theorem step_linkable {s s' : AppSystem} {x : AppAction} {o : List (Bytes × Ip4 × UInt16)}
    (h : StepTo s x o s') (hl : Linkable s) (hs : SocketsWork [x]) (ha : AllLocal [x]) :
    Negotiated o ∨ (Linkable s' ∧ before s' ≤ before s ∧
      (x = .appRecv → before s' ≤ before s - 1) ∧
      ∀ oks, x = .appLink oks → s.pending = false) := by
  obtain ⟨⟨r1, r2, r3⟩, hb, hn, hq⟩ := hl
  cases h with
  | dead h => rw [r1] at h; exact nomatch h
  | heard hh ha' hm =>
    obtain ⟨n, hn'⟩ := ha _ _ (List.mem_singleton.2 rfl) _ ha'
    rw [firstMatch_iff, hm] at hn'
    obtain rfl := Outcome.ok.inj hn'
    refine .inr ⟨⟨⟨r1, r2, r3⟩, hb, by simp [hear], ?_⟩, ?_, (fun h => nomatch h), (fun _ h => nomatch h)⟩
    · rcases hq with h | h
      · exact .inl h
      · exact .inr (List.mem_append_left _ h)
    · unfold before
      simp only
      split
      · exact Nat.le_refl _
      · rename_i hp
        rcases hq with h | h
        · exact absurd h hp
        · rw [List.idxOf_append, if_pos h]
          exact Nat.le_refl _
  | macMissing hh ha' hm =>
    obtain ⟨n, hn'⟩ := ha _ _ (List.mem_singleton.2 rfl) _ ha'
    rw [firstMatch_iff, hm] at hn'
    exact nomatch hn'
  | broadcastFails => exact absurd (hs.1 _ (List.mem_singleton.2 rfl)) (by decide)
  | waits hr h =>
    refine .inr ⟨⟨⟨r1, r2, r3⟩, hb, hn, hq⟩, Nat.le_refl _, ?_, (fun _ h => nomatch h)⟩
    intro _
    rcases h with h | h
    · simp [before, h]
    · rcases hq with hq | hq
      · simp [before, hq]
      · rw [h] at hq; exact nomatch hq
  | takesLink hr hp hq' =>
    exact .inr ⟨⟨⟨r1, r2, r3⟩, hb, hn, .inl rfl⟩, by simp [before], by simp [before], (fun _ h => nomatch h)⟩
  | @takesChange q hr hp hq' =>
    have hq : .initiateLink ∈ s.queue := by
      rcases hq with h | h
      · rw [hp] at h; exact nomatch h
      · exact h
    rw [hq'] at hq
    have hq : AppEvent.initiateLink ∈ _ := (List.mem_cons.1 hq).resolve_left (by decide)
    have hlt : before { s with queue := q } + 1 = before s := by
      simp only [before, hp, hq']
      rw [if_neg (by decide), if_neg (by decide), List.idxOf_cons]
      rfl
    refine .inr ⟨⟨⟨r1, r2, r3⟩, hb, hn, .inr hq⟩, by omega, fun _ => by omega, (fun _ h => nomatch h)⟩
  | noLink hr hp =>
    exact .inr ⟨⟨⟨r1, r2, r3⟩, hb, hn, hq⟩, Nat.le_refl _, (fun h => nomatch h), fun _ _ => hp⟩
  | linkPoisoned _ _ h => rw [r3] at h; exact nomatch h
  | linkNowhere _ _ _ h => exact absurd h hn
  | @links oks n => exact .inl ⟨n, [], [], by simp⟩
  | linkFails _ _ _ _ _ hf =>
    exact absurd (hs.2 _ (List.mem_singleton.2 rfl) false (List.mem_of_getElem? hf)) (by decide)
  | ignored => exact .inr ⟨⟨⟨r1, r2, r3⟩, hb, hn, hq⟩, Nat.le_refl _, (fun h => nomatch h), (fun _ h => nomatch h)⟩
  | noBroadcast => exact .inr ⟨⟨⟨r1, r2, r3⟩, hb, hn, hq⟩, Nat.le_refl _, (fun h => nomatch h), (fun _ h => nomatch h)⟩
  | broadcast => exact .inr ⟨⟨⟨r1, r2, r3⟩, hb, hn, hq⟩, Nat.le_refl _, (fun h => nomatch h), (fun _ h => nomatch h)⟩

theorem socketsWork_append {xs ys : List AppAction} (h : SocketsWork (xs ++ ys)) :
    SocketsWork xs ∧ SocketsWork ys :=
  ⟨⟨fun ok hx => h.1 ok (List.mem_append_left _ hx), fun oks hx => h.2 oks (List.mem_append_left _ hx)⟩,
   ⟨fun ok hx => h.1 ok (List.mem_append_right _ hx),
    fun oks hx => h.2 oks (List.mem_append_right _ hx)⟩⟩

theorem allLocal_append {xs ys : List AppAction} (h : AllLocal (xs ++ ys)) :
    AllLocal xs ∧ AllLocal ys :=
  ⟨fun i d hx => h i d (List.mem_append_left _ hx), fun i d hx => h i d (List.mem_append_right _ hx)⟩

theorem run_linkable (xs : List AppAction) (s : AppSystem) (hl : Linkable s) (hs : SocketsWork xs)
    (ha : AllLocal xs) : Negotiated (appRun s xs).1 ∨
      (Linkable (appRun s xs).2 ∧ before (appRun s xs).2 ≤ before s) := by
  induction xs generalizing s with
  | nil => exact .inr ⟨hl, Nat.le_refl _⟩
  | cons x xs ih =>
    have hs' := socketsWork_append (xs := [x]) hs
    have ha' := allLocal_append (xs := [x]) ha
    rw [(appRun_cons s x xs).1, (appRun_cons s x xs).2]
    rcases step_linkable (stepTo s x) hl hs'.1 ha'.1 with h | ⟨h1, h2, _⟩
    · exact .inl (negotiated_append_right h _)
    · rcases ih _ h1 hs'.2 ha'.2 with h | ⟨h3, h4⟩
      · exact .inl (negotiated_append_left h _)
      · exact .inr ⟨h3, Nat.le_trans h4 h2⟩

/-- C72, progress: with a link request on its way, the application negotiates within as many rounds of
its loop as there are events queued plus one, whatever the other threads do meanwhile. -/
theorem C72_request_is_carried_out (k : Nat) (ys : List AppAction) (hr : Rounds k ys) (s : AppSystem)
    (hh : Healthy s) (hb : s.broadcaster = true) (hn : s.state.address ≠ none)
    (hq : s.pending = true ∨ .initiateLink ∈ s.queue) (hs : SocketsWork ys) (ha : AllLocal ys)
    (hk : s.queue.length + 1 ≤ k) : Negotiated (appRun s ys).1 := by
  have key : ∀ s : AppSystem, Linkable s → before s ≤ k → 1 ≤ k → Negotiated (appRun s ys).1 := by
    clear hh hb hn hq hk s
    induction hr with
    | none xs => intro s _ _ h; omega
    | @wait k xs x hx ih =>
      intro s hl hk hk1
      have hs' := socketsWork_append (xs := [x]) hs
      have ha' := allLocal_append (xs := [x]) ha
      rw [(appRun_cons s x xs).2]
      rcases step_linkable (stepTo s x) hl hs'.1 ha'.1 with h | ⟨h1, h2, _⟩
      · exact negotiated_append_right h _
      · exact negotiated_append_left (ih hs'.2 ha'.2 _ h1 (Nat.le_trans h2 hk) hk1) _
    | @round k xs between oks hx ih =>
      intro s hl hk hk1
      have hs1 := socketsWork_append (xs := [.appRecv]) hs
      have ha1 := allLocal_append (xs := [.appRecv]) ha
      have hs2 := socketsWork_append hs1.2
      have ha2 := allLocal_append ha1.2
      have hs3 := socketsWork_append (xs := [.appLink oks]) hs2.2
      have ha3 := allLocal_append (xs := [.appLink oks]) ha2.2
      rw [List.cons_append, (appRun_cons s _ _).2, appRun_append]
      rcases step_linkable (stepTo s .appRecv) hl hs1.1 ha1.1 with h | ⟨h1, _, h2, _⟩
      · exact negotiated_append_right h _
      refine negotiated_append_left ?_ _
      rcases run_linkable between _ h1 hs2.1 ha2.1 with h | ⟨h3, h4⟩
      · exact negotiated_append_right h _
      refine negotiated_append_left ?_ _
      generalize (appRun (appStep s .appRecv).2 between).2 = t at h3 h4
      rw [(appRun_cons t _ _).2]
      rcases step_linkable (stepTo t (.appLink oks)) h3 hs3.1 ha3.1 with h | ⟨h5, h6, _, h7⟩
      · exact negotiated_append_right h _
      refine negotiated_append_left ?_ _
      have hp := h7 oks rfl
      have h8 := h2 rfl
      have hpos : 1 ≤ before t := by simp [before, hp]
      exact ih hs3.2 ha3.2 _ h5 (by omega) (by omega)
  refine key s ⟨hh, hb, hn, hq⟩ ?_ (by omega)
  unfold before
  split
  · omega
  · have := List.idxOf_le_length (a := AppEvent.initiateLink) (l := s.queue)
    omega

/-- After any schedule in which a player was heard, the negotiation has happened or is on its way. -/
theorem heard_linkable (xs : List AppAction) (h : List (List Interface × Announcement))
    (hh : Heard xs h) (hne : h ≠ []) (hs : SocketsWork xs) (ha : AllLocal xs) (s : AppSystem)
    (h1 : Healthy s) (h2 : s.broadcaster = true) (h3 : s.state.linking = false)
    (h4 : s.pending = false) (h5 : s.queue = []) :
    Negotiated (appRun s xs).1 ∨ Linkable (appRun s xs).2 := by
  induction xs generalizing s h with
  | nil => cases hh; exact absurd rfl hne
  | cons x xs ih =>
    have hs' := socketsWork_append (xs := [x]) hs
    have ha' := allLocal_append (xs := [x]) ha
    obtain ⟨h', hx, hcase⟩ := heard_cons hh
    rw [(appRun_cons s x xs).1, (appRun_cons s x xs).2]
    have hst := stepTo s x
    obtain ⟨r1, r2, r3⟩ := h1
    rcases hcase with ⟨rfl, hno⟩ | ⟨i, d, a, rfl, hacc, rfl⟩
    · have hkeep : Healthy (appStep s x).2 ∧ (appStep s x).2.broadcaster = true ∧
          (appStep s x).2.state.linking = false ∧ (appStep s x).2.pending = false ∧
          (appStep s x).2.queue = [] := by
        clear ih
        generalize (appStep s x).1 = out at hst
        generalize (appStep s x).2 = s' at hst
        cases hst with
        | heard _ ha2 => exact absurd ha2 (hno _ _ rfl _)
        | macMissing _ ha2 => exact absurd ha2 (hno _ _ rfl _)
        | broadcastFails => exact absurd (hs'.1.1 _ (List.mem_singleton.2 rfl)) (by decide)
        | takesLink _ _ hq => rw [h5] at hq; exact nomatch hq
        | takesChange _ _ hq => rw [h5] at hq; exact nomatch hq
        | linkPoisoned _ hp => rw [h4] at hp; exact nomatch hp
        | linkNowhere _ hp => rw [h4] at hp; exact nomatch hp
        | links _ hp => rw [h4] at hp; exact nomatch hp
        | linkFails _ hp => rw [h4] at hp; exact nomatch hp
        | _ => exact ⟨⟨r1, r2, r3⟩, h2, h3, h4, h5⟩
      obtain ⟨g1, g2, g3, g4, g5⟩ := hkeep
      rcases ih h hx hne hs'.2 ha'.2 _ g1 g2 g3 g4 g5 with h | h
      · exact .inl (negotiated_append_left h _)
      · exact .inr h
    · obtain ⟨n, hn⟩ := ha'.1 _ _ (List.mem_singleton.2 rfl) a hacc
      have hlink : Linkable (appStep s (.receive i d)).2 := by
        generalize (appStep s (.receive i d)).1 = out at hst
        generalize (appStep s (.receive i d)).2 = s' at hst
        cases hst with
        | dead h => rw [r1] at h; exact nomatch h
        | ignored _ h =>
          rcases h with h | h | h
          · rw [r2] at h; exact nomatch h
          · rw [r3] at h; exact nomatch h
          · exact absurd hacc (h a)
        | heard _ ha2 hm =>
          obtain rfl := announcement_unique ha2.1 hacc.1
          rw [firstMatch_iff, hm] at hn
          obtain rfl := Outcome.ok.inj hn
          refine ⟨⟨r1, r2, r3⟩, h2, by simp [hear], .inr ?_⟩
          refine List.mem_append_right _ ?_
          rw [events_eq, h3]
          simp
        | macMissing _ ha2 hm =>
          obtain rfl := announcement_unique ha2.1 hacc.1
          rw [firstMatch_iff, hm] at hn
          exact nomatch hn
      rcases run_linkable xs _ hlink hs'.2 ha'.2 with h | h
      · exact .inl (negotiated_append_left h _)
      · exact .inr h.1

/-- C72: once a player has been heard, the application negotiates: in every continuation in which its
loop runs as many rounds as events are queued, plus one, all 40 datagrams have been sent in order,
whatever the receiver and the broadcaster do meanwhile (players on local networks, working
sockets). -/
theorem C72_linking_happens (xs ys : List AppAction) (h : List (List Interface × Announcement))
    (hh : Heard xs h) (hne : h ≠ []) (hs : SocketsWork (xs ++ ys)) (ha : AllLocal (xs ++ ys))
    (hr : Rounds ((appRun .start xs).2.queue.length + 1) ys) :
    Negotiated (appRun .start (xs ++ ys)).1 := by
  have hs' := socketsWork_append hs
  have ha' := allLocal_append ha
  rw [appRun_append]
  rcases heard_linkable xs h hh hne hs'.1 ha'.1 .start ⟨rfl, rfl, rfl⟩ rfl rfl rfl rfl with h | h
  · exact negotiated_append_right h _
  · exact negotiated_append_left (C72_request_is_carried_out _ ys hr _ h.healthy h.broadcaster
      h.network h.request hs'.2 ha'.2 (Nat.le_refl _)) _

/-- The hypotheses of C72 are met by one player heard and three rounds of the application. -/
example : ∃ (xs ys : List AppAction) (h : List (List Interface × Announcement)), Heard xs h ∧ h ≠ [] ∧
    SocketsWork (xs ++ ys) ∧ AllLocal (xs ++ ys) ∧
    Rounds ((appRun .start xs).2.queue.length + 1) ys := by
  have hm : FirstMatch exampleInterfaces (ofBe32 192 168 10 7)
      ⟨⟨ofBe32 192 168 10 50, 24⟩, ⟨1, 2, 3, 4, 5, 6⟩⟩ :=
    ⟨[], [], rfl, by simp, by unfold InNet; decide⟩
  have hq : (appRun .start [.receive exampleInterfaces exampleDatagram]).2.queue.length = 2 := by
    have := C50_events_of_announcement .start ⟨rfl, rfl, rfl⟩ exampleInterfaces exampleDatagram _
      exampleDatagram_accepted (by
        intro h
        have h1 := (C55_panics_exactly _ _).2 h
        rw [(firstMatch_iff _ _ _).1 hm] at h1
        exact nomatch h1)
    show (appStep .start (.receive exampleInterfaces exampleDatagram)).2.queue.length = 2
    rw [this]
    rfl
  refine ⟨[.receive exampleInterfaces exampleDatagram],
    [.appRecv, .appLink [], .appRecv, .appLink [], .appRecv, .appLink []], _,
    .accepted exampleDatagram_accepted .nil, by simp, ⟨by simp, by simp⟩, ?_, ?_⟩
  · intro i d hd a ha
    simp only [List.cons_append, List.nil_append, List.mem_cons, AppAction.receive.injEq,
      List.not_mem_nil, or_false, reduceCtorEq] at hd
    obtain ⟨rfl, rfl⟩ := hd
    obtain rfl := announcement_unique ha.1 exampleDatagram_accepted.1
    exact ⟨_, hm⟩
  · rw [hq]
    exact .round [] [] (.round [] [] (.round [] [] (.none _)))

/-- C71, C72, non-vacuity. -/
example := C71_traffic_bounded _ _ exampleHeard
example (o) (ho : o ∈ (appRun .start exampleSchedule).1) := C71_destinations _ _ exampleHeard o ho
example := C71_silent_until_heard [.appRecv, .broadcast true] (.appRecv (.broadcast .nil))
example := C72_request_is_carried_out 1 (.appRecv :: [] ++ .appLink [] :: []) (.round [] [] (.none []))
  exampleLinking ⟨rfl, rfl, rfl⟩ rfl (by simp [exampleLinking]) (.inl rfl)
  ⟨by simp, by simp⟩ (by intro _ _ h; simp at h) (by simp [exampleLinking])

end PDJ

import Verif.Props.Intruder
import Verif.Props.Timed

/-!
# Property C114: a link request that finds no network ends the program

C54 says what ends the process in one step.  C114 says from which states it cannot escape its end:
`/repo/src/rekordbox/server.rs` 101-150 and 232-258, `/repo/src/component/mod.rs` 27-51.
-/

namespace PDJ

open Spec

/-- A link request is open that will find no network. -/
structure Doomed (s : AppSystem) : Prop where
  request : s.pending = true ∨ .initiateLink ∈ s.queue
  lost : s.poisoned = true ∨ s.state.address = none

/-- What is received cannot give the application a network: nobody on a local network is heard, or the
lock is poisoned anyway. -/
def Hopeless (s : AppSystem) (xs : List AppAction) : Prop :=
  s.poisoned = true ∨ NoneLocal xs

theorem noneLocal_append {xs ys : List AppAction} (h : NoneLocal (xs ++ ys)) :
    NoneLocal xs ∧ NoneLocal ys :=
  ⟨fun i d hx => h i d (List.mem_append_left _ hx), fun i d hx => h i d (List.mem_append_right _ hx)⟩

theorem hopeless_append {s : AppSystem} {xs ys : List AppAction} (h : Hopeless s (xs ++ ys)) :
    Hopeless s xs ∧ Hopeless s ys := by
  rcases h with h | h
  · exact ⟨.inl h, .inl h⟩
  · exact ⟨.inr (noneLocal_append h).1, .inr (noneLocal_append h).2⟩

/-- One step towards the end. -/
theorem step_doomed {s s' : AppSystem} {x : AppAction} {o : List (Bytes × Ip4 × UInt16)}
    (h : StepTo s x o s') (hd : Doomed s) (hx : Hopeless s [x]) :
    o = [] ∧ (s.poisoned = true → s'.poisoned = true) ∧ (s'.running = false ∨
      (Doomed s' ∧ before s' ≤ before s ∧ (x = .appRecv → before s' ≤ before s - 1) ∧
        ∀ oks, x = .appLink oks → s.pending = false)) := by
  obtain ⟨hq, hl⟩ := hd
  cases h with
  | dead h => exact ⟨rfl, id, .inl h⟩
  | heard hh ha hm =>
    have hp := hh.lock
    refine ⟨rfl, id, .inr ⟨⟨?_, ?_⟩, ?_, (fun h => nomatch h), (fun _ h => nomatch h)⟩⟩
    · rcases hq with h | h
      · exact .inl h
      · exact .inr (List.mem_append_left _ h)
    · rename_i i d a n
      cases n with
      | none => exact .inr rfl
      | some n =>
        rcases hx with hx | hx
        · exact .inl hx
        · exact absurd ((firstMatch_iff _ _ _).2 hm) (hx _ _ (List.mem_singleton.2 rfl) _ ha n)
    · unfold before
      simp only
      split
      · exact Nat.le_refl _
      · rename_i hp
        rcases hq with h | h
        · exact absurd h hp
        · rw [List.idxOf_append, if_pos h]
          exact Nat.le_refl _
  | macMissing hh ha hm =>
    exact ⟨rfl, fun _ => rfl, .inr ⟨⟨hq, .inl rfl⟩, Nat.le_refl _, (fun h => nomatch h),
      (fun _ h => nomatch h)⟩⟩
  | broadcastFails hr hb hp hn =>
    exact ⟨rfl, fun _ => rfl, .inr ⟨⟨hq, .inl rfl⟩, Nat.le_refl _, (fun h => nomatch h),
      (fun _ h => nomatch h)⟩⟩
  | broadcast hr hb hp hn =>
    rcases hl with h | h
    · rw [hp] at h; exact nomatch h
    · rw [hn] at h; exact nomatch h
  | waits hr h =>
    refine ⟨rfl, id, .inr ⟨⟨hq, hl⟩, Nat.le_refl _, ?_, (fun _ h => nomatch h)⟩⟩
    intro _
    rcases h with h | h
    · simp [before, h]
    · rcases hq with hq | hq
      · simp [before, hq]
      · rw [h] at hq; exact nomatch hq
  | takesLink hr hp hq' =>
    exact ⟨rfl, id, .inr ⟨⟨.inl rfl, hl⟩, by simp [before], by simp [before], (fun _ h => nomatch h)⟩⟩
  | @takesChange q hr hp hq' =>
    have hq : .initiateLink ∈ s.queue := by
      rcases hq with h | h
      · rw [hp] at h; exact nomatch h
      · exact h
    rw [hq'] at hq
    have hq : AppEvent.initiateLink ∈ _ := (List.mem_cons.1 hq).resolve_left (by decide)
    have hlt : before { s with queue := q } + 1 = before s := by
      simp only [before, hp, hq']
      rw [if_neg (by decide), if_neg (by decide), List.idxOf_cons]
      rfl
    exact ⟨rfl, id, .inr ⟨⟨.inr hq, hl⟩, by omega, fun _ => by omega, (fun _ h => nomatch h)⟩⟩
  | noLink hr hp =>
    exact ⟨rfl, id, .inr ⟨⟨hq, hl⟩, Nat.le_refl _, (fun h => nomatch h), fun _ _ => hp⟩⟩
  | linkPoisoned => exact ⟨rfl, id, .inl rfl⟩
  | linkNowhere => exact ⟨rfl, id, .inl rfl⟩
  | links hr hp hp' hn =>
    rcases hl with h | h
    · rw [hp'] at h; exact nomatch h
    · rw [hn] at h; exact nomatch h
  | linkFails hr hp hp' hn =>
    rcases hl with h | h
    · rw [hp'] at h; exact nomatch h
    · rw [hn] at h; exact nomatch h
  | ignored => exact ⟨rfl, id, .inr ⟨⟨hq, hl⟩, Nat.le_refl _, (fun h => nomatch h), (fun _ h => nomatch h)⟩⟩
  | noBroadcast =>
    exact ⟨rfl, id, .inr ⟨⟨hq, hl⟩, Nat.le_refl _, (fun h => nomatch h), (fun _ h => nomatch h)⟩⟩

theorem ended_run (s : AppSystem) (h : s.running = false) (xs : List AppAction) :
    appRun s xs = ([], s) := by
  induction xs with
  | nil => rfl
  | cons x xs ih =>
    have e : appStep s x = ([], s) := by
      have := stepTo s x
      generalize appStep s x = r at this
      obtain ⟨o, s'⟩ := r
      cases this with
      | dead => rfl
      | heard hh => rw [hh.running] at h; exact nomatch h
      | macMissing hh => rw [hh.running] at h; exact nomatch h
      | ignored hr | noBroadcast hr | broadcast hr | broadcastFails hr | waits hr | takesLink hr
      | takesChange hr | noLink hr | linkPoisoned hr | linkNowhere hr | links hr | linkFails hr =>
        exact absurd (hr.symm.trans h) (by decide)
    refine Prod.ext ?_ ?_
    · rw [(appRun_cons s x xs).2, e, ih]; rfl
    · rw [(appRun_cons s x xs).1, e, ih]

theorem hopeless_mono {s s' : AppSystem} {xs : List AppAction}
    (h : s.poisoned = true → s'.poisoned = true) (hx : Hopeless s xs) : Hopeless s' xs :=
  hx.imp h id

theorem run_doomed (xs : List AppAction) (s : AppSystem) (hd : Doomed s) (hx : Hopeless s xs) :
    (appRun s xs).1 = [] ∧ (s.poisoned = true → (appRun s xs).2.poisoned = true) ∧
      ((appRun s xs).2.running = false ∨
      (Doomed (appRun s xs).2 ∧ before (appRun s xs).2 ≤ before s)) := by
  induction xs generalizing s with
  | nil => exact ⟨rfl, id, .inr ⟨hd, Nat.le_refl _⟩⟩
  | cons x xs ih =>
    have hx' := hopeless_append (xs := [x]) hx
    rw [(appRun_cons s x xs).1, (appRun_cons s x xs).2]
    obtain ⟨h1, h2, h3⟩ := step_doomed (stepTo s x) hd hx'.1
    rw [h1]
    rcases h3 with h3 | ⟨h3, h4, _⟩
    · rw [ended_run _ h3]
      exact ⟨rfl, h2, .inl h3⟩
    · obtain ⟨h5, h6, h7⟩ := ih _ h3 (hopeless_mono h2 hx'.2)
      refine ⟨h5, fun h => h6 (h2 h), h7.imp id fun h => ⟨h.1, Nat.le_trans h.2 h4⟩⟩

/-- C114: with a link request open and no network to link on - none known, or the lock poisoned - the
program ends within as many rounds of its loop as there are events queued plus one, and sends nothing
more until then, whatever the other threads do meanwhile; only a player heard on a local network can
save it, and nothing if the lock is poisoned. -/
theorem C114_request_without_network (k : Nat) (ys : List AppAction) (hr : Rounds k ys) (s : AppSystem)
    (hq : s.pending = true ∨ .initiateLink ∈ s.queue)
    (hl : s.poisoned = true ∨ (s.state.address = none ∧ NoneLocal ys)) (hk : s.queue.length + 1 ≤ k) :
    (appRun s ys).1 = [] ∧ (appRun s ys).2.running = false := by
  have key : ∀ s : AppSystem, Doomed s → Hopeless s ys → before s ≤ k → 1 ≤ k →
      (appRun s ys).1 = [] ∧ (appRun s ys).2.running = false := by
    clear hq hl hk s
    induction hr with
    | none xs => intro s _ _ _ h; omega
    | @wait k xs x hx ih =>
      intro s hl hh hk hk1
      have hh' := hopeless_append (xs := [x]) hh
      rw [(appRun_cons s x xs).2, (appRun_cons s x xs).1]
      obtain ⟨h1, h2, h3⟩ := step_doomed (stepTo s x) hl hh'.1
      rw [h1]
      rcases h3 with h3 | ⟨h3, h4, _⟩
      · rw [ended_run _ h3]
        exact ⟨rfl, h3⟩
      · exact ih _ h3 (hopeless_mono h2 hh'.2) (Nat.le_trans h4 hk) hk1
    | @round k xs between oks hx ih =>
      intro s hl hh hk hk1
      have a1 := hopeless_append (xs := [.appRecv]) hh
      have a2 := hopeless_append a1.2
      have a3 := hopeless_append (xs := [.appLink oks]) a2.2
      rw [List.cons_append, (appRun_cons s _ _).2, (appRun_cons s _ _).1]
      obtain ⟨h1, h2, h3⟩ := step_doomed (stepTo s .appRecv) hl a1.1
      rw [h1]
      rcases h3 with h3 | ⟨h3, _, h4, _⟩
      · rw [ended_run _ h3]
        exact ⟨rfl, h3⟩
      have h4 := h4 rfl
      rw [appRun_append]
      obtain ⟨h5, h6, h7⟩ := run_doomed between _ h3 (hopeless_mono h2 a2.1)
      rw [h5]
      rcases h7 with h7 | ⟨h7, h8⟩
      · rw [ended_run _ h7]
        exact ⟨rfl, h7⟩
      have b3 := hopeless_mono h6 (hopeless_mono h2 a3.1)
      have b4 := hopeless_mono h6 (hopeless_mono h2 a3.2)
      generalize (appRun (appStep s .appRecv).2 between).2 = t at h7 h8 b3 b4
      rw [(appRun_cons t _ _).2, (appRun_cons t _ _).1]
      obtain ⟨c1, c2, c3⟩ := step_doomed (stepTo t (.appLink oks)) h7 b3
      rw [c1]
      rcases c3 with c3 | ⟨c3, c4, _, c5⟩
      · rw [ended_run _ c3]
        exact ⟨rfl, c3⟩
      have hp := c5 oks rfl
      have hpos : 1 ≤ before t := by simp [before, hp]
      exact ih _ c3 (hopeless_mono c2 b4) (by omega) (by omega)
  refine key s ⟨hq, hl.imp id And.left⟩ (hl.imp id And.right) ?_ (by omega)
  unfold before
  split
  · omega
  · have := List.idxOf_le_length (a := AppEvent.initiateLink) (l := s.queue)
    omega

/-- C114: one announcement from no local network ends a program that has not linked yet, and one that
still has a link request open, from every state in which its threads run: within as many rounds as
there were events queued plus three, unless a player on a local network is heard before that; nothing
more is sent. -/
theorem C114_foreign_announcement (s : AppSystem) (hs : Healthy s) (i : List Interface) (d : Bytes)
    (a : Announcement) (ha : Accepted d a) (hn : NoMatch i a.ip)
    (hq : s.state.linking = false ∨ s.pending = true ∨ .initiateLink ∈ s.queue)
    (k : Nat) (ys : List AppAction) (hr : Rounds k ys) (hy : NoneLocal ys)
    (hk : s.queue.length + 3 ≤ k) :
    (appRun s (.receive i d :: ys)).1 = [] ∧ (appRun s (.receive i d :: ys)).2.running = false := by
  have hm := (C55_no_match a.ip i).2 hn
  have e : appStep s (.receive i d) = ([], { s with
      state := hear none a s.state
      queue := s.queue ++ events s.state (hear none a s.state) }) := by
    have e' : appStep s (.receive i d) =
        if s.running then ([], if s.receiver then receiveStep i d s else s) else ([], s) := rfl
    rw [e', if_pos hs.running, if_pos hs.receiver, receive_accepted ha, hm,
      if_neg (by rw [hs.lock]; decide)]
  rw [(appRun_cons _ _ _).2, (appRun_cons _ _ _).1, e]
  refine C114_request_without_network k ys hr _ ?_ (.inr ⟨rfl, hy⟩) ?_
  · simp only [events_eq, List.mem_append]
    rcases hq with h | h | h
    · right; right; right
      rw [h]
      exact List.mem_singleton.2 rfl
    · exact .inl h
    · exact .inr (.inl h)
  · simp only [events_eq, List.length_append]
    have h1 : ∀ (p : Prop) [Decidable p] (x : AppEvent), (if p then [] else [x]).length ≤ 1 := by
      intro p _ x; split <;> simp
    have := h1 (a.ip ∈ s.state.players.map Player.address) .deviceChange
    have := h1 (s.state.linking = true) .initiateLink
    omega

/-- C114: a program that has linked and has no request open is past that: nothing received, no refused
socket and no poisoned lock ends it any more. -/
theorem C114_past_it (s : AppSystem) (hr : s.running = true) (hl : s.state.linking = true)
    (hp : s.pending = false) (hq : .initiateLink ∉ s.queue) (ys : List AppAction) :
    (appRun s ys).2.running = true := by
  suffices h : ∀ ys s, s.running = true → Settled s →
      (appRun s ys).2.running = true ∧ Settled (appRun s ys).2 from
    (h ys s hr (.inr ⟨hl, hq, hp⟩)).1
  clear hr hl hp hq s ys
  intro ys
  induction ys with
  | nil => exact fun s hr hs => ⟨hr, hs⟩
  | cons x ys ih =>
    intro s hr hs
    rw [(appRun_cons s x ys).1]
    refine ih _ ?_ (settled_step (stepTo s x) hs).1
    cases h : (appStep s x).2.running with
    | true => rfl
    | false =>
      obtain ⟨_, _, hp, _⟩ := (C54_ends_exactly s x hr).1 h
      rcases hs with hs | ⟨_, _, hs⟩
      · rw [hr] at hs; exact nomatch hs
      · rw [hp] at hs; exact nomatch hs

/-- C114: exactly which running programs something that happens can still end: those with a link request open,
and those that have not linked and can still hear players. -/
theorem C114_can_end_iff (s : AppSystem) (hr : s.running = true) :
    (∃ ys, (appRun s ys).2.running = false) ↔
      s.pending = true ∨ .initiateLink ∈ s.queue ∨ (Healthy s ∧ s.state.linking = false) := by
  constructor
  · rintro ⟨ys, hy⟩
    apply Classical.byContradiction
    intro hn
    have key : ∀ (ys : List AppAction) (s : AppSystem), s.running = true → s.pending = false →
        AppEvent.initiateLink ∉ s.queue → (Healthy s → s.state.linking = true) →
        (appRun s ys).2.running = true := by
      intro ys
      induction ys with
      | nil => exact fun s hr _ _ _ => hr
      | cons x ys ih =>
        intro s hr hp hq hl
        rw [(appRun_cons s x ys).1]
        have hst := stepTo s x
        generalize (appStep s x).2 = s' at hst ⊢
        generalize (appStep s x).1 = o at hst
        cases hst with
        | dead h => exact absurd (hr.symm.trans h) (by decide)
        | heard hh ha hm =>
          rename_i a n
          refine C114_past_it { s with
            state := hear n a s.state
            queue := s.queue ++ events s.state (hear n a s.state) } hr ?_ hp (fun h => ?_) ys
          · exact hl hh
          rcases List.mem_append.1 h with h | h
          · exact hq h
          · have hlk := hl hh
            revert h
            simp [events, hear, ServerState.isLinkingPossible, hlk]
        | macMissing hh ha hm => exact ih _ hr hp hq (fun h => nomatch h.receiver)
        | broadcastFails _ hb hp' hn => exact ih _ hr hp hq (fun h => nomatch h.lock)
        | takesLink _ _ hq' => rw [hq'] at hq; exact absurd List.mem_cons_self hq
        | takesChange _ _ hq' =>
          refine ih _ hr hp (fun h => hq ?_) (fun h => hl ⟨h.1, h.2, h.3⟩)
          rw [hq']
          exact List.mem_cons_of_mem _ h
        | linkPoisoned _ hp' => exact absurd (hp.symm.trans hp') (by decide)
        | linkNowhere _ hp' => exact absurd (hp.symm.trans hp') (by decide)
        | links _ hp' => exact absurd (hp.symm.trans hp') (by decide)
        | linkFails _ hp' => exact absurd (hp.symm.trans hp') (by decide)
        | _ => exact ih _ hr hp hq hl
    have hp : s.pending = false := by
      cases hp : s.pending with
      | false => rfl
      | true => exact absurd (.inl hp) hn
    have hl : Healthy s → s.state.linking = true := by
      intro hh
      cases hl : s.state.linking with
      | true => rfl
      | false => exact absurd (.inr (.inr ⟨hh, hl⟩)) hn
    exact absurd ((key ys s hr hp (fun h => hn (.inr (.inl h))) hl).symm.trans hy) (by decide)
  · have acts : ∀ s : AppSystem, s.running = true → s.pending = true →
        (appRun s [.appLink [false]]).2.running = false := by
      intro s hr hp
      exact (C54_ends_exactly s (.appLink [false]) hr).2 ⟨_, rfl, hp, .inr (.inr (by decide))⟩
    have asks : ∀ (q : List AppEvent) (s : AppSystem), s.queue = q → s.running = true → .initiateLink ∈ q →
        ∃ ys, (appRun s ys).2.running = false := by
      intro q
      induction q with
      | nil => exact fun s _ _ h => absurd h List.not_mem_nil
      | cons ev q ih =>
        intro s hq hr hm
        cases hp : s.pending with
        | true => exact ⟨_, acts s hr hp⟩
        | false =>
          have hstep : ∀ ys, (appRun s (.appRecv :: ys)).2 = (appRun (appStep s .appRecv).2 ys).2 :=
            fun ys => (appRun_cons s .appRecv ys).1
          have hst := stepTo s .appRecv
          generalize (appStep s .appRecv).2 = s' at hst hstep
          generalize (appStep s .appRecv).1 = o at hst
          cases hst with
          | dead h => exact absurd (hr.symm.trans h) (by decide)
          | waits _ h =>
            rcases h with h | h
            · exact absurd (hp.symm.trans h) (by decide)
            · rw [hq] at h; exact nomatch h
          | takesLink _ _ hq' =>
            exact ⟨_, (congrArg AppSystem.running (hstep _)).trans (acts _ hr rfl)⟩
          | @takesChange q' _ _ hq' =>
            have e := hq.symm.trans hq'
            injection e with e1 e2
            subst e1 e2
            obtain ⟨ys, hy⟩ := ih { s with queue := q } rfl hr ((List.mem_cons.1 hm).resolve_left (by decide))
            exact ⟨_, (congrArg AppSystem.running (hstep ys)).trans hy⟩
    rintro (hp | hq | ⟨hh, hl⟩)
    · exact ⟨_, acts s hr hp⟩
    · exact asks _ s rfl hr hq
    · have rounds : ∀ k, ∃ ys, Rounds k ys ∧ NoneLocal ys := by
        intro k
        induction k with
        | zero => exact ⟨[], .none [], fun _ _ h => absurd h List.not_mem_nil⟩
        | succ k ih =>
          obtain ⟨ys, h1, h2⟩ := ih
          refine ⟨_, .round [] [] h1, fun i d h => ?_⟩
          simp only [List.cons_append, List.nil_append, List.mem_cons, reduceCtorEq, false_or] at h
          exact h2 i d h
      obtain ⟨ys, h1, h2⟩ := rounds (s.queue.length + 3)
      exact ⟨_, (C114_foreign_announcement s hh [] _ _ exampleDatagram_accepted (by simp [NoMatch, candidates])
        (.inl hl) _ ys h1 h2 (Nat.le_refl _)).2⟩

/-- C114: with the program end library, file service, status server and announcements: the same for
every history of the whole process, in the middle of which such an announcement is heard. -/
theorem C114_everything_ends {F : Type} (e : Endian) (m : Mode) (db : Db) (xs : List (SysAction F))
    (before ys : List AppAction) (i : List Interface) (d : Bytes)
    (hx : appPart xs = before ++ .receive i d :: ys) (hs : Healthy (appRun .start before).2)
    (a : Announcement) (ha : Accepted d a) (hn : NoMatch i a.ip)
    (hq : (appRun .start before).2.state.linking = false ∨ (appRun .start before).2.pending = true ∨
      .initiateLink ∈ (appRun .start before).2.queue)
    (k : Nat) (hr : Rounds k ys) (hy : NoneLocal ys) (hk : (appRun .start before).2.queue.length + 3 ≤ k)
    (after : List (SysAction F)) : (sysRun e m db (sysRun e m db .start xs).2 after).1 = [] := by
  refine C79_end_is_silence e m db _ ?_ after
  rw [(C77_application_undisturbed e m db xs).1, hx, appRun_append]
  exact (C114_foreign_announcement _ hs i d a ha hn hq k ys hr hy hk).2

/-! ## The hypotheses can be met -/

theorem exampleRounds : Rounds 3 [.appRecv, .broadcast true, .appLink [], .receive [] exampleDatagram,
    .appRecv, .appLink [], .appRecv, .appLink []] :=
  .round [.broadcast true] [] (.wait _ (.round [] [] (.round [] [] (.none []))))

theorem exampleNoneLocal : NoneLocal [.appRecv, .broadcast true, .appLink [],
    .receive [] exampleDatagram, .appRecv, .appLink [], .appRecv, .appLink []] := by
  intro i d hm a ha n hn
  have : i = [] := by
    simp only [List.mem_cons, reduceCtorEq, AppAction.receive.injEq, List.not_mem_nil, or_false,
      false_or] at hm
    exact hm.1
  subst this
  exact absurd ((firstMatch_iff _ _ _).1 hn) (fun h => nomatch h)

example := C114_request_without_network 3 _ exampleRounds
  { AppSystem.start with queue := [.deviceChange, .initiateLink] } (.inr (by decide))
  (.inr ⟨rfl, exampleNoneLocal⟩) (by decide)

example := C114_foreign_announcement .start exampleHealthy [] _ _ exampleDatagram_accepted
  (by simp [NoMatch, candidates]) (.inl rfl) 3 _ exampleRounds exampleNoneLocal (by decide)

example := C114_past_it { AppSystem.start with state := { ServerState.default with linking := true } }
  rfl rfl rfl (by decide)

example := C114_can_end_iff { AppSystem.start with queue := [.deviceChange], poisoned := true } rfl

example {F : Type} (e : Endian) (m : Mode) (db : Db) := C114_everything_ends (F := F) e m db
  ([.app (.receive [] exampleDatagram), .status .ioError, .app .appRecv, .app (.broadcast true),
    .app (.appLink []), .app (.receive [] exampleDatagram), .app .appRecv, .app (.appLink []),
    .app .appRecv, .app (.appLink [])]) [] _ _ _ rfl exampleHealthy _ exampleDatagram_accepted
  (by simp [NoMatch, candidates]) (.inl rfl) 3 exampleRounds exampleNoneLocal (by decide)

end PDJ

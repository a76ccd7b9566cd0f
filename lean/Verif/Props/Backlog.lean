import Verif.Props.Timed

/-!
# C115: events do not pile up

The receiver handles a datagram at most every 250 ms and puts at most two events into the channel
before the application has linked and at most one afterwards; the main thread takes one every 150 ms.
-/

namespace PDJ

open Spec

/-- The clocks that a step moves. -/
theorem timedStep_clocks {s : Clocked} {x : TimedAction} {r} (h : timedStep s x = some r) :
    s.now ≤ x.time ∧ r.2.now = x.time ∧ (usesLock x.act = true → s.lockFree ≤ x.time) ∧
    ((∀ oks, x.act = .appLink oks → s.app.pending = false) → r.2.lockFree = s.lockFree) ∧
    (s.app.pending = true → ∀ oks, x.act = .appLink oks → r.2.appFree = r.2.lockFree + 150) := by
  obtain ⟨p1, p2, p3⟩ := (possible_iff s x).1 (timedStep_possible h)
  simp only [timedStep, timedStep_possible h, if_true, Option.some.injEq] at h
  subst h
  obtain ⟨t, act, late⟩ := x
  refine ⟨p1, ?_, p3, ?_, ?_⟩
  · cases act <;> dsimp only <;> split <;> rfl
  · intro hp
    cases act with
    | receive i d => rfl
    | broadcast ok => rfl
    | appRecv => dsimp only; split <;> rfl
    | appLink oks => simp only [hp oks rfl, Bool.false_eq_true, if_false]
  · rintro hp oks e
    cases e
    simp only [hp, if_true]

/-- How far the main thread is behind: not at all, or by what one datagram has caused, and it will have
caught up before the next one. -/
inductive Calm (late : Nat) (s : Clocked) (since : Nat) : Prop
  | fresh (h : Fresh s)
  | dead (hr : s.app.running = false) (hq : s.app.queue.length ≤ 2)
      (hl : s.app.state.linking = true → s.app.queue.length ≤ 1)
  | working {rest : Nat} (hw : Working late s.app rest) (hl : s.app.state.linking = false)
      (ht : max since s.appFree + rest < s.recvFree)
  | idle (hl : s.app.state.linking = true) (hp : s.app.pending = false) (hq : s.app.queue = [])
      (ht : s.appFree ≤ max s.now s.lockFree + 150)
  | one (hl : s.app.state.linking = true) (hp : s.app.pending = false)
      (hq : s.app.queue = [.deviceChange]) (ht : max since s.appFree + late < s.recvFree)

theorem calm_length {late : Nat} {s : Clocked} {since : Nat} (h : Calm late s since) :
    s.app.queue.length ≤ 2 ∧ (s.app.state.linking = true → s.app.queue.length ≤ 1) := by
  cases h with
  | fresh h => rw [h.queue]; exact ⟨Nat.zero_le _, fun _ => Nat.zero_le _⟩
  | dead _ hq hl => exact ⟨hq, hl⟩
  | working hw hl _ =>
    refine ⟨?_, fun h => by rw [hl] at h; exact nomatch h⟩
    cases hw with
    | heard hq => rw [hq]; exact Nat.le_refl _
    | noticed hq => rw [hq]; exact Nat.le_succ _
    | taken hq => rw [hq]; exact Nat.zero_le _
  | idle _ _ hq => rw [hq]; exact ⟨Nat.zero_le _, fun _ => Nat.zero_le _⟩
  | one _ _ hq => rw [hq]; exact ⟨Nat.le_succ _, fun _ => Nat.le_refl _⟩

theorem dead_step (s : AppSystem) (x : AppAction) (h : s.running = false) : (appStep s x).2 = s := by
  have hst := stepTo s x
  generalize (appStep s x).1 = o at hst
  generalize (appStep s x).2 = s' at hst ⊢
  cases hst with
  | dead => rfl
  | ignored => rfl
  | noBroadcast => rfl
  | waits => rfl
  | noLink => rfl
  | broadcast => rfl
  | heard hh => rw [hh.running] at h; exact nomatch h
  | macMissing hh => rw [hh.running] at h; exact nomatch h
  | broadcastFails hr => rw [hr] at h; exact nomatch h
  | takesLink hr => rw [hr] at h; exact nomatch h
  | takesChange hr => rw [hr] at h; exact nomatch h
  | linkPoisoned hr => rw [hr] at h; exact nomatch h
  | linkNowhere hr => rw [hr] at h; exact nomatch h
  | links hr => rw [hr] at h; exact nomatch h
  | linkFails hr => rw [hr] at h; exact nomatch h

/-- A step of a healthy system whose main thread has nothing to do. -/
theorem calm_step_idle {late : Nat} (hlate : 3 * late < 100) {s : Clocked} {since : Nat}
    {x : TimedAction} {r} (hc : Calm late s since) (hrun : s.app.running = true)
    (hi : s.app.pending = false ∧ s.app.queue = []) (h : timedStep s x = some r) :
    Calm late r.2 x.time := by
  obtain ⟨c1, c2, c3, c4, c5, c6⟩ := timedStep_cases h
  obtain ⟨d1, d2, d3, d4, d5⟩ := timedStep_clocks h
  have cf := c5 (fun _ => .inr hi.2) (fun _ _ => hi.1)
  have dl := d4 (fun _ _ => hi.1)
  have hst := stepTo s.app x.act
  cases hc with
  | dead hr => rw [hr] at hrun; exact nomatch hrun
  | one _ _ hq => rw [hi.2] at hq; exact nomatch hq
  | working hw _ _ =>
    cases hw with
    | heard hq => rw [hi.2] at hq; exact nomatch hq
    | noticed hq => rw [hi.2] at hq; exact nomatch hq
    | taken _ hp => rw [hi.1] at hp; exact nomatch hp
  | fresh hf =>
    by_cases hx : ∃ i d a, x.act = .receive i d ∧ Healthy s.app ∧ Accepted d a
    · obtain ⟨i, d, a, e, hh, ha⟩ := hx
      rw [e] at hst c1 c3
      dsimp only at c3
      generalize (appStep s.app (.receive i d)).1 = o at hst
      generalize (appStep s.app (.receive i d)).2 = s' at hst c1
      cases hst with
      | dead h => rw [h] at hrun; exact nomatch hrun
      | ignored hr h =>
        rcases h with h | h | h
        · have := hh.receiver; rw [h] at this; exact nomatch this
        · have := hh.lock; rw [h] at this; exact nomatch this
        · exact absurd ha (h a)
      | macMissing _ ha' hm =>
        exact .fresh ⟨by rw [c1]; exact hf.queue, by rw [c1]; exact hf.pending,
          by rw [c1]; exact hf.linking, by rw [c1]; exact hf.players, cf.trans hf.free⟩
      | @heard _ _ a' n' _ ha' hm =>
        have hev : events s.app.state (hear n' a' s.app.state) = [.deviceChange, .initiateLink] := by
          rw [events_eq]
          simp [hf.linking, hf.players]
        refine .working (rest := 150 + 3 * late) ?_ ?_ ?_
        · rw [c1]
          exact .heard (by simp only [hf.queue, hev, List.nil_append]) hf.pending
        · rw [c1]; exact hf.linking
        · rw [cf, hf.free, c3]; omega
    · exact .fresh (fresh_step hf h (fun i d a e hc => hx ⟨i, d, a, e, hc.1, hc.2⟩)).1
  | idle hl _ _ ht =>
    have stay : r.2.app.state.linking = true → r.2.app.pending = false → r.2.app.queue = [] →
        Calm late r.2 x.time := fun e1 e2 e3 => .idle e1 e2 e3 (by rw [cf, dl, d2]; omega)
    obtain ⟨t, act, lt⟩ := x
    dsimp only at hst c1 d1 d2 d3 stay c3 ⊢
    generalize (appStep s.app act).1 = o at hst
    generalize (appStep s.app act).2 = s' at hst c1
    have hp := hi.1
    have hq := hi.2
    cases hst with
    | @heard i d a n hh ha hm =>
      have hev : events s.app.state (hear n a s.app.state) =
          if a.ip ∈ s.app.state.players.map Player.address then [] else [.deviceChange] := by
        rw [events_eq, hl]
        simp
      by_cases hin : a.ip ∈ s.app.state.players.map Player.address
      · rw [if_pos hin] at hev
        exact stay (by rw [c1]; exact hl) (by rw [c1]; exact hi.1)
          (by rw [c1]; simp only [hi.2, hev, List.nil_append])
      · rw [if_neg hin] at hev
        refine .one (by rw [c1]; exact hl) (by rw [c1]; exact hi.1)
          (by rw [c1]; simp only [hi.2, hev, List.nil_append]) ?_
        have := d3 (accepted_usesLock ha i)
        rw [cf, c3]
        dsimp only
        omega
    | takesLink _ _ hc => rw [hq] at hc; exact nomatch hc
    | takesChange _ _ hc => rw [hq] at hc; exact nomatch hc
    | linkPoisoned _ hc => rw [hp] at hc; exact nomatch hc
    | linkNowhere _ hc => rw [hp] at hc; exact nomatch hc
    | linkFails _ hc => rw [hp] at hc; exact nomatch hc
    | links _ hc => rw [hp] at hc; exact nomatch hc
    | _ => exact stay (by rw [c1]; exact hl) (by rw [c1]; exact hi.1) (by rw [c1]; exact hi.2)

/-- A step of a healthy system whose main thread has something to do, and is not late. -/
theorem calm_step_busy {late : Nat} {s : Clocked} {since : Nat} {x : TimedAction} {r}
    (hc : Calm late s since) (hrun : s.app.running = true)
    (hb : s.app.pending = true ∨ s.app.queue ≠ []) (hx : x.time ≤ max since s.appFree + late)
    (h : timedStep s x = some r) : Calm late r.2 since := by
  obtain ⟨c1, c2, c3, c4, c5, c6⟩ := timedStep_cases h
  obtain ⟨d1, d2, d3, d4, d5⟩ := timedStep_clocks h
  have hst := stepTo s.app x.act
  obtain ⟨t, act, lt⟩ := x
  dsimp only at hst c1 c3 c4 c5 c6 d1 d2 d3 d4 d5 hx
  cases hc with
  | dead hr => rw [hr] at hrun; exact nomatch hrun
  | fresh hf =>
    rcases hb with hb | hb
    · rw [hf.pending] at hb; exact nomatch hb
    · exact absurd hf.queue hb
  | idle _ hp hq _ =>
    rcases hb with hb | hb
    · rw [hp] at hb; exact nomatch hb
    · exact absurd hq hb
  | one hl hp hq ht =>
    have stay : r.2.app.state.linking = true → r.2.app.pending = false →
        r.2.app.queue = [.deviceChange] → r.2.appFree = s.appFree → r.2.recvFree = s.recvFree →
        Calm late r.2 since := fun e1 e2 e3 e4 e5 => .one e1 e2 e3 (by rw [e4, e5]; exact ht)
    cases act with
    | receive i d => simp only [wakes] at c4; omega
    | broadcast ok =>
      have cf := c5 (fun e => nomatch e) (fun _ e => nomatch e)
      generalize (appStep s.app (.broadcast ok)).1 = o at hst
      generalize (appStep s.app (.broadcast ok)).2 = s' at hst c1
      cases hst with
      | _ => exact stay (by rw [c1]; exact hl) (by rw [c1]; exact hp) (by rw [c1]; exact hq) cf c3
    | appRecv =>
      have cf := c6 hp (by rw [hq]; exact List.cons_ne_nil _ _) rfl
      generalize (appStep s.app .appRecv).1 = o at hst
      generalize (appStep s.app .appRecv).2 = s' at hst c1
      cases hst with
      | dead h => rw [h] at hrun; exact nomatch hrun
      | waits _ hw => exact absurd hw (fun hw => hw.elim (fun h => by rw [hp] at h; exact nomatch h)
          (fun h => by rw [hq] at h; exact nomatch h))
      | takesLink _ _ hc => rw [hq] at hc; exact nomatch hc
      | takesChange _ _ hc =>
        rw [hq] at hc
        obtain rfl := (List.cons.inj hc).2
        rw [c1] at cf
        simp only [hp, Bool.false_eq_true, if_false] at cf
        exact .idle (by rw [c1]; exact hl) (by rw [c1]; exact hp) (by rw [c1]) (by rw [cf, d2]; omega)
    | appLink oks =>
      have cf := c5 (fun e => nomatch e) (fun _ _ => hp)
      generalize (appStep s.app (.appLink oks)).1 = o at hst
      generalize (appStep s.app (.appLink oks)).2 = s' at hst c1
      cases hst with
      | linkPoisoned _ hc => rw [hp] at hc; exact nomatch hc
      | linkNowhere _ hc => rw [hp] at hc; exact nomatch hc
      | linkFails _ hc => rw [hp] at hc; exact nomatch hc
      | links _ hc => rw [hp] at hc; exact nomatch hc
      | _ => exact stay (by rw [c1]; exact hl) (by rw [c1]; exact hp) (by rw [c1]; exact hq) cf c3
  | @working rest hw hl ht =>
    have hrest : late ≤ rest := by cases hw <;> omega
    have stay : r.2.app.queue = s.app.queue → r.2.app.pending = s.app.pending →
        r.2.app.state = s.app.state → r.2.appFree = s.appFree → r.2.recvFree = s.recvFree →
        Calm late r.2 since := by
      intro e1 e2 e3 e4 e5
      refine .working (rest := rest) ?_ (by rw [e3]; exact hl) (by rw [e4, e5]; exact ht)
      cases hw with
      | heard hq hp => exact .heard (e1.trans hq) (e2.trans hp)
      | noticed hq hp => exact .noticed (e1.trans hq) (e2.trans hp)
      | taken hq hp => exact .taken (e1.trans hq) (e2.trans hp)
    cases act with
    | receive i d => simp only [wakes] at c4; omega
    | broadcast ok =>
      have cf := c5 (fun e => nomatch e) (fun _ e => nomatch e)
      generalize (appStep s.app (.broadcast ok)).1 = o at hst
      generalize (appStep s.app (.broadcast ok)).2 = s' at hst c1
      cases hst with
      | _ => exact stay (by rw [c1]) (by rw [c1]) (by rw [c1]) cf c3
    | appRecv =>
      generalize (appStep s.app .appRecv).1 = o at hst
      generalize (appStep s.app .appRecv).2 = s' at hst c1
      cases hst with
      | dead h => rw [h] at hrun; exact nomatch hrun
      | waits _ hw' => exact stay (by rw [c1]) (by rw [c1]) (by rw [c1]) (c5 (fun _ => hw') (fun _ e => nomatch e)) c3
      | takesLink _ hp hc =>
        have cf := c6 hp (by rw [hc]; exact List.cons_ne_nil _ _) rfl
        rw [c1] at cf
        simp only [if_true] at cf
        cases hw with
        | heard hq => rw [hq] at hc; exact nomatch (List.cons.inj hc).1
        | taken hq => rw [hq] at hc; exact nomatch hc
        | noticed hq =>
          rw [hq] at hc
          obtain rfl := (List.cons.inj hc).2
          refine .working (rest := late) (by rw [c1]; exact .taken rfl rfl) (by rw [c1]; exact hl) ?_
          rw [cf, c3]
          dsimp only
          omega
      | takesChange _ hp hc =>
        have cf := c6 hp (by rw [hc]; exact List.cons_ne_nil _ _) rfl
        rw [c1] at cf
        simp only [hp, Bool.false_eq_true, if_false] at cf
        cases hw with
        | noticed hq => rw [hq] at hc; exact nomatch (List.cons.inj hc).1
        | taken hq => rw [hq] at hc; exact nomatch hc
        | heard hq =>
          rw [hq] at hc
          obtain rfl := (List.cons.inj hc).2
          refine .working (rest := 2 * late) (by rw [c1]; exact .noticed rfl hp) (by rw [c1]; exact hl) ?_
          rw [cf, c3]
          dsimp only
          omega
    | appLink oks =>
      generalize (appStep s.app (.appLink oks)).1 = o at hst
      generalize (appStep s.app (.appLink oks)).2 = s' at hst c1
      have none : s.app.pending = true → s.app.queue = [] := by
        intro hp
        cases hw with
        | heard _ h => rw [hp] at h; exact nomatch h
        | noticed _ h => rw [hp] at h; exact nomatch h
        | taken hq => exact hq
      cases hst with
      | dead h => rw [h] at hrun; exact nomatch hrun
      | noLink _ hp => exact stay (by rw [c1]) (by rw [c1]) (by rw [c1]) (c5 (fun e => nomatch e) (fun _ _ => hp)) c3
      | linkPoisoned _ hp =>
        have := none hp
        exact .dead (by rw [c1]) (by rw [c1]; simp [this]) (by rw [c1]; simp [this])
      | linkNowhere _ hp =>
        have := none hp
        exact .dead (by rw [c1]) (by rw [c1]; simp [this]) (by rw [c1]; simp [this])
      | linkFails _ hp =>
        have := none hp
        exact .dead (by rw [c1]) (by rw [c1]; simp [this]) (by rw [c1]; simp [this])
      | links _ hp =>
        have := none hp
        refine .idle (by rw [c1]) (by rw [c1]) (by rw [c1]; exact this) ?_
        rw [d5 hp oks rfl]
        omega

theorem calm_run {late : Nat} (hlate : 3 * late < 100) (xs : List TimedAction) (s : Clocked)
    (since : Nat) (hc : Calm late s since) (hp : Prompt late s since xs) {r}
    (h : timedRun s xs = some r) : ∃ since', Calm late r.2 since' := by
  induction xs generalizing s since r with
  | nil =>
    cases h
    exact ⟨since, hc⟩
  | cons x xs ih =>
    obtain ⟨a, b, h1, h2, rfl⟩ := timedRun_cons h
    have next := hp.2 a h1
    cases hrun : s.app.running with
    | false =>
      have e := (timedStep_app h1).1
      rw [dead_step _ _ hrun] at e
      have hd : ∀ since', Calm late a.2 since' := fun _ => by
        obtain ⟨l1, l2⟩ := calm_length hc
        exact .dead (by rw [e]; exact hrun) (by rw [e]; exact l1) (by rw [e]; exact l2)
      by_cases hi : s.app.pending = false ∧ s.app.queue = []
      · exact ih (r := b) a.2 _ (hd _) (next.2 hi) h2
      · have hb : s.app.pending = true ∨ s.app.queue ≠ [] := by
          cases hpe : s.app.pending with
          | true => exact .inl rfl
          | false => exact .inr (fun hq => hi ⟨hpe, hq⟩)
        exact ih (r := b) a.2 _ (hd _) (next.1 hb) h2
    | true =>
      by_cases hi : s.app.pending = false ∧ s.app.queue = []
      · exact ih (r := b) a.2 _ (calm_step_idle hlate hc hrun hi h1) (next.2 hi) h2
      · have hb : s.app.pending = true ∨ s.app.queue ≠ [] := by
          cases hpe : s.app.pending with
          | true => exact .inl rfl
          | false => exact .inr (fun hq => hi ⟨hpe, hq⟩)
        exact ih (r := b) a.2 _ (calm_step_busy hc hrun hb (hp.1 ⟨hrun, hb⟩) h1) (next.1 hb) h2

/-- C115: if the main thread is never late by more than 33 ms, then in every history at most two events
wait for it, and at most one once it has linked, however many players announce themselves however
often. -/
theorem C115_events_do_not_pile_up (late : Nat) (hl : 3 * late < 100) (xs : List TimedAction)
    (hp : Prompt late .start 0 xs) {o : List (Nat × Caster × Bytes × Ip4 × UInt16)} {s : Clocked}
    (h : timedRun .start xs = some (o, s)) :
    s.app.queue.length ≤ 2 ∧ (s.app.state.linking = true → s.app.queue.length ≤ 1) := by
  obtain ⟨_, hc⟩ := calm_run hl xs .start 0 (.fresh fresh_start) hp h
  exact calm_length hc

theorem example_heard (s : Clocked) (t : Nat) (hh : Healthy s.app)
    (hl : s.app.state.linking = false) (h1 : s.now ≤ t) (h2 : s.recvFree ≤ t) (h3 : s.lockFree ≤ t) :
    ∃ r, timedStep s ⟨t, .receive exampleInterfaces exampleDatagram, []⟩ = some r ∧
      Healthy r.2.app ∧ r.2.app.state.linking = false ∧ r.2.now ≤ t ∧ r.2.recvFree ≤ t + 250 ∧
      r.2.lockFree ≤ t ∧ s.app.queue.length + 1 ≤ r.2.app.queue.length := by
  have hp : possible s ⟨t, .receive exampleInterfaces exampleDatagram, []⟩ = true :=
    (possible_iff _ _).2 ⟨h1, h2, fun _ => h3⟩
  obtain ⟨r, hr⟩ : ∃ r, timedStep s ⟨t, .receive exampleInterfaces exampleDatagram, []⟩ = some r := by
    unfold timedStep
    rw [if_pos hp]
    exact ⟨_, rfl⟩
  obtain ⟨c1, c2, c3, c4, c5, c6⟩ := timedStep_cases hr
  obtain ⟨d1, d2, d3, d4, d5⟩ := timedStep_clocks hr
  dsimp only at c1 c3 d2
  have dl := d4 (fun _ e => nomatch e)
  have hst := stepTo s.app (.receive exampleInterfaces exampleDatagram)
  refine ⟨r, hr, ?_⟩
  have hm : ∀ {a}, Accepted exampleDatagram a → ∃ n, matchInterface a.ip exampleInterfaces = .ok n := by
    intro a ha
    obtain rfl := announcement_unique ha.1 exampleDatagram_accepted.1
    exact ⟨_, (firstMatch_iff _ _ _).1 exampleMatch⟩
  generalize (appStep s.app (.receive exampleInterfaces exampleDatagram)).1 = o at hst
  generalize (appStep s.app (.receive exampleInterfaces exampleDatagram)).2 = s' at hst c1
  cases hst with
  | dead h => have := hh.running; rw [h] at this; exact nomatch this
  | ignored hr h =>
    rcases h with h | h | h
    · have := hh.receiver; rw [h] at this; exact nomatch this
    · have := hh.lock; rw [h] at this; exact nomatch this
    · exact absurd exampleDatagram_accepted (h _)
  | macMissing _ ha' hm' =>
    obtain ⟨n, hn⟩ := hm ha'
    rw [hn] at hm'
    exact nomatch hm'
  | heard _ ha' hm' =>
    refine ⟨⟨by rw [c1]; exact hh.running, by rw [c1]; exact hh.receiver, by rw [c1]; exact hh.lock⟩,
      by rw [c1]; exact hl, by rw [d2]; exact Nat.le_refl _, by rw [c3]; exact Nat.le_refl _,
      by rw [dl]; exact h3, ?_⟩
    rw [c1]
    simp only [List.length_append, events_eq, hl, Bool.false_eq_true, if_false, List.length_cons,
      List.length_nil]
    omega

theorem example_heard_run (k : Nat) : ∀ (s : Clocked) (t : Nat), Healthy s.app →
    s.app.state.linking = false → s.now ≤ t → s.recvFree ≤ t → s.lockFree ≤ t →
    ∃ xs r, timedRun s xs = some r ∧ s.app.queue.length + k ≤ r.2.app.queue.length := by
  induction k with
  | zero => exact fun s _ _ _ _ _ _ => ⟨[], _, rfl, Nat.le_refl _⟩
  | succ k ih =>
    intro s t hh hl h1 h2 h3
    obtain ⟨r, e, g1, g2, g3, g4, g5, g6⟩ := example_heard s t hh hl h1 h2 h3
    obtain ⟨xs, r', e', g⟩ := ih r.2 (t + 250) g1 g2 (by omega) g4 (by omega)
    refine ⟨⟨t, .receive exampleInterfaces exampleDatagram, []⟩ :: xs, (r.1 ++ r'.1, r'.2), ?_, ?_⟩
    · simp only [timedRun, e, e', Option.bind_some]
    · dsimp only
      omega

/-- C115: this depends on the main thread being prompt: the channel has no bound.  One player that
announces itself again and again while the main thread does not run fills it with any number of
events. -/
theorem C115_no_bound_of_its_own (k : Nat) :
    ∃ xs o s, timedRun .start xs = some (o, s) ∧ k ≤ s.app.queue.length := by
  obtain ⟨xs, r, h, g⟩ := example_heard_run k .start 0 ⟨rfl, rfl, rfl⟩ rfl (Nat.le_refl _)
    (Nat.le_refl _) (Nat.le_refl _)
  exact ⟨xs, r.1, r.2, h, Nat.le_trans (Nat.le_add_left _ _) g⟩

/-- A player that announces itself twice, and another one. -/
def exampleTwoPlayers : List TimedAction :=
  [⟨0, .receive exampleInterfaces exampleDatagram, []⟩, ⟨34, .appRecv, []⟩, ⟨218, .appRecv, []⟩,
    ⟨250, .receive exampleInterfaces exampleDatagram, []⟩, ⟨252, .appLink [], []⟩,
    ⟨4202, .receive exampleInterfaces (exampleDatagram.set 47 8), []⟩]

/-- C115: 33 ms is the exact bound: the claim holds of a main thread that is never late by more than `late` ms exactly
if `late` is at most 33. -/
theorem C115_exact (late : Nat) : late ≤ 33 ↔ ∀ (xs : List TimedAction)
    (o : List (Nat × Caster × Bytes × Ip4 × UInt16)) (s : Clocked), Prompt late .start 0 xs →
      timedRun .start xs = some (o, s) →
      s.app.queue.length ≤ 2 ∧ (s.app.state.linking = true → s.app.queue.length ≤ 1) := by
  refine ⟨fun hl xs o s hp h => C115_events_do_not_pile_up late (by omega) xs hp h, fun h => ?_⟩
  refine Nat.le_of_not_lt fun hl => ?_
  have hr : (timedRun .start exampleTwoPlayers).map (fun r => (r.2.app.queue, r.2.app.state.linking)) =
      some ([.initiateLink, .deviceChange], true) := by decide +kernel
  obtain ⟨r, h1, h2⟩ := Option.map_eq_some_iff.1 hr
  have h3 := (h exampleTwoPlayers r.1 r.2 (prompt_mono (late := 34) hl _ _ _ (promptB_iff _ _ _ _ (by decide +kernel)))
    h1).2 (congrArg Prod.snd h2)
  rw [show r.2.app.queue = _ from congrArg Prod.fst h2] at h3
  exact absurd h3 (by decide)

/-! ## Non-vacuity -/

/-- A history in which two events wait at once. -/
example : Prompt 33 .start 0 [⟨0, .receive exampleInterfaces exampleDatagram, []⟩] ∧
    (timedRun .start [⟨0, .receive exampleInterfaces exampleDatagram, []⟩]).map
      (fun r => r.2.app.queue) = some [.deviceChange, .initiateLink] :=
  ⟨promptB_iff _ _ _ _ (by decide +kernel), by decide +kernel⟩

example (o : List (Nat × Caster × Bytes × Ip4 × UInt16)) (s : Clocked)
    (h : timedRun .start [⟨0, .receive exampleInterfaces exampleDatagram, []⟩] = some (o, s)) :=
  C115_events_do_not_pile_up 33 (by decide) [⟨0, .receive exampleInterfaces exampleDatagram, []⟩]
    (promptB_iff _ _ _ _ (by decide +kernel)) h

end PDJ

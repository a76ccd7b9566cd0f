import Verif.Props.Timed
import Verif.Spec.Presence

/-!
# Property C91, what does hold: how often presence is announced
-/

namespace PDJ

open Spec

theorem sentAt_eq (n t : Nat) (late : List Nat) : sentAt t late n = t + 100 * n + (late.take n).sum := by
  induction n generalizing t late with
  | zero => simp [sentAt]
  | succ n ih =>
    rw [sentAt, ih]
    cases late with
    | nil => simp; omega
    | cons a l => simp; omega

/-- The application goes on announcing itself. -/
theorem announcing_step {s s' : AppSystem} {x : AppAction} {o : List (Bytes × Ip4 × UInt16)} (h : StepTo s x o s')
    (ha : Announcing s) (hs : SocketsWork [x]) (hl : AllLocal [x]) : Announcing s' := by
  obtain ⟨⟨r1, r2, r3⟩, hb, hn⟩ := ha
  cases h with
  | dead h => rw [r1] at h; exact nomatch h
  | heard hh ha' hm =>
    obtain ⟨n, hn'⟩ := hl _ _ (List.mem_singleton.2 rfl) _ ha'
    rw [firstMatch_iff, hm] at hn'
    obtain rfl := Outcome.ok.inj hn'
    exact ⟨⟨r1, r2, r3⟩, hb, by simp [hear]⟩
  | macMissing hh ha' hm =>
    obtain ⟨n, hn'⟩ := hl _ _ (List.mem_singleton.2 rfl) _ ha'
    rw [firstMatch_iff, hm] at hn'
    exact nomatch hn'
  | broadcastFails => exact absurd (hs.1 _ (List.mem_singleton.2 rfl)) (by decide)
  | linkPoisoned _ _ hp => rw [r3] at hp; exact nomatch hp
  | linkNowhere _ _ _ hn' => exact absurd hn' hn
  | linkFails _ _ _ _ _ hf _ =>
    exact absurd (hs.2 _ (List.mem_singleton.2 rfl) _ (List.mem_of_getElem? hf)) (by decide)
  | _ => exact ⟨⟨r1, r2, r3⟩, hb, hn⟩

/-- The clocks after a step. -/
theorem clocks_step {s : Clocked} {x : TimedAction} {r} (h : timedStep s x = some r) :
    s.now ≤ x.time ∧ r.2.now = x.time ∧
    r.2.castFree = (match x.act with | .broadcast _ => x.time + 500 | _ => s.castFree) ∧
    ((∃ oks, x.act = .appLink oks ∧ s.app.pending = true ∧ s.appFree ≤ x.time ∧
        r.2.lockFree = x.time + 3950 + (x.late.take 39).sum ∧ r.2.appFree = r.2.lockFree + 150) ∨
      (r.2.lockFree = s.lockFree ∧ (s.appFree ≤ r.2.appFree ∨ s.appFree ≤ x.time ∧ x.time ≤ r.2.appFree))) := by
  obtain ⟨h1, h2, h3⟩ := (possible_iff s x).1 (timedStep_possible h)
  simp only [timedStep, timedStep_possible h, if_true, Option.some.injEq] at h
  subst h
  obtain ⟨t, act, late⟩ := x
  cases act with
  | receive i d => exact ⟨h1, rfl, rfl, .inr ⟨rfl, .inl (Nat.le_refl _)⟩⟩
  | broadcast ok => exact ⟨h1, rfl, rfl, .inr ⟨rfl, .inl (Nat.le_refl _)⟩⟩
  | appRecv =>
    refine ⟨h1, ?_, ?_, .inr ?_⟩
    · dsimp only; split <;> rfl
    · dsimp only; split <;> rfl
    · dsimp only
      simp only [wakes] at h2
      split
      · refine ⟨rfl, .inr ⟨h2, ?_⟩⟩
        dsimp only
        split <;> omega
      · exact ⟨rfl, .inl (Nat.le_refl _)⟩
  | appLink oks =>
    refine ⟨h1, ?_, ?_, ?_⟩
    · dsimp only; split <;> rfl
    · dsimp only; split <;> rfl
    · simp only [wakes] at h2
      cases hp : s.app.pending with
      | false => exact .inr ⟨by simp, .inl (by simp)⟩
      | true =>
        refine .inl ⟨oks, rfl, rfl, h2, ?_, ?_⟩
        · simp only [if_true, negotiationEnd, sentAt_eq]; omega
        · simp only [if_true]

/-- The clocks fit together. -/
structure Clocks (L : Nat) (s : Clocked) : Prop where
  cast : s.castFree ≤ s.now + 500
  lock : s.lockFree ≤ s.now + L
  main : s.lockFree = 0 ∨ s.lockFree + 150 ≤ s.appFree

theorem clocks_keep {L : Nat} {s : Clocked} {x : TimedAction} {r} (h : timedStep s x = some r) (hc : Clocks L s)
    (hx : 3950 + (x.late.take 39).sum ≤ L) : Clocks L r.2 := by
  obtain ⟨h1, h2, h3, h4⟩ := clocks_step h
  obtain ⟨c1, c2, c3⟩ := hc
  refine ⟨?_, ?_, ?_⟩
  · rw [h2, h3]
    split
    · exact Nat.le_refl _
    · omega
  · rw [h2]
    rcases h4 with ⟨_, _, _, _, h4, _⟩ | ⟨h4, _⟩ <;> omega
  · rcases h4 with ⟨_, _, _, _, _, h4⟩ | ⟨h4, h5⟩
    · exact .inr (by omega)
    · rw [h4]
      rcases c3 with c3 | c3
      · exact .inl c3
      · exact .inr (by omega)

theorem clocks_run {L : Nat} (xs : List TimedAction) (s : Clocked) {r} (h : timedRun s xs = some r) (hc : Clocks L s)
    (hx : Lasting L xs) : Clocks L r.2 := by
  induction xs generalizing s r with
  | nil => cases h; exact hc
  | cons x xs ih =>
    obtain ⟨a, b, h1, h2, rfl⟩ := timedRun_cons h
    show Clocks L b.2
    exact ih _ h2 (clocks_keep h1 hc (hx x List.mem_cons_self)) fun y hy => hx y (List.mem_cons_of_mem _ hy)

/-- An iteration of the broadcaster of a process that announces itself. -/
theorem cast_step {s : Clocked} {x : TimedAction} {r} (h : timedStep s x = some r) (ha : Announcing s.app) (ok : Bool)
    (hx : x.act = .broadcast ok) (hs : SocketsWork [x.act]) : ∃ d, r.1 = [d] ∧ IsPresence d ∧ d.1 = x.time := by
  simp only [timedStep, timedStep_possible h, if_true, Option.some.injEq] at h
  subst h
  obtain ⟨t, act, late⟩ := x
  subst hx
  obtain ⟨⟨r1, r2, r3⟩, hb, hn⟩ := ha
  have hok : ok = true := hs.1 _ (List.mem_singleton.2 rfl)
  subst hok
  obtain ⟨n, hn'⟩ := Option.ne_none_iff_exists'.1 hn
  have hst := C53_announcement s.app r1 hb r3
  rw [hn'] at hst
  simp only [hst]
  exact ⟨_, rfl, ⟨rfl, n, rfl⟩, rfl⟩

theorem sockets_head {x : TimedAction} {xs : List TimedAction} (h : SocketsWork ((x :: xs).map TimedAction.act)) :
    SocketsWork [x.act] ∧ SocketsWork (xs.map TimedAction.act) := socketsWork_append (xs := [x.act]) h

theorem local_head {x : TimedAction} {xs : List TimedAction} (h : AllLocal ((x :: xs).map TimedAction.act)) :
    AllLocal [x.act] ∧ AllLocal (xs.map TimedAction.act) := allLocal_append (xs := [x.act]) h

theorem gap_run (late L A B : Nat) (hlate : late < 150) (xs : List TimedAction) (s : Clocked) (ha : Announcing s.app)
    (hc : Clocks L s) (hA : A ≤ s.now) (hB : s.now ≤ B)
    (hd : (s.castFree + 2 * late + L ≤ B ∧ s.lockFree + late ≤ B) ∨
      (s.castFree ≤ s.lockFree ∧ s.lockFree + late ≤ B ∧ s.lockFree + 150 ≤ s.appFree))
    (hp : PromptCaster late s xs) (hL : Lasting L xs) (hs : SocketsWork (xs.map TimedAction.act))
    (hl : AllLocal (xs.map TimedAction.act)) {r} (h : timedRun s xs = some r) (hr : B < r.2.now) :
    ∃ d ∈ r.1, IsPresence d ∧ A ≤ d.1 ∧ d.1 ≤ B := by
  induction xs generalizing s r with
  | nil => cases h; exact absurd hB (Nat.not_le.2 hr)
  | cons x xs ih =>
    obtain ⟨a, b, h1, h2, rfl⟩ := timedRun_cons h
    obtain ⟨hp1, hp2⟩ := hp
    obtain ⟨hs1, hs2⟩ := sockets_head hs
    obtain ⟨hl1, hl2⟩ := local_head hl
    have hLx := hL x List.mem_cons_self
    have hxB : x.time ≤ B := by
      rcases hd with ⟨d1, d2⟩ | ⟨d1, d2, d3⟩ <;> omega
    cases hact : x.act with
    | broadcast ok =>
      obtain ⟨d, hd1, hd2, hd3⟩ := cast_step h1 ha ok hact hs1
      exact ⟨d, by simp [hd1], hd2, by have := (clocks_step h1).1; omega, by omega⟩
    | _ =>
      obtain ⟨e1, e2, e3, e4⟩ := clocks_step h1
      rw [hact] at e3
      simp only at e3
      have ha' : Announcing a.2.app := by
        rw [(timedStep_app h1).1]
        exact announcing_step (stepTo s.app x.act) ha hs1 hl1
      obtain ⟨c1, c2, c3⟩ := hc
      obtain ⟨d, hd1, hd2⟩ := ih a.2 ha' (clocks_keep h1 ⟨c1, c2, c3⟩ hLx) (by omega) (by omega)
        (by
          rcases e4 with ⟨_, _, _, e4, e5, e6⟩ | ⟨e4, e5⟩
          · refine .inr ⟨by omega, ?_, by omega⟩
            rcases hd with ⟨d1, d2⟩ | ⟨d1, d2, d3⟩
            · by_cases hlc : s.lockFree ≤ s.castFree
              · omega
              · omega
            · omega
          · rcases hd with ⟨d1, d2⟩ | ⟨d1, d2, d3⟩
            · exact .inl (by omega)
            · exact .inr (by omega))
        (hp2 _ h1) (fun y hy => hL y (List.mem_cons_of_mem _ hy)) hs2 hl2 h2 hr
      exact ⟨d, List.mem_append_right _ hd1, hd2⟩

/-- C91, what does hold: if the broadcaster is never late by more than `late` < 150 ms and no negotiation lasts longer
than `L` ms, then from any moment at which the process announces itself, the next announcement comes within
`500 + L + 2 * late` ms, in every history that goes on for so long, with working sockets and players on local networks. -/
theorem C91_gap_partial (late L : Nat) (hlate : late < 150) (pre post : List TimedAction)
    {o₁ o₂ : List (Nat × Caster × Bytes × Ip4 × UInt16)} {s₁ s₂ : Clocked} (h₁ : timedRun .start pre = some (o₁, s₁))
    (h₂ : timedRun s₁ post = some (o₂, s₂)) (ha : Announcing s₁.app) (hL : Lasting L (pre ++ post))
    (hp : PromptCaster late s₁ post) (hs : SocketsWork (post.map TimedAction.act))
    (hl : AllLocal (post.map TimedAction.act)) (hr : s₁.now + 500 + L + 2 * late < s₂.now) :
    ∃ d ∈ o₂, IsPresence d ∧ s₁.now ≤ d.1 ∧ d.1 ≤ s₁.now + 500 + L + 2 * late := by
  have hc : Clocks L s₁ := clocks_run pre .start h₁ ⟨by decide, Nat.zero_le _, .inl rfl⟩
    fun x hx => hL x (List.mem_append_left _ hx)
  exact gap_run late L s₁.now (s₁.now + 500 + L + 2 * late) hlate post s₁ ha hc (Nat.le_refl _) (by omega)
    (.inl ⟨by have := hc.cast; omega, by have := hc.lock; omega⟩) hp
    (fun x hx => hL x (List.mem_append_right _ hx)) hs hl h₂ hr

theorem presenceTimes_append (a b : List (Nat × Caster × Bytes × Ip4 × UInt16)) :
    presenceTimes (a ++ b) = presenceTimes a ++ presenceTimes b := by
  simp [presenceTimes]

theorem rate_run (late A e : Nat) (xs : List TimedAction) (s : Clocked) (ha : Announcing s.app) (hA : A ≤ s.now)
    (hB : s.now ≤ max s.castFree s.lockFree + late) (hn : ∀ x ∈ xs, ∀ oks, x.act ≠ .appLink oks)
    (hp : PromptCaster late s xs) (hs : SocketsWork (xs.map TimedAction.act))
    (hl : AllLocal (xs.map TimedAction.act)) {r} (h : timedRun s xs = some r) (hr : e ≤ r.2.now) :
    (e + (500 + late) - 1 - (max s.castFree s.lockFree + late)) / (500 + late) ≤
      ((presenceTimes r.1).filter fun t => decide (A ≤ t) && decide (t < e)).length := by
  induction xs generalizing s r with
  | nil =>
    cases h
    rw [Nat.div_eq_of_lt (by simp only at hr; omega)]
    exact Nat.zero_le _
  | cons x xs ih =>
    obtain ⟨a, b, h1, h2, rfl⟩ := timedRun_cons h
    obtain ⟨hp1, hp2⟩ := hp
    obtain ⟨hs1, hs2⟩ := sockets_head hs
    obtain ⟨hl1, hl2⟩ := local_head hl
    obtain ⟨e1, e2, e3, e4⟩ := clocks_step h1
    have hlock : a.2.lockFree = s.lockFree := by
      rcases e4 with ⟨oks, e4, _⟩ | ⟨e4, _⟩
      · exact absurd e4 (hn x List.mem_cons_self oks)
      · exact e4
    have ha' : Announcing a.2.app := by
      rw [(timedStep_app h1).1]
      exact announcing_step (stepTo s.app x.act) ha hs1 hl1
    have hn' : ∀ y ∈ xs, ∀ oks, y.act ≠ .appLink oks := fun y hy => hn y (List.mem_cons_of_mem _ hy)
    rw [presenceTimes_append, List.filter_append, List.length_append]
    by_cases hact : ∃ ok, x.act = .broadcast ok
    · obtain ⟨ok, hact⟩ := hact
      obtain ⟨d, hd1, hd2, hd3⟩ := cast_step h1 ha ok hact hs1
      have hlf : s.lockFree ≤ x.time := by
        have := ((possible_iff s x).1 (timedStep_possible h1)).2.2
        rw [hact] at this
        simpa [usesLock] using this
      rw [hact] at e3
      simp only at e3
      have hi := ih a.2 ha' (by omega) (by omega) hn' (hp2 _ h1) hs2 hl2 h2 hr
      rw [hd1, show presenceTimes [d] = [x.time] by simp [presenceTimes, hd2.1, hd3]]
      by_cases hxe : x.time < e
      · rw [show [x.time].filter (fun t => decide (A ≤ t) && decide (t < e)) = [x.time] by
          simp only [List.filter_cons, List.filter_nil]
          rw [if_pos]
          simp only [Bool.and_eq_true, decide_eq_true_eq]
          omega]
        refine Nat.le_trans ?_ (Nat.add_le_add_left hi 1)
        rw [show 1 + (e + (500 + late) - 1 - (max a.2.castFree a.2.lockFree + late)) / (500 + late) =
          ((e + (500 + late) - 1 - (max a.2.castFree a.2.lockFree + late)) + (500 + late)) / (500 + late) by
            rw [Nat.add_div_right _ (by omega)]; omega]
        exact Nat.div_le_div_right (by omega)
      · rw [Nat.div_eq_of_lt (by omega)]
        exact Nat.zero_le _
    · have e3' : a.2.castFree = s.castFree := by
        rw [e3]
        split
        · exact absurd ⟨_, by assumption⟩ hact
        · rfl
      have hi := ih a.2 ha' (by omega) (by rw [e3', hlock]; omega) hn' (hp2 _ h1) hs2 hl2 h2 hr
      rw [e3', hlock] at hi
      omega

theorem cast_clock (xs : List TimedAction) (s : Clocked) {r} (h : timedRun s xs = some r)
    (hc : s.castFree ≤ s.now + 500) : r.2.castFree ≤ r.2.now + 500 := by
  induction xs generalizing s r with
  | nil => cases h; exact hc
  | cons x xs ih =>
    obtain ⟨a, b, h1, h2, rfl⟩ := timedRun_cons h
    show b.2.castFree ≤ b.2.now + 500
    refine ih _ h2 ?_
    obtain ⟨e1, e2, e3, -⟩ := clocks_step h1
    rw [e2, e3]
    split
    · exact Nat.le_refl _
    · omega

/-- C91, what does hold: with a broadcaster that is never late by more than `late` ms, in every `T` ms in which no
negotiation begins (and one under way ends within 500 ms), presence is announced at least once for every `500 + late`
ms. -/
theorem C91_rate_partial (late T : Nat) (pre post : List TimedAction)
    {o₁ o₂ : List (Nat × Caster × Bytes × Ip4 × UInt16)} {s₁ s₂ : Clocked} (h₁ : timedRun .start pre = some (o₁, s₁))
    (h₂ : timedRun s₁ post = some (o₂, s₂)) (ha : Announcing s₁.app) (hfree : s₁.lockFree ≤ s₁.now + 500)
    (hn : ∀ x ∈ post, ∀ oks, x.act ≠ .appLink oks) (hp : PromptCaster late s₁ post)
    (hs : SocketsWork (post.map TimedAction.act)) (hl : AllLocal (post.map TimedAction.act))
    (hr : s₁.now + T < s₂.now) :
    T / (500 + late) ≤ ((presenceTimes o₂).filter (Within s₁.now (T + 1))).length := by
  have hc := cast_clock pre .start h₁ (by decide)
  have hB : s₁.now ≤ max s₁.castFree s₁.lockFree + late := by
    cases post with
    | nil => cases h₂; omega
    | cons x xs =>
      obtain ⟨a, b, h1, h2, -⟩ := timedRun_cons h₂
      have := (clocks_step h1).1
      have := hp.1
      omega
  have h := rate_run late s₁.now (s₁.now + (T + 1)) post s₁ ha (Nat.le_refl _) hB hn hp hs hl h₂ (by simp only; omega)
  refine Nat.le_trans (Nat.div_le_div_right ?_) h
  simp only at hc
  omega

/-- The broadcaster is prompt, as a computation. -/
def promptCasterB (late : Nat) : Clocked → List TimedAction → Bool
  | _, [] => true
  | s, x :: xs => decide (x.time ≤ max s.castFree s.lockFree + late) &&
    match timedStep s x with
    | some r => promptCasterB late r.2 xs
    | none => true

theorem promptCasterB_sound (late : Nat) (xs : List TimedAction) : ∀ s, promptCasterB late s xs = true →
    PromptCaster late s xs := by
  induction xs with
  | nil => intro _ _; trivial
  | cons x xs ih =>
    intro s h
    simp only [promptCasterB, Bool.and_eq_true, decide_eq_true_eq] at h
    refine ⟨h.1, fun r hr => ?_⟩
    rw [hr] at h
    exact ih _ h.2

/-- A player is heard, the link is negotiated, and presence announced four times; the broadcaster is late by 30 ms. -/
def examplePresence : List TimedAction :=
  [⟨200, .appRecv, []⟩, ⟨200, .appLink [], []⟩, ⟨4180, .broadcast true, []⟩, ⟨4710, .broadcast true, []⟩,
    ⟨5240, .broadcast true, []⟩, ⟨5770, .broadcast true, []⟩]

/-- What happened before it. -/
def examplePlayerHeard : List TimedAction :=
  [⟨0, .broadcast true, []⟩, ⟨10, .receive exampleInterfaces exampleDatagram, []⟩, ⟨10, .appRecv, []⟩]

/-- C91_gap_partial: the first announcement comes within 4510 ms of the moment the player is heard. -/
example : ∃ o₁ s₁ o₂ s₂, timedRun .start examplePlayerHeard = some (o₁, s₁) ∧ timedRun s₁ examplePresence = some (o₂, s₂) ∧
    ∃ d ∈ o₂, IsPresence d ∧ s₁.now ≤ d.1 ∧ d.1 ≤ s₁.now + 500 + 3950 + 2 * 30 := by
  have h : ((timedRun .start examplePlayerHeard).bind fun r => (timedRun r.2 examplePresence).map fun q =>
      ([promptCasterB 30 r.2 examplePresence, r.2.app.running, r.2.app.receiver, r.2.app.poisoned,
        r.2.app.broadcaster, r.2.app.state.address.isSome], [r.2.now, q.2.now])) =
      some ([true, true, true, false, true, true], [10, 5770]) := by decide +kernel
  obtain ⟨r, h1, h2⟩ := Option.bind_eq_some_iff.1 h
  obtain ⟨q, h3, h4⟩ := Option.map_eq_some_iff.1 h2
  simp only [Prod.mk.injEq, List.cons.injEq, and_true] at h4
  obtain ⟨⟨k1, k2, k3, k4, k5, k6⟩, k7, k8⟩ := h4
  refine ⟨r.1, r.2, q.1, q.2, h1, h3, C91_gap_partial 30 3950 (by decide) _ _ h1 h3
    ⟨⟨k2, k3, k4⟩, k5, fun hn => by rw [hn] at k6; exact nomatch k6⟩ ?_ (promptCasterB_sound _ _ _ k1) ?_ ?_ (by omega)⟩
  · simp [Lasting, examplePlayerHeard, examplePresence]
  · exact ⟨by simp [examplePresence], by simp [examplePresence]⟩
  · intro i d hd
    simp [examplePresence] at hd

/-- C91_rate_partial: after the negotiation, twice in 1060 ms. -/
example : ∃ o₁ s₁ o₂ s₂, timedRun .start (examplePlayerHeard ++ examplePresence.take 3) = some (o₁, s₁) ∧
    timedRun s₁ (examplePresence.drop 3) = some (o₂, s₂) ∧
    1060 / (500 + 30) ≤ ((presenceTimes o₂).filter (Within s₁.now (1060 + 1))).length := by
  have h : ((timedRun .start (examplePlayerHeard ++ examplePresence.take 3)).bind fun r =>
      (timedRun r.2 (examplePresence.drop 3)).map fun q =>
      ([promptCasterB 30 r.2 (examplePresence.drop 3), r.2.app.running, r.2.app.receiver, r.2.app.poisoned,
        r.2.app.broadcaster, r.2.app.state.address.isSome], [r.2.now, r.2.lockFree, q.2.now])) =
      some ([true, true, true, false, true, true], [4180, 4150, 5770]) := by decide +kernel
  obtain ⟨r, h1, h2⟩ := Option.bind_eq_some_iff.1 h
  obtain ⟨q, h3, h4⟩ := Option.map_eq_some_iff.1 h2
  simp only [Prod.mk.injEq, List.cons.injEq, and_true] at h4
  obtain ⟨⟨k1, k2, k3, k4, k5, k6⟩, k7, k8, k9⟩ := h4
  refine ⟨r.1, r.2, q.1, q.2, h1, h3, C91_rate_partial 30 1060 _ _ h1 h3
    ⟨⟨k2, k3, k4⟩, k5, fun hn => by rw [hn] at k6; exact nomatch k6⟩ (by omega) ?_ (promptCasterB_sound _ _ _ k1) ?_ ?_
    (by omega)⟩
  · simp [examplePresence]
  · exact ⟨by simp [examplePresence], by simp [examplePresence]⟩
  · intro i d hd
    simp [examplePresence] at hd

end PDJ

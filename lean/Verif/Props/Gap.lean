import Verif.Props.Presence

/-!
# Property C91, what does hold: the bound on how late the broadcaster may be is exact
-/

namespace PDJ

open Spec

/-- A player announces itself every 500 ms, and the broadcaster is on time; the main thread does not act. -/
def heardOften (ifaces : List Interface) (d : Bytes) (t : Nat) : Nat → List TimedAction
  | 0 => []
  | k + 1 => ⟨t, .broadcast true, []⟩ :: ⟨t, .receive ifaces d, []⟩ :: heardOften ifaces d (t + 500) k

/-- The main thread negotiates again and again, without delay. -/
def linksOften (t : Nat) : Nat → List TimedAction
  | 0 => []
  | k + 1 => ⟨t, .appRecv, []⟩ :: ⟨t, .appLink [], []⟩ :: linksOften (t + 4100) k

theorem queued_more {d : Bytes} {a : Announcement} (ha : Accepted d a) {ifaces : List Interface} {n : PioneerNetwork}
    (hn : FirstMatch ifaces a.ip n) (q : List AppEvent) :
    appStep (queued n a false q) (.receive ifaces d) = ([], queued n a false (q ++ [.initiateLink])) := by
  show ([], receiveStep ifaces d (queued n a false q)) = _
  rw [receive_accepted ha, (firstMatch_iff _ _ _).1 hn]
  have hst : hear (some n) a (queued n a false q).state = (queued n a false q).state := by
    have hp : addOrUpdate (Player.new a.model a.number a.ip) [Player.new a.model a.number a.ip] =
        [Player.new a.model a.number a.ip] := by
      unfold addOrUpdate
      rw [if_pos rfl]
      rfl
    show ServerState.mk false false false (some n) (addOrUpdate (Player.new a.model a.number a.ip)
      [Player.new a.model a.number a.ip]) = _
    rw [hp]
    rfl
  have hev : events (queued n a false q).state (hear (some n) a (queued n a false q).state) = [.initiateLink] := by
    rw [events_eq, if_pos]
    · rfl
    · exact List.mem_singleton.2 rfl
  show ([], { queued n a false q with
    state := hear (some n) a (queued n a false q).state
    queue := q ++ events (queued n a false q).state (hear (some n) a (queued n a false q).state) }) = _
  rw [hev, hst]
  rfl

theorem queued_first {d : Bytes} {a : Announcement} (ha : Accepted d a) {ifaces : List Interface} {n : PioneerNetwork}
    (hn : FirstMatch ifaces a.ip n) :
    appStep .start (.receive ifaces d) = ([], queued n a false [.deviceChange, .initiateLink]) := by
  show ([], receiveStep ifaces d .start) = _
  rw [receive_accepted ha, (firstMatch_iff _ _ _).1 hn]
  rfl

theorem queued_cast (n : PioneerNetwork) (a : Announcement) (l : Bool) (q : List AppEvent) :
    (appStep (queued n a l q) (.broadcast true)).2 = queued n a l q := rfl

theorem queued_take (n : PioneerNetwork) (a : Announcement) (l : Bool) (q : List AppEvent) :
    appStep (queued n a l (.initiateLink :: q)) .appRecv = ([], { queued n a l q with pending := true }) := rfl

theorem queued_link (n : PioneerNetwork) (a : Announcement) (l : Bool) (q : List AppEvent) :
    (appStep { queued n a l q with pending := true } (.appLink [])).2 = queued n a true q := by
  have hs := stepTo { queued n a l q with pending := true } (.appLink [])
  generalize (appStep { queued n a l q with pending := true } (.appLink [])).2 = s' at hs
  generalize (appStep { queued n a l q with pending := true } (.appLink [])).1 = o at hs
  cases hs with
  | dead h => exact nomatch h
  | noLink _ h => exact nomatch h
  | linkPoisoned _ _ h => exact nomatch h
  | linkNowhere _ _ _ h => exact absurd h (by simp [queued, hear])
  | links => rfl
  | linkFails _ _ _ _ _ hf => simp at hf

/-- The player is heard often. -/
theorem heardOften_run {d : Bytes} {a : Announcement} (ha : Accepted d a) {ifaces : List Interface} {n : PioneerNetwork}
    (hn : FirstMatch ifaces a.ip n) (late k t : Nat) (q : List AppEvent) (s : Clocked) (happ : s.app = queued n a false q)
    (h1 : s.now ≤ t) (h2 : s.recvFree ≤ t) (h3 : s.castFree = t) (h4 : s.lockFree = 0) :
    ∃ o s', timedRun s (heardOften ifaces d t k) = some (o, s') ∧ PromptCaster late s (heardOften ifaces d t k) ∧
      s'.app = queued n a false (q ++ List.replicate k .initiateLink) ∧ s'.now ≤ t + 500 * k ∧
      s'.recvFree ≤ t + 500 * k ∧ s'.castFree = t + 500 * k ∧ s'.lockFree = 0 ∧ s'.appFree = s.appFree := by
  induction k generalizing t q s with
  | zero => exact ⟨[], s, rfl, trivial, by simp [happ], by omega, by omega, by omega, h4, rfl⟩
  | succ k ih =>
    obtain ⟨r1, hr1⟩ : ∃ r, timedStep s ⟨t, .broadcast true, []⟩ = some r := by
      rw [timedStep, if_pos]
      · exact ⟨_, rfl⟩
      · rw [possible_iff]; exact ⟨h1, by simp [wakes, h3], by simp [h4]⟩
    have hr1' := hr1
    rw [timedStep, if_pos (timedStep_possible hr1)] at hr1'
    simp only [Option.some.injEq] at hr1'
    obtain ⟨r2, hr2⟩ : ∃ r, timedStep r1.2 ⟨t, .receive ifaces d, []⟩ = some r := by
      rw [timedStep, if_pos]
      · exact ⟨_, rfl⟩
      · rw [possible_iff, ← hr1']; exact ⟨Nat.le_refl _, by simpa [wakes] using h2, by simp [h4]⟩
    have hr2' := hr2
    rw [timedStep, if_pos (timedStep_possible hr2)] at hr2'
    simp only [Option.some.injEq] at hr2'
    have hq : r2.2.app = queued n a false (q ++ [.initiateLink]) := by
      rw [← hr2', ← hr1']
      show (appStep (appStep s.app (.broadcast true)).2 (.receive ifaces d)).2 = _
      rw [happ, queued_cast, queued_more ha hn]
    obtain ⟨o, s', i1, i2, i3, i4, i5, i6, i7, i8⟩ := ih (t + 500) (q ++ [.initiateLink]) r2.2 hq
      (by rw [← hr2']; show t ≤ _; omega) (by rw [← hr2']; show t + 250 ≤ _; omega)
      (by rw [← hr2', ← hr1']) (by rw [← hr2', ← hr1']; exact h4)
    refine ⟨r1.1 ++ (r2.1 ++ o), s', ?_, ?_, ?_, by omega, by omega, by omega, i7, ?_⟩
    · simp only [heardOften, timedRun, hr1, hr2, i1, Option.bind_some]
    · refine ⟨by simp only; omega, fun r hr => ?_⟩
      obtain rfl := Option.some.inj (hr1.symm.trans hr)
      refine ⟨by rw [← hr1']; simp only; omega, fun r hr => ?_⟩
      obtain rfl := Option.some.inj (hr2.symm.trans hr)
      exact i2
    · rw [i3, List.append_assoc]; rfl
    · rw [i8, ← hr2', ← hr1']

/-- The main thread negotiates again and again, and the broadcaster comes too late every time. -/
theorem linksOften_run (n : PioneerNetwork) (a : Announcement) (late : Nat) (hl : 150 ≤ late) (k t : Nat) (l : Bool)
    (s : Clocked) (happ : s.app = queued n a l (List.replicate k .initiateLink)) (h1 : s.now ≤ t) (h2 : s.appFree ≤ t)
    (h3 : t ≤ max s.castFree s.lockFree + late) (h4 : s.lockFree ≤ t) :
    ∃ o s', timedRun s (linksOften t k) = some (o, s') ∧ PromptCaster late s (linksOften t k) ∧
      (∀ d ∈ o, d.2.1 = .main) ∧ (0 < k → s'.now = t + 4100 * (k - 1)) := by
  induction k generalizing t l s with
  | zero => exact ⟨[], s, rfl, trivial, by simp, fun h => absurd h (by decide)⟩
  | succ k ih =>
    obtain ⟨r1, hr1⟩ : ∃ r, timedStep s ⟨t, .appRecv, []⟩ = some r := by
      rw [timedStep, if_pos]
      · exact ⟨_, rfl⟩
      · rw [possible_iff]; exact ⟨h1, by simpa [wakes] using h2, by simp [h4]⟩
    have hr1' := hr1
    rw [timedStep, if_pos (timedStep_possible hr1)] at hr1'
    rw [List.replicate_succ] at happ
    simp only [Option.some.injEq, happ, queued_take] at hr1'
    rw [if_pos ⟨rfl, by simp [queued]⟩, if_pos trivial] at hr1'
    obtain ⟨r2, hr2⟩ : ∃ r, timedStep r1.2 ⟨t, .appLink [], []⟩ = some r := by
      rw [timedStep, if_pos]
      · exact ⟨_, rfl⟩
      · rw [possible_iff, ← hr1']; exact ⟨Nat.le_refl _, Nat.le_refl _, by simp [h4]⟩
    have hr2' := hr2
    rw [timedStep, if_pos (timedStep_possible hr2)] at hr2'
    simp only [Option.some.injEq] at hr2'
    rw [if_pos (by rw [← hr1'])] at hr2'
    have hend : negotiationEnd t [] = t + 3950 := by rw [negotiationEnd, sentAt_eq]; simp
    have hq : r2.2.app = queued n a true (List.replicate k .initiateLink) := by
      rw [← hr2', ← hr1']
      exact queued_link _ _ _ _
    have hf : r2.2.now = t ∧ r2.2.appFree = t + 4100 ∧ r2.2.lockFree = t + 3950 := by
      rw [← hr2']; exact ⟨rfl, by simp only [hend], hend⟩
    obtain ⟨o, s', i1, i2, i3, i4⟩ := ih (t + 4100) true r2.2 hq (by omega) (by omega) (by omega) (by omega)
    refine ⟨r1.1 ++ (r2.1 ++ o), s', ?_, ?_, ?_, fun _ => ?_⟩
    · simp only [linksOften, timedRun, hr1, hr2, i1, Option.bind_some]
    · refine ⟨h3, fun r hr => ?_⟩
      obtain rfl := Option.some.inj (hr1.symm.trans hr)
      refine ⟨by rw [← hr1']; exact h3, fun r hr => ?_⟩
      obtain rfl := Option.some.inj (hr2.symm.trans hr)
      exact i2
    · intro d hd
      rw [← hr1', ← hr2'] at hd
      simp only [List.nil_append, List.mem_append, List.mem_map] at hd
      rcases hd with ⟨e, -, rfl⟩ | hd
      · rfl
      · exact i3 d hd
    · cases k with
      | zero =>
        simp only [linksOften, timedRun, Option.some.injEq, Prod.mk.injEq] at i1
        rw [← i1.2, hf.1]
        omega
      | succ k =>
        rw [i4 (Nat.succ_pos _)]
        simp only [Nat.add_sub_cancel]
        omega

theorem timedRun_join {s : Clocked} {xs ys : List TimedAction} {r₁ r₂} (h₁ : timedRun s xs = some r₁)
    (h₂ : timedRun r₁.2 ys = some r₂) : timedRun s (xs ++ ys) = some (r₁.1 ++ r₂.1, r₂.2) := by
  induction xs generalizing s r₁ with
  | nil => cases h₁; exact h₂
  | cons x xs ih =>
    obtain ⟨a, b, e1, e2, rfl⟩ := timedRun_cons h₁
    simp only [List.cons_append, timedRun, e1, Option.bind_some, ih e2 h₂, List.append_assoc]

theorem promptCaster_append (late : Nat) (xs ys : List TimedAction) (s : Clocked) {r} (h : timedRun s xs = some r)
    (hx : PromptCaster late s xs) (hy : PromptCaster late r.2 ys) : PromptCaster late s (xs ++ ys) := by
  induction xs generalizing s r with
  | nil => cases h; exact hy
  | cons x xs ih =>
    obtain ⟨a, b, h1, h2, rfl⟩ := timedRun_cons h
    refine ⟨hx.1, fun q hq => ?_⟩
    obtain rfl := Option.some.inj (h1.symm.trans hq)
    exact ih _ h2 (hx.2 _ h1) hy

theorem heardOften_late (ifaces : List Interface) (d : Bytes) (t k : Nat) :
    ∀ x ∈ heardOften ifaces d t k, x.late = [] := by
  induction k generalizing t with
  | zero => simp [heardOften]
  | succ k ih =>
    intro x hx
    simp only [heardOften, List.mem_cons] at hx
    rcases hx with rfl | rfl | hx
    · rfl
    · rfl
    · exact ih _ x hx

theorem linksOften_acts (t k : Nat) :
    ∀ x ∈ linksOften t k, x.late = [] ∧ (x.act = .appRecv ∨ x.act = .appLink []) := by
  induction k generalizing t with
  | zero => simp [linksOften]
  | succ k ih =>
    intro x hx
    simp only [linksOften, List.mem_cons] at hx
    rcases hx with rfl | rfl | hx
    · exact ⟨rfl, .inl rfl⟩
    · exact ⟨rfl, .inr rfl⟩
    · exact ih _ x hx

/-- Any number of link requests wait for the main thread, the broadcaster being on time; presence has just been
announced. -/
theorem backlogged (late k : Nat) : ∃ pre o t s₁, timedRun .start pre = some (o, s₁) ∧ PromptCaster late .start pre ∧
    (∀ x ∈ pre, x.late = []) ∧
    s₁.app = queued exampleNetwork exampleAnnouncement false (List.replicate (k + 1) .initiateLink) ∧
    s₁.now = t ∧ s₁.castFree = t + 500 ∧ s₁.appFree = t + 150 ∧ s₁.lockFree = 0 := by
  let s₀ : Clocked := ⟨queued exampleNetwork exampleAnnouncement false [.deviceChange, .initiateLink], 0, 250, 500, 0, 0⟩
  have h0 : timedRun .start (heardOften exampleInterfaces exampleDatagram 0 1) = some ([], s₀) := by
    have h1 : timedStep .start ⟨0, .broadcast true, []⟩ = some ([], ⟨.start, 0, 0, 500, 0, 0⟩) := rfl
    have h2 : timedStep ⟨.start, 0, 0, 500, 0, 0⟩ ⟨0, .receive exampleInterfaces exampleDatagram, []⟩ =
        some ([], s₀) := by
      rw [timedStep, if_pos (by decide)]
      simp only [queued_first exampleDatagram_accepted exampleMatch]
      rfl
    simp only [heardOften, timedRun, h1, h2, Option.bind_some]
    rfl
  have p0 : PromptCaster late .start (heardOften exampleInterfaces exampleDatagram 0 1) :=
    ⟨Nat.zero_le _, fun _ _ => ⟨Nat.zero_le _, fun _ _ => trivial⟩⟩
  obtain ⟨o, s, e1, e2, e3, e4, e5, e6, e7, e8⟩ := heardOften_run exampleDatagram_accepted exampleMatch late k 500
    [.deviceChange, .initiateLink] s₀ rfl (by decide) (by decide) rfl rfl
  have e8' : s.appFree = 0 := e8
  let t := 500 + 500 * k
  let s' : Clocked := { s with now := t, castFree := t + 500 }
  let s₁ : Clocked := { s' with
    app := queued exampleNetwork exampleAnnouncement false (List.replicate (k + 1) .initiateLink), appFree := t + 150 }
  obtain ⟨r1, hr1⟩ : ∃ r, timedStep s ⟨t, .broadcast true, []⟩ = some r := by
    rw [timedStep, if_pos]
    · exact ⟨_, rfl⟩
    · rw [possible_iff]; exact ⟨e4, Nat.le_of_eq e6, by simp [e7]⟩
  have hr1' := hr1
  rw [timedStep, if_pos (timedStep_possible hr1)] at hr1'
  simp only [Option.some.injEq] at hr1'
  have hs' : r1.2 = s' := by
    rw [← hr1']
    show ({ s' with app := (appStep s.app (.broadcast true)).2 } : Clocked) = s'
    rw [e3, queued_cast, ← e3]
  have hr2 : timedStep s' ⟨t, .appRecv, []⟩ = some ([], s₁) := by
    rw [timedStep, if_pos]
    · show some (([] : List (Nat × Caster × Bytes × Ip4 × UInt16)),
        if s.app.pending = false ∧ s.app.queue ≠ [] then
          { s' with
            app := (appStep s.app .appRecv).2
            appFree := if (appStep s.app .appRecv).2.pending then t else t + 150 }
        else { s' with app := (appStep s.app .appRecv).2 }) = _
      rw [e3]
      rfl
    · rw [possible_iff]; exact ⟨Nat.le_refl _, by simp [wakes, s', e8'], by simp [usesLock]⟩
  have h2 : timedRun s [⟨t, .broadcast true, []⟩, ⟨t, .appRecv, []⟩] = some (r1.1, s₁) := by
    simp only [timedRun, hr1, hs', hr2, Option.bind_some, List.append_nil]
  have p2 : PromptCaster late s [⟨t, .broadcast true, []⟩, ⟨t, .appRecv, []⟩] := by
    refine ⟨by show t ≤ _; rw [e6]; omega, fun r hr => ?_⟩
    obtain rfl := Option.some.inj (hr1.symm.trans hr)
    rw [hs']
    exact ⟨by show t ≤ max (t + 500) _ + late; omega, fun _ _ => trivial⟩
  refine ⟨_, _, t, s₁, timedRun_join h0 (timedRun_join e1 h2),
    promptCaster_append _ _ _ _ h0 p0 (promptCaster_append _ _ _ _ e1 e2 p2), fun x hx => ?_, rfl, rfl, rfl, rfl, e7⟩
  simp only [List.mem_append, List.mem_cons, List.not_mem_nil, or_false] at hx
  rcases hx with hx | hx | rfl | rfl
  · exact heardOften_late _ _ _ _ x hx
  · exact heardOften_late _ _ _ _ x hx
  · rfl
  · rfl

/-- C91: this depends on the broadcaster being less than 150 ms late: if it may be late by 150 ms, it can find the lock
taken each time it comes, and presence is not announced for as long as one likes, though the broadcaster is never later
than that, no negotiation is late at all, nothing fails and all players are on local networks. -/
theorem C91_late_broadcaster_silent (late : Nat) (hl : 150 ≤ late) (T : Nat) : ∃ pre post o₁ s₁ o₂ s₂,
    timedRun .start pre = some (o₁, s₁) ∧ timedRun s₁ post = some (o₂, s₂) ∧ Announcing s₁.app ∧
    Lasting 3950 (pre ++ post) ∧ PromptCaster late .start (pre ++ post) ∧ PromptCaster late s₁ post ∧
    SocketsWork (post.map TimedAction.act) ∧ AllLocal (post.map TimedAction.act) ∧ s₁.now + T < s₂.now ∧
    ∀ d ∈ o₂, ¬ IsPresence d := by
  obtain ⟨pre, o₁, t, s₁, e1, e2, e3, e4, e5, e6, e7, e8⟩ := backlogged late T
  obtain ⟨o₂, s₂, f1, f2, f3, f4⟩ := linksOften_run exampleNetwork exampleAnnouncement late hl (T + 1) (t + 500) false s₁
    e4 (by omega) (by omega) (by omega) (by omega)
  refine ⟨pre, linksOften (t + 500) (T + 1), o₁, s₁, o₂, s₂, e1, f1,
    ⟨⟨by rw [e4]; rfl, by rw [e4]; rfl, by rw [e4]; rfl⟩, by rw [e4]; rfl, by simp [e4, queued, hear]⟩, ?_,
    promptCaster_append _ _ _ _ e1 e2 f2, f2, ?_, ?_, ?_, fun d hd hp => ?_⟩
  · intro x hx
    have : x.late = [] := by
      rcases List.mem_append.1 hx with hx | hx
      · exact e3 x hx
      · exact (linksOften_acts _ _ x hx).1
    rw [this]
    decide
  · refine ⟨fun ok hx => ?_, fun oks hx => ?_⟩
    · obtain ⟨x, hx, hxa⟩ := List.mem_map.1 hx
      rcases (linksOften_acts _ _ x hx).2 with h | h <;> rw [h] at hxa <;> exact nomatch hxa
    · obtain ⟨x, hx, hxa⟩ := List.mem_map.1 hx
      rcases (linksOften_acts _ _ x hx).2 with h | h <;> rw [h] at hxa
      · exact nomatch hxa
      · cases hxa; simp
  · intro i d hx
    obtain ⟨x, hx, hxa⟩ := List.mem_map.1 hx
    rcases (linksOften_acts _ _ x hx).2 with h | h <;> rw [h] at hxa <;> exact nomatch hxa
  · rw [f4 (Nat.succ_pos _)]
    omega
  · have := f3 d hd
    rw [hp.1] at this
    exact nomatch this

/-- C91: so 150 ms is the exact bound: however long negotiations last, there is a bound on the time without an
announcement, for a broadcaster that is never late by more than `late` ms, exactly if `late` is less than 150. -/
theorem C91_gap_exact (late : Nat) : late < 150 ↔ ∀ L, ∃ B, ∀ (pre post : List TimedAction)
    (o₁ o₂ : List (Nat × Caster × Bytes × Ip4 × UInt16)) (s₁ s₂ : Clocked), timedRun .start pre = some (o₁, s₁) →
    timedRun s₁ post = some (o₂, s₂) → Announcing s₁.app → Lasting L (pre ++ post) → PromptCaster late s₁ post →
    SocketsWork (post.map TimedAction.act) → AllLocal (post.map TimedAction.act) → s₁.now + B < s₂.now →
      ∃ d ∈ o₂, IsPresence d ∧ s₁.now ≤ d.1 ∧ d.1 ≤ s₁.now + B := by
  refine ⟨fun hl L => ⟨500 + L + 2 * late, fun pre post o₁ o₂ s₁ s₂ h₁ h₂ ha hL hp hs hloc hr => ?_⟩, fun h => ?_⟩
  · have := C91_gap_partial late L hl pre post h₁ h₂ ha hL hp hs hloc (by omega)
    simpa only [Nat.add_assoc] using this
  · refine Nat.lt_of_not_le fun hl => ?_
    obtain ⟨B, hB⟩ := h 3950
    obtain ⟨pre, post, o₁, s₁, o₂, s₂, h₁, h₂, ha, hL, -, hp, hs, hloc, hr, hno⟩ := C91_late_broadcaster_silent late hl B
    obtain ⟨d, hd, hd1, -⟩ := hB pre post o₁ o₂ s₁ s₂ h₁ h₂ ha hL hp hs hloc hr
    exact hno d hd hd1

/-- C91: and the bound itself is exact: for a broadcaster that is never late by more than `late` < 150 ms and
negotiations that last `L` ms at most, presence is always announced within `B` ms exactly if `B` is at least
`500 + L + 2 * late`. -/
theorem C91_bound_exact (late L B : Nat) (hlate : late < 150) (hL : 3950 ≤ L) : 500 + L + 2 * late ≤ B ↔
    ∀ (pre post : List TimedAction) (o₁ o₂ : List (Nat × Caster × Bytes × Ip4 × UInt16)) (s₁ s₂ : Clocked),
    timedRun .start pre = some (o₁, s₁) → timedRun s₁ post = some (o₂, s₂) → Announcing s₁.app →
    Lasting L (pre ++ post) → PromptCaster late s₁ post → SocketsWork (post.map TimedAction.act) →
    AllLocal (post.map TimedAction.act) → s₁.now + B < s₂.now →
      ∃ d ∈ o₂, IsPresence d ∧ s₁.now ≤ d.1 ∧ d.1 ≤ s₁.now + B := by
  refine ⟨fun hB pre post o₁ o₂ s₁ s₂ h₁ h₂ ha hL hp hs hloc hr => ?_, fun h => ?_⟩
  · obtain ⟨d, d1, d2, d3, d4⟩ := C91_gap_partial late L hlate pre post h₁ h₂ ha hL hp hs hloc (by omega)
    exact ⟨d, d1, d2, d3, by omega⟩
  refine Nat.le_of_not_lt fun hB => ?_
  let pre : List TimedAction := [⟨0, .receive exampleInterfaces exampleDatagram, []⟩, ⟨0, .appRecv, []⟩,
    ⟨150, .appRecv, []⟩, ⟨150, .broadcast true, []⟩]
  let s₁ : Clocked := ⟨{ queued exampleNetwork exampleAnnouncement false [] with pending := true }, 150, 250, 650, 150, 0⟩
  obtain ⟨o₁, h₁⟩ : ∃ o, timedRun .start pre = some (o, s₁) := by
    have h : (timedRun .start pre).map Prod.snd = some s₁ := by decide +kernel
    obtain ⟨r, hr, he⟩ := Option.map_eq_some_iff.1 h
    exact ⟨r.1, by rw [hr, ← he]⟩
  let s' : Clocked := ⟨queued exampleNetwork exampleAnnouncement true [], 650 + late, 250, 650, 650 + late + L + 150,
    650 + late + L⟩
  obtain ⟨o, hstep, ho⟩ : ∃ o, timedStep s₁ ⟨650 + late, .appLink [], [L - 3950]⟩ = some (o, s') ∧
      ∀ d ∈ o, d.2.1 = .main := by
    have hend : negotiationEnd (650 + late) [L - 3950] = 650 + late + L := by
      rw [negotiationEnd, sentAt_eq]; simp; omega
    rw [timedStep, if_pos]
    · simp only [queued_link, s₁, hend, if_true]
      refine ⟨_, rfl, fun d hd => ?_⟩
      obtain ⟨e, -, rfl⟩ := List.mem_map.1 hd
      rfl
    · rw [possible_iff]
      exact ⟨by simp only [s₁]; omega, by simp only [wakes, s₁]; omega, by simp [s₁]⟩
  let t := 650 + late + L + late
  obtain ⟨r, hr⟩ : ∃ r, timedStep s' ⟨t, .broadcast true, []⟩ = some r := by
    rw [timedStep, if_pos]
    · exact ⟨_, rfl⟩
    · rw [possible_iff]
      exact ⟨by simp only [s', t]; omega, by simp only [wakes, s', t]; omega, by simp only [s', t]; omega⟩
  obtain ⟨hr1, hr2⟩ : r.2.now = t ∧ ∀ d ∈ r.1, d.1 = t := by
    rw [timedStep, if_pos (timedStep_possible hr)] at hr
    simp only [Option.some.injEq] at hr
    subst hr
    refine ⟨rfl, fun d hd => ?_⟩
    obtain ⟨e, -, rfl⟩ := List.mem_map.1 hd
    rfl
  have h₂ : timedRun s₁ [⟨650 + late, .appLink [], [L - 3950]⟩, ⟨t, .broadcast true, []⟩] =
      some (o ++ (r.1 ++ []), r.2) := by
    simp only [timedRun, hstep, hr, Option.bind_some]
  obtain ⟨d, d1, d2, -, d4⟩ := h pre _ o₁ _ s₁ _ h₁ h₂ ⟨⟨rfl, rfl, rfl⟩, rfl, by simp [s₁, queued, hear]⟩
    (by
      intro x hx
      simp only [pre, List.cons_append, List.nil_append, List.mem_cons, List.not_mem_nil, or_false] at hx
      rcases hx with rfl | rfl | rfl | rfl | rfl | rfl <;> simp <;> omega)
    ⟨by simp only [s₁]; omega, fun q hq => by
      obtain rfl := Option.some.inj (hstep.symm.trans hq)
      exact ⟨by simp only [s', t]; omega, fun _ _ => trivial⟩⟩
    ⟨by simp, by simp⟩ (by intro i d hd; simp at hd) (by rw [hr1]; simp only [s₁, t]; omega)
  rw [List.append_nil] at d1
  rcases List.mem_append.1 d1 with d1 | d1
  · have := ho d d1
    rw [d2.1] at this
    exact nomatch this
  · have := hr2 d d1
    simp only [s₁, t] at this d4
    omega

/-- C91_bound_exact. -/
example := C91_bound_exact 30 4000 4560 (by decide) (by decide)

/-- C91_late_broadcaster_silent: an hour without an announcement. -/
example := C91_late_broadcaster_silent 150 (by decide) 3600000

end PDJ

import Verif.Props.Gap

/-!
# Property C89: how much is broadcast, with the lock taken into account
-/

namespace PDJ

open Spec

/-- How many of the datagrams were broadcast in the window. -/
def sentIn (a T : Nat) (o : List (Nat × Caster × Bytes × Ip4 × UInt16)) : Nat :=
  (o.filter fun d => Within a T d.1).length

theorem sentIn_append (a T : Nat) (o₁ o₂ : List (Nat × Caster × Bytes × Ip4 × UInt16)) :
    sentIn a T (o₁ ++ o₂) = sentIn a T o₁ + sentIn a T o₂ := by
  simp [sentIn]

/-- What is left for the main thread, for the broadcaster and then the main thread, and for the broadcaster, after `n`
datagrams in the window. -/
structure Room (a T : Nat) (s : Clocked) (n : Nat) : Prop where
  main : n = 0 ∨ 100 * n + a ≤ max s.now s.appFree + 100
  both : n = 0 ∨ 100 * n + a ≤ max (max s.now s.appFree) (max s.castFree s.lockFree)
  cast : n = 0 ∨ 100 * n + a ≤ max s.now (max s.castFree s.lockFree) + 200
  few : n ≤ (T + 99) / 100 + 2

/-- The datagrams of a negotiation in the window. -/
theorem negotiation_sent (a T t : Nat) (late : List Nat) (l : List (Bytes × Ip4 × UInt16)) (hl : l.length ≤ 40) :
    let c := sentIn a T ((paced t late l).map fun d => (d.1, .main, d.2))
    c ≤ 40 ∧ (c = 0 ∨ 100 * c + a ≤ sentAt t late 39 + 100) ∧ 100 * c + max t a ≤ max (a + T) (max t a) + 99 := by
  have hc : sentIn a T ((paced t late l).map fun d => (d.1, .main, d.2)) =
      (((paced t late l).map Prod.fst).filter (Within a T)).length := by
    rw [sentIn, List.filter_map, List.filter_map, List.length_map, List.length_map]
    rfl
  intro c
  have hc : c = (((paced t late l).map Prod.fst).filter (Within a T)).length := hc
  have h1 := Spaced.rare (by decide) a T _ _ (paced_spaced l t late)
  rw [← hc] at h1
  refine ⟨?_, ?_, by omega⟩
  · have h2 := List.length_filter_le (Within a T) ((paced t late l).map Prod.fst)
    have h3 : ((paced t late l).map Prod.fst).length = l.length := by
      have := congrArg List.length (paced_values l t late)
      simpa using this
    omega
  · have h2 : ((paced t late l).map Prod.fst).filter (Within a T) = (((paced t late l).map Prod.fst).filter
        (Within a (sentAt t late 39 + 1 - a))).filter (Within a T) := by
      rw [List.filter_filter]
      refine List.filter_congr fun u hu => ?_
      have := paced_le l 39 t late hl u hu
      simp only [Within]
      by_cases h : a ≤ u
      · simp [h]; omega
      · simp [h]
    have h3 := List.length_filter_le (Within a T) (((paced t late l).map Prod.fst).filter
        (Within a (sentAt t late 39 + 1 - a)))
    rw [← h2, ← hc] at h3
    have h4 := Spaced.rare (by decide) a (sentAt t late 39 + 1 - a) _ _ (paced_spaced l t late)
    omega

theorem room_step (a T : Nat) {s : Clocked} {x : TimedAction} {r} (h : timedStep s x = some r) {n : Nat}
    (hn : Room a T s n) : Room a T r.2 (n + sentIn a T r.1) := by
  obtain ⟨n1, n2, n3, n4⟩ := hn
  obtain ⟨h1, h2, h3⟩ := (possible_iff s x).1 (timedStep_possible h)
  have hlen := step_length (stepTo s.app x.act)
  simp only [timedStep, timedStep_possible h, if_true, Option.some.injEq] at h
  subst h
  obtain ⟨t, act, late⟩ := x
  simp only at h1
  cases act with
  | receive i d =>
    show Room a T _ n
    exact ⟨by dsimp only; omega, by dsimp only; omega, by dsimp only; omega, n4⟩
  | broadcast ok =>
    have h3 := h3 rfl
    simp only [wakes] at h2 h3
    have hone : (appStep s.app (.broadcast ok)).1.length ≤ 1 := by
      have := stepTo s.app (.broadcast ok)
      generalize (appStep s.app (.broadcast ok)).1 = o at this ⊢
      generalize (appStep s.app (.broadcast ok)).2 = s' at this
      cases this <;> simp
    have hc : sentIn a T ((appStep s.app (.broadcast ok)).1.map fun d => (t, .broadcaster, d)) = 0 ∨
        sentIn a T ((appStep s.app (.broadcast ok)).1.map fun d => (t, .broadcaster, d)) = 1 ∧ a ≤ t ∧ t < a + T := by
      generalize (appStep s.app (.broadcast ok)).1 = o at hone
      match o, hone with
      | [], _ => exact .inl rfl
      | [d], _ =>
        by_cases hw : Within a T t = true
        · refine .inr ⟨by simp [sentIn, hw], ?_⟩
          simpa [Within] using hw
        · exact .inl (by simp [sentIn, hw])
    show Room a T _ (n + sentIn a T ((appStep s.app (.broadcast ok)).1.map fun d => (t, .broadcaster, d)))
    rcases hc with hc | ⟨hc, ha, hT⟩
    · rw [hc]
      exact ⟨by dsimp only; omega, by dsimp only; omega, by dsimp only; omega, n4⟩
    · rw [hc]
      refine ⟨?_, ?_, ?_, ?_⟩
      · dsimp only; omega
      · dsimp only; omega
      · dsimp only; omega
      · have : (T + 99) / 100 + 2 = (T + 299) / 100 := by omega
        omega
  | appRecv =>
    simp only [wakes] at h2
    show Room a T (if _ then _ else _) n
    split
    · refine ⟨?_, ?_, ?_, n4⟩
      · dsimp only; split <;> omega
      · dsimp only; split <;> omega
      · dsimp only; omega
    · exact ⟨by dsimp only; omega, by dsimp only; omega, by dsimp only; omega, n4⟩
  | appLink oks =>
    have h3 := h3 rfl
    simp only [wakes] at h2 h3
    obtain ⟨c1, c2, c3⟩ := negotiation_sent a T t late _ hlen
    dsimp only at hlen c1 c2 c3
    show Room a T (if _ then _ else _)
      (n + sentIn a T ((paced t late (appStep s.app (.appLink oks)).1).map fun d => (d.1, .main, d.2)))
    have hs : t + 3900 ≤ sentAt t late 39 := by rw [sentAt_eq]; omega
    by_cases hp : s.app.pending = true
    · rw [if_pos hp]
      generalize sentIn a T ((paced t late (appStep s.app (.appLink oks)).1).map fun d => (d.1, .main, d.2)) = c at *
      refine ⟨?_, ?_, ?_, ?_⟩
      · dsimp only [negotiationEnd]; omega
      · dsimp only [negotiationEnd]; omega
      · dsimp only [negotiationEnd]; omega
      · have : (T + 99) / 100 + 2 = (T + 299) / 100 := by omega
        omega
    · rw [if_neg hp]
      have : (appStep s.app (.appLink oks)).1 = [] := by
        simp [appStep, hp]
      rw [this]
      show Room a T _ n
      exact ⟨by dsimp only; omega, by dsimp only; omega, by dsimp only; omega, n4⟩

/-- C89: the lock makes it less: in every `T` milliseconds of every history at most one datagram per 100 ms and two
more are broadcast, by both threads together, whatever the players send. -/
theorem C89_rate_of_both (xs : List TimedAction) {o : List (Nat × Caster × Bytes × Ip4 × UInt16)} {s : Clocked}
    (h : timedRun .start xs = some (o, s)) (a T : Nat) :
    (o.filter fun d => Within a T d.1).length ≤ (T + 99) / 100 + 2 := by
  have key : ∀ (xs : List TimedAction) (s : Clocked) (n : Nat) r, Room a T s n → timedRun s xs = some r →
      n + sentIn a T r.1 ≤ (T + 99) / 100 + 2 := by
    intro xs
    induction xs with
    | nil => intro s n r hn h; cases h; exact hn.few
    | cons x xs ih =>
      intro s n r hn h
      obtain ⟨q, b, h1, h2, rfl⟩ := timedRun_cons h
      have := ih _ _ _ (room_step a T h1 hn) h2
      rw [sentIn_append]
      omega
  have := key xs .start 0 _ ⟨.inl rfl, .inl rfl, .inl rfl, Nat.zero_le _⟩ h
  rwa [Nat.zero_add] at this

/-- Negotiations without a pause, and presence in between. -/
def sendsMost (t : Nat) : Nat → List TimedAction
  | 0 => []
  | k + 1 => ⟨t, .appRecv, []⟩ :: ⟨t, .appLink [], []⟩ :: ⟨t + 3950, .broadcast true, []⟩ :: sendsMost (t + 4100) k

theorem sentIn_all {a T : Nat} {o : List (Nat × Caster × Bytes × Ip4 × UInt16)}
    (h : ∀ d ∈ o, a ≤ d.1 ∧ d.1 < a + T) : sentIn a T o = o.length := by
  rw [sentIn, List.filter_eq_self.2 fun d hd => by simpa [Within] using h d hd]

theorem spaced_ge {g : Nat} : ∀ (l : List Nat) (lo : Nat), Spaced g lo l → ∀ u ∈ l, lo ≤ u
  | [], _, _, _, hu => nomatch hu
  | t :: ts, lo, h, u, hu => by
    rcases List.mem_cons.1 hu with rfl | hu
    · exact h.1
    · have := spaced_ge ts _ h.2 u hu
      have := h.1
      omega

theorem sendsMost_run (n : PioneerNetwork) (a : Announcement) (k t : Nat) (l : Bool) (s : Clocked)
    (happ : s.app = queued n a l (List.replicate k .initiateLink)) (h1 : s.now ≤ t) (h2 : s.appFree ≤ t)
    (h3 : s.castFree ≤ t + 3950) (h4 : s.lockFree ≤ t) :
    ∃ o s', timedRun s (sendsMost t k) = some (o, s') ∧ o.length = 41 * k ∧
      ∀ d ∈ o, t ≤ d.1 ∧ d.1 + 149 < t + 4100 * k := by
  induction k generalizing t l s with
  | zero => exact ⟨[], s, rfl, rfl, by simp⟩
  | succ k ih =>
    obtain ⟨r1, hr1⟩ : ∃ r, timedStep s ⟨t, .appRecv, []⟩ = some r := by
      rw [timedStep, if_pos]
      · exact ⟨_, rfl⟩
      · rw [possible_iff]; exact ⟨h1, by simpa [wakes] using h2, by simp [h4]⟩
    have hr1' := hr1
    rw [timedStep, if_pos (timedStep_possible hr1)] at hr1'
    rw [List.replicate_succ] at happ
    simp only [Option.some.injEq, happ, queued_take] at hr1'
    rw [if_pos ⟨rfl, by simp [queued]⟩, if_pos trivial] at hr1'
    obtain ⟨r2, hr2⟩ : ∃ r, timedStep r1.2 ⟨t, .appLink [], []⟩ = some r := by
      rw [timedStep, if_pos]
      · exact ⟨_, rfl⟩
      · rw [possible_iff, ← hr1']; exact ⟨Nat.le_refl _, Nat.le_refl _, by simp [h4]⟩
    have hr2' := hr2
    rw [timedStep, if_pos (timedStep_possible hr2)] at hr2'
    simp only [Option.some.injEq] at hr2'
    rw [if_pos (by rw [← hr1'])] at hr2'
    have hend : negotiationEnd t [] = t + 3950 := by rw [negotiationEnd, sentAt_eq]; simp
    have hq : r2.2.app = queued n a true (List.replicate k .initiateLink) := by
      rw [← hr2', ← hr1']
      exact queued_link _ _ _ _
    have hf : r2.2.now = t ∧ r2.2.appFree = t + 4100 ∧ r2.2.lockFree = t + 3950 ∧ r2.2.castFree = s.castFree := by
      rw [← hr2', ← hr1']; exact ⟨rfl, by simp only [hend], hend, rfl⟩
    obtain ⟨r3, hr3⟩ : ∃ r, timedStep r2.2 ⟨t + 3950, .broadcast true, []⟩ = some r := by
      rw [timedStep, if_pos]
      · exact ⟨_, rfl⟩
      · rw [possible_iff]; simp only [wakes]; exact ⟨by omega, by omega, by omega⟩
    have hr3' := hr3
    rw [timedStep, if_pos (timedStep_possible hr3)] at hr3'
    simp only [Option.some.injEq] at hr3'
    have hq3 : r3.2.app = queued n a true (List.replicate k .initiateLink) := by
      rw [← hr3']
      show (appStep r2.2.app (.broadcast true)).2 = _
      rw [hq, queued_cast]
    obtain ⟨o, s', i1, i2, i3⟩ := ih (t + 4100) true r3.2 hq3 (by rw [← hr3']; show t + 3950 ≤ _; omega)
      (by rw [← hr3']; show r2.2.appFree ≤ _; omega) (by rw [← hr3']; show t + 3950 + 500 ≤ _; omega)
      (by rw [← hr3']; show r2.2.lockFree ≤ _; omega)
    have hneg := C53_negotiation { queued n a l (List.replicate k .initiateLink) with pending := true } n [] rfl rfl rfl
      rfl (by simp)
    have hl2 : r2.1 = (paced t [] ((negotiation n).map (toAll n))).map fun d => (d.1, .main, d.2) := by
      rw [← hr2', ← hr1', ← hneg.1]
    have hl3 : r3.1 = [(t + 3950, .broadcaster, toAll n (statusDatagram n.network.addr n.mac 1))] := by
      rw [← hr3']
      have := C53_announcement r2.2.app (by rw [hq]; rfl) (by rw [hq]; rfl) (by rw [hq]; rfl)
      rw [show r2.2.app.state.address = some n by rw [hq]; rfl] at this
      simp only [this]
      rfl
    refine ⟨r1.1 ++ (r2.1 ++ (r3.1 ++ o)), s', ?_, ?_, ?_⟩
    · simp only [sendsMost, timedRun, hr1, hr2, hr3, i1, Option.bind_some]
    · have hpl : (paced t [] ((negotiation n).map (toAll n))).length = 40 := by
        have := congrArg List.length (paced_values ((negotiation n).map (toAll n)) t [])
        rw [List.length_map] at this
        rw [this]
        rfl
      rw [hl2, hl3, ← hr1', List.length_append, List.length_append, List.length_append, List.length_map, hpl, i2]
      simp only [List.length_nil, List.length_cons]
      omega
    · intro d hd
      rw [hl2, hl3, ← hr1'] at hd
      simp only [List.nil_append, List.mem_append, List.mem_map, List.mem_cons, List.not_mem_nil, or_false] at hd
      rcases hd with ⟨e, he, rfl⟩ | rfl | hd
      · have h5 : e.1 ∈ (paced t [] ((negotiation n).map (toAll n))).map Prod.fst := List.mem_map_of_mem he
        have h6 := paced_le _ 39 t [] (by rw [List.length_map]; exact Nat.le_refl 40) _ h5
        have h7 := spaced_ge _ _ (paced_spaced ((negotiation n).map (toAll n)) t []) _ h5
        rw [sentAt_eq] at h6
        simp at h6
        exact ⟨h7, by dsimp only; omega⟩
      · exact ⟨by dsimp only; omega, by dsimp only; omega⟩
      · have := i3 d hd
        omega

/-- C89: and this is what can be broadcast, in windows of any length: there is no smaller bound of this form. -/
theorem C89_attained (k : Nat) : ∃ xs o s a, timedRun .start xs = some (o, s) ∧
    (o.filter fun d => Within a (3951 + 4100 * k) d.1).length = (3951 + 4100 * k + 99) / 100 + 2 := by
  obtain ⟨pre, o₁, t, s₁, e1, -, -, e4, e5, e6, e7, e8⟩ := backlogged 0 k
  obtain ⟨r, hr⟩ : ∃ r, timedStep s₁ ⟨t + 500, .broadcast true, []⟩ = some r := by
    rw [timedStep, if_pos]
    · exact ⟨_, rfl⟩
    · rw [possible_iff]; simp only [wakes]; exact ⟨by omega, by omega, by omega⟩
  have hr' := hr
  rw [timedStep, if_pos (timedStep_possible hr)] at hr'
  simp only [Option.some.injEq] at hr'
  have hq : r.2.app = queued exampleNetwork exampleAnnouncement false (List.replicate (k + 1) .initiateLink) := by
    rw [← hr']
    show (appStep s₁.app (.broadcast true)).2 = _
    rw [e4, queued_cast]
  have hl : r.1 = [(t + 500, .broadcaster,
      toAll exampleNetwork (statusDatagram exampleNetwork.network.addr exampleNetwork.mac 1))] := by
    rw [← hr']
    have := C53_announcement s₁.app (by rw [e4]; rfl) (by rw [e4]; rfl) (by rw [e4]; rfl)
    rw [show s₁.app.state.address = some exampleNetwork by rw [e4]; rfl] at this
    simp only [this]
    rfl
  obtain ⟨o₂, s₂, f1, f2, f3⟩ := sendsMost_run exampleNetwork exampleAnnouncement (k + 1) (t + 500) false r.2 hq
    (by rw [← hr']; exact Nat.le_refl _) (by rw [← hr']; show s₁.appFree ≤ _; omega)
    (by rw [← hr']; show t + 500 + 500 ≤ _; omega) (by rw [← hr']; show s₁.lockFree ≤ _; omega)
  have hrun : timedRun s₁ (⟨t + 500, .broadcast true, []⟩ :: sendsMost (t + 500) (k + 1)) = some (r.1 ++ o₂, s₂) := by
    simp only [timedRun, hr, f1, Option.bind_some]
  have hall := timedRun_join e1 hrun
  refine ⟨_, _, _, t + 500, hall, Nat.le_antisymm (C89_rate_of_both _ hall _ _) ?_⟩
  show _ ≤ sentIn (t + 500) (3951 + 4100 * k) (o₁ ++ (r.1 ++ o₂))
  rw [sentIn_append, sentIn_all (o := r.1 ++ o₂), List.length_append, hl, f2]
  · simp only [List.length_cons, List.length_nil]
    omega
  · intro d hd
    rcases List.mem_append.1 hd with hd | hd
    · rw [hl] at hd
      simp only [List.mem_singleton] at hd
      subst hd
      exact ⟨Nat.le_refl _, by dsimp only; omega⟩
    · have := f3 d hd
      omega

/-- A datagram arrives and is ignored every 250 ms. -/
def ignoresMost (t : Nat) : Nat → List TimedAction
  | 0 => []
  | k + 1 => ⟨t, .receive [] [], []⟩ :: ignoresMost (t + 250) k

theorem ignoresMost_run (k t : Nat) (s : Clocked) (h1 : s.now ≤ t) (h2 : s.recvFree ≤ t) (h3 : s.lockFree ≤ t) :
    ∃ o s', timedRun s (ignoresMost t k) = some (o, s') ∧ (receiveTimes (ignoresMost t k)).length = k ∧
      ∀ u ∈ receiveTimes (ignoresMost t k), t ≤ u ∧ u + 249 < t + 250 * k := by
  induction k generalizing t s with
  | zero => exact ⟨[], s, rfl, rfl, by simp [ignoresMost, receiveTimes]⟩
  | succ k ih =>
    obtain ⟨r, hr⟩ : ∃ r, timedStep s ⟨t, .receive [] [], []⟩ = some r := by
      rw [timedStep, if_pos]
      · exact ⟨_, rfl⟩
      · rw [possible_iff]; exact ⟨h1, h2, fun _ => h3⟩
    have hr' := hr
    rw [timedStep, if_pos (timedStep_possible hr)] at hr'
    simp only [Option.some.injEq] at hr'
    obtain ⟨o, s', i1, i2, i3⟩ := ih (t + 250) r.2 (by rw [← hr']; show t ≤ _; omega)
      (by rw [← hr']; exact Nat.le_refl _) (by rw [← hr']; show s.lockFree ≤ _; omega)
    have ht : receiveTimes (ignoresMost t (k + 1)) = t :: receiveTimes (ignoresMost (t + 250) k) := rfl
    refine ⟨r.1 ++ o, s', ?_, ?_, ?_⟩
    · simp only [ignoresMost, timedRun, hr, i1, Option.bind_some]
    · rw [ht, List.length_cons, i2]
    · intro u hu
      rw [ht] at hu
      rcases List.mem_cons.1 hu with rfl | hu
      · omega
      · have := i3 u hu
        omega

/-- C90: this is the capacity exactly: in windows of every length so many datagrams can be handled. -/
theorem C90_attained (T : Nat) : ∃ xs o s, timedRun .start xs = some (o, s) ∧
    ((receiveTimes xs).filter (Within 0 T)).length = (T + 249) / 250 := by
  obtain ⟨o, s, h1, h2, h3⟩ := ignoresMost_run ((T + 249) / 250) 0 .start (Nat.le_refl _) (Nat.le_refl _) (Nat.le_refl _)
  refine ⟨_, o, s, h1, ?_⟩
  rw [List.filter_eq_self.2, h2]
  intro u hu
  have := h3 u hu
  simp only [Within, Bool.and_eq_true, decide_eq_true_eq]
  omega

/-- Presence, as late as it may be. -/
def castsLate (late t : Nat) : Nat → List TimedAction
  | 0 => []
  | k + 1 => ⟨t, .broadcast true, []⟩ :: castsLate late (t + (500 + late)) k

theorem castsLate_acts (late t k : Nat) : ∀ x ∈ castsLate late t k, x.act = .broadcast true ∧ x.late = [] := by
  induction k generalizing t with
  | zero => simp [castsLate]
  | succ k ih =>
    intro x hx
    rcases List.mem_cons.1 hx with rfl | hx
    · exact ⟨rfl, rfl⟩
    · exact ih _ x hx

theorem castsLate_run (n : PioneerNetwork) (a : Announcement) (l : Bool) (q : List AppEvent) (late k t T : Nat)
    (s : Clocked) (happ : s.app = queued n a l q) (h1 : s.now + 500 ≤ s.castFree) (h2 : s.castFree + late = t)
    (h3 : s.lockFree = 0) (hT : T < t + (500 + late) * k) :
    ∃ o s', timedRun s (castsLate late t (k + 1)) = some (o, s') ∧ PromptCaster late s (castsLate late t (k + 1)) ∧
      s'.now = t + (500 + late) * k ∧ ((presenceTimes o).filter fun u => decide (u ≤ T)).length ≤ k := by
  induction k generalizing t s with
  | zero =>
    obtain ⟨r, hr⟩ : ∃ r, timedStep s ⟨t, .broadcast true, []⟩ = some r := by
      rw [timedStep, if_pos]
      · exact ⟨_, rfl⟩
      · rw [possible_iff]; simp only [wakes]; exact ⟨by omega, by omega, by omega⟩
    have hr' := hr
    rw [timedStep, if_pos (timedStep_possible hr)] at hr'
    simp only [Option.some.injEq] at hr'
    refine ⟨r.1 ++ [], r.2, by simp only [castsLate, timedRun, hr, Option.bind_some],
      ⟨by dsimp only; omega, fun _ _ => trivial⟩, by rw [← hr']; rfl, ?_⟩
    rw [Nat.le_zero, List.length_eq_zero_iff, List.filter_eq_nil_iff]
    intro u hu
    rw [List.append_nil, ← hr'] at hu
    simp only [presenceTimes, List.mem_map, List.mem_filter] at hu
    obtain ⟨e, ⟨⟨b, -, rfl⟩, -⟩, rfl⟩ := hu
    simp only [decide_eq_true_eq]
    omega
  | succ k ih =>
    obtain ⟨r, hr⟩ : ∃ r, timedStep s ⟨t, .broadcast true, []⟩ = some r := by
      rw [timedStep, if_pos]
      · exact ⟨_, rfl⟩
      · rw [possible_iff]; simp only [wakes]; exact ⟨by omega, by omega, by omega⟩
    have hr' := hr
    rw [timedStep, if_pos (timedStep_possible hr)] at hr'
    simp only [Option.some.injEq] at hr'
    have hm : (500 + late) * (k + 1) = (500 + late) * k + (500 + late) := Nat.mul_succ _ _
    obtain ⟨o, s', i1, i2, i3, i4⟩ := ih (t + (500 + late)) r.2
      (by rw [← hr']; show (appStep s.app (.broadcast true)).2 = _; rw [happ, queued_cast])
      (by rw [← hr']; exact Nat.le_refl _) (by rw [← hr']; show t + 500 + late = _; omega)
      (by rw [← hr']; exact h3) (by omega)
    have hone : (presenceTimes r.1).length ≤ 1 := by
      rw [← hr']
      simp only [presenceTimes, List.length_map]
      refine Nat.le_trans (List.length_filter_le _ _) ?_
      rw [List.length_map]
      have := stepTo s.app (.broadcast true)
      generalize (appStep s.app (.broadcast true)).1 = o at this ⊢
      generalize (appStep s.app (.broadcast true)).2 = s' at this
      cases this <;> simp
    refine ⟨r.1 ++ o, s', ?_, ⟨by dsimp only; omega, fun q hq => ?_⟩, by omega, ?_⟩
    · rw [castsLate, timedRun, hr, Option.bind_some, i1]
      rfl
    · obtain rfl := Option.some.inj (hr.symm.trans hq)
      exact i2
    · rw [presenceTimes_append, List.filter_append, List.length_append]
      have := List.length_filter_le (fun u => decide (u ≤ T)) (presenceTimes r.1)
      omega

/-- C91: and it need not be announced more often than C91_rate_partial says: for every lateness and every length of time
there is a history that meets its conditions and in which presence is announced just so often. -/
theorem C91_rate_attained (late T : Nat) : ∃ pre post o₁ s₁ o₂ s₂, timedRun .start pre = some (o₁, s₁) ∧
    timedRun s₁ post = some (o₂, s₂) ∧ Announcing s₁.app ∧ s₁.lockFree ≤ s₁.now + 500 ∧
    (∀ x ∈ post, ∀ oks, x.act ≠ .appLink oks) ∧ PromptCaster late s₁ post ∧ SocketsWork (post.map TimedAction.act) ∧
    AllLocal (post.map TimedAction.act) ∧ s₁.now + T < s₂.now ∧
    ((presenceTimes o₂).filter (Within s₁.now (T + 1))).length = T / (500 + late) := by
  let pre : List TimedAction := [⟨0, .receive exampleInterfaces exampleDatagram, []⟩, ⟨0, .broadcast true, []⟩]
  let s₁ : Clocked :=
    ⟨queued exampleNetwork exampleAnnouncement false [.deviceChange, .initiateLink], 0, 250, 500, 0, 0⟩
  obtain ⟨o₁, h₁⟩ : ∃ o, timedRun .start pre = some (o, s₁) := by
    have h : (timedRun .start pre).map Prod.snd = some s₁ := by decide +kernel
    obtain ⟨r, hr, he⟩ := Option.map_eq_some_iff.1 h
    exact ⟨r.1, by rw [hr, ← he]⟩
  have hdiv : T < (500 + late) + (500 + late) * (T / (500 + late)) := by
    have := Nat.lt_mul_div_succ T (show 0 < 500 + late by omega)
    rw [Nat.mul_succ] at this
    omega
  obtain ⟨o₂, s₂, f1, f2, f3, f4⟩ := castsLate_run exampleNetwork exampleAnnouncement false [.deviceChange, .initiateLink]
    late (T / (500 + late)) (500 + late) T s₁ rfl (Nat.le_refl _) rfl rfl hdiv
  have hact : ∀ x ∈ castsLate late (500 + late) (T / (500 + late) + 1), x.act = .broadcast true :=
    fun x hx => (castsLate_acts _ _ _ x hx).1
  have ha : Announcing s₁.app := ⟨⟨rfl, rfl, rfl⟩, rfl, by simp [s₁, queued, hear]⟩
  have hn : ∀ x ∈ castsLate late (500 + late) (T / (500 + late) + 1), ∀ oks, x.act ≠ .appLink oks :=
    fun x hx oks h => by rw [hact x hx] at h; exact nomatch h
  have hs : SocketsWork ((castsLate late (500 + late) (T / (500 + late) + 1)).map TimedAction.act) := by
    refine ⟨fun ok hx => ?_, fun oks hx => ?_⟩ <;> obtain ⟨x, hx, hxa⟩ := List.mem_map.1 hx <;> rw [hact x hx] at hxa <;>
      cases hxa
    rfl
  have hl : AllLocal ((castsLate late (500 + late) (T / (500 + late) + 1)).map TimedAction.act) := by
    intro i d hx
    obtain ⟨x, hx, hxa⟩ := List.mem_map.1 hx
    rw [hact x hx] at hxa
    exact nomatch hxa
  have hr : s₁.now + T < s₂.now := by rw [f3]; show 0 + T < _; omega
  refine ⟨pre, _, o₁, s₁, o₂, s₂, h₁, f1, ha, Nat.zero_le _, hn, f2, hs, hl, hr, Nat.le_antisymm ?_
    (C91_rate_partial late T pre _ h₁ f1 ha (Nat.zero_le _) hn f2 hs hl hr)⟩
  refine Nat.le_trans (Nat.le_of_eq ?_) f4
  congr 1
  refine List.filter_congr fun u _ => ?_
  simp only [Within, s₁, Nat.zero_le, decide_true, Bool.true_and, Nat.zero_add, Nat.lt_succ_iff]

/-- C89_rate_of_both: in a minute 602 datagrams at most. -/
example : ∃ (o : List (Nat × Caster × Bytes × Ip4 × UInt16)) (s : Clocked), timedRun .start exampleTimed = some (o, s) ∧
    (o.filter fun d => Within 0 60000 d.1).length ≤ 602 := by
  obtain ⟨o, s, h⟩ := exampleTimed_possible
  exact ⟨o, s, h, C89_rate_of_both _ h 0 60000⟩

end PDJ

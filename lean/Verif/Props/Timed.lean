import Verif.Lemmas.Timed
import Verif.Props.Traffic

/-!
# Properties C89 - C92: the application in time
-/

namespace PDJ

open Spec

/-! ## C89 -/

/-- The times of the datagrams of one thread. -/
def timesOf (c : Caster) (o : List (Nat × Caster × Bytes × Ip4 × UInt16)) : List Nat :=
  (o.filter fun d => d.2.1 = c).map Prod.fst

theorem timesOf_append (c : Caster) (a b : List (Nat × Caster × Bytes × Ip4 × UInt16)) :
    timesOf c (a ++ b) = timesOf c a ++ timesOf c b := by
  simp [timesOf]

theorem timesOf_all (c c' : Caster) (l : List (Nat × Bytes × Ip4 × UInt16)) :
    timesOf c (l.map fun d => (d.1, c', d.2)) = if c' = c then l.map Prod.fst else [] := by
  induction l with
  | nil => cases c <;> cases c' <;> rfl
  | cons a l ih =>
    simp only [timesOf, List.map_cons, List.filter_cons] at ih ⊢
    by_cases e : c' = c
    · simp only [e, decide_true, if_true, List.map_cons] at ih ⊢
      rw [ih]
    · simp only [e, decide_false, Bool.false_eq_true, if_false] at ih ⊢
      exact ih

theorem both_threads (a T : Nat) (o : List (Nat × Caster × Bytes × Ip4 × UInt16)) :
    (o.filter fun d => Within a T d.1).length =
      ((timesOf .main o).filter (Within a T)).length +
        ((timesOf .broadcaster o).filter (Within a T)).length := by
  induction o with
  | nil => rfl
  | cons d o ih =>
    obtain ⟨t, c, v⟩ := d
    cases c <;> cases hw : Within a T t <;> simp_all [timesOf] <;> omega

/-- C89: the histories in time are histories of the threads, so C47 - C54, C71 and C72 hold in them. -/
theorem C89_timed_is_untimed (xs : List TimedAction) (s : Clocked) {r} (h : timedRun s xs = some r) :
    appRun s.app (xs.map TimedAction.act) = (r.1.map (fun d => d.2.2), r.2.app) := by
  induction xs generalizing s r with
  | nil =>
    cases h
    rfl
  | cons x xs ih =>
    obtain ⟨a, b, h1, h2, rfl⟩ := timedRun_cons h
    obtain ⟨e1, e2, _⟩ := timedStep_app h1
    have := ih _ h2
    rw [List.map_cons]
    simp only [appRun]
    rw [← e1, this, ← e2, List.map_append]

theorem main_spaced (xs : List TimedAction) (s : Clocked) {r} (h : timedRun s xs = some r) :
    Spaced 100 s.appFree (timesOf .main r.1) := by
  induction xs generalizing s r with
  | nil =>
    cases h
    trivial
  | cons x xs ih =>
    obtain ⟨a, b, h1, h2, rfl⟩ := timedRun_cons h
    have ih := ih _ h2
    have hp := timedStep_possible h1
    have hq := (possible_iff s x).1 hp
    have hlen := step_length (stepTo s.app x.act)
    have hnone : s.app.pending = false → ∀ oks, x.act = .appLink oks →
        (appStep s.app x.act).1 = [] := by
      intro hpend oks e
      rw [e]
      simp [appStep, hpend]
    simp only [timedStep, hp, if_true, Option.some.injEq] at h1
    subst h1
    obtain ⟨t, act, late⟩ := x
    rw [timesOf_append]
    cases act with
    | receive i d => exact ih
    | broadcast ok =>
      have := timesOf_all .main .broadcaster
        ((appStep s.app (.broadcast ok)).1.map fun d => (t, d))
      rw [List.map_map] at this
      refine Eq.mp ?_ ih
      congr 1
      show _ = timesOf .main (List.map _ _) ++ _
      rw [show (fun d => (t, Caster.broadcaster, d)) =
        (fun d : Nat × Bytes × Ip4 × UInt16 => (d.1, Caster.broadcaster, d.2)) ∘ (fun d => (t, d))
        from rfl, this]
      rfl
    | appRecv =>
      refine Spaced.mono ih ?_
      have := hq.2.1
      simp only [wakes] at this
      dsimp only
      split
      · dsimp only
        split <;> omega
      · exact Nat.le_refl _
    | appLink oks =>
      have hw := hq.2.1
      simp only [wakes] at hw
      simp only [timesOf_all, if_true]
      by_cases hpend : s.app.pending = true
      · simp only [hpend, if_true] at ih ⊢
        have hend := negotiationEnd_ge t late
        refine Spaced.append ih _ _ ((paced_spaced _ _ _).mono hw) (by omega) ?_
        intro u hu
        have := paced_le _ 39 t late hlen u hu
        simp only [negotiationEnd]
        omega
      · have hpend : s.app.pending = false := by simpa using hpend
        have := hnone hpend oks rfl
        dsimp only at this
        rw [this]
        simp only [hpend, Bool.false_eq_true, if_false] at ih
        exact ih

theorem cast_spaced (xs : List TimedAction) (s : Clocked) {r} (h : timedRun s xs = some r) :
    Spaced 500 s.castFree (timesOf .broadcaster r.1) := by
  induction xs generalizing s r with
  | nil =>
    cases h
    trivial
  | cons x xs ih =>
    obtain ⟨a, b, h1, h2, rfl⟩ := timedRun_cons h
    have ih := ih _ h2
    have hp := timedStep_possible h1
    have hq := (possible_iff s x).1 hp
    have hone : ∀ ok, x.act = .broadcast ok → (appStep s.app x.act).1.length ≤ 1 := by
      intro ok e
      rw [e]
      have := stepTo s.app (.broadcast ok)
      generalize (appStep s.app (.broadcast ok)).1 = o at this ⊢
      generalize (appStep s.app (.broadcast ok)).2 = s' at this
      cases this <;> simp
    simp only [timedStep, hp, if_true, Option.some.injEq] at h1
    subst h1
    obtain ⟨t, act, late⟩ := x
    rw [timesOf_append]
    cases act with
    | receive i d => exact ih
    | broadcast ok =>
      have hw := hq.2.1
      simp only [wakes] at hw
      have hone := hone ok rfl
      dsimp only at hone
      dsimp only at ih
      generalize (appStep s.app (.broadcast ok)).1 = o at hone ⊢
      match o, hone with
      | [], _ => exact ih.mono (by omega)
      | [d], _ => exact ⟨hw, ih⟩
    | appRecv =>
      refine Spaced.mono ih ?_
      dsimp only
      split <;> exact Nat.le_refl _
    | appLink oks =>
      simp only [timesOf_all]
      refine Spaced.mono ih ?_
      dsimp only
      split <;> exact Nat.le_refl _

/-- C89: in every `T` milliseconds of every history at most one datagram per 100 ms and one per 500 ms is
broadcast, whatever the players send. -/
theorem C89_rate (xs : List TimedAction) {o : List (Nat × Caster × Bytes × Ip4 × UInt16)} {s : Clocked}
    (h : timedRun .start xs = some (o, s)) (a T : Nat) :
    (o.filter fun d => Within a T d.1).length ≤ (T + 99) / 100 + (T + 499) / 500 := by
  rw [both_threads]
  have h1 := Spaced.rare_div (by decide) a T _ _ (main_spaced xs .start h)
  have h2 := Spaced.rare_div (by decide) a T _ _ (cast_spaced xs .start h)
  exact Nat.add_le_add h1 h2

/-! ## C90 -/

theorem receive_spaced (xs : List TimedAction) (s : Clocked) {r} (h : timedRun s xs = some r) :
    Spaced 250 s.recvFree (receiveTimes xs) := by
  induction xs generalizing s r with
  | nil => trivial
  | cons x xs ih =>
    obtain ⟨a, b, h1, h2, rfl⟩ := timedRun_cons h
    have ih := ih _ h2
    have hp := timedStep_possible h1
    have hq := (possible_iff s x).1 hp
    simp only [timedStep, hp, if_true, Option.some.injEq] at h1
    subst h1
    obtain ⟨t, act, late⟩ := x
    cases act with
    | receive i d => exact ⟨hq.2.1, ih⟩
    | broadcast ok => exact ih
    | appRecv =>
      refine Spaced.mono ih ?_
      dsimp only
      split <;> exact Nat.le_refl _
    | appLink oks =>
      refine Spaced.mono ih ?_
      dsimp only
      split <;> exact Nat.le_refl _

/-- C90 (full claim: every datagram is handled soon after it arrives).  Missing: the claim is false.
What holds: in every `T` milliseconds at most one datagram per 250 ms is handled, whatever its kind. -/
theorem C90_capacity_partial (xs : List TimedAction)
    {o : List (Nat × Caster × Bytes × Ip4 × UInt16)} {s : Clocked}
    (h : timedRun .start xs = some (o, s)) (a T : Nat) :
    ((receiveTimes xs).filter (Within a T)).length ≤ (T + 249) / 250 :=
  Spaced.rare_div (by decide) a T _ _ (receive_spaced xs .start h)

/-- C90, the negation: if datagrams arrive every `period` < 250 ms, then in every history, for every
delay, all datagrams from some number on are handled later than that after their arrival. -/
theorem C90_falls_behind (period delay : Nat) (hp : period < 250) : ∃ n₀, ∀ n ≥ n₀,
    ∀ (xs : List TimedAction) (o : List (Nat × Caster × Bytes × Ip4 × UInt16)) (s : Clocked),
      timedRun .start xs = some (o, s) → ∀ t, (receiveTimes xs)[n]? = some t →
        period * n + delay < t := by
  refine ⟨delay + 1, fun n hn xs o s h t ht => ?_⟩
  have h1 := Spaced.nth _ _ n t (receive_spaced xs .start h) ht
  have h2 : period * n ≤ 249 * n := Nat.mul_le_mul_right n (by omega)
  simp only [Clocked.start] at h1
  omega

/-! ## C91 -/

theorem locked_run (L : Nat) (xs : List TimedAction) (s : Clocked) (hl : L ≤ s.lockFree) {r}
    (h : timedRun s xs = some r) : (∀ x ∈ xs, usesLock x.act = true → L ≤ x.time) ∧
      ∀ d ∈ r.1, L ≤ d.1 := by
  induction xs generalizing s r with
  | nil =>
    cases h
    exact ⟨fun x hx => absurd hx List.not_mem_nil, fun d hd => absurd hd List.not_mem_nil⟩
  | cons x xs ih =>
    obtain ⟨a, b, h1, h2, rfl⟩ := timedRun_cons h
    have hp := timedStep_possible h1
    have hq := ((possible_iff s x).1 hp).2.2
    simp only [timedStep, hp, if_true, Option.some.injEq] at h1
    subst h1
    obtain ⟨t, act, late⟩ := x
    have hx : usesLock act = true → L ≤ t := fun hu => Nat.le_trans hl (hq hu)
    have key : ∀ (s' : Clocked) (o : List (Nat × Caster × Bytes × Ip4 × UInt16)), L ≤ s'.lockFree →
        (∀ d ∈ o, L ≤ d.1) → timedRun s' xs = some b →
        (∀ x ∈ (⟨t, act, late⟩ : TimedAction) :: xs, usesLock x.act = true → L ≤ x.time) ∧
          ∀ d ∈ o ++ b.1, L ≤ d.1 := by
      intro s' o h1 ho h2
      obtain ⟨i1, i2⟩ := ih s' h1 h2
      refine ⟨fun x hm => ?_, fun d hd => ?_⟩
      · rcases List.mem_cons.1 hm with rfl | hm
        · exact hx
        · exact i1 x hm
      · rcases List.mem_append.1 hd with hd | hd
        · exact ho d hd
        · exact i2 d hd
    cases act with
    | receive i d =>
      refine key _ _ ?_ ?_ h2
      · exact hl
      · exact fun d hd => absurd hd List.not_mem_nil
    | broadcast ok =>
      refine key _ _ ?_ ?_ h2
      · exact hl
      intro d hd
      obtain ⟨v, _, rfl⟩ := List.mem_map.1 hd
      exact hx rfl
    | appRecv =>
      refine key _ _ ?_ (fun d hd => absurd hd List.not_mem_nil) h2
      dsimp only
      split <;> exact hl
    | appLink oks =>
      have hx := hx rfl
      refine key _ _ ?_ ?_ h2
      · dsimp only
        split
        · have := negotiationEnd_ge t late
          dsimp only
          omega
        · exact hl
      · intro d hd
        obtain ⟨v, hv, rfl⟩ := List.mem_map.1 hd
        have : ∀ (l : List Nat) (lo : Nat), Spaced 100 lo l → ∀ u ∈ l, lo ≤ u := by
          intro l
          induction l with
          | nil => exact fun _ _ u hu => absurd hu List.not_mem_nil
          | cons w l ih =>
            intro lo hs u hu
            rcases List.mem_cons.1 hu with rfl | hu
            · exact hs.1
            · have h1 := hs.1
              have := ih _ hs.2 u hu
              omega
        have := this _ _ (paced_spaced (appStep s.app (.appLink oks)).1 t late) v.1
          (List.mem_map_of_mem hv)
        exact Nat.le_trans hx this

theorem unlocked_state {s s' : AppSystem} {x : AppAction} {o : List (Bytes × Ip4 × UInt16)}
    (h : StepTo s x o s') (hu : usesLock x = false) : s'.state = s.state := by
  cases h with
  | heard hh ha hm => rw [accepted_usesLock ha] at hu; exact nomatch hu
  | macMissing hh ha hm => rfl
  | linkNowhere => exact nomatch hu
  | links => exact nomatch hu
  | linkFails => exact nomatch hu
  | _ => rfl

theorem unlocked_run (xs : List TimedAction) (s : Clocked) {r} (h : timedRun s xs = some r)
    (hu : ∀ x ∈ xs, usesLock x.act = false) : r.2.app.state = s.app.state := by
  induction xs generalizing s r with
  | nil =>
    cases h
    rfl
  | cons x xs ih =>
    obtain ⟨a, b, h1, h2, rfl⟩ := timedRun_cons h
    have e := ih _ h2 (fun y hy => hu y (List.mem_cons_of_mem _ hy))
    rw [e, (timedStep_app h1).1]
    exact unlocked_state (stepTo s.app x.act) (hu x List.mem_cons_self)

theorem after_link {s : Clocked} {x : TimedAction} {oks : List Bool} (hx : x.act = .appLink oks)
    (hp : s.app.pending = true) {r} (h : timedStep s x = some r) : x.time + 3950 ≤ r.2.lockFree := by
  have hpos := timedStep_possible h
  simp only [timedStep, hpos, if_true, Option.some.injEq] at h
  subst h
  obtain ⟨t, act, late⟩ := x
  cases hx
  simp only [hp, if_true]
  exact negotiationEnd_ge t late

/-- C91 (full claim: presence is announced twice a second).  Missing: the claim is false.  What holds:
in every state and every history, from the beginning of a negotiation on, for at least 3950 ms nothing is broadcast but
its own datagrams. -/
theorem C91_silence_partial (post : List TimedAction) (x : TimedAction) (oks : List Bool)
    {o₂ o₃ : List (Nat × Caster × Bytes × Ip4 × UInt16)} {s₁ s₂ s₃ : Clocked} (hp : s₁.app.pending = true)
    (hx : x.act = .appLink oks) (h₂ : timedStep s₁ x = some (o₂, s₂))
    (h₃ : timedRun s₂ post = some (o₃, s₃)) :
    (∀ d ∈ o₂, d.2.1 = .main) ∧ ∀ d ∈ o₃, x.time + 3950 ≤ d.1 := by
  refine ⟨fun d hd => ?_, (locked_run _ post s₂ (after_link hx hp h₂) h₃).2⟩
  have hpos := timedStep_possible h₂
  simp only [timedStep, hpos, if_true, Option.some.injEq] at h₂
  obtain ⟨t, act, late⟩ := x
  cases hx
  rw [← (Prod.mk.inj h₂).1] at hd
  obtain ⟨v, _, rfl⟩ := List.mem_map.1 hd
  rfl

/-- C91: for at least 3950 ms from the beginning of a negotiation no announcement of a player is taken
notice of. -/
theorem C91_deaf (post : List TimedAction) (x : TimedAction) (oks : List Bool)
    {o₂ o₃ : List (Nat × Caster × Bytes × Ip4 × UInt16)} {s₁ s₂ s₃ : Clocked} (hp : s₁.app.pending = true)
    (hx : x.act = .appLink oks) (h₂ : timedStep s₁ x = some (o₂, s₂))
    (h₃ : timedRun s₂ post = some (o₃, s₃)) :
    (∀ y ∈ post, ∀ i d a, y.act = .receive i d → Accepted d a → x.time + 3950 ≤ y.time) ∧
    ((∀ y ∈ post, y.time < x.time + 3950) → s₃.app.state = s₂.app.state) := by
  have hl := (locked_run _ post s₂ (after_link hx hp h₂) h₃).1
  refine ⟨fun y hy i d a e ha => hl y hy (e ▸ accepted_usesLock ha i), fun ht => ?_⟩
  refine unlocked_run post s₂ h₃ (fun y hy => ?_)
  cases hu : usesLock y.act with
  | false => rfl
  | true =>
    have := hl y hy hu
    have := ht y hy
    omega

/-! ## C92 -/

theorem negotiated_append (a b : List (Nat × Caster × Bytes × Ip4 × UInt16)) :
    negotiated (a ++ b) = negotiated a ++ negotiated b := by
  simp [negotiated]

theorem negotiated_broadcaster (t : Nat) (l : List (Bytes × Ip4 × UInt16)) :
    negotiated (l.map fun d => (t, Caster.broadcaster, d)) = [] := by
  induction l with
  | nil => rfl
  | cons a l ih => simp [negotiated]

theorem negotiated_main (l : List (Nat × Bytes × Ip4 × UInt16)) :
    negotiated (l.map fun d => (d.1, Caster.main, d.2)) = l.map Prod.snd := by
  induction l with
  | nil => rfl
  | cons a l ih => simpa [negotiated] using ih

/-- What a step does, with its effect on the clocks. -/
theorem timedStep_cases {s : Clocked} {x : TimedAction} {r} (h : timedStep s x = some r) :
    r.2.app = (appStep s.app x.act).2 ∧
    negotiated r.1 = (match x.act with | .appLink _ => (appStep s.app x.act).1 | _ => []) ∧
    r.2.recvFree = (match x.act with | .receive _ _ => x.time + 250 | _ => s.recvFree) ∧
    wakes s x.act ≤ x.time ∧
    ((x.act = .appRecv → s.app.pending = true ∨ s.app.queue = []) →
      (∀ oks, x.act = .appLink oks → s.app.pending = false) → r.2.appFree = s.appFree) ∧
    (s.app.pending = false → s.app.queue ≠ [] → x.act = .appRecv →
      r.2.appFree = if r.2.app.pending then x.time else x.time + 150) := by
  have hw := ((possible_iff s x).1 (timedStep_possible h)).2.1
  have ha := (timedStep_app h).1
  simp only [timedStep, timedStep_possible h, if_true, Option.some.injEq] at h
  subst h
  obtain ⟨t, act, late⟩ := x
  refine ⟨ha, ?_, ?_, hw, ?_, ?_⟩
  · cases act with
    | receive i d => rfl
    | broadcast ok => exact negotiated_broadcaster _ _
    | appRecv => rfl
    | appLink oks => exact (negotiated_main _).trans (paced_values _ _ _)
  · cases act with
    | receive i d => rfl
    | broadcast ok => rfl
    | appRecv => dsimp only; split <;> rfl
    | appLink oks => dsimp only; split <;> rfl
  · intro h1 h2
    cases act with
    | receive i d => rfl
    | broadcast ok => rfl
    | appRecv =>
      dsimp only
      rw [if_neg]
      rintro ⟨h3, h4⟩
      rcases h1 rfl with h1 | h1
      · rw [h3] at h1; exact nomatch h1
      · exact h4 h1
    | appLink oks => simp only [h2 oks rfl, Bool.false_eq_true, if_false]
  · intro h1 h2 h3
    subst h3
    simp only [h1, h2, ne_eq, not_false_eq_true, and_self, if_true]

/-- No request is open and none will be made. -/
def Settled (s : AppSystem) : Prop :=
  s.running = false ∨ (s.state.linking = true ∧ AppEvent.initiateLink ∉ s.queue ∧ s.pending = false)

theorem settled_step {s s' : AppSystem} {x : AppAction} {o : List (Bytes × Ip4 × UInt16)}
    (h : StepTo s x o s') (hs : Settled s) : Settled s' ∧ ((∃ oks, x = .appLink oks) → o = []) := by
  cases h with
  | dead h => exact ⟨.inl h, fun _ => rfl⟩
  | heard hh ha hm =>
    rcases hs with hs | ⟨h1, h2, h3⟩
    · rw [hh.running] at hs; exact nomatch hs
    · refine ⟨.inr ⟨h1, ?_, h3⟩, fun _ => rfl⟩
      rw [List.mem_append]
      rintro (h | h)
      · exact h2 h
      · rw [events_eq] at h
        simp only [h1] at h
        split at h <;> simp at h
  | takesLink hr hp hq =>
    rcases hs with hs | ⟨h1, h2, h3⟩
    · rw [hr] at hs; exact nomatch hs
    · rw [hq] at h2; exact absurd List.mem_cons_self h2
  | takesChange hr hp hq =>
    rcases hs with hs | ⟨h1, h2, h3⟩
    · rw [hr] at hs; exact nomatch hs
    · rw [hq] at h2
      exact ⟨.inr ⟨h1, fun h => h2 (List.mem_cons_of_mem _ h), h3⟩, fun _ => rfl⟩
  | macMissing => exact ⟨hs, fun _ => rfl⟩
  | broadcast => exact ⟨hs, fun ⟨oks, e⟩ => nomatch e⟩
  | broadcastFails => exact ⟨hs, fun _ => rfl⟩
  | links hr hp =>
    rcases hs with hs | ⟨h1, h2, h3⟩
    · rw [hr] at hs; exact nomatch hs
    · rw [hp] at h3; exact nomatch h3
  | linkFails hr hp =>
    rcases hs with hs | ⟨h1, h2, h3⟩
    · rw [hr] at hs; exact nomatch hs
    · rw [hp] at h3; exact nomatch h3
  | linkNowhere => exact ⟨.inl rfl, fun _ => rfl⟩
  | linkPoisoned => exact ⟨.inl rfl, fun _ => rfl⟩
  | ignored => exact ⟨hs, fun _ => rfl⟩
  | noBroadcast => exact ⟨hs, fun _ => rfl⟩
  | waits => exact ⟨hs, fun _ => rfl⟩
  | noLink => exact ⟨hs, fun _ => rfl⟩

theorem settled_run (xs : List TimedAction) (s : Clocked) {r} (h : timedRun s xs = some r)
    (hs : Settled s.app) : negotiated r.1 = [] := by
  induction xs generalizing s r with
  | nil =>
    cases h
    rfl
  | cons x xs ih =>
    obtain ⟨a, b, h1, h2, rfl⟩ := timedRun_cons h
    obtain ⟨e1, e2, _⟩ := timedStep_cases h1
    obtain ⟨h3, h4⟩ := settled_step (stepTo s.app x.act) hs
    rw [negotiated_append, ih _ h2 (e1 ▸ h3), e2]
    cases hx : x.act with
    | appLink oks => exact (congrArg (· ++ []) (hx ▸ h4 ⟨oks, hx⟩)).trans rfl
    | _ => rfl

/-- The first announcement has been heard and its request is being worked on; `rest` is how much time
that takes at most. -/
inductive Working (late : Nat) : AppSystem → Nat → Prop
  | heard {s : AppSystem} (hq : s.queue = [.deviceChange, .initiateLink]) (hp : s.pending = false) :
      Working late s (150 + 3 * late)
  | noticed {s : AppSystem} (hq : s.queue = [.initiateLink]) (hp : s.pending = false) :
      Working late s (2 * late)
  | taken {s : AppSystem} (hq : s.queue = []) (hp : s.pending = true) : Working late s late

theorem socketsWork_cons {x : AppAction} {xs : List AppAction} (h : SocketsWork (x :: xs)) :
    SocketsWork [x] ∧ SocketsWork xs :=
  ⟨⟨fun ok hk => h.1 ok (by simp_all), fun oks hk => h.2 oks (by simp_all)⟩,
    ⟨fun ok hk => h.1 ok (List.mem_cons_of_mem _ hk), fun oks hk => h.2 oks (List.mem_cons_of_mem _ hk)⟩⟩

theorem working_run (late : Nat) (xs : List TimedAction) (s : Clocked) (since rest : Nat)
    (hw : Working late s.app rest) (ht : max since s.appFree + rest < s.recvFree)
    (hp : Prompt late s since xs) {r} (h : timedRun s xs = some r) :
    (∃ n k, negotiated r.1 = ((negotiation n).take k).map (toAll n)) ∧
    ∀ n, s.app.running = true → s.app.poisoned = false → s.app.state.address = some n →
      SocketsWork (xs.map TimedAction.act) → (∃ x ∈ xs, s.recvFree ≤ x.time) →
      negotiated r.1 = (negotiation n).map (toAll n) := by
  have none : ∃ n k, ([] : List (Bytes × Ip4 × UInt16)) = ((negotiation n).take k).map (toAll n) :=
    ⟨exampleNetwork, 0, rfl⟩
  induction xs generalizing s since rest r with
  | nil =>
    cases h
    exact ⟨none, fun _ _ _ _ _ ⟨x, hx, _⟩ => absurd hx List.not_mem_nil⟩
  | cons x xs ih =>
    by_cases hrun : s.app.running = true
    case neg =>
      have hrun : s.app.running = false := by simpa using hrun
      rw [settled_run _ s h (.inl hrun)]
      exact ⟨none, fun _ hr => by rw [hrun] at hr; exact nomatch hr⟩
    have hbusy : s.app.pending = true ∨ s.app.queue ≠ [] := by
      cases hw with
      | heard hq => right; rw [hq]; exact List.cons_ne_nil _ _
      | noticed hq => right; rw [hq]; exact List.cons_ne_nil _ _
      | taken _ hp => exact .inl hp
    have hrest : late ≤ rest := by cases hw <;> omega
    have hx := hp.1 ⟨hrun, hbusy⟩
    obtain ⟨a, b, h1, h2, rfl⟩ := timedRun_cons h
    have hp' := (hp.2 a h1).1 hbusy
    obtain ⟨c1, c2, c3, c4, c5, c6⟩ := timedStep_cases h1
    have hst := stepTo s.app x.act
    rw [negotiated_append]
    have later : ∀ y ∈ x :: xs, s.recvFree ≤ y.time → y ∈ xs := by
      intro y hy hl
      rcases List.mem_cons.1 hy with rfl | hy
      · omega
      · exact hy
    obtain ⟨t, act, lt⟩ := x
    dsimp only at c1 c2 c3 c4 c5 c6 hx hst
    -- a step that leaves the request as it is, or takes it one stage further
    have go : ∀ rest', negotiated a.1 = [] → a.2.recvFree = s.recvFree →
        Working late a.2.app rest' → max since a.2.appFree + rest' < s.recvFree →
        (s.app.running = true → a.2.app.running = true) →
        (SocketsWork [act] → s.app.poisoned = false → a.2.app.poisoned = false) →
        a.2.app.state = s.app.state →
        (∃ n k, negotiated a.1 ++ negotiated b.1 = ((negotiation n).take k).map (toAll n)) ∧
        ∀ n, s.app.running = true → s.app.poisoned = false → s.app.state.address = some n →
          SocketsWork ((⟨t, act, lt⟩ :: xs).map TimedAction.act) →
          (∃ x ∈ (⟨t, act, lt⟩ : TimedAction) :: xs, s.recvFree ≤ x.time) →
          negotiated a.1 ++ negotiated b.1 = (negotiation n).map (toAll n) := by
      intro rest' e1 e2 e3 e4 e5 e6 e7
      obtain ⟨i1, i2⟩ := ih a.2 since rest' e3 (by rw [e2]; exact e4) hp' h2
      rw [e1]
      refine ⟨i1, fun n g1 g2 g3 g4 ⟨y, g5, g6⟩ => ?_⟩
      have g4 := socketsWork_cons g4
      exact i2 n (e5 g1) (e6 g4.1 g2) (by rw [e7]; exact g3) g4.2
        ⟨y, later y g5 g6, by rw [e2]; exact g6⟩
    cases act with
    | receive i d =>
      simp only [wakes] at c4
      omega
    | broadcast ok =>
      have same : (appStep s.app (.broadcast ok)).2.queue = s.app.queue ∧
          (appStep s.app (.broadcast ok)).2.pending = s.app.pending ∧
          (appStep s.app (.broadcast ok)).2.running = s.app.running ∧
          (appStep s.app (.broadcast ok)).2.state = s.app.state ∧
          (ok = true → (appStep s.app (.broadcast ok)).2.poisoned = s.app.poisoned) := by
        generalize (appStep s.app (.broadcast ok)).1 = o at hst
        generalize (appStep s.app (.broadcast ok)).2 = s' at hst
        cases hst with
        | broadcastFails => exact ⟨rfl, rfl, rfl, rfl, fun e => nomatch e⟩
        | _ => exact ⟨rfl, rfl, rfl, rfl, fun _ => rfl⟩
      rw [← c1] at same
      obtain ⟨m1, m2, m3, m4, m5⟩ := same
      refine go rest c2 c3 ?_ ?_ ?_ ?_ m4
      · cases hw with
        | heard hq hp => exact .heard (m1.trans hq) (m2.trans hp)
        | noticed hq hp => exact .noticed (m1.trans hq) (m2.trans hp)
        | taken hq hp => exact .taken (m1.trans hq) (m2.trans hp)
      · rw [c5 (fun e => nomatch e) (fun _ e => nomatch e)]
        exact ht
      · rw [m3]
        exact id
      · intro hs hpo
        rw [m5 (hs.1 ok List.mem_cons_self), hpo]
    | appRecv =>
      have step : ∀ s', appStep s.app .appRecv = ([], s') → a.2.app = s' := by
        intro s' e
        rw [c1, e]
      cases hw with
      | heard hq hpend =>
        have e := step { s.app with queue := [.initiateLink] }
          (by simp [appStep, hrun, hpend, appRecvStep, hq])
        have hf := c6 hpend (by rw [hq]; exact List.cons_ne_nil _ _) rfl
        rw [e] at hf
        simp only [hpend, Bool.false_eq_true, if_false] at hf
        refine go (2 * late) c2 c3 (by rw [e]; exact .noticed rfl hpend) ?_ (by rw [e]; exact id)
          (by rw [e]; exact fun _ h => h) (by rw [e])
        omega
      | noticed hq hpend =>
        have e := step { s.app with queue := [], pending := true }
          (by simp [appStep, hrun, hpend, appRecvStep, hq])
        have hf := c6 hpend (by rw [hq]; exact List.cons_ne_nil _ _) rfl
        rw [e] at hf
        simp only [if_true] at hf
        refine go late c2 c3 (by rw [e]; exact .taken rfl rfl) ?_ (by rw [e]; exact id)
          (by rw [e]; exact fun _ h => h) (by rw [e])
        omega
      | taken hq hpend =>
        have e := step s.app (by simp [appStep, hpend])
        refine go late c2 c3 (by rw [e]; exact .taken hq hpend) ?_ (by rw [e]; exact id)
          (by rw [e]; exact fun _ h => h) (by rw [e])
        rw [c5 (fun _ => .inl hpend) (fun _ e => nomatch e)]
        exact ht
    | appLink oks =>
      have idle : s.app.pending = false → a.2.app = s.app ∧ negotiated a.1 = [] ∧
          a.2.appFree = s.appFree := by
        intro hpend
        have e : appStep s.app (.appLink oks) = ([], s.app) := by simp [appStep, hpend]
        rw [c1, c2, e]
        exact ⟨rfl, rfl, c5 (fun e => nomatch e) (fun _ _ => hpend)⟩
      cases hw with
      | heard hq hpend =>
        obtain ⟨e1, e2, e3⟩ := idle hpend
        refine go _ e2 c3 (by rw [e1]; exact .heard hq hpend) (by rw [e3]; exact ht)
          (by rw [e1]; exact id) (by rw [e1]; exact fun _ h => h) (by rw [e1])
      | noticed hq hpend =>
        obtain ⟨e1, e2, e3⟩ := idle hpend
        refine go _ e2 c3 (by rw [e1]; exact .noticed hq hpend) (by rw [e3]; exact ht)
          (by rw [e1]; exact id) (by rw [e1]; exact fun _ h => h) (by rw [e1])
      | taken hq hpend =>
        have done : Settled a.2.app := by
          rw [c1]
          generalize (appStep s.app (.appLink oks)).1 = o at hst
          generalize (appStep s.app (.appLink oks)).2 = s' at hst
          cases hst with
          | dead h => exact .inl h
          | noLink hr hp => rw [hp] at hpend; exact nomatch hpend
          | linkPoisoned => exact .inl rfl
          | linkNowhere => exact .inl rfl
          | linkFails => exact .inl rfl
          | links => exact .inr ⟨rfl, by rw [hq]; exact List.not_mem_nil, rfl⟩
        rw [settled_run xs a.2 h2 done, List.append_nil, c2]
        generalize (appStep s.app (.appLink oks)).1 = o at hst
        generalize (appStep s.app (.appLink oks)).2 = s' at hst
        cases hst with
        | dead h => rw [h] at hrun; exact nomatch hrun
        | noLink hr hp => rw [hp] at hpend; exact nomatch hpend
        | linkPoisoned hr hp hl => exact ⟨none, fun _ _ h => by rw [hl] at h; exact nomatch h⟩
        | linkNowhere hr hp hl hn => exact ⟨none, fun _ _ _ h => by rw [hn] at h; exact nomatch h⟩
        | @linkFails oks n k hr hp hl hn hk hf =>
          refine ⟨⟨n, k, rfl⟩, fun _ _ _ _ hs _ => ?_⟩
          have := (socketsWork_cons hs).1.2 oks List.mem_cons_self false (List.mem_of_getElem? hf)
          exact nomatch this
        | @links oks n hr hp hl hn ho =>
          refine ⟨⟨n, 40, ?_⟩, fun n' _ _ h _ _ => ?_⟩
          · rw [List.take_of_length_le (Nat.le_of_eq (negotiation_length n).2)]
          · rw [hn] at h
            cases h
            rfl

/-- Nobody has been heard. -/
structure Fresh (s : Clocked) : Prop where
  queue : s.app.queue = []
  pending : s.app.pending = false
  linking : s.app.state.linking = false
  players : s.app.state.players = []
  free : s.appFree = 0

theorem fresh_step {s : Clocked} {x : TimedAction} {r} (hf : Fresh s) (h : timedStep s x = some r)
    (hn : ∀ i d a, x.act = .receive i d → ¬ (Healthy s.app ∧ Accepted d a)) :
    Fresh r.2 ∧ negotiated r.1 = [] ∧ r.2.app.running = s.app.running ∧
      r.2.app.receiver = s.app.receiver ∧
      (SocketsWork [x.act] → r.2.app.poisoned = s.app.poisoned) := by
  obtain ⟨c1, c2, c3, c4, c5, c6⟩ := timedStep_cases h
  have cf := c5 (fun _ => .inr hf.queue) (fun _ _ => hf.pending)
  have hst := stepTo s.app x.act
  obtain ⟨t, act, lt⟩ := x
  dsimp only at c1 c2 hst hn ⊢
  have key : (appStep s.app act).2.queue = s.app.queue ∧ (appStep s.app act).2.pending = s.app.pending ∧
      (appStep s.app act).2.state = s.app.state ∧ (appStep s.app act).2.running = s.app.running ∧
      (appStep s.app act).2.receiver = s.app.receiver ∧
      (SocketsWork [act] → (appStep s.app act).2.poisoned = s.app.poisoned) ∧
      ((∃ oks, act = .appLink oks) → (appStep s.app act).1 = []) := by
    have hp := hf.pending
    have hq := hf.queue
    generalize (appStep s.app act).1 = o at hst
    generalize (appStep s.app act).2 = s' at hst
    cases hst with
    | heard hh ha hm => exact absurd ⟨hh, ha⟩ (hn _ _ _ rfl)
    | macMissing hh ha hm => exact absurd ⟨hh, ha⟩ (hn _ _ _ rfl)
    | broadcastFails =>
      exact ⟨rfl, rfl, rfl, rfl, rfl, fun h => (nomatch h.1 false List.mem_cons_self), fun _ => rfl⟩
    | broadcast => exact ⟨rfl, rfl, rfl, rfl, rfl, fun _ => rfl, fun ⟨_, e⟩ => nomatch e⟩
    | takesLink _ _ hc => rw [hq] at hc; exact nomatch hc
    | takesChange _ _ hc => rw [hq] at hc; exact nomatch hc
    | linkPoisoned _ hc => rw [hp] at hc; exact nomatch hc
    | linkNowhere _ hc => rw [hp] at hc; exact nomatch hc
    | linkFails _ hc => rw [hp] at hc; exact nomatch hc
    | links _ hc => rw [hp] at hc; exact nomatch hc
    | _ => exact ⟨rfl, rfl, rfl, rfl, rfl, fun _ => rfl, fun _ => rfl⟩
  rw [← c1] at key
  obtain ⟨k1, k2, k3, k4, k5, k6, k7⟩ := key
  refine ⟨⟨k1.trans hf.queue, k2.trans hf.pending, by rw [k3]; exact hf.linking,
    by rw [k3]; exact hf.players, cf.trans hf.free⟩, ?_, k4, k5, k6⟩
  rw [c2]
  cases act with
  | appLink oks => exact k7 ⟨oks, rfl⟩
  | _ => rfl

theorem fresh_deaf (xs : List TimedAction) (s : Clocked) (hf : Fresh s) (hh : ¬ Healthy s.app) {r}
    (h : timedRun s xs = some r) : negotiated r.1 = [] := by
  induction xs generalizing s r with
  | nil =>
    cases h
    rfl
  | cons x xs ih =>
    obtain ⟨a, b, h1, h2, rfl⟩ := timedRun_cons h
    obtain ⟨f1, f2, _⟩ := fresh_step hf h1 (fun _ _ _ _ hc => hh hc.1)
    rw [negotiated_append, f2, ih a.2 f1 _ h2]
    · rfl
    · rw [(timedStep_app h1).1]
      exact fun hc => hh (healthy_back (stepTo s.app x.act) hc)

theorem first_heard {late since : Nat} (hl : 3 * late < 100) {s : Clocked} {x : TimedAction}
    {xs : List TimedAction} {i : List Interface} {d : Bytes} {a : Announcement}
    (hf : Fresh s) (hx : x.act = .receive i d) (hh : Healthy s.app) (ha : Accepted d a)
    (hp : Prompt late s since (x :: xs)) {r r' : List (Nat × Caster × Bytes × Ip4 × UInt16) × Clocked}
    (h1 : timedStep s x = some r) (h2 : timedRun r.2 xs = some r') :
    (∃ n k, negotiated (r.1 ++ r'.1) = ((negotiation n).take k).map (toAll n)) ∧
    ∀ n, FirstMatch i a.ip n → SocketsWork (xs.map TimedAction.act) →
      (∃ y ∈ xs, x.time + 250 ≤ y.time) →
      negotiated (r.1 ++ r'.1) = (negotiation n).map (toAll n) := by
  obtain ⟨c1, c2, c3, c4, c5, c6⟩ := timedStep_cases h1
  have cf := c5 (fun _ => .inr hf.queue) (fun _ _ => hf.pending)
  have hst := stepTo s.app x.act
  have hp' := (hp.2 r h1).2 ⟨hf.pending, hf.queue⟩
  rw [negotiated_append]
  obtain ⟨t, act, lt⟩ := x
  dsimp only at c1 c2 c3 hst hx hp' ⊢
  subst hx
  dsimp only at c2 c3
  rw [c2]
  generalize (appStep s.app (.receive i d)).1 = o at hst
  generalize (appStep s.app (.receive i d)).2 = s' at hst c1
  cases hst with
  | dead h => have := hh.running; rw [h] at this; exact nomatch this
  | ignored hr h =>
    rcases h with h | h | h
    · have := hh.receiver; rw [h] at this; exact nomatch this
    · have := hh.lock; rw [h] at this; exact nomatch this
    · exact absurd ha (h a)
  | macMissing _ ha' hm =>
    obtain rfl := announcement_unique ha.1 ha'.1
    refine ⟨⟨exampleNetwork, 0, ?_⟩, fun n hn => ?_⟩
    · refine fresh_deaf xs r.2 ⟨?_, ?_, ?_, ?_, cf.trans hf.free⟩ ?_ h2
      · rw [c1]; exact hf.queue
      · rw [c1]; exact hf.pending
      · rw [c1]; exact hf.linking
      · rw [c1]; exact hf.players
      · rw [c1]
        exact fun hc => nomatch hc.lock
    · rw [(firstMatch_iff _ _ _).1 hn] at hm
      exact nomatch hm
  | @heard _ _ a' n' _ ha' hm =>
    obtain rfl := announcement_unique ha.1 ha'.1
    have hev : events s.app.state (hear n' a s.app.state) = [.deviceChange, .initiateLink] := by
      rw [events_eq]
      simp [hf.linking, hf.players]
    have hw : Working late r.2.app (150 + 3 * late) := by
      rw [c1]
      exact .heard (by simp only [hf.queue, hev, List.nil_append]) hf.pending
    obtain ⟨w1, w2⟩ := working_run late xs r.2 t _ hw (by rw [cf, hf.free, c3]; omega) hp' h2
    refine ⟨w1, fun n hn hs hy => ?_⟩
    rw [(firstMatch_iff _ _ _).1 hn] at hm
    cases hm
    exact w2 n (by rw [c1]; exact hh.running) (by rw [c1]; exact hh.lock) (by rw [c1]; rfl) hs
      (by rw [c3]; exact hy)

theorem once_run (late : Nat) (hl : 3 * late < 100) (xs : List TimedAction) (s : Clocked) (since : Nat)
    (hf : Fresh s) (hp : Prompt late s since xs) {r} (h : timedRun s xs = some r) :
    ∃ n k, negotiated r.1 = ((negotiation n).take k).map (toAll n) := by
  induction xs generalizing s since r with
  | nil =>
    cases h
    exact ⟨exampleNetwork, 0, rfl⟩
  | cons x xs ih =>
    obtain ⟨a, b, h1, h2, rfl⟩ := timedRun_cons h
    by_cases hx : ∃ i d a, x.act = .receive i d ∧ Healthy s.app ∧ Accepted d a
    · obtain ⟨i, d, an, e, hh, ha⟩ := hx
      exact (first_heard hl hf e hh ha hp h1 h2).1
    · obtain ⟨f1, f2, _⟩ := fresh_step hf h1
        (fun i d a e hc => hx ⟨i, d, a, e, hc.1, hc.2⟩)
      rw [negotiated_append, f2]
      exact ih a.2 _ f1 ((hp.2 a h1).2 ⟨hf.pending, hf.queue⟩) h2

theorem fresh_start : Fresh .start := ⟨rfl, rfl, rfl, rfl, rfl⟩

/-- C92: if the main thread is never late by more than 33 ms, then in every history there is at most one
negotiation: the main thread sends the datagrams of one network's negotiation or the first few of them,
and nothing else. -/
theorem C92_once (late : Nat) (hl : 3 * late < 100) (xs : List TimedAction)
    (hp : Prompt late .start 0 xs) {o : List (Nat × Caster × Bytes × Ip4 × UInt16)} {s : Clocked}
    (h : timedRun .start xs = some (o, s)) :
    ∃ n k, negotiated o = ((negotiation n).take k).map (toAll n) :=
  once_run late hl xs .start 0 fresh_start hp h

theorem linked_run (late : Nat) (hl : 3 * late < 100) (pre post : List TimedAction) (x : TimedAction)
    (i : List Interface) (d : Bytes) (a : Announcement) (n : PioneerNetwork)
    (hpre : ∀ y ∈ pre, ∀ i d a, y.act = .receive i d → ¬ Accepted d a)
    (hx : x.act = .receive i d) (ha : Accepted d a) (hn : FirstMatch i a.ip n)
    (hs : SocketsWork ((pre ++ x :: post).map TimedAction.act))
    (hy : ∃ y ∈ post, x.time + 250 ≤ y.time) (s : Clocked) (since : Nat) (hf : Fresh s)
    (hh : Healthy s.app) (hp : Prompt late s since (pre ++ x :: post)) {r}
    (h : timedRun s (pre ++ x :: post) = some r) :
    negotiated r.1 = (negotiation n).map (toAll n) := by
  induction pre generalizing s since r with
  | nil =>
    obtain ⟨a', b, h1, h2, rfl⟩ := timedRun_cons h
    exact (first_heard hl hf hx hh ha hp h1 h2).2 n hn (socketsWork_cons hs).2 hy
  | cons y pre ih =>
    obtain ⟨a', b, h1, h2, rfl⟩ := timedRun_cons h
    obtain ⟨f1, f2, f3, f4, f5⟩ := fresh_step hf h1
      (fun i d a e hc => hpre y List.mem_cons_self i d a e hc.2)
    rw [negotiated_append, f2]
    have hs := socketsWork_cons hs
    exact ih (fun z hz => hpre z (List.mem_cons_of_mem _ hz)) hs.2 a'.2 _ f1
      ⟨f3.trans hh.running, f4.trans hh.receiver, (f5 hs.1).trans hh.lock⟩
      ((hp.2 a' h1).2 ⟨hf.pending, hf.queue⟩) h2

/-- C92: if besides the OS provides sockets and the first player is on a local network, then in every
history that goes on for 250 ms after its first announcement is heard, there is exactly one negotiation,
complete and on that network, whatever the other threads do and whatever is heard later. -/
theorem C92_linked_once (late : Nat) (hl : 3 * late < 100) (pre post : List TimedAction)
    (x : TimedAction) (i : List Interface) (d : Bytes) (a : Announcement) (n : PioneerNetwork)
    (hpre : ∀ y ∈ pre, ∀ i d a, y.act = .receive i d → ¬ Accepted d a)
    (hx : x.act = .receive i d) (ha : Accepted d a) (hn : FirstMatch i a.ip n)
    (hs : SocketsWork ((pre ++ x :: post).map TimedAction.act))
    (hy : ∃ y ∈ post, x.time + 250 ≤ y.time) (hp : Prompt late .start 0 (pre ++ x :: post))
    {o : List (Nat × Caster × Bytes × Ip4 × UInt16)} {s : Clocked}
    (h : timedRun .start (pre ++ x :: post) = some (o, s)) :
    negotiated o = (negotiation n).map (toAll n) :=
  linked_run late hl pre post x i d a n hpre hx ha hn hs hy .start 0 fresh_start ⟨rfl, rfl, rfl⟩ hp h

/-- `Prompt` as a computation. -/
def promptB (late : Nat) : Clocked → Nat → List TimedAction → Bool
  | _, _, [] => true
  | s, since, x :: xs =>
    (!(s.app.running && (s.app.pending || !s.app.queue.isEmpty)) ||
      decide (x.time ≤ max since s.appFree + late)) &&
    match timedStep s x with
    | none => true
    | some r => promptB late r.2 (if s.app.pending || !s.app.queue.isEmpty then since else x.time) xs

theorem promptB_iff (late : Nat) (xs : List TimedAction) : ∀ (s : Clocked) (since : Nat),
    promptB late s since xs = true → Prompt late s since xs := by
  induction xs with
  | nil => exact fun _ _ _ => trivial
  | cons x xs ih =>
    intro s since h
    simp only [promptB, Bool.and_eq_true, Bool.or_eq_true, Bool.not_eq_true', Bool.and_eq_false_iff,
      Bool.or_eq_false_iff, decide_eq_true_eq, Bool.not_eq_false', List.isEmpty_iff] at h
    refine ⟨?_, ?_⟩
    · rintro ⟨h1, h2⟩
      rcases h.1 with (h3 | ⟨h3, h4⟩) | h3
      · rw [h1] at h3; exact nomatch h3
      · rcases h2 with h2 | h2
        · rw [h2] at h3; exact nomatch h3
        · exact absurd h4 h2
      · exact h3
    · intro r hr
      have h2 := h.2
      rw [hr] at h2
      refine ⟨fun hb => ?_, fun hb => ?_⟩
      · apply ih
        rcases hb with hb | hb
        · simpa [hb] using h2
        · simpa [hb] using h2
      · apply ih
        simpa [hb.1, hb.2] using h2

theorem prompt_mono {late late' : Nat} (hl : late ≤ late') (xs : List TimedAction) : ∀ (s : Clocked) (since : Nat),
    Prompt late s since xs → Prompt late' s since xs := by
  induction xs with
  | nil => intro _ _ _; trivial
  | cons x xs ih =>
    intro s since h
    refine ⟨fun hb => by have := h.1 hb; omega, fun r hr => ?_⟩
    exact ⟨fun h1 => ih _ _ ((h.2 r hr).1 h1), fun h1 => ih _ _ ((h.2 r hr).2 h1)⟩

/-- C92: this depends on the main thread being prompt: if it is late by 34 ms or more, a player that announces
itself twice can be linked with twice. -/
theorem C92_late_main_links_twice (late : Nat) (hl : 34 ≤ late) : ∃ xs o s, timedRun .start xs = some (o, s) ∧
    Prompt late .start 0 xs ∧ negotiated o =
      (negotiation exampleNetwork).map (toAll exampleNetwork) ++
      (negotiation exampleNetwork).map (toAll exampleNetwork) := by
  let xs : List TimedAction :=
    [⟨0, .receive exampleInterfaces exampleDatagram, []⟩, ⟨34, .appRecv, []⟩, ⟨218, .appRecv, []⟩,
      ⟨250, .receive exampleInterfaces exampleDatagram, []⟩, ⟨252, .appLink [], []⟩, ⟨4352, .appRecv, []⟩,
      ⟨4352, .appLink [], []⟩]
  have h : (timedRun .start xs).map (fun r => negotiated r.1) = some (
      (negotiation exampleNetwork).map (toAll exampleNetwork) ++
      (negotiation exampleNetwork).map (toAll exampleNetwork)) := by decide +kernel
  obtain ⟨r, h1, h2⟩ := Option.map_eq_some_iff.1 h
  exact ⟨xs, r.1, r.2, h1, prompt_mono hl _ _ _ (promptB_iff 34 _ _ _ (by decide +kernel)), h2⟩

/-- C92: so 33 ms is the exact bound: a main thread that is never late by more than `late` ms links once at most, in
every history, exactly if `late` is at most 33. -/
theorem C92_exact (late : Nat) : late ≤ 33 ↔ ∀ (xs : List TimedAction) (o : List (Nat × Caster × Bytes × Ip4 × UInt16))
    (s : Clocked), Prompt late .start 0 xs → timedRun .start xs = some (o, s) →
      ∃ n k, negotiated o = ((negotiation n).take k).map (toAll n) := by
  refine ⟨fun hl xs o s hp h => C92_once late (by omega) xs hp h, fun h => ?_⟩
  refine Nat.le_of_not_lt fun hl => ?_
  obtain ⟨xs, o, s, h1, h2, h3⟩ := C92_late_main_links_twice late hl
  obtain ⟨n, k, h4⟩ := h xs o s h2 h1
  have h5 := congrArg List.length (h3.symm.trans h4)
  rw [List.length_append, List.length_map, List.length_map, List.length_take] at h5
  have h6 : (negotiation exampleNetwork).length = 40 := rfl
  have h7 : (negotiation n).length = 40 := rfl
  omega

/-! ## Non-vacuity -/

/-- A history: a player is heard at once and noticed, the link is negotiated from 170 ms to 4120 ms, then
presence is announced and the player heard again. -/
def exampleTimed : List TimedAction :=
  [⟨0, .appRecv, []⟩, ⟨0, .receive exampleInterfaces exampleDatagram, []⟩, ⟨10, .appRecv, []⟩,
    ⟨160, .appRecv, []⟩, ⟨170, .appLink [], []⟩, ⟨4120, .broadcast true, []⟩,
    ⟨4121, .receive exampleInterfaces exampleDatagram, []⟩]

theorem exampleTimed_possible : ∃ o s, timedRun .start exampleTimed = some (o, s) := by
  have h : (timedRun .start exampleTimed).isSome = true := by decide +kernel
  exact ⟨_, _, (Option.some_get h).symm⟩

/-- C89, C90. -/
example : ∃ (o : List (Nat × Caster × Bytes × Ip4 × UInt16)) (s : Clocked),
    timedRun .start exampleTimed = some (o, s) ∧
    (o.filter fun d => Within 170 1000 d.1).length ≤ 12 ∧
    ((receiveTimes exampleTimed).filter (Within 0 1000)).length ≤ 4 := by
  obtain ⟨o, s, h⟩ := exampleTimed_possible
  exact ⟨o, s, h, C89_rate _ h 170 1000, C90_capacity_partial _ h 0 1000⟩
example (o s) (h : timedRun .start exampleTimed = some (o, s)) := C89_timed_is_untimed _ _ h
example := C90_falls_behind 249 60000 (by decide)

/-- C91: the state before the negotiation of that history, and what follows. -/
example : ∃ s₁ o₂ s₂ o₃ s₃, s₁.app.pending = true ∧
    timedStep s₁ ⟨170, .appLink [], []⟩ = some (o₂, s₂) ∧
    timedRun s₂ [⟨4120, .broadcast true, []⟩] = some (o₃, s₃) ∧
    ((∀ d ∈ o₂, d.2.1 = .main) ∧ ∀ d ∈ o₃, 170 + 3950 ≤ d.1) ∧
    ((∀ y ∈ [(⟨4120, .broadcast true, []⟩ : TimedAction)], y.time < 170 + 3950) →
      s₃.app.state = s₂.app.state) := by
  let s₁ : Clocked := ⟨exampleLinking, 160, 250, 0, 160, 0⟩
  have h : ((timedStep s₁ ⟨170, .appLink [], []⟩).bind fun r =>
    timedRun r.2 [⟨4120, .broadcast true, []⟩]).isSome = true := by decide +kernel
  obtain ⟨r', h⟩ := Option.isSome_iff_exists.1 h
  obtain ⟨r, h1, h2⟩ := Option.bind_eq_some_iff.1 h
  exact ⟨s₁, r.1, r.2, r'.1, r'.2, rfl, h1, h2, C91_silence_partial _ _ [] rfl rfl h1 h2,
    (C91_deaf _ _ [] rfl rfl h1 h2).2⟩

/-- C92: everything the theorems ask for holds in that history. -/
example : ∃ (o : List (Nat × Caster × Bytes × Ip4 × UInt16)) (s : Clocked),
    timedRun .start exampleTimed = some (o, s) ∧
    negotiated o = (negotiation exampleNetwork).map (toAll exampleNetwork) := by
  obtain ⟨o, s, h⟩ := exampleTimed_possible
  refine ⟨o, s, h, C92_linked_once 30 (by decide) [⟨0, .appRecv, []⟩] _
    ⟨0, .receive exampleInterfaces exampleDatagram, []⟩ exampleInterfaces exampleDatagram
    exampleAnnouncement exampleNetwork ?_ rfl exampleDatagram_accepted exampleMatch ?_
    ⟨⟨4120, .broadcast true, []⟩, by simp, by decide⟩ (promptB_iff _ _ _ _ ?_) h⟩
  · intro y hy i d a e
    rw [List.mem_singleton.1 hy] at e
    exact nomatch e
  · exact ⟨by simp, by simp⟩
  · show promptB 30 .start 0 exampleTimed = true
    decide +kernel
example (o s) (h : timedRun .start exampleTimed = some (o, s)) :=
  C92_once 30 (by decide) _ (promptB_iff _ _ _ _ (by decide +kernel)) h

end PDJ

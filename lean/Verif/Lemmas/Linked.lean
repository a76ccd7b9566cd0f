import Verif.Lemmas.Endless

/-!
# What the main thread does for ever: lemmas
-/

namespace PDJ

open Spec

variable {F : Type}

variable {e : Endian} {m : Mode} {db : Db}

theorem Spec.Endless.lined (r : Endless e m db F) (n : Nat) : ∃ lin o begun, Lined e m db lin o begun (r.state n) := by
  have h := r.part 0 n
  rw [r.start, Nat.zero_add] at h
  exact ⟨_, _, _, ((lined_start e m db).history held_start _ h).1⟩

/-- What the others do adds to the channel only. -/
theorem other_queue (e : Endian) (m : Mode) (db : Db) (s : System F) (x : SysAction F) (hx : x.party ≠ .main) :
    (∃ ev, (sysStep e m db s x).2.app.queue = s.app.queue ++ ev) ∧ (sysStep e m db s x).2.app.pending = s.app.pending := by
  unfold sysStep
  split
  next hr =>
    cases x with
    | app y =>
      cases y with
      | receive i d =>
        simp only [appStep, hr, if_true]
        split
        · unfold receiveStep
          repeat' split
          all_goals first
            | exact ⟨⟨[], (List.append_nil _).symm⟩, rfl⟩
            | exact ⟨⟨_, rfl⟩, rfl⟩
        · exact ⟨⟨[], (List.append_nil _).symm⟩, rfl⟩
      | broadcast ok =>
        simp only [appStep, hr, if_true]
        split
        · unfold broadcastStep
          repeat' split
          all_goals exact ⟨⟨[], (List.append_nil _).symm⟩, rfl⟩
        · exact ⟨⟨[], (List.append_nil _).symm⟩, rfl⟩
      | _ => exact absurd rfl hx
    | accept c => dsimp only; split <;> exact ⟨⟨[], (List.append_nil _).symm⟩, rfl⟩
    | main c b => dsimp only; split <;> exact ⟨⟨[], (List.append_nil _).symm⟩, rfl⟩
    | _ => exact ⟨⟨[], (List.append_nil _).symm⟩, rfl⟩
  · exact ⟨⟨[], (List.append_nil _).symm⟩, rfl⟩

/-- One adds to the channel, and whether a link is wanted stays as it is. -/
def Adds (s s' : Overlap F) : Prop :=
  (∃ ev, s'.sys.app.queue = s.sys.app.queue ++ ev) ∧ s'.sys.app.pending = s.sys.app.pending

theorem Adds.refl (s : Overlap F) : Adds s s := ⟨⟨[], (List.append_nil _).symm⟩, rfl⟩

theorem Adds.trans {s t u : Overlap F} (h : Adds s t) (h' : Adds t u) : Adds s u := by
  obtain ⟨⟨a, ha⟩, hb⟩ := h
  obtain ⟨⟨c, hc⟩, hd⟩ := h'
  exact ⟨⟨a ++ c, by rw [hc, ha, List.append_assoc]⟩, hd.trans hb⟩

theorem Adds.get {s t : Overlap F} (h : Adds s t) {i : Nat} {ev : AppEvent} (hi : s.sys.app.queue[i]? = some ev) :
    t.sys.app.queue[i]? = some ev := by
  obtain ⟨⟨a, ha⟩, _⟩ := h
  rw [ha, List.getElem?_append_left]
  · exact hi
  · exact (List.getElem?_eq_some_iff.1 hi).1

theorem Watched.adds {s s' : Overlap F} (h : Watched s) {q : PDJ.Party} {outs : List SysOut}
    (hg : goOn e m db s q = some (outs, s')) (hq : q ≠ .main) : Adds s s' := by
  have kept : ∀ x, (s.doing q).event = some x → Adds s { s with sys := (sysStep e m db s.sys x).2 } := fun x hx =>
    other_queue e m db s.sys x (by rw [h.own q x hx]; exact hq)
  unfold goOn at hg
  cases hd : s.doing q with
  | idle => simp only [hd] at hg; exact nomatch hg
  | taken x =>
    simp only [hd] at hg
    have hk := kept x (by rw [hd]; rfl)
    have ho := h.own q x (by rw [hd]; rfl)
    split at hg
    · split at hg
      · simp only [Option.some.injEq, Prod.mk.injEq] at hg
        obtain ⟨_, rfl⟩ := hg
        cases x with
        | app y =>
          cases y with
          | receive i d => exact ⟨⟨[], (List.append_nil _).symm⟩, hk.2⟩
          | broadcast ok => exact hk
          | _ => exact absurd ho.symm hq
        | _ => exact hk
      · exact nomatch hg
    · split at hg
      · exact nomatch hg
      · simp only [Option.some.injEq, Prod.mk.injEq] at hg
        obtain ⟨_, rfl⟩ := hg
        exact hk
  | updating ws =>
    cases ws with
    | nil =>
      simp only [hd, Option.some.injEq, Prod.mk.injEq] at hg
      obtain ⟨_, rfl⟩ := hg
      exact Adds.refl s
    | cons w ws =>
      simp only [hd, Option.some.injEq, Prod.mk.injEq] at hg
      obtain ⟨_, rfl⟩ := hg
      cases w
      · exact Adds.refl s
      · exact Adds.refl s
      · exact ⟨⟨_, rfl⟩, rfl⟩
  | linking x os =>
    have hk := kept x (by rw [hd]; rfl)
    cases os <;> simp only [hd, Option.some.injEq, Prod.mk.injEq] at hg <;> obtain ⟨_, rfl⟩ := hg
    · exact hk
    · exact Adds.refl s
  | holding os =>
    cases os <;> simp only [hd, Option.some.injEq, Prod.mk.injEq] at hg <;> obtain ⟨_, rfl⟩ := hg <;> exact Adds.refl s
  | reading os =>
    simp only [hd, Option.some.injEq, Prod.mk.injEq] at hg
    obtain ⟨_, rfl⟩ := hg
    exact Adds.refl s
  | sending os =>
    cases os <;> simp only [hd, Option.some.injEq, Prod.mk.injEq] at hg <;> obtain ⟨_, rfl⟩ := hg <;> exact Adds.refl s

theorem Spec.Endless.adds (r : Endless e m db F) {n : Nat} (ha : r.act n ≠ .go .main) :
    Adds (r.state n) (r.state (n + 1)) := by
  rcases overlapStep_cases (r.step n) with ⟨x, hx, hi, _, hs⟩ | ⟨q, outs, hq, hg, _⟩
  · rw [hs]; exact Adds.refl _
  · exact (r.watched n).1.adds hg fun hm => ha (by rw [hq, hm])

theorem Spec.Endless.adds_until (r : Endless e m db F) {n k : Nat} (hk : n ≤ k)
    (ha : ∀ j, n ≤ j → j < k → r.act j ≠ .go .main) : Adds (r.state n) (r.state k) := by
  obtain ⟨d, rfl⟩ := Nat.exists_eq_add_of_le hk
  clear hk
  induction d with
  | zero => exact Adds.refl _
  | succ d ih =>
    exact (ih fun j h1 h2 => ha j h1 (by omega)).trans (r.adds (ha (n + d) (by omega) (by omega)))

/-- Going on after its effect, the main thread leaves in the channel what is there. -/
theorem Spec.Endless.main_go (r : Endless e m db F) {n : Nat} (ha : r.act n = .go .main)
    (hw : ((r.state n).doing .main).waits = false) :
    ∃ ev, (r.state (n + 1)).sys.app.queue = (r.state n).sys.app.queue ++ ev := by
  obtain ⟨outs, hg⟩ := r.go_step ha
  obtain ⟨lin, o, begun, hl⟩ := r.lined n
  have hok := hl.ok .main
  unfold PartyOk at hok
  unfold goOn at hg
  cases hd : (r.state n).doing .main with
  | idle => simp only [hd] at hg; exact nomatch hg
  | taken x => rw [hd] at hw; exact nomatch hw
  | updating ws => simp only [hd] at hok; exact nomatch hok.1
  | linking x os =>
    simp only [hd] at hok
    cases os <;> simp only [hd, Option.some.injEq, Prod.mk.injEq] at hg <;> rw [← hg.2]
    · obtain ⟨_, hx, _⟩ := hok
      cases x with
      | app y =>
        cases y with
        | appLink oks =>
          refine ⟨[], ?_⟩
          show (sysStep e m db (r.state n).sys (.app (.appLink oks))).2.app.queue = _
          simp only [sysStep, r.running n, if_true, appStep]
          split
          · unfold appLinkStep
            repeat' split
            all_goals exact (List.append_nil _).symm
          · exact (List.append_nil _).symm
        | _ => exact nomatch hx
      | _ => exact nomatch hx
    · exact (Adds.refl _).1
  | holding os =>
    cases os <;> simp only [hd, Option.some.injEq, Prod.mk.injEq] at hg <;> rw [← hg.2] <;> exact (Adds.refl _).1
  | reading os =>
    simp only [hd, Option.some.injEq, Prod.mk.injEq] at hg
    rw [← hg.2]
    exact (Adds.refl _).1
  | sending os =>
    cases os <;> simp only [hd, Option.some.injEq, Prod.mk.injEq] at hg <;> rw [← hg.2] <;> exact (Adds.refl _).1

/-- The first step the main thread takes up. -/
theorem Spec.Endless.main_takes (r : Endless e m db F) {n : Nat} (hd : (r.state n).doing .main = .idle)
    (h : ∃ k x, n ≤ k ∧ r.act k = .take x ∧ x.party = .main) :
    ∃ k x, n ≤ k ∧ r.act k = .take x ∧ x.party = .main ∧ Adds (r.state n) (r.state k) ∧
      (r.state (k + 1)).sys = (r.state k).sys ∧ (r.state (k + 1)).doing .main = .taken x := by
  obtain ⟨k, x, hk, ha, hx⟩ := h
  obtain ⟨d, rfl⟩ := Nat.exists_eq_add_of_le hk
  clear hk
  have here : ∀ n y, r.act n = .take y → y.party = .main →
      (r.state (n + 1)).sys = (r.state n).sys ∧ (r.state (n + 1)).doing .main = .taken y := by
    intro n y hy hp
    rcases overlapStep_cases (r.step n) with ⟨z, hz, _, _, hs⟩ | ⟨q, outs, hq, _⟩
    · rw [hy] at hz
      cases hz
      rw [hs, hp]
      exact ⟨rfl, now_own _ _ _⟩
    · rw [hy] at hq; exact nomatch hq
  induction d generalizing n with
  | zero => exact ⟨n, x, Nat.le_refl _, ha, hx, Adds.refl _, here n x ha hx⟩
  | succ d ih =>
    by_cases hn : ∃ y, r.act n = .take y ∧ y.party = .main
    · obtain ⟨y, hy, hp⟩ := hn
      exact ⟨n, y, Nat.le_refl _, hy, hp, Adds.refl _, here n y hy hp⟩
    · have hg : r.act n ≠ .go .main := by
        intro hg
        obtain ⟨_, h⟩ := r.go_step hg
        unfold goOn at h
        rw [hd] at h
        exact nomatch h
      have hd' : (r.state (n + 1)).doing .main = .idle := by
        rcases overlapStep_cases (r.step n) with ⟨z, hz, _, _, hs⟩ | ⟨q, outs, hq, h, _⟩
        · rw [hs, now_other _ (fun hp => hn ⟨z, hz, hp.symm⟩)]; exact hd
        · rw [goOn_other h fun hp => hg (by rw [hq, hp])]; exact hd
      obtain ⟨k, y, h1, h2, h3, h4, h5⟩ := ih hd' (by rw [show n + 1 + d = n + (d + 1) by omega]; exact ha)
      exact ⟨k, y, by omega, h2, h3, (r.adds hg).trans h4, h5⟩

/-- The main thread takes the next event off the channel. -/
theorem Spec.Endless.recv (r : Endless e m db F) (hw : ∀ q, r.NotStopped q) {n i : Nat}
    (hd : (r.state n).doing .main = .taken (.app .appRecv))
    (h : (r.state n).sys.app.pending = true ∨ (r.state n).sys.app.queue[i]? = some .initiateLink) :
    ∃ k, n < k ∧ (r.state k).doing .main = .idle ∧ ((r.state k).sys.app.pending = true ∨
      ∃ j, j < i ∧ (r.state k).sys.app.queue[j]? = some .initiateLink) := by
  have hni : (r.state n).doing .main ≠ .idle := by rw [hd]; exact nofun
  have keep : ∀ d, Adds (r.state n) (r.state d) →
      (r.state d).sys.app.pending = true ∨ (r.state d).sys.app.queue[i]? = some .initiateLink := fun d ha =>
    h.imp (fun h => ha.2.trans h) fun h => ha.get h
  have hgo : ∃ k, n ≤ k ∧ r.act k = .go .main := by
    refine Classical.byContradiction fun hno => hno (hw .main ⟨n, fun k hk => ?_⟩ n)
    have hst : ∀ d, (r.state (n + d)).doing .main = .taken (.app .appRecv) := by
      intro d
      induction d with
      | zero => exact hd
      | succ d ih =>
        rw [← Nat.add_assoc, r.stays (by rw [ih]; exact nofun) fun h => hno ⟨n + d, by omega, h⟩, ih]
    obtain ⟨d, rfl⟩ := Nat.exists_eq_add_of_le hk
    have ha := r.adds_until (n := n) (k := n + d) (by omega) fun j h1 _ h => hno ⟨j, h1, h⟩
    obtain ⟨_, _, hg⟩ := effect_event (e := e) (m := m) (db := db) (r.state (n + d)) .main (hst d) fun hc => by
      rcases keep _ ha with h | h
      · rw [hc.2] at h; exact nomatch h
      · rw [hc.1] at h; exact nomatch h
    exact canGo_of (r.running _) hg
  obtain ⟨k, h1, h2, h3, h4⟩ := r.next_go hni hgo
  have hk := (h4 k h1 (Nat.le_refl _)).trans hd
  have ha := r.adds_until h1 fun j g1 g2 => h3 j g1 g2
  have hq := keep k ha
  obtain ⟨_, hg⟩ := r.go_step h2
  have hn : needsLock (r.state k).sys (.app .appRecv) = false := rfl
  unfold goOn at hg
  simp only [hk, hn] at hg
  split at hg
  · exact absurd ‹_› Bool.false_ne_true
  split at hg
  · exact nomatch hg
  simp only [Option.some.injEq, Prod.mk.injEq, sysStep, r.running k, if_true, appStep, List.map_nil] at hg
  have hk1 : (r.state (k + 1)).doing .main = .sending [] := by rw [← hg.2]; exact now_own _ _ _
  have hq1 : (r.state (k + 1)).sys.app.pending = true ∨
      ∃ j, j < i ∧ (r.state (k + 1)).sys.app.queue[j]? = some .initiateLink := by
    rw [← hg.2]
    simp only [Overlap.now]
    cases hp : (r.state k).sys.app.pending with
    | true => exact .inl hp
    | false =>
      rw [hp] at hq
      rcases hq with hq | hq
      · exact nomatch hq
      · simp only [Bool.false_eq_true, if_false, appRecvStep]
        cases hqq : (r.state k).sys.app.queue with
        | nil => rw [hqq] at hq; exact nomatch hq
        | cons ev q =>
          rw [hqq] at hq
          cases ev with
          | initiateLink => exact .inl rfl
          | deviceChange =>
            cases i with
            | zero => exact nomatch hq
            | succ i => exact .inr ⟨i, by omega, hq⟩
  obtain ⟨k2, g1, g2, g3, g4⟩ := r.next_go (p := .main) (by rw [hk1]; exact nofun)
    (r.goes (hw _) (by rw [hk1]; rfl) (by rw [hk1]; exact nofun))
  have hk2 := (g4 k2 g1 (Nat.le_refl _)).trans hk1
  have ha2 := r.adds_until g1 fun j g1 g2 => g3 j g1 g2
  obtain ⟨_, hg2⟩ := r.go_step g2
  simp only [goOn, hk2, Option.some.injEq, Prod.mk.injEq] at hg2
  refine ⟨k2 + 1, by omega, by rw [← hg2.2]; exact now_own _ _ _, ?_⟩
  have : (r.state (k2 + 1)).sys = (r.state k2).sys := by rw [← hg2.2]; rfl
  rw [this]
  rcases hq1 with h | ⟨j, hj, h⟩
  · exact .inl (ha2.2.trans h)
  · exact .inr ⟨j, hj, ha2.get h⟩

/-- From between two steps on, the main thread comes to negotiate. -/
theorem Spec.Endless.main_comes (r : Endless e m db F) (hw : ∀ q, r.NotStopped q) (hl : r.MainLoops) (i : Nat) :
    ∀ n, (r.state n).doing .main = .idle →
    ((r.state n).sys.app.pending = true ∨ (r.state n).sys.app.queue[i]? = some .initiateLink) →
    ∃ k oks, n ≤ k ∧ (r.state k).doing .main = .taken (.app (.appLink oks)) ∧ (r.state k).sys.app.pending = true := by
  induction i using Nat.strongRecOn with
  | ind i ih =>
    intro n hd h
    obtain ⟨k, x, h1, h2, h3, h4, h5, h6⟩ := r.main_takes hd (hl.1 n hd)
    have hx := hl.2 k x h2 h3
    split at hx
    next hp =>
      obtain ⟨oks, rfl⟩ := hx
      exact ⟨k + 1, oks, by omega, h6, by rw [h5]; exact hp⟩
    next hp =>
      subst hx
      obtain ⟨k2, g1, g2, g3⟩ := r.recv hw (i := i) h6 (by
        rw [h5]; exact h.imp (fun h => h4.2.trans h) fun h => h4.get h)
      rcases g3 with g3 | ⟨j, hj, g3⟩
      · obtain ⟨k3, x3, f1, f2, f3, f4, f5, f6⟩ := r.main_takes g2 (hl.1 k2 g2)
        have hx3 := hl.2 k3 x3 f2 f3
        rw [if_pos (f4.2.trans g3)] at hx3
        obtain ⟨oks, rfl⟩ := hx3
        exact ⟨k3 + 1, oks, by omega, f6, by rw [f5]; exact f4.2.trans g3⟩
      · obtain ⟨k4, oks, e1, e2⟩ := ih j hj k2 g2 (.inr g3)
        exact ⟨k4, oks, by omega, e2⟩

/-- After its effect the main thread comes to be between two steps, with all in the channel that was there. -/
theorem Spec.Endless.main_over (r : Endless e m db F) (hf : r.NotStopped .main) (i : Nat) (ev : AppEvent) (N : Nat) :
    ∀ n, ((r.state n).doing .main).left ≤ N → ((r.state n).doing .main).waits = false →
    (r.state n).sys.app.queue[i]? = some ev →
    ∃ k, n ≤ k ∧ (r.state k).doing .main = .idle ∧ (r.state k).sys.app.queue[i]? = some ev := by
  induction N with
  | zero =>
    intro n hl hw hq
    refine ⟨n, Nat.le_refl _, ?_, hq⟩
    cases h : (r.state n).doing .main with
    | idle => rfl
    | taken x => rw [h] at hw; exact nomatch hw
    | _ => rw [h] at hl; simp [Stage.left] at hl
  | succ N ih =>
    intro n hl hw hq
    by_cases hd : (r.state n).doing .main = .idle
    · exact ⟨n, Nat.le_refl _, hd, hq⟩
    · obtain ⟨k, h1, h2, h3, h4⟩ := r.next_go hd (r.goes hf hw hd)
      have hk := h4 k h1 (Nat.le_refl _)
      obtain ⟨outs, hg⟩ := r.go_step h2
      obtain ⟨g1, g2, _⟩ := left_go hg (by rw [hk]; exact hw)
      rw [hk] at g1
      have hq' := (r.adds_until h1 fun j g1 g2 => h3 j g1 g2).get hq
      obtain ⟨ev', he⟩ := r.main_go h2 (by rw [hk]; exact hw)
      obtain ⟨j, hj, hi⟩ := ih (k + 1) (by omega) g2 (by
        rw [he, List.getElem?_append_left]
        · exact hq'
        · exact (List.getElem?_eq_some_iff.1 hq').1)
      exact ⟨j, by omega, hi⟩

/-- Who is at a step that can be finished goes on. -/
theorem Spec.Endless.goes_of_over (r : Endless e m db F) {p : PDJ.Party} {n k : Nat} (hk : n ≤ k)
    (hd : (r.state n).doing p ≠ .idle) (hi : (r.state k).doing p = .idle) : ∃ k, n ≤ k ∧ r.act k = .go p := by
  refine Classical.byContradiction fun hno => hd ?_
  obtain ⟨c, rfl⟩ := Nat.exists_eq_add_of_le hk
  have hst : ∀ c, (r.state (n + c)).doing p = (r.state n).doing p := by
    intro c
    induction c with
    | zero => rfl
    | succ c ih => rw [← Nat.add_assoc, r.stays (by rw [ih]; exact hd) fun h => hno ⟨n + c, by omega, h⟩, ih]
  rw [← hst c]
  exact hi

/-- Until who has the lock goes on, the state stays as it is. -/
theorem Spec.Endless.locked_until (r : Endless e m db F) (hf : r.NotStopped .main) {n : Nat} {st : Stage F}
    (hd : (r.state n).doing .main = st) (hl : st.locked = true) : ∃ k, n ≤ k ∧ r.act k = .go .main ∧
      (r.state k).doing .main = st ∧ (r.state k).sys.app.state = (r.state n).sys.app.state ∧
      (r.state k).sys.app.poisoned = (r.state n).sys.app.poisoned ∧
      (r.state k).sys.app.pending = (r.state n).sys.app.pending := by
  obtain ⟨hw, hni⟩ := locked_waits hl
  subst hd
  obtain ⟨k, h1, h2, h3, h4⟩ := r.next_go hni (r.goes hf hw hni)
  have key : ∀ d, n + d ≤ k → (r.state (n + d)).lock = some .main ∧
      (r.state (n + d)).sys.app.state = (r.state n).sys.app.state ∧
      (r.state (n + d)).sys.app.poisoned = (r.state n).sys.app.poisoned := by
    intro d
    induction d with
    | zero => exact fun _ => ⟨(r.watched n).1.lock .main hl, rfl, rfl⟩
    | succ d ih =>
      intro hd
      obtain ⟨i1, i2, i3⟩ := ih (by omega)
      rcases overlapStep_cases (r.step (n + d)) with ⟨y, _, _, _, hs⟩ | ⟨q, outs, hq, hg, _⟩
      · rw [← Nat.add_assoc, hs]; exact ⟨i1, i2, i3⟩
      · obtain ⟨g1, g2, g3⟩ := (r.watched (n + d)).1.go_other hg i1 fun hqp =>
          h3 (n + d) (by omega) (by omega) (by rw [hq, hqp])
        exact ⟨g1, g2.trans i2, g3.trans i3⟩
  obtain ⟨_, k2, k3⟩ := key (k - n) (by omega)
  rw [show n + (k - n) = k by omega] at k2 k3
  exact ⟨k, h1, h2, h4 k h1 (Nat.le_refl _), k2, k3, (r.adds_until h1 fun j g1 g2 => h3 j g1 g2).2⟩

/-- During a negotiation the state stays as it is. -/
theorem Spec.Endless.links (r : Endless e m db F) (hf : r.NotStopped .main) (x : SysAction F) (os : List SysOut) :
    ∀ n, (r.state n).doing .main = .linking x os → ∃ k, n ≤ k ∧ r.act k = .go .main ∧
      (r.state k).doing .main = .linking x [] ∧ (r.state k).sys.app.state = (r.state n).sys.app.state ∧
      (r.state k).sys.app.poisoned = (r.state n).sys.app.poisoned ∧
      (r.state k).sys.app.pending = (r.state n).sys.app.pending := by
  induction os with
  | nil =>
    intro n hd
    obtain ⟨k, h1, h2, h3, h4, h5, h6⟩ := r.locked_until hf hd rfl
    exact ⟨k, h1, h2, h3, h4, h5, h6⟩
  | cons o os ih =>
    intro n hd
    obtain ⟨k, h1, h2, h3, h4, h5, h6⟩ := r.locked_until hf hd rfl
    obtain ⟨_, hg⟩ := r.go_step h2
    simp only [goOn, h3, Option.some.injEq, Prod.mk.injEq] at hg
    obtain ⟨k', g1, g2, g3, g4, g5, g6⟩ := ih (k + 1) (by rw [← hg.2]; exact now_own _ _ _)
    have hs : (r.state (k + 1)).sys = (r.state k).sys := by rw [← hg.2]; rfl
    rw [hs] at g4 g5 g6
    exact ⟨k', by omega, g2, g3, g4.trans h4, g5.trans h5, g6.trans h6⟩

/-- What the receiver has to tell gets into the channel. -/
theorem Spec.Endless.tells (r : Endless e m db F) (hf : r.NotStopped .receiver) (ev : AppEvent) (ws : List Write) :
    ∀ n, (r.state n).doing .receiver = .updating ws → .tell ev ∈ ws → ∃ k, n ≤ k ∧ ev ∈ (r.state k).sys.app.queue := by
  induction ws with
  | nil => exact fun _ _ h => nomatch h
  | cons w ws ih =>
    intro n hd hev
    obtain ⟨k, h1, h2, _, h4⟩ := r.next_go (p := .receiver) (by rw [hd]; exact nofun)
      (r.goes hf (by rw [hd]; rfl) (by rw [hd]; exact nofun))
    have hk := (h4 k h1 (Nat.le_refl _)).trans hd
    obtain ⟨_, hg⟩ := r.go_step h2
    simp only [goOn, hk, Option.some.injEq, Prod.mk.injEq] at hg
    rcases List.mem_cons.1 hev with rfl | hev
    · refine ⟨k + 1, by omega, ?_⟩
      rw [← hg.2]
      exact List.mem_append_right _ (.head _)
    · obtain ⟨j, g1, g2⟩ := ih (k + 1) (by rw [← hg.2]; exact now_own _ _ _) hev
      exact ⟨j, by omega, g2⟩


/-- The main thread does its loop in a history. -/
def mainOk (e : Endian) (m : Mode) (db : Db) : Overlap F → List (OverlapAction F) → Bool
  | _, [] => true
  | s, a :: h =>
    (match a with
      | .take (.app .appRecv) => !s.sys.app.pending
      | .take (.app (.appLink _)) => s.sys.app.pending
      | _ => true) &&
    match overlapStep e m db s a with
    | none => true
    | some (_, s') => mainOk e m db s' h

/-- The main thread does its loop if it does so at the beginning and is at a step from then on. -/
theorem main_loops (r : Endless e m db F) (h : List (OverlapAction F)) (ha : ∀ n (hn : n < h.length), r.act n = h[n])
    (hm : mainOk e m db .start h = true) (hi : ∀ j, (r.state (h.length + j)).doing .main ≠ .idle)
    (ht : ∀ j x, r.act (h.length + j) = .take x → x.party ≠ .main) : r.MainLoops := by
  refine ⟨fun n hd => ?_, fun n x hx hp => ?_⟩
  · refine Classical.byContradiction fun hno => ?_
    have hst : ∀ d, (r.state (n + d)).doing .main = .idle := by
      intro d
      induction d with
      | zero => exact hd
      | succ d ih =>
        rcases overlapStep_cases (r.step (n + d)) with ⟨y, hy, _, _, hs⟩ | ⟨q, outs, hq, hg, _⟩
        · rw [← Nat.add_assoc, hs, now_other _ fun hp => hno ⟨n + d, y, by omega, hy, hp.symm⟩]
          exact ih
        · rw [← Nat.add_assoc, goOn_other hg fun hp => ?_]
          · exact ih
          · subst hp
            unfold goOn at hg
            rw [ih] at hg
            exact nomatch hg
    refine hi n ?_
    rw [Nat.add_comm]
    exact hst _
  · have hn : n < h.length := by
      refine Classical.byContradiction fun hn => ?_
      obtain ⟨j, rfl⟩ := Nat.exists_eq_add_of_le (Nat.le_of_not_lt hn)
      exact ht j x hx hp
    have key : ∀ n, n ≤ h.length → mainOk e m db (r.state n) (h.drop n) = true := by
      intro n
      induction n with
      | zero => exact fun _ => by rw [r.start]; exact hm
      | succ n ih =>
        intro hn
        have h1 := ih (by omega)
        rw [List.drop_eq_getElem_cons (by omega)] at h1
        simp only [mainOk, Bool.and_eq_true] at h1
        have h2 := h1.2
        rw [← ha n (by omega), r.step n] at h2
        exact h2
    have h1 := key n (by omega)
    rw [List.drop_eq_getElem_cons hn, ← ha n hn, hx] at h1
    simp only [mainOk, Bool.and_eq_true] at h1
    have h2 := h1.1
    cases x with
    | app y =>
      cases y with
      | appRecv => simp only [Bool.not_eq_true'] at h2; simp [h2]
      | appLink oks => simp only at h2; simp [h2]
      | _ => exact nomatch hp
    | _ => exact nomatch hp

/-- Every history in which the main thread does its loop, and after which it waits for an event and nobody can go on,
goes on without an end. -/
theorem loops_prolonged {h : List (OverlapAction F)} {o : List (PDJ.Party × SysOut)} {z : Overlap F}
    (hr : overlapRun e m db .start h = some (o, z)) (hrun : z.sys.app.running = true) (hi : NobodyGoes z)
    (hz : z.doing .main = .taken (.app .appRecv)) (hm : mainOk e m db .start h = true) :
    ∃ r : Endless e m db F, (∀ p, r.NotStopped p) ∧ (∀ p, r.NotPassedOver p) ∧ r.MainLoops ∧
      (∀ n (hn : n < h.length), r.act n = h[n]) ∧ ∀ j p, p ≠ .status → (r.state (h.length + j)).doing p = z.doing p := by
  obtain ⟨r, r1, r2, _, r4, r5⟩ := prolonged hr hrun hi
  exact ⟨r, r1, r2, main_loops r h r4 hm (fun j => by rw [(r5 j).2 .main nofun, hz]; exact nofun)
    (fun j x hx => by rw [(r5 j).1 x hx]; exact nofun), r4, fun j => (r5 j).2⟩

/-- A history that ends where it began can be repeated for ever. -/
theorem looped {h c : List (OverlapAction F)} {o o' : List (PDJ.Party × SysOut)} {z : Overlap F}
    (hr : overlapRun e m db .start h = some (o, z)) (hc : overlapRun e m db z c = some (o', z)) (hne : 0 < c.length) :
    ∃ r : Endless e m db F, (∀ n (hn : n < h.length), r.act n = h[n]) ∧
      (∀ j, c[j % c.length]? = some (r.act (h.length + j))) ∧
      ∃ st : Nat → Overlap F, st 0 = z ∧
        (∀ n (hn : n < c.length), ∃ o, overlapStep e m db (st n) c[n] = some (o, st (n + 1))) ∧
        ∀ j, r.state (h.length + j) = st (j % c.length) := by
  obtain ⟨st, out, g1, g2, g3⟩ := prefix_step h hr
  obtain ⟨st', out', f1, f2, f3⟩ := prefix_step c hc
  let S : Nat → Overlap F := fun n => if n ≤ h.length then st n else st' ((n - h.length) % c.length)
  let A : Nat → OverlapAction F := fun n => if hn : n < h.length then h[n] else
    c[(n - h.length) % c.length]'(Nat.mod_lt _ hne)
  let O : Nat → List (PDJ.Party × SysOut) := fun n => if n < h.length then out n else out' ((n - h.length) % c.length)
  have hS : ∀ j, S (h.length + j) = st' (j % c.length) := by
    intro j
    cases j with
    | zero => simp only [S, Nat.add_zero, Nat.le_refl, if_true, Nat.zero_mod, f1]; exact g2
    | succ j =>
      have : ¬ h.length + (j + 1) ≤ h.length := by omega
      simp only [S, this, if_false]
      congr 2
      omega
  have hA : ∀ j, A (h.length + j) = c[j % c.length]'(Nat.mod_lt _ hne) := by
    intro j
    have : ¬ h.length + j < h.length := by omega
    simp only [A, this, dif_neg, not_false_eq_true]
    congr 2
    omega
  have hstep : ∀ n, overlapStep e m db (S n) (A n) = some (O n, S (n + 1)) := by
    intro n
    by_cases hn : n < h.length
    · have h1 : n ≤ h.length := by omega
      have h2 : n + 1 ≤ h.length := hn
      simp only [S, A, O, hn, h1, h2, if_true, dif_pos]
      exact g3 n hn
    · obtain ⟨j, rfl⟩ := Nat.exists_eq_add_of_le (Nat.le_of_not_lt hn)
      rw [Nat.add_assoc, hS, hS, hA]
      simp only [O, hn, if_false]
      rw [show h.length + j - h.length = j by omega, f3 _ (Nat.mod_lt _ hne)]
      congr 2
      by_cases hl : j % c.length + 1 = c.length
      · have : (j + 1) % c.length = 0 := by
          rw [Nat.add_mod, show j % c.length = c.length - 1 by omega]
          by_cases h1 : c.length = 1
          · rw [h1]
          · rw [Nat.mod_eq_of_lt (show 1 < c.length by omega), show c.length - 1 + 1 = c.length by omega, Nat.mod_self]
        rw [this, hl, f1, f2]
      · have hlt : j % c.length < c.length := Nat.mod_lt _ hne
        rw [Nat.add_mod, Nat.mod_eq_of_lt (show 1 < c.length by omega), Nat.mod_eq_of_lt (show j % c.length + 1 < c.length by omega)]
  refine ⟨⟨S, A, O, ?_, hstep⟩, fun n hn => ?_, fun j => ?_, st', f1, fun n hn => ⟨_, f3 n hn⟩, hS⟩
  · simp only [S, Nat.zero_le, if_true]; exact g1
  · simp only [A, hn, dif_pos]
  · show _ = some (A (h.length + j))
    rw [hA, List.getElem?_eq_getElem]

/-- A step of the broadcaster with the lock free. -/
theorem announce_cycle (z : Overlap F) (hr : z.sys.app.running = true) (hl : z.lock = none)
    (hi : z.doing .broadcaster = .idle) (x : SysOut)
    (hs : sysStep e m db z.sys (.app (.broadcast true)) = ([x], z.sys)) (hn : needsLock z.sys (.app (.broadcast true)) = true) :
    (overlapStep e m db z (.take (.app (.broadcast true))) =
      some ([], z.now .broadcaster (.taken (.app (.broadcast true))))) ∧
    (overlapStep e m db (z.now .broadcaster (.taken (.app (.broadcast true)))) (.go .broadcaster) =
      some ([], { z with lock := some .broadcaster }.now .broadcaster (.holding [x]))) ∧
    (overlapStep e m db ({ z with lock := some .broadcaster }.now .broadcaster (.holding [x])) (.go .broadcaster) =
      some ([(.broadcaster, x)], { z with lock := some .broadcaster }.now .broadcaster (.holding []))) ∧
    (overlapStep e m db ({ z with lock := some .broadcaster }.now .broadcaster (.holding [])) (.go .broadcaster) =
      some ([], z.now .broadcaster (.sending []))) ∧
    overlapRun e m db z (.take (.app (.broadcast true)) :: List.replicate 4 (.go .broadcaster)) =
      some ([(.broadcaster, x)], z) := by
  have e1 : overlapStep e m db z (.take (.app (.broadcast true))) =
      some ([], z.now .broadcaster (.taken (.app (.broadcast true)))) := by
    simp only [overlapStep, hr, if_true]
    rw [show (SysAction.app (.broadcast true) : SysAction F).party = .broadcaster from rfl, hi]
  have go : ∀ (s s' : Overlap F) (outs : List SysOut), s.sys = z.sys → goOn e m db s .broadcaster = some (outs, s') →
      overlapStep e m db s (.go .broadcaster) = some (outs.map fun o => (.broadcaster, o), s') := by
    intro s s' outs h1 h2
    simp only [overlapStep, h1, hr, if_true, h2, Option.map_some]
  have e2 : overlapStep e m db (z.now .broadcaster (.taken (.app (.broadcast true)))) (.go .broadcaster) =
      some ([], { z with lock := some .broadcaster }.now .broadcaster (.holding [x])) := by
    refine go _ _ [] rfl ?_
    simp only [goOn, now_own]
    rw [show (z.now .broadcaster (.taken (.app (.broadcast true)))).sys = z.sys from rfl, hn, if_pos rfl,
      show (z.now .broadcaster (.taken (.app (.broadcast true)))).lock = z.lock from rfl, hl, if_pos rfl]
    refine congrArg (fun a => some ([], a)) ?_
    simp only [enter]
    rw [show (z.now .broadcaster (.taken (.app (.broadcast true)))).sys = z.sys from rfl, hs]
    exact now_now { z with lock := some .broadcaster } _ _ _
  have e3 : overlapStep e m db ({ z with lock := some .broadcaster }.now .broadcaster (.holding [x])) (.go .broadcaster) =
      some ([(.broadcaster, x)], { z with lock := some .broadcaster }.now .broadcaster (.holding [])) := by
    refine go _ _ [x] rfl ?_
    simp only [goOn, now_own]
    exact congrArg (fun a => some ([x], a)) (now_now { z with lock := some .broadcaster } _ _ _)
  have e4 : overlapStep e m db ({ z with lock := some .broadcaster }.now .broadcaster (.holding [])) (.go .broadcaster) =
      some ([], z.now .broadcaster (.sending [])) := by
    refine go _ _ [] rfl ?_
    simp only [goOn, now_own]
    refine congrArg (fun a => some ([], a)) ?_
    have : z = { z with lock := none } := by rw [← hl]
    rw [this]
    exact now_now { z with lock := none } _ _ _
  have e5 : overlapStep e m db (z.now .broadcaster (.sending [])) (.go .broadcaster) = some ([], z) := by
    refine go _ _ [] rfl ?_
    simp only [goOn, now_own, now_now]
    rw [← hi, now_same]
  refine ⟨e1, e2, e3, e4, ?_⟩
  simp only [List.replicate, overlapRun, e1, e2, e3, e4, e5, List.nil_append, List.append_nil]

/-- Something holds in every state of a history. -/
def along (e : Endian) (m : Mode) (db : Db) (p : Overlap F → Bool) : Overlap F → List (OverlapAction F) → Bool
  | s, [] => p s
  | s, a :: h => p s && match overlapStep e m db s a with
    | none => true
    | some (_, s') => along e m db p s' h

theorem along_state {p : Overlap F → Bool} (r : Endless e m db F) (h : List (OverlapAction F))
    (ha : ∀ n (hn : n < h.length), r.act n = h[n]) (hp : along e m db p .start h = true) :
    ∀ n, n ≤ h.length → along e m db p (r.state n) (h.drop n) = true ∧ p (r.state n) = true := by
  have here : ∀ (s : Overlap F) (g : List (OverlapAction F)), along e m db p s g = true → p s = true := by
    intro s g hg
    cases g with
    | nil => exact hg
    | cons a g => simp only [along, Bool.and_eq_true] at hg; exact hg.1
  intro n
  induction n with
  | zero => exact fun _ => by rw [r.start]; exact ⟨hp, here _ _ hp⟩
  | succ n ih =>
    intro hn
    have h1 := (ih (by omega)).1
    rw [List.drop_eq_getElem_cons (by omega)] at h1
    simp only [along, Bool.and_eq_true] at h1
    have h2 := h1.2
    rw [← ha n (by omega), r.step n] at h2
    exact ⟨h2, here _ _ h2⟩

end PDJ

import Verif.Lemmas.Overlap

/-!
# C127: steps that overlap in time

Threads and tasks that work at the same time send and remember what they send and remember if each step is taken as a
whole, one after the other, in an order that respects which step was over before another began.
-/

namespace PDJ

open Spec

variable {F : Type}

/-- **C127.**  To every history of overlapping steps there is an order of the steps that have had their effect such
that:

* the order only grows as the history goes on, so a step that is over comes before every step that begins afterwards;
* it has all steps each thread or task has begun, in the order in which it has begun them, except for the one it is at
  if that has not had its effect yet;
* what each thread or task has sent is the beginning of what it sends if the steps are taken as a whole one after the
  other in that order, with the one it is at last, and all of it if it is between two steps;
* when nobody has the lock, the state is the one after those steps. -/
theorem C127_one_by_one (e : Endian) (m : Mode) (db : Db) :
    ∃ lin : List (OverlapAction F) → List (SysAction F), (∀ h h', lin h <+: lin (h ++ h')) ∧
      ∀ h o s, overlapRun e m db .start h = some (o, s) →
        (∀ p, ∃ more, stepsOf p (begunSteps h) = stepsOf p (lin h) ++ more ∧ more.length ≤ 1 ∧
          sentOf p o <+: sentBy e m db p .start (lin h ++ more) ∧
          (s.doing p = .idle → more = [] ∧ sentOf p o = sentBy e m db p .start (lin h))) ∧
        (s.lock = none → (sysRun e m db .start (lin h)).2 = s.sys) ∧
        ((∀ p, s.doing p = .idle) → s.lock = none) := by
  refine ⟨effects e m db .start, effects_prefix e m db .start, ?_⟩
  intro h o s hr
  obtain ⟨hl, hh⟩ := (lined_start e m db).history held_start h hr
  simp only [List.nil_append] at hl
  refine ⟨fun p => ?_, ?_, ?_⟩
  · have hp := hl.ok p
    unfold PartyOk at hp
    cases hd : s.doing p with
    | idle =>
      simp only [hd] at hp
      exact ⟨[], by rw [hp.2, List.append_nil], by simp, by rw [hp.1, List.append_nil]; exact List.prefix_rfl, fun _ => ⟨rfl, hp.1⟩⟩
    | taken x =>
      simp only [hd] at hp
      refine ⟨[x], hp.2.2.symm, by simp, ?_, nofun⟩
      rw [hp.2.1, sentBy_own _ _ _ _ _ _ _ hp.1]
      exact List.prefix_append _ _
    | updating ws =>
      simp only [hd] at hp
      refine ⟨[], by rw [hp.2.2.2, List.append_nil], by simp, ?_, nofun⟩
      rw [hp.2.2.1, List.append_nil]
      exact List.prefix_rfl
    | linking x rest =>
      simp only [hd] at hp
      obtain ⟨hx, hlk, hlock, hs, hb⟩ := hp
      refine ⟨[x], hb.symm, by simp, ?_, nofun⟩
      have hw : s.whole = s.sys :=
        Overlap.whole_of (hl.not_updating (by rw [hlock, ← hx, links_main hlk]; exact nofun))
      rw [sentBy_own _ _ _ _ _ _ _ hx, hl.run, hw, ← hs]
      exact List.prefix_append _ _
    | holding os =>
      simp only [hd] at hp
      refine ⟨[], by rw [hp.2.2, List.append_nil], by simp, ?_, nofun⟩
      rw [List.append_nil, ← hp.2.1]
      exact List.prefix_append _ _
    | reading os =>
      simp only [hd] at hp
      refine ⟨[], by rw [hp.2.2, List.append_nil], by simp, ?_, nofun⟩
      rw [List.append_nil, ← hp.2.1]
      exact List.prefix_append _ _
    | sending os =>
      simp only [hd] at hp
      refine ⟨[], by rw [hp.2, List.append_nil], by simp, ?_, nofun⟩
      rw [List.append_nil, ← hp.1]
      exact List.prefix_append _ _
  · intro hn
    rw [hl.run, Overlap.whole_of (hl.not_updating (by rw [hn]; exact nofun))]
  · intro hi
    cases hk : s.lock with
    | none => rfl
    | some p =>
      have := hh p hk
      rw [hi p] at this
      exact nomatch this

/-- **C127.**  Nobody waits for the lock for ever: whatever has happened, every thread or task that is at a step can
finish it without anybody beginning another, unless the process ends or it is the main thread, which waits for an event
and there is none. -/
theorem C127_finishes (e : Endian) (m : Mode) (db : Db) (h : List (OverlapAction F)) (o : List (Party × SysOut))
    (s : Overlap F) (hr : overlapRun e m db .start h = some (o, s)) (hrun : s.sys.app.running = true) (p : Party) :
    ∃ h' o' s', OnlyGoing h' ∧ overlapRun e m db s h' = some (o', s') ∧
      (s'.doing p = .idle ∨ s'.sys.app.running = false ∨
        (s'.doing p = .taken (.app .appRecv) ∧ s'.sys.app.queue = [] ∧ s'.sys.app.pending = false)) := by
  obtain ⟨_, hh⟩ := (lined_start e m db).history held_start h hr
  clear hr
  suffices hgoal : ∃ s', GoesTo e m db s s' ∧ (s'.doing p = .idle ∨ s'.sys.app.running = false ∨
        (s'.doing p = .taken (.app .appRecv) ∧ s'.sys.app.queue = [] ∧ s'.sys.app.pending = false)) by
    obtain ⟨s', ⟨h', o', h1, h2⟩, h3⟩ := hgoal
    exact ⟨h', o', s', h1, h2, h3⟩
  have hsend : ∀ (t : Overlap F) os, GoesTo e m db s t → t.doing p = .sending os →
      ∃ s', GoesTo e m db s s' ∧ (s'.doing p = .idle ∨ s'.sys.app.running = false ∨
        (s'.doing p = .taken (.app .appRecv) ∧ s'.sys.app.queue = [] ∧ s'.sys.app.pending = false)) := by
    intro t os ht hd
    cases hrt : t.sys.app.running with
    | false => exact ⟨t, ht, .inr (.inl hrt)⟩
    | true =>
      obtain ⟨s', h1, h2⟩ := goes_sending e m db p os t hrt hd
      exact ⟨s', ht.trans h1, .inl h2⟩
  have hlocked : ∀ t : Overlap F, GoesTo e m db s t → (t.doing p).locked = true →
      ∃ s', GoesTo e m db s s' ∧ (s'.doing p = .idle ∨ s'.sys.app.running = false ∨
        (s'.doing p = .taken (.app .appRecv) ∧ s'.sys.app.queue = [] ∧ s'.sys.app.pending = false)) := by
    intro t ht hd
    cases hrt : t.sys.app.running with
    | false => exact ⟨t, ht, .inr (.inl hrt)⟩
    | true =>
      obtain ⟨s', os, h1, _, h2, _⟩ := goes_locked e m db p t hrt hd
      exact hsend s' os (ht.trans h1) h2
  cases hd : s.doing p with
  | idle => exact ⟨s, .refl e m db s, .inl hd⟩
  | sending os => exact hsend s os (.refl e m db s) hd
  | taken x =>
    have hfree : ∃ t, GoesTo e m db s t ∧ t.lock = none ∧ t.doing p = .taken x := by
      cases hk : s.lock with
      | none => exact ⟨s, .refl e m db s, hk, hd⟩
      | some q =>
        have hq := hh q hk
        obtain ⟨t, os, h1, h2, _, h3⟩ := goes_locked e m db q s hrun hq
        refine ⟨t, h1, h2, ?_⟩
        rw [h3 p, hd]
        intro hc
        rw [← hc, hd] at hq
        exact nomatch hq
    obtain ⟨t, ht, hlk, hdt⟩ := hfree
    cases hrt : t.sys.app.running with
    | false => exact ⟨t, ht, .inr (.inl hrt)⟩
    | true =>
      cases hn : needsLock t.sys x with
      | true =>
        have hg : goOn e m db t p = some ([], enter e m db t p x) := by simp [goOn, hdt, hn, hlk]
        exact hlocked _ (ht.trans (.one hrt p hg)) (enter_lock e m db t p x).2.1
      | false =>
        cases ha : awaitsEvent t.sys x with
        | true =>
          refine ⟨t, ht, .inr (.inr ?_)⟩
          cases x with
          | app y =>
            cases y with
            | appRecv =>
              simp only [awaitsEvent, Bool.and_eq_true, Bool.not_eq_true', List.isEmpty_iff] at ha
              exact ⟨hdt, ha.2, ha.1⟩
            | _ => exact nomatch ha
          | _ => exact nomatch ha
        | false =>
          have hg : goOn e m db t p = some ([], { t with sys := (sysStep e m db t.sys x).2 }.now p
              (.sending (sysStep e m db t.sys x).1)) := by simp [goOn, hdt, hn, ha]
          exact hsend _ _ (ht.trans (.one hrt p hg)) (now_own _ _ _)
  | _ =>
    refine hlocked s (.refl e m db s) ?_
    rw [hd]
    rfl

theorem whole_steps (e : Endian) (m : Mode) (db : Db) (xs : List (SysAction F)) : ∀ s : Overlap F, s.lock = none →
    (s.sys.app.running = true → ∀ p, s.doing p = .idle) →
    ∃ h o s', overlapRun e m db s h = some (o, s') ∧ o.map Prod.snd = (sysRun e m db s.sys xs).1 ∧
      s'.sys = (sysRun e m db s.sys xs).2 ∧ s'.lock = none ∧ (s'.sys.app.running = true → ∀ p, s'.doing p = .idle) ∧
      (begunSteps h).Sublist xs ∧
      (s'.sys.app.running = true → (.app .appRecv) ∉ xs → begunSteps h = xs) := by
  induction xs with
  | nil => exact fun s hl hi => ⟨[], [], s, rfl, rfl, rfl, hl, hi, List.Sublist.refl _, fun _ _ => rfl⟩
  | cons x xs ih =>
    intro s hl hi
    have skip : sysStep e m db s.sys x = ([], s.sys) → (s.sys.app.running = true → x = .app .appRecv) →
        ∃ h o s', overlapRun e m db s h = some (o, s') ∧
        o.map Prod.snd = (sysRun e m db s.sys (x :: xs)).1 ∧ s'.sys = (sysRun e m db s.sys (x :: xs)).2 ∧
        s'.lock = none ∧ (s'.sys.app.running = true → ∀ p, s'.doing p = .idle) ∧ (begunSteps h).Sublist (x :: xs) ∧
        (s'.sys.app.running = true → (.app .appRecv) ∉ x :: xs → begunSteps h = x :: xs) := by
      intro hs hx
      simp only [sysRun, hs, List.nil_append]
      obtain ⟨h, o, s', h1, h2, h3, h4, h5, h6, _⟩ := ih s hl hi
      refine ⟨h, o, s', h1, h2, h3, h4, h5, h6.trans (List.sublist_cons_self _ _), fun hr hn => ?_⟩
      exact absurd (hx (running_back e m db xs s.sys (by rw [← h3]; exact hr)) ▸ List.mem_cons_self) hn
    cases hr : s.sys.app.running with
    | false => exact skip (by simp [sysStep, hr]) (by rw [hr]; exact nofun)
    | true =>
      cases ha : awaitsEvent s.sys x with
      | true =>
        refine skip (awaits_nothing e m db s.sys x ha) fun _ => ?_
        cases x with
        | app y => cases y <;> first | rfl | exact nomatch ha
        | _ => exact nomatch ha
      | false =>
        have ht : overlapRun e m db s [.take x] = some ([], s.now x.party (.taken x)) := by
          simp [overlapRun, overlapStep, hr, hi hr x.party]
        obtain ⟨h1, s1, hr1, hs1, hl1, hq1, hp1, hb1⟩ :=
          finishes_taken e m db (s.now x.party (.taken x)) x hr (now_own _ _ _) hl ha
        have hs1' : s1.sys = (sysStep e m db s.sys x).2 := hs1
        obtain ⟨h2, o2, s2, hr2, ho2, hs2, hl2, hi2, hb2, hb2'⟩ := ih s1 hl1 (by
          intro hrun p
          by_cases hp : p = x.party
          · rw [hp]
            exact hp1 (by rw [← hs1]; exact hrun)
          · rw [hq1 p hp, now_other _ hp]
            exact hi hr p)
        have hb : begunSteps ([.take x] ++ (h1 ++ h2)) = x :: begunSteps h2 := by
          rw [begunSteps_append, begunSteps_append, hb1]
          rfl
        refine ⟨[.take x] ++ (h1 ++ h2), _, s2, overlapRun_append e m db ht (overlapRun_append e m db hr1 hr2), ?_, ?_,
          hl2, hi2, ?_, ?_⟩
        · simp only [sysRun, List.nil_append, List.map_append, List.map_map, ho2, hs1']
          congr 1
          simp [Function.comp_def, Overlap.now]
        · rw [hs2, hs1']
          rfl
        · rw [hb]
          exact hb2.cons_cons _
        · intro hrun hn
          rw [hb, hb2' hrun fun h => hn (List.mem_cons_of_mem _ h)]

/-- **C127.**  Conversely every history of whole steps is one of overlapping steps: it can be that the same is sent in
the same order and that the state is the same in the end, with everybody between two steps if the process runs; the
steps begun are those of the history, except for those that do nothing because there is no event or no process. -/
theorem C127_every_order (e : Endian) (m : Mode) (db : Db) (xs : List (SysAction F)) :
    ∃ h o s, overlapRun e m db .start h = some (o, s) ∧ o.map Prod.snd = (sysRun e m db .start xs).1 ∧
      s.sys = (sysRun e m db .start xs).2 ∧ (s.sys.app.running = true → ∀ p, s.doing p = .idle) ∧
      (begunSteps h).Sublist xs ∧
      (s.sys.app.running = true → (.app .appRecv) ∉ xs → begunSteps h = xs) := by
  obtain ⟨h, o, s, h1, h2, h3, _, h5⟩ := whole_steps e m db xs .start rfl fun _ _ => rfl
  exact ⟨h, o, s, h1, h2, h3, h5⟩

/-- **C127.**  When the process has ended, nothing goes on and nothing more is sent. -/
theorem C127_ended (e : Endian) (m : Mode) (db : Db) (s s' : Overlap F) (hr : s.sys.app.running = false)
    (h : List (OverlapAction F)) (o : List (Party × SysOut)) (hx : overlapRun e m db s h = some (o, s')) :
    h = [] ∧ o = [] ∧ s' = s := by
  cases h with
  | nil =>
    simp only [overlapRun, Option.some.injEq, Prod.mk.injEq] at hx
    exact ⟨rfl, hx.1.symm, hx.2.symm⟩
  | cons a h =>
    have : overlapStep e m db s a = none := by cases a <;> simp [overlapStep, hr]
    simp [overlapRun, this] at hx

/-- A history in which the broadcaster has the lock while the receiver takes up a datagram; the receiver waits, and
hears of the player afterwards, while the broadcaster is still to go on. -/
def exampleOverlap : List (OverlapAction Nat) :=
  [.take (.app (.broadcast true)), .go .broadcaster, .take (.app (.receive exampleInterfaces exampleDatagram)),
    .take (.app .appRecv), .go .broadcaster, .go .receiver, .go .receiver, .go .receiver, .go .receiver]

/-- The hypotheses of C127 are met: the receiver has told the main thread of a player and still has the lock. -/
example (e : Endian) (m : Mode) (db : Db) : ∃ o s, overlapRun e m db .start exampleOverlap = some (o, s) ∧
    s.sys.app.running = true ∧ s.lock = some .receiver ∧ s.sys.app.queue ≠ [] := by
  refine ⟨_, _, rfl, rfl, rfl, ?_⟩
  exact List.cons_ne_nil _ _

example (e : Endian) (m : Mode) (db : Db) (o : List (Party × SysOut)) (s : Overlap Nat)
    (h : overlapRun e m db .start exampleOverlap = some (o, s)) (hr : s.sys.app.running = true) :=
  C127_finishes e m db exampleOverlap o s h hr .main

example (e : Endian) (m : Mode) (db : Db) :=
  C127_ended e m db { (.start : Overlap Nat) with sys := { (.start : System Nat) with app := { (System.start : System Nat).app with running := false } } }
    _ rfl [] [] rfl

/-- C127_every_order: two players connect, with nothing left out. -/
example (e : Endian) (m : Mode) (db : Db) : ∃ h o s, overlapRun e m db (.start : Overlap Nat) h = some (o, s) ∧
    begunSteps h = [.accept 0, .accept 1, .main 0 (some 4711)] ∧ o.map Prod.snd = [.lib (.toMain 0 (be16 4711))] := by
  obtain ⟨h, o, s, h1, h2, h3, _, _, h4⟩ :=
    C127_every_order (F := Nat) e m db [.accept 0, .accept 1, .main 0 (some 4711)]
  exact ⟨h, o, s, h1, h4 (by rw [h3]; rfl) (by simp), by rw [h2]; rfl⟩

/-- The receiver cannot go on while the broadcaster has the lock. -/
example (e : Endian) (m : Mode) (db : Db) :
    overlapRun e m db (.start : Overlap Nat) (exampleOverlap.take 4 ++ [.go .receiver]) = none := rfl

end PDJ

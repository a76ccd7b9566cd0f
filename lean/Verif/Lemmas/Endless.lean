import Verif.Spec.Endless
import Verif.Props.OverlapTrue

/-!
# Histories of overlapping steps without an end: lemmas
-/

namespace PDJ

open Spec

variable {F : Type}

variable {e : Endian} {m : Mode} {db : Db}

theorem Spec.Endless.running (r : Endless e m db F) (n : Nat) : (r.state n).sys.app.running = true := by
  have h := r.step n
  cases hr : (r.state n).sys.app.running with
  | true => rfl
  | false => cases ha : r.act n <;> simp [ha, overlapStep, hr] at h

theorem Spec.Endless.watched (r : Endless e m db F) (n : Nat) : Watched (r.state n) ∧ (r.state n).Held := by
  induction n with
  | zero => rw [r.start]; exact ⟨watched_start, held_start⟩
  | succ n ih => exact ⟨(ih.1.step (r.step n)).1, ih.2.step (r.step n)⟩

/-- Who is at a step stays where it is until it goes on. -/
theorem Spec.Endless.stays (r : Endless e m db F) {n : Nat} {p : PDJ.Party} (hd : (r.state n).doing p ≠ .idle)
    (ha : r.act n ≠ .go p) : (r.state (n + 1)).doing p = (r.state n).doing p := by
  rcases overlapStep_cases (r.step n) with ⟨x, hx, hi, _, hs⟩ | ⟨q, outs, hq, hg, _⟩
  · rw [hs]
    exact now_other _ (fun hp => hd (by rw [hp]; exact hi)) _
  · exact goOn_other hg fun hp => ha (by rw [hq, hp])

/-- The first time it goes on. -/
theorem Spec.Endless.next_go (r : Endless e m db F) {n : Nat} {p : PDJ.Party} (hd : (r.state n).doing p ≠ .idle)
    (h : ∃ k, n ≤ k ∧ r.act k = .go p) :
    ∃ k, n ≤ k ∧ r.act k = .go p ∧ (∀ j, n ≤ j → j < k → r.act j ≠ .go p) ∧
      ∀ j, n ≤ j → j ≤ k → (r.state j).doing p = (r.state n).doing p := by
  obtain ⟨k, hk, ha⟩ := h
  obtain ⟨d, rfl⟩ := Nat.exists_eq_add_of_le hk
  clear hk
  induction d generalizing n with
  | zero =>
    refine ⟨n, Nat.le_refl _, ha, fun j h1 h2 => absurd h1 (by omega), fun j h1 h2 => ?_⟩
    rw [Nat.le_antisymm h2 h1]
  | succ d ih =>
    by_cases hn : r.act n = .go p
    · refine ⟨n, Nat.le_refl _, hn, fun j h1 h2 => absurd h1 (by omega), fun j h1 h2 => ?_⟩
      rw [Nat.le_antisymm h2 h1]
    · have hs := r.stays hd hn
      obtain ⟨k, h1, h2, h3, h4⟩ := ih (n := n + 1) (by rw [hs]; exact hd) (by rw [show n + 1 + d = n + (d + 1) by omega]; exact ha)
      refine ⟨k, by omega, h2, fun j hj hjk => ?_, fun j hj hjk => ?_⟩
      · by_cases hjn : j = n
        · rw [hjn]; exact hn
        · exact h3 j (by omega) hjk
      · by_cases hjn : j = n
        · rw [hjn]
        · rw [h4 j (by omega) hjk, hs]

/-- How often a party at this stage has to go on. -/
def Stage.left : Stage F → Nat
  | .idle => 0
  | .taken _ => 0
  | .updating ws => ws.length + 2
  | .linking _ os => os.length + 2
  | .holding os => os.length + 2
  | .reading os => os.length + 2
  | .sending os => os.length + 1

/-- After the effect one can always go on. -/
theorem after_effect (s : Overlap F) (p : PDJ.Party) (hw : (s.doing p).waits = false) (hd : s.doing p ≠ .idle) :
    ∃ outs s', goOn e m db s p = some (outs, s') := by
  unfold goOn
  cases h : s.doing p with
  | idle => exact absurd h hd
  | taken x => rw [h] at hw; exact nomatch hw
  | updating ws => cases ws <;> exact ⟨_, _, rfl⟩
  | linking x os => cases os <;> exact ⟨_, _, rfl⟩
  | holding os => cases os <;> exact ⟨_, _, rfl⟩
  | reading os => exact ⟨_, _, rfl⟩
  | sending os => cases os <;> exact ⟨_, _, rfl⟩

/-- Going on brings a step nearer to its end, and who has the lock has it still or has given it back. -/
theorem left_go {s s' : Overlap F} {p : PDJ.Party} {outs : List SysOut} (hg : goOn e m db s p = some (outs, s'))
    (hw : (s.doing p).waits = false) : (s'.doing p).left < (s.doing p).left ∧ (s'.doing p).waits = false ∧
      ((s.doing p).locked = true → s'.lock = none ∨ (s'.lock = s.lock ∧ (s'.doing p).locked = true)) := by
  unfold goOn at hg
  cases h : s.doing p with
  | idle => simp only [h] at hg; exact nomatch hg
  | taken x => rw [h] at hw; exact nomatch hw
  | updating ws =>
    cases ws <;> simp only [h, Option.some.injEq, Prod.mk.injEq] at hg <;> obtain ⟨_, rfl⟩ := hg <;> rw [now_own]
    · exact ⟨by simp [Stage.left], rfl, fun _ => .inl rfl⟩
    · exact ⟨by simp [Stage.left], rfl, fun _ => .inr ⟨rfl, rfl⟩⟩
  | linking x os =>
    cases os <;> simp only [h, Option.some.injEq, Prod.mk.injEq] at hg <;> obtain ⟨_, rfl⟩ := hg <;> rw [now_own]
    · exact ⟨by simp [Stage.left], rfl, fun _ => .inl rfl⟩
    · exact ⟨by simp [Stage.left], rfl, fun _ => .inr ⟨rfl, rfl⟩⟩
  | holding os =>
    cases os <;> simp only [h, Option.some.injEq, Prod.mk.injEq] at hg <;> obtain ⟨_, rfl⟩ := hg <;> rw [now_own]
    · exact ⟨by simp [Stage.left], rfl, fun _ => .inl rfl⟩
    · exact ⟨by simp [Stage.left], rfl, fun _ => .inr ⟨rfl, rfl⟩⟩
  | reading os =>
    simp only [h, Option.some.injEq, Prod.mk.injEq] at hg
    obtain ⟨_, rfl⟩ := hg
    rw [now_own]
    exact ⟨by simp [Stage.left], rfl, fun _ => .inl rfl⟩
  | sending os =>
    cases os <;> simp only [h, Option.some.injEq, Prod.mk.injEq] at hg <;> obtain ⟨_, rfl⟩ := hg <;> rw [now_own] <;>
      exact ⟨by simp [Stage.left], rfl, nofun⟩

theorem Spec.Endless.go_step (r : Endless e m db F) {k : Nat} {p : PDJ.Party} (ha : r.act k = .go p) :
    ∃ outs, goOn e m db (r.state k) p = some (outs, r.state (k + 1)) := by
  rcases overlapStep_cases (r.step k) with ⟨x, hx, _⟩ | ⟨q, outs, hq, hg, _⟩
  · rw [ha] at hx; exact nomatch hx
  · rw [ha] at hq
    cases hq
    exact ⟨outs, hg⟩

theorem canGo_of {s : Overlap F} {p : PDJ.Party} (hr : s.sys.app.running = true) {outs : List SysOut}
    {s' : Overlap F} (h : goOn e m db s p = some (outs, s')) : CanGo e m db s p :=
  ⟨outs.map fun o => (p, o), s', by simp only [overlapStep, hr, if_true, h, Option.map_some]⟩

/-- After its effect a step goes on. -/
theorem Spec.Endless.goes (r : Endless e m db F) {n : Nat} {p : PDJ.Party} (hf : r.NotStopped p)
    (hw : ((r.state n).doing p).waits = false) (hd : (r.state n).doing p ≠ .idle) :
    ∃ k, n ≤ k ∧ r.act k = .go p := by
  refine Classical.byContradiction fun hno => hno (hf ⟨n, fun k hk => ?_⟩ n)
  have hst : ∀ d, (r.state (n + d)).doing p = (r.state n).doing p := by
    intro d
    induction d with
    | zero => rfl
    | succ d ih =>
      rw [← Nat.add_assoc, r.stays (by rw [ih]; exact hd) fun ha => hno ⟨n + d, by omega, ha⟩, ih]
  obtain ⟨d, rfl⟩ := Nat.exists_eq_add_of_le hk
  obtain ⟨outs, s', hg⟩ := after_effect (e := e) (m := m) (db := db) (r.state (n + d)) p (by rw [hst]; exact hw)
    (by rw [hst]; exact hd)
  exact canGo_of (r.running _) hg

/-- After its effect a step is finished. -/
theorem Spec.Endless.over (r : Endless e m db F) {p : PDJ.Party} (hf : r.NotStopped p) (N : Nat) :
    ∀ n, ((r.state n).doing p).left ≤ N → ((r.state n).doing p).waits = false →
    ∃ k, n ≤ k ∧ (r.state k).doing p = .idle := by
  induction N with
  | zero =>
    intro n hl hw
    refine ⟨n, Nat.le_refl _, ?_⟩
    cases h : (r.state n).doing p with
    | idle => rfl
    | taken x => rw [h] at hw; exact nomatch hw
    | _ => rw [h] at hl; simp [Stage.left] at hl
  | succ N ih =>
    intro n hl hw
    by_cases hd : (r.state n).doing p = .idle
    · exact ⟨n, Nat.le_refl _, hd⟩
    · obtain ⟨k, h1, h2, _, h4⟩ := r.next_go hd (r.goes hf hw hd)
      have hk := h4 k h1 (Nat.le_refl _)
      obtain ⟨outs, hg⟩ := r.go_step h2
      obtain ⟨g1, g2, _⟩ := left_go hg (by rw [hk]; exact hw)
      rw [hk] at g1
      obtain ⟨j, hj, hi⟩ := ih (k + 1) (by omega) g2
      exact ⟨j, by omega, hi⟩

theorem locked_waits {st : Stage F} (h : st.locked = true) : st.waits = false ∧ st ≠ .idle := by
  cases st <;> first | (cases h; done) | exact ⟨rfl, nofun⟩

/-- The lock is free again and again. -/
theorem Spec.Endless.free (r : Endless e m db F) (hf : ∀ p, r.NotStopped p) : ∀ n, ∃ k, n ≤ k ∧ (r.state k).lock = none := by
  have key : ∀ N n p, (r.state n).lock = some p → ((r.state n).doing p).left ≤ N →
      ∃ k, n ≤ k ∧ (r.state k).lock = none := by
    intro N
    induction N with
    | zero =>
      intro n p hl hN
      have := (r.watched n).2 p hl
      cases h : (r.state n).doing p <;> rw [h] at this hN <;> first | (cases this; done) | simp [Stage.left] at hN
    | succ N ih =>
      intro n p hl hN
      have hlk := (r.watched n).2 p hl
      obtain ⟨hw, hd⟩ := locked_waits hlk
      obtain ⟨k, h1, h2, h3, h4⟩ := r.next_go hd (r.goes (hf p) hw hd)
      have hk := h4 k h1 (Nat.le_refl _)
      have hlock : ∀ d, n + d ≤ k → (r.state (n + d)).lock = some p := by
        intro d
        induction d with
        | zero => exact fun _ => hl
        | succ d ihd =>
          intro hd'
          have hl' := ihd (by omega)
          rcases overlapStep_cases (r.step (n + d)) with ⟨x, _, _, _, hs⟩ | ⟨q, outs, hq, hg, _⟩
          · rw [← Nat.add_assoc, hs]; exact hl'
          · exact ((r.watched (n + d)).1.go_other hg hl' fun hqp =>
              h3 (n + d) (by omega) (by omega) (by rw [hq, hqp])).1
      have hlk' : (r.state k).lock = some p := by
        have := hlock (k - n) (by omega)
        rwa [show n + (k - n) = k by omega] at this
      obtain ⟨outs, hg⟩ := r.go_step h2
      obtain ⟨g1, _, g3⟩ := left_go hg (by rw [hk]; exact hw)
      rw [hk] at g1
      rcases g3 (by rw [hk]; exact hlk) with g3 | ⟨g3, _⟩
      · exact ⟨k + 1, by omega, g3⟩
      · obtain ⟨j, hj, hi⟩ := ih (k + 1) p (g3.trans hlk') (by omega)
        exact ⟨j, by omega, hi⟩
  intro n
  cases h : (r.state n).lock with
  | none => exact ⟨n, Nat.le_refl _, h⟩
  | some p => exact key _ n p h (Nat.le_refl _)

/-- With the lock free only the main thread may have to wait. -/
theorem effect_free (s : Overlap F) (p : PDJ.Party) (x : SysAction F) (hd : s.doing p = .taken x)
    (hl : s.lock = none) : (∃ outs s', goOn e m db s p = some (outs, s')) ∨
      (x = .app .appRecv ∧ s.sys.app.queue = [] ∧ s.sys.app.pending = false) := by
  cases ha : awaitsEvent s.sys x with
  | true =>
    refine Or.inr ?_
    cases x with
    | app y =>
      cases y with
      | appRecv =>
        simp only [awaitsEvent, Bool.and_eq_true, Bool.not_eq_true', List.isEmpty_iff] at ha
        exact ⟨rfl, ha.2, ha.1⟩
      | _ => exact nomatch ha
    | _ => exact nomatch ha
  | false =>
    refine Or.inl ?_
    simp only [goOn, hd, hl, ha]
    split
    · exact ⟨_, _, rfl⟩
    · exact ⟨_, _, rfl⟩

/-- What an event is waited for with does not need the lock. -/
theorem effect_event (s : Overlap F) (p : PDJ.Party) (hd : s.doing p = .taken (.app .appRecv))
    (h : ¬ (s.sys.app.queue = [] ∧ s.sys.app.pending = false)) : ∃ outs s', goOn e m db s p = some (outs, s') := by
  have ha : awaitsEvent s.sys (.app .appRecv) = false := by
    cases hh : awaitsEvent s.sys (.app .appRecv) with
    | false => rfl
    | true =>
      simp only [awaitsEvent, Bool.and_eq_true, Bool.not_eq_true', List.isEmpty_iff] at hh
      exact absurd ⟨hh.2, hh.1⟩ h
  have hn : needsLock s.sys (.app .appRecv) = false := rfl
  simp only [goOn, hd, hn, ha]
  exact ⟨_, _, rfl⟩

/-- A part of the history. -/
theorem Spec.Endless.part (r : Endless e m db F) (n d : Nat) :
    overlapRun e m db (r.state n) ((List.range d).map fun i => r.act (n + i)) =
      some ((List.range d).flatMap fun i => r.out (n + i), r.state (n + d)) := by
  induction d generalizing n with
  | zero => rfl
  | succ d ih =>
    rw [List.range_succ_eq_map, List.map_cons, List.flatMap_cons]
    simp only [overlapRun, Nat.add_zero, r.step n, List.map_map, List.flatMap_map]
    have := ih (n + 1)
    rw [show (fun i => r.act (n + 1 + i)) = (fun i => r.act (n + i)) ∘ Nat.succ from
        funext fun i => by simp only [Function.comp]; congr 1; omega,
      show (fun i => r.out (n + 1 + i)) = fun i => r.out (n + i.succ) from
        funext fun i => by congr 1; omega] at this
    rw [this]
    simp only [Option.some.injEq, Prod.mk.injEq, true_and]
    congr 1
    omega

theorem mem_begunSteps (x : SysAction F) (h : List (OverlapAction F)) : x ∈ begunSteps h ↔ .take x ∈ h := by
  induction h with
  | nil => simp [begunSteps]
  | cons a h ih => cases a <;> simp [begunSteps, ih]

/-- The receiver has taken up a datagram. -/
def waitingReceiver (i : List Interface) (d : Bytes) : Overlap F := (.start : Overlap F).now .receiver (.taken (.app (.receive i d)))

/-- What happens while the receiver waits: the broadcaster takes its steps. -/
def passingState (i : List Interface) (d : Bytes) : Nat → Overlap F
  | 0 => .start
  | n + 1 =>
    match n % 4 with
    | 0 => waitingReceiver i d
    | 1 => (waitingReceiver i d).now .broadcaster (.taken (.app (.broadcast true)))
    | 2 => { (waitingReceiver i d) with lock := some .broadcaster }.now .broadcaster (.holding [])
    | _ => (waitingReceiver i d).now .broadcaster (.sending [])

def passingAct (i : List Interface) (d : Bytes) : Nat → OverlapAction F
  | 0 => .take (.app (.receive i d))
  | n + 1 => if n % 4 = 0 then .take (.app (.broadcast true)) else .go .broadcaster

theorem passing_step (e : Endian) (m : Mode) (db : Db) (i : List Interface) (d : Bytes) (n : Nat) :
    overlapStep e m db (passingState i d n : Overlap F) (passingAct i d n) = some ([], passingState i d (n + 1)) := by
  cases n with
  | zero => rfl
  | succ n =>
    have h : n % 4 = 0 ∨ n % 4 = 1 ∨ n % 4 = 2 ∨ n % 4 = 3 := by omega
    have run : (waitingReceiver i d : Overlap F).sys.app.running = true := rfl
    rcases h with h | h | h | h
    · have h' : (n + 1) % 4 = 1 := by omega
      simp only [passingState, passingAct, h, h']
      rfl
    · have h' : (n + 1) % 4 = 2 := by omega
      simp only [passingState, passingAct, h, h', overlapStep, Nat.succ_ne_zero, if_false]
      rw [if_pos (by exact run)]
      have : goOn e m db ((waitingReceiver i d : Overlap F).now .broadcaster (.taken (.app (.broadcast true)))) .broadcaster =
          some ([], { (waitingReceiver i d : Overlap F) with lock := some .broadcaster }.now .broadcaster (.holding [])) := by
        simp only [goOn, now_own]
        exact congrArg (fun a => some ([], a)) (now_now { (waitingReceiver i d : Overlap F) with lock := some .broadcaster } _ _ _)
      rw [this]
      rfl
    · have h' : (n + 1) % 4 = 3 := by omega
      simp only [passingState, passingAct, h, h', overlapStep, Nat.succ_ne_zero, if_false]
      rw [if_pos (by exact run)]
      have : goOn e m db ({ (waitingReceiver i d : Overlap F) with lock := some .broadcaster }.now .broadcaster (.holding [])) .broadcaster =
          some ([], (waitingReceiver i d : Overlap F).now .broadcaster (.sending [])) := by
        simp only [goOn, now_own]
        exact congrArg (fun a => some ([], a)) (now_now (waitingReceiver i d : Overlap F) _ _ _)
      rw [this]
      rfl
    · have h' : (n + 1) % 4 = 0 := by omega
      simp only [passingState, passingAct, h, h', overlapStep, Nat.succ_ne_zero, if_false]
      rw [if_pos (by exact run)]
      have : goOn e m db ((waitingReceiver i d : Overlap F).now .broadcaster (.sending [])) .broadcaster =
          some ([], (waitingReceiver i d : Overlap F)) := by
        simp only [goOn, now_own, now_now]
        refine congrArg (fun a => some ([], a)) ?_
        simp only [Overlap.now, waitingReceiver]
        congr 1
        funext q
        split
        next hq => rw [hq]; rfl
        next => rfl
      rw [this]
      rfl

theorem passing_doing (i : List Interface) (d : Bytes) (n : Nat) (q : PDJ.Party) :
    (passingState i d (n + 1) : Overlap F).doing .receiver = .taken (.app (.receive i d)) ∧
    (q ≠ .receiver → q ≠ .broadcaster → (passingState i d (n + 1) : Overlap F).doing q = .idle) := by
  simp only [passingState]
  split <;> refine ⟨rfl, fun h1 h2 => ?_⟩ <;> simp only [waitingReceiver, Overlap.now, h1, h2, if_false] <;> rfl

/-- The broadcaster takes its steps while the receiver waits. -/
def passing (e : Endian) (m : Mode) (db : Db) (i : List Interface) (d : Bytes) : Endless e m db F :=
  ⟨passingState i d, passingAct i d, fun _ => [], rfl, passing_step e m db i d⟩

theorem passing_sys (i : List Interface) (d : Bytes) (n : Nat) : (passingState i d n : Overlap F).sys = .start := by
  cases n with
  | zero => rfl
  | succ n => simp only [passingState]; split <;> rfl

theorem passing_goes (e : Endian) (m : Mode) (db : Db) (i : List Interface) (d : Bytes) (n : Nat) :
    ∃ k, n ≤ k ∧ (passing e m db i d : Endless e m db F).act k = .go .broadcaster := by
  refine ⟨4 * n + 2, by omega, ?_⟩
  have h' : (4 * n + 1) % 4 = 1 := by omega
  simp only [passing, passingAct, h', Nat.succ_ne_zero, if_false]

theorem passing_notStopped (e : Endian) (m : Mode) (db : Db) (i : List Interface) (d : Bytes) (a : Announcement)
    (ha : Accepted d a) (q : PDJ.Party) : (passing e m db i d : Endless e m db F).NotStopped q := by
  have hl : needsLock (System.start : System F) (.app (.receive i d)) = true := by
    simp only [needsLock, locksFirst, (receive_locks (F := F) i d).2 ⟨a, ha⟩]
    rfl
  by_cases h1 : q = .receiver
  · subst h1
    rintro ⟨n, hn⟩
    obtain ⟨o, s', h⟩ := hn (4 * n + 3) (by omega)
    exfalso
    rcases overlapStep_cases h with ⟨x, hx, _⟩ | ⟨q, outs, hq, hg, _⟩
    · exact nomatch hx
    · cases hq
      have := (effect_go hg (passing_doing i d _ .main).1).2.2.1 (by
        rw [show ((passing e m db i d : Endless e m db F).state (4 * n + 3)).sys = .start from passing_sys _ _ _]
        exact hl)
      have h' : (4 * n + 2) % 4 = 2 := by omega
      simp only [passing, passingState, h'] at this
      exact nomatch this
  · by_cases h2 : q = .broadcaster
    · subst h2
      exact fun _ => passing_goes e m db i d
    · rintro ⟨n, hn⟩
      obtain ⟨o, s', h⟩ := hn (n + 1) (by omega)
      exfalso
      rcases overlapStep_cases h with ⟨x, hx, _⟩ | ⟨q, outs, hq, hg, _⟩
      · exact nomatch hx
      · cases hq
        unfold goOn at hg
        rw [show ((passing e m db i d : Endless e m db F).state (n + 1)).doing q = .idle from
          (passing_doing i d n q).2 h1 h2] at hg
        exact nomatch hg

theorem now_same (s : Overlap F) (p : PDJ.Party) : s.now p (s.doing p) = s := by
  cases s
  simp only [Overlap.now]
  congr 1
  funext q
  split
  next h => rw [h]
  next => rfl

/-- What is done once a history is over: the status server is told of an error again and again. -/
def idleAct (j : Nat) : OverlapAction F := if j % 3 = 0 then .take (.status .ioError) else .go .status

/-- The states this leads to. -/
def idleState (z : Overlap F) (j : Nat) : Overlap F :=
  match j % 3 with
  | 0 => z
  | 1 => z.now .status (.taken (.status .ioError))
  | _ => z.now .status (.sending [])

theorem idle_step (z : Overlap F) (hr : z.sys.app.running = true) (hi : z.doing .status = .idle) (j : Nat) :
    overlapStep e m db (idleState z j) (idleAct j) = some ([], idleState z (j + 1)) := by
  have h : j % 3 = 0 ∨ j % 3 = 1 ∨ j % 3 = 2 := by omega
  have hst : sysStep e m db z.sys (.status .ioError) = ([], z.sys) := by
    simp only [sysStep, hr, if_true]
    have : statusStep .ioError z.sys.status = ([], z.sys.status) := by cases z.sys.status <;> rfl
    rw [this]
    rfl
  rcases h with h | h | h
  · have h' : (j + 1) % 3 = 1 := by omega
    simp only [idleState, idleAct, h, h', if_true, overlapStep, hr]
    rw [show (SysAction.status StatusRecv.ioError : SysAction F).party = .status from rfl, hi]
  · have h' : (j + 1) % 3 = 2 := by omega
    simp only [idleState, idleAct, h, h', Nat.succ_ne_zero, if_false, overlapStep]
    rw [if_pos (by exact hr)]
    have : goOn e m db (z.now .status (.taken (.status .ioError))) .status = some ([], z.now .status (.sending [])) := by
      simp only [goOn, now_own]
      rw [show (z.now .status (.taken (.status .ioError))).sys = z.sys from rfl, hst]
      exact congrArg (fun a => some ([], a)) (now_now z _ _ _)
    rw [this]
    rfl
  · have h' : (j + 1) % 3 = 0 := by omega
    simp only [idleState, idleAct, h, h', Nat.succ_ne_zero, if_false, overlapStep]
    rw [if_pos (by exact hr)]
    have : goOn e m db (z.now .status (.sending [])) .status = some ([], z) := by
      simp only [goOn, now_own, now_now]
      rw [← hi, now_same]
    rw [this]
    rfl

/-- The state after the first steps of a history. -/
theorem prefix_step (h : List (OverlapAction F)) : ∀ {s z : Overlap F} {o : List (PDJ.Party × SysOut)},
    overlapRun e m db s h = some (o, z) → ∃ st : Nat → Overlap F, ∃ out : Nat → List (PDJ.Party × SysOut),
      st 0 = s ∧ st h.length = z ∧ ∀ n (hn : n < h.length), overlapStep e m db (st n) h[n] = some (out n, st (n + 1)) := by
  induction h with
  | nil =>
    intro s z o hr
    simp only [overlapRun, Option.some.injEq, Prod.mk.injEq] at hr
    exact ⟨fun _ => s, fun _ => [], rfl, hr.2, nofun⟩
  | cons a h ih =>
    intro s z o hr
    simp only [overlapRun] at hr
    split at hr
    · exact nomatch hr
    next o1 s1 h1 =>
      split at hr
      · exact nomatch hr
      next o2 s2 h2 =>
        simp only [Option.some.injEq, Prod.mk.injEq] at hr
        obtain ⟨rfl, rfl⟩ := hr
        obtain ⟨st, out, g1, g2, g3⟩ := ih h2
        refine ⟨fun n => match n with | 0 => s | n + 1 => st n, fun n => match n with | 0 => o1 | n + 1 => out n,
          rfl, g2, fun n hn => ?_⟩
        cases n with
        | zero => simpa [g1] using h1
        | succ n => exact g3 n (by simpa using hn)

/-- Nobody can go on, and the status server is between two steps. -/
structure NobodyGoes (z : Overlap F) : Prop where
  status : z.doing .status = .idle
  other : ∀ p, p ≠ .status → z.doing p = .idle ∨
    (z.doing p = .taken (.app .appRecv) ∧ z.sys.app.queue = [] ∧ z.sys.app.pending = false)

theorem NobodyGoes.idle {z : Overlap F} (h : ∀ p, z.doing p = .idle) : NobodyGoes z := ⟨h _, fun p _ => .inl (h p)⟩

/-- Every history after which nobody can go on goes on without an end, so that nobody is stopped or passed over. -/
theorem prolonged {h : List (OverlapAction F)} {o : List (PDJ.Party × SysOut)} {z : Overlap F}
    (hr : overlapRun e m db .start h = some (o, z)) (hrun : z.sys.app.running = true) (hi : NobodyGoes z) :
    ∃ r : Endless e m db F, (∀ p, r.NotStopped p) ∧ (∀ p, r.NotPassedOver p) ∧ r.state h.length = z ∧
      (∀ n (hn : n < h.length), r.act n = h[n]) ∧ ∀ j, (∀ x, r.act (h.length + j) = .take x → x.party = .status) ∧
      ∀ p, p ≠ .status → (r.state (h.length + j)).doing p = z.doing p := by
  obtain ⟨st, out, g1, g2, g3⟩ := prefix_step h hr
  let S : Nat → Overlap F := fun n => if n ≤ h.length then st n else idleState z (n - h.length)
  let A : Nat → OverlapAction F := fun n => if hn : n < h.length then h[n] else idleAct (n - h.length)
  let O : Nat → List (PDJ.Party × SysOut) := fun n => if n < h.length then out n else []
  have hS : ∀ j, S (h.length + j) = idleState z j := by
    intro j
    cases j with
    | zero => simp only [S, Nat.add_zero, Nat.le_refl, if_true]; exact g2
    | succ j =>
      have : ¬ h.length + (j + 1) ≤ h.length := by omega
      simp only [S, this, if_false]
      congr 1
      omega
  have hstep : ∀ n, overlapStep e m db (S n) (A n) = some (O n, S (n + 1)) := by
    intro n
    by_cases hn : n < h.length
    · have h1 : n ≤ h.length := by omega
      have h2 : n + 1 ≤ h.length := hn
      simp only [S, A, O, hn, h1, h2, if_true, dif_pos]
      exact g3 n hn
    · obtain ⟨j, rfl⟩ := Nat.exists_eq_add_of_le (Nat.le_of_not_lt hn)
      rw [Nat.add_assoc, hS, hS]
      simp only [A, O, hn, if_false, dif_neg, not_false_eq_true]
      rw [show h.length + j - h.length = j by omega]
      exact idle_step z hrun hi.status j
  have hidle : ∀ j p, p ≠ .status → (idleState z j).doing p = z.doing p := by
    intro j p hps
    simp only [idleState]
    split
    · rfl
    · exact now_other _ hps _
    · exact now_other _ hps _
  have hover : ∀ p, (∀ n, ∃ k, n ≤ k ∧ CanGo e m db (S k) p) → ∀ n, ∃ k, n ≤ k ∧ A k = .go p := by
    intro p hp n
    by_cases hps : p = .status
    · subst hps
      refine ⟨h.length + (3 * n + 1), by omega, ?_⟩
      have : ¬ h.length + (3 * n + 1) < h.length := by omega
      simp only [A, this, dif_neg, not_false_eq_true]
      rw [show h.length + (3 * n + 1) - h.length = 3 * n + 1 by omega]
      simp only [idleAct, show (3 * n + 1) % 3 = 1 by omega, Nat.succ_ne_zero, if_false]
    · obtain ⟨k, hk, _, _, hc⟩ := hp h.length
      obtain ⟨j, rfl⟩ := Nat.exists_eq_add_of_le hk
      rw [hS] at hc
      exfalso
      have hsys : (idleState z j).sys = z.sys := by simp only [idleState]; split <;> rfl
      rcases overlapStep_cases hc with ⟨x, hx, _⟩ | ⟨q, outs, hq, hg, _⟩
      · exact nomatch hx
      · cases hq
        unfold goOn at hg
        rw [hidle j p hps] at hg
        rcases hi.other p hps with hz | ⟨hz, h1, h2⟩
        · rw [hz] at hg; exact nomatch hg
        · simp only [hz, hsys, awaitsEvent, h1, h2] at hg
          have hn : needsLock z.sys (.app .appRecv) = false := rfl
          simp [hn] at hg
  refine ⟨⟨S, A, O, ?_, hstep⟩, fun p hp => ?_, fun p => hover p, hS 0, fun n hn => ?_,
    fun j => ⟨fun x hx => ?_, fun p hp => ?_⟩⟩
  · simp only [S, Nat.zero_le, if_true]; exact g1
  · obtain ⟨n0, h0⟩ := hp
    exact hover p fun n => ⟨max n n0, by omega, h0 _ (by omega)⟩
  · simp only [A, hn, dif_pos]
  · have hn : ¬ h.length + j < h.length := by omega
    simp only [A, hn, dif_neg, not_false_eq_true, idleAct] at hx
    split at hx
    · cases hx
      rfl
    · exact nomatch hx
  · show (S (h.length + j)).doing p = _
    rw [hS]
    exact hidle j p hp

end PDJ

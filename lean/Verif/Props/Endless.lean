import Verif.Lemmas.Endless

/-!
# C130: what is taken up is finished

`std::sync::Mutex` does not say who gets it next; if it passes over a thread for ever, that thread waits for ever.
-/

namespace PDJ

open Spec

variable {F : Type}

/-- **C130.**  In a history without an end in which no thread or task is stopped for ever, one that is not passed over for
ever is between two steps again and again, whatever the others do, unless it is the main thread, waits for an event, and
there is none from some time on. -/
theorem C130_finished (e : Endian) (m : Mode) (db : Db) (r : Endless e m db F) (hw : ∀ q, r.NotStopped q)
    (p : PDJ.Party) (hs : r.NotPassedOver p) (n : Nat) :
    (∃ k, n ≤ k ∧ (r.state k).doing p = .idle) ∨
    (p = .main ∧ (r.state n).doing .main = .taken (.app .appRecv) ∧
      ∃ k, n ≤ k ∧ ∀ j, k ≤ j → (r.state j).doing .main = .taken (.app .appRecv) ∧
      (r.state j).sys.app.queue = [] ∧ (r.state j).sys.app.pending = false) := by
  cases hwt : ((r.state n).doing p).waits with
  | false => exact .inl (r.over (hw p) _ n (Nat.le_refl _) hwt)
  | true =>
    obtain ⟨x, hd⟩ : ∃ x, (r.state n).doing p = .taken x := by
      cases h : (r.state n).doing p with
      | taken x => exact ⟨x, rfl⟩
      | _ => rw [h] at hwt; exact nomatch hwt
    have hni : (r.state n).doing p ≠ .idle := by rw [hd]; exact nofun
    by_cases hgo : ∃ k, n ≤ k ∧ r.act k = .go p
    · obtain ⟨k, h1, h2, _, h4⟩ := r.next_go hni hgo
      obtain ⟨outs, hg⟩ := r.go_step h2
      obtain ⟨_, hw', _⟩ := effect_go hg ((h4 k h1 (Nat.le_refl _)).trans hd)
      obtain ⟨j, hj, hi⟩ := r.over (hw p) _ (k + 1) (Nat.le_refl _) hw'
      exact .inl ⟨j, by omega, hi⟩
    · have hst : ∀ k, n ≤ k → (r.state k).doing p = .taken x := by
        intro k hk
        obtain ⟨d, rfl⟩ := Nat.exists_eq_add_of_le hk
        clear hk
        induction d with
        | zero => exact hd
        | succ d ih =>
          rw [← Nat.add_assoc, r.stays (by rw [ih]; exact nofun) fun ha => hgo ⟨n + d, by omega, ha⟩, ih]
      have hnot : ¬ ∀ n, ∃ k, n ≤ k ∧ CanGo e m db (r.state k) p := fun h => hgo (hs h n)
      obtain ⟨N, hN⟩ : ∃ N, ∀ k, N ≤ k → ¬ CanGo e m db (r.state k) p := by
        refine Classical.byContradiction fun hc => hnot fun a => Classical.byContradiction fun hb => hc ⟨a, ?_⟩
        exact fun k hk hg => hb ⟨k, hk, hg⟩
      obtain ⟨k, hk, hl⟩ := r.free hw (max n N)
      rcases effect_free (e := e) (m := m) (db := db) (r.state k) p x (hst k (by omega)) hl with ⟨_, _, hg⟩ | ⟨rfl, _, _⟩
      · exact absurd (canGo_of (r.running k) hg) (hN k (by omega))
      · have hp : p = .main := by
          rw [← (r.watched n).1.own p (.app .appRecv) (by rw [hd]; rfl)]
          rfl
        subst hp
        refine .inr ⟨rfl, hd, max n N, by omega, fun j hj => ⟨hst j (by omega), ?_⟩⟩
        refine Classical.byContradiction fun hc => ?_
        obtain ⟨_, _, hg⟩ := effect_event (e := e) (m := m) (db := db) (r.state j) .main (hst j (by omega)) hc
        exact hN j (by omega) (canGo_of (r.running j) hg)

/-- **C130.**  So what is taken up is answered: what is sent until the step is over is what a whole step sends in the
state of the process at the moment in between when it goes on for the first time. -/
theorem C130_answered (e : Endian) (m : Mode) (db : Db) (r : Endless e m db F) (hw : ∀ q, r.NotStopped q)
    (p : PDJ.Party) (hs : r.NotPassedOver p) (n : Nat) (x : SysAction F) (hx : x ≠ .app .appRecv)
    (hd : (r.state n).doing p = .taken x) :
    ∃ k d, n ≤ k ∧ k < n + d ∧ (r.state (n + d)).doing p = .idle ∧
      r.act k = .go p ∧ (∀ j, n ≤ j → j < k → r.act j ≠ .go p) ∧
      r.sent p n d = (sysStep e m db (r.state k).sys x).1 := by
  have hex : ∃ d, (r.state (n + d)).doing p = .idle := by
    rcases C130_finished e m db r hw p hs n with ⟨k, hk, hi⟩ | ⟨rfl, hr, _⟩
    · obtain ⟨d, rfl⟩ := Nat.exists_eq_add_of_le hk
      exact ⟨d, hi⟩
    · rw [hd] at hr
      cases hr
      exact absurd rfl hx
  obtain ⟨d, hi, hmin⟩ : ∃ d, (r.state (n + d)).doing p = .idle ∧ ∀ i, i < d → (r.state (n + i)).doing p ≠ .idle := by
    obtain ⟨d, hd⟩ := hex
    induction d using Nat.strongRecOn with
    | ind d ih =>
      by_cases h : ∃ i, i < d ∧ (r.state (n + i)).doing p = .idle
      · obtain ⟨i, h1, h2⟩ := h
        exact ih i h1 h2
      · exact ⟨d, hd, fun i h1 h2 => h ⟨i, h1, h2⟩⟩
  have hb : stepsOf p (begunSteps ((List.range d).map fun i => r.act (n + i))) = [] := by
    refine List.filter_eq_nil_iff.2 fun y hy ho => ?_
    rw [mem_begunSteps, List.mem_map] at hy
    obtain ⟨i, h1, h2⟩ := hy
    have hst := r.step (n + i)
    simp only [h2] at hst
    rcases overlapStep_cases hst with ⟨z, hz, hzi, _⟩ | ⟨q, outs, hq, _⟩
    · cases hz
      rw [(isOf_party p y).1 ho] at hzi
      exact hmin i (List.mem_range.1 h1) hzi
    · exact nomatch hq
  obtain ⟨h₁, h₂, o₁, s₁, e1, e0, e2, _, _, e5⟩ := C129_at_some_moment e m db _ _ p x hd _ _ (r.part n d) hb hi
  have hlen := congrArg List.length e1
  simp only [List.length_map, List.length_range, List.length_append, List.length_cons] at hlen
  have he : h₁ = (List.range h₁.length).map fun i => r.act (n + i) := by
    have := congrArg (List.take h₁.length) e1
    rw [List.take_left, ← List.map_take, List.take_range, Nat.min_eq_left (by omega)] at this
    exact this.symm
  have hp := r.part n h₁.length
  rw [← he, e2] at hp
  simp only [Option.some.injEq, Prod.mk.injEq] at hp
  refine ⟨n + h₁.length, d, by omega, by omega, hi, ?_, fun j h1 h2 ha => e0 ?_, ?_⟩
  · have := congrArg (·[h₁.length]?) e1
    simpa [List.getElem?_range (show h₁.length < d by omega)] using this
  · rw [he, List.mem_map]
    exact ⟨j - n, List.mem_range.2 (by omega), by rw [← ha]; congr 1; omega⟩
  · rw [← hp.2]
    exact e5

/-- **C130.**  So a player is noticed: an announcement that the receiver has taken up is in the list of players at some
time, unless the receiver has ended or the lock is poisoned. -/
theorem C130_noticed (e : Endian) (m : Mode) (db : Db) (r : Endless e m db F) (hw : ∀ q, r.NotStopped q)
    (hs : r.NotPassedOver .receiver) (n : Nat) (i : List Interface) (d : Bytes) (a : Announcement)
    (hd : (r.state n).doing .receiver = .taken (.app (.receive i d))) (ha : Accepted d a) (hm : ¬ MacMissing i a.ip) :
    ∃ k, n ≤ k ∧ (a.ip ∈ (r.state k).sys.app.state.players.map Player.address ∨
      (r.state k).sys.app.poisoned = true ∨ (r.state k).sys.app.receiver = false) := by
  have hni : (r.state n).doing .receiver ≠ .idle := by rw [hd]; exact nofun
  have hgo : ∃ k, n ≤ k ∧ r.act k = .go .receiver := by
    refine Classical.byContradiction fun hno => ?_
    rcases C130_finished e m db r hw .receiver hs n with ⟨k, hk, hi⟩ | ⟨hp, _⟩
    · obtain ⟨c, rfl⟩ := Nat.exists_eq_add_of_le hk
      have hst : ∀ c, (r.state (n + c)).doing .receiver = .taken (.app (.receive i d)) := by
        intro c
        induction c with
        | zero => exact hd
        | succ c ih => rw [← Nat.add_assoc, r.stays (by rw [ih]; exact nofun) fun h => hno ⟨n + c, by omega, h⟩, ih]
      rw [hst c] at hi
      exact nomatch hi
    · exact nomatch hp
  obtain ⟨k, h1, h2, _, h4⟩ := r.next_go hni hgo
  have hk := (h4 k h1 (Nat.le_refl _)).trans hd
  cases hpo : (r.state k).sys.app.poisoned with
  | true => exact ⟨k, h1, .inr (.inl hpo)⟩
  | false =>
  cases hre : (r.state k).sys.app.receiver with
  | false => exact ⟨k, h1, .inr (.inr hre)⟩
  | true =>
  obtain ⟨outs, hg⟩ := r.go_step h2
  have hl : needsLock (r.state k).sys (.app (.receive i d)) = true := by
    simp only [needsLock, locksFirst, (receive_locks (F := F) i d).2 ⟨a, ha⟩]
    rfl
  obtain ⟨ws, hws⟩ : ∃ ws, (r.state (k + 1)).doing .receiver = .updating ws ∧ ∃ adr tells ps,
      ws = .address adr :: .players ps :: tells ∧ a.ip ∈ ps.map Player.address := by
    unfold goOn at hg
    simp only [hk, hl, if_true] at hg
    split at hg
    · simp only [Option.some.injEq, Prod.mk.injEq] at hg
      rw [← hg.2]
      refine ⟨_, now_own _ _ _, _, _, _, rfl, ?_⟩
      have : (sysStep e m db (r.state k).sys (.app (.receive i d))).2.app = receiveStep i d (r.state k).sys.app := by
        simp only [sysStep, appStep, r.running k, hre, if_true]
      rw [this, receive_accepted ha, hpo]
      simp only [Bool.false_eq_true, if_false]
      cases hmi : matchInterface a.ip i with
      | panic => exact absurd ((C55_panics_exactly _ _).1 hmi) hm
      | ok net =>
        simp only [hear]
        rw [addOrUpdate_addresses]
        split <;> simp_all [Player.new]
    · exact nomatch hg
  obtain ⟨hu, adr, tells, ps, rfl, hps⟩ := hws
  obtain ⟨k2, g1, g2, _, g4⟩ := r.next_go (p := .receiver) (by rw [hu]; exact nofun)
    (r.goes (hw _) (by rw [hu]; rfl) (by rw [hu]; exact nofun))
  have hk2 := (g4 k2 g1 (Nat.le_refl _)).trans hu
  obtain ⟨_, hg2⟩ := r.go_step g2
  simp only [goOn, hk2, Option.some.injEq, Prod.mk.injEq] at hg2
  have hu2 : (r.state (k2 + 1)).doing .receiver = .updating (.players ps :: tells) := by
    rw [← hg2.2]; exact now_own _ _ _
  obtain ⟨k3, f1, f2, _, f4⟩ := r.next_go (p := .receiver) (by rw [hu2]; exact nofun)
    (r.goes (hw _) (by rw [hu2]; rfl) (by rw [hu2]; exact nofun))
  have hk3 := (f4 k3 f1 (Nat.le_refl _)).trans hu2
  obtain ⟨_, hg3⟩ := r.go_step f2
  simp only [goOn, hk3, Option.some.injEq, Prod.mk.injEq] at hg3
  refine ⟨k3 + 1, by omega, .inl ?_⟩
  rw [← hg3.2]
  exact hps

/-- **C130.**  Every history of whole steps that does not end the process is the beginning of a history of this kind. -/
theorem C130_possible (e : Endian) (m : Mode) (db : Db) (xs : List (SysAction F))
    (hrun : (sysRun e m db .start xs).2.app.running = true) :
    ∃ (r : Endless e m db F) (d : Nat), (∀ p, r.NotStopped p) ∧ (∀ p, r.NotPassedOver p) ∧
      (r.state d).sys = (sysRun e m db .start xs).2 ∧
      ((List.range d).flatMap r.out).map Prod.snd = (sysRun e m db .start xs).1 := by
  obtain ⟨h, o, z, h1, h2, h3, _, h5, _⟩ := whole_steps e m db xs (.start : Overlap F) rfl (fun _ _ => rfl)
  have hz : z.sys.app.running = true := by rw [h3]; exact hrun
  obtain ⟨r, r1, r2, r3, r4, _⟩ := prolonged h1 hz (.idle (h5 hz))
  refine ⟨r, h.length, r1, r2, by rw [r3, h3]; rfl, ?_⟩
  have hp := r.part 0 h.length
  have ha : ((List.range h.length).map fun i => r.act (0 + i)) = h := by
    refine List.ext_getElem (by simp) fun n g1 g2 => ?_
    simp only [List.getElem_map, List.getElem_range, Nat.zero_add]
    exact r4 n g2
  rw [ha, r.start, h1] at hp
  simp only [Option.some.injEq, Prod.mk.injEq, Nat.zero_add] at hp
  rw [← hp.1]
  exact h2

/-- **C130, what may happen.**  If all that is known is that a thread that can go on all the time goes on, then a player
may never be noticed: after the receiver has taken up its announcement, whatever it is, there is a history in which the
broadcaster has the lock whenever the receiver looks, for ever. -/
theorem C130_passed_over (e : Endian) (m : Mode) (db : Db) (i : List Interface) (d : Bytes) (a : Announcement)
    (ha : Accepted d a) : ∃ r : Endless e m db F, (∀ q, r.NotStopped q) ∧ (¬ r.NotPassedOver .receiver) ∧
      ∀ n, (r.state (n + 1)).doing .receiver = .taken (.app (.receive i d)) ∧
        (r.state (n + 1)).sys.app.state.players = [] ∧ (r.state (n + 1)).sys.app.queue = [] := by
  have hrec : ∀ n, passingAct (F := F) i d n ≠ .go .receiver := by
    intro n
    cases n with
    | zero => exact nofun
    | succ n => simp only [passingAct]; split <;> exact nofun
  refine ⟨passing e m db i d, passing_notStopped e m db i d a ha, fun h => ?_,
    fun n => ⟨(passing_doing i d n .main).1, ?_, ?_⟩⟩
  · have := h fun n => ⟨4 * n + 1, by omega, ?_⟩
    · obtain ⟨k, _, hk⟩ := this 0
      exact hrec k hk
    · have h' : (4 * n) % 4 = 0 := by omega
      have hs : (passingState i d (4 * n + 1) : Overlap F) = waitingReceiver i d := by
        simp only [passingState, h']
      show CanGo e m db (passingState i d (4 * n + 1)) .receiver
      rw [hs]
      rcases effect_free (e := e) (m := m) (db := db) (waitingReceiver i d : Overlap F) .receiver _ (now_own _ _ _) rfl
        with ⟨_, _, hg⟩ | ⟨hx, _⟩
      · exact canGo_of rfl hg
      · exact nomatch hx
  · show (passingState i d (n + 1) : Overlap F).sys.app.state.players = []
    rw [passing_sys]; rfl
  · show (passingState i d (n + 1) : Overlap F).sys.app.queue = []
    rw [passing_sys]; rfl

/-- The hypotheses of C130 are met: the broadcaster takes up a step at the second moment, and the receiver waits. -/
example (e : Endian) (m : Mode) (db : Db) : ∃ k d, 2 ≤ k ∧ k < 2 + d ∧
    ((passing e m db exampleInterfaces exampleDatagram : Endless e m db Nat).state (2 + d)).doing .broadcaster = .idle ∧
    ((passing e m db exampleInterfaces exampleDatagram : Endless e m db Nat).state k).doing .receiver =
      .taken (.app (.receive exampleInterfaces exampleDatagram)) := by
  obtain ⟨k, d, h1, h2, h3, _, _, _⟩ := C130_answered e m db (passing e m db exampleInterfaces exampleDatagram)
    (passing_notStopped e m db _ _ _ exampleDatagram_accepted) .broadcaster (fun _ => passing_goes e m db _ _) 2
    (.app (.broadcast true)) nofun rfl
  refine ⟨k, d, h1, h2, h3, ?_⟩
  obtain ⟨k, rfl⟩ : ∃ j, k = j + 1 := ⟨k - 1, by omega⟩
  exact (passing_doing _ _ k .main).1

example (e : Endian) (m : Mode) (db : Db) (n : Nat) :=
  C130_finished e m db (passing e m db exampleInterfaces exampleDatagram : Endless e m db Nat)
    (passing_notStopped e m db _ _ _ exampleDatagram_accepted) .broadcaster (fun _ => passing_goes e m db _ _) n

example (e : Endian) (m : Mode) (db : Db) :=
  C130_passed_over (F := Nat) e m db exampleInterfaces exampleDatagram _ exampleDatagram_accepted

/-- C130_noticed: an announcement is taken up and dealt with, and the process goes on for ever. -/
example (e : Endian) (m : Mode) (db : Db) : ∃ (r : Endless e m db Nat) (k : Nat),
    (r.state 1).doing .receiver = .taken (.app (.receive exampleInterfaces exampleDatagram)) ∧ 1 ≤ k ∧
    (exampleAnnouncement.ip ∈ (r.state k).sys.app.state.players.map Player.address ∨
      (r.state k).sys.app.poisoned = true ∨ (r.state k).sys.app.receiver = false) := by
  have key : ∃ o z, overlapRun e m db .start ([.take (.app (.receive exampleInterfaces exampleDatagram)), .go .receiver,
      .go .receiver, .go .receiver, .go .receiver, .go .receiver, .go .receiver, .go .receiver] :
        List (OverlapAction Nat)) = some (o, z) ∧
      z.sys.app.running = true ∧ ∀ p, z.doing p = .idle := by
    refine ⟨_, _, rfl, rfl, fun p => ?_⟩
    cases p <;> rfl
  obtain ⟨o, z, h1, h2, h3⟩ := key
  obtain ⟨r, r1, r2, _, r4, _⟩ := prolonged h1 h2 (.idle h3)
  have hd : (r.state 1).doing .receiver = .taken (.app (.receive exampleInterfaces exampleDatagram)) := by
    have := r.step 0
    rw [r4 0 (by simp), r.start] at this
    rcases overlapStep_cases this with ⟨x, hx, _, _, hs⟩ | ⟨q, outs, hq, _⟩
    · cases hx
      rw [hs]
      rfl
    · exact nomatch hq
  obtain ⟨k, k1, k2⟩ := C130_noticed e m db r r1 (r2 _) 1 _ _ _ hd exampleDatagram_accepted exampleHasMac
  exact ⟨r, k, hd, k1, k2⟩

example (e : Endian) (m : Mode) (db : Db) := C130_possible (F := Nat) e m db [.accept 0, .main 0 (some 4711)] rfl

end PDJ

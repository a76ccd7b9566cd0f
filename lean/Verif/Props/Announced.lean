import Verif.Lemmas.Announced
import Verif.Props.Linked

/-!
# C132: presence is announced again and again
-/

namespace PDJ

open Spec

variable {F : Type}

/-- **C132.**  In a history without an end in which no thread or task is stopped for ever, and the broadcaster is not passed
over for ever and does its loop, there is after every moment a round of the broadcaster in which it announces the process
in the network that is known when it gets the lock, unless there is none or the lock is poisoned. -/
theorem C132_round (e : Endian) (m : Mode) (db : Db) (r : Endless e m db F) (hw : ∀ q, r.NotStopped q)
    (hs : r.NotPassedOver .broadcaster) (hl : r.CasterLoops) (n : Nat) :
    ∃ k c d, n ≤ k ∧ k ≤ c ∧ c < k + d ∧ r.act c = .go .broadcaster ∧
      (∀ j, k ≤ j → j < c → r.act j ≠ .go .broadcaster) ∧ (r.state (k + d)).doing .broadcaster = .idle ∧
      ((r.state c).sys.app.poisoned = true ∧ r.sent .broadcaster k d = [] ∨
       (r.state c).sys.app.state.address = none ∧ r.sent .broadcaster k d = [] ∨
       ∃ net, (r.state c).sys.app.state.address = some net ∧
         r.sent .broadcaster k d = [.broadcast (toAll net (statusDatagram net.network.addr net.mac 1))]) := by
  obtain ⟨k0, h0, hi0⟩ : ∃ k, n ≤ k ∧ (r.state k).doing .broadcaster = .idle := by
    rcases C130_finished e m db r hw .broadcaster hs n with h | ⟨h, _⟩
    · exact h
    · exact nomatch h
  obtain ⟨k, h1, ha⟩ := hl k0 hi0
  have hd : (r.state (k + 1)).doing .broadcaster = .taken (.app (.broadcast true)) := by
    rcases overlapStep_cases (r.step k) with ⟨x, hx, _, _, hs⟩ | ⟨q, outs, hq, hg, _⟩
    · rw [ha] at hx
      cases hx
      rw [hs]
      exact now_own _ _ _
    · rw [ha] at hq
      exact nomatch hq
  obtain ⟨c, d, c1, c2, c3, c4, c5, c6⟩ := C130_answered e m db r hw .broadcaster hs (k + 1) (.app (.broadcast true)) nofun hd
  refine ⟨k + 1, c, d, by omega, c1, c2, c4, c5, c3, ?_⟩
  rw [c6]
  simp only [sysStep, r.running c, if_true]
  rcases hp : (r.state c).sys.app.poisoned with _ | _
  · have hb : (r.state c).sys.app.broadcaster = true := by
      rcases r.casterUp c with h | h
      · exact h
      · rw [hp] at h; exact nomatch h
    rw [C53_announcement _ (r.running c) hb hp]
    cases ha : (r.state c).sys.app.state.address with
    | none => exact .inr (.inl ⟨rfl, rfl⟩)
    | some net => exact .inr (.inr ⟨net, rfl, rfl⟩)
  · refine .inl ⟨rfl, ?_⟩
    simp [appStep, r.running c, broadcastStep, hp]

/-- **C132.**  So if from some time on a network is known and the lock is not poisoned, presence is announced again and
again, for ever. -/
theorem C132_announced (e : Endian) (m : Mode) (db : Db) (r : Endless e m db F) (hw : ∀ q, r.NotStopped q)
    (hs : r.NotPassedOver .broadcaster) (hl : r.CasterLoops) (N : Nat)
    (hk : ∀ k, N ≤ k → (r.state k).sys.app.state.address ≠ none ∧ (r.state k).sys.app.poisoned = false) (n : Nat) :
    ∃ k c net, n ≤ c ∧ c ≤ k ∧ (r.state c).sys.app.state.address = some net ∧
      (.broadcaster, .broadcast (toAll net (statusDatagram net.network.addr net.mac 1))) ∈ r.out k := by
  obtain ⟨k, c, d, h1, h2, h3, _, hno, _, h⟩ := C132_round e m db r hw hs hl (max n N)
  obtain ⟨g1, g2⟩ := hk c (by omega)
  rcases h with ⟨h, _⟩ | ⟨h, _⟩ | ⟨net, h, hsent⟩
  · rw [g2] at h; exact nomatch h
  · exact absurd h g1
  · have hm : .broadcast (toAll net (statusDatagram net.network.addr net.mac 1)) ∈ r.sent .broadcaster k d := by
      rw [hsent]
      exact .head _
    simp only [Endless.sent, sentOf, List.mem_filterMap, List.mem_flatMap, List.mem_range] at hm
    obtain ⟨⟨q, y⟩, ⟨i, hi, ho⟩, hy⟩ := hm
    split at hy
    next hq =>
      cases hy
      cases hq
      refine ⟨k + i, c, net, by omega, Nat.le_of_not_lt fun hlt => ?_, h, ho⟩
      rcases overlapStep_cases (r.step (k + i)) with ⟨_, _, _, hout, _⟩ | ⟨q, outs, hq, _, hout⟩
      · rw [hout] at ho
        exact nomatch ho
      · rw [hout, List.mem_map] at ho
        obtain ⟨_, _, ho⟩ := ho
        cases ho
        exact hno _ (by omega) hlt hq
    next => exact nomatch hy

/-- The hypotheses of C132 are met: after a negotiation the broadcaster does its loop for ever. -/
theorem exampleAnnounced_endless (e : Endian) (m : Mode) (db : Db) : ∃ r : Endless e m db Nat, (∀ p, r.NotStopped p) ∧
    (∀ p, r.NotPassedOver p) ∧ r.CasterLoops ∧ (∀ n, r.OvertakenFrom .broadcaster n 0) ∧ r.InTurn ∧
    ∃ N, ∀ k, N ≤ k → (r.state k).sys.app.state.address ≠ none ∧ (r.state k).sys.app.poisoned = false := by
  let P : Overlap Nat → Bool := fun s => s.sys.app.state.address.isSome && !s.sys.app.poisoned && s.sys.app.queue.isEmpty &&
    !s.sys.app.pending
  have key : ∃ o z x, overlapRun e m db .start exampleLinked = some (o, z) ∧ z.sys.app.running = true ∧ z.lock = none ∧
      sysStep e m db z.sys (.app (.broadcast true)) = ([x], z.sys) ∧ needsLock z.sys (.app (.broadcast true)) = true ∧
      z.doing .main = .taken (.app .appRecv) ∧ P z = true ∧
      ∀ p, p ≠ .main → z.doing p = .idle := by
    refine ⟨_, _, _, rfl, rfl, rfl, rfl, rfl, rfl, rfl, fun p hp => ?_⟩
    cases p <;> first | exact absurd rfl hp | rfl
  obtain ⟨o, z, x, h1, h2, h3, h4, h5, h6, h7, h8⟩ := key
  obtain ⟨e1, e2, e3, e4, e5⟩ := announce_cycle z h2 h3 (h8 _ nofun) x h4 h5
  obtain ⟨r, r1, r2, _, _, r4, r5⟩ := circling h1 e5 (by decide) .broadcaster (fun a ha => by
    rcases List.mem_cons.1 ha with rfl | ha
    · exact .inr ⟨_, rfl, rfl⟩
    · exact .inl (List.eq_of_mem_replicate ha))
  have hP : ∀ k, exampleLinked.length ≤ k → P (r.state k) = true := by
    intro k hk
    obtain ⟨j, rfl⟩ := Nat.exists_eq_add_of_le hk
    refine r5 P ?_ j
    have p1 : ∀ st, P (z.now .broadcaster st) = true := fun _ => h7
    have p2 : ∀ st, P ({ z with lock := some .broadcaster }.now .broadcaster st) = true := fun _ => h7
    simp only [along, List.replicate, e1, e2, e3, e4, h7, p1, p2, Bool.true_and]
    split
    next => rfl
    next s' hs =>
      have he := e5
      simp only [List.replicate, overlapRun, e1, e2, e3, e4, hs, Option.some.injEq, Prod.mk.injEq] at he
      rw [he.2]
      exact h7
  have goes : ∀ n, ∃ k, n ≤ k ∧ r.act k = .go .broadcaster := by
    intro n
    refine ⟨exampleLinked.length + (5 * n + 1), by omega, ?_⟩
    have := r2 (5 * n + 1)
    rw [show (5 * n + 1) % _ = 1 from by show (5 * n + 1) % 5 = 1; omega] at this
    exact (Option.some.inj this).symm
  have cannot : ∀ q, q ≠ .broadcaster → ∀ k, exampleLinked.length ≤ k → ¬ CanGo e m db (r.state k) q := by
    intro q hq k hk
    have hp := hP k hk
    simp only [P, Bool.and_eq_true, Bool.not_eq_true'] at hp
    obtain ⟨j, rfl⟩ := Nat.exists_eq_add_of_le hk
    have hd := r4 j q hq
    by_cases hm : q = .main
    · subst hm
      exact waiting_cannot (hd.trans h6) hp.1.2 hp.2
    · exact idle_cannot (hd.trans (h8 q hm))
  have getter : ∀ k q, r.Gets k → r.act k = .go q → ∃ y, (r.state k).doing q = .taken y := by
    intro k q hg hq
    obtain ⟨_, h⟩ := r.go_step hq
    exact goes_for_lock h hg.1 hg.2
  have pair : ∀ k, k ≤ exampleLinked.length →
      (!(((r.state k).doing .main).waits && ((r.state k).doing .receiver).waits)) = true := fun k hk =>
    (along_state (p := fun s => !((s.doing .main).waits && (s.doing .receiver).waits)) r exampleLinked r1 rfl k hk).2
  have early : ∀ k q, k ≤ exampleLinked.length → q ≠ .main → q ≠ .receiver → (r.state k).doing q = .idle := by
    intro k q hk hm hv
    refine r.untaken q k fun i hi y hy hp => ?_
    have hall : exampleLinked.all (fun a => match a with
      | .take (.app (.broadcast _)) => false
      | .take (.app _) => true
      | .take _ => false
      | _ => true) = true := rfl
    have := List.all_eq_true.1 hall _ (List.getElem_mem (show i < exampleLinked.length by omega))
    rw [← r1 i (by omega), hy] at this
    cases y with
    | app y =>
      cases y with
      | broadcast ok => exact nomatch this
      | receive i d => exact hv hp.symm
      | _ => exact hm hp.symm
    | _ => exact nomatch this
  have waiters : ∀ k q p y x, r.act k = .go q → (r.state k).doing q = .taken y → (r.state k).doing p = .taken x →
      needsLock (r.state k).sys x = true → q = p := by
    intro k q p y x hq hy hx hn
    by_cases hk : k ≤ exampleLinked.length
    · have h1 : q = .main ∨ q = .receiver := Classical.byContradiction fun h => by
        rw [early k q hk (fun g => h (.inl g)) fun g => h (.inr g)] at hy
        exact nomatch hy
      have h2 : p = .main ∨ p = .receiver := Classical.byContradiction fun h => by
        rw [early k p hk (fun g => h (.inl g)) fun g => h (.inr g)] at hx
        exact nomatch hx
      have h3 := pair k hk
      rcases h1 with rfl | rfl <;> rcases h2 with rfl | rfl <;> first | rfl | (rw [hx, hy] at h3; exact nomatch h3)
    · obtain ⟨j, rfl⟩ := Nat.exists_eq_add_of_le (Nat.le_of_lt (Nat.lt_of_not_le hk))
      have hm := List.mem_of_getElem? (r2 j)
      rw [hq] at hm
      rcases List.mem_cons.1 hm with h | h
      · exact nomatch h
      · cases List.eq_of_mem_replicate h
        refine Classical.byContradiction fun hp => ?_
        rw [r4 j p fun g => hp g.symm] at hx
        by_cases hpm : p = .main
        · subst hpm
          rw [h6] at hx
          cases hx
          exact nomatch hn
        · rw [h8 p hpm] at hx
          exact nomatch hx
  have alone : ∀ k, r.Gets k → ¬ r.Wants .broadcaster (k + 1) := by
    intro k hg hwa
    by_cases hk : k < exampleLinked.length
    · obtain ⟨x, hx, _⟩ := hwa
      rw [r.untaken .broadcaster (k + 1) fun i hi y hy hp => ?_] at hx
      · exact nomatch hx
      have hall : exampleLinked.all (fun a => match a with
        | .take (.app (.broadcast _)) => false
        | _ => true) = true := rfl
      have := List.all_eq_true.1 hall _ (List.getElem_mem (show i < exampleLinked.length by omega))
      rw [← r1 i (by omega), hy] at this
      cases y with
      | app y =>
        cases y with
        | broadcast ok => exact nomatch this
        | _ => exact nomatch hp
      | _ => exact nomatch hp
    · obtain ⟨q, hq, hn⟩ := r.gets hg
      obtain ⟨j, rfl⟩ := Nat.exists_eq_add_of_le (Nat.le_of_not_lt hk)
      have hm := List.mem_of_getElem? (r2 j)
      rw [hq] at hm
      rcases List.mem_cons.1 hm with h | h
      · exact nomatch h
      · cases List.eq_of_mem_replicate h
        exact hn hwa
  refine ⟨r, fun q => ?_, fun q => ?_, fun n _ => ?_, fun n d hwa ks _ hks => ?_, fun p q n k hnk hp hg hq => ?_,
    exampleLinked.length, fun k hk => ?_⟩
  · by_cases hq : q = .broadcaster
    · subst hq; exact fun _ => goes
    · rintro ⟨n, hn⟩
      exact absurd (hn (max n exampleLinked.length) (by omega)) (cannot q hq _ (by omega))
  · by_cases hq : q = .broadcaster
    · subst hq; exact fun _ => goes
    · intro h
      obtain ⟨k, hk, hc⟩ := h exampleLinked.length
      exact absurd hc (cannot q hq k hk)
  · refine ⟨exampleLinked.length + 5 * n, by omega, ?_⟩
    have := r2 (5 * n)
    rw [show (5 * n) % _ = 0 from by show (5 * n) % 5 = 0; omega] at this
    exact (Option.some.inj this).symm
  · cases ks with
    | nil => exact Nat.le_refl 0
    | cons k ks =>
      obtain ⟨h1, h2, h3⟩ := hks k (.head _)
      exact absurd (hwa (k + 1) (by omega) (by omega)) (alone k h3)
  · rw [show q = p from Classical.byContradiction fun hqp => ?_]
    · exact hp
    obtain ⟨x, hx, hn⟩ := hp k hnk (Nat.le_refl _)
    obtain ⟨y, hy⟩ := getter k q hg hq
    exact hqp (waiters k q p _ _ hq hy hx hn)
  · have hp := hP k hk
    simp only [P, Bool.and_eq_true, Bool.not_eq_true'] at hp
    refine ⟨fun h => ?_, hp.1.1.2⟩
    rw [h] at hp
    exact nomatch hp.1.1.1

example (e : Endian) (m : Mode) (db : Db) : ∃ r : Endless e m db Nat, ∀ n, ∃ k net, n ≤ k ∧
    (.broadcaster, .broadcast (toAll net (statusDatagram net.network.addr net.mac 1))) ∈ r.out k := by
  obtain ⟨r, r1, r2, r3, _, _, N, r4⟩ := exampleAnnounced_endless e m db
  refine ⟨r, fun n => ?_⟩
  obtain ⟨k, c, net, h1, h2, _, h3⟩ := C132_announced e m db r r1 (r2 _) r3 N r4 n
  exact ⟨k, net, by omega, h3⟩

/-- After a negotiation the broadcaster wants to announce the process. -/
def exampleUnheard : List (OverlapAction Nat) := exampleLinked ++ [.take (.app (.broadcast true))]

/-- **C132, what may happen.**  If all that is known is that a thread that can go on all the time goes on, then presence may
never be announced: there is a history in which a player has been linked with, its network is known, the broadcaster
wants to announce the process, and the receiver has the lock whenever it looks, because the player goes on announcing
itself. -/
theorem C132_passed_over (e : Endian) (m : Mode) (db : Db) : ∃ r : Endless e m db Nat, (∀ q, r.NotStopped q) ∧
    r.CasterLoops ∧ (¬ r.NotPassedOver .broadcaster) ∧
    (∃ N, ∀ k, N ≤ k → (r.state k).sys.app.state.address ≠ none ∧ (r.state k).sys.app.poisoned = false) ∧
    ∀ k y, (.broadcaster, y) ∉ r.out k := by
  have key : ∃ o z, overlapRun e m db .start exampleLinked = some (o, z) ∧ z.sys.app.running = true ∧ z.lock = none ∧
      (appStep z.sys.app (.receive exampleInterfaces exampleDatagram)).2 = z.sys.app ∧
      z.sys.app.state.address ≠ none ∧ z.sys.app.poisoned = false ∧ z.sys.app.queue = [] ∧ z.sys.app.pending = false ∧
      needsLock z.sys (.app (.broadcast true)) = true ∧
      z.doing .main = .taken (.app .appRecv) ∧ ∀ p, p ≠ .main → z.doing p = .idle := by
    refine ⟨_, _, rfl, rfl, rfl, rfl, nofun, rfl, rfl, rfl, rfl, rfl, fun p hp => ?_⟩
    cases p <;> first | exact absurd rfl hp | rfl
  obtain ⟨o, z, h1, h2, h3, h4, h5, h6, h7, h8, hneed, h9, h10⟩ := key
  let y : Overlap Nat := z.now .broadcaster (.taken (.app (.broadcast true)))
  have hy1 : overlapRun e m db .start exampleUnheard = some (o ++ [], y) := by
    have : overlapStep e m db z (.take (.app (.broadcast true))) = some ([], y) := by
      simp only [overlapStep, h2, if_true]
      rw [show (SysAction.app (.broadcast true) : SysAction Nat).party = .broadcaster from rfl, h10 .broadcaster nofun]
    exact overlapRun_append e m db h1 (by simp only [overlapRun, this, List.append_nil])
  have hyb : y.doing .broadcaster = .taken (.app (.broadcast true)) := now_own _ _ _
  have hyo : ∀ q, q ≠ .broadcaster → y.doing q = z.doing q := fun q hq => now_other _ hq _
  obtain ⟨_, ⟨ws, g2⟩, g3, g4⟩ := again_cycle (e := e) (m := m) (db := db) y h2 h3
    ((hyo .receiver nofun).trans (h10 .receiver nofun)) exampleInterfaces exampleDatagram _ exampleDatagram_accepted h4
  obtain ⟨r, r1, r2, r0, r3, r4, r5⟩ := circling hy1 g4 (by decide) .receiver (fun a ha => by
    rcases List.mem_cons.1 ha with rfl | ha
    · exact .inr ⟨_, rfl, rfl⟩
    · exact .inl (List.eq_of_mem_replicate ha))
  have hsys : ∀ P : System Nat → Bool, P z.sys = true → ∀ k, exampleUnheard.length ≤ k → P (r.state k).sys = true := by
    intro P hP k hk
    obtain ⟨j, rfl⟩ := Nat.exists_eq_add_of_le hk
    exact r5 (fun s => P s.sys) (g3 _ fun s hs => by simp only [hs]; exact hP) j
  have hlen : (OverlapAction.take (.app (.receive exampleInterfaces exampleDatagram)) :: List.replicate 5 (.go .receiver) :
    List (OverlapAction Nat)).length = 6 := rfl
  rw [hlen] at r2 r3
  have acts : ∀ j, r.act (exampleUnheard.length + j) =
      .take (.app (.receive exampleInterfaces exampleDatagram)) ∨ r.act (exampleUnheard.length + j) = .go .receiver := by
    intro j
    rcases List.mem_cons.1 (List.mem_of_getElem? (r2 j)) with h | h
    · exact .inl h
    · exact .inr (List.eq_of_mem_replicate h)
  have nogo : ∀ k, r.act k ≠ .go .broadcaster := by
    intro k ha
    by_cases hk : k < exampleUnheard.length
    · rw [r1 k hk] at ha
      have hall : exampleUnheard.all (fun a => match a with | .go .broadcaster => false | _ => true) = true := rfl
      have := List.all_eq_true.1 hall _ (List.getElem_mem hk)
      rw [ha] at this
      exact nomatch this
    · obtain ⟨j, rfl⟩ := Nat.exists_eq_add_of_le (Nat.le_of_not_lt hk)
      rcases acts j with h | h <;> rw [h] at ha <;> exact nomatch ha
  have goes : ∀ n, ∃ k, n ≤ k ∧ r.act k = .go .receiver := by
    intro n
    refine ⟨exampleUnheard.length + (6 * n + 1), by omega, ?_⟩
    have := r2 (6 * n + 1)
    rw [show (6 * n + 1) % 6 = 1 by omega] at this
    exact (Option.some.inj this).symm
  have locked : ∀ n, (r.state (exampleUnheard.length + (6 * n + 2))).lock = some .receiver := by
    intro n
    rw [r3, show (6 * n + 2) % 6 = 2 by omega]
    have hp := r.part exampleUnheard.length 2
    have a0 := Option.some.inj (r2 0)
    have a1 := Option.some.inj (r2 1)
    have : (List.range 2).map (fun i => r.act (exampleUnheard.length + i)) =
        [.take (.app (.receive exampleInterfaces exampleDatagram)), .go .receiver] := by
      rw [show List.range 2 = [0, 1] from rfl, List.map_cons, List.map_cons, List.map_nil, ← a0, ← a1]
    rw [this, r0, g2] at hp
    simp only [Option.some.injEq, Prod.mk.injEq] at hp
    rw [← hp.2]
    rfl
  have stays : ∀ j, (r.state (exampleUnheard.length + j)).doing .broadcaster = .taken (.app (.broadcast true)) :=
    fun j => (r4 j .broadcaster nofun).trans hyb
  refine ⟨r, fun q => ?_, fun n hn => ?_, fun h => ?_, ⟨exampleUnheard.length, fun k hk => ⟨?_, ?_⟩⟩, fun k v hv => ?_⟩
  · by_cases hq : q = .receiver
    · subst hq; exact fun _ => goes
    rintro ⟨n, hn⟩
    have hc := hn (exampleUnheard.length + (6 * n + 2)) (by omega)
    by_cases hb : q = .broadcaster
    · subst hb
      obtain ⟨_, _, hg⟩ := hc
      rcases overlapStep_cases hg with ⟨y, hy, _⟩ | ⟨p, outs, hp, hgo, _⟩
      · exact nomatch hy
      · cases hp
        unfold goOn at hgo
        have hnl : needsLock (r.state (exampleUnheard.length + (6 * n + 2))).sys (.app (.broadcast true)) = true :=
          hsys (fun s => needsLock s (.app (.broadcast true))) hneed _ (by omega)
        simp only [stays, hnl, if_true, locked] at hgo
        exact nomatch hgo
    · by_cases hm : q = .main
      · subst hm
        refine absurd hc (waiting_cannot ((r4 _ .main nofun).trans ((hyo .main nofun).trans h9)) ?_ ?_)
        · exact hsys (fun s => s.app.queue.isEmpty) (by simp only [h7]; rfl) _ (by omega)
        · have := hsys (fun s => !s.app.pending) (by simp only [h8]; rfl) _ (by omega : exampleUnheard.length ≤ exampleUnheard.length + (6 * n + 2))
          simpa using this
      · exact absurd hc (idle_cannot ((r4 _ _ hq).trans ((hyo _ hb).trans (h10 _ hm))))
  · by_cases hk : n < exampleUnheard.length
    · refine ⟨exampleLinked.length, ?_, ?_⟩
      · simp only [exampleUnheard, List.length_append, List.length_singleton] at hk
        omega
      · rw [r1 _ (by simp [exampleUnheard])]
        simp [exampleUnheard]
    · obtain ⟨j, rfl⟩ := Nat.exists_eq_add_of_le (Nat.le_of_not_lt hk)
      rw [stays] at hn
      exact nomatch hn
  · obtain ⟨k, _, ha⟩ := h (fun n => by
      refine ⟨exampleUnheard.length + 6 * n, by omega, ?_⟩
      rcases effect_free (e := e) (m := m) (db := db) (r.state (exampleUnheard.length + 6 * n)) .broadcaster _ (stays _)
        (by rw [r3, show 6 * n % 6 = 0 by omega, Nat.add_zero, r0]; exact h3) with ⟨_, _, hg⟩ | ⟨hx, _⟩
      · exact canGo_of (r.running _) hg
      · exact nomatch hx) 0
    exact nogo k ha
  · have := hsys (fun s => s.app.state.address.isSome) (by simpa [Option.isSome_iff_ne_none] using h5) k hk
    simpa [Option.isSome_iff_ne_none] using this
  · have := hsys (fun s => !s.app.poisoned) (by simp only [h6]; rfl) k hk
    simpa using this
  · rcases overlapStep_cases (r.step k) with ⟨_, _, _, hout, _⟩ | ⟨q, outs, hq, _, hout⟩
    · rw [hout] at hv
      exact nomatch hv
    · rw [hout, List.mem_map] at hv
      obtain ⟨_, _, hv⟩ := hv
      cases hv
      exact nogo k hq

end PDJ

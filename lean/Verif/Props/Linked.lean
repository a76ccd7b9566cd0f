import Verif.Lemmas.Overtaken
import Verif.Props.Endless

/-!
# C131: what the main thread is told of is acted on
-/

namespace PDJ

open Spec

variable {F : Type}

/-- **C131.**  A request to link that is in the channel is acted on: in a history without an end in which no thread or task
is stopped for ever, the main thread is not passed over for ever and does its loop, the main thread later takes up a
negotiation, and until that is over it has sent a whole negotiation for the network that is known when it starts. -/
theorem C131_negotiates (e : Endian) (m : Mode) (db : Db) (r : Endless e m db F) (hw : ∀ q, r.NotStopped q)
    (hs : r.NotPassedOver .main) (hl : r.MainLoops) (n : Nat) (h : .initiateLink ∈ (r.state n).sys.app.queue) :
    ∃ k c d net, n ≤ k ∧ k ≤ c ∧ c < k + d ∧ (r.state (k + d)).doing .main = .idle ∧
      (r.state c).sys.app.state.address = some net ∧
      r.sent .main k d = ((negotiation net).map (toAll net)).map .broadcast ∧
      ∃ c', c < c' ∧ (r.state c').sys.app.state.linking = true := by
  obtain ⟨i, hi⟩ := List.getElem?_of_mem h
  obtain ⟨k0, h0, hd0, hq0⟩ : ∃ k, n ≤ k ∧ (r.state k).doing .main = .idle ∧ ((r.state k).sys.app.pending = true ∨
      ∃ i : Nat, (r.state k).sys.app.queue[i]? = some AppEvent.initiateLink) := by
    cases hwt : ((r.state n).doing .main).waits with
    | false =>
      obtain ⟨k, h1, h2, h3⟩ := r.main_over (hw _) i .initiateLink _ n (Nat.le_refl _) hwt hi
      exact ⟨k, h1, h2, .inr ⟨i, h3⟩⟩
    | true =>
      obtain ⟨x, hd⟩ : ∃ x, (r.state n).doing .main = .taken x := by
        cases h : (r.state n).doing .main with
        | taken x => exact ⟨x, rfl⟩
        | _ => rw [h] at hwt; exact nomatch hwt
      have ho := (r.watched n).1.own .main x (by rw [hd]; rfl)
      by_cases hx : x = .app .appRecv
      · subst hx
        obtain ⟨k, h1, h2, h3⟩ := r.recv hw hd (.inr hi)
        exact ⟨k, by omega, h2, h3.imp id fun ⟨j, _, h⟩ => ⟨j, h⟩⟩
      · have hni : (r.state n).doing .main ≠ .idle := by rw [hd]; exact nofun
        obtain ⟨k, h1, h2, h3, h4⟩ : ∃ k, n ≤ k ∧ r.act k = .go .main ∧ (∀ j, n ≤ j → j < k → r.act j ≠ .go .main) ∧
            ∀ j, n ≤ j → j ≤ k → (r.state j).doing .main = (r.state n).doing .main := by
          rcases C130_finished e m db r hw .main hs n with ⟨k, hk, hi⟩ | ⟨_, hr, _⟩
          · exact r.next_go hni (r.goes_of_over hk hni hi)
          · rw [hd] at hr
            cases hr
            exact absurd rfl hx
        have hk := (h4 k h1 (Nat.le_refl _)).trans hd
        have hq := (r.adds_until h1 fun j g1 g2 => h3 j g1 g2).get hi
        obtain ⟨_, hg⟩ := r.go_step h2
        have hw' := (effect_go hg hk).2.1
        have hs' : (r.state (k + 1)).sys = (r.state k).sys := by
          cases x with
          | app y =>
            cases y with
            | appLink oks =>
              have hn : needsLock (r.state k).sys (.app (.appLink oks)) = true := Bool.or_true _
              simp only [goOn, hk, hn, if_true] at hg
              split at hg
              · simp only [Option.some.injEq, Prod.mk.injEq] at hg
                rw [← hg.2]
                rfl
              · exact nomatch hg
            | appRecv => exact absurd rfl hx
            | _ => exact nomatch ho
          | _ => exact nomatch ho
        obtain ⟨j, g1, g2, g3⟩ := r.main_over (hw _) i .initiateLink _ (k + 1) (Nat.le_refl _) hw' (by rw [hs']; exact hq)
        exact ⟨j, by omega, g2, .inr ⟨i, g3⟩⟩
  obtain ⟨k, oks, h1, hd, hp⟩ : ∃ k oks, k0 ≤ k ∧ (r.state k).doing .main = .taken (.app (.appLink oks)) ∧
      (r.state k).sys.app.pending = true := by
    rcases hq0 with hq | ⟨i, hq⟩
    · exact r.main_comes hw hl 0 k0 hd0 (.inl hq)
    · exact r.main_comes hw hl i k0 hd0 (.inr hq)
  obtain ⟨c, d, c1, c2, c3, c4, c5, c6⟩ := C130_answered e m db r hw .main hs k (.app (.appLink oks)) nofun hd
  have hni : (r.state k).doing .main ≠ .idle := by rw [hd]; exact nofun
  have hdc : (r.state c).doing .main = .taken (.app (.appLink oks)) := by
    obtain ⟨c', f1, f2, f3, f4⟩ := r.next_go hni ⟨c, c1, c4⟩
    have : c ≤ c' := Nat.le_of_not_lt fun hlt => c5 c' f1 hlt f2
    exact (f4 c c1 this).trans hd
  have hpc := (r.adds_until c1 c5).2.trans hp
  obtain ⟨_, hg⟩ := r.go_step c4
  have hn : needsLock (r.state c).sys (.app (.appLink oks)) = true := Bool.or_true _
  simp only [goOn, hdc, hn, if_true] at hg
  split at hg
  · simp only [Option.some.injEq, Prod.mk.injEq] at hg
    have hs1 : (r.state (c + 1)).sys = (r.state c).sys := by rw [← hg.2]; rfl
    obtain ⟨L, l1, l2, l3, l4, l5, l6⟩ := r.links (hw _) (.app (.appLink oks))
      (sysStep e m db (r.state c).sys (.app (.appLink oks))).1 (c + 1) (by rw [← hg.2]; exact now_own _ _ _)
    rw [hs1] at l4 l5 l6
    obtain ⟨_, hgL⟩ := r.go_step l2
    simp only [goOn, l3, Option.some.injEq, Prod.mk.injEq] at hgL
    have hsL : (r.state (L + 1)).sys.app = (appStep (r.state L).sys.app (.appLink oks)).2 := by
      rw [← hgL.2]
      show (sysStep e m db (r.state L).sys (.app (.appLink oks))).2.app = _
      simp only [sysStep, r.running L, if_true]
    have hrun := r.running (L + 1)
    rw [hsL] at hrun
    have hst := stepTo (r.state L).sys.app (.appLink oks)
    have key : ∃ net, (r.state L).sys.app.state.address = some net ∧ (∀ b ∈ oks.take 40, b = true) ∧
        (r.state L).sys.app.poisoned = false ∧ (appStep (r.state L).sys.app (.appLink oks)).2.state.linking = true := by
      have hpL := l6.trans hpc
      generalize (appStep (r.state L).sys.app (.appLink oks)).2 = s' at hst hrun ⊢
      generalize (appStep (r.state L).sys.app (.appLink oks)).1 = o at hst
      generalize (r.state L).sys.app = a at hst hpL ⊢
      cases hst with
      | dead hr => rw [hr] at hrun; exact nomatch hrun
      | noLink _ hp => rw [hpL] at hp; exact nomatch hp
      | linkPoisoned => exact nomatch hrun
      | linkNowhere => exact nomatch hrun
      | links _ _ hl hn ho => exact ⟨_, hn, ho, hl, rfl⟩
      | linkFails => exact nomatch hrun
    obtain ⟨net, k1, k2, k3, k4⟩ := key
    refine ⟨k, c, d, net, by omega, c1, c2, c3, by rw [← l4]; exact k1, ?_, L + 1, by omega, by rw [hsL]; exact k4⟩
    rw [c6]
    simp only [sysStep, r.running c, if_true]
    rw [(C53_negotiation _ net oks (r.running c) hpc (by rw [← l5]; exact k3) (by rw [← l4]; exact k1) k2).1]
  · exact nomatch hg

/-- **C131.**  So an announcement leads to a negotiation: after one that the receiver has taken up, a negotiation has been
started at some time, unless the receiver has ended or the lock is poisoned. -/
theorem C131_links (e : Endian) (m : Mode) (db : Db) (r : Endless e m db F) (hw : ∀ q, r.NotStopped q)
    (hs : r.NotPassedOver .main) (hs' : r.NotPassedOver .receiver) (hl : r.MainLoops) (n : Nat) (i : List Interface)
    (d : Bytes) (a : Announcement) (hd : (r.state n).doing .receiver = .taken (.app (.receive i d)))
    (ha : Accepted d a) (hm : ¬ MacMissing i a.ip) :
    ∃ k, n ≤ k ∧ ((r.state k).sys.app.state.linking = true ∨ (r.state k).sys.app.poisoned = true ∨
      (r.state k).sys.app.receiver = false) := by
  have hni : (r.state n).doing .receiver ≠ .idle := by rw [hd]; exact nofun
  obtain ⟨k, h1, h2, _, h4⟩ : ∃ k, n ≤ k ∧ r.act k = .go .receiver ∧ (∀ j, n ≤ j → j < k → r.act j ≠ .go .receiver) ∧
      ∀ j, n ≤ j → j ≤ k → (r.state j).doing .receiver = (r.state n).doing .receiver := by
    rcases C130_finished e m db r hw .receiver hs' n with ⟨k, hk, hi⟩ | ⟨hp, _⟩
    · exact r.next_go hni (r.goes_of_over hk hni hi)
    · exact nomatch hp
  have hk := (h4 k h1 (Nat.le_refl _)).trans hd
  cases hpo : (r.state k).sys.app.poisoned with
  | true => exact ⟨k, h1, .inr (.inl hpo)⟩
  | false =>
  cases hre : (r.state k).sys.app.receiver with
  | false => exact ⟨k, h1, .inr (.inr hre)⟩
  | true =>
  cases hli : (r.state k).sys.app.state.linking with
  | true => exact ⟨k, h1, .inl hli⟩
  | false =>
  have hq := C50_events_of_announcement (r.state k).sys.app ⟨r.running k, hre, hpo⟩ i d a ha hm
  obtain ⟨_, hg⟩ := r.go_step h2
  have hn : needsLock (r.state k).sys (.app (.receive i d)) = true := by
    simp only [needsLock, locksFirst, (receive_locks (F := F) i d).2 ⟨a, ha⟩]
    rfl
  simp only [goOn, hk, hn, if_true] at hg
  split at hg
  · simp only [Option.some.injEq, Prod.mk.injEq] at hg
    obtain ⟨k', g1, g2⟩ := r.tells (hw _) .initiateLink
      (writesTo (r.state k).sys.app (sysStep e m db (r.state k).sys (.app (.receive i d))).2.app) (k + 1)
      (by rw [← hg.2]; exact now_own _ _ _) (by
        have : (sysStep e m db (r.state k).sys (.app (.receive i d))).2.app =
            (appStep (r.state k).sys.app (.receive i d)).2 := by
          simp only [sysStep, r.running k, if_true]
        rw [this]
        simp only [writesTo, hq, List.drop_left, hli]
        simp)
    obtain ⟨k2, c, _, _, f1, f2, _, _, _, _, c', f3, f4⟩ := C131_negotiates e m db r hw hs hl k' g2
    exact ⟨c', by omega, .inl f4⟩
  · exact nomatch hg

/-- A player is noticed, the main thread takes the two events off the channel, negotiates and waits. -/
def exampleLinked : List (OverlapAction Nat) :=
  .take (.app (.receive exampleInterfaces exampleDatagram)) :: List.replicate 7 (.go .receiver) ++
  (.take (.app .appRecv) :: List.replicate 2 (.go .main)) ++ (.take (.app .appRecv) :: List.replicate 2 (.go .main)) ++
  (.take (.app (.appLink [])) :: List.replicate 43 (.go .main)) ++ [.take (.app .appRecv)]

/-- The hypotheses of C131 are met: an announcement leads to a negotiation, and the process goes on for ever. -/
theorem exampleLinked_endless (e : Endian) (m : Mode) (db : Db) : ∃ r : Endless e m db Nat, (∀ p, r.NotStopped p) ∧
    (∀ p, r.NotPassedOver p) ∧ r.MainLoops ∧ (∃ B, ∀ n, r.OvertakenFrom .main n B ∧ r.OvertakenFrom .receiver n B) ∧
    (r.state 1).doing .receiver = .taken (.app (.receive exampleInterfaces exampleDatagram)) ∧
    (r.state 8).sys.app.queue = [.deviceChange, .initiateLink] := by
  have key : ∃ o z, overlapRun e m db .start exampleLinked = some (o, z) ∧ z.sys.app.running = true ∧
      (z.doing .main = .taken (.app .appRecv) ∧ z.sys.app.queue = [] ∧ z.sys.app.pending = false) ∧
      ∀ p, p ≠ .main → z.doing p = .idle := by
    refine ⟨_, _, rfl, rfl, ⟨rfl, rfl, rfl⟩, fun p hp => ?_⟩
    cases p <;> first | exact absurd rfl hp | rfl
  obtain ⟨o, z, h1, h2, h3, h4⟩ := key
  obtain ⟨r, r1, r2, r3, r4, r5⟩ := loops_prolonged h1 h2 ⟨h4 _ nofun, fun p _ => if hp : p = .main then .inr (hp ▸ h3) else .inl (h4 p hp)⟩
    h3.1 rfl
  have step : ∀ d, d < exampleLinked.length → overlapRun e m db .start (exampleLinked.take d) =
      some ((List.range d).flatMap fun i => r.out (0 + i), r.state (0 + d)) := by
    intro d hd
    have := r.part 0 d
    rw [r.start] at this
    rw [← this]
    congr 1
    refine List.ext_getElem (by simp; omega) fun n g1 g2 => ?_
    simp only [List.getElem_map, List.getElem_range, Nat.zero_add, List.getElem_take]
    exact (r4 n _).symm
  refine ⟨r, r1, r2, r3, ⟨exampleLinked.length, fun n => ⟨r.overtaken_of _ _ (fun j hj => ?_) n, r.overtaken_of _ _ (fun j hj => ?_) n⟩⟩,
    ?_, ?_⟩
  · obtain ⟨x, hx, hn⟩ := hj
    rw [r5 j .main nofun, h3.1] at hx
    cases hx
    exact nomatch hn
  · obtain ⟨x, hx, _⟩ := hj
    rw [r5 j .receiver nofun, h4 .receiver nofun] at hx
    exact nomatch hx
  · have : ∃ o z, overlapRun e m db .start (exampleLinked.take 1) = some (o, z) ∧
      z.doing .receiver = .taken (.app (.receive exampleInterfaces exampleDatagram)) := ⟨_, _, rfl, rfl⟩
    obtain ⟨o, z, g1, g2⟩ := this
    rw [step 1 (by decide), Option.some.injEq, Prod.mk.injEq] at g1
    rw [← g1.2] at g2
    exact g2
  · have : ∃ o z, overlapRun e m db .start (exampleLinked.take 8) = some (o, z) ∧
      z.sys.app.queue = [.deviceChange, .initiateLink] := ⟨_, _, rfl, rfl⟩
    obtain ⟨o, z, g1, g2⟩ := this
    rw [step 8 (by decide), Option.some.injEq, Prod.mk.injEq] at g1
    rw [← g1.2] at g2
    exact g2

example (e : Endian) (m : Mode) (db : Db) : ∃ (r : Endless e m db Nat) (k d : Nat) (net : PioneerNetwork), 8 ≤ k ∧
    r.sent .main k d = ((negotiation net).map (toAll net)).map .broadcast := by
  obtain ⟨r, r1, r2, r3, _, _, r5⟩ := exampleLinked_endless e m db
  obtain ⟨k, _, d, net, h1, _, _, _, _, h2, _⟩ := C131_negotiates e m db r r1 (r2 _) r3 8 (by rw [r5]; exact .tail _ (.head _))
  exact ⟨r, k, d, net, h1, h2⟩

example (e : Endian) (m : Mode) (db : Db) : ∃ (r : Endless e m db Nat) (k : Nat), 1 ≤ k ∧
    ((r.state k).sys.app.state.linking = true ∨ (r.state k).sys.app.poisoned = true ∨
      (r.state k).sys.app.receiver = false) := by
  obtain ⟨r, r1, r2, r3, _, r4, _⟩ := exampleLinked_endless e m db
  obtain ⟨k, h1, h2⟩ := C131_links e m db r r1 (r2 _) (r2 _) r3 1 _ _ _ r4 exampleDatagram_accepted exampleHasMac
  exact ⟨r, k, h1, h2⟩

/-- A player is noticed, and the main thread takes up a negotiation. -/
def exampleWaiting : List (OverlapAction Nat) :=
  .take (.app (.receive exampleInterfaces exampleDatagram)) :: List.replicate 7 (.go .receiver) ++
  (.take (.app .appRecv) :: List.replicate 2 (.go .main)) ++ (.take (.app .appRecv) :: List.replicate 2 (.go .main)) ++
  [.take (.app (.appLink []))]

/-- **C131, what may happen.**  If all that is known is that a thread that can go on all the time goes on, then there may
never be a negotiation: there is a history in which a player is noticed, the main thread takes up the negotiation, and
the broadcaster has the lock whenever it looks, for ever. -/
theorem C131_passed_over (e : Endian) (m : Mode) (db : Db) : ∃ r : Endless e m db Nat, (∀ q, r.NotStopped q) ∧
    r.MainLoops ∧ (¬ r.NotPassedOver .main) ∧ (∃ n, .initiateLink ∈ (r.state n).sys.app.queue) ∧
    ∀ n, (r.state n).sys.app.state.linking = false := by
  have key : ∃ o z x, overlapRun e m db .start exampleWaiting = some (o, z) ∧ z.sys.app.running = true ∧ z.lock = none ∧
      sysStep e m db z.sys (.app (.broadcast true)) = ([x], z.sys) ∧ needsLock z.sys (.app (.broadcast true)) = true ∧
      z.doing .main = .taken (.app (.appLink [])) ∧ z.sys.app.state.linking = false ∧
      ∀ p, p ≠ .main → z.doing p = .idle := by
    refine ⟨_, _, _, rfl, rfl, rfl, rfl, rfl, rfl, rfl, fun p hp => ?_⟩
    cases p <;> first | exact absurd rfl hp | rfl
  obtain ⟨o, z, x, h1, h2, h3, h4, h5, h6, h7, h8⟩ := key
  obtain ⟨e1, e2, e3, e4, e5⟩ := announce_cycle z h2 h3 (h8 _ nofun) x h4 h5
  obtain ⟨r, r1, r2, st, r3, r4, r5⟩ := looped h1 e5 (by decide)
  have hlen : (OverlapAction.take (.app (.broadcast true)) :: List.replicate 4 (.go .broadcaster) :
    List (OverlapAction Nat)).length = 5 := rfl
  rw [hlen] at r2 r5
  have next : ∀ {s s' t : Overlap Nat} {a : OverlapAction Nat} {o o' : List (PDJ.Party × SysOut)},
      overlapStep e m db s a = some (o, s') → overlapStep e m db s a = some (o', t) → s' = t := by
    intro s s' t a o o' g1 g2
    have := g1.symm.trans g2
    simp only [Option.some.injEq, Prod.mk.injEq] at this
    exact this.2
  have s1 : st 1 = z.now .broadcaster (.taken (.app (.broadcast true))) := by
    obtain ⟨o, h⟩ := r4 0 (by decide)
    rw [r3] at h
    exact next h e1
  have s2 : st 2 = { z with lock := some .broadcaster }.now .broadcaster (.holding [x]) := by
    obtain ⟨o, h⟩ := r4 1 (by decide)
    rw [s1] at h
    exact next h e2
  have s3 : st 3 = { z with lock := some .broadcaster }.now .broadcaster (.holding []) := by
    obtain ⟨o, h⟩ := r4 2 (by decide)
    rw [s2] at h
    exact next h e3
  have s4 : st 4 = z.now .broadcaster (.sending []) := by
    obtain ⟨o, h⟩ := r4 3 (by decide)
    rw [s3] at h
    exact next h e4
  have same : ∀ j, (r.state (exampleWaiting.length + j)).sys = z.sys ∧
      ∀ q, q ≠ .broadcaster → (r.state (exampleWaiting.length + j)).doing q = z.doing q := by
    intro j
    rw [r5]
    have hc : j % 5 = 0 ∨ j % 5 = 1 ∨ j % 5 = 2 ∨ j % 5 = 3 ∨ j % 5 = 4 := by omega
    rcases hc with hc | hc | hc | hc | hc <;> rw [hc]
    · rw [r3]; exact ⟨rfl, fun _ _ => rfl⟩
    · rw [s1]; exact ⟨rfl, fun q hq => now_other _ hq _⟩
    · rw [s2]; exact ⟨rfl, fun q hq => now_other _ hq _⟩
    · rw [s3]; exact ⟨rfl, fun q hq => now_other _ hq _⟩
    · rw [s4]; exact ⟨rfl, fun q hq => now_other _ hq _⟩
  have acts : ∀ j, r.act (exampleWaiting.length + j) = .take (.app (.broadcast true)) ∨
      r.act (exampleWaiting.length + j) = .go .broadcaster := by
    intro j
    have := r2 j
    have hc : j % 5 = 0 ∨ j % 5 = 1 ∨ j % 5 = 2 ∨ j % 5 = 3 ∨ j % 5 = 4 := by omega
    rcases hc with hc | hc | hc | hc | hc <;> rw [hc] at this
    · exact .inl (Option.some.inj this).symm
    all_goals exact .inr (Option.some.inj this).symm
  have nogo : ∀ q, q ≠ .broadcaster → ∀ k, exampleWaiting.length ≤ k → r.act k ≠ .go q := by
    intro q hq k hk ha
    obtain ⟨j, rfl⟩ := Nat.exists_eq_add_of_le hk
    rcases acts j with h | h <;> rw [h] at ha
    · exact nomatch ha
    · cases ha
      exact hq rfl
  have waits : ∀ q, q ≠ .broadcaster → ∀ n, ∃ k, n ≤ k ∧ ¬ CanGo e m db (r.state k) q := by
    intro q hq n
    refine ⟨exampleWaiting.length + (5 * n + 2), by omega, ?_⟩
    rintro ⟨o, s', hg⟩
    rw [r5, show (5 * n + 2) % 5 = 2 by omega, s2] at hg
    rcases overlapStep_cases hg with ⟨y, hy, _⟩ | ⟨p, outs, hp, hgo, _⟩
    · exact nomatch hy
    · cases hp
      unfold goOn at hgo
      rw [now_other _ hq] at hgo
      by_cases hm : q = .main
      · subst hm
        simp only [h6] at hgo
        have hn : needsLock ({ z with lock := some .broadcaster }.now .broadcaster (.holding [x]) : Overlap Nat).sys
          (.app (.appLink [])) = true := Bool.or_true _
        rw [hn, if_pos rfl, if_neg (by exact nofun)] at hgo
        exact nomatch hgo
      · simp only [h8 q hm] at hgo
        exact nomatch hgo
  have hx : ∃ o z, overlapRun e m db .start (exampleWaiting.take 8) = some (o, z) ∧
      z.sys.app.queue = [.deviceChange, .initiateLink] := ⟨_, _, rfl, rfl⟩
  have hq : .initiateLink ∈ (r.state 8).sys.app.queue := by
    obtain ⟨o, z, g1, g2⟩ := hx
    have hp := r.part 0 8
    have ha : ((List.range 8).map fun i => r.act (0 + i)) = exampleWaiting.take 8 := by
      refine List.ext_getElem (by simp [exampleWaiting]) fun n k1 k2 => ?_
      simp only [List.getElem_map, List.getElem_range, Nat.zero_add, List.getElem_take]
      exact r1 n _
    rw [r.start, ha, g1] at hp
    simp only [Option.some.injEq, Prod.mk.injEq] at hp
    rw [← hp.2, g2]
    exact .tail _ (.head _)
  have hlink := along_state (p := fun s => !s.sys.app.state.linking) r exampleWaiting r1 rfl
  refine ⟨r, fun q => ?_, ?_, fun h => ?_, ⟨8, hq⟩, fun n => ?_⟩
  · by_cases hqb : q = .broadcaster
    · subst hqb
      refine fun _ n => ⟨exampleWaiting.length + (5 * n + 1), by omega, ?_⟩
      have := r2 (5 * n + 1)
      rw [show (5 * n + 1) % 5 = 1 by omega] at this
      exact (Option.some.inj this).symm
    · rintro ⟨n, hn⟩
      obtain ⟨k, hk, hc⟩ := waits q hqb n
      exact absurd (hn k hk) hc
  · exact main_loops r exampleWaiting r1 rfl (fun j => by rw [(same j).2 .main nofun, h6]; exact nofun) fun j y hy => by
      rcases acts j with h | h <;> rw [h] at hy
      · cases hy
        exact nofun
      · exact nomatch hy
  · obtain ⟨k, hk, ha⟩ := h (fun n => by
      refine ⟨exampleWaiting.length + 5 * n, by omega, ?_⟩
      rcases effect_free (e := e) (m := m) (db := db) (r.state (exampleWaiting.length + 5 * n)) .main _
        ((same _).2 .main nofun |>.trans h6) (by rw [r5, show 5 * n % 5 = 0 by omega, r3]; exact h3) with ⟨_, _, hg⟩ | ⟨hx, _⟩
      · exact canGo_of (r.running _) hg
      · exact nomatch hx) exampleWaiting.length
    exact nogo .main nofun k hk ha
  · by_cases hn : n ≤ exampleWaiting.length
    · have := (hlink n hn).2
      simpa using this
    · obtain ⟨j, rfl⟩ := Nat.exists_eq_add_of_le (Nat.le_of_not_le hn)
      rw [(same j).1]
      exact h7

end PDJ

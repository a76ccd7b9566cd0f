import Verif.Lemmas.Overtaken
import Verif.Props.Announced

/-!
# C133: a mutex that lets a thread be overtaken a limited number of times
-/

namespace PDJ

open Spec

variable {F : Type}

/-- **C133.**  A mutex that lets a thread be overtaken a limited number of times only while it waits, whatever the limit is
and although it may be another one each time, does not pass it over for ever. -/
theorem C133_limited (e : Endian) (m : Mode) (db : Db) (r : Endless e m db F) (hw : ∀ q, r.NotStopped q) (p : PDJ.Party)
    (hp : p = .main ∨ p = .receiver ∨ p = .broadcaster) (hb : ∀ n, ∃ B, r.OvertakenFrom p n B) : r.NotPassedOver p := by
  intro hc n
  refine Classical.byContradiction fun hno => ?_
  obtain ⟨k, hk, hck⟩ := hc n
  have hni : (r.state k).doing p ≠ .idle := fun h => idle_cannot h hck
  cases hwt : ((r.state k).doing p).waits with
  | false =>
    obtain ⟨j, hj, ha⟩ := r.goes (hw p) hwt hni
    exact hno ⟨j, by omega, ha⟩
  | true =>
    obtain ⟨x, hd⟩ : ∃ x, (r.state k).doing p = .taken x := by
      cases h : (r.state k).doing p with
      | taken x => exact ⟨x, rfl⟩
      | _ => rw [h] at hwt; exact nomatch hwt
    have hst : ∀ d, (r.state (k + d)).doing p = .taken x := by
      intro d
      induction d with
      | zero => exact hd
      | succ d ih => rw [← Nat.add_assoc, r.stays (by rw [ih]; exact nofun) fun h => hno ⟨k + d, by omega, h⟩, ih]
    have hstay : ∀ j, k ≤ j → (r.state j).doing p = .taken x := by
      intro j hj
      obtain ⟨d, rfl⟩ := Nat.exists_eq_add_of_le hj
      exact hst d
    have hparty : x.party = p := (r.watched k).1.own p x (by rw [hd]; rfl)
    by_cases hx : x = .app .appRecv
    · subst hx
      cases hparty
      have hq : ¬ ((r.state k).sys.app.queue = [] ∧ (r.state k).sys.app.pending = false) := fun h =>
        waiting_cannot hd (by rw [h.1]; rfl) h.2 hck
      obtain ⟨j, _, ha⟩ := hw .main ⟨k, fun j hj => by
        obtain ⟨⟨a, g1⟩, g2⟩ := r.adds_until hj fun i h1 _ ha => hno ⟨i, by omega, ha⟩
        obtain ⟨_, _, hg⟩ := effect_event (e := e) (m := m) (db := db) (r.state j) .main (hstay j hj) fun h => hq
          ⟨(List.append_eq_nil_iff.1 (g1.symm.trans h.1)).1, g2.symm.trans h.2⟩
        exact canGo_of (r.running j) hg⟩ n
      exact hno ⟨j, by omega, ha⟩
    · cases hn : needsLock (r.state k).sys x with
      | false =>
        obtain ⟨j, _, ha⟩ := hw p ⟨k, fun j hj => by
          have hnj : needsLock (r.state j).sys x = false := (thread_needsLock _ _ x (by rw [hparty]; exact hp)).trans hn
          have haw : awaitsEvent (r.state j).sys x = false := by
            cases x with
            | app y => cases y <;> first | rfl | exact absurd rfl hx
            | _ => rfl
          obtain ⟨_, _, hg⟩ : ∃ outs s', goOn e m db (r.state j) p = some (outs, s') := by
            simp only [goOn, hstay j hj, hnj, haw]
            exact ⟨_, _, rfl⟩
          exact canGo_of (r.running j) hg⟩ n
        exact hno ⟨j, by omega, ha⟩
      | true =>
        have hfin : ∃ N, ∀ j, N ≤ j → ¬ r.Gets j := by
          refine Classical.byContradiction fun hf => ?_
          have hinf : ∀ N, ∃ j, N ≤ j ∧ r.Gets j := by
            intro N
            refine Classical.byContradiction fun h => hf ⟨N, fun j hj hg => h ⟨j, hj, hg⟩⟩
          obtain ⟨B, hB⟩ := hb k
          obtain ⟨d, ks, h1, h2, h3⟩ := r.many (n := k) hinf (B + 1)
          have := hB d (fun j hj _ => ⟨x, hstay j hj,
            (thread_needsLock _ _ x (by rw [hparty]; exact hp)).trans hn⟩) ks h1 h3
          omega
        obtain ⟨N, hN⟩ := hfin
        obtain ⟨f, hf, hfree⟩ := r.free hw (max N k)
        have hfr : ∀ d, (r.state (f + d)).lock = none := by
          intro d
          induction d with
          | zero => exact hfree
          | succ d ih => exact Classical.byContradiction fun h => hN (f + d) (by omega) ⟨ih, h⟩
        obtain ⟨j, _, ha⟩ := hw p ⟨f, fun j hj => by
          obtain ⟨d, rfl⟩ := Nat.exists_eq_add_of_le hj
          rcases effect_free (e := e) (m := m) (db := db) (r.state (f + d)) p x (hstay _ (by omega)) (hfr d) with
            ⟨_, _, hg⟩ | ⟨h, _⟩
          · exact canGo_of (r.running _) hg
          · exact absurd h hx⟩ n
        exact hno ⟨j, by omega, ha⟩

/-- **C133.**  A mutex that is given in turn, to whoever has waited longest, is such a mutex. -/
theorem C133_in_turn (e : Endian) (m : Mode) (db : Db) (r : Endless e m db F) (hw : ∀ q, r.NotStopped q) (ht : r.InTurn)
    (p : PDJ.Party) (hp : p = .main ∨ p = .receiver ∨ p = .broadcaster) :
    (∀ n, r.OvertakenFrom p n n) ∧ r.NotPassedOver p :=
  ⟨r.in_turn ht p, C133_limited e m db r hw p hp fun n => ⟨n, r.in_turn ht p n⟩⟩

example (e : Endian) (m : Mode) (db : Db) : ∃ r : Endless e m db Nat, r.InTurn ∧ r.NotPassedOver .broadcaster := by
  obtain ⟨r, r1, _, _, _, r5, _⟩ := exampleAnnounced_endless e m db
  exact ⟨r, r5, (C133_in_turn e m db r r1 r5 .broadcaster (.inr (.inr rfl))).2⟩

/-- **C133.**  So with such a mutex presence is announced again and again once a network is known. -/
theorem C133_announced (e : Endian) (m : Mode) (db : Db) (r : Endless e m db F) (hw : ∀ q, r.NotStopped q)
    (hb : ∀ n, ∃ B, r.OvertakenFrom .broadcaster n B) (hl : r.CasterLoops) (N : Nat)
    (hk : ∀ k, N ≤ k → (r.state k).sys.app.state.address ≠ none ∧ (r.state k).sys.app.poisoned = false) (n : Nat) :
    ∃ k c net, n ≤ c ∧ c ≤ k ∧ (r.state c).sys.app.state.address = some net ∧
      (.broadcaster, .broadcast (toAll net (statusDatagram net.network.addr net.mac 1))) ∈ r.out k :=
  C132_announced e m db r hw (C133_limited e m db r hw .broadcaster (.inr (.inr rfl)) hb) hl N hk n

example (e : Endian) (m : Mode) (db : Db) : ∃ r : Endless e m db Nat, ∀ n, ∃ k net, n ≤ k ∧
    (.broadcaster, .broadcast (toAll net (statusDatagram net.network.addr net.mac 1))) ∈ r.out k := by
  obtain ⟨r, r1, _, r3, r5, _, N, r4⟩ := exampleAnnounced_endless e m db
  refine ⟨r, fun n => ?_⟩
  obtain ⟨k, c, net, h1, h2, _, h3⟩ := C133_announced e m db r r1 (fun n => ⟨0, r5 n⟩) r3 N r4 n
  exact ⟨k, net, by omega, h3⟩

/-- **C133.**  And a player that is noticed is linked with, under the conditions of C131. -/
theorem C133_links (e : Endian) (m : Mode) (db : Db) (r : Endless e m db F) (hw : ∀ q, r.NotStopped q)
    (hb : ∀ n, ∃ B, r.OvertakenFrom .main n B) (hb' : ∀ n, ∃ B, r.OvertakenFrom .receiver n B) (hl : r.MainLoops) (n : Nat) (i : List Interface)
    (d : Bytes) (a : Announcement) (hd : (r.state n).doing .receiver = .taken (.app (.receive i d)))
    (ha : Accepted d a) (hm : ¬ MacMissing i a.ip) :
    ∃ k, n ≤ k ∧ ((r.state k).sys.app.state.linking = true ∨ (r.state k).sys.app.poisoned = true ∨
      (r.state k).sys.app.receiver = false) :=
  C131_links e m db r hw (C133_limited e m db r hw .main (.inl rfl) hb)
    (C133_limited e m db r hw .receiver (.inr (.inl rfl)) hb') hl n i d a hd ha hm

example (e : Endian) (m : Mode) (db : Db) : ∃ (r : Endless e m db Nat) (k : Nat), 1 ≤ k ∧
    ((r.state k).sys.app.state.linking = true ∨ (r.state k).sys.app.poisoned = true ∨
      (r.state k).sys.app.receiver = false) := by
  obtain ⟨r, r1, _, r3, ⟨B, r5⟩, r4, _⟩ := exampleLinked_endless e m db
  obtain ⟨k, h1, h2⟩ := C133_links e m db r r1 (fun n => ⟨B, (r5 n).1⟩) (fun n => ⟨B, (r5 n).2⟩) r3 1 _ _ _ r4 exampleDatagram_accepted exampleHasMac
  exact ⟨r, k, h1, h2⟩

/-- **C133, what may happen.**  Without a limit presence may never be announced: in the history of C132 the broadcaster is
overtaken, while it waits, more often than any number says. -/
theorem C133_no_limit (e : Endian) (m : Mode) (db : Db) : ∃ r : Endless e m db Nat, (∀ q, r.NotStopped q) ∧
    r.CasterLoops ∧ (∃ n, ∀ B, ¬ r.OvertakenFrom .broadcaster n B) ∧ ∀ k y, (.broadcaster, y) ∉ r.out k := by
  obtain ⟨r, r1, r2, r3, _, r4⟩ := C132_passed_over e m db
  refine ⟨r, r1, r2, Classical.byContradiction fun h => r3 (C133_limited e m db r r1 .broadcaster (.inr (.inr rfl)) fun n =>
    Classical.byContradiction fun hn => h ⟨n, fun B hb => hn ⟨B, hb⟩⟩), r4⟩

end PDJ

import Verif.Lemmas.Linked

/-!
# A mutex that lets a thread be overtaken a limited number of times
-/

namespace PDJ

open Spec

variable {F : Type}
variable {e : Endian} {m : Mode} {db : Db}

/-- Whether a thread needs the lock depends on what it has taken up alone. -/
theorem thread_needsLock (s t : System F) (x : SysAction F)
    (hp : x.party = .main ∨ x.party = .receiver ∨ x.party = .broadcaster) : needsLock s x = needsLock t x := by
  cases x with
  | app y => cases y <;> rfl
  | _ => rcases hp with h | h | h <;> exact nomatch h

theorem Spec.Endless.many (r : Endless e m db F) {n : Nat} (h : ∀ N, ∃ k, N ≤ k ∧ r.Gets k) (B : Nat) :
    ∃ d, ∃ ks : List Nat, ks.Nodup ∧ ks.length = B ∧ ∀ k ∈ ks, n ≤ k ∧ k < n + d ∧ r.Gets k := by
  induction B with
  | zero => exact ⟨0, [], List.nodup_nil, rfl, nofun⟩
  | succ B ih =>
    obtain ⟨d, ks, h1, h2, h3⟩ := ih
    obtain ⟨k, hk, hg⟩ := h (n + d)
    refine ⟨k - n + 1, k :: ks, List.nodup_cons.2 ⟨fun hm => ?_, h1⟩, by simp [h2], fun j hj => ?_⟩
    · have := (h3 k hm).2.1
      omega
    · rcases List.mem_cons.1 hj with rfl | hj
      · exact ⟨by omega, by omega, hg⟩
      · have := h3 j hj
        exact ⟨this.1, by omega, this.2.2⟩

/-- Somebody who does not wait for the lock from some time on is overtaken a limited number of times. -/
theorem Spec.Endless.overtaken_of (r : Endless e m db F) (p : PDJ.Party) (N : Nat) (h : ∀ j, ¬ r.Wants p (N + j)) :
    ∀ n, r.OvertakenFrom p n N := by
  intro n d hw ks h1 h2
  have := h1.length_le_of_subset (l₂ := List.range N) fun k hk => by
    obtain ⟨g1, g2, _⟩ := h2 k hk
    refine List.mem_range.2 (Nat.lt_of_not_le fun hN => ?_)
    obtain ⟨j, rfl⟩ := Nat.exists_eq_add_of_le hN
    exact h j (hw _ g1 (by omega))
  rw [List.length_range] at this
  exact this

/-- Somebody who has taken up nothing so far does nothing. -/
theorem Spec.Endless.untaken (r : Endless e m db F) (p : PDJ.Party) (n : Nat)
    (h : ∀ k, k < n → ∀ x, r.act k = .take x → x.party ≠ p) : (r.state n).doing p = .idle := by
  induction n with
  | zero => rw [r.start]; rfl
  | succ n ih =>
    have hi := ih fun k hk => h k (by omega)
    rcases overlapStep_cases (r.step n) with ⟨x, hx, _, _, hs⟩ | ⟨q, outs, _, hg, _⟩
    · rw [hs, now_other _ (fun hp => h n (by omega) x hx hp.symm), hi]
    · by_cases hq : q = p
      · subst hq
        simp only [goOn, hi] at hg
        exact nomatch hg
      · rw [goOn_other hg (fun h => hq h.symm), hi]

/-- Who goes on has no longer just taken something up. -/
theorem gone_on {s s' : Overlap F} {p : PDJ.Party} {outs : List SysOut} (h : goOn e m db s p = some (outs, s')) :
    (s'.doing p).waits = false := by
  unfold goOn at h
  split at h
  · exact nomatch h
  · split at h
    · split at h
      · simp only [Option.some.injEq, Prod.mk.injEq] at h
        rw [← h.2]
        unfold enter
        split <;> (rw [now_own]; rfl)
      · exact nomatch h
    · split at h
      · exact nomatch h
      · simp only [Option.some.injEq, Prod.mk.injEq] at h
        rw [← h.2, now_own]
        rfl
  all_goals
    simp only [Option.some.injEq, Prod.mk.injEq] at h
    rw [← h.2, now_own]
    rfl

/-- Who gets the lock had taken something up. -/
theorem goes_for_lock {s s' : Overlap F} {p : PDJ.Party} {outs : List SysOut} (h : goOn e m db s p = some (outs, s'))
    (hl : s.lock = none) (hl' : s'.lock ≠ none) : ∃ x, s.doing p = .taken x := by
  unfold goOn at h
  split at h
  · exact nomatch h
  next x hx => exact ⟨x, hx⟩
  all_goals
    simp only [Option.some.injEq, Prod.mk.injEq] at h
    rw [← h.2] at hl'
    first | exact absurd rfl hl' | exact absurd hl hl'

/-- Who gets the lock does not wait for it any more. -/
theorem Spec.Endless.gets (r : Endless e m db F) {k : Nat} (h : r.Gets k) : ∃ q, r.act k = .go q ∧ ¬ r.Wants q (k + 1) := by
  rcases overlapStep_cases (r.step k) with ⟨x, _, _, _, hs⟩ | ⟨q, outs, hq, hg, _⟩
  · exact absurd (by rw [hs]; exact h.1) h.2
  · refine ⟨q, hq, fun ⟨x, hx, _⟩ => ?_⟩
    have := gone_on hg
    rw [hx] at this
    exact nomatch this

/-- Who does an action. -/
def OverlapAction.party : OverlapAction F → PDJ.Party
  | .take x => x.party
  | .go p => p

/-- Who waits for the lock has taken something up before. -/
theorem Spec.Endless.taken_before (r : Endless e m db F) {p : PDJ.Party} {n : Nat} (h : r.Wants p n) :
    p ∈ (List.range n).map fun k => (r.act k).party := by
  refine Classical.byContradiction fun hn => ?_
  obtain ⟨x, hx, _⟩ := h
  rw [r.untaken p n fun k hk y hy hp => hn (List.mem_map.2 ⟨k, List.mem_range.2 hk, by rw [hy]; exact hp⟩)] at hx
  exact nomatch hx

/-- If the lock is given in turn, nobody is overtaken more often than steps have been taken before. -/
theorem Spec.Endless.in_turn (r : Endless e m db F) (h : r.InTurn) (p : PDJ.Party) (n : Nat) : r.OvertakenFrom p n n := by
  intro d hw ks h1 h2
  have key : ∀ k ∈ ks, (∀ j, n ≤ j → j ≤ k → r.Wants (r.act k).party j) ∧ ¬ r.Wants (r.act k).party (k + 1) := by
    intro k hk
    obtain ⟨g1, g2, g3⟩ := h2 k hk
    obtain ⟨q, hq, hn⟩ := r.gets g3
    rw [hq]
    exact ⟨h p q n k g1 (fun j a b => hw j a (by omega)) g3 hq, hn⟩
  have hnd : (ks.map fun k => (r.act k).party).Nodup := by
    refine List.pairwise_map.2 (h1.imp_of_mem fun {a b} ha hb hab heq => ?_)
    rcases Nat.lt_or_gt_of_ne hab with hlt | hlt
    · exact (key a ha).2 (heq ▸ (key b hb).1 (a + 1) (by have := (h2 a ha).1; omega) hlt)
    · exact (key b hb).2 (heq ▸ (key a ha).1 (b + 1) (by have := (h2 b hb).1; omega) hlt)
  have := hnd.length_le_of_subset (l₂ := (List.range n).map fun k => (r.act k).party) fun q hq => by
    obtain ⟨k, hk, rfl⟩ := List.mem_map.1 hq
    exact r.taken_before ((key k hk).1 n (Nat.le_refl _) (h2 k hk).1)
  simpa using this

end PDJ

import Verif.Props.Inbox
import Verif.Props.StatusExact

/-!
# Property C104: the conditions under which no announcement is lost are exact
-/

namespace PDJ

open Spec

/-- A datagram arrives every `gap` ms, and the receiver takes one every 250 + `late` ms: what happens next, when `i` have
arrived and `n` were taken. -/
def inboxOverload (gap late : Nat) (d : Bytes) : Nat → Nat → Nat → List InboxEvent
  | _, _, 0 => []
  | i, n, k + 1 =>
    if gap * i ≤ late + n * (250 + late) then .arrive (gap * i) d :: inboxOverload gap late d (i + 1) n k
    else .take (late + n * (250 + late)) [] :: inboxOverload gap late d i (n + 1) k

theorem inboxOverload_came (gap late : Nat) (d : Bytes) (k i n : Nat) :
    ∀ j e, (came (inboxOverload gap late d i n k))[j]? = some e → e = (gap * (i + j), d) := by
  induction k generalizing i n with
  | zero => intro j e h; simp [inboxOverload, came] at h
  | succ k ih =>
    intro j e h
    rw [inboxOverload] at h
    split at h
    · rw [came] at h
      cases j with
      | zero => cases h; rfl
      | succ j =>
        rw [ih (i + 1) n j e (by simpa using h)]
        congr 2
        omega
    · exact ih i (n + 1) j e h

/-- A history without negotiations, in which the application only hears what is none of a player. -/
structure Quiet (cap late : Nat) (s : Inbox) (xs : List InboxEvent) : Prop where
  prompt : PromptReceiver cap late s xs
  held : heldUp cap late s xs = 0

theorem quiet_cons {cap late : Nat} {s s' : Inbox} {x : InboxEvent} {xs : List InboxEvent} {o}
    (h : inboxStep cap s x = some (o, s')) (hf : s'.clock.lockFree = s.clock.lockFree)
    (ht : x.time ≤ max (max s.clock.recvFree 0) s.clock.lockFree + late) (hq : Quiet cap late s' xs) :
    Quiet cap late s (x :: xs) := by
  refine ⟨⟨fun e q _ _ _ => by omega, fun r hr => ?_⟩, ?_⟩
  · obtain rfl := Option.some.inj (h.symm.trans hr)
    exact hq.prompt
  · rw [heldUp, h]
    simp only [hf, if_true, hq.held]

theorem inboxOverload_run (cap gap late : Nat) (hcap : 1 ≤ cap) (hg : gap ≤ 250 + late) (d : Bytes)
    (hd : ∀ a, ¬ Accepted d a) (k i n : Nat) (s : Inbox) (ha : s.clock.app = .start) (hlock : s.clock.lockFree = 0)
    (hi : s.clock.now ≤ gap * i) (hn : s.clock.now ≤ late + n * (250 + late)) (hf : s.clock.recvFree = n * (250 + late))
    (hq : ∀ e ∈ s.queue, e.2 = d) (he : s.queue = [] → gap * i ≤ late + n * (250 + late))
    (hl : gap * i ≤ late + n * (250 + late) + gap)
    (hb : n = 0 ∨ late + n * (250 + late) < gap * i + (250 + late)) (hc : i = n + s.queue.length + s.lost)
    (hroom : s.queue.length ≤ cap) :
    Quiet cap late s (inboxOverload gap late d i n k) ∧
    ∃ o s' i' n', inboxRun cap s (inboxOverload gap late d i n k) = some (o, s') ∧ i' + n' = i + n + k ∧
      (n' = 0 ∨ late + n' * (250 + late) < gap * i' + (250 + late)) ∧ i' = n' + s'.queue.length + s'.lost ∧
      s'.queue.length ≤ cap ∧ s'.clock.app = .start := by
  induction k generalizing i n s with
  | zero => exact ⟨⟨trivial, rfl⟩, [], s, i, n, rfl, rfl, hb, hc, hroom, ha⟩
  | succ k ih =>
    rw [inboxOverload]
    have hgi : gap * (i + 1) = gap * i + gap := Nat.mul_succ _ _
    have hnn : (n + 1) * (250 + late) = n * (250 + late) + (250 + late) := Nat.succ_mul _ _
    split
    · rename_i hle
      let s' : Inbox := if s.queue.length < cap then
          { s with clock := { s.clock with now := gap * i }, queue := s.queue ++ [(gap * i, d)] }
        else { s with clock := { s.clock with now := gap * i }, lost := s.lost + 1 }
      have hs : inboxStep cap s (.arrive (gap * i) d) = some ([], s') := by
        rw [inboxStep, if_pos hi]
      have h1 : s'.clock = { s.clock with now := gap * i } ∧ (∀ e ∈ s'.queue, e.2 = d) ∧ s'.queue ≠ [] ∧
          i + 1 = n + s'.queue.length + s'.lost ∧ s'.queue.length ≤ cap := by
        by_cases hlt : s.queue.length < cap
        · simp only [s', if_pos hlt]
          refine ⟨trivial, fun e hm => ?_, by simp, by simp; omega, by simp; omega⟩
          rcases List.mem_append.1 hm with hm | hm
          · exact hq e hm
          · rw [List.mem_singleton.1 hm]
        · simp only [s', if_neg hlt]
          refine ⟨trivial, hq, fun h => ?_, by omega, hroom⟩
          rw [h] at hlt
          exact hlt hcap
      obtain ⟨a1, a2, a3, a4, a5⟩ := h1
      obtain ⟨hp, o, s'', i', n', b1, b2, b3, b4, b5, b6⟩ := ih (i + 1) n s' (by rw [a1]; exact ha)
        (by rw [a1]; exact hlock) (by rw [a1]; simp only; omega) (by rw [a1]; exact hle) (by rw [a1]; exact hf) a2
        (fun h => absurd h a3) (by omega) (by omega) a4 a5
      refine ⟨quiet_cons hs (by rw [a1]) (by show gap * i ≤ _; omega) hp, [] ++ o, s'', i', n', ?_, by omega, b3, b4, b5,
        b6⟩
      simp only [inboxRun, hs, b1, Option.bind_some]
    · rename_i hle
      have hne : s.queue ≠ [] := fun h => hle (he h)
      let t := late + n * (250 + late)
      obtain ⟨s', hs, a1, a2, a3, a4, a5⟩ := inbox_take (cap := cap) (t := t) ha hlock hn (by omega) hd hne hq
      have h1 : s'.queue.length + 1 = s.queue.length ∧ s'.lost = s.lost := by
        obtain ⟨e, q, hqe⟩ := List.exists_cons_of_ne_nil hne
        simp only [inboxStep, hqe] at hs
        split at hs
        · obtain ⟨r, -, hr⟩ := Option.bind_eq_some_iff.1 hs
          have hr := (Prod.mk.inj (Option.some.inj hr)).2
          rw [← hr]
          exact ⟨by simp [hqe], rfl⟩
        · exact nomatch hs
      obtain ⟨hp, o, s'', i', n', b1, b2, b3, b4, b5, b6⟩ := ih i (n + 1) s' a1 a2 (by omega) (by omega) (by omega) a5
        (fun _ => by omega) (by omega) (.inr (by omega)) (by omega) (by omega)
      refine ⟨quiet_cons hs (by omega) (by show t ≤ _; omega) hp, [] ++ o, s'', i', n', ?_, by omega, b3, b4, b5, b6⟩
      show inboxRun cap s (.take t [] :: inboxOverload gap late d i (n + 1) k) = _
      simp only [inboxRun, hs, b1, Option.bind_some]

theorem inbox_overloaded (cap gap late k : Nat) (hcap : 1 ≤ cap) (hg : gap < 250 + late) (d : Bytes)
    (hd : ∀ a, ¬ Accepted d a) : ∃ xs o s, inboxRun cap .start xs = some (o, s) ∧ Quiet cap late .start xs ∧
      (∀ i e, (came xs)[i]? = some e → e = (gap * i, d)) ∧ k < s.lost ∧ s.clock.app = .start := by
  obtain ⟨hp, o, s, i, n, h1, h2, h3, h4, h5, h6⟩ := inboxOverload_run cap gap late hcap (by omega) d hd
    (2 * (250 + late) * (cap + k + 3)) 0 0 .start rfl rfl (Nat.le_refl _) (Nat.zero_le _)
    (by simp [Inbox.start, Clocked.start]) (by simp [Inbox.start]) (fun _ => by simp) (by omega) (.inl rfl) rfl
    (Nat.zero_le _)
  refine ⟨_, o, s, h1, hp, fun j e he => by rw [inboxOverload_came _ _ _ _ _ _ j e he, Nat.zero_add], ?_, h6⟩
  have hlt : cap + k < i - n := by
    rw [Nat.add_zero, Nat.zero_add] at h2
    rcases h3 with rfl | h3
    · have : cap + k + 3 ≤ 2 * (250 + late) * (cap + k + 3) := Nat.le_mul_of_pos_left _ (by omega)
      omega
    · have e1 : gap * i ≤ (249 + late) * i := Nat.mul_le_mul_right _ (by omega)
      have e2 : (250 + late) * i = (249 + late) * i + i := by
        rw [show 250 + late = (249 + late) + 1 by omega, Nat.add_mul, Nat.one_mul]
      have e3 : n * (250 + late) = (250 + late) * n := Nat.mul_comm _ _
      refine Nat.lt_of_not_le fun hle => ?_
      have e4 : (250 + late) * i ≤ (250 + late) * (n + (cap + k)) := Nat.mul_le_mul_left _ (by omega)
      rw [Nat.mul_add] at e4
      have e5 : 2 * (250 + late) * (cap + k + 3) = 2 * ((250 + late) * (cap + k)) + 6 * (250 + late) := by
        rw [Nat.mul_add, Nat.mul_assoc]; omega
      generalize (250 + late) * (cap + k) = X at *
      omega
  omega

/-- C104, the negation: if datagrams of nobody arrive at one per `gap` ms, and the receiver may be late by as much as
makes it take longer than that for one, then any number of them may be lost in the end, whatever the socket holds and
though there is no negotiation. -/
theorem C104_overloaded (cap gap late k : Nat) (hcap : 1 ≤ cap) (hg : gap < 250 + late) (d : Bytes)
    (hd : ∀ a, ¬ Accepted d a) : ∃ xs o s, inboxRun cap .start xs = some (o, s) ∧ PromptReceiver cap late .start xs ∧
      heldUp cap late .start xs = 0 ∧ (∀ i e, (came xs)[i]? = some e → e = (gap * i, d)) ∧ k < s.lost := by
  obtain ⟨xs, o, s, h1, h2, h3, h4, -⟩ := inbox_overloaded cap gap late k hcap hg d hd
  exact ⟨xs, o, s, h1, h2.prompt, h2.held, h3, h4⟩

theorem came_sorted (cap : Nat) (xs : List InboxEvent) (s : Inbox) {r} (h : inboxRun cap s xs = some r) :
    (∀ e ∈ came xs, s.clock.now ≤ e.1) ∧ (came xs).Pairwise fun a b => a.1 ≤ b.1 := by
  induction xs generalizing s r with
  | nil => exact ⟨fun _ h => (nomatch h), .nil⟩
  | cons x xs ih =>
    simp only [inboxRun] at h
    obtain ⟨a, h1, h2⟩ := Option.bind_eq_some_iff.1 h
    obtain ⟨b, h2, -⟩ := Option.bind_eq_some_iff.1 h2
    obtain ⟨i1, i2⟩ := ih _ h2
    have step : ∀ {c : Clocked} {y : TimedAction} {q}, timedStep c y = some q → c.now ≤ q.2.now := by
      intro c y q hy
      have hp := (possible_iff c y).1 (timedStep_possible hy)
      simp only [timedStep, timedStep_possible hy, if_true, Option.some.injEq] at hy
      subst hy
      obtain ⟨t, act, late⟩ := y
      cases act with
      | receive => exact hp.1
      | broadcast => exact hp.1
      | appRecv => dsimp only; split <;> exact hp.1
      | appLink => dsimp only; split <;> exact hp.1
    cases x with
    | arrive t d =>
      rw [inboxStep] at h1
      split at h1
      · rename_i hle
        have hnow : a.2.clock.now = t := by
          cases h1
          dsimp only
          split <;> rfl
        rw [hnow] at i1
        refine ⟨fun e he => ?_, List.pairwise_cons.2 ⟨i1, i2⟩⟩
        rcases List.mem_cons.1 he with rfl | he
        · exact hle
        · exact Nat.le_trans hle (i1 e he)
      · exact nomatch h1
    | take t i =>
      simp only [inboxStep] at h1
      split at h1
      · exact nomatch h1
      · split at h1
        · obtain ⟨q, hq, h1⟩ := Option.bind_eq_some_iff.1 h1
          cases h1
          exact ⟨fun e he => Nat.le_trans (step hq) (i1 e he), i2⟩
        · exact nomatch h1
    | other y =>
      simp only [inboxStep] at h1
      split at h1
      · exact nomatch h1
      · obtain ⟨q, hq, h1⟩ := Option.bind_eq_some_iff.1 h1
        cases h1
        exact ⟨fun e he => Nat.le_trans (step hq) (i1 e he), i2⟩

theorem burst_comes (cap : Nat) (d : Bytes) (late k : Nat) (s : Inbox) (hn : s.clock.now = 0)
    (hr : s.queue.length ≤ cap) :
    Quiet cap late s (List.replicate k (.arrive 0 d)) ∧
    came (List.replicate k (.arrive 0 d)) = List.replicate k (0, d) ∧
    ∃ s', inboxRun cap s (List.replicate k (.arrive 0 d)) = some ([], s') ∧ s'.queue.length ≤ cap ∧
      s'.queue.length + s'.lost = s.queue.length + s.lost + k ∧ s'.clock.app = s.clock.app := by
  induction k generalizing s with
  | zero => exact ⟨⟨trivial, rfl⟩, rfl, s, rfl, hr, rfl, rfl⟩
  | succ k ih =>
    let s' : Inbox := if s.queue.length < cap then
        { s with clock := { s.clock with now := 0 }, queue := s.queue ++ [(0, d)] }
      else { s with clock := { s.clock with now := 0 }, lost := s.lost + 1 }
    have hs : inboxStep cap s (.arrive 0 d) = some ([], s') := by
      rw [inboxStep, if_pos (by omega)]
    have h1 : s'.clock = { s.clock with now := 0 } ∧ s'.queue.length ≤ cap ∧
        s'.queue.length + s'.lost = s.queue.length + s.lost + 1 := by
      by_cases hlt : s.queue.length < cap
      · simp only [s', if_pos hlt, List.length_append, List.length_singleton]
        exact ⟨trivial, by omega, by omega⟩
      · simp only [s', if_neg hlt]
        exact ⟨trivial, hr, by omega⟩
    obtain ⟨a1, a2, a3⟩ := h1
    obtain ⟨hp, harr, s'', b1, b2, b3, b4⟩ := ih s' (by rw [a1]) a2
    rw [List.replicate_succ]
    refine ⟨quiet_cons hs (by rw [a1]) (Nat.zero_le _) hp, ?_, s'', ?_, b2, by omega, by rw [b4, a1]⟩
    · rw [came, harr, List.replicate_succ]
    · simp only [inboxRun, hs, b1, Option.bind_some, List.append_nil]

/-- C104: while there is no negotiation these are the exact conditions: with datagrams that come no more than `burst` at
a time and in the long run one per `gap` ms, and a receiver that is never late by more than `late` ms, none is lost in
any history exactly if the socket holds a burst and `gap` is at least 250 + `late` ms. -/
theorem C104_exact (cap burst late gap : Nat) (hb : 1 ≤ burst) : (burst ≤ cap ∧ 250 + late ≤ gap) ↔
    ∀ (xs : List InboxEvent) (o : List (Nat × Caster × Bytes × Ip4 × UInt16)) (s : Inbox),
      Bursts burst gap (came xs) → heldUp cap late .start xs = 0 → PromptReceiver cap late .start xs →
      inboxRun cap .start xs = some (o, s) → s.clock.app.receiver = true → s.clock.app.running = true → s.lost = 0 := by
  have hd : ∀ a, ¬ Accepted [1, 2, 3] a := fun a h => absurd h.1.1 (by decide)
  refine ⟨fun ⟨h1, h2⟩ xs o s ha hh hp h hr hl => ?_, fun h => ?_⟩
  · refine (C104_noticed_partial cap burst late hb xs (bursts_shorter h2 _ (came_sorted cap xs .start h).2 ha) ?_ hp h hr
      hl).1
    rw [hh]
    exact Nat.mul_le_mul_right _ h1
  · have hc : burst ≤ cap := by
      refine Nat.le_of_not_lt fun hlt => ?_
      obtain ⟨hp, ha, s, h1, h3, h4, h5⟩ := burst_comes cap [1, 2, 3] late burst .start rfl (Nat.zero_le _)
      have := h _ _ s (by rw [ha]; exact bursts_at_once burst gap _) hp.held hp.prompt h1 (by rw [h5]; rfl)
        (by rw [h5]; rfl)
      simp only [Inbox.start, List.length_nil] at h4
      omega
    refine ⟨hc, Nat.le_of_not_lt fun hlt => ?_⟩
    obtain ⟨xs, o, s, h1, h2, h3, h4, h5⟩ := inbox_overloaded cap gap late 0 (by omega) hlt [1, 2, 3] hd
    have := h xs o s ?_ h2.held h2.prompt h1 (by rw [h5]; rfl) (by rw [h5]; rfl)
    · omega
    · intro i j a b hij ha hb
      rw [h3 i a ha, h3 j b hb]
      have : gap * j = gap * i + (j - i) * gap := by
        rw [Nat.mul_comm (j - i), ← Nat.mul_add]
        congr 1
        omega
      simp only
      omega

/-! ## Non-vacuity -/

example := C104_overloaded 1000 279 30 5 (by decide) (by decide) [1, 2, 3] (fun _ h => absurd h.1.1 (by decide))
example := C104_exact 10 2 30 300 (by decide)

end PDJ

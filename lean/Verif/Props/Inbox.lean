import Verif.Spec.Inbox
import Verif.Props.Timed
import Verif.Props.StatusTimed

/-!
# Property C104: players that appear are noticed and linked with in time
-/

namespace PDJ

open Spec

theorem inboxRun_cons {cap : Nat} {s : Inbox} {x : InboxEvent} {xs : List InboxEvent} {r}
    (h : inboxRun cap s (x :: xs) = some r) : ∃ a b, inboxStep cap s x = some a ∧
      inboxRun cap a.2 xs = some b ∧ r = (a.1 ++ b.1, b.2) := by
  simp only [inboxRun] at h
  obtain ⟨a, h1, h⟩ := Option.bind_eq_some_iff.1 h
  obtain ⟨b, h2, h⟩ := Option.bind_eq_some_iff.1 h
  cases h
  exact ⟨a, b, h1, h2, rfl⟩

/-- The cases of an event. -/
inductive InboxTo (cap : Nat) (s : Inbox) : InboxEvent →
    List (Nat × Caster × Bytes × Ip4 × UInt16) → Inbox → Prop
  | waits {t d} (hn : s.clock.now ≤ t) (hq : s.queue.length < cap) :
      InboxTo cap s (.arrive t d) [] ⟨{ s.clock with now := t }, s.queue ++ [(t, d)], s.lost⟩
  | lost {t d} (hn : s.clock.now ≤ t) (hq : ¬ s.queue.length < cap) :
      InboxTo cap s (.arrive t d) [] ⟨{ s.clock with now := t }, s.queue, s.lost + 1⟩
  | takes {t i e q o c} (hq : s.queue = e :: q) (hr : s.clock.app.receiver = true)
      (hl : s.clock.app.running = true) (hs : timedStep s.clock ⟨t, .receive i e.2, []⟩ = some (o, c)) :
      InboxTo cap s (.take t i) o ⟨c, q, s.lost⟩
  | other {x o c} (hx : ofReceiver x.act = false) (hs : timedStep s.clock x = some (o, c)) :
      InboxTo cap s (.other x) o ⟨c, s.queue, s.lost⟩

theorem inboxTo {cap : Nat} {s : Inbox} {x : InboxEvent} {r} (h : inboxStep cap s x = some r) :
    InboxTo cap s x r.1 r.2 := by
  cases x with
  | arrive t d =>
    simp only [inboxStep] at h
    split at h
    case isFalse => exact nomatch h
    rename_i hn
    split at h
    · rename_i hq
      cases h
      exact .waits hn hq
    · rename_i hq
      cases h
      exact .lost hn hq
  | take t i =>
    simp only [inboxStep] at h
    cases hq : s.queue with
    | nil => rw [hq] at h; exact nomatch h
    | cons e q =>
      rw [hq] at h
      simp only at h
      split at h
      case isFalse => exact nomatch h
      rename_i ha
      obtain ⟨⟨o, c⟩, h1, h⟩ := Option.bind_eq_some_iff.1 h
      cases h
      exact .takes hq ha.1 ha.2 h1
  | other x =>
    simp only [inboxStep] at h
    split at h
    · exact nomatch h
    · rename_i hx
      obtain ⟨⟨o, c⟩, h1, h⟩ := Option.bind_eq_some_iff.1 h
      cases h
      exact .other (by simpa using hx) h1

/-- The clocks after the receiver has handled a datagram. -/
theorem receive_clock {s : Clocked} {t : Nat} {i : List Interface} {d : Bytes} {r}
    (h : timedStep s ⟨t, .receive i d, []⟩ = some r) : r.2.now = t ∧ s.now ≤ t ∧ s.recvFree ≤ t ∧
      r.2.recvFree = t + 250 ∧ r.2.lockFree = s.lockFree := by
  have hq := (possible_iff s _).1 (timedStep_possible h)
  simp only [timedStep, timedStep_possible h, if_true, Option.some.injEq] at h
  subst h
  exact ⟨rfl, hq.1, hq.2.1, rfl, rfl⟩

/-- The clocks after an action of another thread. -/
theorem other_clock {s : Clocked} {x : TimedAction} {r} (h : timedStep s x = some r)
    (hx : ofReceiver x.act = false) : r.2.now = x.time ∧ s.now ≤ x.time ∧ r.2.recvFree = s.recvFree ∧
      (r.2.lockFree = s.lockFree ∨
        (s.app.pending = true ∧ x.time ≤ r.2.lockFree ∧ s.lockFree < r.2.lockFree)) := by
  have hq := (possible_iff s _).1 (timedStep_possible h)
  simp only [timedStep, timedStep_possible h, if_true, Option.some.injEq] at h
  subst h
  obtain ⟨t, act, late⟩ := x
  cases act with
  | receive i d => exact nomatch hx
  | broadcast ok => exact ⟨rfl, hq.1, rfl, .inl rfl⟩
  | appRecv =>
    refine ⟨?_, hq.1, ?_, .inl ?_⟩ <;> dsimp only <;> split <;> rfl
  | appLink oks =>
    have hl := hq.2.2 rfl
    have he := negotiationEnd_ge t late
    simp only at hl
    refine ⟨?_, hq.1, ?_, ?_⟩
    · dsimp only; split <;> rfl
    · dsimp only; split <;> rfl
    · dsimp only
      split
      · rename_i hp
        exact .inr ⟨hp, by simp only; omega, by simp only; omega⟩
      · exact .inl rfl

/-- The time an action begins is of no importance for what it does. -/
theorem timedStep_now {s : Clocked} {x : TimedAction} {r} (h : timedStep s x = some r) {n : Nat}
    (hn : n ≤ s.now) : timedStep { s with now := n } x = some r := by
  have hp := timedStep_possible h
  have hq := (possible_iff s x).1 hp
  have hw : wakes { s with now := n } x.act = wakes s x.act := by cases x.act <;> rfl
  have hp' : possible { s with now := n } x = true := by
    rw [possible_iff, hw]
    exact ⟨by simp only; omega, hq.2⟩
  rw [← h]
  simp only [timedStep, hp, hp', if_true]

theorem inbox_refines (cap : Nat) (xs : List InboxEvent) (s : Inbox) (n : Nat) (hn : n ≤ s.clock.now) {r}
    (h : inboxRun cap s xs = some r) : ∃ n', n' ≤ r.2.clock.now ∧
      timedRun { s.clock with now := n } (actions cap s xs) =
        some (r.1, { r.2.clock with now := n' }) := by
  induction xs generalizing s n r with
  | nil =>
    cases h
    exact ⟨n, hn, rfl⟩
  | cons x xs ih =>
    obtain ⟨⟨o, s'⟩, b, h1, h2, rfl⟩ := inboxRun_cons h
    simp only [actions, h1]
    cases inboxTo h1 with
    | waits hn' hq =>
      obtain ⟨n', h3, h4⟩ := ih _ n (Nat.le_trans hn hn') h2
      exact ⟨n', h3, h4⟩
    | lost hn' hq =>
      obtain ⟨n', h3, h4⟩ := ih _ n (Nat.le_trans hn hn') h2
      exact ⟨n', h3, h4⟩
    | @takes t i e q _ c hq hr hl hs =>
      obtain ⟨n', h3, h4⟩ := ih _ c.now (Nat.le_refl _) h2
      refine ⟨n', h3, ?_⟩
      simp only [actionOf, hq, List.head?_cons, Option.toList_some, List.map_cons, List.map_nil,
        List.cons_append, List.nil_append, timedRun, timedStep_now hs hn, Option.bind_some]
      rw [show timedRun c (actions cap ⟨c, q, s.lost⟩ xs) = _ from h4]
      rfl
    | @other x _ c hx hs =>
      obtain ⟨n', h3, h4⟩ := ih _ c.now (Nat.le_refl _) h2
      refine ⟨n', h3, ?_⟩
      simp only [actionOf, List.cons_append, List.nil_append, timedRun, timedStep_now hs hn,
        Option.bind_some]
      rw [show timedRun c (actions cap ⟨c, s.queue, s.lost⟩ xs) = _ from h4]
      rfl

theorem received_sublist (cap : Nat) (xs : List InboxEvent) (s : Inbox) {r}
    (h : inboxRun cap s xs = some r) :
    ((received (actions cap s xs)).map Prod.snd).Sublist ((s.queue ++ came xs).map Prod.snd) := by
  induction xs generalizing s r with
  | nil => simp [actions, received]
  | cons x xs ih =>
    obtain ⟨⟨o, s'⟩, b, h1, h2, rfl⟩ := inboxRun_cons h
    have hr := ih _ h2
    simp only [actions, h1]
    cases inboxTo h1 with
    | waits hn hq =>
      refine hr.trans ?_
      simp [came]
    | lost hn hq =>
      refine hr.trans ?_
      simp only [came, List.map_append, List.map_cons]
      exact (List.Sublist.refl _).append (List.sublist_cons_self _ _)
    | @takes t i e q _ c hq _ hl hs =>
      simp only [actionOf, came, hq, List.head?_cons, Option.toList_some, List.map_cons, List.map_nil,
        List.cons_append, List.nil_append, received]
      exact List.Sublist.cons_cons _ hr
    | @other x _ c hx hs =>
      have : received (x :: actions cap ⟨c, s.queue, s.lost⟩ xs) =
          received (actions cap ⟨c, s.queue, s.lost⟩ xs) := by
        simp only [received]
        split
        · rename_i he
          rw [he] at hx
          exact nomatch hx
        · rfl
      simp only [actionOf, came, List.cons_append, List.nil_append]
      rw [this]
      exact hr

/-- C104: a history with the socket is a history of the threads in time, in which some of the datagrams that
arrive are handled, in their order, so C89 - C92 hold in it. -/
theorem C104_refines (cap : Nat) (xs : List InboxEvent)
    {o : List (Nat × Caster × Bytes × Ip4 × UInt16)} {s : Inbox} (h : inboxRun cap .start xs = some (o, s)) :
    (∃ c, timedRun .start (actions cap .start xs) = some (o, c) ∧ c.app = s.clock.app) ∧
    ((received (actions cap .start xs)).map Prod.snd).Sublist ((came xs).map Prod.snd) := by
  obtain ⟨n', -, h1⟩ := inbox_refines cap xs .start 0 (Nat.le_refl _) h
  exact ⟨⟨_, h1, rfl⟩, received_sublist cap xs .start h⟩

/-! ## Delay -/

/-- The receiver and the process run. -/
def Alive (s : Inbox) : Prop := s.clock.app.receiver = true ∧ s.clock.app.running = true

theorem alive_app_back {s s' : AppSystem} {x : AppAction} {o : List (Bytes × Ip4 × UInt16)}
    (h : StepTo s x o s') (ha : s'.receiver = true ∧ s'.running = true) :
    s.receiver = true ∧ s.running = true := by
  cases h with
  | macMissing => exact nomatch ha.1
  | links hr hp => exact ⟨ha.1, hr⟩
  | linkFails hr hp => exact ⟨ha.1, hr⟩
  | linkNowhere => exact nomatch ha.2
  | linkPoisoned => exact nomatch ha.2
  | _ => exact ha

theorem alive_back {cap : Nat} {s : Inbox} {x : InboxEvent} {r} (h : inboxStep cap s x = some r)
    (ha : Alive r.2) : Alive s := by
  obtain ⟨o, s'⟩ := r
  cases inboxTo h with
  | waits => exact ha
  | lost => exact ha
  | takes hq hr hl hs => exact ⟨hr, hl⟩
  | other hx hs =>
    have he := (timedStep_app hs).1
    simp only at he
    simp only [Alive, he] at ha
    exact alive_app_back (stepTo _ _) ha

theorem alive_run_back (cap : Nat) (xs : List InboxEvent) (s : Inbox) {r} (h : inboxRun cap s xs = some r)
    (ha : Alive r.2) : Alive s := by
  induction xs generalizing s r with
  | nil => cases h; exact ha
  | cons x xs ih =>
    obtain ⟨a, b, h1, h2, rfl⟩ := inboxRun_cons h
    exact alive_back h1 (ih _ h2 ha)

/-- When the receiver can turn to the first datagram. -/
def turnsAt (s : Inbox) : Nat :=
  match s.queue with
  | [] => max s.clock.recvFree s.clock.lockFree
  | e :: _ => max (max s.clock.recvFree e.1) s.clock.lockFree

/-- A receiver that keeps up but for `extra` ms. -/
structure KeepsPace (burst late tat extra : Nat) (s : Inbox) : Prop where
  lost : s.lost = 0
  work : turnsAt s + s.queue.length * (250 + late) ≤ max tat s.clock.now + extra
  wait : ∀ k e, s.queue[k]? = some e → e.1 ≤ s.clock.now ∧
    turnsAt s + k * (250 + late) ≤ e.1 + (burst - 1) * (250 + late) + extra
  soon : s.queue ≠ [] → s.clock.now ≤ turnsAt s + late

/-- The time before which the next datagram is early. -/
def tatAfter (late tat : Nat) : InboxEvent → Nat
  | .arrive t _ => max t tat + (250 + late)
  | _ => tat

/-- For how long a step makes the lock be held, with the lateness of the receiver. -/
def heldBy (late : Nat) (s s' : Inbox) (x : InboxEvent) : Nat :=
  if s'.clock.lockFree = s.clock.lockFree then 0 else s'.clock.lockFree - x.time + late

theorem pace_step {cap burst late tat extra : Nat} (hb : 1 ≤ burst) {x : InboxEvent} {s : Inbox}
    (hk : KeepsPace burst late tat extra s)
    (ha : ∀ e ∈ came [x], tat ≤ e.1 + (burst - 1) * (250 + late))
    (hcap : burst * (250 + late) + extra ≤ cap * (250 + late))
    (hp1 : ∀ e q, s.queue = e :: q → s.clock.app.receiver = true → s.clock.app.running = true →
      x.time ≤ max (max s.clock.recvFree e.1) s.clock.lockFree + late)
    (hals : Alive s) {r} (h : inboxStep cap s x = some r) :
    KeepsPace burst late (tatAfter late tat x) (extra + heldBy late s r.2 x) r.2 ∧
    ∃ handled : List (Nat × Nat × Bytes), s.queue ++ came [x] = handled.map (fun e => (e.1, e.2.2)) ++ r.2.queue ∧
      received (actionOf s x) = handled.map (fun e => e.2) ∧
      ∀ e ∈ handled, e.1 ≤ e.2.1 ∧ e.2.1 ≤ e.1 + (burst - 1) * (250 + late) + late + extra := by
  obtain ⟨k1, k2, k3, k4⟩ := hk
  -- while something waits, no event comes later than this
  have hready : s.queue ≠ [] → x.time ≤ turnsAt s + late := by
    intro hq
    obtain ⟨e, q, hq⟩ := List.exists_cons_of_ne_nil hq
    have := hp1 e q hq hals.1 hals.2
    simpa [turnsAt, hq] using this
  obtain ⟨o, s'⟩ := r
  cases inboxTo h with
  | @waits t d hnow hq =>
    simp only [InboxEvent.time] at hready
    have hearly : tat ≤ t + (burst - 1) * (250 + late) := ha (t, d) List.mem_cons_self
    have n2 : s.queue ≠ [] → turnsAt ⟨{ s.clock with now := t }, s.queue ++ [(t, d)], s.lost⟩ =
        turnsAt s := by
      intro hne
      obtain ⟨e, q, hq⟩ := List.exists_cons_of_ne_nil hne
      simp [turnsAt, hq]
    have n3 : s.queue = [] → turnsAt ⟨{ s.clock with now := t }, s.queue ++ [(t, d)], s.lost⟩ =
        max (turnsAt s) t := by
      intro hq
      simp only [turnsAt, hq, List.nil_append]
      omega
    simp only [heldBy, if_true, Nat.add_zero]
    refine ⟨⟨k1, ?_, ?_, ?_⟩, [], rfl, rfl, fun e he => nomatch he⟩
    · simp only [List.length_append, List.length_singleton, Nat.add_mul, Nat.one_mul, tatAfter]
      by_cases hq : s.queue = []
      · rw [n3 hq, hq]
        rw [hq] at k2
        simp at k2 ⊢
        omega
      · rw [n2 hq]
        omega
    · intro k e he
      by_cases hk : k < s.queue.length
      · have hne : s.queue ≠ [] := by intro h; rw [h] at hk; simp at hk
        simp only [List.getElem?_append_left hk] at he
        obtain ⟨w1, w2⟩ := k3 k e he
        rw [n2 hne]
        exact ⟨by simp only; omega, w2⟩
      · simp only [List.getElem?_append_right (Nat.le_of_not_lt hk)] at he
        have hk0 : k - s.queue.length = 0 := by
          cases hz : k - s.queue.length with
          | zero => rfl
          | succ z => rw [hz] at he; simp at he
        rw [hk0] at he
        cases he
        have hke : k = s.queue.length := by omega
        subst hke
        refine ⟨Nat.le_refl _, ?_⟩
        by_cases hq : s.queue = []
        · rw [n3 hq, hq]
          rw [hq] at k2
          simp at k2 ⊢
          omega
        · rw [n2 hq]
          simp only
          omega
    · intro _
      by_cases hq : s.queue = []
      · rw [n3 hq]
        simp only
        omega
      · rw [n2 hq]
        exact hready hq
  | @lost t d hnow hq =>
    exfalso
    simp only [InboxEvent.time] at hready
    have hearly : tat ≤ t + (burst - 1) * (250 + late) := ha (t, d) List.mem_cons_self
    apply hq
    have hbb : burst * (250 + late) = (burst - 1) * (250 + late) + (250 + late) := by
      rw [← Nat.succ_mul]
      congr 1
      omega
    have h3 : s.queue.length * (250 + late) < cap * (250 + late) := by
      by_cases hq : s.queue = []
      · rw [hq]
        simp only [List.length_nil, Nat.zero_mul]
        omega
      · have := hready hq
        omega
    exact Nat.lt_of_mul_lt_mul_right h3
  | @takes t i e q _ c hq hr hl hs =>
    obtain ⟨c1, c2, c3, c4, c5⟩ := receive_clock hs
    simp only at c1 c4 c5
    have hpt := hp1 _ _ hq hr hl
    simp only [InboxEvent.time] at hpt
    have hte : turnsAt s = max (max s.clock.recvFree e.1) s.clock.lockFree := by simp [turnsAt, hq]
    obtain ⟨w1, w2⟩ := k3 0 e (by rw [hq]; rfl)
    have hq' : ∀ k e, q[k]? = some e → e.1 ≤ s.clock.now ∧
        turnsAt s + (k + 1) * (250 + late) ≤ e.1 + (burst - 1) * (250 + late) + extra := by
      intro k e he
      exact k3 (k + 1) e (by rw [hq]; simpa using he)
    have hnew : turnsAt ⟨c, q, s.lost⟩ ≤ turnsAt s + (250 + late) ∧ t + 250 ≤ turnsAt ⟨c, q, s.lost⟩ := by
      rw [hte]
      cases hq2 : q with
      | nil => simp only [turnsAt]; rw [c4, c5]; omega
      | cons e2 q2 =>
        have := (hq' 0 e2 (by rw [hq2]; rfl)).1
        simp only [turnsAt]
        rw [c4, c5]
        omega
    obtain ⟨n1, n2⟩ := hnew
    rw [hq] at k2
    simp only [List.length_cons, Nat.add_mul, Nat.one_mul] at k2
    simp only [heldBy, c5, if_true, Nat.add_zero]
    refine ⟨⟨k1, by simp only [tatAfter]; omega, ?_, ?_⟩, [(e.1, t, e.2)], by rw [hq]; simp [came], ?_, ?_⟩
    · intro k e he
      obtain ⟨v1, v2⟩ := hq' k e he
      rw [Nat.add_mul, Nat.one_mul] at v2
      exact ⟨by simp only; omega, by omega⟩
    · intro _
      simp only
      omega
    · simp only [actionOf, hq, List.head?_cons, Option.toList_some, List.map_cons, List.map_nil, received]
    · intro e' he
      rw [List.mem_singleton.1 he]
      simp only
      omega
  | @other x _ c hx hs =>
    obtain ⟨c1, c2, c3, c4⟩ := other_clock hs hx
    simp only [InboxEvent.time] at hready
    simp only at c1 c3 c4
    have hle : s.clock.lockFree ≤ c.lockFree := by omega
    -- by how much the lock is held longer
    obtain ⟨more, hmore⟩ : ∃ more, more = heldBy late s ⟨c, s.queue, s.lost⟩ (.other x) := ⟨_, rfl⟩
    rw [← hmore]
    simp only [heldBy, InboxEvent.time] at hmore
    have hnew : turnsAt s ≤ turnsAt ⟨c, s.queue, s.lost⟩ ∧
        (s.queue ≠ [] → turnsAt ⟨c, s.queue, s.lost⟩ ≤ turnsAt s + more) ∧
        (s.queue = [] → turnsAt ⟨c, s.queue, s.lost⟩ ≤ max (turnsAt s) x.time + more) := by
      cases hq : s.queue with
      | nil =>
        simp only [turnsAt, hq]
        rw [c3]
        refine ⟨by omega, by simp, fun _ => ?_⟩
        split at hmore <;> omega
      | cons e q =>
        have := hready (by simp [hq])
        simp only [turnsAt, hq] at this ⊢
        rw [c3]
        refine ⟨by omega, fun _ => ?_, by simp⟩
        split at hmore <;> omega
    obtain ⟨n1, n2, n3⟩ := hnew
    refine ⟨⟨k1, ?_, ?_, ?_⟩, [], by simp [came], ?_, fun e he => nomatch he⟩
    · simp only [tatAfter]
      rw [c1]
      by_cases hq : s.queue = []
      · have := n3 hq
        rw [hq] at k2
        simp only [hq, List.length_nil, Nat.zero_mul] at this k2 ⊢
        omega
      · have := n2 hq
        omega
    · intro k e he
      obtain ⟨v1, v2⟩ := k3 k e he
      have := n2 (by rintro hq; simp only [hq] at he; simp at he)
      refine ⟨by simp only; omega, ?_⟩
      show turnsAt ⟨c, s.queue, s.lost⟩ + _ ≤ _
      omega
    · intro hq
      have := hready hq
      simp only
      omega
    · simp only [actionOf, received]
      cases hact : x.act with
      | receive i d => rw [hact] at hx; exact nomatch hx
      | _ => rfl

theorem came_cons (x : InboxEvent) (xs : List InboxEvent) : came (x :: xs) = came [x] ++ came xs := by
  cases x <;> rfl

theorem conforms_cons {burst late tat : Nat} {x : InboxEvent} {xs : List InboxEvent}
    (h : Conforms burst (250 + late) tat (came (x :: xs))) :
    (∀ e ∈ came [x], tat ≤ e.1 + (burst - 1) * (250 + late)) ∧
      Conforms burst (250 + late) (tatAfter late tat x) (came xs) := by
  cases x with
  | arrive t d =>
    refine ⟨fun e he => ?_, h.2⟩
    rw [List.mem_singleton.1 he]
    exact h.1
  | take t i => exact ⟨fun e he => (nomatch he), h⟩
  | other x => exact ⟨fun e he => (nomatch he), h⟩

theorem received_append (xs ys : List TimedAction) : received (xs ++ ys) = received xs ++ received ys := by
  induction xs with
  | nil => rfl
  | cons x xs ih =>
    simp only [List.cons_append, received]
    cases x.act with
    | receive i d => simp only [ih, List.cons_append]
    | _ => exact ih

theorem pace_run (cap burst late : Nat) (hb : 1 ≤ burst) (xs : List InboxEvent) (s : Inbox)
    (tat extra : Nat) (hk : KeepsPace burst late tat extra s)
    (ha : Conforms burst (250 + late) tat (came xs))
    (hcap : burst * (250 + late) + (extra + heldUp cap late s xs) ≤ cap * (250 + late))
    (hp : PromptReceiver cap late s xs) {r} (h : inboxRun cap s xs = some r) (hal : Alive r.2) :
    ∃ (handled : List (Nat × Nat × Bytes)) (tat' : Nat), s.queue ++ came xs = handled.map (fun e => (e.1, e.2.2)) ++ r.2.queue ∧
      received (actions cap s xs) = handled.map (fun e => e.2) ∧
      (∀ e ∈ handled, e.1 ≤ e.2.1 ∧
        e.2.1 ≤ e.1 + (burst - 1) * (250 + late) + late + (extra + heldUp cap late s xs)) ∧
      KeepsPace burst late tat' (extra + heldUp cap late s xs) r.2 := by
  induction xs generalizing s tat extra r with
  | nil =>
    cases h
    exact ⟨[], tat, by simp [came], rfl, by simp, hk⟩
  | cons x xs ih =>
    obtain ⟨a, b, h1, h2, rfl⟩ := inboxRun_cons h
    have hal' := alive_run_back cap xs _ h2 hal
    obtain ⟨a1, a2⟩ := conforms_cons ha
    have hu : heldUp cap late s (x :: xs) = heldBy late s a.2 x + heldUp cap late a.2 xs := by
      simp only [heldUp, h1, heldBy]
    rw [hu] at hcap ⊢
    obtain ⟨k1, l₁, k2, k3, k4⟩ := pace_step (cap := cap) hb hk a1 (by omega) hp.1 (alive_back h1 hal') h1
    obtain ⟨l₂, tat', g1, g2, g3, g4⟩ := ih a.2 _ _ k1 a2 (by omega) (hp.2 _ h1) h2 hal
    refine ⟨l₁ ++ l₂, tat', ?_, ?_, ?_, ?_⟩
    · rw [came_cons, ← List.append_assoc, k2, List.append_assoc, g1, List.map_append, List.append_assoc]
    · simp only [actions, h1]
      rw [received_append, k3, g2, List.map_append]
    · intro e he
      rcases List.mem_append.1 he with he | he
      · have := k4 e he
        omega
      · have := g3 e he
        omega
    · rw [← Nat.add_assoc]
      exact g4

theorem bursts_start {α : Type} {burst gap : Nat} (l : List (Nat × α)) (h : Bursts burst gap l) :
    Conforms burst gap 0 l := by
  refine bursts_conforms l 0 h ?_
  intro j b hj
  cases hx : l with
  | nil => rw [hx] at hj; simp at hj
  | cons a l' =>
    have := h 0 j a b (Nat.zero_le _) (by rw [hx]; rfl) hj
    rw [Nat.sub_zero] at this
    omega

theorem pace_start (burst late : Nat) : KeepsPace burst late 0 0 .start :=
  ⟨rfl, by simp [turnsAt, Inbox.start, Clocked.start], by simp [Inbox.start], by simp [Inbox.start]⟩

/-- C104 (full claim: a player that appears on the network is noticed soon).  Missing: the claim is false
under load.  What holds: if no more than `burst` datagrams arrive at a time and in the long run one per
250 + `late` ms, the receiver is never late by more than `late` ms, and the socket holds a burst and what arrives
while negotiations hold the lock, then in every history in which the receiver is still there at the end no
datagram is lost, every one is handled at most `late` ms after its arrival and the time for the rest of a burst
and for negotiations, and what still waits has not waited longer than that. -/
theorem C104_noticed_partial (cap burst late : Nat) (hb : 1 ≤ burst) (xs : List InboxEvent)
    (ha : Bursts burst (250 + late) (came xs))
    (hcap : burst * (250 + late) + heldUp cap late .start xs ≤ cap * (250 + late))
    (hp : PromptReceiver cap late .start xs)
    {o : List (Nat × Caster × Bytes × Ip4 × UInt16)} {s : Inbox} (h : inboxRun cap .start xs = some (o, s))
    (hr : s.clock.app.receiver = true) (hl : s.clock.app.running = true) :
    s.lost = 0 ∧ ∃ handled : List (Nat × Nat × Bytes), came xs = handled.map (fun e => (e.1, e.2.2)) ++ s.queue ∧
      received (actions cap .start xs) = handled.map (fun e => e.2) ∧
      (∀ e ∈ handled, e.1 ≤ e.2.1 ∧
        e.2.1 ≤ e.1 + (burst - 1) * (250 + late) + late + heldUp cap late .start xs) ∧
      ∀ e ∈ s.queue, s.clock.now ≤ e.1 + (burst - 1) * (250 + late) + late + heldUp cap late .start xs := by
  obtain ⟨handled, tat', h1, h2, h3, h4⟩ := pace_run cap burst late hb xs .start 0 0 (pace_start burst late)
    (bursts_start _ ha) (by omega) hp h ⟨hr, hl⟩
  rw [Nat.zero_add] at h3 h4
  refine ⟨h4.lost, handled, h1, h2, h3, ?_⟩
  intro e he
  obtain ⟨k, hk⟩ := List.mem_iff_getElem?.1 he
  obtain ⟨w1, w2⟩ := h4.wait k e hk
  have := h4.soon (by intro hq; rw [hq] at he; exact nomatch he)
  simp only at this w1 w2
  have h5 : 0 ≤ k * (250 + late) := Nat.zero_le _
  omega

theorem received_mem {xs : List TimedAction} {t : Nat} {d : Bytes} (h : (t, d) ∈ received xs) :
    ∃ i, AppAction.receive i d ∈ xs.map TimedAction.act := by
  induction xs with
  | nil => exact nomatch h
  | cons x xs ih =>
    simp only [received] at h
    cases hx : x.act with
    | receive i d' =>
      rw [hx] at h
      rcases List.mem_cons.1 h with h | h
      · cases h
        exact ⟨i, by simp [hx]⟩
      · obtain ⟨i, hi⟩ := ih h
        exact ⟨i, List.mem_cons_of_mem _ hi⟩
    | _ =>
      rw [hx] at h
      obtain ⟨i, hi⟩ := ih h
      exact ⟨i, List.mem_cons_of_mem _ hi⟩

theorem heard_mem {xs : List AppAction} {h : List (List Interface × Announcement)} (hh : Heard xs h)
    {i : List Interface} {d : Bytes} {a : Announcement} (hx : .receive i d ∈ xs) (ha : Accepted d a) :
    ∃ e ∈ h, e.2 = a := by
  induction hh with
  | nil => exact nomatch hx
  | accepted hd _ ih =>
    rcases List.mem_cons.1 hx with hx | hx
    · cases hx
      exact ⟨_, List.mem_cons_self, announcement_unique hd.1 ha.1⟩
    · obtain ⟨e, he, h⟩ := ih hx
      exact ⟨e, List.mem_cons_of_mem _ he, h⟩
  | ignored hd _ ih =>
    rcases List.mem_cons.1 hx with hx | hx
    · cases hx
      exact absurd ha (hd a)
    · exact ih hx
  | broadcast _ ih =>
    rcases List.mem_cons.1 hx with hx | hx
    · exact nomatch hx
    · exact ih hx
  | appRecv _ ih =>
    rcases List.mem_cons.1 hx with hx | hx
    · exact nomatch hx
    · exact ih hx
  | appLink _ ih =>
    rcases List.mem_cons.1 hx with hx | hx
    · exact nomatch hx
    · exact ih hx

/-- C104 (as above): then every player whose announcement arrived longer ago than that is known. -/
theorem C104_known_partial (cap burst late : Nat) (hb : 1 ≤ burst) (xs : List InboxEvent)
    (ha : Bursts burst (250 + late) (came xs))
    (hcap : burst * (250 + late) + heldUp cap late .start xs ≤ cap * (250 + late))
    (hp : PromptReceiver cap late .start xs)
    {o : List (Nat × Caster × Bytes × Ip4 × UInt16)} {s : Inbox} (h : inboxRun cap .start xs = some (o, s))
    (hh : Healthy s.clock.app) (t : Nat) (d : Bytes) (a : Announcement) (hd : (t, d) ∈ came xs)
    (hacc : Accepted d a)
    (ht : t + (burst - 1) * (250 + late) + late + heldUp cap late .start xs < s.clock.now) :
    a.ip ∈ s.clock.app.state.players.map Player.address := by
  obtain ⟨-, handled, h1, h2, -, h4⟩ := C104_noticed_partial cap burst late hb xs ha hcap hp h hh.receiver
    hh.running
  obtain ⟨⟨c, h5, h6⟩, -⟩ := C104_refines cap xs h
  have h7 := C89_timed_is_untimed _ _ h5
  rw [h1] at hd
  rcases List.mem_append.1 hd with hd | hd
  · obtain ⟨e, he, h⟩ := List.mem_map.1 hd
    cases h
    have : (e.2.1, e.2.2) ∈ received (actions cap .start xs) := by
      rw [h2]
      exact List.mem_map_of_mem he
    obtain ⟨i, hi⟩ := received_mem this
    obtain ⟨hs, hhs⟩ := heard_total ((actions cap .start xs).map TimedAction.act)
    obtain ⟨e', he', hea⟩ := heard_mem hhs hi hacc
    have h8 : (appRun .start ((actions cap .start xs).map TimedAction.act)).2 = s.clock.app := by
      rw [show AppSystem.start = Clocked.start.app from rfl, h7]
      exact h6
    have h9 := (C49_registry _ hs hhs (by rw [h8]; exact hh)).1
    rw [h8] at h9
    rw [h9, List.mem_eraseDups, ← hea]
    exact List.mem_map_of_mem he'
  · have := h4 _ hd
    simp only at this
    omega

/-! ## Linking -/

theorem promptMain_actions (cap late : Nat) (xs : List InboxEvent) (s : Inbox) (n since since' : Nat)
    (hn : n ≤ s.clock.now) (hp : PromptMain cap late s since xs)
    (hi : (s.clock.app.pending = true ∨ s.clock.app.queue ≠ []) → since = since') {r}
    (h : inboxRun cap s xs = some r) :
    Prompt late { s.clock with now := n } since' (actions cap s xs) := by
  induction xs generalizing s n since since' r with
  | nil => trivial
  | cons x xs ih =>
    obtain ⟨⟨o, s'⟩, b, h1, h2, rfl⟩ := inboxRun_cons h
    have hp1 := hp.1
    have hp2 := hp.2 _ h1
    simp only [actions, h1]
    -- an arrival changes nothing for the threads
    have idle : ∀ s' : Inbox, s'.clock = { s.clock with now := x.time } →
        (((s.clock.app.pending = true ∨ s.clock.app.queue ≠ []) → PromptMain cap late s' since xs) ∧
        ((s.clock.app.pending = false ∧ s.clock.app.queue = []) → PromptMain cap late s' x.time xs)) →
        n ≤ x.time → inboxRun cap s' xs = some b →
        Prompt late { s.clock with now := n } since' (actions cap s' xs) := by
      intro s' hs' hp2 hnt h2
      have e : { s.clock with now := n } = { s'.clock with now := n } := by rw [hs']
      rw [e]
      by_cases hbusy : s.clock.app.pending = true ∨ s.clock.app.queue ≠ []
      · exact ih s' n since since' (by rw [hs']; exact hnt) (hp2.1 hbusy) (fun _ => hi hbusy) h2
      · have hidle : s.clock.app.pending = false ∧ s.clock.app.queue = [] := by
          refine ⟨?_, ?_⟩
          · cases hp : s.clock.app.pending with
            | false => rfl
            | true => exact absurd (.inl hp) hbusy
          · cases hq : s.clock.app.queue with
            | nil => rfl
            | cons _ _ => exact absurd (.inr (by simp [hq])) hbusy
        exact ih s' n x.time since' (by rw [hs']; exact hnt) (hp2.2 hidle)
          (fun hc => absurd (by rw [hs'] at hc; exact hc) hbusy) h2
    -- an action is an action
    have act : ∀ (y : TimedAction) (c : Clocked) (q : List (Nat × Bytes)), y.time = x.time →
        timedStep s.clock y = some (o, c) → inboxRun cap ⟨c, q, s.lost⟩ xs = some b →
        (((s.clock.app.pending = true ∨ s.clock.app.queue ≠ []) →
          PromptMain cap late ⟨c, q, s.lost⟩ since xs) ∧
        ((s.clock.app.pending = false ∧ s.clock.app.queue = []) →
          PromptMain cap late ⟨c, q, s.lost⟩ x.time xs)) →
        Prompt late { s.clock with now := n } since' (y :: actions cap ⟨c, q, s.lost⟩ xs) := by
      intro y c q hy hs h2 hp2
      refine ⟨fun hbusy => ?_, fun r hr => ⟨fun hbusy => ?_, fun hidle => ?_⟩⟩
      · rw [hy, ← hi hbusy.2]
        exact hp1 hbusy
      · rw [timedStep_now hs hn] at hr
        cases hr
        exact ih ⟨c, q, s.lost⟩ c.now since since' (Nat.le_refl _) (hp2.1 hbusy) (fun _ => hi hbusy) h2
      · rw [timedStep_now hs hn] at hr
        cases hr
        rw [hy]
        exact ih ⟨c, q, s.lost⟩ c.now x.time x.time (Nat.le_refl _) (hp2.2 hidle) (fun _ => rfl) h2
    cases inboxTo h1 with
    | waits hnow hq => exact idle _ rfl hp2 (Nat.le_trans hn hnow) h2
    | lost hnow hq => exact idle _ rfl hp2 (Nat.le_trans hn hnow) h2
    | @takes t i e q _ c hq hr hl hs =>
      simp only [actionOf, hq, List.head?_cons, Option.toList_some, List.map_cons, List.map_nil,
        List.cons_append, List.nil_append]
      exact act _ c q rfl hs h2 hp2
    | @other x _ c hx hs => exact act x c s.queue rfl hs h2 hp2

theorem came_later (cap : Nat) (xs : List InboxEvent) (s : Inbox) {r} (h : inboxRun cap s xs = some r) :
    ∀ e ∈ came xs, s.clock.now ≤ e.1 := by
  induction xs generalizing s r with
  | nil => intro e he; exact nomatch he
  | cons x xs ih =>
    obtain ⟨⟨o, s'⟩, b, h1, h2, rfl⟩ := inboxRun_cons h
    have ih := ih _ h2
    cases inboxTo h1 with
    | waits hnow hq =>
      intro e he
      rcases List.mem_cons.1 he with rfl | he
      · exact hnow
      · exact Nat.le_trans hnow (ih e he)
    | lost hnow hq =>
      intro e he
      rcases List.mem_cons.1 he with rfl | he
      · exact hnow
      · exact Nat.le_trans hnow (ih e he)
    | takes hq hr hl hs =>
      obtain ⟨c1, c2, -⟩ := receive_clock hs
      intro e he
      have := ih e he
      simp only at c1 this
      omega
    | other hx hs =>
      obtain ⟨c1, c2, -⟩ := other_clock hs hx
      intro e he
      have := ih e he
      simp only at c1 this
      omega

theorem other_action (cap : Nat) (xs : List InboxEvent) (s : Inbox) {r} (h : inboxRun cap s xs = some r)
    {y : TimedAction} (hy : .other y ∈ xs) : y ∈ actions cap s xs := by
  induction xs generalizing s r with
  | nil => exact nomatch hy
  | cons x xs ih =>
    obtain ⟨a, b, h1, h2, rfl⟩ := inboxRun_cons h
    simp only [actions, h1]
    rcases List.mem_cons.1 hy with rfl | hy
    · exact List.mem_append_left _ List.mem_cons_self
    · exact List.mem_append_right _ (ih _ h2 hy)

/-- The first announcement is handled in time. -/
theorem first_taken (cap burst late : Nat) (hb : 1 ≤ burst) (hcap : burst ≤ cap) (xs : List InboxEvent)
    (s : Inbox) (tat : Nat) (hk : KeepsPace burst late tat 0 s) (hf : Fresh s.clock) (hal : Alive s)
    (ha : Conforms burst (250 + late) tat (came xs)) (hp : PromptReceiver cap late s xs)
    (es₁ es₂ : List (Nat × Bytes)) (a : Nat) (d : Bytes)
    (hc : s.queue ++ came xs = es₁ ++ (a, d) :: es₂) (h₁ : ∀ e ∈ es₁, ∀ b, ¬ Accepted e.2 b)
    (hy : ∃ y, .other y ∈ xs ∧ a + (burst - 1) * (250 + late) + late + 250 ≤ y.time) {r}
    (h : inboxRun cap s xs = some r) :
    ∃ pre x post i, actions cap s xs = pre ++ x :: post ∧
      (∀ y ∈ pre, ∀ i d b, y.act = .receive i d → ¬ Accepted d b) ∧ x.act = .receive i d ∧
      .take x.time i ∈ xs ∧ ∃ y ∈ post, x.time + 250 ≤ y.time := by
  induction xs generalizing s tat es₁ r with
  | nil =>
    obtain ⟨y, hy, _⟩ := hy
    exact nomatch hy
  | cons x xs ih =>
    obtain ⟨⟨o, s'⟩, b, h1, h2, rfl⟩ := inboxRun_cons h
    obtain ⟨a1, a2⟩ := conforms_cons ha
    have hcapD : burst * (250 + late) ≤ cap * (250 + late) := Nat.mul_le_mul_right _ hcap
    obtain ⟨k1, l₁, k2, k3, k4⟩ := pace_step (cap := cap) hb hk a1 hcapD hp.1 hal h1
    have hp2 := hp.2 _ h1
    have hready : ∀ e ∈ s.queue, x.time ≤ e.1 + (burst - 1) * (250 + late) + late := by
      intro e he
      obtain ⟨k, hk'⟩ := List.mem_iff_getElem?.1 he
      obtain ⟨w1, w2⟩ := hk.wait k e hk'
      obtain ⟨e', q, hq⟩ := List.exists_cons_of_ne_nil (show s.queue ≠ [] by
        intro hq
        rw [hq] at he
        exact nomatch he)
      have := hp.1 e' q hq hal.1 hal.2
      simp only [turnsAt, hq] at w2
      have h5 : 0 ≤ k * (250 + late) := Nat.zero_le _
      omega
    simp only [actions, h1]
    obtain ⟨y, hy, hyt⟩ := hy
    cases inboxTo h1 with
    | @waits t d' hnow hq =>
      have hy : .other y ∈ xs := by
        rcases List.mem_cons.1 hy with hy | hy
        · exact nomatch hy
        · exact hy
      obtain ⟨pre, x, post, i, g1, g2, g3, g4, g5⟩ := ih
        ⟨{ s.clock with now := t }, s.queue ++ [(t, d')], s.lost⟩ _
        (by simpa [heldBy] using k1) ⟨hf.1, hf.2, hf.3, hf.4, hf.5⟩ hal a2 hp2 es₁
        (by rw [← hc, came_cons]; simp [came]) h₁ ⟨y, hy, hyt⟩ h2
      exact ⟨pre, x, post, i, g1, g2, g3, List.mem_cons_of_mem _ g4, g5⟩
    | lost hnow hq => exact absurd k1.lost (by simp)
    | @takes t j e q _ c hq hr hl hs =>
      have hy : .other y ∈ xs := by
        rcases List.mem_cons.1 hy with hy | hy
        · exact nomatch hy
        · exact hy
      obtain ⟨c1, c2, c3, c4, c5⟩ := receive_clock hs
      simp only at c5
      rw [hq] at hc
      simp only [actionOf, hq, List.head?_cons, Option.toList_some, List.map_cons, List.map_nil,
        List.cons_append, List.nil_append]
      cases es₁ with
      | nil =>
        have he : e = (a, d) := (List.cons.inj hc).1
        subst he
        refine ⟨[], _, _, j, rfl, fun y hy => (nomatch hy), rfl, List.mem_cons_self, y,
          other_action cap xs _ h2 hy, ?_⟩
        have := hready (a, d) (by simp [hq])
        simp only [InboxEvent.time] at this ⊢
        omega
      | cons e' es₁ =>
        obtain ⟨rfl, hc'⟩ := List.cons.inj hc
        obtain ⟨f1, f2, f3, f4, f5⟩ := fresh_step hf hs (fun i d b hi hb => by
          cases hi
          exact h₁ e List.mem_cons_self b hb.2)
        obtain ⟨pre, x, post, i, g1, g2, g3, g4, g5⟩ := ih ⟨c, q, s.lost⟩ _
          (by simpa [heldBy, c5] using k1) f1 ⟨f4.trans hr, f3.trans hl⟩ a2 hp2 es₁ hc'
          (fun e he => h₁ e (List.mem_cons_of_mem _ he)) ⟨y, hy, hyt⟩ h2
        refine ⟨_ :: pre, x, post, i, by rw [g1]; rfl, ?_, g3, List.mem_cons_of_mem _ g4, g5⟩
        intro y hy i d b hact
        rcases List.mem_cons.1 hy with rfl | hy
        · cases hact
          exact h₁ e List.mem_cons_self b
        · exact g2 y hy i d b hact
    | @other x _ c hx hs =>
      obtain ⟨c1, c2, c3, c4⟩ := other_clock hs hx
      have c5 : c.lockFree = s.clock.lockFree := by
        rcases c4 with c4 | c4
        · exact c4
        · rw [hf.pending] at c4
          exact nomatch c4.1
      have hy : .other y ∈ xs := by
        rcases List.mem_cons.1 hy with hy | hy
        · obtain rfl : x = y := by cases hy; rfl
          exfalso
          have hm : (a, d) ∈ s.queue ++ came xs := by
            rw [show came xs = came (.other x :: xs) from rfl, hc]
            simp
          rcases List.mem_append.1 hm with hm | hm
          · have := hready _ hm
            simp only [InboxEvent.time] at this
            omega
          · have := came_later cap xs _ h2 _ hm
            simp only at this c1
            omega
        · exact hy
      obtain ⟨f1, f2, f3, f4, f5⟩ := fresh_step hf hs (fun i d b hi hb => by
        rw [hi] at hx
        exact nomatch hx)
      obtain ⟨pre, x', post, i, g1, g2, g3, g4, g5⟩ := ih ⟨c, s.queue, s.lost⟩ _
        (by simpa [heldBy, c5] using k1) f1 ⟨f4.trans hal.1, f3.trans hal.2⟩ a2 hp2 es₁ hc h₁
        ⟨y, hy, hyt⟩ h2
      refine ⟨x :: pre, x', post, i, by rw [g1]; rfl, ?_, g3, List.mem_cons_of_mem _ g4, g5⟩
      intro y hy i d b hact
      rcases List.mem_cons.1 hy with rfl | hy
      · rw [hact] at hx
        exact nomatch hx
      · exact g2 y hy i d b hact

/-- C104 (full claim: a player that appears on the network is linked with soon).  Missing: the claim is false
under load.  What holds: if no more than `burst` datagrams arrive at a time and in the long run one per 250 +
`late` ms, the socket holds a burst, the receiver is never late by more than `late` ms and the main thread by 33,
the OS provides sockets and the first player to appear is on a local network, then in every history that goes on
for 250 ms, the lateness and the time for a burst after its announcement has arrived, there is exactly one
negotiation, complete and on that network. -/
theorem C104_linked_partial (cap burst late lateMain : Nat) (hb : 1 ≤ burst) (hcap : burst ≤ cap)
    (hl : 3 * lateMain < 100) (xs : List InboxEvent) (hbu : Bursts burst (250 + late) (came xs))
    (hp : PromptReceiver cap late .start xs) (hm : PromptMain cap lateMain .start 0 xs)
    (es₁ es₂ : List (Nat × Bytes)) (t : Nat) (d : Bytes) (a : Announcement) (n : PioneerNetwork)
    (hc : came xs = es₁ ++ (t, d) :: es₂) (h₁ : ∀ e ∈ es₁, ∀ b, ¬ Accepted e.2 b) (ha : Accepted d a)
    (hn : ∀ t i, .take t i ∈ xs → FirstMatch i a.ip n)
    (hs : SocketsWork ((actions cap .start xs).map TimedAction.act))
    (hy : ∃ y, .other y ∈ xs ∧ t + (burst - 1) * (250 + late) + late + 250 ≤ y.time)
    {o : List (Nat × Caster × Bytes × Ip4 × UInt16)} {s : Inbox} (h : inboxRun cap .start xs = some (o, s)) :
    negotiated o = (negotiation n).map (toAll n) := by
  obtain ⟨⟨c, h1, -⟩, -⟩ := C104_refines cap xs h
  have hp' := promptMain_actions cap lateMain xs .start 0 0 0 (Nat.le_refl _) hm (fun _ => rfl) h
  obtain ⟨pre, x, post, i, g1, g2, g3, g4, g5⟩ := first_taken cap burst late hb hcap xs .start 0
    (pace_start burst late) fresh_start ⟨rfl, rfl⟩ (bursts_start _ hbu) hp es₁ es₂ t d hc h₁ hy h
  rw [g1] at h1 hs
  exact C92_linked_once lateMain hl pre post x i d a n g2 g3 ha (hn _ _ g4) hs g5
    (by rw [← g1]; exact hp') h1

/-! ## Load -/

/-- The books of the socket: `n` datagrams handled so far, one per 250 ms. -/
structure InboxBooks (cap n : Nat) (s : Inbox) : Prop where
  room : s.queue.length ≤ cap
  pace : 250 * n ≤ s.clock.recvFree
  slept : s.clock.recvFree ≤ s.clock.now + 250

theorem inboxBooks_run (cap : Nat) (xs : List InboxEvent) (s : Inbox) (n : Nat) (hb : InboxBooks cap n s) {r}
    (h : inboxRun cap s xs = some r) : ∃ k, InboxBooks cap (n + k) r.2 ∧
      (came xs).length + s.queue.length + s.lost = k + r.2.queue.length + r.2.lost := by
  induction xs generalizing s n r with
  | nil =>
    cases h
    exact ⟨0, hb, by simp [came]⟩
  | cons x xs ih =>
    obtain ⟨⟨o, s'⟩, b, h1, h2, rfl⟩ := inboxRun_cons h
    obtain ⟨room, pace, slept⟩ := hb
    rw [came_cons]
    cases inboxTo h1 with
    | @waits t d hn hq =>
      obtain ⟨k, h3, h4⟩ := ih ⟨{ s.clock with now := t }, s.queue ++ [(t, d)], s.lost⟩ n ⟨by simp; omega, pace, by simp; omega⟩ h2
      refine ⟨k, h3, ?_⟩
      simp only [came, List.length_cons, List.length_append, List.length_nil] at h4 ⊢
      omega
    | @lost t d hn hq =>
      obtain ⟨k, h3, h4⟩ := ih ⟨{ s.clock with now := t }, s.queue, s.lost + 1⟩ n ⟨room, pace, by simp; omega⟩ h2
      refine ⟨k, h3, ?_⟩
      simp only [came, List.length_append, List.length_cons, List.length_nil] at h4 ⊢
      omega
    | @takes t i e q _ c hq hr hl hs =>
      obtain ⟨c1, c2, c3, c4, c5⟩ := receive_clock hs
      simp only at c1 c4
      rw [hq] at room
      simp only [List.length_cons] at room
      obtain ⟨k, h3, h4⟩ := ih ⟨c, q, s.lost⟩ (n + 1)
         ⟨by simp only; omega, by simp only; omega, by simp only; omega⟩ h2
      refine ⟨k + 1, ?_, ?_⟩
      · rw [Nat.add_comm k 1, ← Nat.add_assoc]
        exact h3
      · simp only [came, hq, List.length_append, List.length_cons, List.length_nil] at h4 ⊢
        omega
    | @other x _ c hx hs =>
      obtain ⟨c1, c2, c3, c4⟩ := other_clock hs hx
      simp only at c1 c3
      obtain ⟨k, h3, h4⟩ := ih ⟨c, s.queue, s.lost⟩ n ⟨room, by simp only; omega, by simp only; omega⟩ h2
      refine ⟨k, h3, ?_⟩
      simp only [came, List.length_append, List.length_nil] at h4 ⊢
      omega

/-- C104: in every history, at most one datagram per 250 ms is handled: all others wait in the socket or are
lost. -/
theorem C104_capacity (cap : Nat) (xs : List InboxEvent)
    {o : List (Nat × Caster × Bytes × Ip4 × UInt16)} {s : Inbox} (h : inboxRun cap .start xs = some (o, s)) :
    (came xs).length ≤ (s.clock.now / 250 + 1) + s.queue.length + s.lost ∧ s.queue.length ≤ cap := by
  obtain ⟨k, hb, he⟩ := inboxBooks_run cap xs .start 0 ⟨Nat.zero_le _, Nat.le_refl _, Nat.zero_le _⟩ h
  have h1 := hb.pace
  have h2 := hb.slept
  have h3 := hb.room
  simp only [Inbox.start, List.length_nil, Nat.zero_add] at he h1 h2 h3
  refine ⟨?_, h3⟩
  omega

/-- C104, the negation: if datagrams go on arriving at one per `period` < 250 ms, then whatever the capacity of
the socket is and however fast the receiver is scheduled, any number of them is lost in the end. -/
theorem C104_overload (cap period k : Nat) (hp : period < 250) : ∃ n₀, ∀ (xs : List InboxEvent)
    (o : List (Nat × Caster × Bytes × Ip4 × UInt16)) (s : Inbox),
      inboxRun cap .start xs = some (o, s) → n₀ ≤ (came xs).length →
        s.clock.now ≤ period * (came xs).length → k < s.lost := by
  refine ⟨250 * (cap + k + 3), fun xs o s h hn ht => ?_⟩
  obtain ⟨h1, h2⟩ := C104_capacity cap xs h
  have h3 : period * (came xs).length ≤ 249 * (came xs).length :=
    Nat.mul_le_mul_right _ (by omega)
  omega

theorem lost_run (cap : Nat) (xs : List InboxEvent) (s : Inbox) {r} (h : inboxRun cap s xs = some r)
    (hl : r.2.lost = 0) (hq : ∀ e ∈ s.queue, e.1 ≤ s.clock.now) :
    ∃ handled : List (Nat × Nat × Bytes),
      s.queue ++ came xs = handled.map (fun e => (e.1, e.2.2)) ++ r.2.queue ∧
      received (actions cap s xs) = handled.map (fun e => e.2) ∧ (∀ e ∈ handled, e.1 ≤ e.2.1) ∧
      s.lost = 0 := by
  induction xs generalizing s r with
  | nil =>
    cases h
    exact ⟨[], by simp [came], rfl, by simp, hl⟩
  | cons x xs ih =>
    obtain ⟨⟨o, s'⟩, b, h1, h2, rfl⟩ := inboxRun_cons h
    simp only [actions, h1]
    rw [came_cons]
    cases inboxTo h1 with
    | @waits t d hn hc =>
      obtain ⟨l, g1, g2, g3, g4⟩ := ih _ h2 hl (by
        intro e he
        rcases List.mem_append.1 he with he | he
        · exact Nat.le_trans (hq e he) hn
        · rw [List.mem_singleton.1 he]
          exact Nat.le_refl _)
      exact ⟨l, by rw [← g1]; simp [came], g2, g3, g4⟩
    | lost hn hc =>
      obtain ⟨l, g1, g2, g3, g4⟩ := ih _ h2 hl (fun e he => Nat.le_trans (hq e he) hn)
      exact nomatch g4
    | @takes t i e q _ c hq' hr hl' hs =>
      obtain ⟨c1, c2, c3, c4, c5⟩ := receive_clock hs
      simp only at c1
      obtain ⟨l, g1, g2, g3, g4⟩ := ih _ h2 hl (fun e he => by
        have := hq e (by rw [hq']; exact List.mem_cons_of_mem _ he)
        simp only
        omega)
      refine ⟨(e.1, t, e.2) :: l, ?_, ?_, ?_, g4⟩
      · simp only [came, List.nil_append, hq', List.map_cons, List.cons_append]
        exact congrArg _ g1
      · simp only [actionOf, hq', List.head?_cons, Option.toList_some, List.map_cons, List.map_nil,
          List.cons_append, List.nil_append, received]
        rw [g2]
      · intro e' he
        rcases List.mem_cons.1 he with rfl | he
        · have := hq e (by rw [hq']; exact List.mem_cons_self)
          simp only
          omega
        · exact g3 e' he
    | @other x _ c hx hs =>
      obtain ⟨c1, c2, c3, c4⟩ := other_clock hs hx
      simp only at c1
      obtain ⟨l, g1, g2, g3, g4⟩ := ih _ h2 hl (fun e he => by
        have := hq e he
        simp only
        omega)
      refine ⟨l, g1, ?_, g3, g4⟩
      simp only [actionOf, List.cons_append, List.nil_append, received]
      cases hact : x.act with
      | receive i d => rw [hact] at hx; exact nomatch hx
      | _ => exact g2

theorem received_times (xs : List TimedAction) : (received xs).map Prod.fst = receiveTimes xs := by
  induction xs with
  | nil => rfl
  | cons x xs ih =>
    simp only [received, receiveTimes]
    cases x.act with
    | receive i d => simp [isReceive, ih]
    | _ => simpa [isReceive] using ih

theorem Spaced.from {g T : Nat} : ∀ (l : List Nat) (lo m k u v : Nat), Spaced g lo l → l[m]? = some u →
    T ≤ u → l[m + k]? = some v → T + g * k ≤ v
  | [], _, _, _, _, _, _, h, _, _ => nomatch h
  | w :: ws, lo, 0, k, u, v, hs, h, hT, hv => by
    cases h
    rw [Nat.zero_add] at hv
    have := Spaced.nth (w :: ws) w k v ⟨Nat.le_refl _, hs.2⟩ hv
    omega
  | w :: ws, lo, m + 1, k, u, v, hs, h, hT, hv => by
    refine Spaced.from ws (w + g) m k u v hs.2 (by simpa using h) hT ?_
    rw [Nat.add_right_comm] at hv
    simpa using hv

/-- C104, the negation: datagrams delay one another. Of a datagram that arrives after `k` others that have arrived
since some moment (the application's own broadcasts, for instance: 40 in a negotiation), no notice is taken for
`k` times 250 ms from that moment on, if it is not lost. -/
theorem C104_behind (cap : Nat) (xs : List InboxEvent) {o : List (Nat × Caster × Bytes × Ip4 × UInt16)}
    {s : Inbox} (h : inboxRun cap .start xs = some (o, s)) (hl : s.lost = 0)
    (es₀ es₁ es₂ : List (Nat × Bytes)) (e : Nat × Bytes) (T : Nat)
    (hc : came xs = es₀ ++ es₁ ++ e :: es₂) (hT : ∀ e ∈ es₁, T ≤ e.1) (hne : es₁ ≠ []) (t : Nat) (d : Bytes)
    (ht : (received (actions cap .start xs))[(es₀ ++ es₁).length]? = some (t, d)) :
    d = e.2 ∧ T + 250 * es₁.length ≤ t := by
  obtain ⟨l, g1, g2, g3, -⟩ := lost_run cap xs .start h hl (by simp [Inbox.start])
  obtain ⟨⟨c, h1, -⟩, -⟩ := C104_refines cap xs h
  have hsp := receive_spaced _ _ h1
  rw [← received_times] at hsp
  have hg1 : came xs = l.map (fun e => (e.1, e.2.2)) ++ s.queue := g1
  rw [g2] at ht hsp
  -- the datagram with that number is the one that arrived with that number
  have hd : ∀ (m : Nat) (u : Nat × Bytes), (l.map (fun e => e.2))[m]? = some u →
      ∃ a, (came xs)[m]? = some (a, u.2) ∧ a ≤ u.1 := by
    intro m u hu
    rw [List.getElem?_map] at hu
    obtain ⟨e', he', rfl⟩ := Option.map_eq_some_iff.1 hu
    refine ⟨e'.1, ?_, g3 e' (List.mem_of_getElem? he')⟩
    rw [hg1, List.getElem?_append_left (by
      rw [List.length_map]
      exact (List.getElem?_eq_some_iff.1 he').1), List.getElem?_map, he']
    rfl
  obtain ⟨f, fs, rfl⟩ := List.exists_cons_of_ne_nil hne
  obtain ⟨a, ha, -⟩ := hd _ _ ht
  rw [hc, List.getElem?_append_right (Nat.le_refl _), Nat.sub_self] at ha
  cases ha
  refine ⟨rfl, ?_⟩
  -- the first of them
  have hlen : es₀.length < (l.map (fun e => e.2)).length := by
    have := (List.getElem?_eq_some_iff.1 ht).1
    simp only [List.length_append, List.length_cons] at this
    omega
  have hf := List.getElem?_eq_getElem hlen
  obtain ⟨a', ha', hle⟩ := hd _ _ hf
  rw [hc, List.append_assoc, List.getElem?_append_right (Nat.le_refl _), Nat.sub_self] at ha'
  have hTf := hT f List.mem_cons_self
  have ha'' : f.1 = a' := by cases ha'; rfl
  refine Spaced.from _ _ es₀.length (f :: fs).length _ t hsp (by rw [List.getElem?_map, hf]; rfl) (by omega) ?_
  rw [List.length_append] at ht
  rw [List.getElem?_map, ht]
  rfl

/-- Blocks of two datagrams in 250 ms, and a receiver that is never late. -/
def inboxCrowd (d : Bytes) : Nat → Nat → List InboxEvent
  | _, 0 => []
  | T, n + 1 => .arrive T d :: .take T [] :: .arrive (T + 125) d :: inboxCrowd d (T + 250) n

theorem inbox_arrive {cap : Nat} {s : Inbox} {t : Nat} {d : Bytes} (hn : s.clock.now ≤ t)
    (hcap : 1 ≤ cap) (hq : ∀ e ∈ s.queue, e.2 = d) : ∃ s', inboxStep cap s (.arrive t d) = some ([], s') ∧
      s'.clock = { s.clock with now := t } ∧ s'.queue ≠ [] ∧ (∀ e ∈ s'.queue, e.2 = d) ∧
      (s.queue = [] → s'.queue.head?.map Prod.fst = some t) := by
  refine ⟨_, by simp only [inboxStep, hn, if_true]; rfl, ?_⟩
  split
  · refine ⟨rfl, by simp, ?_, by simp +contextual⟩
    intro e he
    rcases List.mem_append.1 he with he | he
    · exact hq e he
    · rw [List.mem_singleton.1 he]
  · rename_i hf
    have : s.queue ≠ [] := by
      intro h
      rw [h] at hf
      exact hf hcap
    exact ⟨rfl, this, hq, fun h => absurd h this⟩

theorem inbox_take {cap : Nat} {s : Inbox} {t : Nat} {d : Bytes} (ha : s.clock.app = .start)
    (hl : s.clock.lockFree = 0) (hn : s.clock.now ≤ t) (hf : s.clock.recvFree ≤ t)
    (hd : ∀ a, ¬ Accepted d a) (hne : s.queue ≠ []) (hq : ∀ e ∈ s.queue, e.2 = d) :
    ∃ s', inboxStep cap s (.take t []) = some ([], s') ∧ s'.clock.app = .start ∧ s'.clock.lockFree = 0 ∧
      s'.clock.now = t ∧ s'.clock.recvFree = t + 250 ∧ ∀ e ∈ s'.queue, e.2 = d := by
  obtain ⟨e, q, he⟩ := List.exists_cons_of_ne_nil hne
  have hed : e.2 = d := hq e (by simp [he])
  have hp : possible s.clock ⟨t, .receive [] e.2, []⟩ = true := by
    rw [possible_iff]
    exact ⟨hn, hf, fun _ => by simp only; omega⟩
  have happ : appStep s.clock.app (.receive [] e.2) = ([], s.clock.app) := by
    rw [ha, hed]
    simp only [appStep, AppSystem.start, if_true, receive_ignored hd]
  refine ⟨⟨{ s.clock with now := t, recvFree := t + 250 }, q, s.lost⟩, ?_, ha, hl, rfl, rfl,
    fun e hm => hq e (by rw [he]; exact List.mem_cons_of_mem _ hm)⟩
  have hr : s.clock.app.receiver = true ∧ s.clock.app.running = true := by
    rw [ha]
    exact ⟨rfl, rfl⟩
  simp only [inboxStep, he, hr, and_self, if_true, timedStep, hp, happ, Option.bind_some]

theorem inboxCrowd_run (cap : Nat) (hcap : 1 ≤ cap) (d : Bytes) (hd : ∀ a, ¬ Accepted d a) (n T : Nat)
    (s : Inbox) (ha : s.clock.app = .start) (hl : s.clock.lockFree = 0) (hn : s.clock.now ≤ T)
    (hf : (s.queue = [] ∧ s.clock.recvFree ≤ T) ∨ s.clock.recvFree = T) (hq : ∀ e ∈ s.queue, e.2 = d) :
    PromptReceiver cap 0 s (inboxCrowd d T n) ∧
    ∃ r, inboxRun cap s (inboxCrowd d T n) = some r ∧ r.2.clock.now ≤ T + 250 * n := by
  induction n generalizing T s with
  | zero => exact ⟨trivial, _, rfl, hn⟩
  | succ n ih =>
    obtain ⟨s₁, e₁, c₁, q₁, d₁, h₁⟩ := inbox_arrive hn hcap hq
    obtain ⟨s₂, e₂, a₂, l₂, n₂, f₂, d₂⟩ := inbox_take (cap := cap) (s := s₁) (t := T) (by rw [c₁]; exact ha)
      (by rw [c₁]; exact hl) (by rw [c₁]; exact Nat.le_refl _) (by rw [c₁]; simp only; omega) hd q₁ d₁
    obtain ⟨s₃, e₃, c₃, q₃, d₃, -⟩ := inbox_arrive (s := s₂) (t := T + 125) (by omega) hcap d₂
    obtain ⟨hp, r, hrun, hnow⟩ := ih (T + 250) s₃ (by rw [c₃]; exact a₂) (by rw [c₃]; exact l₂)
      (by rw [c₃]; simp only; omega) (.inr (by rw [c₃]; exact f₂)) d₃
    refine ⟨?_, ?_⟩
    · refine ⟨fun e q h _ _ => ?_, fun r h => ?_⟩
      · show T ≤ _
        rcases hf with hf | hf
        · rw [hf.1] at h
          exact nomatch h
        · omega
      rw [e₁] at h; cases h
      refine ⟨fun e q h _ _ => ?_, fun r h => ?_⟩
      · show T ≤ max (max s₁.clock.recvFree e.1) s₁.clock.lockFree + 0
        rcases hf with hf | hf
        · have := h₁ hf.1
          rw [h] at this
          have : e.1 = T := Option.some.inj this
          omega
        · rw [c₁]
          simp only
          omega
      rw [e₂] at h; cases h
      refine ⟨fun e q h _ _ => ?_, fun r h => ?_⟩
      · show T + 125 ≤ max (max s₂.clock.recvFree e.1) s₂.clock.lockFree + 0
        omega
      rw [e₃] at h; cases h
      exact hp
    · refine ⟨([] ++ ([] ++ ([] ++ r.1)), r.2), ?_, by show r.2.clock.now ≤ _; omega⟩
      simp only [inboxCrowd, inboxRun, e₁, e₂, e₃, hrun, Option.bind_some]

theorem came_crowd (d : Bytes) (n T : Nat) : (came (inboxCrowd d T n)).length = 2 * n ∧
    ∀ i e, (came (inboxCrowd d T n))[i]? = some e → e = (T + 125 * i, d) := by
  induction n generalizing T with
  | zero => exact ⟨rfl, fun i e h => by simp [inboxCrowd, came] at h⟩
  | succ n ih =>
    have he : came (inboxCrowd d T (n + 1)) = (T, d) :: (T + 125, d) :: came (inboxCrowd d (T + 250) n) := rfl
    rw [he]
    obtain ⟨h1, h2⟩ := ih (T + 250)
    refine ⟨by simp only [List.length_cons, h1]; omega, ?_⟩
    intro i e h
    match i with
    | 0 => cases h; rfl
    | 1 => cases h; rfl
    | i + 2 =>
      have := h2 i e (by simpa using h)
      rw [this]
      congr 1
      omega

/-- C104, the negation: if a datagram that is none of a player (one of the application itself or of another
application, for instance) arrives every 125 ms, then even a receiver that is never late loses any number of
them in the end. -/
theorem C104_crowded (cap k : Nat) (hcap : 1 ≤ cap) (d : Bytes) (hd : ∀ a, ¬ Accepted d a) :
    ∃ xs o s, inboxRun cap .start xs = some (o, s) ∧ PromptReceiver cap 0 .start xs ∧
      (∀ i e, (came xs)[i]? = some e → e = (125 * i, d)) ∧ k < s.lost := by
  obtain ⟨n₀, h⟩ := C104_overload cap 125 k (by decide)
  obtain ⟨h1, ⟨o, s⟩, h2, h3⟩ := inboxCrowd_run cap hcap d hd n₀ 0 .start rfl rfl (Nat.le_refl _)
    (.inr rfl) (by simp [Inbox.start])
  obtain ⟨h4, h5⟩ := came_crowd d n₀ 0
  refine ⟨_, o, s, h2, h1, fun i e he => ?_, h _ o s h2 ?_ ?_⟩
  · rw [h5 i e he, Nat.zero_add]
  · omega
  · rw [h4]
    simp only at h3
    omega

/-! ## Non-vacuity -/

/-- `PromptReceiver` as a computation. -/
def promptReceiverB (cap late : Nat) : Inbox → List InboxEvent → Bool
  | _, [] => true
  | s, x :: xs =>
    (match s.queue with
      | [] => true
      | e :: _ => decide (x.time ≤ max (max s.clock.recvFree e.1) s.clock.lockFree + late)) &&
    (match inboxStep cap s x with
      | none => true
      | some r => promptReceiverB cap late r.2 xs)

theorem promptReceiverB_sound (cap late : Nat) (xs : List InboxEvent) (s : Inbox)
    (h : promptReceiverB cap late s xs = true) : PromptReceiver cap late s xs := by
  induction xs generalizing s with
  | nil => trivial
  | cons x xs ih =>
    simp only [promptReceiverB, Bool.and_eq_true] at h
    refine ⟨fun e q hq _ _ => ?_, fun r hr => ih _ ?_⟩
    · have := h.1
      rw [hq] at this
      exact of_decide_eq_true this
    · have := h.2
      rw [hr] at this
      exact this

/-- `PromptMain` as a computation. -/
def promptMainB (cap late : Nat) : Inbox → Nat → List InboxEvent → Bool
  | _, _, [] => true
  | s, since, x :: xs =>
    (!(s.clock.app.running && (s.clock.app.pending || !s.clock.app.queue.isEmpty)) ||
      decide (x.time ≤ max since s.clock.appFree + late)) &&
    match inboxStep cap s x with
    | none => true
    | some r =>
      promptMainB cap late r.2
        (if s.clock.app.pending || !s.clock.app.queue.isEmpty then since else x.time) xs

theorem promptMainB_sound (cap late : Nat) (xs : List InboxEvent) (s : Inbox) (since : Nat)
    (h : promptMainB cap late s since xs = true) : PromptMain cap late s since xs := by
  induction xs generalizing s since with
  | nil => trivial
  | cons x xs ih =>
    simp only [promptMainB, Bool.and_eq_true, Bool.or_eq_true, Bool.not_eq_true',
      decide_eq_true_eq] at h
    refine ⟨fun hb => ?_, fun r hr => ⟨fun hb => ih _ _ ?_, fun hi => ih _ _ ?_⟩⟩
    · rcases h.1 with h1 | h1
      · obtain ⟨b1, b2 | b2⟩ := hb
        · simp [b1, b2] at h1
        · simp [b1, b2] at h1
      · exact h1
    · have := h.2
      rw [hr] at this
      rcases hb with hb | hb <;> simpa [hb] using this
    · have := h.2
      rw [hr] at this
      simpa [hi.1, hi.2] using this

/-- Something else arrives together with the announcement of a player, which is linked with and announces
itself again during the negotiation. -/
def exampleInbox : List InboxEvent :=
  [.arrive 0 [1, 2, 3], .arrive 0 exampleDatagram, .take 10 exampleInterfaces, .take 270 exampleInterfaces,
    .other ⟨280, .appRecv, []⟩, .other ⟨440, .appRecv, []⟩, .other ⟨450, .appLink [], []⟩,
    .arrive 1000 exampleDatagram, .take 4400 exampleInterfaces, .other ⟨4410, .broadcast true, []⟩]

theorem exampleInbox_possible : ∃ o s, inboxRun 100 .start exampleInbox = some (o, s) ∧
    Healthy s.clock.app := by
  have h : (inboxRun 100 .start exampleInbox).any (fun r => r.2.clock.app.running &&
    r.2.clock.app.receiver && !r.2.clock.app.poisoned) = true := by decide +kernel
  cases hr : inboxRun 100 .start exampleInbox with
  | none => rw [hr] at h; exact nomatch h
  | some r =>
    rw [hr] at h
    simp only [Option.any_some, Bool.and_eq_true, Bool.not_eq_true'] at h
    exact ⟨r.1, r.2, rfl, h.1.1, h.1.2, h.2⟩

theorem exampleInbox_bursts : Bursts 2 300 (came exampleInbox) := by
  intro i j a b hij ha hb
  simp only [exampleInbox, came] at ha hb
  match i, j with
  | 0, 0 => cases ha; cases hb; simp
  | 0, 1 => cases ha; cases hb; simp
  | 0, 2 => cases ha; cases hb; simp
  | 1, 1 => cases ha; cases hb; simp
  | 1, 2 => cases ha; cases hb; simp
  | 2, 2 => cases ha; cases hb; simp
  | 1, 0 => omega
  | 2, 0 => omega
  | 2, 1 => omega
  | i + 3, _ => simp at ha
  | _, j + 3 => simp at hb

theorem exampleInbox_held : heldUp 100 50 .start exampleInbox = 4000 := by decide +kernel

theorem notPlayer : ∀ a, ¬ Accepted [1, 2, 3] a := by
  rintro a ⟨⟨h, _⟩, _⟩
  exact absurd h (by decide)

example (o s) (h : inboxRun 100 .start exampleInbox = some (o, s)) := C104_refines 100 _ h
example (o s) (h : inboxRun 100 .start exampleInbox = some (o, s)) (hh : Healthy s.clock.app) :=
  C104_noticed_partial 100 2 50 (by decide) exampleInbox exampleInbox_bursts
    (by rw [exampleInbox_held]; decide) (promptReceiverB_sound _ _ _ _ (by decide +kernel)) h hh.receiver
    hh.running
example (o s) (h : inboxRun 100 .start exampleInbox = some (o, s)) (hh : Healthy s.clock.app)
    (hn : s.clock.now = 4410) : exampleAnnouncement.ip ∈ s.clock.app.state.players.map Player.address :=
  C104_known_partial 100 2 50 (by decide) exampleInbox exampleInbox_bursts
    (by rw [exampleInbox_held]; decide) (promptReceiverB_sound _ _ _ _ (by decide +kernel)) h hh 0
    exampleDatagram exampleAnnouncement (by simp [exampleInbox, came]) exampleDatagram_accepted
    (by rw [exampleInbox_held, hn]; decide)
example : ∃ o s, inboxRun 100 .start exampleInbox = some (o, s) ∧
    negotiated o = (negotiation exampleNetwork).map (toAll exampleNetwork) := by
  obtain ⟨o, s, h, -⟩ := exampleInbox_possible
  refine ⟨o, s, h, C104_linked_partial 100 2 50 30 (by decide) (by decide) (by decide) exampleInbox
    exampleInbox_bursts (promptReceiverB_sound _ _ _ _ (by decide +kernel))
    (promptMainB_sound _ _ _ _ _ (by decide +kernel)) [(0, [1, 2, 3])] _ 0 exampleDatagram
    exampleAnnouncement exampleNetwork rfl (by simpa using notPlayer) exampleDatagram_accepted ?_ ?_
    ⟨⟨4410, .broadcast true, []⟩, by simp [exampleInbox], by decide⟩ h⟩
  · intro t i hm
    have : i = exampleInterfaces := by simp [exampleInbox] at hm; tauto
    rw [this]
    exact exampleMatch
  · have hm : ∀ x ∈ (actions 100 .start exampleInbox).map TimedAction.act, (match x with
        | .broadcast ok => ok
        | .appLink oks => oks.all id
        | _ => true) = true := by decide +kernel
    refine ⟨fun ok hx => hm _ hx, fun oks hx b hb => ?_⟩
    have := hm _ hx
    simp only [List.all_eq_true, id] at this
    exact this b hb
example (o s) (h : inboxRun 100 .start exampleInbox = some (o, s)) := C104_capacity 100 _ h
example (o s) (h : inboxRun 100 .start exampleInbox = some (o, s)) (hl : s.lost = 0) :
    exampleDatagram = exampleDatagram ∧ 0 + 250 * 1 ≤ 270 :=
  C104_behind 100 exampleInbox h hl [] [(0, [1, 2, 3])] _ (0, exampleDatagram) 0 rfl (by simp) (by simp) 270
    exampleDatagram (by decide +kernel)
example := C104_overload 1000 125 0 (by decide)
example := C104_crowded 1000 0 (by decide) [1, 2, 3] notPlayer

end PDJ

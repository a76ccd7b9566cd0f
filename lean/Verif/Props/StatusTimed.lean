import Verif.Spec.StatusTimed
import Verif.Lemmas.Timed
import Verif.Props.Status

/-!
# Property C98: the status server under load
-/

namespace PDJ

open Spec

theorem statusTimedRun_cons {cap : Nat} {s : StatusClock} {x : StatusEvent} {xs : List StatusEvent} {r}
    (h : statusTimedRun cap s (x :: xs) = some r) : ∃ a b, statusTimedStep cap s x = some a ∧
      statusTimedRun cap a.2 xs = some b ∧ r = (a.1 ++ b.1, b.2) := by
  simp only [statusTimedRun] at h
  obtain ⟨a, h1, h⟩ := Option.bind_eq_some_iff.1 h
  obtain ⟨b, h2, h⟩ := Option.bind_eq_some_iff.1 h
  cases h
  exact ⟨a, b, h1, h2, rfl⟩

/-- The books of the socket: `n` datagrams handled so far, one per 150 ms. -/
structure Books (cap n : Nat) (s : StatusClock) : Prop where
  room : s.queue.length ≤ cap
  pace : 150 * n ≤ s.free
  slept : s.free ≤ s.now + 150

theorem books_run (cap : Nat) (xs : List StatusEvent) (s : StatusClock) (n : Nat) (hb : Books cap n s) {r}
    (h : statusTimedRun cap s xs = some r) : ∃ k, Books cap (n + k) r.2 ∧
      (arrivals xs).length + s.queue.length + s.lost = k + r.2.queue.length + r.2.lost := by
  induction xs generalizing s n r with
  | nil =>
    cases h
    exact ⟨0, hb, by simp [arrivals]⟩
  | cons x xs ih =>
    obtain ⟨a, b, h1, h2, rfl⟩ := statusTimedRun_cons h
    obtain ⟨room, pace, slept⟩ := hb
    cases x with
    | arrive t d sender =>
      simp only [statusTimedStep] at h1
      split at h1
      case isFalse => exact nomatch h1
      cases h1
      by_cases hq : s.queue.length < cap
      · simp only [hq, if_true] at h2
        obtain ⟨k, h3, h4⟩ := ih { s with queue := s.queue ++ [(t, d, sender)], now := t } n
          ⟨by simp; omega, pace, by simp; omega⟩ h2
        refine ⟨k, h3, ?_⟩
        simp only [arrivals, List.length_cons, List.length_append, List.length_nil] at h4 ⊢
        omega
      · simp only [hq, if_false] at h2
        obtain ⟨k, h3, h4⟩ := ih { s with lost := s.lost + 1, now := t } n ⟨room, pace, by simp; omega⟩ h2
        refine ⟨k, h3, ?_⟩
        simp only [arrivals, List.length_cons] at h4 ⊢
        omega
    | handle t =>
      simp only [statusTimedStep] at h1
      cases hq : s.queue with
      | nil =>
        simp only [hq] at h1
        exact nomatch h1
      | cons e q =>
        obtain ⟨a', d, sender⟩ := e
        simp only [hq] at h1
        split at h1
        case isFalse => exact nomatch h1
        rename_i hc
        cases h1
        rw [hq] at room
        simp only [List.length_cons] at room
        obtain ⟨k, h3, h4⟩ := ih _ (n + 1) ⟨by simp; omega, by simp; omega, by simp⟩ h2
        refine ⟨k + 1, ?_, ?_⟩
        · rw [Nat.add_comm k 1, ← Nat.add_assoc]
          exact h3
        · simp only [arrivals, List.length_cons] at h4 ⊢
          omega

/-- C98: in every history, at most one datagram per 150 ms is handled, whatever its kind: all others wait
in the socket or are lost. -/
theorem C98_capacity (cap : Nat) (xs : List StatusEvent)
    {o : List (Nat × Nat × Bytes × Ip4 × UInt16)} {s : StatusClock}
    (h : statusTimedRun cap .start xs = some (o, s)) :
    (arrivals xs).length ≤ (s.now / 150 + 1) + s.queue.length + s.lost ∧ s.queue.length ≤ cap := by
  obtain ⟨k, hb, he⟩ := books_run cap xs .start 0 ⟨Nat.zero_le _, Nat.le_refl _, Nat.zero_le _⟩ h
  have h1 := hb.pace
  have h2 := hb.slept
  have h3 := hb.room
  simp only [StatusClock.start, List.length_nil, Nat.zero_add] at he h1 h2 h3
  refine ⟨?_, h3⟩
  omega

/-- C98, the negation: if datagrams go on arriving at one per `period` < 150 ms, then whatever the capacity
of the socket is and however fast the server is scheduled, any number of them is lost in the end. -/
theorem C98_overload (cap period k : Nat) (hp : period < 150) : ∃ n₀, ∀ (xs : List StatusEvent)
    (o : List (Nat × Nat × Bytes × Ip4 × UInt16)) (s : StatusClock),
      statusTimedRun cap .start xs = some (o, s) → n₀ ≤ (arrivals xs).length →
        s.now ≤ period * (arrivals xs).length → k < s.lost := by
  refine ⟨150 * (cap + k + 3), fun xs o s h hn ht => ?_⟩
  obtain ⟨h1, h2⟩ := C98_capacity cap xs h
  have h3 : period * (arrivals xs).length ≤ 149 * (arrivals xs).length :=
    Nat.mul_le_mul_right _ (by omega)
  omega

/-- Three datagrams in 300 ms, and a server that is never late. -/
def crowdStep (T : Nat) (d : Bytes) (sender : Ip4) : List StatusEvent :=
  [.arrive T d sender, .handle T, .arrive (T + 100) d sender, .handle (T + 150), .arrive (T + 200) d sender]

theorem status_answer {d : Bytes} (sender : Ip4) (hs : ¬ Stops d) :
    ∃ as, statusStep (.datagram d sender) true = (as, true) ∧ Answers (.datagram d sender) as := by
  obtain ⟨outs, h1, h2⟩ := C56_history [.datagram d sender] (by
    intro d' s' hm
    rw [List.mem_singleton] at hm
    cases hm
    exact hs)
  cases h1 with
  | cons h hs =>
    cases hs
    rename_i a
    refine ⟨a, ?_, h⟩
    simp only [statusRun, List.append_nil] at h2
    have e1 := (Prod.mk.inj h2).1
    have e2 := (Prod.mk.inj h2).2
    exact Prod.ext e1 e2

theorem arrive_step {cap : Nat} {s : StatusClock} {t : Nat} {d : Bytes} {sender : Ip4} (hn : s.now ≤ t)
    (hcap : 1 ≤ cap) (hq : ∀ e ∈ s.queue, e.2.1 = d) : ∃ s', statusTimedStep cap s (.arrive t d sender) =
      some ([], s') ∧ s'.running = s.running ∧ s'.free = s.free ∧ s'.now = t ∧
      s'.queue ≠ [] ∧ (∀ e ∈ s'.queue, e.2.1 = d) ∧ (s.queue = [] → s'.queue.head?.map Prod.fst = some t) ∧
      (s.queue ≠ [] → s'.queue.head? = s.queue.head?) := by
  refine ⟨_, by simp only [statusTimedStep, hn, if_true]; rfl, ?_⟩
  split
  · refine ⟨rfl, rfl, rfl, by simp, ?_, by simp +contextual, ?_⟩
    · intro e he
      rcases List.mem_append.1 he with he | he
      · exact hq e he
      · rw [List.mem_singleton.1 he]
    · intro h
      obtain ⟨a, l, h⟩ := List.exists_cons_of_ne_nil h
      simp [h]
  · rename_i hf
    have : s.queue ≠ [] := by
      intro h
      rw [h] at hf
      exact hf hcap
    exact ⟨rfl, rfl, rfl, this, hq, fun h => absurd h this, fun _ => rfl⟩

theorem handle_step {cap : Nat} {s : StatusClock} {t : Nat} {d : Bytes} (hn : s.now ≤ t)
    (hf : s.free ≤ t) (hr : s.running = true) (hd : ¬ Stops d) (hne : s.queue ≠ [])
    (hq : ∀ e ∈ s.queue, e.2.1 = d) : ∃ o s', statusTimedStep cap s (.handle t) = some (o, s') ∧
      s'.running = true ∧ s'.free = t + 150 ∧ s'.now = t ∧ ∀ e ∈ s'.queue, e.2.1 = d := by
  obtain ⟨⟨a, d', sender⟩, q, he⟩ := List.exists_cons_of_ne_nil hne
  have hd' : d' = d := hq (a, d', sender) (by simp [he])
  subst hd'
  obtain ⟨as, h1, _⟩ := status_answer sender hd
  refine ⟨as.map fun o => (a, t, o), { s with queue := q, running := true, now := t, free := t + 150 }, ?_,
    rfl, rfl, rfl, fun e hm => hq e (by rw [he]; exact List.mem_cons_of_mem _ hm)⟩
  simp only [statusTimedStep, he, hr, hn, hf, and_self, if_true, h1]

/-- Blocks one after the other. -/
def crowd (d : Bytes) (sender : Ip4) : Nat → Nat → List StatusEvent
  | _, 0 => []
  | T, n + 1 => crowdStep T d sender ++ crowd d sender (T + 300) n

theorem crowd_run (cap : Nat) (hcap : 1 ≤ cap) (d : Bytes) (sender : Ip4) (hd : ¬ Stops d) (n T : Nat)
    (s : StatusClock) (hr : s.running = true) (hn : s.now ≤ T)
    (hf : (s.queue = [] ∧ s.free ≤ T) ∨ s.free = T) (hq : ∀ e ∈ s.queue, e.2.1 = d) :
    PromptStatus cap 0 s (crowd d sender T n) ∧
    ∃ r, statusTimedRun cap s (crowd d sender T n) = some r ∧ r.2.now ≤ T + 300 * n := by
  induction n generalizing T s with
  | zero => exact ⟨trivial, _, rfl, hn⟩
  | succ n ih =>
    obtain ⟨s₁, e₁, r₁, f₁, n₁, q₁, d₁, h₁, h₁'⟩ := arrive_step (sender := sender) hn hcap hq
    obtain ⟨o₂, s₂, e₂, r₂, f₂, n₂, d₂⟩ := handle_step (cap := cap) (t := T) (by omega) (by omega)
      (r₁.trans hr) hd q₁ d₁
    obtain ⟨s₃, e₃, r₃, f₃, n₃, q₃, d₃, -, -⟩ := arrive_step (t := T + 100) (sender := sender)
      (show s₂.now ≤ T + 100 by omega) hcap d₂
    obtain ⟨o₄, s₄, e₄, r₄, f₄, n₄, d₄⟩ := handle_step (cap := cap) (t := T + 150) (by omega) (by omega)
      (r₃.trans r₂) hd q₃ d₃
    obtain ⟨s₅, e₅, r₅, f₅, n₅, q₅, d₅, -, -⟩ := arrive_step (t := T + 200) (sender := sender)
      (show s₄.now ≤ T + 200 by omega) hcap d₄
    obtain ⟨hp, r, hrun, hnow⟩ := ih (T + 300) s₅ (r₅.trans r₄) (by omega) (.inr (by omega)) d₅
    refine ⟨?_, ?_⟩
    · show PromptStatus cap 0 s (.arrive T d sender :: .handle T :: .arrive (T + 100) d sender ::
        .handle (T + 150) :: .arrive (T + 200) d sender :: crowd d sender (T + 300) n)
      refine ⟨fun e q h _ => ?_, fun r h => ?_⟩
      · show T ≤ _
        rcases hf with hf | hf
        · rw [hf.1] at h
          exact nomatch h
        · omega
      rw [e₁] at h; cases h
      refine ⟨fun e q h _ => ?_, fun r h => ?_⟩
      · show T ≤ max s₁.free e.1 + 0
        rcases hf with hf | hf
        · have := h₁ hf.1
          rw [h] at this
          have : e.1 = T := Option.some.inj this
          omega
        · omega
      rw [e₂] at h; cases h
      refine ⟨fun e q h _ => ?_, fun r h => ?_⟩
      · show T + 100 ≤ max s₂.free e.1 + 0
        omega
      rw [e₃] at h; cases h
      refine ⟨fun e q h _ => ?_, fun r h => ?_⟩
      · show T + 150 ≤ max s₃.free e.1 + 0
        omega
      rw [e₄] at h; cases h
      refine ⟨fun e q h _ => ?_, fun r h => ?_⟩
      · show T + 200 ≤ max s₄.free e.1 + 0
        omega
      rw [e₅] at h; cases h
      exact hp
    · refine ⟨([] ++ (o₂ ++ ([] ++ (o₄ ++ ([] ++ r.1)))), r.2), ?_, by
        show r.2.now ≤ _
        omega⟩
      show statusTimedRun cap s (.arrive T d sender :: .handle T :: .arrive (T + 100) d sender ::
        .handle (T + 150) :: .arrive (T + 200) d sender :: crowd d sender (T + 300) n) = _
      simp only [statusTimedRun, e₁, e₂, e₃, e₄, e₅, hrun, Option.bind_some]

theorem arrivals_crowd (d : Bytes) (sender : Ip4) (n T : Nat) :
    (arrivals (crowd d sender T n)).length = 3 * n ∧
    ∀ i e, (arrivals (crowd d sender T n))[i]? = some e → e = (T + 100 * i, d, sender) := by
  induction n generalizing T with
  | zero => exact ⟨rfl, fun i e h => by simp [crowd, arrivals] at h⟩
  | succ n ih =>
    have he : arrivals (crowd d sender T (n + 1)) = (T, d, sender) :: (T + 100, d, sender) ::
        (T + 200, d, sender) :: arrivals (crowd d sender (T + 300) n) := rfl
    rw [he]
    obtain ⟨h1, h2⟩ := ih (T + 300)
    refine ⟨by simp only [List.length_cons, h1]; omega, ?_⟩
    intro i e h
    match i with
    | 0 => cases h; rfl
    | 1 => cases h; rfl
    | 2 => cases h; rfl
    | i + 3 =>
      have := h2 i e (by simpa using h)
      rw [this]
      congr 1
      omega

/-- C98, the negation: if a datagram arrives every 100 ms - two players send that often together - then
even a server that is never late loses any number of them in the end. -/
theorem C98_two_players (cap k : Nat) (hcap : 1 ≤ cap) (d : Bytes) (sender : Ip4) (hd : ¬ Stops d) :
    ∃ xs o s, statusTimedRun cap .start xs = some (o, s) ∧ PromptStatus cap 0 .start xs ∧
      (∀ i e, (arrivals xs)[i]? = some e → e = (100 * i, d, sender)) ∧ k < s.lost := by
  obtain ⟨n₀, h⟩ := C98_overload cap 100 k (by decide)
  obtain ⟨h1, ⟨o, s⟩, h2, h3⟩ := crowd_run cap hcap d sender hd n₀ 0 .start rfl (Nat.le_refl _)
    (.inr rfl) (by simp [StatusClock.start])
  obtain ⟨h4, h5⟩ := arrivals_crowd d sender n₀ 0
  refine ⟨_, o, s, h2, h1, fun i e he => ?_, h _ o s h2 ?_ ?_⟩
  · rw [h5 i e he, Nat.zero_add]
  · omega
  · rw [h4]
    simp only at h3
    omega

/-- The same with the time `tat` before which the next datagram is early. -/
def Conforms {α : Type} (burst gap : Nat) : Nat → List (Nat × α) → Prop
  | _, [] => True
  | tat, a :: l => tat ≤ a.1 + (burst - 1) * gap ∧ Conforms burst gap (max a.1 tat + gap) l

theorem bursts_conforms {α : Type} {burst gap : Nat} (l : List (Nat × α)) (tat : Nat)
    (h : Bursts burst gap l) (ht : ∀ j b, l[j]? = some b → tat + j * gap ≤ b.1 + (burst - 1) * gap) :
    Conforms burst gap tat l := by
  induction l generalizing tat with
  | nil => trivial
  | cons a l ih =>
    refine ⟨by simpa using ht 0 a rfl, ih _ ?_ ?_⟩
    · intro i j x y hij hx hy
      have := h (i + 1) (j + 1) x y (by omega) (by simpa using hx) (by simpa using hy)
      rwa [Nat.add_sub_add_right] at this
    · intro j b hb
      have h1 := ht (j + 1) b (by simpa using hb)
      have h2 := h 0 (j + 1) a b (by omega) rfl (by simpa using hb)
      rw [Nat.sub_zero] at h2
      rw [Nat.add_mul, Nat.one_mul] at h1 h2
      omega

/-- When the server can turn to the first datagram. -/
def readyAt (s : StatusClock) : Nat :=
  match s.queue with
  | [] => s.free
  | e :: _ => max s.free e.1

/-- A server that keeps up: what waits will have been handled by `tat`, and each in time. -/
structure KeepsUp (burst late tat : Nat) (s : StatusClock) : Prop where
  running : s.running = true
  lost : s.lost = 0
  work : readyAt s + s.queue.length * (150 + late) ≤ tat
  wait : ∀ k e, s.queue[k]? = some e → e.1 ≤ s.now ∧
    readyAt s + k * (150 + late) ≤ e.1 + (burst - 1) * (150 + late)
  soon : s.queue ≠ [] → s.now ≤ readyAt s + late

theorem keepsUp_run (cap burst late : Nat) (hb : 1 ≤ burst) (hcap : burst ≤ cap) (xs : List StatusEvent)
    (s : StatusClock) (tat : Nat) (hk : KeepsUp burst late tat s)
    (ha : Conforms burst (150 + late) tat (arrivals xs))
    (hs : ∀ e ∈ s.queue ++ arrivals xs, ¬ Stops e.2.1) (hp : PromptStatus cap late s xs) {r}
    (h : statusTimedRun cap s xs = some r) :
    ∃ handled tat', s.queue ++ arrivals xs = handled.map (fun e => (e.1, e.2.2)) ++ r.2.queue ∧
      AnsweredAt handled r.1 ∧
      (∀ e ∈ handled, e.1 ≤ e.2.1 ∧ e.2.1 ≤ e.1 + (burst - 1) * (150 + late) + late) ∧
      KeepsUp burst late tat' r.2 := by
  induction xs generalizing s tat r with
  | nil =>
    cases h
    exact ⟨[], tat, by simp [arrivals], .nil, by simp, hk⟩
  | cons x xs ih =>
    obtain ⟨a, b, h1, h2, rfl⟩ := statusTimedRun_cons h
    have hp2 := hp.2 a h1
    have hp1 := hp.1
    obtain ⟨k1, k2, k3, k4, k5⟩ := hk
    cases x with
    | arrive t d sender =>
      simp only [statusTimedStep] at h1
      split at h1
      case isFalse => exact nomatch h1
      rename_i hnow
      have hearly : tat ≤ t + (burst - 1) * (150 + late) := ha.1
      have hready : s.queue ≠ [] → t ≤ readyAt s + late := by
        intro hq
        obtain ⟨e, q, hq⟩ := List.exists_cons_of_ne_nil hq
        have := hp1 e q hq k1
        simpa [readyAt, hq, StatusEvent.time] using this
      have hroom : s.queue.length < cap := by
        cases hq : s.queue with
        | nil => simp; omega
        | cons e q =>
          have := hready (by simp [hq])
          rw [← hq]
          have h3 : s.queue.length * (150 + late) < burst * (150 + late) := by
            have : burst * (150 + late) = (burst - 1) * (150 + late) + (150 + late) := by
              rw [← Nat.succ_mul]
              congr 1
              omega
            omega
          have := Nat.lt_of_mul_lt_mul_right h3
          omega
      cases h1
      rw [if_pos hroom] at h2 hp2
      have hnew : readyAt { s with queue := s.queue ++ [(t, d, sender)], now := t } ≤ max t (readyAt s) ∧
          (s.queue ≠ [] →
            readyAt { s with queue := s.queue ++ [(t, d, sender)], now := t } = readyAt s) ∧
          (s.queue = [] →
            readyAt { s with queue := s.queue ++ [(t, d, sender)], now := t } = max (readyAt s) t) := by
        cases hq : s.queue with
        | nil => simp [readyAt, hq]; omega
        | cons e q => simp [readyAt, hq]; omega
      obtain ⟨n1, n2, n3⟩ := hnew
      obtain ⟨handled, tat', h3, h4, h5, h6⟩ := ih
        { s with queue := s.queue ++ [(t, d, sender)], now := t } (max t tat + (150 + late))
        ⟨k1, k2, by
          simp only [List.length_append, List.length_singleton, Nat.add_mul, Nat.one_mul]
          by_cases hq : s.queue = []
          · rw [n3 hq, hq]
            rw [hq] at k3
            simp at k3 ⊢
            omega
          · rw [n2 hq]
            omega, by
          intro k e he
          by_cases hk : k < s.queue.length
          · have hne : s.queue ≠ [] := by intro h; rw [h] at hk; simp at hk
            simp only [List.getElem?_append_left hk] at he
            obtain ⟨w1, w2⟩ := k4 k e he
            rw [n2 hne]
            exact ⟨by simp only; omega, w2⟩
          · simp only [List.getElem?_append_right (Nat.le_of_not_lt hk)] at he
            have hk0 : k - s.queue.length = 0 := by
              cases hz : k - s.queue.length with
              | zero => rfl
              | succ z => rw [hz] at he; simp at he
            rw [hk0] at he
            cases he
            have hke : k = s.queue.length := by omega
            subst hke
            refine ⟨Nat.le_refl _, ?_⟩
            by_cases hq : s.queue = []
            · rw [n3 hq, hq]
              rw [hq] at k3
              simp at k3 ⊢
              omega
            · rw [n2 hq]
              simp only
              omega, by
          intro _
          by_cases hq : s.queue = []
          · rw [n3 hq]
            simp only
            omega
          · rw [n2 hq]
            exact hready hq⟩ ha.2
        (by simpa [arrivals] using hs) hp2 h2
      refine ⟨handled, tat', ?_, h4, h5, h6⟩
      rw [← h3]
      simp [arrivals]
    | handle t =>
      simp only [statusTimedStep] at h1
      cases hq : s.queue with
      | nil =>
        rw [hq] at h1
        exact nomatch h1
      | cons e q =>
        obtain ⟨at', d, sender⟩ := e
        have hpt := hp1 _ _ hq k1
        simp only [StatusEvent.time] at hpt
        simp only [hq] at h1
        split at h1
        case isFalse => exact nomatch h1
        rename_i hc
        obtain ⟨as, e1, e2⟩ := status_answer sender (hs (at', d, sender) (by simp [hq]))
        rw [k1, e1] at h1
        cases h1
        have hr : readyAt s = max s.free at' := by simp [readyAt, hq]
        obtain ⟨w1, w2⟩ := k4 0 (at', d, sender) (by rw [hq]; rfl)
        simp only at w1 w2
        have hq' : ∀ k e, q[k]? = some e → e.1 ≤ s.now ∧
            readyAt s + (k + 1) * (150 + late) ≤ e.1 + (burst - 1) * (150 + late) := by
          intro k e he
          exact k4 (k + 1) e (by rw [hq]; simpa using he)
        have hnew : readyAt { s with queue := q, running := true, now := t, free := t + 150 } = t + 150 := by
          cases hq2 : q with
          | nil => simp [readyAt]
          | cons e2 q2 =>
            have := (hq' 0 e2 (by rw [hq2]; rfl)).1
            simp only [readyAt]
            omega
        rw [hq] at k3
        simp only [List.length_cons, Nat.add_mul, Nat.one_mul] at k3
        obtain ⟨handled, tat', g1, g2, g3, g4⟩ := ih
          { s with queue := q, running := true, now := t, free := t + 150 } tat
          ⟨rfl, k2, by rw [hnew]; simp only; omega, by
            intro k e he
            obtain ⟨v1, v2⟩ := hq' k e he
            rw [hnew]
            rw [Nat.add_mul, Nat.one_mul] at v2
            exact ⟨by simp only; omega, by omega⟩, by
            intro _
            rw [hnew]
            simp only
            omega⟩ ha (fun e he => hs e (by
              rw [hq]
              exact List.mem_cons_of_mem _ he)) hp2 h2
        refine ⟨(at', t, d, sender) :: handled, tat', ?_, .cons e2 g2, ?_, g4⟩
        · simp only [List.map_cons, List.cons_append]
          exact congrArg _ g1
        · intro e he
          rcases List.mem_cons.1 he with rfl | he
          · simp only
            omega
          · exact g3 e he

/-- C98 (full claim: every query is answered soon).  Missing: the claim is false under load.  What holds: if
no more than `burst` datagrams arrive at a time and in the long run one per 150 + `late` ms, the socket
holds that many, the server is never late by more than `late` ms and none of them stops it, then in every
history no datagram is lost, every one is handled at most `late` ms after its arrival and the time for the
rest of a burst, and answered as specified, and what still waits has not waited longer than that.  With
`burst` = 1 that is: if they arrive at least 150 + `late` ms apart, they are handled within `late` ms. -/
theorem C98_answered_partial (cap burst late : Nat) (hb : 1 ≤ burst) (hcap : burst ≤ cap)
    (xs : List StatusEvent) (ha : Bursts burst (150 + late) (arrivals xs))
    (hs : ∀ e ∈ arrivals xs, ¬ Stops e.2.1) (hp : PromptStatus cap late .start xs)
    {o : List (Nat × Nat × Bytes × Ip4 × UInt16)} {s : StatusClock}
    (h : statusTimedRun cap .start xs = some (o, s)) :
    s.lost = 0 ∧ ∃ handled, arrivals xs = handled.map (fun e => (e.1, e.2.2)) ++ s.queue ∧
      AnsweredAt handled o ∧
      (∀ e ∈ handled, e.1 ≤ e.2.1 ∧ e.2.1 ≤ e.1 + (burst - 1) * (150 + late) + late) ∧
      ∀ e ∈ s.queue, s.now ≤ e.1 + (burst - 1) * (150 + late) + late := by
  have h0 : ∀ j b, (arrivals xs)[j]? = some b → 0 + j * (150 + late) ≤ b.1 + (burst - 1) * (150 + late) := by
    intro j b hj
    cases hx : arrivals xs with
    | nil => rw [hx] at hj; simp at hj
    | cons a l =>
      have := ha 0 j a b (Nat.zero_le _) (by rw [hx]; rfl) hj
      rw [Nat.sub_zero] at this
      omega
  obtain ⟨handled, tat', h1, h2, h3, h4⟩ := keepsUp_run cap burst late hb hcap xs .start 0
    ⟨rfl, rfl, by simp [readyAt, StatusClock.start], by simp [StatusClock.start], by simp [StatusClock.start]⟩
    (bursts_conforms _ 0 ha h0) hs hp h
  refine ⟨h4.lost, handled, h1, h2, h3, ?_⟩
  intro e he
  obtain ⟨k, hk⟩ := List.mem_iff_getElem?.1 he
  obtain ⟨w1, w2⟩ := h4.wait k e hk
  have := h4.soon (by intro hq; rw [hq] at he; exact nomatch he)
  simp only at this w1 w2
  have h5 : 0 ≤ k * (150 + late) := Nat.zero_le _
  omega

theorem statusTimed_refines (cap : Nat) (xs : List StatusEvent) (s₀ : StatusClock)
    {o : List (Nat × Nat × Bytes × Ip4 × UInt16)} {s : StatusClock}
    (h : statusTimedRun cap s₀ xs = some (o, s)) :
    ∃ handled : List (Nat × Bytes × Ip4), handled.Sublist (s₀.queue ++ arrivals xs) ∧
      statusRun s₀.running (handled.map fun e => .datagram e.2.1 e.2.2) =
        (o.map fun x => x.2.2, s.running) := by
  induction xs generalizing s₀ o s with
  | nil => cases h; exact ⟨[], List.nil_sublist _, rfl⟩
  | cons x xs ih =>
    simp only [statusTimedRun] at h
    cases h1 : statusTimedStep cap s₀ x with
    | none => rw [h1] at h; exact nomatch h
    | some r =>
      obtain ⟨o₁, s₁⟩ := r
      rw [h1] at h
      simp only [Option.bind_some] at h
      cases h2 : statusTimedRun cap s₁ xs with
      | none => rw [h2] at h; exact nomatch h
      | some r =>
        obtain ⟨o₂, s₂⟩ := r
        rw [h2] at h
        cases h
        obtain ⟨handled, h3, h4⟩ := ih s₁ h2
        cases x with
        | arrive t d sender =>
          simp only [statusTimedStep] at h1
          split at h1
          case isFalse => exact nomatch h1
          split at h1
          · cases h1
            refine ⟨handled, ?_, h4⟩
            simpa [arrivals] using h3
          · cases h1
            exact ⟨handled, h3.trans ((List.sublist_cons_self _ _).append_left _), h4⟩
        | handle t =>
          simp only [statusTimedStep] at h1
          cases hq : s₀.queue with
          | nil => rw [hq] at h1; exact nomatch h1
          | cons e q =>
            obtain ⟨a, d, sender⟩ := e
            rw [hq] at h1
            simp only at h1
            split at h1
            case isFalse => exact nomatch h1
            cases h1
            refine ⟨(a, d, sender) :: handled, h3.cons_cons _, ?_⟩
            simp only [List.map_cons, statusRun]
            rw [h4]
            simp [Function.comp_def]

/-- C98: a history in time is a history of the server: it answers some of the datagrams that arrived, in
their order, exactly as it does without regard to time, and if one of them stops it nothing is answered
any more. -/
theorem C98_refines (cap : Nat) (xs : List StatusEvent) {o : List (Nat × Nat × Bytes × Ip4 × UInt16)}
    {s : StatusClock} (h : statusTimedRun cap .start xs = some (o, s)) :
    ∃ handled : List (Nat × Bytes × Ip4), handled.Sublist (arrivals xs) ∧
      statusRun true (handled.map fun e => .datagram e.2.1 e.2.2) = (o.map fun x => x.2.2, s.running) :=
  statusTimed_refines cap xs .start h

/-! ## Non-vacuity -/

/-- `PromptStatus` as a computation. -/
def promptStatusB (cap late : Nat) : StatusClock → List StatusEvent → Bool
  | _, [] => true
  | s, x :: xs =>
    (match s.queue with
      | [] => true
      | e :: _ => decide (x.time ≤ max s.free e.1 + late)) &&
    (match statusTimedStep cap s x with
      | none => true
      | some r => promptStatusB cap late r.2 xs)

theorem promptStatusB_sound (cap late : Nat) (xs : List StatusEvent) (s : StatusClock)
    (h : promptStatusB cap late s xs = true) : PromptStatus cap late s xs := by
  induction xs generalizing s with
  | nil => trivial
  | cons x xs ih =>
    simp only [promptStatusB, Bool.and_eq_true] at h
    refine ⟨fun e q hq _ => ?_, fun r hr => ih _ ?_⟩
    · have := h.1
      rw [hq] at this
      exact of_decide_eq_true this
    · have := h.2
      rw [hr] at this
      exact this

/-- A player says hello twice. -/
def exampleHellos : List StatusEvent :=
  [.arrive 100 (ownHeader 0x10 1 ++ []) 7, .handle 110, .arrive 300 (ownHeader 0x10 1 ++ []) 7,
    .handle 350]

theorem exampleHellos_possible : ∃ o s, statusTimedRun 1 .start exampleHellos = some (o, s) := by
  have h : (statusTimedRun 1 .start exampleHellos).isSome = true := by decide +kernel
  exact ⟨_, _, (Option.some_get h).symm⟩

/-- Two players say hello at the same time. -/
def examplePair : List StatusEvent :=
  [.arrive 100 (ownHeader 0x10 1 ++ []) 7, .arrive 100 (ownHeader 0x10 1 ++ []) 8, .handle 110, .handle 290]

theorem examplePair_possible : ∃ o s, statusTimedRun 2 .start examplePair = some (o, s) := by
  have h : (statusTimedRun 2 .start examplePair).isSome = true := by decide +kernel
  exact ⟨_, _, (Option.some_get h).symm⟩

theorem examplePair_bursts : Bursts 2 200 (arrivals examplePair) := by
  intro i j a b hij ha hb
  simp only [examplePair, arrivals] at ha hb
  match i, j with
  | 0, 0 => cases ha; cases hb; simp
  | 0, 1 => cases ha; cases hb; simp
  | 1, 1 => cases ha; cases hb; simp
  | 1, 0 => omega
  | i + 2, _ => simp at ha
  | _, j + 2 => simp at hb

theorem exampleHellos_apart : Bursts 1 200 (arrivals exampleHellos) := by
  intro i j a b hij ha hb
  simp only [exampleHellos, arrivals] at ha hb
  match i, j with
  | 0, 0 => cases ha; cases hb; simp
  | 0, 1 => cases ha; cases hb; simp
  | 1, 1 => cases ha; cases hb; simp
  | 1, 0 => omega
  | i + 2, _ => simp at ha
  | _, j + 2 => simp at hb

example : ∃ o s, statusTimedRun 1 .start exampleHellos = some (o, s) ∧ s.lost = 0 := by
  obtain ⟨o, s, h⟩ := exampleHellos_possible
  refine ⟨o, s, h, (C98_answered_partial 1 1 50 (by decide) (by decide) exampleHellos exampleHellos_apart
    ?_ (promptStatusB_sound _ _ _ _ (by decide +kernel)) h).1⟩
  intro e he
  have : e.2.1 = ownHeader 0x10 1 ++ [] := by
    simp only [exampleHellos, arrivals, List.mem_cons, List.not_mem_nil, or_false] at he
    rcases he with rfl | rfl <;> rfl
  rintro ⟨kind, echo, hk, hn⟩
  rw [this] at hk
  rw [← header_kind (exampleHeader 0x10 []) hk] at hn
  exact hn (by decide)
example : ∃ o s, statusTimedRun 2 .start examplePair = some (o, s) ∧ s.lost = 0 := by
  obtain ⟨o, s, h⟩ := examplePair_possible
  refine ⟨o, s, h, (C98_answered_partial 2 2 50 (by decide) (by decide) examplePair examplePair_bursts
    ?_ (promptStatusB_sound _ _ _ _ (by decide +kernel)) h).1⟩
  intro e he
  have : e.2.1 = ownHeader 0x10 1 ++ [] := by
    simp only [examplePair, arrivals, List.mem_cons, List.not_mem_nil, or_false] at he
    rcases he with rfl | rfl <;> rfl
  rintro ⟨kind, echo, hk, hn⟩
  rw [this] at hk
  rw [← header_kind (exampleHeader 0x10 []) hk] at hn
  exact hn (by decide)
example (o s) (h : statusTimedRun 1 .start exampleHellos = some (o, s)) := C98_capacity 1 _ h
example (o s) (h : statusTimedRun 1 .start exampleHellos = some (o, s)) := C98_refines 1 _ h
example := C98_overload 1000 100 0 (by decide)
example := C98_two_players 1000 0 (by decide) [1, 2, 3] 7 (fun ⟨_, _, h, _⟩ => absurd h.1 (by decide))

end PDJ

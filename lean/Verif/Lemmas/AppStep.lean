import Verif.Lemmas.App

/-!
# Case analysis of the steps of the application
-/

namespace PDJ

open Spec

/-- All possible steps, with their conditions. -/
inductive StepTo : AppSystem → AppAction → List (Bytes × Ip4 × UInt16) → AppSystem → Prop
  | dead {s x} (h : s.running = false) : StepTo s x [] s
  | ignored {s i d} (hr : s.running = true)
      (h : s.receiver = false ∨ s.poisoned = true ∨ ∀ a, ¬ Accepted d a) :
      StepTo s (.receive i d) [] s
  | heard {s i d a n} (hh : Healthy s) (ha : Accepted d a) (hm : matchInterface a.ip i = .ok n) :
      StepTo s (.receive i d) [] { s with
        state := hear n a s.state
        queue := s.queue ++ events s.state (hear n a s.state) }
  | macMissing {s i d a} (hh : Healthy s) (ha : Accepted d a)
      (hm : matchInterface a.ip i = .panic) :
      StepTo s (.receive i d) [] { s with receiver := false, poisoned := true }
  | noBroadcast {s ok} (hr : s.running = true)
      (h : s.broadcaster = false ∨ s.poisoned = true ∨ s.state.address = none) :
      StepTo s (.broadcast ok) [] s
  | broadcast {s n} (hr : s.running = true) (hb : s.broadcaster = true) (hp : s.poisoned = false)
      (hn : s.state.address = some n) :
      StepTo s (.broadcast true) [toAll n (statusDatagram n.network.addr n.mac 1)] s
  | broadcastFails {s n} (hr : s.running = true) (hb : s.broadcaster = true)
      (hp : s.poisoned = false) (hn : s.state.address = some n) :
      StepTo s (.broadcast false) [] { s with broadcaster := false, poisoned := true }
  | waits {s} (hr : s.running = true) (h : s.pending = true ∨ s.queue = []) : StepTo s .appRecv [] s
  | takesLink {s q} (hr : s.running = true) (hp : s.pending = false)
      (hq : s.queue = .initiateLink :: q) :
      StepTo s .appRecv [] { s with queue := q, pending := true }
  | takesChange {s q} (hr : s.running = true) (hp : s.pending = false)
      (hq : s.queue = .deviceChange :: q) : StepTo s .appRecv [] { s with queue := q }
  | noLink {s oks} (hr : s.running = true) (hp : s.pending = false) : StepTo s (.appLink oks) [] s
  | linkPoisoned {s oks} (hr : s.running = true) (hp : s.pending = true) (hl : s.poisoned = true) :
      StepTo s (.appLink oks) [] { s with running := false }
  | linkNowhere {s oks} (hr : s.running = true) (hp : s.pending = true) (hl : s.poisoned = false)
      (hn : s.state.address = none) :
      StepTo s (.appLink oks) [] { s with
        state := { s.state with linking := true }
        running := false }
  | links {s oks n} (hr : s.running = true) (hp : s.pending = true) (hl : s.poisoned = false)
      (hn : s.state.address = some n) (ho : ∀ b ∈ oks.take 40, b = true) :
      StepTo s (.appLink oks) ((negotiation n).map (toAll n)) { s with
        state := { s.state with linking := true }
        pending := false }
  | linkFails {s oks n k} (hr : s.running = true) (hp : s.pending = true) (hl : s.poisoned = false)
      (hn : s.state.address = some n) (hk : k < 40) (hf : oks[k]? = some false)
      (hj : ∀ j < k, oks.getD j true = true) :
      StepTo s (.appLink oks) (((negotiation n).take k).map (toAll n)) { s with
        state := { s.state with linking := true }
        pending := false
        running := false }

theorem stepTo (s : AppSystem) (x : AppAction) : StepTo s x (appStep s x).1 (appStep s x).2 := by
  obtain ⟨⟨l, disc, lkd, addr, ps⟩, poi, q, rcv, brd, pend, run⟩ := s
  cases run with
  | false => exact .dead rfl
  | true =>
    cases x with
    | receive i d =>
      cases rcv with
      | false => exact .ignored rfl (.inl rfl)
      | true =>
        show StepTo _ _ [] (receiveStep i d _)
        rcases accepted_or_not d with ⟨a, ha⟩ | hn
        · rw [receive_accepted ha]
          cases poi with
          | true => exact .ignored rfl (.inr (.inl rfl))
          | false =>
            cases hm : matchInterface a.ip i with
            | panic => exact .macMissing ⟨rfl, rfl, rfl⟩ ha hm
            | ok n => exact .heard ⟨rfl, rfl, rfl⟩ ha hm
        · rw [receive_ignored hn]
          exact .ignored rfl (.inr (.inr hn))
    | broadcast ok =>
      cases brd with
      | false => exact .noBroadcast rfl (.inl rfl)
      | true =>
        show StepTo _ _ (broadcastStep ok _).1 (broadcastStep ok _).2
        cases poi with
        | true => exact .noBroadcast rfl (.inr (.inl rfl))
        | false =>
          cases addr with
          | none => exact .noBroadcast rfl (.inr (.inr rfl))
          | some n =>
            simp only [broadcastStep, sendBroadcast, status_package_broadcast]
            cases ok with
            | false => exact .broadcastFails rfl rfl rfl rfl
            | true => exact .broadcast rfl rfl rfl rfl
    | appRecv =>
      cases pend with
      | true => exact .waits rfl (.inl rfl)
      | false =>
        cases q with
        | nil => exact .waits rfl (.inr rfl)
        | cons e q =>
          cases e with
          | initiateLink => exact .takesLink rfl rfl rfl
          | deviceChange => exact .takesChange rfl rfl rfl
    | appLink oks =>
      cases pend with
      | false => exact .noLink rfl rfl
      | true =>
        show StepTo _ _ (appLinkStep oks _).1 (appLinkStep oks _).2
        cases poi with
        | true => exact .linkPoisoned rfl rfl rfl
        | false =>
          cases addr with
          | none => exact .linkNowhere rfl rfl rfl rfl
          | some n =>
            simp only [appLinkStep]
            rcases sendAll_encoded n (negotiationPackets n) (negotiation n) oks
              (negotiation_encoded n) with ⟨ho, hs⟩ | ⟨k, hk, hf, hj, hs⟩
            · rw [hs]
              exact .links rfl rfl rfl rfl ho
            · rw [hs]
              exact .linkFails rfl rfl rfl rfl hk hf hj

theorem appRun_cons (s : AppSystem) (x : AppAction) (xs : List AppAction) :
    (appRun s (x :: xs)).2 = (appRun (appStep s x).2 xs).2 ∧
    (appRun s (x :: xs)).1 = (appStep s x).1 ++ (appRun (appStep s x).2 xs).1 := ⟨rfl, rfl⟩

/-- Health is never regained. -/
theorem healthy_back {s s' : AppSystem} {x : AppAction} {o : List (Bytes × Ip4 × UInt16)}
    (h : StepTo s x o s') (hh : Healthy s') : Healthy s := by
  obtain ⟨h1, h2, h3⟩ := hh
  cases h <;> simp_all <;> exact ⟨‹_›, ‹_›, ‹_›⟩

theorem healthy_run_back (xs : List AppAction) (s : AppSystem) (h : Healthy (appRun s xs).2) :
    Healthy s := by
  induction xs generalizing s with
  | nil => exact h
  | cons x xs ih => exact healthy_back (stepTo s x) (ih _ h)

end PDJ

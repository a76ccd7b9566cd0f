import Verif.Spec.OverlapTrue
import Verif.Props.OverlapUse

/-!
# What overlapping steps say is true: lemmas

Whoever has still to broadcast something has the lock, and it names the network known.
-/

namespace PDJ

open Spec

variable {F : Type}

theorem appStep_names {s : AppSystem} {x : AppAction} {b : Bytes × Ip4 × UInt16} (h : b ∈ (appStep s x).1) :
    ∃ n, s.state.address = some n ∧ (appStep s x).2.state.address = some n ∧ Names n b ∧ ∀ i d, x ≠ .receive i d := by
  have hs := stepTo s x
  generalize (appStep s x).1 = out at h hs
  generalize (appStep s x).2 = s' at hs
  cases hs with
  | broadcast _ _ _ hn =>
    rw [List.mem_singleton] at h
    exact ⟨_, hn, hn, ⟨_, List.mem_cons_self, h⟩, nofun⟩
  | links _ _ _ hn =>
    rw [List.mem_map] at h
    obtain ⟨d, hd, rfl⟩ := h
    exact ⟨_, hn, hn, ⟨d, List.mem_cons_of_mem _ hd, rfl⟩, nofun⟩
  | linkFails _ _ _ hn =>
    rw [List.mem_map] at h
    obtain ⟨d, hd, rfl⟩ := h
    exact ⟨_, hn, hn, ⟨d, List.mem_cons_of_mem _ (List.mem_of_mem_take hd), rfl⟩, nofun⟩
  | _ => exact absurd h List.not_mem_nil

/-- What is broadcast is by the broadcaster or the main thread with the lock, and names the network that is known. -/
theorem sysStep_names {e : Endian} {m : Mode} {db : Db} {s : System F} {x : SysAction F}
    {b : Bytes × Ip4 × UInt16} (h : .broadcast b ∈ (sysStep e m db s x).1) :
    (∃ n, s.app.state.address = some n ∧ (sysStep e m db s x).2.app.state.address = some n ∧ Names n b) ∧
    needsLock s x = true := by
  have hc := step_from e m db s x _ h
  cases x with
  | app y =>
    unfold sysStep at h ⊢
    split at h
    · rename_i hr
      simp only [List.mem_map, SysOut.broadcast.injEq, exists_eq_right] at h
      simp only [if_pos hr]
      obtain ⟨n, h1, h2, h3, h4⟩ := appStep_names h
      refine ⟨⟨n, h1, h2, h3⟩, ?_⟩
      cases y with
      | receive i d => exact absurd rfl (h4 i d)
      | broadcast ok => rfl
      | appRecv =>
        exfalso
        simp only [appStep] at h
        split at h <;> exact absurd h List.not_mem_nil
      | appLink oks =>
        simp [needsLock, SysAction.links]
    · exact absurd h List.not_mem_nil
  | _ => rcases hc with hc | hc <;> exact nomatch hc

/-- What is to be broadcast by one who has the lock names the network that is known; without it nothing is to be
broadcast. -/
def SaysTrue (t : System F) : Stage F → Prop
  | .holding outs => ∀ b, .broadcast b ∈ outs → ∃ n, t.app.state.address = some n ∧ Names n b
  | .linking _ rest => ∀ b, .broadcast b ∈ rest → ∃ n, t.app.state.address = some n ∧ Names n b
  | .reading outs => ∀ b, .broadcast b ∉ outs
  | .sending outs => ∀ b, .broadcast b ∉ outs
  | _ => True

/-- The event of a step that has not had all of its effect. -/
def Stage.event : Stage F → Option (SysAction F)
  | .taken x => some x
  | .linking x _ => some x
  | _ => none

/-- How everybody stands: who is at a stage with the lock has it, and is truthful. -/
structure Watched (s : Overlap F) : Prop where
  own : ∀ p x, (s.doing p).event = some x → x.party = p
  lock : ∀ p, (s.doing p).locked = true → s.lock = some p
  true_ : ∀ p, SaysTrue s.sys (s.doing p)

theorem SaysTrue.of_unlocked {t t' : System F} {st : Stage F} (h : SaysTrue t st) (hl : st.locked = false) :
    SaysTrue t' st := by
  cases st <;> first | exact h | exact nomatch hl

theorem SaysTrue.of_address {t t' : System F} {st : Stage F} (h : SaysTrue t st)
    (ha : t'.app.state.address = t.app.state.address) : SaysTrue t' st := by
  cases st <;> simp only [SaysTrue, ha] at h ⊢ <;> exact h

theorem watched_start : Watched (Overlap.start : Overlap F) := ⟨nofun, nofun, fun _ => trivial⟩

/-- Going on keeps that if nobody else has the lock or the network that is known stays. -/
theorem Watched.now_of {s : Overlap F} (h : Watched s) (p : PDJ.Party) (t : System F) (lk : Option PDJ.Party) (st : Stage F)
    (hown : ∀ x, st.event = some x → x.party = p) (hlk : st.locked = true → lk = some p) (htrue : SaysTrue t st)
    (ho : (∀ q, q ≠ p → (s.doing q).locked = false) ∨
      (lk = s.lock ∧ t.app.state.address = s.sys.app.state.address)) :
    Watched ({ s with sys := t, lock := lk }.now p st) := by
  refine ⟨fun q x hq => ?_, fun q hq => ?_, fun q => ?_⟩ <;>
    by_cases hqp : q = p
  · subst hqp
    rw [now_own] at hq
    exact hown x hq
  · rw [now_other _ hqp] at hq
    exact h.own q x hq
  · subst hqp
    rw [now_own] at hq
    exact hlk hq
  · rw [now_other _ hqp] at hq
    rcases ho with ho | ho
    · have := ho q hqp
      rw [this] at hq
      exact nomatch hq
    · exact ho.1.trans (h.lock q hq)
  · subst hqp
    rw [now_own]
    exact htrue
  · rw [now_other _ hqp]
    rcases ho with ho | ho
    · exact (h.true_ q).of_unlocked (ho q hqp)
    · exact (h.true_ q).of_address ho.2

theorem Watched.alone {s : Overlap F} (h : Watched s) {p : PDJ.Party} (hp : (s.doing p).locked = true) :
    ∀ q, q ≠ p → (s.doing q).locked = false := by
  intro q hq
  cases hl : (s.doing q).locked with
  | false => rfl
  | true =>
    have := (h.lock p hp).symm.trans (h.lock q hl)
    exact absurd (Option.some.inj this).symm hq

theorem unlocked_keeps_state (e : Endian) (m : Mode) (db : Db) (s : System F) (x : SysAction F) (hn : needsLock s x = false) :
    (sysStep e m db s x).2.app.state = s.app.state ∧ (sysStep e m db s x).2.app.poisoned = s.app.poisoned := by
  by_cases hp : x.party = .main
  · cases x with
    | app y =>
      cases y with
      | appRecv =>
        simp only [sysStep]
        split
        · simp only [appStep]
          by_cases hr : s.app.running = true
          · by_cases hq : s.app.pending = true
            · simp only [if_pos hr, if_pos hq, and_self]
            · simp only [if_pos hr, if_neg hq]
              unfold appRecvStep
              split <;> exact ⟨rfl, rfl⟩
          · simp only [if_neg hr, and_self]
        · exact ⟨rfl, rfl⟩
      | appLink oks => simp [needsLock, SysAction.links] at hn
      | _ => exact nomatch hp
    | _ => exact nomatch hp
  · obtain ⟨b, hb⟩ := unlocked_app e m db s x hn hp
    rw [hb]
    exact ⟨rfl, rfl⟩

theorem Watched.go {e : Endian} {m : Mode} {db : Db} {s s' : Overlap F} (h : Watched s) (p : PDJ.Party)
    {outs : List SysOut} (hg : goOn e m db s p = some (outs, s')) :
    Watched s' ∧ ∀ b, .broadcast b ∈ outs → s.lock = some p ∧ s'.lock = some p ∧
      ∃ n, s.sys.app.state.address = some n ∧ s'.sys.app.state.address = some n ∧ Names n b := by
  have hno : ∀ (t : Overlap F) b, SysOut.broadcast b ∈ ([] : List SysOut) → s.lock = some p ∧ t.lock = some p ∧
      ∃ n, s.sys.app.state.address = some n ∧ t.sys.app.state.address = some n ∧ Names n b :=
    fun _ _ hb => absurd hb List.not_mem_nil
  have htr := h.true_ p
  unfold goOn at hg
  cases hd : s.doing p with
  | idle => simp only [hd] at hg; exact nomatch hg
  | taken x =>
    simp only [hd] at hg
    have hx := h.own p x (by rw [hd]; rfl)
    split at hg
    next hn =>
      split at hg
      next hl =>
        simp only [Option.some.injEq, Prod.mk.injEq] at hg
        obtain ⟨rfl, rfl⟩ := hg
        have hall : ∀ q, q ≠ p → (s.doing q).locked = false := by
          intro q _
          cases hq : (s.doing q).locked with
          | false => rfl
          | true => have := h.lock q hq; rw [hl] at this; exact nomatch this
        refine ⟨?_, hno _⟩
        cases x with
        | app y =>
          cases y with
          | receive i d => exact h.now_of p _ (some p) (.updating _) nofun (fun _ => rfl) trivial (Or.inl hall)
          | appLink oks =>
            refine h.now_of p s.sys (some p) (.linking _ _) (fun y hy => by cases hy; exact hx) (fun _ => rfl) ?_ (Or.inl hall)
            intro b hb
            obtain ⟨⟨n, h1, _, h3⟩, _⟩ := sysStep_names hb
            exact ⟨n, h1, h3⟩
          | broadcast ok =>
            refine h.now_of p _ (some p) (.holding _) nofun (fun _ => rfl) ?_ (Or.inl hall)
            intro b hb
            obtain ⟨⟨n, _, h2, h3⟩, _⟩ := sysStep_names hb
            exact ⟨n, h2, h3⟩
          | appRecv =>
            refine h.now_of p _ (some p) (.holding _) nofun (fun _ => rfl) ?_ (Or.inl hall)
            intro b hb
            obtain ⟨⟨n, _, h2, h3⟩, _⟩ := sysStep_names hb
            exact ⟨n, h2, h3⟩
        | _ =>
          refine h.now_of p _ (some p) (.reading _) nofun (fun _ => rfl) ?_ (Or.inl hall)
          intro b hb
          have := step_from e m db _ _ _ hb
          rcases this with hc | hc <;> exact nomatch hc
      next => exact nomatch hg
    next hn =>
      split at hg
      · exact nomatch hg
      · simp only [Option.some.injEq, Prod.mk.injEq] at hg
        obtain ⟨rfl, rfl⟩ := hg
        have hn : needsLock s.sys x = false := by
          cases hh : needsLock s.sys x with
          | false => rfl
          | true => exact absurd hh hn
        refine ⟨h.now_of p _ s.lock (.sending _) nofun nofun ?_
          (Or.inr ⟨rfl, by rw [(unlocked_keeps_state e m db s.sys x hn).1]⟩), hno _⟩
        intro b hb
        have := (sysStep_names hb).2
        rw [hn] at this
        exact nomatch this
  | updating ws =>
    have hall := h.alone (p := p) (by rw [hd]; rfl)
    have hl := h.lock p (by rw [hd]; rfl)
    cases ws <;> simp only [hd, Option.some.injEq, Prod.mk.injEq] at hg <;> obtain ⟨rfl, rfl⟩ := hg
    · exact ⟨h.now_of p s.sys none (.sending []) nofun nofun (fun _ => List.not_mem_nil) (Or.inl hall), hno _⟩
    · exact ⟨h.now_of p _ s.lock (.updating _) nofun (fun _ => hl) trivial (Or.inl hall), hno _⟩
  | linking x os =>
    have hall := h.alone (p := p) (by rw [hd]; rfl)
    have hl := h.lock p (by rw [hd]; rfl)
    rw [hd] at htr
    cases os <;> simp only [hd, Option.some.injEq, Prod.mk.injEq] at hg <;> obtain ⟨rfl, rfl⟩ := hg
    · exact ⟨h.now_of p _ none (.sending []) nofun nofun (fun _ => List.not_mem_nil) (Or.inl hall), hno _⟩
    · refine ⟨h.now_of p s.sys s.lock (.linking _ _) (fun y hy => by cases hy; exact h.own p _ (by rw [hd]; rfl))
        (fun _ => hl)
        (fun b hb => htr b (List.mem_cons_of_mem _ hb)) (Or.inl hall), fun b hb => ?_⟩
      obtain ⟨n, h1, h2⟩ := htr b (by rw [List.mem_singleton.1 hb]; exact List.mem_cons_self)
      exact ⟨hl, hl, n, h1, h1, h2⟩
  | holding os =>
    have hall := h.alone (p := p) (by rw [hd]; rfl)
    have hl := h.lock p (by rw [hd]; rfl)
    rw [hd] at htr
    cases os <;> simp only [hd, Option.some.injEq, Prod.mk.injEq] at hg <;> obtain ⟨rfl, rfl⟩ := hg
    · exact ⟨h.now_of p s.sys none (.sending []) nofun nofun (fun _ => List.not_mem_nil) (Or.inl hall), hno _⟩
    · refine ⟨h.now_of p s.sys s.lock (.holding _) nofun (fun _ => hl)
        (fun b hb => htr b (List.mem_cons_of_mem _ hb)) (Or.inl hall), fun b hb => ?_⟩
      obtain ⟨n, h1, h2⟩ := htr b (by rw [List.mem_singleton.1 hb]; exact List.mem_cons_self)
      exact ⟨hl, hl, n, h1, h1, h2⟩
  | reading os =>
    have hall := h.alone (p := p) (by rw [hd]; rfl)
    rw [hd] at htr
    simp only [hd, Option.some.injEq, Prod.mk.injEq] at hg
    obtain ⟨rfl, rfl⟩ := hg
    exact ⟨h.now_of p s.sys none (.sending os) nofun nofun htr (Or.inl hall), hno _⟩
  | sending os =>
    rw [hd] at htr
    cases os <;> simp only [hd, Option.some.injEq, Prod.mk.injEq] at hg <;> obtain ⟨rfl, rfl⟩ := hg
    · exact ⟨h.now_of p s.sys s.lock .idle nofun nofun trivial (Or.inr ⟨rfl, rfl⟩), hno _⟩
    · refine ⟨h.now_of p s.sys s.lock (.sending _) nofun nofun (fun b hb => htr b (List.mem_cons_of_mem _ hb))
        (Or.inr ⟨rfl, rfl⟩), fun b hb => ?_⟩
      exact absurd (by rw [List.mem_singleton.1 hb]; exact List.mem_cons_self) (htr b)

theorem Watched.step {e : Endian} {m : Mode} {db : Db} {s s' : Overlap F} (h : Watched s) {a : OverlapAction F}
    {o : List (PDJ.Party × SysOut)} (hg : overlapStep e m db s a = some (o, s')) :
    Watched s' ∧ ∀ p b, (p, .broadcast b) ∈ o → s.lock = some p ∧ s'.lock = some p ∧
      ∃ n, s.sys.app.state.address = some n ∧ s'.sys.app.state.address = some n ∧ Names n b := by
  cases a with
  | take x =>
    simp only [overlapStep] at hg
    split at hg
    · cases hd : s.doing x.party <;> simp only [hd] at hg <;> try (cases hg; done)
      simp only [Option.some.injEq, Prod.mk.injEq] at hg
      obtain ⟨rfl, rfl⟩ := hg
      exact ⟨h.now_of x.party s.sys s.lock (.taken x) (fun y hy => by cases hy; rfl) nofun trivial (Or.inr ⟨rfl, rfl⟩),
        fun _ _ hb => absurd hb List.not_mem_nil⟩
    · exact nomatch hg
  | go p =>
    simp only [overlapStep] at hg
    split at hg
    · cases hr : goOn e m db s p with
      | none => rw [hr] at hg; exact nomatch hg
      | some r =>
        rw [hr] at hg
        simp only [Option.map_some, Option.some.injEq, Prod.mk.injEq] at hg
        obtain ⟨rfl, rfl⟩ := hg
        obtain ⟨h1, h2⟩ := h.go p (outs := r.1) hr
        refine ⟨h1, fun q b hb => ?_⟩
        simp only [List.mem_map, Prod.mk.injEq] at hb
        obtain ⟨y, hy, rfl, rfl⟩ := hb
        exact h2 b hy
    · exact nomatch hg

theorem Watched.history {e : Endian} {m : Mode} {db : Db} {s s' : Overlap F} (h : Watched s) {xs : List (OverlapAction F)}
    {o : List (PDJ.Party × SysOut)} (hr : overlapRun e m db s xs = some (o, s')) : Watched s' := by
  induction xs generalizing s o with
  | nil =>
    simp only [overlapRun, Option.some.injEq, Prod.mk.injEq] at hr
    rw [← hr.2]
    exact h
  | cons a xs ih =>
    simp only [overlapRun] at hr
    split at hr
    · exact nomatch hr
    next o1 s1 h1 =>
      split at hr
      · exact nomatch hr
      next o2 s2 h2 =>
        simp only [Option.some.injEq, Prod.mk.injEq] at hr
        obtain ⟨_, rfl⟩ := hr
        exact ih (h.step h1).1 h2

/-- What a party at this stage has still to send. -/
def Stage.rest : Stage F → List SysOut
  | .linking _ os => os
  | .holding os => os
  | .reading os => os
  | .sending os => os
  | _ => []

/-- The step of the party has not had its effect. -/
def Stage.waits : Stage F → Bool
  | .taken _ => true
  | _ => false

/-- Going on after the effect sends the first of what there is to send. -/
theorem rest_go {e : Endian} {m : Mode} {db : Db} {s s' : Overlap F} {p : PDJ.Party}
    {outs : List SysOut} (hg : goOn e m db s p = some (outs, s')) (hw : (s.doing p).waits = false) :
    outs ++ (s'.doing p).rest = (s.doing p).rest ∧ (s'.doing p).waits = false := by
  unfold goOn at hg
  cases hd : s.doing p with
  | idle => simp only [hd] at hg; exact nomatch hg
  | taken x => rw [hd] at hw; exact nomatch hw
  | updating ws =>
    cases ws <;> simp only [hd, Option.some.injEq, Prod.mk.injEq] at hg <;> obtain ⟨rfl, rfl⟩ := hg <;>
      rw [now_own] <;> exact ⟨rfl, rfl⟩
  | linking x os =>
    cases os <;> simp only [hd, Option.some.injEq, Prod.mk.injEq] at hg <;> obtain ⟨rfl, rfl⟩ := hg <;>
      rw [now_own] <;> exact ⟨rfl, rfl⟩
  | holding os =>
    cases os <;> simp only [hd, Option.some.injEq, Prod.mk.injEq] at hg <;> obtain ⟨rfl, rfl⟩ := hg <;>
      rw [now_own] <;> exact ⟨rfl, rfl⟩
  | reading os =>
    simp only [hd, Option.some.injEq, Prod.mk.injEq] at hg
    obtain ⟨rfl, rfl⟩ := hg
    rw [now_own]
    exact ⟨rfl, rfl⟩
  | sending os =>
    cases os <;> simp only [hd, Option.some.injEq, Prod.mk.injEq] at hg <;> obtain ⟨rfl, rfl⟩ := hg <;>
      rw [now_own] <;> exact ⟨rfl, rfl⟩

/-- The effect of a step is one whole step in the state at that time, which has the lock free if it is needed. -/
theorem effect_go {e : Endian} {m : Mode} {db : Db} {s s' : Overlap F} {p : PDJ.Party} {x : SysAction F}
    {outs : List SysOut} (hg : goOn e m db s p = some (outs, s')) (hd : s.doing p = .taken x) :
    outs = [] ∧ (s'.doing p).waits = false ∧ (needsLock s.sys x = true → s.lock = none) ∧
      (s'.doing p).rest = (sysStep e m db s.sys x).1 := by
  unfold goOn at hg
  simp only [hd] at hg
  split at hg
  next hn =>
    split at hg
    next hl =>
      simp only [Option.some.injEq, Prod.mk.injEq] at hg
      obtain ⟨rfl, rfl⟩ := hg
      have key : ((enter e m db s p x).doing p).waits = false ∧
          ((enter e m db s p x).doing p).rest = (sysStep e m db s.sys x).1 := by
        cases x with
        | app y =>
          cases y with
          | receive i d =>
            simp only [enter, now_own, receive_silent]
            exact ⟨rfl, rfl⟩
          | _ =>
            simp only [enter, now_own]
            exact ⟨rfl, rfl⟩
        | _ =>
          simp only [enter, now_own]
          exact ⟨rfl, rfl⟩
      exact ⟨rfl, key.1, fun _ => hl, key.2⟩
    next => exact nomatch hg
  next hn =>
    split at hg
    · exact nomatch hg
    · simp only [Option.some.injEq, Prod.mk.injEq] at hg
      obtain ⟨rfl, rfl⟩ := hg
      rw [now_own]
      exact ⟨rfl, rfl, fun h => absurd h hn, rfl⟩

theorem goOn_other {e : Endian} {m : Mode} {db : Db} {s s' : Overlap F} {p q : PDJ.Party}
    {outs : List SysOut} (hg : goOn e m db s q = some (outs, s')) (hp : p ≠ q) : s'.doing p = s.doing p := by
  unfold goOn at hg
  cases hd : s.doing q with
  | idle => simp only [hd] at hg; exact nomatch hg
  | taken x =>
    simp only [hd] at hg
    split at hg
    · split at hg
      · simp only [Option.some.injEq, Prod.mk.injEq] at hg
        obtain ⟨_, rfl⟩ := hg
        exact (enter_lock e m db s q x).2.2 p hp
      · exact nomatch hg
    · split at hg
      · exact nomatch hg
      · simp only [Option.some.injEq, Prod.mk.injEq] at hg
        obtain ⟨_, rfl⟩ := hg
        exact now_other _ hp _
  | updating ws =>
    cases ws <;> simp only [hd, Option.some.injEq, Prod.mk.injEq] at hg <;> obtain ⟨_, rfl⟩ := hg <;>
      exact now_other _ hp _
  | linking x os =>
    cases os <;> simp only [hd, Option.some.injEq, Prod.mk.injEq] at hg <;> obtain ⟨_, rfl⟩ := hg <;>
      exact now_other _ hp _
  | holding os =>
    cases os <;> simp only [hd, Option.some.injEq, Prod.mk.injEq] at hg <;> obtain ⟨_, rfl⟩ := hg <;>
      exact now_other _ hp _
  | reading os =>
    simp only [hd, Option.some.injEq, Prod.mk.injEq] at hg
    obtain ⟨_, rfl⟩ := hg
    exact now_other _ hp _
  | sending os =>
    cases os <;> simp only [hd, Option.some.injEq, Prod.mk.injEq] at hg <;> obtain ⟨_, rfl⟩ := hg <;>
      exact now_other _ hp _

theorem overlapStep_cases {e : Endian} {m : Mode} {db : Db} {s s' : Overlap F} {a : OverlapAction F}
    {o : List (PDJ.Party × SysOut)} (h : overlapStep e m db s a = some (o, s')) :
    (∃ x, a = .take x ∧ s.doing x.party = .idle ∧ o = [] ∧ s' = s.now x.party (.taken x)) ∨
    ∃ q outs, a = .go q ∧ goOn e m db s q = some (outs, s') ∧ o = outs.map fun y => (q, y) := by
  cases a with
  | take x =>
    simp only [overlapStep] at h
    split at h
    · cases hd : s.doing x.party <;> simp only [hd] at h <;> try (cases h; done)
      simp only [Option.some.injEq, Prod.mk.injEq] at h
      exact Or.inl ⟨x, rfl, hd, h.1.symm, h.2.symm⟩
    · exact nomatch h
  | go p =>
    simp only [overlapStep] at h
    split at h
    · cases hr : goOn e m db s p with
      | none => rw [hr] at h; exact nomatch h
      | some r =>
        rw [hr] at h
        simp only [Option.map_some, Option.some.injEq, Prod.mk.injEq] at h
        obtain ⟨h1, rfl⟩ := h
        exact Or.inr ⟨p, r.1, rfl, hr, h1.symm⟩
    · exact nomatch h

theorem sentOf_map (p q : PDJ.Party) (l : List SysOut) : sentOf p (l.map fun y => (q, y)) = if q = p then l else [] := by
  induction l with
  | nil => simp [sentOf]
  | cons y l ih =>
    simp only [sentOf, List.map_cons, List.filterMap_cons] at ih ⊢
    split at ih
    next h => simp only [h, if_true] at ih ⊢; rw [ih]
    next h => simp only [h, if_false] at ih ⊢; exact ih

/-- After its effect, a step sends what it has to send. -/
theorem rest_sent {e : Endian} {m : Mode} {db : Db} {p : PDJ.Party} (h : List (OverlapAction F)) :
    ∀ {s s' : Overlap F} {o : List (PDJ.Party × SysOut)}, overlapRun e m db s h = some (o, s') →
    stepsOf p (begunSteps h) = [] → (s.doing p).waits = false →
    sentOf p o ++ (s'.doing p).rest = (s.doing p).rest ∧ (s'.doing p).waits = false := by
  induction h with
  | nil =>
    intro s s' o hr _ hw
    simp only [overlapRun, Option.some.injEq, Prod.mk.injEq] at hr
    obtain ⟨rfl, rfl⟩ := hr
    exact ⟨rfl, hw⟩
  | cons a h ih =>
    intro s s' o hr hb hw
    simp only [overlapRun] at hr
    split at hr
    · exact nomatch hr
    next o1 s1 h1 =>
      split at hr
      · exact nomatch hr
      next o2 s2 h2 =>
        simp only [Option.some.injEq, Prod.mk.injEq] at hr
        obtain ⟨rfl, rfl⟩ := hr
        rw [show a :: h = [a] ++ h from rfl, begunSteps_append, stepsOf_append] at hb
        obtain ⟨hb1, hb2⟩ := List.append_eq_nil_iff.1 hb
        rw [sentOf_append, List.append_assoc]
        rcases overlapStep_cases h1 with ⟨x, rfl, _, rfl, rfl⟩ | ⟨q, outs, rfl, hg, rfl⟩
        · have hx : p ≠ x.party := by
            intro hp
            simp [begunSteps, stepsOf, (isOf_party p x).2 hp.symm] at hb1
          have := ih h2 hb2 (by rw [now_other _ hx]; exact hw)
          rw [now_other _ hx] at this
          exact this
        · rw [sentOf_map]
          by_cases hq : q = p
          · subst hq
            obtain ⟨h3, h4⟩ := rest_go hg hw
            obtain ⟨h5, h6⟩ := ih h2 hb2 h4
            rw [if_pos rfl, h5]
            exact ⟨h3, h6⟩
          · rw [if_neg hq]
            have hd := goOn_other hg (Ne.symm hq)
            have := ih h2 hb2 (by rw [hd]; exact hw)
            rw [hd] at this
            exact this

/-- Who goes on without the lock while somebody has it changes nothing of the state. -/
theorem Watched.go_other {e : Endian} {m : Mode} {db : Db} {s s' : Overlap F} (h : Watched s) {p q : PDJ.Party}
    {outs : List SysOut} (hg : goOn e m db s q = some (outs, s')) (hl : s.lock = some p) (hq : q ≠ p) :
    s'.lock = some p ∧ s'.sys.app.state = s.sys.app.state ∧ s'.sys.app.poisoned = s.sys.app.poisoned := by
  have hn : (s.doing q).locked = false := by
    cases hh : (s.doing q).locked with
    | false => rfl
    | true =>
      have := h.lock q hh
      rw [hl] at this
      exact absurd (Option.some.inj this).symm hq
  unfold goOn at hg
  cases hd : s.doing q with
  | idle => simp only [hd] at hg; exact nomatch hg
  | taken x =>
    simp only [hd] at hg
    split at hg
    · split at hg
      next hf => rw [hl] at hf; exact nomatch hf
      · exact nomatch hg
    next hx =>
      split at hg
      · exact nomatch hg
      · simp only [Option.some.injEq, Prod.mk.injEq] at hg
        obtain ⟨_, rfl⟩ := hg
        exact ⟨hl, unlocked_keeps_state e m db s.sys x (by
          cases hh : needsLock s.sys x with
          | false => rfl
          | true => exact absurd hh hx)⟩
  | sending os =>
    cases os <;> simp only [hd, Option.some.injEq, Prod.mk.injEq] at hg <;> obtain ⟨_, rfl⟩ := hg <;>
      exact ⟨hl, rfl, rfl⟩
  | _ => rw [hd] at hn; exact nomatch hn

theorem listener_kept (e : Endian) (m : Mode) (db : Db) (s : System F) (x : SysAction F) (p : UInt16)
    (hx : x.party ≠ .port p) (t : RpcTask F) (h : listener p s.services.rpc.tasks = some t) :
    listener p (sysStep e m db s x).2.services.rpc.tasks = some t := by
  unfold sysStep
  split
  · cases x with
    | portmap os bound recv =>
      show listener p (portmapStep os bound recv s.services.rpc).2.tasks = some t
      rcases portmap_tasks os bound recv s.services.rpc with h1 | ⟨q, u, _, h1⟩
      · rw [h1]; exact h
      · rw [h1, listener_append, h]; rfl
    | port q ev =>
      have hq : q ≠ p := fun hq => hx (by rw [hq]; rfl)
      show listener p (deliver e (knownNetwork s.app) q ev s.services.rpc.tasks).2 = some t
      rw [← listener_filter, deliver_filter_other e _ q p hq ev s.services.rpc.tasks, listener_filter]
      exact h
    | accept c => dsimp only; split <;> exact h
    | main c b => dsimp only; split <;> exact h
    | _ => exact h
  · exact h

theorem enter_services (e : Endian) (m : Mode) (db : Db) (s : Overlap F) (q : PDJ.Party) (x : SysAction F) :
    (enter e m db s q x).sys.services = s.sys.services ∨
      (enter e m db s q x).sys.services = (sysStep e m db s.sys x).2.services := by
  cases x with
  | app y => cases y <;> first | exact Or.inr rfl | exact Or.inl rfl
  | _ => exact Or.inr rfl

/-- The others do not change who listens at a port somebody listens at. -/
theorem Watched.listens {e : Endian} {m : Mode} {db : Db} {s s' : Overlap F} (h : Watched s) {q : PDJ.Party} {p : UInt16}
    {outs : List SysOut} (hg : goOn e m db s q = some (outs, s')) (hq : q ≠ .port p) (t : RpcTask F)
    (hl : listener p s.sys.services.rpc.tasks = some t) : listener p s'.sys.services.rpc.tasks = some t := by
  have kept : ∀ x, (s.doing q).event = some x →
      listener p (sysStep e m db s.sys x).2.services.rpc.tasks = some t := fun x hx =>
    listener_kept e m db s.sys x p (by rw [h.own q x hx]; exact hq) t hl
  unfold goOn at hg
  cases hd : s.doing q with
  | idle => simp only [hd] at hg; exact nomatch hg
  | taken x =>
    simp only [hd] at hg
    have hk := kept x (by rw [hd]; rfl)
    split at hg
    · split at hg
      · simp only [Option.some.injEq, Prod.mk.injEq] at hg
        obtain ⟨_, rfl⟩ := hg
        rcases enter_services e m db s q x with h1 | h1 <;> rw [h1] <;> assumption
      · exact nomatch hg
    · split at hg
      · exact nomatch hg
      · simp only [Option.some.injEq, Prod.mk.injEq] at hg
        obtain ⟨_, rfl⟩ := hg
        exact hk
  | updating ws =>
    cases ws with
    | nil =>
      simp only [hd, Option.some.injEq, Prod.mk.injEq] at hg
      obtain ⟨_, rfl⟩ := hg
      exact hl
    | cons w ws =>
      simp only [hd, Option.some.injEq, Prod.mk.injEq] at hg
      obtain ⟨_, rfl⟩ := hg
      cases w <;> exact hl
  | linking x os =>
    have hk := kept x (by rw [hd]; rfl)
    cases os <;> simp only [hd, Option.some.injEq, Prod.mk.injEq] at hg <;> obtain ⟨_, rfl⟩ := hg
    · exact hk
    · exact hl
  | holding os =>
    cases os <;> simp only [hd, Option.some.injEq, Prod.mk.injEq] at hg <;> obtain ⟨_, rfl⟩ := hg <;> exact hl
  | reading os =>
    simp only [hd, Option.some.injEq, Prod.mk.injEq] at hg
    obtain ⟨_, rfl⟩ := hg
    exact hl
  | sending os =>
    cases os <;> simp only [hd, Option.some.injEq, Prod.mk.injEq] at hg <;> obtain ⟨_, rfl⟩ := hg <;> exact hl

end PDJ

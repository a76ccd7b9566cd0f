import Verif.Spec.Workers
import Verif.Props.Calls
import Verif.Props.Amid
import Verif.Lemmas.RpcServer

/-!
# Workers and the lock: lemmas
-/

namespace PDJ

open Spec

variable {F : Type}

/-- The events of a handler that wait. -/
def waitingFor (p : UInt16) (l : List (UInt16 × NfsEvent F)) : List (NfsEvent F) :=
  l.filterMap fun y => if y.1 = p then some y.2 else none

theorem waitingFor_append (p : UInt16) (l k : List (UInt16 × NfsEvent F)) :
    waitingFor p (l ++ k) = waitingFor p l ++ waitingFor p k := by
  simp [waitingFor]

theorem waitingFor_cons (p : UInt16) (y : UInt16 × NfsEvent F) (l : List (UInt16 × NfsEvent F)) :
    waitingFor p (y :: l) = (if y.1 = p then [y.2] else []) ++ waitingFor p l := by
  unfold waitingFor
  by_cases h : y.1 = p <;> simp [h]

theorem waitingFor_none {p : UInt16} {l : List (UInt16 × NfsEvent F)} (h : ∀ y ∈ l, y.1 ≠ p) :
    waitingFor p l = [] := by
  induction l with
  | nil => rfl
  | cons y l ih =>
    rw [waitingFor_cons, if_neg (h y (by simp)), ih fun z hz => h z (by simp [hz])]
    rfl

theorem portPart_one (p : UInt16) (q : UInt16) (ev : NfsEvent F) :
    portPart p [SysAction.port q ev] = if q = p then [ev] else [] := by
  simp [portPart]

theorem portPart_other (p : UInt16) (x : SysAction F) (h : atPort x = false) : portPart p [x] = [] := by
  cases x <;> first | rfl | exact nomatch h

theorem portPart_cons' (p : UInt16) (x : SysAction F) (xs : List (SysAction F)) :
    portPart p (x :: xs) = portPart p [x] ++ portPart p xs := by
  cases x with
  | port q ev =>
    by_cases h : q = p <;> simp [portPart, h]
  | _ => simp [portPart]

theorem portPart_append' (p : UInt16) (xs ys : List (SysAction F)) :
    portPart p (xs ++ ys) = portPart p xs ++ portPart p ys := by
  induction xs with
  | nil => rfl
  | cons x xs ih => rw [List.cons_append, portPart_cons', portPart_cons' p x xs, ih, List.append_assoc]

theorem sysRun_one (e : Endian) (m : Mode) (db : Db) (s : System F) (x : SysAction F) :
    sysRun e m db s [x] = sysStep e m db s x := by
  simp [sysRun]

theorem takenUp_cons (x : PoolAction F) (h : List (PoolAction F)) :
    takenUp (x :: h) = takenUp [x] ++ takenUp h := by
  cases x <;> rfl

/-- What the lock is asked for. -/
theorem locksState_some {s : System F} {x : SysAction F} {y : UInt16 × NfsEvent F}
    (h : locksState s x = some y) : x = .port y.1 y.2 ∧ AsksForExports y.2 := by
  unfold locksState at h
  split at h
  · split at h
    · split at h
      · exact nomatch h
      · rename_i d peer hr
        split at h
        · rename_i q hq
          split at h
          · rename_i hp
            injection h with h
            subst h
            refine ⟨rfl, d, peer, q.xid, hr, (C81_call_iff _ _ _).2 ⟨q, hq, rfl, ?_⟩⟩
            obtain ⟨p, -, h3⟩ := request_isCall hq
            rw [hp] at h3 ⊢
            have := h3.to_export
            subst this
            exact h3
          · exact nomatch h
        · exact nomatch h
    · exact nomatch h
  · exact nomatch h

theorem locksState_listener {s : System F} {p : UInt16} {ev : NfsEvent F} {b : Bool}
    (hl : listener p s.services.rpc.tasks = some (.program b)) (ha : AsksForExports ev) :
    locksState s (.port p ev) = some (p, ev) := by
  obtain ⟨d, peer, xid, hr, hc⟩ := ha
  obtain ⟨q, hq, _, hm⟩ := (C81_call_iff _ _ _).1 hc
  have hf : ∀ ts : List (UInt16 × RpcTask F), listener p ts = some (.program b) →
      ∃ z, ts.find? (fun t => t.1 = p && t.2.live) = some (z, .program b) := by
    intro ts
    induction ts with
    | nil => intro h; exact nomatch h
    | cons t ts ih =>
      intro h
      unfold listener at h
      split at h
      · rename_i hc
        injection h with h
        refine ⟨t.1, ?_⟩
        rw [List.find?_cons_of_pos (by simp [hc]), ← h]
      · rename_i hc
        obtain ⟨z, hz⟩ := ih h
        refine ⟨z, ?_⟩
        rw [List.find?_cons_of_neg (by simpa using hc), hz]
  obtain ⟨z, hz⟩ := hf _ hl
  unfold locksState
  simp only [hz, hr, hq, hm.of_export]

/-- What one action of the pool amounts to. -/
theorem poolStep_sys {e : Endian} {m : Mode} {db : Db} {n : Nat} {s s' : Pool F} {x : PoolAction F}
    {o : List SysOut} (h : poolStep e m db n s x = some (o, s'))
    (hd : ∀ p, (waitingFor p s.stuck).length ≤ 1) :
    (∀ p, (waitingFor p s'.stuck).length ≤ 1) ∧
    ∃ xs, sysRun e m db s.sys xs = (o, s'.sys) ∧ notAtPorts xs = notAtPorts (takenUp [x]) ∧
      ∀ p, waitingFor p s.stuck ++ portPart p (takenUp [x]) = portPart p xs ++ waitingFor p s'.stuck := by
  cases x with
  | take x =>
    simp only [poolStep] at h
    split at h
    · rename_i hc
      simp only [Bool.and_eq_true] at hc
      have hfree : ∀ p ev, x = .port p ev → waitingFor p s.stuck = [] := by
        intro p ev hx
        subst hx
        have := hc.2
        simp only [notWaiting, List.all_eq_true, bne_iff_ne, ne_eq] at this
        exact waitingFor_none this
      split at h
      · rename_i y _ hl
        injection h with h
        injection h with ho hs
        subst ho hs
        obtain ⟨rfl, -⟩ := locksState_some hl
        have hf := hfree _ _ rfl
        refine ⟨?_, [], rfl, rfl, ?_⟩
        · intro p
          rw [waitingFor_append, waitingFor_cons]
          by_cases hp : y.1 = p
          · subst hp
            rw [hf]
            simp [waitingFor]
          · simpa [hp, waitingFor] using hd p
        · intro p
          rw [waitingFor_append, waitingFor_cons]
          simp [takenUp, portPart, waitingFor]
      · injection h with h
        injection h with ho hs
        subst ho hs
        refine ⟨hd, [x], sysRun_one .., rfl, ?_⟩
        intro p
        simp only [takenUp]
        cases x with
        | port q ev =>
          rw [portPart_one]
          by_cases hq : q = p
          · subst hq
            simp [hfree _ _ rfl]
          · simp [hq]
        | _ => simp [portPart]
    · exact nomatch h
  | resume i =>
    simp only [poolStep] at h
    split at h
    · split at h
      · rename_i y hy
        injection h with h
        injection h with ho hs
        subst ho hs
        obtain ⟨hi, hy⟩ := List.getElem?_eq_some_iff.1 hy
        have he : s.stuck = s.stuck.take i ++ y :: s.stuck.drop (i + 1) := by
          rw [← hy, List.getElem_cons_drop, List.take_append_drop]
        have hr : s.stuck.eraseIdx i = s.stuck.take i ++ s.stuck.drop (i + 1) :=
          List.eraseIdx_eq_take_drop_succ ..
        generalize s.stuck.take i = a at he hr
        generalize s.stuck.drop (i + 1) = b at he hr
        simp only [hr]
        rw [he] at hd ⊢
        refine ⟨?_, [.port y.1 y.2], sysRun_one .., rfl, ?_⟩
        · intro p
          have := hd p
          rw [waitingFor_append, waitingFor_cons] at this
          rw [waitingFor_append]
          simp only [List.length_append] at this ⊢
          omega
        · intro p
          have := hd p
          rw [portPart_one]
          simp only [waitingFor_append, waitingFor_cons, takenUp, portPart, List.append_nil] at this ⊢
          by_cases hp : y.1 = p
          · simp only [hp, if_true, List.length_append, List.length_cons, List.length_nil] at this ⊢
            have ha : waitingFor p a = [] := List.length_eq_zero_iff.1 (by omega)
            rw [ha]
            simp
          · simp [hp]
      · exact nomatch h
    · exact nomatch h
  | lock =>
    simp only [poolStep] at h
    split at h
    · injection h with h
      injection h with ho hs
      subst ho hs
      exact ⟨hd, [], rfl, rfl, fun p => by simp [takenUp, portPart]⟩
    · exact nomatch h
  | unlock oks =>
    simp only [poolStep] at h
    split at h
    · injection h with h
      injection h with ho hs
      subst ho hs
      exact ⟨hd, [.app (.appLink oks)], sysRun_one .., rfl, fun p => by simp [takenUp, portPart]⟩
    · exact nomatch h
  | thread x =>
    simp only [poolStep] at h
    split at h
    · exact nomatch h
    · split at h
      · rename_i hc
        injection h with h
        injection h with ho hs
        subst ho hs
        refine ⟨hd, [x], sysRun_one .., rfl, fun p => ?_⟩
        have : atPort x = false := by
          cases x <;> first | rfl | (simp [SysAction.ofTask] at hc)
        simp only [takenUp, portPart_other p x this, List.append_nil, List.nil_append]
      · exact nomatch h

theorem poolRun_cons {e : Endian} {m : Mode} {db : Db} {n : Nat} {s s' : Pool F} {x : PoolAction F}
    {h : List (PoolAction F)} {o : List SysOut} :
    poolRun e m db n s (x :: h) = some (o, s') ↔ ∃ o₁ s₁ o₂, poolStep e m db n s x = some (o₁, s₁) ∧
      poolRun e m db n s₁ h = some (o₂, s') ∧ o = o₁ ++ o₂ := by
  simp only [poolRun]
  constructor
  · intro hr
    split at hr
    · exact nomatch hr
    · rename_i o₁ s₁ h1
      split at hr
      · exact nomatch hr
      · rename_i o₂ s₂ h2
        injection hr with hr
        injection hr with hr1 hr2
        subst hr1 hr2
        exact ⟨o₁, s₁, o₂, h1, h2, rfl⟩
  · rintro ⟨o₁, s₁, o₂, h1, h2, rfl⟩
    rw [h1]
    simp only [h2]

theorem poolRun_append {e : Endian} {m : Mode} {db : Db} {n : Nat} {s s₁ s' : Pool F}
    {h k : List (PoolAction F)} {o₁ o₂ : List SysOut} (h1 : poolRun e m db n s h = some (o₁, s₁))
    (h2 : poolRun e m db n s₁ k = some (o₂, s')) : poolRun e m db n s (h ++ k) = some (o₁ ++ o₂, s') := by
  induction h generalizing s o₁ with
  | nil =>
    simp only [poolRun] at h1
    injection h1 with h1
    injection h1 with ha hb
    subst ha hb
    exact h2
  | cons x h ih =>
    obtain ⟨a, t, b, ha, hb, rfl⟩ := poolRun_cons.1 h1
    rw [List.cons_append, poolRun_cons]
    exact ⟨a, t, b ++ o₂, ha, ih hb, by rw [List.append_assoc]⟩

end PDJ

import Verif.Spec.Stall
import Verif.Lemmas.Log
import Verif.Lemmas.Workers

/-!
# Lemmas about waiting for the log
-/

namespace PDJ

open Spec

variable {F : Type}

theorem isOf_party (p : Party) (x : SysAction F) : isOf p x = true ↔ x.party = p := by
  cases x with
  | app a => cases a <;> cases p <;> simp [isOf, SysAction.party]
  | port q ev => cases p <;> (simp [isOf, SysAction.party]; try exact eq_comm)
  | main c b => cases p <;> (simp [isOf, SysAction.party]; try exact eq_comm)
  | hangup c => cases p <;> (simp [isOf, SysAction.party]; try exact eq_comm)
  | handler h ev => cases p <;> (simp [isOf, SysAction.party]; try exact eq_comm)
  | _ => cases p <;> simp [isOf, SysAction.party]

theorem stepsOf_append (p : Party) (xs ys : List (SysAction F)) :
    stepsOf p (xs ++ ys) = stepsOf p xs ++ stepsOf p ys := List.filter_append ..

theorem stepsOf_nil_of (p : Party) (xs : List (SysAction F)) (h : ∀ x ∈ xs, x.party ≠ p) : stepsOf p xs = [] := by
  unfold stepsOf
  rw [List.filter_eq_nil_iff]
  exact fun x hx hi => h x hx ((isOf_party p x).1 hi)

theorem takenSteps_cons (a : StallAction F) (h : List (StallAction F)) :
    takenSteps (a :: h) = takenSteps [a] ++ takenSteps h := by cases a <;> rfl

theorem stallRun_cons {e : Endian} {m : Mode} {db : Db} {n : Nat} {s s' : Stall F} {a : StallAction F}
    {h : List (StallAction F)} {o : List SysOut} {l : List LogLine} :
    stallRun e m db n s (a :: h) = some (o, l, s') ↔ ∃ o₁ l₁ s₁ o₂ l₂, stallStep e m db n s a = some (o₁, l₁, s₁) ∧
      stallRun e m db n s₁ h = some (o₂, l₂, s') ∧ o = o₁ ++ o₂ ∧ l = l₁ ++ l₂ := by
  constructor
  · intro hr
    simp only [stallRun] at hr
    split at hr
    · exact nomatch hr
    · rename_i o₁ l₁ s₁ h1
      split at hr
      · exact nomatch hr
      · rename_i o₂ l₂ s₂ h2
        injection hr with hr
        injection hr with ho hr
        injection hr with hl hs
        subst hs
        exact ⟨o₁, l₁, s₁, o₂, l₂, h1, h2, ho.symm, hl.symm⟩
  · rintro ⟨o₁, l₁, s₁, o₂, l₂, h1, h2, rfl, rfl⟩
    simp only [stallRun, h1, h2]

/-- What an action that is possible does. -/
inductive StallDoes (e : Endian) (m : Mode) (db : Db) (n : Nat) (s : Stall F) :
    StallAction F → List SysOut → List LogLine → Stall F → Prop
  | wait (x : SysAction F) (o : LogOs) (full : Option Nat) (p : Place) (hc : canTake n s x = true)
      (hp : stopAt e m db s.sys x o full s.held s.writing = some p) :
      StallDoes e m db n s (.take x o full) [] [] ⟨s.sys, s.waiting ++ [⟨x, o, p⟩]⟩
  | done (x : SysAction F) (o : LogOs) (full : Option Nat) (hc : canTake n s x = true)
      (hp : stopAt e m db s.sys x o full s.held s.writing = none) :
      StallDoes e m db n s (.take x o full) (sysLog e m db s.sys x (working o)).1
        (sysLog e m db s.sys x (working o)).2.1 ⟨(sysLog e m db s.sys x (working o)).2.2, s.waiting⟩
  | again (pre post : List (Wait F)) (w : Wait F) (full : Option Nat) (k : Nat) (hw : s.waiting = pre ++ w :: post)
      (hr : s.sys.app.running = true) (hl : (w.wantsLock && s.held) = false)
      (hk : w.again (lineCount e m db s.sys w.step w.os) full = some k) :
      StallDoes e m db n s (.resume pre.length full) [] [] ⟨s.sys, pre ++ ⟨w.step, w.os, .log k⟩ :: post⟩
  | finish (pre post : List (Wait F)) (w : Wait F) (full : Option Nat) (hw : s.waiting = pre ++ w :: post)
      (hr : s.sys.app.running = true) (hl : (w.wantsLock && s.held) = false)
      (hk : w.again (lineCount e m db s.sys w.step w.os) full = none) :
      StallDoes e m db n s (.resume pre.length full) (sysLog e m db s.sys w.step (working w.os)).1
        (sysLog e m db s.sys w.step (working w.os)).2.1
        ⟨(sysLog e m db s.sys w.step (working w.os)).2.2, pre ++ post⟩

theorem split_at {α : Type _} (l : List α) (i : Nat) (w : α) (h : l[i]? = some w) :
    ∃ pre post, l = pre ++ w :: post ∧ pre.length = i := by
  induction l generalizing i with
  | nil => simp at h
  | cons a l ih =>
    cases i with
    | zero =>
      simp only [List.getElem?_cons_zero, Option.some.injEq] at h
      exact ⟨[], l, by rw [h]; rfl, rfl⟩
    | succ i =>
      simp only [List.getElem?_cons_succ] at h
      obtain ⟨pre, post, h1, h2⟩ := ih i h
      exact ⟨a :: pre, post, by rw [h1]; rfl, by simp [h2]⟩

theorem stallStep_iff {e : Endian} {m : Mode} {db : Db} {n : Nat} {s s' : Stall F} {a : StallAction F}
    {o : List SysOut} {l : List LogLine} :
    stallStep e m db n s a = some (o, l, s') ↔ StallDoes e m db n s a o l s' := by
  constructor
  · intro h
    cases a with
    | take x ox full =>
      simp only [stallStep] at h
      split at h
      · rename_i hc
        split at h
        · rename_i p hp
          simp only [Option.some.injEq, Prod.mk.injEq] at h
          obtain ⟨rfl, rfl, rfl⟩ := h
          exact .wait x ox full p hc hp
        · rename_i hp
          simp only [Option.some.injEq, Prod.mk.injEq] at h
          obtain ⟨rfl, rfl, rfl⟩ := h
          exact .done x ox full hc hp
      · exact nomatch h
    | resume i full =>
      simp only [stallStep] at h
      split at h
      · exact nomatch h
      · rename_i w hw
        obtain ⟨pre, post, h1, rfl⟩ := split_at _ _ _ hw
        split at h
        · rename_i hc
          simp only [Bool.and_eq_true, Bool.not_eq_true'] at hc
          split at h
          · rename_i k hk
            simp only [Option.some.injEq, Prod.mk.injEq] at h
            obtain ⟨rfl, rfl, rfl⟩ := h
            have : s.waiting.set pre.length ⟨w.step, w.os, .log k⟩ = pre ++ ⟨w.step, w.os, .log k⟩ :: post := by
              rw [h1]; simp
            rw [this]
            exact .again pre post w full k h1 hc.1 hc.2 hk
          · rename_i hk
            simp only [Option.some.injEq, Prod.mk.injEq] at h
            obtain ⟨rfl, rfl, rfl⟩ := h
            have : s.waiting.eraseIdx pre.length = pre ++ post := by
              rw [h1]; simp [List.eraseIdx_append_of_length_le]
            rw [this]
            exact .finish pre post w full h1 hc.1 hc.2 hk
        · exact nomatch h
  · intro h
    cases h with
    | wait x ox full p hc hp => simp only [stallStep, hc, hp, if_true]
    | done x ox full hc hp => simp only [stallStep, hc, hp, if_true]; rfl
    | again pre post w full k hw hr hl hk =>
      have : s.waiting[pre.length]? = some w := by rw [hw]; simp
      simp only [stallStep, this, hr, hl, hk]
      simp [hw]
    | finish pre post w full hw hr hl hk =>
      have : s.waiting[pre.length]? = some w := by rw [hw]; simp
      simp only [stallStep, this, hr, hl, hk]
      simp [hw, List.eraseIdx_append_of_length_le, working]

/-- The parties of what waits. -/
def waitParties (ws : List (Wait F)) : List Party := ws.map fun w => w.step.party

theorem stallDoes_order {e : Endian} {m : Mode} {db : Db} {n : Nat} {s s' : Stall F} {a : StallAction F}
    {o : List SysOut} {l : List LogLine} (h : StallDoes e m db n s a o l s') (hn : (waitParties s.waiting).Nodup) :
    (waitParties s'.waiting).Nodup ∧ ∃ xs : List (SysAction F × LogOs), AllWritten xs ∧
      sysLogRun e m db s.sys xs = (o, l, s'.sys) ∧
      ∀ p, stepsOf p (xs.map Prod.fst) ++ stepsOf p (s'.waiting.map Wait.step) =
        stepsOf p (s.waiting.map Wait.step) ++ stepsOf p (takenSteps [a]) := by
  have free : ∀ x, canTake n s x = true → ∀ w ∈ s.waiting, w.step.party ≠ x.party := by
    intro x hc w hw
    simp only [canTake, Bool.and_eq_true, List.all_eq_true] at hc
    exact of_decide_eq_true (hc.2 w hw)
  cases h with
  | wait x ox full p hc hp =>
    refine ⟨?_, [], fun y hy => (nomatch hy), rfl, ?_⟩
    · simp only [waitParties, List.map_append, List.map_cons, List.map_nil] at hn ⊢
      rw [List.nodup_append]
      refine ⟨hn, by simp, ?_⟩
      intro b hb c hc'
      simp only [List.mem_map] at hb
      obtain ⟨w, hw, rfl⟩ := hb
      simp only [List.mem_singleton] at hc'
      rw [hc']
      exact free x hc w hw
    · intro q
      simp [takenSteps, stepsOf]
  | done x ox full hc hp =>
    refine ⟨hn, [(x, working ox)], ?_, ?_, ?_⟩
    · intro y hy k
      simp only [List.mem_singleton] at hy
      rw [hy]; rfl
    · simp [sysLogRun]
    · intro q
      by_cases hq : x.party = q
      · have : stepsOf q (s.waiting.map Wait.step) = [] := by
          apply stepsOf_nil_of
          intro y hy
          simp only [List.mem_map] at hy
          obtain ⟨w, hw, rfl⟩ := hy
          rw [← hq]
          exact free x hc w hw
        simp [takenSteps, this]
      · have : stepsOf q [x] = [] := stepsOf_nil_of q [x] (by simpa using hq)
        simp [takenSteps, this]
  | again pre post w full k hw hr hl hk =>
    refine ⟨?_, [], fun y hy => (nomatch hy), rfl, ?_⟩
    · rw [hw] at hn
      simpa [waitParties] using hn
    · intro q
      rw [hw]
      simp [takenSteps, stepsOf]
  | finish pre post w full hw hr hl hk =>
    rw [hw] at hn ⊢
    simp only [waitParties, List.map_append, List.map_cons] at hn ⊢
    refine ⟨?_, [(w.step, working w.os)], ?_, ?_, ?_⟩
    · rw [List.nodup_append] at hn ⊢
      refine ⟨hn.1, (List.nodup_cons.1 hn.2.1).2, fun a ha b hb => hn.2.2 a ha b (List.mem_cons_of_mem _ hb)⟩
    · intro y hy k
      simp only [List.mem_singleton] at hy
      rw [hy]; rfl
    · simp [sysLogRun]
    · intro q
      by_cases hq : w.step.party = q
      · have : stepsOf q (pre.map Wait.step) = [] := by
          apply stepsOf_nil_of
          intro y hy
          simp only [List.mem_map] at hy
          obtain ⟨v, hv, rfl⟩ := hy
          rw [← hq]
          exact (List.nodup_append.1 hn).2.2 _ (List.mem_map.2 ⟨v, hv, rfl⟩) _ List.mem_cons_self
        have hc : Wait.step w :: post.map Wait.step = [Wait.step w] ++ post.map Wait.step := rfl
        simp only [takenSteps, List.map_cons, List.map_nil]
        rw [hc, stepsOf_append, stepsOf_append, stepsOf_append, this]
        simp [stepsOf]
      · have h1 : stepsOf q [w.step] = [] := stepsOf_nil_of q _ (by simpa using hq)
        have hc : Wait.step w :: post.map Wait.step = [Wait.step w] ++ post.map Wait.step := rfl
        simp only [takenSteps, List.map_cons, List.map_nil]
        rw [hc, stepsOf_append, stepsOf_append, stepsOf_append, h1]
        simp [stepsOf]

theorem sysLogRun_append (e : Endian) (m : Mode) (db : Db) (s : System F) (xs ys : List (SysAction F × LogOs)) :
    sysLogRun e m db s (xs ++ ys) =
      ((sysLogRun e m db s xs).1 ++ (sysLogRun e m db (sysLogRun e m db s xs).2.2 ys).1,
        (sysLogRun e m db s xs).2.1 ++ (sysLogRun e m db (sysLogRun e m db s xs).2.2 ys).2.1,
        (sysLogRun e m db (sysLogRun e m db s xs).2.2 ys).2.2) := by
  induction xs generalizing s with
  | nil => simp [sysLogRun]
  | cons x xs ih => simp [sysLogRun, ih]

theorem stallRun_order {e : Endian} {m : Mode} {db : Db} {n : Nat} {s s' : Stall F} {h : List (StallAction F)}
    {o : List SysOut} {l : List LogLine} (hr : stallRun e m db n s h = some (o, l, s'))
    (hn : (waitParties s.waiting).Nodup) :
    (waitParties s'.waiting).Nodup ∧ ∃ xs : List (SysAction F × LogOs), AllWritten xs ∧
      sysLogRun e m db s.sys xs = (o, l, s'.sys) ∧
      ∀ p, stepsOf p (xs.map Prod.fst) ++ stepsOf p (s'.waiting.map Wait.step) =
        stepsOf p (s.waiting.map Wait.step) ++ stepsOf p (takenSteps h) := by
  induction h generalizing s o l with
  | nil =>
    simp only [stallRun, Option.some.injEq, Prod.mk.injEq] at hr
    obtain ⟨rfl, rfl, rfl⟩ := hr
    exact ⟨hn, [], fun y hy => (nomatch hy), rfl, fun p => by simp [takenSteps, stepsOf]⟩
  | cons a h ih =>
    obtain ⟨o₁, l₁, s₁, o₂, l₂, h1, h2, rfl, rfl⟩ := stallRun_cons.1 hr
    obtain ⟨n1, xs, w1, r1, p1⟩ := stallDoes_order (stallStep_iff.1 h1) hn
    obtain ⟨n2, ys, w2, r2, p2⟩ := ih h2 n1
    refine ⟨n2, xs ++ ys, ?_, ?_, ?_⟩
    · intro x hx
      rcases List.mem_append.1 hx with hx | hx
      · exact w1 x hx
      · exact w2 x hx
    · rw [sysLogRun_append, r1, r2]
    · intro p
      rw [takenSteps_cons, List.map_append, stepsOf_append, stepsOf_append, List.append_assoc, p2 p, ← List.append_assoc,
        p1 p, List.append_assoc]

end PDJ

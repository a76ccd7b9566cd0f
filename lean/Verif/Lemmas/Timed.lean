import Verif.Spec.Timed
import Verif.Lemmas.AppStep

/-!
# Lemmas about histories in time
-/

namespace PDJ

open Spec

/-- Times at least `g` apart, the first not before `lo`. -/
def Spaced (g : Nat) : Nat → List Nat → Prop
  | _, [] => True
  | lo, t :: ts => lo ≤ t ∧ Spaced g (t + g) ts

theorem Spaced.mono {g lo lo' : Nat} {l : List Nat} (h : Spaced g lo l) (hl : lo' ≤ lo) :
    Spaced g lo' l := by
  cases l with
  | nil => trivial
  | cons t ts => exact ⟨Nat.le_trans hl h.1, h.2⟩

theorem Spaced.append {g m : Nat} {l₂ : List Nat} (h₂ : Spaced g m l₂) :
    ∀ (l₁ : List Nat) (lo : Nat), Spaced g lo l₁ → lo ≤ m → (∀ t ∈ l₁, t + g ≤ m) →
      Spaced g lo (l₁ ++ l₂)
  | [], _, _, hl, _ => h₂.mono hl
  | t :: ts, _, h, _, ha =>
    ⟨h.1, Spaced.append h₂ ts _ h.2 (ha t List.mem_cons_self)
      (fun u hu => ha u (List.mem_cons_of_mem _ hu))⟩

/-- Times that are `g` apart are rare in every window. -/
theorem Spaced.rare {g : Nat} (hg : 0 < g) (a T : Nat) : ∀ (l : List Nat) (lo : Nat),
    Spaced g lo l → (l.filter (Within a T)).length * g ≤ a + T - max lo a + (g - 1)
  | [], _, _ => by simp
  | t :: ts, lo, h => by
    have ih := Spaced.rare hg a T ts (t + g) h.2
    have h1 := h.1
    rw [List.filter_cons]
    by_cases hw : Within a T t = true
    · simp only [hw, if_true, List.length_cons, Nat.add_mul, Nat.one_mul]
      simp only [Within, Bool.and_eq_true, decide_eq_true_eq] at hw
      have hc : (ts.filter (Within a T)).length = 0 ∨ g ≤ (ts.filter (Within a T)).length * g := by
        cases (ts.filter (Within a T)).length with
        | zero => exact .inl rfl
        | succ n => right; rw [Nat.add_mul]; omega
      rcases hc with hc | hc
      · rw [hc]; omega
      · omega
    · have : Within a T t = false := by simpa using hw
      simp only [this, Bool.false_eq_true, if_false]
      omega

theorem Spaced.rare_div {g : Nat} (hg : 0 < g) (a T lo : Nat) (l : List Nat) (h : Spaced g lo l) :
    (l.filter (Within a T)).length ≤ (T + (g - 1)) / g := by
  rw [Nat.le_div_iff_mul_le hg]
  have := Spaced.rare hg a T l lo h
  omega

/-- The n-th of these times. -/
theorem Spaced.nth {g : Nat} : ∀ (l : List Nat) (lo n t : Nat), Spaced g lo l → l[n]? = some t →
    lo + g * n ≤ t
  | [], _, _, _, _, h => nomatch h
  | u :: us, lo, 0, t, hs, h => by
    cases h
    exact hs.1
  | u :: us, lo, n + 1, t, hs, h => by
    have := Spaced.nth us (u + g) n t hs.2 h
    have h1 := hs.1
    rw [Nat.mul_add, Nat.mul_one]
    omega

theorem sentAt_ge (n t : Nat) (late : List Nat) : t + 100 * n ≤ sentAt t late n := by
  induction n generalizing t late with
  | zero => exact Nat.le_refl _
  | succ n ih =>
    have := ih (t + 50 + 50 + late.headD 0) late.tail
    simp only [sentAt]
    omega

theorem negotiationEnd_ge (t : Nat) (late : List Nat) : t + 3950 ≤ negotiationEnd t late := by
  have := sentAt_ge 39 t late
  simp only [negotiationEnd]
  omega

theorem paced_spaced {α : Type} (l : List α) (t : Nat) (late : List Nat) :
    Spaced 100 t ((paced t late l).map Prod.fst) := by
  induction l generalizing t late with
  | nil => trivial
  | cons a as ih =>
    exact ⟨Nat.le_refl _, (ih (t + 50 + 50 + late.headD 0) late.tail).mono (by omega)⟩

theorem paced_le {α : Type} (l : List α) (n t : Nat) (late : List Nat) (hn : l.length ≤ n + 1) :
    ∀ u ∈ (paced t late l).map Prod.fst, u ≤ sentAt t late n := by
  induction l generalizing n t late with
  | nil => simp [paced]
  | cons a as ih =>
    intro u hu
    rcases List.mem_cons.1 hu with rfl | hu
    · have := sentAt_ge n u late
      omega
    · cases n with
      | zero =>
        have : as = [] := List.length_eq_zero_iff.1 (by simp only [List.length_cons] at hn; omega)
        subst this
        exact absurd hu List.not_mem_nil
      | succ n =>
        exact ih n _ _ (by simp only [List.length_cons] at hn; omega) u hu

theorem paced_values {α : Type} (l : List α) (t : Nat) (late : List Nat) :
    (paced t late l).map Prod.snd = l := by
  induction l generalizing t late with
  | nil => rfl
  | cons a as ih => simp [paced, ih]

theorem timedStep_possible {s : Clocked} {x : TimedAction} {r} (h : timedStep s x = some r) :
    possible s x = true := by
  unfold timedStep at h
  split at h
  · assumption
  · exact nomatch h

theorem timedStep_app {s : Clocked} {x : TimedAction} {r} (h : timedStep s x = some r) :
    r.2.app = (appStep s.app x.act).2 ∧ r.1.map (fun d => d.2.2) = (appStep s.app x.act).1 ∧
      r.2.now = x.time := by
  have hst := stepTo s.app x.act
  simp only [timedStep, timedStep_possible h, if_true, Option.some.injEq] at h
  subst h
  obtain ⟨t, a, late⟩ := x
  cases a with
  | receive i d =>
    refine ⟨rfl, ?_, rfl⟩
    simp only [appStep]
    split <;> rfl
  | broadcast ok => exact ⟨rfl, by rw [List.map_map]; exact List.map_id _, rfl⟩
  | appRecv =>
    refine ⟨?_, ?_, ?_⟩
    · dsimp only; split <;> rfl
    · simp only [appStep]
      split <;> rfl
    · dsimp only; split <;> rfl
  | appLink oks =>
    refine ⟨?_, ?_, ?_⟩
    · dsimp only; split <;> rfl
    · have := paced_values (appStep s.app (.appLink oks)).1 t late
      rw [List.map_map]
      exact this
    · dsimp only; split <;> rfl

theorem timedRun_cons {s : Clocked} {x : TimedAction} {xs : List TimedAction} {r}
    (h : timedRun s (x :: xs) = some r) : ∃ r₁ r₂, timedStep s x = some r₁ ∧
      timedRun r₁.2 xs = some r₂ ∧ r = (r₁.1 ++ r₂.1, r₂.2) := by
  simp only [timedRun] at h
  cases h₁ : timedStep s x with
  | none => rw [h₁] at h; exact nomatch h
  | some r₁ =>
    rw [h₁] at h
    cases h₂ : timedRun r₁.2 xs with
    | none => simp only [Option.bind, h₂] at h; exact nomatch h
    | some r₂ =>
      simp only [Option.bind, h₂, Option.some.injEq] at h
      exact ⟨r₁, r₂, rfl, h₂, h.symm⟩

theorem timedRun_append {s : Clocked} {xs ys : List TimedAction} {r}
    (h : timedRun s (xs ++ ys) = some r) : ∃ r₁ r₂, timedRun s xs = some r₁ ∧
      timedRun r₁.2 ys = some r₂ ∧ r = (r₁.1 ++ r₂.1, r₂.2) := by
  induction xs generalizing s r with
  | nil => exact ⟨([], s), r, rfl, h, rfl⟩
  | cons x xs ih =>
    obtain ⟨a, b, h1, h2, rfl⟩ := timedRun_cons h
    obtain ⟨c, d, h3, h4, h5⟩ := ih h2
    refine ⟨(a.1 ++ c.1, c.2), d, ?_, h4, ?_⟩
    · simp only [timedRun, h1, h3, Option.bind]
    · rw [h5, List.append_assoc]

theorem possible_iff (s : Clocked) (x : TimedAction) : possible s x = true ↔
    s.now ≤ x.time ∧ wakes s x.act ≤ x.time ∧ (usesLock x.act = true → s.lockFree ≤ x.time) := by
  simp only [possible, Bool.and_eq_true, Bool.or_eq_true, Bool.not_eq_true', decide_eq_true_eq]
  cases usesLock x.act <;> simp [and_assoc]

theorem accepted_usesLock {d : Bytes} {a : Announcement} (h : Accepted d a) (i : List Interface) :
    usesLock (.receive i d) = true := by
  obtain ⟨p, st, hr, hk, hc, ha⟩ := (C64_status_layout d a).2 h.1
  have hm : p.model ≠ rekordboxName := by
    have := h.2
    rw [ha] at this
    exact this
  simp only [usesLock, hr, acceptedStatus, hk, hc, hm, ne_eq, not_false_eq_true, if_true,
    Option.isSome_some]

theorem step_length {s s' : AppSystem} {x : AppAction} {o : List (Bytes × Ip4 × UInt16)}
    (h : StepTo s x o s') : o.length ≤ 40 := by
  cases h with
  | links => simp [negotiation_length]
  | linkFails => simp; omega
  | broadcast => simp
  | _ => simp

end PDJ

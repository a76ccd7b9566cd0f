import Verif.Spec.Linger
import Verif.Props.Pipes
import Verif.Props.Intruder

/-!
# Property C119: when the main thread fails, the process ends
-/

namespace PDJ

open Spec

variable {F : Type}

/-! ## Lemmas -/

theorem pipesStep_failed (e : Endian) (m : Mode) (db : Db) (n : Nat) (s : Pipes F)
    (h : s.pool.sys.app.running = false) (x : PipesAction F) : pipesStep e m db n s x = none := by
  cases x with
  | opened i => simp [pipesStep, h]
  | act pipe x =>
    cases x with
    | take y =>
      simp only [pipesStep, poolStep, h, Bool.false_and, Bool.false_eq_true, if_false, ite_self]
    | resume i => simp [pipesStep, poolStep, h]
    | lock => simp [pipesStep, poolStep, h]
    | unlock oks => simp [pipesStep, poolStep, h]
    | thread y =>
      cases y with
      | app y => cases y <;> simp [pipesStep, poolStep, h]
      | _ => simp [pipesStep, poolStep, h]

theorem lingerRun_cons {e : Endian} {m : Mode} {db : Db} {n : Nat} {s s' : Linger F} {x : LingerAction F}
    {h : List (LingerAction F)} {o : List SysOut} :
    lingerRun e m db n s (x :: h) = some (o, s') ↔ ∃ o₁ s₁ o₂, lingerStep e m db n s x = some (o₁, s₁) ∧
      lingerRun e m db n s₁ h = some (o₂, s') ∧ o = o₁ ++ o₂ := by
  simp only [lingerRun]
  constructor
  · intro hr
    split at hr
    · exact nomatch hr
    · rename_i o₁ s₁ h1
      split at hr
      · exact nomatch hr
      · rename_i o₂ s₂ h2
        injection hr with hr
        injection hr with hr1 hr2
        subst hr1 hr2
        exact ⟨o₁, s₁, o₂, h1, h2, rfl⟩
  · rintro ⟨o₁, s₁, o₂, h1, h2, rfl⟩
    rw [h1]
    simp only [h2]

theorem lingerRun_append {e : Endian} {m : Mode} {db : Db} {n : Nat} {s s₁ s' : Linger F}
    {h k : List (LingerAction F)} {o₁ o₂ : List SysOut} (h1 : lingerRun e m db n s h = some (o₁, s₁))
    (h2 : lingerRun e m db n s₁ k = some (o₂, s')) : lingerRun e m db n s (h ++ k) = some (o₁ ++ o₂, s') := by
  induction h generalizing s o₁ with
  | nil =>
    simp only [lingerRun] at h1
    injection h1 with h1
    injection h1 with ha hb
    subst ha hb
    exact h2
  | cons x h ih =>
    obtain ⟨a, t, b, ha, hb, rfl⟩ := lingerRun_cons.1 h1
    rw [List.cons_append, lingerRun_cons]
    exact ⟨a, t, b ++ o₂, ha, ih hb, by rw [List.append_assoc]⟩

theorem lingerStep_main {e : Endian} {m : Mode} {db : Db} {n : Nat} {s : Linger F} (hs : s.left = none)
    (x : LingerAction F) : lingerStep e m db n s x =
      (pipesStep e m db n s.pipes x.act).map fun r => (r.1, ⟨r.2, if r.2.pool.sys.app.running then none
        else some (leftBehind r.2.pool.sys.app, r.2.pool.sys.status)⟩) := by
  unfold lingerStep
  rw [hs]
  simp only
  cases pipesStep e m db n s.pipes x.act <;> rfl

theorem lingerStep_left {e : Endian} {m : Mode} {db : Db} {n : Nat} {s : Linger F} {t : AppSystem × Bool}
    (hs : s.left = some t) (ho : s.pipes.opening ≠ []) (pipe : Str → Bool) (b : Bool) (y : SysAction F) :
    lingerStep e m db n s ⟨.act pipe (.thread y), b⟩ =
      (leftStep t y).map fun r => (r.1, { s with left := some r.2 }) := by
  unfold lingerStep
  rw [hs]
  simp only
  rw [if_neg (by simpa using ho)]
  cases leftStep t y with
  | none => rfl
  | some r => rfl

/-- A step after the main thread has failed. -/
theorem lingerStep_after {e : Endian} {m : Mode} {db : Db} {n : Nat} {s s' : Linger F} {t : AppSystem × Bool}
    (hs : s.left = some t) {x : LingerAction F} {o : List SysOut} (h : lingerStep e m db n s x = some (o, s')) :
    s.pipes.opening ≠ [] ∧ s'.pipes.pool = s.pipes.pool ∧
      ((∃ pipe y t', x.act = .act pipe (.thread y) ∧ leftStep t y = some (o, t') ∧ s' = { s with left := some t' }) ∨
        ∃ i y, x.act = .opened i ∧ s.pipes.opening[i]? = some y ∧
          o = (if x.sent then
            (servicesStep e s.pipes.pool.sys.services (.port y.1 none y.2)).1.map .rpc else []) ∧
          s' = { s with pipes := { s.pipes with opening := s.pipes.opening.eraseIdx i } }) := by
  unfold lingerStep at h
  rw [hs] at h
  simp only at h
  split at h
  · exact nomatch h
  · rename_i ho
    refine ⟨by simpa using ho, ?_⟩
    split at h
    · rename_i pipe y hx
      split at h
      · exact nomatch h
      · rename_i o' t' hl
        injection h with h
        injection h with h' h
        subst h' h
        exact ⟨rfl, .inl ⟨pipe, y, t', hx, hl, rfl⟩⟩
    · exact nomatch h
    · rename_i i hx
      split at h
      · exact nomatch h
      · rename_i y hy
        injection h with h
        injection h with h' h
        subst h' h
        exact ⟨rfl, .inr ⟨i, y, hx, hy, rfl, by rw [← hs]⟩⟩

theorem left_step {e : Endian} {m : Mode} {db : Db} {n : Nat} {s s' : Linger F} (hs : ∃ t, s.left = some t)
    {x : LingerAction F} {o : List SysOut} (h : lingerStep e m db n s x = some (o, s')) :
    ∃ t, s'.left = some t := by
  obtain ⟨t, ht⟩ := hs
  obtain ⟨-, -, ⟨_, _, t', -, -, rfl⟩ | ⟨_, _, -, -, -, rfl⟩⟩ := lingerStep_after ht h
  · exact ⟨t', rfl⟩
  · exact ⟨t, ht⟩

theorem left_stays {e : Endian} {m : Mode} {db : Db} {n : Nat} {s s' : Linger F} {h : List (LingerAction F)}
    {o : List SysOut} (hs : ∃ t, s.left = some t) (hr : lingerRun e m db n s h = some (o, s')) :
    ∃ t, s'.left = some t := by
  induction h generalizing s o with
  | nil =>
    simp only [lingerRun] at hr
    injection hr with hr
    injection hr with _ hr
    exact hr ▸ hs
  | cons x h ih =>
    obtain ⟨o₁, s₁, o₂, h1, h2, -⟩ := lingerRun_cons.1 hr
    exact ih (left_step hs h1) h2

/-- What the state is like: threads are left exactly when the main thread has failed. -/
def LingerOk (s : Linger F) : Prop :=
  (s.left = none ∧ s.pipes.pool.sys.app.running = true) ∨
    ((∃ t, s.left = some t) ∧ s.pipes.pool.sys.app.running = false)

theorem lingerOk_step {e : Endian} {m : Mode} {db : Db} {n : Nat} {s s' : Linger F} {x : LingerAction F}
    {o : List SysOut} (hs : LingerOk s) (h : lingerStep e m db n s x = some (o, s')) : LingerOk s' := by
  rcases hs with ⟨h1, h2⟩ | ⟨⟨t, h1⟩, h2⟩
  · rw [lingerStep_main h1] at h
    cases hp : pipesStep e m db n s.pipes x.act with
    | none => rw [hp] at h; exact nomatch h
    | some r =>
      rw [hp] at h
      injection h with h
      injection h with _ h
      subst h
      cases hr : r.2.pool.sys.app.running with
      | true => exact .inl ⟨by simp, hr⟩
      | false => exact .inr ⟨⟨_, by simp; rfl⟩, hr⟩
  · obtain ⟨-, hp, -⟩ := lingerStep_after h1 h
    exact .inr ⟨left_step ⟨t, h1⟩ h, by rw [hp]; exact h2⟩

theorem lingerOk_run {e : Endian} {m : Mode} {db : Db} {n : Nat} {s s' : Linger F} {h : List (LingerAction F)}
    {o : List SysOut} (hs : LingerOk s) (hr : lingerRun e m db n s h = some (o, s')) : LingerOk s' := by
  induction h generalizing s o with
  | nil =>
    simp only [lingerRun] at hr
    injection hr with hr
    injection hr with _ hr
    exact hr ▸ hs
  | cons x h ih =>
    obtain ⟨o₁, s₁, o₂, h1, h2, -⟩ := lingerRun_cons.1 hr
    exact ih (lingerOk_step hs h1) h2

theorem lingerOk_start : LingerOk (.start : Linger F) := .inl ⟨rfl, rfl⟩

/-! ## As long as the main thread runs -/

/-- C119: as long as the main thread runs, the process is the one of C116: its histories are the same. -/
theorem C119_main_runs (e : Endian) (m : Mode) (db : Db) (workers : Nat) (s : Linger F) (hs : s.left = none)
    (hrun : ¬ MainFailed s) (h : List (LingerAction F)) (o : List SysOut) (p : Pipes F)
    (hp : p.pool.sys.app.running = true) :
    lingerRun e m db workers s h = some (o, ⟨p, none⟩) ↔
      pipesRun e m db workers s.pipes (h.map LingerAction.act) = some (o, p) := by
  induction h generalizing s o with
  | nil =>
    simp only [lingerRun, pipesRun, List.map_nil, Option.some.injEq, Prod.mk.injEq]
    constructor
    · rintro ⟨h1, rfl⟩
      exact ⟨h1, rfl⟩
    · rintro ⟨h1, rfl⟩
      refine ⟨h1, ?_⟩
      obtain ⟨a, b⟩ := s
      cases hs
      rfl
  | cons x h ih =>
    rw [List.map_cons, lingerRun_cons, pipesRun_cons]
    constructor
    · rintro ⟨o₁, s₁, o₂, h1, h2, rfl⟩
      rw [lingerStep_main hs] at h1
      cases hq : pipesStep e m db workers s.pipes x.act with
      | none => rw [hq] at h1; exact nomatch h1
      | some r =>
        rw [hq] at h1
        injection h1 with h1
        injection h1 with ho h1
        subst ho
        cases hr : r.2.pool.sys.app.running with
        | true =>
          rw [hr, if_pos rfl] at h1
          subst h1
          exact ⟨r.1, r.2, o₂, rfl, (ih ⟨r.2, none⟩ rfl (by simp [MainFailed, hr]) o₂).1 h2, rfl⟩
        | false =>
          rw [hr, if_neg (by decide)] at h1
          obtain ⟨t, ht⟩ := left_stays ⟨_, by rw [← h1]⟩ h2
          exact nomatch ht
    · rintro ⟨o₁, p₁, o₂, h1, h2, rfl⟩
      have hr : p₁.pool.sys.app.running = true := by
        cases hr : p₁.pool.sys.app.running with
        | true => rfl
        | false =>
          cases h with
          | nil =>
            simp only [List.map_nil, pipesRun, Option.some.injEq, Prod.mk.injEq] at h2
            rw [h2.2] at hr
            exact absurd (hr.symm.trans hp) (by decide)
          | cons y h =>
            rw [List.map_cons, pipesRun_cons] at h2
            obtain ⟨_, _, _, h3, -⟩ := h2
            rw [pipesStep_failed e m db workers p₁ hr] at h3
            exact nomatch h3
      refine ⟨o₁, ⟨p₁, none⟩, o₂, ?_, (ih ⟨p₁, none⟩ rfl (by simp [MainFailed, hr]) o₂).2 h2, rfl⟩
      rw [lingerStep_main hs, h1]
      simp [hr]

/-! ## When it has failed -/

/-- C119 (full claim: when the main thread fails, the process ends).  Missing: the claim is false (`C119_outlives`).
What holds: in every history exactly those processes are gone whose main thread has failed and in which no LOOKUP
call waits for a pipe. -/
theorem C119_gone_iff_partial (e : Endian) (m : Mode) (db : Db) (workers : Nat) (h : List (LingerAction F))
    (o : List SysOut) (s : Linger F) (hr : lingerRun e m db workers .start h = some (o, s)) :
    Gone e m db workers s ↔ MainFailed s ∧ s.pipes.opening = [] := by
  rcases lingerOk_run lingerOk_start hr with ⟨h1, h2⟩ | ⟨⟨t, h1⟩, h2⟩
  · constructor
    · intro hg
      have hs := hg ⟨.act (fun _ => false) (.thread (.status .ioError)), false⟩
      rw [lingerStep_main h1] at hs
      simp [pipesStep, poolStep, h2, SysAction.ofTask, threadLocks] at hs
    · rintro ⟨hf, -⟩
      exact absurd (h2.symm.trans hf) (by decide)
  · constructor
    · intro hg
      refine ⟨h2, Classical.byContradiction fun ho => ?_⟩
      have hs := hg ⟨.act (fun _ => false) (.thread (.status .ioError)), false⟩
      rw [lingerStep_left h1 ho] at hs
      exact nomatch hs
    · rintro ⟨-, ho⟩ x
      unfold lingerStep
      rw [h1]
      simp [ho]

/-- C119: a process whose main thread has failed stays as long as a LOOKUP call waits for its pipe, for ever if
nobody opens it: its services answer nothing more, but status packets are answered and presence is announced. -/
theorem C119_stays (e : Endian) (m : Mode) (db : Db) (workers : Nat) (s s' : Linger F)
    (hs : ∃ t, s.left = some t) (ho : s.pipes.opening ≠ []) (h : List (LingerAction F)) (o : List SysOut)
    (hr : lingerRun e m db workers s h = some (o, s')) (hu : ∀ x ∈ h, opensOne x = false) :
    s'.pipes = s.pipes ∧ ¬ Gone e m db workers s' ∧
      ∀ x ∈ o, (∃ d, x = .status d) ∨ ∃ d, x = .broadcast d := by
  induction h generalizing s o with
  | nil =>
    simp only [lingerRun] at hr
    injection hr with hr
    injection hr with h' hr
    subst h' hr
    refine ⟨rfl, fun hg => ?_, fun x hx => (nomatch hx)⟩
    obtain ⟨t, ht⟩ := hs
    have hk := hg ⟨.act (fun _ => false) (.thread (.status .ioError)), false⟩
    rw [lingerStep_left ht ho] at hk
    exact nomatch hk
  | cons x h ih =>
    obtain ⟨o₁, s₁, o₂, h1, h2, rfl⟩ := lingerRun_cons.1 hr
    have hl := left_step hs h1
    obtain ⟨t, ht⟩ := hs
    obtain ⟨-, -, ⟨pipe, y, t', hx, hy, rfl⟩ | ⟨i, y, hx, -, -, -⟩⟩ := lingerStep_after ht h1
    · obtain ⟨b1, b2, b3⟩ := ih _ hl ho o₂ h2 fun x hx => hu x (by simp [hx])
      refine ⟨b1, b2, fun z hz => ?_⟩
      rcases List.mem_append.1 hz with hz | hz
      · unfold leftStep at hy
        split at hy
        · injection hy with hy
          injection hy with hy _
          subst hy
          exact nomatch hz
        · injection hy with hy
          injection hy with hy _
          subst hy
          simp only [List.mem_map] at hz
          obtain ⟨d, -, hd⟩ := hz
          exact .inr ⟨d, hd.symm⟩
        · injection hy with hy
          injection hy with hy _
          subst hy
          simp only [List.mem_map] at hz
          obtain ⟨d, -, hd⟩ := hz
          exact .inl ⟨d, hd.symm⟩
        · exact nomatch hy
      · exact b3 z hz
    · have := hu x (by simp)
      obtain ⟨a, b⟩ := x
      cases hx
      exact nomatch this

/-- C119: what is left when the main thread fails: the status server as it was, and the shared state as it was; the
lock on it is poisoned if it was before or if a network was known. -/
theorem C119_left (e : Endian) (m : Mode) (db : Db) (workers : Nat) (s s' : Linger F) (hs : s.left = none)
    (x : LingerAction F) (o : List SysOut) (hx : lingerStep e m db workers s x = some (o, s')) (hf : MainFailed s') :
    ∃ t, s'.left = some t ∧ t.2 = s'.pipes.pool.sys.status ∧ t.1.state = s'.pipes.pool.sys.app.state ∧
      (t.1.poisoned = true ↔
        s'.pipes.pool.sys.app.poisoned = true ∨ s'.pipes.pool.sys.app.state.address ≠ none) := by
  rw [lingerStep_main hs] at hx
  cases hp : pipesStep e m db workers s.pipes x.act with
  | none => rw [hp] at hx; exact nomatch hx
  | some r =>
    rw [hp] at hx
    injection hx with hx
    injection hx with _ hx
    subst hx
    have hf' : r.2.pool.sys.app.running = false := hf
    refine ⟨(leftBehind r.2.pool.sys.app, r.2.pool.sys.status), by simp [hf'], rfl, rfl, ?_⟩
    simp [leftBehind, Option.isSome_iff_ne_none]

/-- C119: as long as the process stays its threads do what they did before: the status server answers as before, the
receiver keeps what it hears of players, and the broadcaster announces the process as before, all on what is left. -/
theorem C119_threads_go_on (e : Endian) (m : Mode) (db : Db) (workers : Nat) (s : Linger F) (t : AppSystem × Bool)
    (hs : s.left = some t) (ho : s.pipes.opening ≠ []) (pipe : Str → Bool) :
    (∀ r, lingerStep e m db workers s (byThread pipe (.status r)) =
      some ((statusStep r t.2).1.map .status, { s with left := some (t.1, (statusStep r t.2).2) })) ∧
    (∀ ok, lingerStep e m db workers s (byThread pipe (.app (.broadcast ok))) =
      some ((appStep t.1 (.broadcast ok)).1.map .broadcast,
        { s with left := some ((appStep t.1 (.broadcast ok)).2, t.2) })) ∧
    ∀ i d, ∃ a, lingerStep e m db workers s (byThread pipe (.app (.receive i d))) =
        some ([], { s with left := some (a, t.2) }) ∧
      a.state = (appStep t.1 (.receive i d)).2.state ∧ a.poisoned = (appStep t.1 (.receive i d)).2.poisoned ∧
      a.running = (appStep t.1 (.receive i d)).2.running := by
  refine ⟨fun r => ?_, fun ok => ?_, fun i d => ⟨noEvents (appStep t.1 (.receive i d)).2, ?_, rfl, rfl, rfl⟩⟩
  · rw [byThread, lingerStep_left hs ho]
    rfl
  · rw [byThread, lingerStep_left hs ho]
    rfl
  · rw [byThread, lingerStep_left hs ho]
    rfl

/-- C119: when the last pipe is opened the process is gone, having answered that LOOKUP call or not, and nothing
else. -/
theorem C119_last_pipe (e : Endian) (m : Mode) (db : Db) (workers : Nat) (s : Linger F)
    (hs : ∃ t, s.left = some t) (p : UInt16) (ev : NfsEvent F) (ho : s.pipes.opening = [(p, ev)]) (sent : Bool) :
    ∃ o s', lingerStep e m db workers s ⟨.opened 0, sent⟩ = some (o, s') ∧ Gone e m db workers s' ∧
      ∀ x ∈ o, ∃ b peer, x = .rpc (some p, b, peer) := by
  obtain ⟨t, ht⟩ := hs
  refine ⟨if sent then (servicesStep e s.pipes.pool.sys.services (.port p none ev)).1.map .rpc else [],
    { s with pipes := { s.pipes with opening := [] } }, ?_, ?_, ?_⟩
  · unfold lingerStep
    simp [ht, ho]
  · intro x
    unfold lingerStep
    simp [ht]
  · intro x hx
    cases sent with
    | false => exact absurd hx (by simp)
    | true =>
      simp only [if_true, servicesStep, rpcStep, List.map_map, List.mem_map, Function.comp] at hx
      obtain ⟨r, -, rfl⟩ := hx
      exact ⟨_, _, rfl⟩

theorem leftStep_poisoned {t t' : AppSystem × Bool} (ht : t.1.poisoned = true) {y : SysAction F} {o : List SysOut}
    (h : leftStep t y = some (o, t')) : t'.1.poisoned = true ∧ ∀ d, SysOut.broadcast d ∉ o := by
  unfold leftStep at h
  split at h
  · rename_i i d
    injection h with h
    injection h with h1 h2
    subst h1 h2
    refine ⟨?_, fun d hd => nomatch hd⟩
    simp only [noEvents, appStep, receiveStep, ht]
    repeat' split
    all_goals first | exact ht | rfl
  · rename_i ok
    injection h with h
    injection h with h1 h2
    subst h1 h2
    have hb : appStep t.1 (.broadcast ok) = ([], t.1) := by
      simp [appStep, broadcastStep, ht]
    simp only [hb]
    exact ⟨ht, fun d hd => nomatch hd⟩
  · injection h with h
    injection h with h1 h2
    subst h1 h2
    exact ⟨ht, by simp⟩
  · exact nomatch h

theorem left_poisoned {e : Endian} {m : Mode} {db : Db} {n : Nat} {s s' : Linger F} {t : AppSystem × Bool}
    (hs : s.left = some t) (ht : t.1.poisoned = true) {h : List (LingerAction F)} {o : List SysOut}
    (hr : lingerRun e m db n s h = some (o, s')) : ∀ d, SysOut.broadcast d ∉ o := by
  induction h generalizing s t o with
  | nil =>
    simp only [lingerRun] at hr
    injection hr with hr
    injection hr with hr _
    subst hr
    exact fun d hd => nomatch hd
  | cons x h ih =>
    obtain ⟨o₁, s₁, o₂, h1, h2, rfl⟩ := lingerRun_cons.1 hr
    intro d hd
    obtain ⟨-, -, ⟨pipe, y, t', -, hy, rfl⟩ | ⟨i, y, -, -, ho, rfl⟩⟩ := lingerStep_after hs h1
    · obtain ⟨h3, h4⟩ := leftStep_poisoned ht hy
      rcases List.mem_append.1 hd with hd | hd
      · exact h4 d hd
      · exact ih rfl h3 h2 d hd
    · rcases List.mem_append.1 hd with hd | hd
      · subst ho
        split at hd
        · simp at hd
        · exact nomatch hd
      · exact ih (s := { s with pipes := { s.pipes with opening := s.pipes.opening.eraseIdx i } }) hs ht h2 d hd

/-- C119: a process whose main thread has failed though a network was known - a socket was refused in the middle of a
negotiation - or because the lock was poisoned announces itself no more, even if it stays. -/
theorem C119_silent (e : Endian) (m : Mode) (db : Db) (workers : Nat) (s s' : Linger F) (hs : s.left = none)
    (x : LingerAction F) (o : List SysOut) (hx : lingerStep e m db workers s x = some (o, s')) (hf : MainFailed s')
    (hk : s'.pipes.pool.sys.app.poisoned = true ∨ s'.pipes.pool.sys.app.state.address ≠ none)
    (h : List (LingerAction F)) (o' : List SysOut) (s'' : Linger F)
    (hr : lingerRun e m db workers s' h = some (o', s'')) : ∀ d, SysOut.broadcast d ∉ o' := by
  rw [lingerStep_main hs] at hx
  cases hp : pipesStep e m db workers s.pipes x.act with
  | none => rw [hp] at hx; exact nomatch hx
  | some r =>
    rw [hp] at hx
    injection hx with hx
    injection hx with _ hx
    subst hx
    have hf : r.2.pool.sys.app.running = false := hf
    refine left_poisoned (t := (leftBehind r.2.pool.sys.app, r.2.pool.sys.status)) (by simp [hf]) ?_ hr
    rcases hk with hk | hk
    · have hk : r.2.pool.sys.app.poisoned = true := hk
      simp only [leftBehind, hk, Bool.true_or]
    · simp only [leftBehind]
      cases ha : r.2.pool.sys.app.state.address with
      | none => exact absurd ha hk
      | some n => simp

/-- The threads of a process whose main thread has failed hear a player and announce themselves. -/
theorem left_announces (e : Endian) (m : Mode) (db : Db) (workers : Nat) (s : Linger F) (t : AppSystem × Bool)
    (hs : s.left = some t) (ho : s.pipes.opening ≠ []) (ht : Healthy t.1) (hb : t.1.broadcaster = true)
    (pipe : Str → Bool) (i : List Interface) (d : Bytes) (a : Announcement) (ha : Accepted d a) (n : PioneerNetwork)
    (hn : FirstMatch i a.ip n) (k : Nat) :
    ∃ s', lingerRun e m db workers s (List.flatten (List.replicate k
        [byThread pipe (.app (.receive i d)), byThread pipe (.app (.broadcast true))])) =
      some (List.replicate k (.broadcast (toAll n (statusDatagram n.network.addr n.mac 1))), s') := by
  induction k generalizing s t with
  | zero => exact ⟨s, rfl⟩
  | succ k ih =>
    obtain ⟨h1, h2, h3, h4, -⟩ := step_hear ht ha ((firstMatch_iff _ _ _).1 hn)
    obtain ⟨s', hi⟩ := ih { s with left := some (noEvents (appStep t.1 (.receive i d)).2, t.2) }
      (noEvents (appStep t.1 (.receive i d)).2, t.2) rfl ho ⟨h3.running, h3.receiver, h3.lock⟩
      (h4.trans hb)
    refine ⟨s', ?_⟩
    rw [List.replicate_succ, List.flatten_cons, List.replicate_succ]
    have hb : appStep (noEvents (appStep t.1 (.receive i d)).2) (.broadcast true) =
        ([toAll n (statusDatagram n.network.addr n.mac 1)],
          noEvents (appStep t.1 (.receive i d)).2) := by
      rw [C53_announcement (noEvents (appStep t.1 (.receive i d)).2) h3.running (h4.trans hb) h3.lock]
      simp only [noEvents, h2]
    refine lingerRun_append (o₁ := [.broadcast (toAll n (statusDatagram n.network.addr n.mac 1))]) ?_ hi
    rw [lingerRun_cons]
    refine ⟨[], { s with left := some (noEvents (appStep t.1 (.receive i d)).2, t.2) }, _, ?_, ?_, rfl⟩
    · unfold byThread
      rw [lingerStep_left hs ho]
      rfl
    · rw [lingerRun_cons]
      refine ⟨[.broadcast (toAll n (statusDatagram n.network.addr n.mac 1))],
        { s with left := some (noEvents (appStep t.1 (.receive i d)).2, t.2) }, [], ?_, rfl, rfl⟩
      unfold byThread
      rw [lingerStep_left (s := { s with left := some (noEvents (appStep t.1 (.receive i d)).2, t.2) }) rfl ho]
      simp only [leftStep, hb]
      rfl

/-- The process with another shared state. -/
def withApp (s : Pipes F) (a : AppSystem) : Pipes F :=
  { s with pool := { s.pool with sys := { s.pool.sys with app := a } } }

/-- The process with the lock taken by the main thread. -/
def lockTaken (s : Pipes F) : Pipes F := { s with pool := { s.pool with held := true } }

theorem thread_app (e : Endian) (m : Mode) (db : Db) (n : Nat) (s : Pipes F) (pipe : Str → Bool) (x : AppAction)
    (hx : ∀ oks, x ≠ .appLink oks) (hrun : s.pool.sys.app.running = true) (hh : s.pool.held = false) :
    pipesStep e m db n s (.act pipe (.thread (.app x))) =
      some ((appStep s.pool.sys.app x).1.map .broadcast, withApp s (appStep s.pool.sys.app x).2) := by
  cases x with
  | appLink oks => exact absurd rfl (hx oks)
  | _ => simp [pipesStep, poolStep, hrun, hh, SysAction.ofTask, sysStep, withApp]

theorem noMatch_mac {i : List Interface} {ip : UInt32} (h : NoMatch i ip) : ¬ MacMissing i ip := by
  rintro ⟨pre, n, post, hc, -⟩
  exact (h (n, none) (by rw [hc]; simp)).1 rfl

theorem receive_pending (s : AppSystem) (i : List Interface) (d : Bytes) :
    (appStep s (.receive i d)).2.pending = s.pending := by
  simp only [appStep, receiveStep]
  repeat' split
  all_goals rfl

theorem recv_twice (s : AppSystem) (hr : s.running = true) (hp : s.pending = false) (known : Bool)
    (hq : s.queue = (if known then [] else [.deviceChange]) ++ [.initiateLink]) :
    (appStep s .appRecv).1 = [] ∧ (appStep (appStep s .appRecv).2 .appRecv).1 = [] ∧
      (appStep s .appRecv).2.running = true ∧
      (appStep (appStep s .appRecv).2 .appRecv).2 = { s with queue := [], pending := true } := by
  cases known <;> simp [appStep, appRecvStep, hr, hp, hq]

/-- A GETPORT call, the LOOKUP call of a pipe, an announcement, and the main thread up to taking the lock. -/
def beforeFailure (pipe : Str → Bool) (hdr : Hdr) (v pt : UInt32) (peer : Addr) (p : UInt16) (ev : NfsEvent F)
    (i : List Interface) (d : Bytes) : List (PipesAction F) :=
  [getportNfs pipe hdr v pt peer p, lookupAt pipe ev p] ++
    [.act pipe (.thread (.app (.receive i d))), .act pipe (.thread (.app .appRecv)),
      .act pipe (.thread (.app .appRecv)), .act pipe .lock]

/-- The same, and the end of the negotiation. -/
def untilFailure (pipe : Str → Bool) (hdr : Hdr) (v pt : UInt32) (peer : Addr) (p : UInt16) (ev : NfsEvent F)
    (i : List Interface) (d : Bytes) : List (LingerAction F) :=
  (beforeFailure pipe hdr v pt peer p ev i d).map (⟨·, false⟩) ++ [⟨.act pipe (.unlock []), false⟩]

/-- C119 (full claim: when the main thread fails, the process ends).  The claim is false: from every state in which
the threads run, the portmapper runs, the application is idle and has not linked yet, a GETPORT call, the LOOKUP call
of a pipe that nobody writes to and one announcement from no local network make the main thread fail, and the process
stays: as often as players are heard afterwards, it announces itself. -/
theorem C119_outlives (e : Endian) (m : Mode) (db : Db) (workers : Nat) (hw : 0 < workers) (s : Linger F)
    (hs : s.left = none) (hh : Healthy s.pipes.pool.sys.app) (hb : s.pipes.pool.sys.app.broadcaster = true)
    (hpm : s.pipes.pool.sys.services.rpc.portmap = true) (hst : s.pipes.pool.stuck = [])
    (hop : s.pipes.opening = []) (hheld : s.pipes.pool.held = false)
    (hl : s.pipes.pool.sys.app.state.linking = false) (hq : s.pipes.pool.sys.app.queue = [])
    (hpend : s.pipes.pool.sys.app.pending = false) (p : UInt16)
    (hf : listener p s.pipes.pool.sys.services.rpc.tasks = none) (hdr : Hdr) (v pt : UInt32) (peer : Addr)
    (pipe : Str → Bool) (ev : NfsEvent F) (hev : OpensPipe pipe ['/'] ev) (i : List Interface) (d : Bytes)
    (a : Announcement) (ha : Accepted d a) (hn : NoMatch i a.ip) :
    ∃ o s', lingerRun e m db workers s
        (untilFailure pipe hdr v pt peer p ev i d) = some (o, s') ∧
      MainFailed s' ∧ ¬ Gone e m db workers s' ∧
      ∀ i' d' a', Accepted d' a' → ∀ n, FirstMatch i' a'.ip n → ∀ k, ∃ s'',
        lingerRun e m db workers s' (List.flatten (List.replicate k
          [byThread pipe (.app (.receive i' d')), byThread pipe (.app (.broadcast true))])) =
        some (List.replicate k (.broadcast (toAll n (statusDatagram n.network.addr n.mac 1))), s'') := by
  obtain ⟨o, s₁, h1, h2, h3, h4, h5, -, h6⟩ := getports_run e m db workers pipe hdr v pt peer [p] (by simp) s.pipes
    hh.running hpm (by rw [hst, hop]; exact hw) (by simpa using hf)
  have hex := lookups_run e m db workers pipe ev hev [p] (by simp) s₁ (by rw [h2]; exact hh.running) (h3.trans hst)
    (by simp [h4, hop]; omega) h5 (by simp [h4, hop])
  have hpre := pipesRun_append h1 hex
  have happ : ({ s₁ with opening := s₁.opening ++ [p].map fun p => (p, ev) } : Pipes F).pool.sys.app =
    s.pipes.pool.sys.app := h2
  have hheld' : ({ s₁ with opening := s₁.opening ++ [p].map fun p => (p, ev) } : Pipes F).pool.held = false :=
    h6.trans hheld
  have hop' : ({ s₁ with opening := s₁.opening ++ [p].map fun p => (p, ev) } : Pipes F).opening = [(p, ev)] := by
    simp [h4, hop]
  generalize ({ s₁ with opening := s₁.opening ++ [p].map fun p => (p, ev) } : Pipes F) = q at hpre happ hheld' hop'
  obtain ⟨r1, r2, r3, r4, -⟩ := step_hear hh ha (n := none) ((C55_no_match a.ip i).2 hn)
  have r5 := C50_events_of_announcement _ hh i d a ha (noMatch_mac hn)
  have r6 := receive_pending s.pipes.pool.sys.app i d
  rw [hq, hl] at r5
  rw [hpend] at r6
  generalize hA : (appStep s.pipes.pool.sys.app (.receive i d)).2 = A at r2 r3 r4 r5 r6
  obtain ⟨t1, t2, t3, t4⟩ := recv_twice A r3.running r6
    (decide (a.ip ∈ s.pipes.pool.sys.app.state.players.map Player.address)) (by rw [r5]; simp)
  have hpre2 : pipesRun e m db workers q
      [.act pipe (.thread (.app (.receive i d))), .act pipe (.thread (.app .appRecv)),
        .act pipe (.thread (.app .appRecv)), .act pipe .lock] =
      some ([], lockTaken (withApp q { A with queue := [], pending := true })) := by
    rw [pipesRun_cons]
    refine ⟨[], withApp q A, [], ?_, ?_, rfl⟩
    · rw [thread_app e m db workers q pipe _ (by simp) (by rw [happ]; exact hh.running) hheld', happ, r1, hA]
      rfl
    rw [pipesRun_cons]
    refine ⟨[], withApp q (appStep A .appRecv).2, [], ?_, ?_, rfl⟩
    · rw [thread_app e m db workers (withApp q A) pipe _ (by simp) (by exact r3.running) hheld']
      show some ((appStep A .appRecv).1.map SysOut.broadcast, _) = _
      rw [t1]
      rfl
    rw [pipesRun_cons]
    refine ⟨[], withApp q { A with queue := [], pending := true }, [], ?_, ?_, rfl⟩
    · rw [thread_app e m db workers (withApp q (appStep A .appRecv).2) pipe _ (by simp) (by exact t3) hheld', ← t4]
      show some ((appStep (appStep A .appRecv).2 .appRecv).1.map SysOut.broadcast, _) = _
      rw [t2]
      rfl
    rw [pipesRun_cons]
    refine ⟨[], _, [], ?_, rfl, rfl⟩
    simp [pipesStep, poolStep, withApp, lockTaken, r3.running, hheld']
  have hlr := (C119_main_runs e m db workers s hs (by simp [MainFailed, hh.running])
    ((beforeFailure pipe hdr v pt peer p ev i d).map (⟨·, false⟩)) _
    (lockTaken (withApp q { A with queue := [], pending := true })) r3.running).2
    (by
      rw [List.map_map]
      show pipesRun e m db workers s.pipes (List.map id _) = _
      rw [List.map_id]
      exact pipesRun_append (h := [getportNfs pipe hdr v pt peer p, lookupAt pipe ev p]) hpre hpre2)
  have hlast : ∃ s', lingerRun e m db workers
      ⟨lockTaken (withApp q { A with queue := [], pending := true }), none⟩ [⟨.act pipe (.unlock []), false⟩] =
        some ([], s') ∧ MainFailed s' ∧ s'.pipes.opening = [(p, ev)] ∧
        ∃ t, s'.left = some t ∧ Healthy t.1 ∧ t.1.broadcaster = true := by
    have hstep : pipesStep e m db workers (lockTaken (withApp q { A with queue := [], pending := true }))
        (.act pipe (.unlock [])) = some ([], withApp q { A with
          queue := []
          pending := true
          state := { A.state with linking := true }
          running := false }) := by
      simp [pipesStep, poolStep, lockTaken, withApp, sysStep, appStep, appLinkStep, r3.running, r3.lock, r2, hheld']
    refine ⟨⟨withApp q { A with
        queue := []
        pending := true
        state := { A.state with linking := true }
        running := false }, some (leftBehind { A with
        queue := []
        pending := true
        state := { A.state with linking := true }
        running := false }, q.pool.sys.status)⟩, lingerRun_cons.2 ⟨[], _, [], ?_, rfl, rfl⟩, ?_⟩
    · rw [lingerStep_main rfl, hstep]
      rfl
    · refine ⟨rfl, hop', _, rfl, ⟨rfl, r3.receiver, ?_⟩, r4.trans hb⟩
      simp [leftBehind, r3.lock, r2]
  obtain ⟨s', k1, k2, k3, t, k4, k5, k6⟩ := hlast
  refine ⟨_, s', lingerRun_append hlr k1, k2, ?_, ?_⟩
  · exact (C119_stays e m db workers s' s' ⟨t, k4⟩ (by rw [k3]; simp) [] [] rfl (by simp)).2.1
  · intro i' d' a' ha' n hn' k
    exact left_announces e m db workers s' t k4 (by rw [k3]; simp) k5 k6 pipe i' d' a' ha' n hn' k

/-! ## Events nobody takes -/

/-- What is left holds no events and no link request. -/
def NoBacklog (s : Linger F) : Prop := ∀ t, s.left = some t → t.1.queue = [] ∧ t.1.pending = false

theorem leftStep_backlog {t t' : AppSystem × Bool} (ht : t.1.queue = [] ∧ t.1.pending = false) {y : SysAction F}
    {o : List SysOut} (h : leftStep t y = some (o, t')) : t'.1.queue = [] ∧ t'.1.pending = false := by
  unfold leftStep at h
  split at h
  · cases h
    exact ⟨rfl, (receive_pending _ _ _).trans ht.2⟩
  · cases h
    simp only [appStep, broadcastStep]
    repeat' split
    all_goals exact ht
  · cases h
    exact ht
  · exact nomatch h

theorem noBacklog_step {e : Endian} {m : Mode} {db : Db} {n : Nat} {s s' : Linger F} {x : LingerAction F}
    {o : List SysOut} (hs : NoBacklog s) (h : lingerStep e m db n s x = some (o, s')) : NoBacklog s' := by
  intro t ht
  cases hl : s.left with
  | none =>
    rw [lingerStep_main hl] at h
    cases hp : pipesStep e m db n s.pipes x.act with
    | none => rw [hp] at h; exact nomatch h
    | some r =>
      rw [hp] at h
      injection h with h
      injection h with _ h
      subst h
      simp only at ht
      split at ht
      · exact nomatch ht
      · cases ht
        exact ⟨rfl, rfl⟩
  | some t₀ =>
    obtain ⟨-, -, ⟨_, _, t', -, hy, rfl⟩ | ⟨_, _, -, -, -, rfl⟩⟩ := lingerStep_after hl h
    · cases ht
      exact leftStep_backlog (hs t₀ hl) hy
    · exact hs t ht

/-- C119: in what is left no events pile up: whatever the receiver hears after the main thread has failed, nothing
waits for anyone to take it, and nothing is linked any more. -/
theorem C119_no_backlog (e : Endian) (m : Mode) (db : Db) (workers : Nat) (h : List (LingerAction F))
    (o : List SysOut) (s : Linger F) (hr : lingerRun e m db workers .start h = some (o, s)) (t : AppSystem × Bool)
    (ht : s.left = some t) : t.1.queue = [] ∧ t.1.pending = false := by
  suffices hs : ∀ (s₀ : Linger F) o, NoBacklog s₀ → lingerRun e m db workers s₀ h = some (o, s) → NoBacklog s from
    hs .start o (fun t h => nomatch h) hr t ht
  clear hr ht o t
  induction h with
  | nil =>
    intro s₀ o h0 hr
    simp only [lingerRun] at hr
    injection hr with hr
    injection hr with _ hr
    exact hr ▸ h0
  | cons x h ih =>
    intro s₀ o h0 hr
    obtain ⟨o₁, s₁, o₂, h1, h2, -⟩ := lingerRun_cons.1 hr
    exact ih s₁ o₂ (noBacklog_step h0 h1) h2

/-! ## Examples -/

/-- The process just started. -/
example (e : Endian) (m : Mode) (db : Db) (workers : Nat) (hw : 0 < workers) :=
  C119_outlives (F := Nat) e m db workers hw .start rfl ⟨rfl, rfl, rfl⟩ rfl rfl rfl rfl rfl rfl rfl rfl 40000 rfl
    exampleHdr 2 0 exampleAsker examplePipe examplePipeEvent examplePipeEvent_opens [] exampleDatagram
    exampleAnnouncement exampleDatagram_accepted (by simp [NoMatch, candidates])

/-- And what is left there when a player is heard. -/
example (e : Endian) (m : Mode) (db : Db) : ∃ o s t,
    lingerRun (F := Nat) e m db 1 .start (untilFailure examplePipe exampleHdr 2 0 exampleAsker 40000 examplePipeEvent []
      exampleDatagram) = some (o, s) ∧ s.left = some t := by
  obtain ⟨o, s', h1, h2, -⟩ := C119_outlives (F := Nat) e m db 1 (by decide) .start rfl ⟨rfl, rfl, rfl⟩ rfl rfl rfl rfl
    rfl rfl rfl rfl 40000 rfl exampleHdr 2 0 exampleAsker examplePipe examplePipeEvent examplePipeEvent_opens []
    exampleDatagram exampleAnnouncement exampleDatagram_accepted (by simp [NoMatch, candidates])
  rcases lingerOk_run lingerOk_start h1 with ⟨-, h⟩ | ⟨⟨t, h⟩, -⟩
  · exact absurd (h.symm.trans h2) (by decide)
  · exact ⟨o, s', t, h1, h⟩

/-- A network that can be announced on afterwards. -/
example : FirstMatch exampleInterfaces exampleAnnouncement.ip exampleNetwork := exampleMatch

/-- A process whose main thread has failed, with a call that waits. -/
def exampleLeft : Linger Nat :=
  ⟨⟨⟨{ (System.start : System Nat) with app := { AppSystem.start with running := false } }, false, []⟩,
    [(40000, examplePipeEvent)]⟩, some (.start, true)⟩

example (e : Endian) (m : Mode) (db : Db) (o : List SysOut) (s' : Linger Nat)
    (h : lingerRun e m db 1 exampleLeft [byThread examplePipe (.status .ioError)] = some (o, s')) :=
  C119_stays e m db 1 exampleLeft s' ⟨_, rfl⟩ (by simp [exampleLeft]) _ o h (by simp [byThread, opensOne])

example (e : Endian) (m : Mode) (db : Db) : ∃ o s',
    lingerRun e m db 1 exampleLeft [byThread examplePipe (.status .ioError)] = some (o, s') := ⟨_, _, rfl⟩

example (e : Endian) (m : Mode) (db : Db) :=
  C119_last_pipe e m db 1 exampleLeft ⟨_, rfl⟩ 40000 examplePipeEvent rfl true

example (e : Endian) (m : Mode) (db : Db) :=
  C119_threads_go_on e m db 1 exampleLeft (.start, true) rfl (by simp [exampleLeft]) examplePipe

/-- The first steps of a process. -/
example (e : Endian) (m : Mode) (db : Db) (o : List SysOut) (s : Linger Nat)
    (h : lingerRun e m db 1 .start [byThread examplePipe (.app (.broadcast true))] = some (o, s)) :=
  C119_gone_iff_partial e m db 1 _ o s h

example (e : Endian) (m : Mode) (db : Db) : ∃ o s,
    lingerRun (F := Nat) e m db 1 .start [byThread examplePipe (.app (.broadcast true))] = some (o, s) := ⟨_, _, rfl⟩

example (e : Endian) (m : Mode) (db : Db) :=
  C119_main_runs (F := Nat) e m db 1 .start rfl (by simp [MainFailed, Linger.start, Pipes.start, Pool.start,
    System.start, AppSystem.start]) [byThread examplePipe (.app (.broadcast true))] [] .start rfl

/-- A process in a negotiation, a call waiting for a pipe: the first socket is refused. -/
def exampleNegotiating : Linger Nat :=
  ⟨⟨⟨{ (System.start : System Nat) with app := { AppSystem.start with
      state := { ServerState.default with address := some exampleNetwork }, pending := true } }, true, []⟩,
    [(40000, examplePipeEvent)]⟩, none⟩

example (e : Endian) (m : Mode) (db : Db) (h : List (LingerAction Nat)) (o' : List SysOut) (s'' : Linger Nat)
    (hr : ∀ o s', lingerStep e m db 1 exampleNegotiating ⟨.act examplePipe (.unlock [false]), false⟩ = some (o, s') →
      lingerRun e m db 1 s' h = some (o', s'')) : ∀ d, SysOut.broadcast d ∉ o' :=
  C119_silent e m db 1 exampleNegotiating _ rfl ⟨.act examplePipe (.unlock [false]), false⟩ _ rfl rfl
    (.inr (fun h => nomatch h)) h o' s'' (hr _ _ rfl)

example (e : Endian) (m : Mode) (db : Db) :=
  C119_left e m db 1 exampleNegotiating _ rfl ⟨.act examplePipe (.unlock [false]), false⟩ _ rfl rfl

end PDJ

import Verif.Lemmas.Stall
import Verif.Props.Log
import Verif.Props.Workers

/-!
# Property C122: a log that nobody reads holds nothing up
-/

namespace PDJ

open Spec

variable {F : Type}

/-! ## What is false -/

/-- C122: whoever waits takes no step before somebody reads the log. -/
theorem C122_waits (e : Endian) (m : Mode) (db : Db) (workers : Nat) (s s' : Stall F) (p : Party)
    (hp : Waits p s.waiting) (h : List (StallAction F)) (o : List SysOut) (l : List LogLine)
    (hr : stallRun e m db workers s h = some (o, l, s')) (hu : Unread h) :
    stepsOf p (takenSteps h) = [] ∧ s.waiting <+: s'.waiting := by
  induction h generalizing s o l with
  | nil =>
    simp only [stallRun, Option.some.injEq, Prod.mk.injEq] at hr
    obtain ⟨rfl, rfl, rfl⟩ := hr
    exact ⟨rfl, List.prefix_rfl⟩
  | cons a h ih =>
    obtain ⟨o₁, l₁, s₁, o₂, l₂, h1, h2, rfl, rfl⟩ := stallRun_cons.1 hr
    have hu' : Unread h := fun i f hi => hu i f (List.mem_cons_of_mem _ hi)
    have hw := stallStep_iff.1 h1
    have key : s.waiting <+: s₁.waiting ∧ stepsOf p (takenSteps [a]) = [] := by
      have free : ∀ x, canTake workers s x = true → x.party ≠ p := by
        intro x hc
        simp only [canTake, Bool.and_eq_true, List.all_eq_true] at hc
        obtain ⟨w, hw, hi⟩ := hp
        have := of_decide_eq_true (hc.2 w hw)
        rw [(isOf_party _ _).1 hi] at this
        exact fun h => this h.symm
      cases hw with
      | wait x ox full q hc hq =>
        exact ⟨List.prefix_append _ _, stepsOf_nil_of _ _ (by simpa [takenSteps] using free x hc)⟩
      | done x ox full hc hq =>
        exact ⟨List.prefix_rfl, stepsOf_nil_of _ _ (by simpa [takenSteps] using free x hc)⟩
      | again pre post w full k => exact absurd List.mem_cons_self (hu _ _)
      | finish pre post w full => exact absurd List.mem_cons_self (hu _ _)
    obtain ⟨w, hwm, hi⟩ := hp
    obtain ⟨i1, i2⟩ := ih s₁ ⟨w, key.1.subset hwm, hi⟩ o₂ l₂ h2 hu'
    exact ⟨by rw [takenSteps_cons, stepsOf_append, key.2, i1]; rfl, key.1.trans i2⟩

theorem ofTask_iff (x : SysAction F) : x.ofTask = true ↔ ForTask x := by
  cases x <;> simp [SysAction.ofTask, ForTask]

theorem busy_eq (s : Stall F) : s.busy = onWorkers s.waiting := by
  unfold Stall.busy onWorkers
  congr 1
  apply List.filter_congr
  intro w _
  cases hx : w.step with
  | app a => cases a <;> rfl
  | _ => rfl

theorem onWorkers_prefix {ws vs : List (Wait F)} (h : ws <+: vs) : onWorkers ws ≤ onWorkers vs := by
  obtain ⟨t, rfl⟩ := h
  simp [onWorkers]

/-- A step of a thread sends broadcasts and status replies only. -/
theorem thread_sends (e : Endian) (m : Mode) (db : Db) (s : System F) (x : SysAction F) (hx : x.ofTask = false) :
    ∀ y ∈ (sysStep e m db s x).1, ∃ d, y = .broadcast d ∨ y = .status d := by
  unfold sysStep
  split
  · cases x with
    | app x =>
      intro y hy
      simp only [List.mem_map] at hy
      obtain ⟨d, -, rfl⟩ := hy
      exact ⟨d, .inl rfl⟩
    | status r =>
      intro y hy
      simp only [List.mem_map] at hy
      obtain ⟨d, -, rfl⟩ := hy
      exact ⟨d, .inr rfl⟩
    | _ => simp [SysAction.ofTask] at hx
  · exact fun y hy => (nomatch hy)

/-- C122 (full claim: whether somebody reads the log makes no difference).  The claim is false: when as many tasks wait
for the log as there are workers, no task does anything, whatever is received and in whatever order, until somebody
reads: no request to the library or to the RPC services is answered. -/
theorem C122_no_worker (e : Endian) (m : Mode) (db : Db) (workers : Nat) (s s' : Stall F)
    (hs : workers ≤ onWorkers s.waiting) (h : List (StallAction F)) (o : List SysOut) (l : List LogLine)
    (hr : stallRun e m db workers s h = some (o, l, s')) (hu : Unread h) :
    (∀ x ∈ takenSteps h, ¬ ForTask x) ∧ ∀ y ∈ o, ∃ d, y = .broadcast d ∨ y = .status d := by
  induction h generalizing s o l with
  | nil =>
    simp only [stallRun, Option.some.injEq, Prod.mk.injEq] at hr
    obtain ⟨rfl, rfl, rfl⟩ := hr
    exact ⟨fun x hx => (nomatch hx), fun x hx => (nomatch hx)⟩
  | cons a h ih =>
    obtain ⟨o₁, l₁, s₁, o₂, l₂, h1, h2, rfl, rfl⟩ := stallRun_cons.1 hr
    have hu' : Unread h := fun i f hi => hu i f (List.mem_cons_of_mem _ hi)
    have hw := stallStep_iff.1 h1
    have free : ∀ x, canTake workers s x = true → x.ofTask = false := by
      intro x hc
      simp only [canTake, Bool.and_eq_true, Bool.or_eq_true, decide_eq_true_eq, busy_eq] at hc
      rcases hc.1.2 with h | h
      · simpa using h
      · omega
    have key : s.waiting <+: s₁.waiting ∧ (∀ x ∈ takenSteps [a], ¬ ForTask x) ∧
        ∀ y ∈ o₁, ∃ d, y = .broadcast d ∨ y = .status d := by
      cases hw with
      | wait x ox full q hc hq =>
        refine ⟨List.prefix_append _ _, ?_, fun y hy => (nomatch hy)⟩
        simp [takenSteps, ← ofTask_iff, free x hc]
      | done x ox full hc hq =>
        refine ⟨List.prefix_rfl, by simp [takenSteps, ← ofTask_iff, free x hc], ?_⟩
        have := congrArg Prod.fst (sysLog_working e m db s.sys x ox)
        simp only at this
        rw [this]
        exact thread_sends e m db s.sys x (free x hc)
      | again pre post w full k => exact absurd List.mem_cons_self (hu _ _)
      | finish pre post w full => exact absurd List.mem_cons_self (hu _ _)
    obtain ⟨i1, i2⟩ := ih s₁ (Nat.le_trans hs (onWorkers_prefix key.1)) o₂ l₂ h2 hu'
    refine ⟨fun x hx => ?_, fun y hy => ?_⟩
    · rw [takenSteps_cons] at hx
      rcases List.mem_append.1 hx with hx | hx
      · exact key.2.1 x hx
      · exact i1 x hx
    · rcases List.mem_append.1 hy with hy | hy
      · exact key.2.2 y hy
      · exact i2 y hy

/-- Something that cannot be decoded, received at a port when the log is full. -/
def garbledAt (o : LogOs) (ev : NfsEvent F) (p : UInt16) : StallAction F := .take (.port p ev) o (some 0)

theorem deliverLog_lines (e : Endian) (net : Option PioneerNetwork) (p : UInt16) (ev : NfsEvent F) {d : Bytes}
    {peer : Addr} (he : ev.recv = .datagram d peer) (hd : Garbled d) (o : LogOs) (ts : List (UInt16 × RpcTask F))
    (ht : listener p ts ≠ none) : (deliverLog e net p ev (working o) ts).2.1 ≠ [] := by
  induction ts with
  | nil => exact absurd rfl ht
  | cons t ts ih =>
    simp only [deliverLog]
    split
    · rename_i hc
      rw [(C121_handlers e net ev o).1 d peer he hd t.2 hc.2]
      cases t.2 <;> simp
    · rename_i hc
      exact ih (by simpa [listener, hc] using ht)

theorem garbled_stops (e : Endian) (m : Mode) (db : Db) (s : System F) (p : UInt16) (ev : NfsEvent F) {d : Bytes}
    {peer : Addr} (he : ev.recv = .datagram d peer) (hd : Garbled d) (o : LogOs) (hr : s.app.running = true)
    (ht : listener p s.services.rpc.tasks ≠ none) (writing : Bool) :
    stopAt e m db s (.port p ev) o (some 0) false writing = some (.log 0) := by
  have h := deliverLog_lines e (knownNetwork s.app) p ev he hd o s.services.rpc.tasks ht
  have hn : lineCount e m db s (.port p ev) o ≠ 0 := by
    unfold lineCount
    simp only [sysLog, hr, if_true]
    intro hz
    exact h (List.length_eq_zero_iff.1 hz)
  unfold stopAt waitsAt
  rw [if_neg hn]
  cases writing
  · simp [Option.filter, Nat.pos_of_ne_zero hn]
  · simp

/-- C122: it is false in every state in which nobody waits, and whatever the number of workers: that many datagrams
that cannot be decoded, at as many RPC handlers, make every request wait until somebody reads the log. -/
theorem C122_starvable (e : Endian) (m : Mode) (db : Db) (workers : Nat) (s : Stall F)
    (hrun : s.sys.app.running = true) (hst : s.waiting = []) (ps : List UInt16) (hn : ps.Nodup)
    (hlen : ps.length = workers) (hf : ∀ p ∈ ps, listener p s.sys.services.rpc.tasks ≠ none) (ev : NfsEvent F)
    (d : Bytes) (peer : Addr) (he : ev.recv = .datagram d peer) (hd : Garbled d) (os : LogOs) :
    ∃ s', stallRun e m db workers s (ps.map (garbledAt os ev)) = some ([], [], s') ∧ s'.sys = s.sys ∧
      ∀ h o l s'', stallRun e m db workers s' h = some (o, l, s'') → Unread h →
        (∀ x ∈ takenSteps h, ¬ ForTask x) ∧ ∀ y ∈ o, ∃ d, y = .broadcast d ∨ y = .status d := by
  have key : ∀ (qs : List UInt16) (ws : List (Wait F)), qs.Nodup → (∀ p ∈ qs, p ∈ ps) →
      (∀ w ∈ ws, ∃ p, p ∉ qs ∧ w = ⟨.port p ev, os, .log 0⟩) → ws.length + qs.length = workers →
      ∃ vs, stallRun e m db workers ⟨s.sys, ws⟩ (qs.map (garbledAt os ev)) = some ([], [], ⟨s.sys, vs⟩) ∧
        (∀ w ∈ vs, ∃ p, w = ⟨.port p ev, os, .log 0⟩) ∧ vs.length = workers := by
    intro qs
    induction qs with
    | nil =>
      intro ws _ _ h hl
      refine ⟨ws, rfl, fun w hw => ?_, by simpa using hl⟩
      obtain ⟨p, -, hp⟩ := h w hw
      exact ⟨p, hp⟩
    | cons q qs ih =>
      intro ws hnq hqs hws hl
      obtain ⟨hq1, hq2⟩ := List.nodup_cons.1 hnq
      obtain ⟨vs, i1, i2, i3⟩ := ih (ws ++ [⟨.port q ev, os, .log 0⟩]) hq2 (fun p hp => hqs p (List.mem_cons_of_mem _ hp))
        (by
          intro w hw
          rcases List.mem_append.1 hw with hw | hw
          · obtain ⟨p, hp, rfl⟩ := hws w hw
            exact ⟨p, fun hh => hp (List.mem_cons_of_mem _ hh), rfl⟩
          · exact ⟨q, hq1, List.mem_singleton.1 hw⟩)
        (by simp only [List.length_append, List.length_cons, List.length_nil] at hl ⊢; omega)
      refine ⟨vs, ?_, i2, i3⟩
      have hheld : (Stall.mk s.sys ws).held = false := by
        simp only [Stall.held, List.any_eq_false]
        intro w hw
        obtain ⟨p, -, rfl⟩ := hws w hw
        simp [Wait.holds]
      have hstep : stallStep e m db workers ⟨s.sys, ws⟩ (garbledAt os ev q) =
          some ([], [], ⟨s.sys, ws ++ [⟨.port q ev, os, .log 0⟩]⟩) := by
        refine stallStep_iff.2 (.wait _ _ _ _ ?_ ?_)
        · simp only [canTake, Bool.and_eq_true, Bool.or_eq_true, decide_eq_true_eq, List.all_eq_true]
          refine ⟨⟨hrun, .inr ?_⟩, ?_⟩
          · have : (Stall.mk s.sys ws).busy ≤ ws.length := List.length_filter_le _ _
            simp only [List.length_cons] at hl
            omega
          · intro w hw
            obtain ⟨p, hp, rfl⟩ := hws w hw
            simp only [SysAction.party, ne_eq, Party.port.injEq]
            exact fun h => hp (by rw [h]; exact List.mem_cons_self)
        · rw [hheld]
          exact garbled_stops e m db s.sys q ev he hd os hrun (hf q (hqs q List.mem_cons_self)) _
      exact stallRun_cons.2 ⟨[], [], _, [], [], hstep, i1, rfl, rfl⟩
  obtain ⟨vs, h1, h2, h3⟩ := key ps [] hn (fun p hp => hp) (fun w hw => (nomatch hw)) (by simpa using hlen)
  obtain ⟨sys, ws⟩ := s
  subst hst
  refine ⟨_, h1, rfl, ?_⟩
  intro h o l s'' hr hu
  refine C122_no_worker e m db workers _ s'' ?_ h o l hr hu
  have : onWorkers vs = vs.length := by
    unfold onWorkers
    rw [List.filter_eq_self.2]
    intro w hw
    obtain ⟨p, rfl⟩ := h2 w hw
    rfl
  exact Nat.le_of_eq (this.trans h3).symm

theorem held_of_waits {s : Stall F} {ok : Bool} {os : LogOs} {k : Nat}
    (h : ⟨.app (.broadcast ok), os, .log k⟩ ∈ s.waiting) : s.held = true := by
  unfold Stall.held
  rw [List.any_eq_true]
  exact ⟨_, h, rfl⟩

theorem receive_locks (i : List Interface) (d : Bytes) :
    threadLocks (F := F) (.app (.receive i d)) = true ↔ ∃ a, Accepted d a := by
  constructor
  · intro h
    rcases accepted_or_not d with ha | hn
    · exact ha
    · exfalso
      simp only [threadLocks] at h
      split at h
      · rename_i p hr
        have hacc : acceptedStatus p = none := by
          unfold acceptedStatus
          split
          · rename_i st hk hc
            by_cases hm : p.model ≠ rekordboxName
            · exact absurd ⟨(C64_status_layout d ⟨p.model, st.playerNumber, st.ip⟩).1
                ⟨p, st, hr, hk, hc, rfl⟩, hm⟩ (hn _)
            · rw [if_neg hm]
          · rfl
        rw [hacc] at h
        exact nomatch h
      · exact nomatch h
  · rintro ⟨a, ha⟩
    obtain ⟨p, st, hr, hk, hc, he⟩ := (C64_status_layout d a).2 ha.1
    have hm : p.model ≠ rekordboxName := by
      have := ha.2
      rw [he] at this
      exact this
    simp only [threadLocks, hr, acceptedStatus, hk, hc, hm, ne_eq, not_false_eq_true, if_true, Option.isSome]

theorem locksFirst_takes {s : System F} {x : SysAction F} (h : (locksFirst s x || x.links) = true) : TakesLock x := by
  cases x with
  | app x =>
    cases x with
    | receive i d =>
      simp only [locksFirst, SysAction.links, Bool.or_false] at h
      exact (receive_locks i d).1 h
    | broadcast ok => trivial
    | appRecv => simp [locksFirst, SysAction.links, locksState] at h
    | appLink oks => trivial
  | port p ev =>
    simp only [locksFirst, SysAction.links, Bool.or_false, Option.isSome_iff_exists] at h
    obtain ⟨y, hy⟩ := h
    obtain ⟨h1, h2⟩ := locksState_some hy
    injection h1 with h1 h3
    rw [← h3] at h2
    exact h2
  | _ => simp [locksFirst, SysAction.links, locksState] at h

/-- What a step does that does not take the lock. -/
theorem unlocked_step (e : Endian) (m : Mode) (db : Db) (s : System F) (x : SysAction F)
    (hl : locksFirst s x = false) (hx : x.links = false) :
    (∀ b, SysOut.broadcast b ∉ (sysStep e m db s x).1) ∧ (sysStep e m db s x).2.app.state = s.app.state := by
  cases hr : s.app.running with
  | false => simp [sysStep, hr]
  | true =>
    cases x with
    | app x =>
      cases x with
      | receive i d =>
        have : ∀ a, ¬ Accepted d a := by
          intro a ha
          have := (receive_locks (F := F) i d).2 ⟨a, ha⟩
          exact absurd (hl.symm.trans this) (by decide)
        simp [sysStep, hr, appStep, receive_ignored this]
      | broadcast ok => exact nomatch hl
      | appRecv =>
        simp only [sysStep, hr, if_true, appStep, List.map_nil]
        refine ⟨fun b hb => (nomatch hb), ?_⟩
        split
        · rfl
        · unfold appRecvStep
          split <;> rfl
      | appLink oks => exact nomatch hx
    | main c bound =>
      simp only [sysStep, hr, if_true]
      split <;> simp
    | accept c =>
      simp only [sysStep, hr, if_true]
      refine ⟨fun b hb => (nomatch hb), ?_⟩
      split <;> rfl
    | _ => simp [sysStep, hr]

theorem stopAt_none {e : Endian} {m : Mode} {db : Db} {s : System F} {x : SysAction F} {o : LogOs} {full : Option Nat}
    {writing : Bool} (h : stopAt e m db s x o full true writing = none) :
    locksFirst s x = false ∧ x.links = false := by
  unfold stopAt at h
  simp only [Bool.true_and] at h
  split at h
  · exact nomatch h
  · rename_i hl
    refine ⟨by simpa using hl, ?_⟩
    split at h
    · exact nomatch h
    · split at h
      · exact nomatch h
      · rename_i hx
        simpa using hx

/-- C122: one broadcast that the OS refuses does the same to everything that needs the shared state: the broadcaster
waits with the lock, and until somebody reads the log nothing is broadcast and no player is taken notice of. -/
theorem C122_broadcaster (e : Endian) (m : Mode) (db : Db) (workers : Nat) (s : Stall F)
    (hrun : s.sys.app.running = true) (hst : s.waiting = []) (hb : s.sys.app.broadcaster = true)
    (hp : s.sys.app.poisoned = false) (n : PioneerNetwork) (hn : s.sys.app.state.address = some n) (os : LogOs)
    (ho : os.accepted 0 = false) :
    ∃ s', stallStep e m db workers s (.take (.app (.broadcast true)) os (some 0)) = some ([], [], s') ∧
      s'.sys = s.sys ∧ Waits .broadcaster s'.waiting ∧
      ∀ h o l s'', stallRun e m db workers s' h = some (o, l, s'') → Unread h →
        (∀ b, SysOut.broadcast b ∉ o) ∧ s''.sys.app.state = s.sys.app.state := by
  have hlines : lineCount e m db s.sys (.app (.broadcast true)) os = 1 := by
    have h1 := C121_broadcaster e m db s.sys true os
    have h2 := congrArg Prod.fst (sysLog_working e m db s.sys (.app (.broadcast true)) os)
    have h3 := C53_announcement s.sys.app hrun hb hp
    rw [hn] at h3
    simp only [sysStep, hrun, if_true, h3, List.map_cons, List.map_nil] at h2
    rw [h2] at h1
    have : lineCount e m db s.sys (.app (.broadcast true)) os =
        (sysLog e m db s.sys (.app (.broadcast true)) (working os)).2.1.length := rfl
    rw [this, h1]
    simp [refusals, ho, List.range_succ]
  refine ⟨⟨s.sys, s.waiting ++ [⟨.app (.broadcast true), os, .log 0⟩]⟩, stallStep_iff.2 (.wait _ _ _ _ ?_ ?_), rfl,
    ⟨_, List.mem_append_right _ List.mem_cons_self, rfl⟩, ?_⟩
  · simp [canTake, hrun, SysAction.ofTask, hst]
  · simp [stopAt, hlines, Stall.held, hst, waitsAt, Stall.writing, Option.filter]
  · have key : ∀ (h : List (StallAction F)) (o : List SysOut) (l : List LogLine) (t s'' : Stall F),
        ⟨.app (.broadcast true), os, .log 0⟩ ∈ t.waiting → stallRun e m db workers t h = some (o, l, s'') → Unread h →
        (∀ b, SysOut.broadcast b ∉ o) ∧ s''.sys.app.state = t.sys.app.state := by
      intro h
      induction h with
      | nil =>
        intro o l t s'' _ hr _
        simp only [stallRun, Option.some.injEq, Prod.mk.injEq] at hr
        obtain ⟨rfl, rfl, rfl⟩ := hr
        exact ⟨fun b hb => (nomatch hb), rfl⟩
      | cons a h ih =>
        intro o l t s'' ht hr hu
        obtain ⟨o₁, l₁, s₁, o₂, l₂, h1, h2, rfl, rfl⟩ := stallRun_cons.1 hr
        have hu' : Unread h := fun i f hi => hu i f (List.mem_cons_of_mem _ hi)
        have step : ⟨.app (.broadcast true), os, .log 0⟩ ∈ s₁.waiting ∧ (∀ b, SysOut.broadcast b ∉ o₁) ∧
            s₁.sys.app.state = t.sys.app.state := by
          cases stallStep_iff.1 h1 with
          | wait x ox full q hc hq => exact ⟨List.mem_append_left _ ht, fun b hb => (nomatch hb), rfl⟩
          | done x ox full hc hq =>
            rw [held_of_waits ht] at hq
            obtain ⟨c1, c2⟩ := stopAt_none hq
            have hs := sysLog_working e m db t.sys x ox
            have := unlocked_step e m db t.sys x c1 c2
            rw [← hs] at this
            exact ⟨ht, this⟩
          | again pre post w full k => exact absurd List.mem_cons_self (hu _ _)
          | finish pre post w full => exact absurd List.mem_cons_self (hu _ _)
        obtain ⟨i1, i2⟩ := ih o₂ l₂ s₁ s'' step.1 h2 hu'
        refine ⟨fun b hb => ?_, i2.trans step.2.2⟩
        rcases List.mem_append.1 hb with hb | hb
        · exact step.2.1 b hb
        · exact i1 b hb
    intro h o l s'' hr hu
    exact key h o l ⟨s.sys, s.waiting ++ [⟨.app (.broadcast true), os, .log 0⟩]⟩ s''
      (List.mem_append_right _ List.mem_cons_self) hr hu

/-- C122: and every EXPORT call at a mount handler that is taken up meanwhile waits, on a worker. -/
theorem C122_exports (e : Endian) (m : Mode) (db : Db) (workers : Nat) (s s' : Stall F) (ok : Bool) (os os' : LogOs)
    (k : Nat) (hw : ⟨.app (.broadcast ok), os, .log k⟩ ∈ s.waiting) (p : UInt16) (ev : NfsEvent F) (b : Bool)
    (hl : listener p s.sys.services.rpc.tasks = some (.program b)) (ha : AsksForExports ev) (full : Option Nat)
    (o : List SysOut) (l : List LogLine)
    (hr : stallStep e m db workers s (.take (.port p ev) os' full) = some (o, l, s')) :
    o = [] ∧ s'.sys = s.sys ∧ Waits (.port p) s'.waiting ∧ onWorkers s'.waiting = onWorkers s.waiting + 1 := by
  have hh := held_of_waits hw
  have hlk : locksFirst s.sys (.port p ev) = true := by
    show (locksState s.sys (.port p ev)).isSome = true
    rw [locksState_listener hl ha]
    rfl
  cases stallStep_iff.1 hr with
  | wait x ox full q hc hq =>
    refine ⟨rfl, rfl, ⟨_, List.mem_append_right _ List.mem_cons_self, by simp [isOf]⟩, ?_⟩
    simp [onWorkers, isOf]
  | done x ox full hc hq =>
    rw [hh] at hq
    exact absurd ((stopAt_none hq).1.symm.trans hlk) (by decide)

/-- C122: while somebody waits for the log, everybody else who has a line to write waits too. -/
theorem C122_writers (e : Endian) (m : Mode) (db : Db) (workers : Nat) (s s' : Stall F) (w : Wait F)
    (hw : w ∈ s.waiting) (k : Nat) (hk : w.place = .log k) (x : SysAction F) (os : LogOs) (full : Option Nat)
    (hl : (sysLog e m db s.sys x (working os)).2.1 ≠ []) (o : List SysOut) (l : List LogLine)
    (hr : stallStep e m db workers s (.take x os full) = some (o, l, s')) :
    o = [] ∧ l = [] ∧ s'.sys = s.sys ∧ ∀ p, isOf p x = true → Waits p s'.waiting := by
  have hwr : s.writing = true := by
    unfold Stall.writing
    rw [List.any_eq_true]
    exact ⟨w, hw, by rw [hk]⟩
  have hn : lineCount e m db s.sys x os ≠ 0 := fun h => hl (List.length_eq_zero_iff.1 h)
  cases stallStep_iff.1 hr with
  | wait x ox full q hc hq =>
    exact ⟨rfl, rfl, rfl, fun p hp => ⟨_, List.mem_append_right _ List.mem_cons_self, hp⟩⟩
  | done x ox full hc hq =>
    exfalso
    rw [hwr] at hq
    unfold stopAt waitsAt at hq
    rw [if_neg hn] at hq
    simp only [if_true] at hq
    split at hq <;> exact nomatch hq

/-- C122: a process whose log is full once it has started links with no player: it announces its presence, and that is
all it ever broadcasts; it is not ended by anything either. -/
theorem C122_never_links (e : Endian) (m : Mode) (db : Db) (workers : Nat) (s' : Stall F) (h : List (StallAction F))
    (hf : Full h) (o : List SysOut) (l : List LogLine) (hr : stallRun e m db workers .start h = some (o, l, s')) :
    s'.sys.app.running = true ∧ s'.sys.app.state.linking = false ∧
      ∀ b, SysOut.broadcast b ∈ o → ∃ n : PioneerNetwork, b = toAll n (statusDatagram n.network.addr n.mac 1) := by
  have key : ∀ (h : List (StallAction F)) (o : List SysOut) (l : List LogLine) (t : Stall F),
      t.sys.app.running = true ∧ t.sys.app.state.linking = false → stallRun e m db workers t h = some (o, l, s') →
      Full h → (s'.sys.app.running = true ∧ s'.sys.app.state.linking = false) ∧
      ∀ b, SysOut.broadcast b ∈ o → ∃ n : PioneerNetwork, b = toAll n (statusDatagram n.network.addr n.mac 1) := by
    clear hr hf h o l
    intro h
    induction h with
    | nil =>
      intro o l t ht hr _
      simp only [stallRun, Option.some.injEq, Prod.mk.injEq] at hr
      obtain ⟨rfl, rfl, rfl⟩ := hr
      exact ⟨ht, fun b hb => (nomatch hb)⟩
    | cons a h ih =>
      intro o l t ht hr hu
      obtain ⟨o₁, l₁, s₁, o₂, l₂, h1, h2, rfl, rfl⟩ := stallRun_cons.1 hr
      have hu' : Full h := ⟨fun i f hi => hu.1 i f (List.mem_cons_of_mem _ hi),
        fun x y f hi => hu.2 x y f (List.mem_cons_of_mem _ hi)⟩
      have step : (s₁.sys.app.running = true ∧ s₁.sys.app.state.linking = false) ∧
          ∀ b, SysOut.broadcast b ∈ o₁ →
            ∃ n : PioneerNetwork, b = toAll n (statusDatagram n.network.addr n.mac 1) := by
        cases stallStep_iff.1 h1 with
        | wait x ox full q hc hq => exact ⟨ht, fun b hb => (nomatch hb)⟩
        | done x ox full hc hq =>
          obtain rfl : full = some 0 := hu.2 _ _ _ List.mem_cons_self
          have hz : lineCount e m db t.sys x ox = 0 := by
            unfold stopAt at hq
            split at hq
            · exact nomatch hq
            · by_cases hz : lineCount e m db t.sys x ox = 0
              · exact hz
              · have : waitsAt (lineCount e m db t.sys x ox) (some 0) t.writing = some 0 := by
                  unfold waitsAt
                  rw [if_neg hz]
                  cases t.writing
                  · simp [Option.filter, Nat.pos_of_ne_zero hz]
                  · simp
                rw [this] at hq
                exact nomatch hq
          have hs := sysLog_working e m db t.sys x ox
          show ((sysLog e m db t.sys x (working ox)).2.2.app.running = true ∧
              (sysLog e m db t.sys x (working ox)).2.2.app.state.linking = false) ∧
            ∀ b, SysOut.broadcast b ∈ (sysLog e m db t.sys x (working ox)).1 → _
          rw [congrArg Prod.fst hs, show (sysLog e m db t.sys x (working ox)).2.2 = (sysStep e m db t.sys x).2 from
            congrArg Prod.snd hs]
          cases x with
          | app x =>
            simp only [sysStep, ht.1, if_true]
            have hst := stepTo t.sys.app x
            have hlink : ∀ oks, x = .appLink oks → t.sys.app.pending = false := by
              rintro oks rfl
              cases hp : t.sys.app.pending with
              | false => rfl
              | true =>
                have := C121_negotiation e m db t.sys oks ox ht.1 hp
                rw [show lineCount e m db t.sys (.app (.appLink oks)) ox =
                  (sysLog e m db t.sys (.app (.appLink oks)) (working ox)).2.1.length from rfl, this] at hz
                simp at hz
            have hm : ∀ (b : Bytes × Ip4 × UInt16) (l : List (Bytes × Ip4 × UInt16)),
                SysOut.broadcast b ∈ l.map SysOut.broadcast → b ∈ l := by
              intro b l hb
              simpa using hb
            suffices hsuf : ((appStep t.sys.app x).2.running = true ∧ (appStep t.sys.app x).2.state.linking = false) ∧
                ∀ b ∈ (appStep t.sys.app x).1,
                  ∃ n : PioneerNetwork, b = toAll n (statusDatagram n.network.addr n.mac 1) from
              ⟨hsuf.1, fun b hb => hsuf.2 b (hm b _ hb)⟩
            generalize (appStep t.sys.app x).1 = oo at hst ⊢
            generalize (appStep t.sys.app x).2 = a' at hst ⊢
            cases hst with
            | broadcast _ _ _ _ =>
              refine ⟨ht, fun b hb => ?_⟩
              simp only [List.mem_singleton] at hb
              exact ⟨_, hb⟩
            | linkPoisoned _ hp _ => exact absurd ((hlink _ rfl).symm.trans hp) (by decide)
            | linkNowhere _ hp _ _ => exact absurd ((hlink _ rfl).symm.trans hp) (by decide)
            | links _ hp _ _ _ => exact absurd ((hlink _ rfl).symm.trans hp) (by decide)
            | linkFails _ hp _ _ _ _ _ => exact absurd ((hlink _ rfl).symm.trans hp) (by decide)
            | _ => exact ⟨ht, fun b hb => (nomatch hb)⟩
          | main c bound =>
            simp only [sysStep, ht.1, if_true]
            split
            · exact ⟨ht, fun b hb => by simp at hb⟩
            · exact ⟨ht, fun b hb => (nomatch hb)⟩
          | accept c =>
            simp only [sysStep, ht.1, if_true]
            split
            · exact ⟨ht, fun b hb => (nomatch hb)⟩
            · exact ⟨ht, fun b hb => (nomatch hb)⟩
          | _ => exact ⟨by simpa [sysStep, ht.1] using ht, fun b hb => by simp [sysStep, ht.1] at hb⟩
        | again pre post w full k => exact absurd List.mem_cons_self (hu.1 _ _)
        | finish pre post w full => exact absurd List.mem_cons_self (hu.1 _ _)
      obtain ⟨i1, i2⟩ := ih o₂ l₂ s₁ step.1 h2 hu'
      refine ⟨i1, fun b hb => ?_⟩
      rcases List.mem_append.1 hb with hb | hb
      · exact step.2 b hb
      · exact i2 b hb
  obtain ⟨h1, h2⟩ := key h o l .start ⟨rfl, rfl⟩ hr hf
  exact ⟨h1.1, h1.2, h2⟩

/-! ## What holds -/

/-- C122: nothing is lost: in any history everything that is sent and logged, and the state afterwards, is what the
process does with a log that takes every line, for the steps in some order; those of each thread and each task in the
order in which they were taken up, except that the last may still wait. -/
theorem C122_in_order (e : Endian) (m : Mode) (db : Db) (workers : Nat) (h : List (StallAction F)) (o : List SysOut)
    (l : List LogLine) (s' : Stall F) (hr : stallRun e m db workers .start h = some (o, l, s')) :
    ∃ xs : List (SysAction F × LogOs), AllWritten xs ∧ sysLogRun e m db .start xs = (o, l, s'.sys) ∧
      ∀ p, stepsOf p (xs.map Prod.fst) ++ stepsOf p (s'.waiting.map Wait.step) = stepsOf p (takenSteps h) ∧
        (stepsOf p (s'.waiting.map Wait.step)).length ≤ 1 := by
  obtain ⟨hn, xs, h1, h2, h3⟩ := stallRun_order hr (by simp [Stall.start, waitParties])
  refine ⟨xs, h1, h2, fun p => ⟨by simpa [Stall.start, stepsOf] using h3 p, ?_⟩⟩
  have : (stepsOf p (s'.waiting.map Wait.step)).length = (waitParties s'.waiting).count p := by
    unfold stepsOf waitParties
    rw [← List.countP_eq_length_filter, List.count, List.countP_map, List.countP_map]
    apply List.countP_congr
    intro w _
    simp only [Function.comp, isOf_party, beq_iff_eq]
  rw [this]
  exact List.nodup_iff_count_le_one.1 hn p

/-- C122 (full claim: whether somebody reads the log makes no difference).  What holds first: if the log takes every
line at once nobody ever waits, and everything is as in `Model/System.lean`. -/
theorem C122_read_partial (e : Endian) (m : Mode) (db : Db) (workers : Nat) (s s' : Stall F) (hs : s.waiting = [])
    (h : List (StallAction F)) (hf : Open h) (o : List SysOut) (l : List LogLine)
    (hr : stallRun e m db workers s h = some (o, l, s')) :
    s'.waiting = [] ∧ sysRun e m db s.sys (takenSteps h) = (o, s'.sys) := by
  induction h generalizing s o l with
  | nil =>
    simp only [stallRun, Option.some.injEq, Prod.mk.injEq] at hr
    obtain ⟨rfl, rfl, rfl⟩ := hr
    exact ⟨hs, rfl⟩
  | cons a h ih =>
    obtain ⟨o₁, l₁, s₁, o₂, l₂, h1, h2, rfl, rfl⟩ := stallRun_cons.1 hr
    have hf' : Open h := fun x y f hi => hf x y f (List.mem_cons_of_mem _ hi)
    cases stallStep_iff.1 h1 with
    | wait x ox full q hc hq =>
      obtain rfl : full = none := hf _ _ _ List.mem_cons_self
      simp [stopAt, Stall.held, hs, Stall.writing, waitsAt] at hq
    | done x ox full hc hq =>
      obtain ⟨i1, i2⟩ := ih ⟨(sysLog e m db s.sys x (working ox)).2.2, s.waiting⟩ hs hf' o₂ l₂ h2
      refine ⟨i1, ?_⟩
      simp only [takenSteps, sysRun, ← sysLog_working e m db s.sys x ox]
      rw [i2]
    | again pre post w full k hw => rw [hs] at hw; simp at hw
    | finish pre post w full hw => rw [hs] at hw; simp at hw

/-- C122: a step that has nothing to write and does not need the lock of somebody who waits is done as ever, even if
others wait, by whoever does not wait; a task needs a worker that does not wait. -/
theorem C122_others_partial (e : Endian) (m : Mode) (db : Db) (workers : Nat) (s : Stall F) (x : SysAction F) (o : LogOs)
    (full : Option Nat) (hr : s.sys.app.running = true) (hw : ∀ p, isOf p x = true → ¬ Waits p s.waiting)
    (ht : ForTask x → onWorkers s.waiting < workers) (hl : (sysLog e m db s.sys x (working o)).2.1 = [])
    (hk : TakesLock x → ¬ LockTaken s.waiting) :
    stallStep e m db workers s (.take x o full) =
      some ((sysStep e m db s.sys x).1, [], { s with sys := (sysStep e m db s.sys x).2 }) := by
  have hs := sysLog_working e m db s.sys x o
  have hc : canTake workers s x = true := by
    simp only [canTake, Bool.and_eq_true, Bool.or_eq_true, decide_eq_true_eq, List.all_eq_true, busy_eq, hr, true_and]
    refine ⟨?_, ?_⟩
    · cases hx : x.ofTask with
      | false => exact .inl rfl
      | true => exact .inr (ht ((ofTask_iff x).1 hx))
    · intro w hwm hp
      exact hw x.party ((isOf_party _ _).2 rfl) ⟨w, hwm, (isOf_party _ _).2 hp⟩
  have hp : stopAt e m db s.sys x o full s.held s.writing = none := by
    have hn : lineCount e m db s.sys x o = 0 := by
      show (sysLog e m db s.sys x (working o)).2.1.length = 0
      rw [hl]; rfl
    have hh : s.held = false ∨ (locksFirst s.sys x || x.links) = false := by
      cases hlk : (locksFirst s.sys x || x.links) with
      | false => exact .inr rfl
      | true =>
        refine .inl ?_
        have hno := hk (locksFirst_takes hlk)
        unfold Stall.held
        rw [List.any_eq_false]
        intro w hwm hh
        unfold Wait.holds at hh
        split at hh
        · rename_i hst _
          exact hno (.inl ⟨w, hwm, by rw [hst]; rfl⟩)
        · rename_i hst _
          exact hno (.inr ⟨w, hwm, by rw [hst]; rfl⟩)
        · exact nomatch hh
    unfold stopAt waitsAt
    rw [hn]
    rcases hh with hh | hh
    · simp [hh]
    · simp only [Bool.or_eq_false_iff] at hh
      simp [hh.1, hh.2]
  rw [stallStep_iff.2 (.done x o full hc hp), hl, congrArg Prod.fst hs, show
    (sysLog e m db s.sys x (working o)).2.2 = (sysStep e m db s.sys x).2 from congrArg Prod.snd hs]

theorem holds_iff (w : Wait F) : w.holds = true ↔ HasLock w := by
  unfold Wait.holds HasLock
  constructor
  · intro h
    split at h
    · rename_i hs hp
      exact .inl ⟨_, _, hs, hp⟩
    · rename_i hs hp
      exact .inr ⟨_, _, hs, hp⟩
    · exact nomatch h
  · rintro (⟨ok, k, hs, hp⟩ | ⟨oks, k, hs, hp⟩) <;> rw [hs, hp]

theorem wantsLock_false (w : Wait F) (h : w.holds = true) : w.wantsLock = false := by
  unfold Wait.holds at h
  unfold Wait.wantsLock
  split at h
  · rename_i hs hp
    rw [hp, hs]
    split <;> rename_i h0
    · rfl
    · rfl
    · exact nomatch h0
  · rename_i hs hp
    rw [hp]
    rfl
  · exact nomatch h

/-- C122: when the log is read somebody who waits can go on, whoever waits; and does what that step does. -/
theorem C122_goes_on (e : Endian) (m : Mode) (db : Db) (workers : Nat) (s : Stall F) (hr : s.sys.app.running = true)
    (hw : s.waiting ≠ []) :
    ∃ pre w post o l s', s.waiting = pre ++ w :: post ∧
      stallStep e m db workers s (.resume pre.length none) = some (o, l, s') ∧ s'.waiting = pre ++ post ∧
      sysStep e m db s.sys w.step = (o, s'.sys) := by
  have hex : ∃ w ∈ s.waiting, (w.wantsLock && s.held) = false := by
    cases hh : s.held with
    | false =>
      obtain ⟨w, hwm⟩ := List.exists_mem_of_ne_nil _ hw
      exact ⟨w, hwm, by simp⟩
    | true =>
      unfold Stall.held at hh
      rw [List.any_eq_true] at hh
      obtain ⟨w, hwm, hh⟩ := hh
      exact ⟨w, hwm, by simp [wantsLock_false w hh]⟩
  obtain ⟨w, hwm, hl⟩ := hex
  obtain ⟨pre, post, hp⟩ := List.append_of_mem hwm
  have hs := sysLog_working e m db s.sys w.step w.os
  exact ⟨pre, w, post, _, _, _, hp, stallStep_iff.2 (.finish pre post w none hp hr hl rfl), rfl, hs.symm⟩

/-- C122: whoever has no further line to write goes on as soon as its line is taken, even if the log is full again; a
negotiation needs the lock after its first line. -/
theorem C122_last_line (e : Endian) (m : Mode) (db : Db) (workers : Nat) (s : Stall F) (hr : s.sys.app.running = true)
    (i : Nat) (w : Wait F) (hw : s.waiting[i]? = some w) (k : Nat) (hk : w.place = .log k)
    (hl : (sysLog e m db s.sys w.step (working w.os)).2.1.length = k + 1)
    (hn : ∀ oks, w.step = .app (.appLink oks) → k = 0 → ∀ v ∈ s.waiting, ¬ HasLock v) (full : Option Nat) :
    ∃ s', stallStep e m db workers s (.resume i full) =
      some ((sysStep e m db s.sys w.step).1, (sysLog e m db s.sys w.step (working w.os)).2.1, s') ∧
      s'.sys = (sysStep e m db s.sys w.step).2 ∧ s'.waiting = s.waiting.eraseIdx i := by
  obtain ⟨pre, post, h1, h2⟩ := split_at _ _ _ hw
  have hlock : (w.wantsLock && s.held) = false := by
    cases hwl : w.wantsLock with
    | false => rfl
    | true =>
      have hx : k = 0 ∧ w.step.links = true := by
        unfold Wait.wantsLock at hwl
        rw [hk] at hwl
        cases k with
        | zero => exact ⟨rfl, hwl⟩
        | succ k => exact nomatch hwl
      have ho : ∃ oks, w.step = .app (.appLink oks) := by
        cases hst : w.step with
        | app x =>
          cases x with
          | appLink oks => exact ⟨oks, rfl⟩
          | _ => rw [hst] at hx; exact nomatch hx.2
        | _ => rw [hst] at hx; exact nomatch hx.2
      obtain ⟨oks, ho⟩ := ho
      rw [Bool.true_and]
      unfold Stall.held
      rw [List.any_eq_false]
      exact fun v hv hh => hn oks ho hx.1 v hv ((holds_iff v).1 hh)
  have hagain : w.again (lineCount e m db s.sys w.step w.os) full = none := by
    have : lineCount e m db s.sys w.step w.os = k + 1 := hl
    unfold Wait.again
    rw [this, Option.filter_eq_none_iff]
    intro j hj
    obtain ⟨f, -, rfl⟩ := Option.map_eq_some_iff.1 hj
    simp only [Wait.next, hk, decide_eq_true_eq]
    omega
  have hs := sysLog_working e m db s.sys w.step w.os
  have hfin := stallStep_iff.2 (.finish pre post w full h1 hr hlock hagain : StallDoes e m db workers s _ _ _ _)
  rw [h2, show (sysLog e m db s.sys w.step (working w.os)).1 = (sysStep e m db s.sys w.step).1 from
    congrArg Prod.fst hs] at hfin
  refine ⟨_, hfin, congrArg Prod.snd hs, ?_⟩
  rw [h1, ← h2, List.eraseIdx_append_of_length_le (Nat.le_refl _), Nat.sub_self]
  rfl

/-- C122: so nobody waits for ever once the log is read: whatever waits, all of it can be done, one after the other,
unless the process ends meanwhile. -/
theorem C122_all_go_on (e : Endian) (m : Mode) (db : Db) (workers : Nat) (s : Stall F)
    (hr : s.sys.app.running = true) :
    ∃ h o l s', takenSteps h = [] ∧ stallRun e m db workers s h = some (o, l, s') ∧
      (s'.waiting = [] ∨ s'.sys.app.running = false) := by
  generalize hn : s.waiting.length = n
  induction n generalizing s with
  | zero => exact ⟨[], [], [], s, rfl, rfl, .inl (List.length_eq_zero_iff.1 hn)⟩
  | succ n ih =>
    obtain ⟨pre, w, post, o, l, s₁, h1, h2, h3, h4⟩ := C122_goes_on e m db workers s hr
      (by intro h0; rw [h0] at hn; simp at hn)
    cases hr1 : s₁.sys.app.running with
    | false => exact ⟨[.resume pre.length none], o ++ [], l ++ [], s₁, rfl,
        stallRun_cons.2 ⟨o, l, s₁, [], [], h2, rfl, rfl, rfl⟩, .inr hr1⟩
    | true =>
      obtain ⟨h, o', l', s', i0, i1, i2⟩ := ih s₁ hr1 (by
        rw [h1] at hn
        rw [h3]
        simp only [List.length_append, List.length_cons] at hn ⊢
        omega)
      exact ⟨.resume pre.length none :: h, o ++ o', l ++ l', s', i0,
        stallRun_cons.2 ⟨o, l, s₁, o', l', h2, i1, rfl, rfl⟩, i2⟩

/-! ## The lock -/

/-- At most one has the lock, and an announcement that is accepted does not wait for the log. -/
def LockInv (s : Stall F) : Prop :=
  (s.waiting.filter Wait.holds).length ≤ 1 ∧
  ∀ w ∈ s.waiting, ∀ i d k, w.step = .app (.receive i d) → w.place = .log k → ∀ a, ¬ Accepted d a

theorem held_false {s : Stall F} (h : s.held = false) : s.waiting.filter Wait.holds = [] := by
  unfold Stall.held at h
  rw [List.any_eq_false] at h
  rw [List.filter_eq_nil_iff]
  exact h

theorem receive_lines (e : Endian) (m : Mode) (db : Db) (s : System F) (i : List Interface) (d : Bytes) (o : LogOs)
    (h : lineCount e m db s (.app (.receive i d)) o ≠ 0) : ∀ a, ¬ Accepted d a := by
  intro a ha
  apply h
  cases hr : s.app.running with
  | false => simp [lineCount, sysLog, hr]
  | true =>
    show (sysLog e m db s (.app (.receive i d)) (working o)).2.1.length = 0
    rw [sysLog_accepted e m db s i ha (working o) hr]
    rfl

theorem stopAt_log {e : Endian} {m : Mode} {db : Db} {s : System F} {x : SysAction F} {o : LogOs} {full : Option Nat}
    {held writing : Bool} {k : Nat} (h : stopAt e m db s x o full held writing = some (.log k)) :
    lineCount e m db s x o ≠ 0 ∧ (held = true → locksFirst s x = false) ∧
      (held = true → x.links = true → k = 0) := by
  unfold stopAt at h
  split at h
  · exact nomatch h
  · rename_i hl
    have hw : ∀ j, waitsAt (lineCount e m db s x o) full writing = some j → lineCount e m db s x o ≠ 0 := by
      intro j hj hz
      unfold waitsAt at hj
      rw [if_pos hz] at hj
      exact nomatch hj
    have h1 : held = true → locksFirst s x = false := by
      rintro rfl
      simpa using hl
    split at h
    · rename_i h0
      injection h with h
      injection h with h
      exact ⟨hw 0 h0, h1, fun _ _ => h.symm⟩
    · rename_i b hb
      split at h
      · exact nomatch h
      · rename_i hx
        rw [Option.map_eq_some_iff] at h
        obtain ⟨j, hj, hk⟩ := h
        exact ⟨hw j hj, h1, fun hh hlk => absurd (by simp [hh, hlk]) hx⟩

theorem stallDoes_lock {e : Endian} {m : Mode} {db : Db} {n : Nat} {s s' : Stall F} {a : StallAction F}
    {o : List SysOut} {l : List LogLine} (h : StallDoes e m db n s a o l s') (hi : LockInv s) : LockInv s' := by
  cases h with
  | wait x ox full p hc hp =>
    refine ⟨?_, ?_⟩
    · rw [List.filter_append, List.length_append]
      cases hh : s.held with
      | false =>
        rw [held_false hh]
        have : ([(⟨x, ox, p⟩ : Wait F)].filter Wait.holds).length ≤ [(⟨x, ox, p⟩ : Wait F)].length :=
          List.length_filter_le _ _
        simpa using this
      | true =>
        rw [hh] at hp
        have : (⟨x, ox, p⟩ : Wait F).holds = false := by
          rw [Bool.eq_false_iff, ne_eq, holds_iff]
          rintro (⟨ok, k, hs, hpl⟩ | ⟨oks, k, hs, hpl⟩)
          · simp only at hs hpl
            rw [hs, hpl] at hp
            exact absurd ((stopAt_log hp).2.1 rfl) (by simp [locksFirst])
          · simp only at hs hpl
            rw [hs, hpl] at hp
            exact absurd ((stopAt_log hp).2.2 rfl rfl) (by omega)
        simp only [List.filter_cons, this, List.filter_nil]
        simpa using hi.1
    · intro w hw i d k hs hpl
      rcases List.mem_append.1 hw with hw | hw
      · exact hi.2 w hw i d k hs hpl
      · rw [List.mem_singleton] at hw
        subst hw
        simp only at hs hpl
        rw [hs, hpl] at hp
        exact receive_lines e m db s.sys i d ox (stopAt_log hp).1
  | done x ox full hc hp => exact hi
  | again pre post w full k hw hr hl hk =>
    have hz : lineCount e m db s.sys w.step w.os ≠ 0 ∧ w.next ≤ k := by
      unfold Wait.again at hk
      rw [Option.filter_eq_some_iff] at hk
      obtain ⟨h1, h2⟩ := hk
      rw [Option.map_eq_some_iff] at h1
      obtain ⟨j, -, hj⟩ := h1
      have := of_decide_eq_true h2
      exact ⟨by omega, by rw [← hj]; exact Nat.le_max_left _ _⟩
    refine ⟨?_, ?_⟩
    · have h1 := hi.1
      rw [hw] at h1
      by_cases hold : w.holds = true
      · simp only [List.filter_append, List.length_append, List.filter_cons, hold, if_true, List.length_cons] at h1 ⊢
        split
        · simp only [List.length_cons]
          omega
        · omega
      · by_cases hnew : (⟨w.step, w.os, .log k⟩ : Wait F).holds = true
        · have hwant : w.wantsLock = true := by
            rw [holds_iff] at hnew hold
            unfold Wait.wantsLock
            rcases hnew with ⟨ok, j, hs, hpl⟩ | ⟨oks, j, hs, hpl⟩
            · simp only at hs
              cases hpw : w.place with
              | lock => rfl
              | log i => exact absurd (.inl ⟨ok, i, hs, hpw⟩) hold
            · simp only at hs
              cases hpw : w.place with
              | lock => rfl
              | log i =>
                cases i with
                | zero => simp [hs, SysAction.links]
                | succ i => exact absurd (.inr ⟨oks, i, hs, hpw⟩) hold
          rw [hwant, Bool.true_and] at hl
          have h0 := held_false hl
          rw [hw] at h0
          simp only [List.filter_append, List.filter_cons, hold, List.append_eq_nil_iff] at h0
          have h02 : post.filter Wait.holds = [] := by simpa using h0.2
          simp [List.filter_append, hnew, h0.1, h02]
        · simp only [List.filter_append, List.length_append, List.filter_cons, hold, hnew] at h1 ⊢
          simpa using h1
    · intro v hv i d j hs hpl
      rcases List.mem_append.1 hv with hv | hv
      · exact hi.2 v (by rw [hw]; exact List.mem_append_left _ hv) i d j hs hpl
      · rcases List.mem_cons.1 hv with hv | hv
        · subst hv
          simp only at hs
          rw [hs] at hz
          exact receive_lines e m db s.sys i d w.os hz.1
        · exact hi.2 v (by rw [hw]; exact List.mem_append_right _ (List.mem_cons_of_mem _ hv)) i d j hs hpl
  | finish pre post w full hw hr hl hk =>
    refine ⟨?_, fun v hv => hi.2 v ?_⟩
    · have h1 := hi.1
      rw [hw] at h1
      simp only [List.filter_append, List.length_append, List.filter_cons] at h1 ⊢
      split at h1
      · simp only [List.length_cons] at h1
        omega
      · exact h1
    · rw [hw]
      rcases List.mem_append.1 hv with hv | hv
      · exact List.mem_append_left _ hv
      · exact List.mem_append_right _ (List.mem_cons_of_mem _ hv)

theorem stallRun_lock {e : Endian} {m : Mode} {db : Db} {n : Nat} {s s' : Stall F} {h : List (StallAction F)}
    {o : List SysOut} {l : List LogLine} (hr : stallRun e m db n s h = some (o, l, s')) (hi : LockInv s) :
    LockInv s' := by
  induction h generalizing s o l with
  | nil =>
    simp only [stallRun, Option.some.injEq, Prod.mk.injEq] at hr
    obtain ⟨rfl, rfl, rfl⟩ := hr
    exact hi
  | cons a h ih =>
    obtain ⟨o₁, l₁, s₁, o₂, l₂, h1, h2, rfl, rfl⟩ := stallRun_cons.1 hr
    exact ih h2 (stallDoes_lock (stallStep_iff.1 h1) hi)

/-- C122: the lock is respected while somebody waits with it: at any time at most one does, and whatever the others do
then broadcasts nothing and leaves the shared state as it is, and he goes on waiting. -/
theorem C122_exclusive (e : Endian) (m : Mode) (db : Db) (workers : Nat) (h : List (StallAction F)) (o : List SysOut)
    (l : List LogLine) (s : Stall F) (hr : stallRun e m db workers .start h = some (o, l, s)) (i : Nat) (w : Wait F)
    (hw : s.waiting[i]? = some w) (hl : HasLock w) :
    (∀ j v, s.waiting[j]? = some v → HasLock v → j = i) ∧
    ∀ a o' l' s', stallStep e m db workers s a = some (o', l', s') → (∀ full, a ≠ .resume i full) →
      (∀ b, SysOut.broadcast b ∉ o') ∧ s'.sys.app.state = s.sys.app.state ∧ w ∈ s'.waiting := by
  have hi := stallRun_lock hr ⟨by simp [Stall.start], fun w hw => (nomatch hw)⟩
  have one : ∀ j v, s.waiting[j]? = some v → HasLock v → j = i := by
    intro j v hj hv
    by_contra hne
    obtain ⟨pre, post, h1, h2⟩ := split_at _ _ _ hw
    have hlen := hi.1
    rw [h1] at hj hlen
    simp only [List.filter_append, List.length_append, List.filter_cons, (holds_iff w).2 hl, if_true,
      List.length_cons] at hlen
    have hmem : v ∈ pre ∨ v ∈ post := by
      rcases Nat.lt_or_ge j pre.length with hlt | hge
      · rw [List.getElem?_append_left hlt] at hj
        exact .inl (List.mem_of_getElem? hj)
      · rw [List.getElem?_append_right hge] at hj
        obtain ⟨k, hk⟩ : ∃ k, j - pre.length = k + 1 := ⟨j - pre.length - 1, by omega⟩
        rw [hk, List.getElem?_cons_succ] at hj
        exact .inr (List.mem_of_getElem? hj)
    have hv' := (holds_iff v).2 hv
    rcases hmem with hm | hm
    · have : 0 < (pre.filter Wait.holds).length := List.length_pos_of_mem (List.mem_filter.2 ⟨hm, hv'⟩)
      omega
    · have : 0 < (post.filter Wait.holds).length := List.length_pos_of_mem (List.mem_filter.2 ⟨hm, hv'⟩)
      omega
  refine ⟨one, ?_⟩
  intro a o' l' s' ha hne
  have hwm : w ∈ s.waiting := List.mem_of_getElem? hw
  have hheld : s.held = true := by
    unfold Stall.held
    rw [List.any_eq_true]
    exact ⟨w, hwm, (holds_iff w).2 hl⟩
  cases stallStep_iff.1 ha with
  | wait x ox full q hc hq => exact ⟨fun b hb => (nomatch hb), rfl, List.mem_append_left _ hwm⟩
  | done x ox full hc hq =>
    rw [hheld] at hq
    obtain ⟨c1, c2⟩ := stopAt_none hq
    have := unlocked_step e m db s.sys x c1 c2
    rw [← sysLog_working e m db s.sys x ox] at this
    exact ⟨this.1, this.2, hwm⟩
  | again pre post v full k hv hrun hlv hk =>
    refine ⟨fun b hb => (nomatch hb), rfl, ?_⟩
    rw [hv] at hwm
    rcases List.mem_append.1 hwm with hm | hm
    · exact List.mem_append_left _ hm
    · rcases List.mem_cons.1 hm with hm | hm
      · have := one pre.length v (by rw [hv]; simp) (hm ▸ hl)
        exact absurd (by rw [this]) (hne full)
      · exact List.mem_append_right _ (List.mem_cons_of_mem _ hm)
  | finish pre post v full hv hrun hlv hk =>
    have hnv : ¬ HasLock v := fun h => absurd (by rw [one pre.length v (by rw [hv]; simp) h]) (hne full)
    rw [hheld, Bool.and_true] at hlv
    have hvm : v ∈ s.waiting := by rw [hv]; exact List.mem_append_right _ List.mem_cons_self
    have hplace : ∃ k, v.place = .log k := by
      cases hp : v.place with
      | log k => exact ⟨k, rfl⟩
      | lock => simp [Wait.wantsLock, hp] at hlv
    obtain ⟨k, hplace⟩ := hplace
    have hlinks : v.step.links = false := by
      cases hx : v.step.links with
      | false => rfl
      | true =>
        exfalso
        cases hst : v.step with
        | app x =>
          cases x with
          | appLink oks =>
            cases k with
            | zero => simp [Wait.wantsLock, hplace, hx] at hlv
            | succ k => exact hnv (.inr ⟨oks, k, hst, hplace⟩)
          | _ => rw [hst] at hx; exact nomatch hx
        | _ => rw [hst] at hx; exact nomatch hx
    have hmem : w ∈ pre ++ post := by
      have hwm' := hwm
      rw [hv] at hwm'
      rcases List.mem_append.1 hwm' with hm | hm
      · exact List.mem_append_left _ hm
      · rcases List.mem_cons.1 hm with hm | hm
        · exact absurd (hm ▸ hl) hnv
        · exact List.mem_append_right _ hm
    have hfin : (∀ b, SysOut.broadcast b ∉ (sysStep e m db s.sys v.step).1) ∧
        (sysStep e m db s.sys v.step).2.app.state = s.sys.app.state := by
      cases hst : v.step with
      | app x =>
        refine unlocked_step e m db s.sys _ ?_ (by rw [← hst]; exact hlinks)
        cases x with
        | receive i d =>
          have := hi.2 v hvm i d k hst hplace
          cases hc : locksFirst s.sys (.app (.receive i d)) with
          | false => rfl
          | true =>
            obtain ⟨a, ha⟩ := (receive_locks (F := F) i d).1 hc
            exact absurd ha (this a)
        | broadcast ok => exact absurd (.inl ⟨ok, k, hst, hplace⟩) hnv
        | appRecv => rfl
        | appLink oks => rfl
      | port p ev =>
        cases hrn : s.sys.app.running <;> simp [sysStep, hrn]
      | _ => exact unlocked_step e m db s.sys _ rfl rfl
    rw [← sysLog_working e m db s.sys v.step v.os] at hfin
    exact ⟨hfin.1, hfin.2, hmem⟩

/-! ## The hypotheses are met -/

/-- C122_exclusive: a player is heard, and the first announcement is refused and waits. -/
example (e : Endian) (m : Mode) (db : Db) : ∃ o l s', stallRun e m db 4 (.start : Stall Nat)
    [.take (.app (.receive exampleInterfaces exampleDatagram)) ⟨fun _ => true, fun _ => false⟩ none,
      .take (.app (.broadcast true)) ⟨fun _ => true, fun _ => false⟩ (some 0)] = some (o, l, s') ∧
    ∃ w, s'.waiting[0]? = some w ∧ HasLock w :=
  ⟨_, _, _, rfl, _, rfl, .inl ⟨_, _, rfl, rfl⟩⟩

/-- A process with two mount handlers, which knows its network. -/
def exampleTwo : Stall Nat :=
  ⟨⟨exampleLinking, ⟨⟨true, [(7, .program true), (8, .program true)]⟩, true⟩, [], .start, true⟩, []⟩

def exampleByte : NfsEvent Nat := ⟨sampleWorld, fun _ _ _ => true, .datagram [0] ⟨1, 2⟩⟩

def exampleOs : LogOs := ⟨fun _ => true, fun _ => false⟩

/-- The same after a byte at each of the two. -/
def exampleTwoWait : Stall Nat :=
  { exampleTwo with waiting := [⟨.port 7 exampleByte, exampleOs, .log 0⟩, ⟨.port 8 exampleByte, exampleOs, .log 0⟩] }

example (e : Endian) (m : Mode) (db : Db) :=
  C122_starvable e m db 2 exampleTwo rfl rfl [7, 8] (by decide) rfl
    (by
      intro p hp
      simp only [List.mem_cons, List.not_mem_nil, or_false] at hp
      rcases hp with rfl | rfl <;> simp [exampleTwo, listener, RpcTask.live])
    exampleByte [0] ⟨1, 2⟩ rfl (one_byte_garbled 0).1 exampleOs

/-- The portmapper is not served then, and the status server is. -/
example (e : Endian) (m : Mode) (db : Db) (o : List SysOut) (l : List LogLine) (s' : Stall Nat)
    (h : stallRun e m db 2 exampleTwoWait [.take (.status .ioError) exampleOs none] = some (o, l, s')) :=
  C122_no_worker e m db 2 exampleTwoWait s' (by decide) _ o l h (fun i f hi => by simp at hi)

example (e : Endian) (m : Mode) (db : Db) (o : List SysOut) (l : List LogLine) (s' : Stall Nat)
    (h : stallRun e m db 2 exampleTwoWait [.take (.status .ioError) exampleOs none] = some (o, l, s')) :=
  C122_waits e m db 2 exampleTwoWait s' (.port 7) ⟨_, List.mem_cons_self, rfl⟩ _ o l h (fun i f hi => by simp at hi)

example (e : Endian) (m : Mode) (db : Db) :
    ∃ o l s', stallRun e m db 2 exampleTwoWait [.take (.status .ioError) exampleOs none] = some (o, l, s') :=
  ⟨_, _, _, rfl⟩

example (e : Endian) (m : Mode) (db : Db) :=
  C122_broadcaster e m db 2 exampleTwo rfl rfl rfl rfl exampleNetwork rfl exampleOs rfl

/-- The broadcaster waits, and a player asks for the exports. -/
example (e : Endian) (m : Mode) (db : Db) (o : List SysOut) (l : List LogLine) (s' : Stall Nat)
    (h : stallStep e m db 2 { exampleTwo with waiting := [⟨.app (.broadcast true), exampleOs, .log 0⟩] }
      (.take (.port 7 exampleExportEvent) exampleOs none) = some (o, l, s')) :=
  C122_exports e m db 2 _ s' true exampleOs exampleOs 0 List.mem_cons_self 7 exampleExportEvent true
    (by simp [exampleTwo, listener, RpcTask.live]) exampleExportEvent_asks none o l h

example (e : Endian) (m : Mode) (db : Db) : ∃ o l s',
    stallStep e m db 2 { exampleTwo with waiting := [⟨.app (.broadcast true), exampleOs, .log 0⟩] }
      (.take (.port 7 exampleExportEvent) exampleOs none) = some (o, l, s') := ⟨_, _, _, rfl⟩

/-- A player is heard, the main thread is told and waits, and the presence is announced. -/
def exampleFull : List (StallAction Nat) :=
  [.take (.app (.receive exampleInterfaces exampleDatagram)) exampleOs (some 0), .take (.app .appRecv) exampleOs (some 0),
    .take (.app (.broadcast true)) ⟨fun _ => true, fun _ => true⟩ (some 0)]

theorem exampleFull_full : Full exampleFull :=
  ⟨fun i f hi => by simp [exampleFull] at hi, fun x o f hi => by
    simp only [exampleFull, List.mem_cons, List.not_mem_nil, or_false] at hi
    rcases hi with h | h | h <;> injection h⟩

example (e : Endian) (m : Mode) (db : Db) :
    ∃ o l s', stallRun e m db 4 .start exampleFull = some (o, l, s') := ⟨_, _, _, rfl⟩

example (e : Endian) (m : Mode) (db : Db) (o : List SysOut) (l : List LogLine) (s' : Stall Nat)
    (h : stallRun e m db 4 .start exampleFull = some (o, l, s')) :=
  C122_never_links e m db 4 s' exampleFull exampleFull_full o l h

example (e : Endian) (m : Mode) (db : Db) (o : List SysOut) (l : List LogLine) (s' : Stall Nat)
    (h : stallRun e m db 4 .start exampleFull = some (o, l, s')) :=
  C122_in_order e m db 4 exampleFull o l s' h

/-- The first byte waits; the log is read; and then the second does. -/
example (e : Endian) (m : Mode) (db : Db) : ∃ o l s', stallRun e m db 2 (.start : Stall Nat)
    [.take (.portmap (fun _ _ => true) none (.datagram [0] ⟨1, 2⟩)) exampleOs (some 0), .resume 0 none,
      .take (.portmap (fun _ _ => true) none (.datagram [0] ⟨1, 2⟩)) exampleOs (some 0)] = some (o, l, s') ∧
    o = [] ∧ l = [.badRpc [0]] ∧ s'.waiting.length = 1 := ⟨_, _, _, rfl, rfl, rfl, rfl⟩

def exampleOpen : List (StallAction Nat) :=
  [.take (.status .ioError) exampleOs none, .take (.app .appRecv) exampleOs none]

theorem exampleOpen_open : Open exampleOpen := by
  intro x o f hi
  simp only [exampleOpen, List.mem_cons, List.not_mem_nil, or_false] at hi
  rcases hi with h | h <;> injection h

example (e : Endian) (m : Mode) (db : Db) (o : List SysOut) (l : List LogLine) (s' : Stall Nat)
    (h : stallRun e m db 4 .start exampleOpen = some (o, l, s')) :=
  C122_read_partial e m db 4 .start s' rfl exampleOpen exampleOpen_open o l h

example (e : Endian) (m : Mode) (db : Db) :
    ∃ o l s', stallRun e m db 4 .start exampleOpen = some (o, l, s') := ⟨_, _, _, rfl⟩

/-- With a third worker the portmapper goes on. -/
example (e : Endian) (m : Mode) (db : Db) (os : Bytes → Addr → Bool) :=
  C122_others_partial e m db 3 exampleTwoWait (.portmap os none .ioError) exampleOs none rfl
    (by
      rintro p hp ⟨w, hw, hi⟩
      rw [isOf_party] at hp hi
      rw [← hi] at hp
      simp only [exampleTwoWait, List.mem_cons, List.not_mem_nil, or_false] at hw
      rcases hw with rfl | rfl <;> exact nomatch hp)
    (fun _ => by decide) rfl (fun h => h.elim)

example (e : Endian) (m : Mode) (db : Db) :=
  C122_goes_on e m db 2 exampleTwoWait rfl (by simp [exampleTwoWait])

example (e : Endian) (m : Mode) (db : Db) := C122_all_go_on e m db 2 exampleTwoWait rfl

/-- C122_writers: a byte arrives at the portmapper while two handlers wait; C122_last_line: one of the broadcaster's. -/
example (e : Endian) (m : Mode) (db : Db) :
    (sysLog e m db exampleTwoWait.sys (.portmap (fun _ _ => true) none (.datagram [0] ⟨1, 2⟩)) (working exampleOs)).2.1 ≠
      [] ∧
    (sysLog e m db exampleTwo.sys (.app (.broadcast true)) (working exampleOs)).2.1.length = 1 := by
  refine ⟨?_, rfl⟩
  rw [(C121_portmapper e m db exampleTwoWait.sys _ none [0] ⟨1, 2⟩ exampleOs rfl rfl).1 (one_byte_garbled 0).1]
  simp

end PDJ

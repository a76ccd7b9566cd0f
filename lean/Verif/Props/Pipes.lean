import Verif.Spec.Pipes
import Verif.Props.Workers
import Verif.Props.Explained
import Verif.Lemmas.Somewhere

/-!
# Property C116: a file request does not hold up the others
-/

namespace PDJ

open Spec

variable {F : Type}

/-! ## Lemmas -/

theorem find_listener (p : UInt16) (ts : List (UInt16 × RpcTask F)) :
    (ts.find? (fun t => t.1 = p && t.2.live)).map (·.2) = listener p ts := by
  induction ts with
  | nil => rfl
  | cons t ts ih =>
    unfold listener
    by_cases hc : t.1 = p ∧ t.2.live = true
    · rw [if_pos hc, List.find?_cons_of_pos (by simp [hc])]
      rfl
    · rw [if_neg hc, List.find?_cons_of_neg (by simpa using hc)]
      exact ih

theorem opensPipe_some {pipe : Str → Bool} {s : System F} {x : SysAction F} {y : UInt16 × NfsEvent F}
    (h : opensPipe pipe s x = some y) : x = .port y.1 y.2 ∧ ∃ st pending,
      listener y.1 s.services.rpc.tasks = some (.nfs (.running st pending)) ∧
        (st.path ≠ [] → OpensPipe pipe st.path y.2) := by
  unfold opensPipe at h
  split at h
  · rename_i p ev
    split at h
    · rename_i z st pending hf
      have hl := find_listener p s.services.rpc.tasks
      rw [hf] at hl
      split at h
      · exact nomatch h
      · rename_i d peer hr
        split at h
        · rename_i q hq
          split at h
          · rename_i a ha
            split at h
            · rename_i mt hm
              split at h
              · rename_i hp
                injection h with h
                subst h
                refine ⟨rfl, st, pending, hl.symm, fun hne => ?_⟩
                obtain ⟨pr, h2, h3⟩ := request_isCall hq
                rw [ha] at h3
                generalize q.call.program = g at h3
                cases h3 with
                | lookup fh name hlen hfits =>
                  exact ⟨d, peer, q.xid, fh, name, _, hr, h2, resolves_push _ _ hne,
                    (fun hn => absurd (hm.symm.trans hn) (by simp)), hp⟩
              · exact nomatch h
            · exact nomatch h
          · exact nomatch h
        · exact nomatch h
    · exact nomatch h
  · exact nomatch h

theorem opensPipe_listener {pipe : Str → Bool} {s : System F} {p : UInt16} {ev : NfsEvent F} {st : Nfs F}
    {pending : Option (Bytes × Addr)}
    (hl : listener p s.services.rpc.tasks = some (.nfs (.running st pending)))
    (ha : OpensPipe pipe st.path ev) : opensPipe pipe s (.port p ev) = some (p, ev) := by
  obtain ⟨d, peer, xid, fh, name, path, hr, hc, hp, hs, hpipe⟩ := ha
  obtain ⟨q, hq, -, hm⟩ := (C81_call_iff _ _ _).1 hc
  have hf := find_listener p s.services.rpc.tasks
  rw [hl] at hf
  cases hz : s.services.rpc.tasks.find? (fun t => t.1 = p && t.2.live) with
  | none => rw [hz] at hf; exact nomatch hf
  | some t =>
    obtain ⟨z, t⟩ := t
    rw [hz] at hf
    injection hf with hf
    have hf : t = .nfs (.running st pending) := hf
    subst hf
    unfold opensPipe
    simp only [hz, hr, hq]
    generalize hpr : q.call.procedure = pr at hm
    generalize q.call.program = g at hm
    cases hm with
    | lookup _ _ hlen hfits =>
      simp only [push_of_resolves hp]
      cases hst : ev.world.stat path with
      | none => exact absurd hst hs
      | some mt => simp [hpipe]

theorem pipesRun_cons {e : Endian} {m : Mode} {db : Db} {n : Nat} {s s' : Pipes F} {x : PipesAction F}
    {h : List (PipesAction F)} {o : List SysOut} :
    pipesRun e m db n s (x :: h) = some (o, s') ↔ ∃ o₁ s₁ o₂, pipesStep e m db n s x = some (o₁, s₁) ∧
      pipesRun e m db n s₁ h = some (o₂, s') ∧ o = o₁ ++ o₂ := by
  simp only [pipesRun]
  constructor
  · intro hr
    split at hr
    · exact nomatch hr
    · rename_i o₁ s₁ h1
      split at hr
      · exact nomatch hr
      · rename_i o₂ s₂ h2
        injection hr with hr
        injection hr with hr1 hr2
        subst hr1 hr2
        exact ⟨o₁, s₁, o₂, h1, h2, rfl⟩
  · rintro ⟨o₁, s₁, o₂, h1, h2, rfl⟩
    rw [h1]
    simp only [h2]

theorem pipesRun_append {e : Endian} {m : Mode} {db : Db} {n : Nat} {s s₁ s' : Pipes F}
    {h k : List (PipesAction F)} {o₁ o₂ : List SysOut} (h1 : pipesRun e m db n s h = some (o₁, s₁))
    (h2 : pipesRun e m db n s₁ k = some (o₂, s')) : pipesRun e m db n s (h ++ k) = some (o₁ ++ o₂, s') := by
  induction h generalizing s o₁ with
  | nil =>
    simp only [pipesRun] at h1
    injection h1 with h1
    injection h1 with ha hb
    subst ha hb
    exact h2
  | cons x h ih =>
    obtain ⟨a, t, b, ha, hb, rfl⟩ := pipesRun_cons.1 h1
    rw [List.cons_append, pipesRun_cons]
    exact ⟨a, t, b ++ o₂, ha, ih hb, by rw [List.append_assoc]⟩

/-- Only taking up the step of a task needs a worker. -/
theorem poolStep_workers (e : Endian) (m : Mode) (db : Db) (n k : Nat) (s : Pool F) (x : PoolAction F)
    (hx : ∀ y, x ≠ .take y) : poolStep e m db n s x = poolStep e m db k s x := by
  cases x with
  | take y => exact absurd rfl (hx y)
  | _ => rfl

theorem pipesStep_act {e : Endian} {m : Mode} {db : Db} {n : Nat} {s : Pipes F} {pipe : Str → Bool}
    {x : PoolAction F} (hx : ∀ y, x ≠ .take y) : pipesStep e m db n s (.act pipe x) =
      (poolStep e m db n s.pool x).map fun r => (r.1, { s with pool := r.2 }) := by
  cases x with
  | take y => exact absurd rfl (hx y)
  | _ =>
    simp only [pipesStep]
    rw [poolStep_workers e m db _ n s.pool _ hx]
    cases poolStep e m db n s.pool _ <;> rfl

/-! ## What is false -/

/-- C116 (full claim: a request for files does not hold up others).  The claim is false: when as many LOOKUP
calls as there are workers wait for pipes, no request to the RPC and library services is taken up or
answered, in whatever order things happen, until one of the pipes is opened by somebody else: for ever, if
nobody does. -/
theorem C116_stopped (e : Endian) (m : Mode) (db : Db) (workers : Nat) (s s' : Pipes F)
    (hs : workers ≤ s.opening.length) (hst : s.pool.stuck = []) (h : List (PipesAction F)) (o : List SysOut)
    (hr : pipesRun e m db workers s h = some (o, s')) (hu : ∀ i, PipesAction.opened i ∉ h) :
    (∀ x ∈ o, (∃ d, x = .status d) ∨ ∃ d, x = .broadcast d) ∧ (∀ pipe x, PipesAction.act pipe (.take x) ∉ h) ∧
      s'.opening = s.opening ∧ s'.pool.stuck = [] := by
  induction h generalizing s o with
  | nil =>
    simp only [pipesRun] at hr
    injection hr with hr
    injection hr with ho hs'
    subst ho hs'
    exact ⟨fun x hx => (nomatch hx), fun pipe x hx => (nomatch hx), rfl, hst⟩
  | cons x h ih =>
    obtain ⟨o₁, s₁, o₂, h1, h2, rfl⟩ := pipesRun_cons.1 hr
    have hstep : (∀ x ∈ o₁, (∃ d, x = .status d) ∨ ∃ d, x = .broadcast d) ∧ s₁.opening = s.opening ∧
        s₁.pool.stuck = [] ∧ ∀ pipe y, x ≠ .act pipe (.take y) := by
      cases x with
      | opened i => exact absurd (by simp) (hu i)
      | act pipe x =>
        by_cases hx : ∃ y, x = .take y
        · obtain ⟨y, rfl⟩ := hx
          simp only [pipesStep] at h1
          have hn : poolStep e m db (workers - s.opening.length) s.pool (.take y) = none := by
            simp only [poolStep]
            rw [if_neg (by simp only [Bool.and_eq_true, decide_eq_true_eq]; omega)]
          rw [hn] at h1
          split at h1 <;> exact nomatch h1
        · have hx : ∀ y, x ≠ .take y := fun y hy => hx ⟨y, hy⟩
          rw [pipesStep_act hx] at h1
          cases hp : poolStep e m db workers s.pool x with
          | none => rw [hp] at h1; exact nomatch h1
          | some r =>
            rw [hp] at h1
            injection h1 with h1
            injection h1 with ho hs'
            subst ho hs'
            have hk : ∀ pp y, PipesAction.act pipe x ≠ .act pp (.take y) :=
              fun pp y hy => hx y (PipesAction.act.inj hy).2
            cases x with
            | take y => exact absurd rfl (hx y)
            | resume i =>
              simp only [poolStep, hst] at hp
              split at hp
              · simp at hp
              · exact nomatch hp
            | lock =>
              simp only [poolStep] at hp
              split at hp
              · injection hp with hp
                subst hp
                exact ⟨fun x hx => (nomatch hx), rfl, hst, hk⟩
              · exact nomatch hp
            | unlock oks =>
              simp only [poolStep] at hp
              split at hp
              · rename_i hc
                simp only [Bool.and_eq_true] at hc
                injection hp with hp
                subst hp
                refine ⟨?_, rfl, hst, hk⟩
                simp only [sysStep, hc.1, if_true]
                intro x hx
                simp only [List.mem_map] at hx
                obtain ⟨d, -, hd⟩ := hx
                exact .inr ⟨d, hd.symm⟩
              · exact nomatch hp
            | thread x =>
              simp only [poolStep] at hp
              split at hp
              · exact nomatch hp
              · split at hp
                · rename_i hc
                  simp only [Bool.and_eq_true] at hc
                  injection hp with hp
                  subst hp
                  refine ⟨?_, rfl, hst, hk⟩
                  simp only [sysStep, hc.1.1, if_true]
                  cases x with
                  | app x =>
                    intro x hx
                    simp only [List.mem_map] at hx
                    obtain ⟨d, -, hd⟩ := hx
                    exact .inr ⟨d, hd.symm⟩
                  | status x =>
                    intro x hx
                    simp only [List.mem_map] at hx
                    obtain ⟨d, -, hd⟩ := hx
                    exact .inl ⟨d, hd.symm⟩
                  | _ => simp [SysAction.ofTask] at hc
                · exact nomatch hp
    obtain ⟨a1, a2, a3, a4⟩ := hstep
    obtain ⟨b1, b2, b3, b4⟩ := ih s₁ (by rw [a2]; exact hs) a3 o₂ h2 fun i hi => hu i (by simp [hi])
    refine ⟨?_, ?_, b3.trans a2, b4⟩
    · intro y hy
      rcases List.mem_append.1 hy with hy | hy
      · exact a1 y hy
      · exact b1 y hy
    · intro pipe y hy
      rcases List.mem_cons.1 hy with hy | hy
      · exact a4 pipe y hy.symm
      · exact b2 pipe y hy

/-- A GETPORT call for NFS, answered. -/
def getportNfs (pipe : Str → Bool) (hdr : Hdr) (v pt : UInt32) (peer : Addr) (p : UInt16) : PipesAction F :=
  .act pipe (.take (.portmap (fun _ _ => true) (some p)
    (.datagram (callDatagram hdr (.pmapGetport 100003 v pt)) peer)))

/-- Handing out ports one after the other. -/
theorem getports_run (e : Endian) (m : Mode) (db : Db) (workers : Nat) (pipe : Str → Bool) (hdr : Hdr)
    (v pt : UInt32) (peer : Addr) (ps : List UInt16) (hn : ps.Nodup) (s : Pipes F)
    (hrun : s.pool.sys.app.running = true) (hpm : s.pool.sys.services.rpc.portmap = true)
    (hw : s.pool.stuck.length + s.opening.length < workers)
    (hf : ∀ p ∈ ps, listener p s.pool.sys.services.rpc.tasks = none) :
    ∃ o s', pipesRun e m db workers s (ps.map (getportNfs pipe hdr v pt peer)) = some (o, s') ∧
      s'.pool.sys.app = s.pool.sys.app ∧ s'.pool.stuck = s.pool.stuck ∧ s'.opening = s.opening ∧
      (∀ p ∈ ps, listener p s'.pool.sys.services.rpc.tasks = some (.nfs .start)) ∧
      (∀ p, p ∉ ps → listener p s'.pool.sys.services.rpc.tasks = listener p s.pool.sys.services.rpc.tasks) ∧
      s'.pool.held = s.pool.held := by
  induction ps generalizing s with
  | nil => exact ⟨[], s, rfl, rfl, rfl, rfl, fun p hp => (nomatch hp), fun p _ => rfl, rfl⟩
  | cons p ps ih =>
    obtain ⟨t, h1, h2, h3, h4⟩ := C30_getport_nfs e s.pool.sys.services.rpc hpm hdr v pt peer p
      (hf p (by simp)) (fun _ _ => true) rfl
    obtain ⟨hnp, hnps⟩ := List.nodup_cons.1 hn
    have hpool : poolStep e m db (workers - s.opening.length) s.pool
        (.take (.portmap (fun _ _ => true) (some p)
          (.datagram (callDatagram hdr (.pmapGetport 100003 v pt)) peer))) =
        some ([.rpc (none, rfcReply hdr.xid (portWord p), peer)],
          ⟨{ s.pool.sys with services := ⟨t, s.pool.sys.services.accepting && t.portmap⟩ }, s.pool.held,
            s.pool.stuck⟩) := by
      simp only [poolStep]
      have hlt : s.pool.stuck.length < workers - s.opening.length := by omega
      rw [if_pos (by simp [hrun, hlt, SysAction.ofTask, notWaiting])]
      have hl : ∀ os bound r, locksState s.pool.sys (.portmap os bound r) = none := fun _ _ _ => rfl
      simp only [hl]
      cases s.pool.held <;> simp [sysStep, hrun, servicesStep, h1]
    have hstep : pipesStep e m db workers s (getportNfs pipe hdr v pt peer p) =
        some ([.rpc (none, rfcReply hdr.xid (portWord p), peer)],
          { s with pool := ⟨{ s.pool.sys with services := ⟨t, s.pool.sys.services.accepting && t.portmap⟩ },
            s.pool.held, s.pool.stuck⟩ }) := by
      unfold getportNfs
      simp only [pipesStep, hpool]
      rfl
    obtain ⟨o, s', i1, i2, i4, i3, i5, i6, i7⟩ := ih hnps
      { s with pool := ⟨{ s.pool.sys with services := ⟨t, s.pool.sys.services.accepting && t.portmap⟩ },
        s.pool.held, s.pool.stuck⟩ } hrun h2 hw
      (by
        intro q hq
        show listener q t.tasks = none
        rw [h4 q (fun e => hnp (e ▸ hq))]
        exact hf q (by simp [hq]))
    refine ⟨[.rpc (none, rfcReply hdr.xid (portWord p), peer)] ++ o, s', ?_, i2, i4, i3, ?_, ?_, i7⟩
    · rw [List.map_cons, pipesRun_cons]
      exact ⟨_, _, o, hstep, i1, rfl⟩
    · intro q hq
      rcases List.mem_cons.1 hq with rfl | hq
      · rw [i6 q hnp]
        exact h3
      · exact i5 q hq
    · intro q hq
      rw [i6 q (fun h => hq (by simp [h]))]
      exact h4 q (fun h => hq (by simp [h]))

/-- A call at the port of a handler. -/
def lookupAt (pipe : Str → Bool) (ev : NfsEvent F) (p : UInt16) : PipesAction F :=
  .act pipe (.take (.port p ev))

theorem notWaiting_port {l : List (UInt16 × NfsEvent F)} {p : UInt16} {ev : NfsEvent F}
    (h : ∀ y ∈ l, y.1 ≠ p) : notWaiting l (.port p ev) = true := by
  simp only [notWaiting, List.all_eq_true, bne_iff_ne, ne_eq]
  exact h

/-- The step of a task that does not wait is possible when a worker is free. -/
theorem poolStep_take_some (e : Endian) (m : Mode) (db : Db) (n : Nat) (s : Pool F) (x : SysAction F)
    (hrun : s.sys.app.running = true) (ht : x.ofTask = true) (hn : s.stuck.length < n)
    (hw : notWaiting s.stuck x = true) : ∃ r, poolStep e m db n s (.take x) = some r := by
  simp only [poolStep]
  rw [if_pos (by simp [hrun, hn, ht, hw])]
  split <;> exact ⟨_, rfl⟩

theorem lookups_run (e : Endian) (m : Mode) (db : Db) (workers : Nat) (pipe : Str → Bool) (ev : NfsEvent F)
    (ha : OpensPipe pipe ['/'] ev) (ps : List UInt16) (hn : ps.Nodup) (s : Pipes F)
    (hrun : s.pool.sys.app.running = true) (hst : s.pool.stuck = [])
    (hw : s.opening.length + ps.length ≤ workers)
    (hl : ∀ p ∈ ps, listener p s.pool.sys.services.rpc.tasks = some (.nfs .start))
    (hf : ∀ p ∈ ps, ∀ y ∈ s.opening, y.1 ≠ p) :
    pipesRun e m db workers s (ps.map (lookupAt pipe ev)) =
      some ([], { s with opening := s.opening ++ ps.map fun p => (p, ev) }) := by
  induction ps generalizing s with
  | nil => simp [pipesRun]
  | cons p ps ih =>
    obtain ⟨hnp, hnps⟩ := List.nodup_cons.1 hn
    simp only [List.length_cons] at hw
    have hstep : pipesStep e m db workers s (lookupAt pipe ev p) =
        some ([], { s with opening := s.opening ++ [(p, ev)] }) := by
      unfold lookupAt
      obtain ⟨r, hr⟩ := poolStep_take_some e m db (workers - s.opening.length) s.pool (.port p ev) hrun rfl
        (by rw [hst]; simp only [List.length_nil]; omega) (by rw [hst]; rfl)
      simp only [pipesStep]
      rw [if_pos (notWaiting_port (hf p (by simp))), hr, opensPipe_listener (hl p (by simp)) ha]
    have hi := ih hnps { s with opening := s.opening ++ [(p, ev)] } hrun hst (by simp; omega)
      (fun q hq => hl q (by simp [hq])) (by
        intro q hq y hy
        rcases List.mem_append.1 hy with hy | hy
        · exact hf q (by simp [hq]) y hy
        · simp only [List.mem_singleton] at hy
          subst hy
          rintro rfl
          exact hnp hq)
    rw [List.map_cons, pipesRun_cons]
    refine ⟨[], _, [], hstep, ?_, rfl⟩
    rw [hi]
    simp

/-- C116: it is false in every state in which the portmapper runs and no worker waits, whatever the number of
workers (as long as there are that many unused ports), if there is a single pipe that nobody writes to: that
many GETPORT calls for NFS and that many LOOKUP calls of the pipe stop the RPC and library services. -/
theorem C116_stoppable (e : Endian) (m : Mode) (db : Db) (workers : Nat) (hw : 0 < workers) (s : Pipes F)
    (hrun : s.pool.sys.app.running = true) (hpm : s.pool.sys.services.rpc.portmap = true)
    (hst : s.pool.stuck = []) (hop : s.opening = []) (ps : List UInt16) (hn : ps.Nodup)
    (hlen : ps.length = workers) (hf : ∀ p ∈ ps, listener p s.pool.sys.services.rpc.tasks = none) (hdr : Hdr)
    (v pt : UInt32) (peer : Addr) (pipe : Str → Bool) (ev : NfsEvent F) (ha : OpensPipe pipe ['/'] ev) :
    ∃ o s', pipesRun e m db workers s (ps.map (getportNfs pipe hdr v pt peer) ++
        ps.map (lookupAt pipe ev)) = some (o, s') ∧
      ∀ h o' s'', pipesRun e m db workers s' h = some (o', s'') → (∀ i, PipesAction.opened i ∉ h) →
        (∀ x ∈ o', (∃ d, x = .status d) ∨ ∃ d, x = .broadcast d) ∧
          ∀ pipe x, PipesAction.act pipe (.take x) ∉ h := by
  obtain ⟨o, s₁, h1, h2, h3, h4, h5, -⟩ := getports_run e m db workers pipe hdr v pt peer ps hn s hrun hpm
    (by rw [hst, hop]; exact hw) hf
  have hex := lookups_run e m db workers pipe ev ha ps hn s₁ (by rw [h2]; exact hrun) (h3.trans hst)
    (by simp [h4, hop, hlen]) h5 (by simp [h4, hop])
  refine ⟨_, _, pipesRun_append h1 hex, ?_⟩
  intro h o' s'' hr hu
  obtain ⟨r1, r2, -, -⟩ := C116_stopped e m db workers
    { s₁ with opening := s₁.opening ++ ps.map fun p => (p, ev) } s'' (by simp [hlen]) (h3.trans hst) h o' hr hu
  exact ⟨r1, r2⟩

/-! ## What holds -/

/-- C116 (full claim: a request for files does not hold up others).  Missing: the claim is false
(`C116_stoppable`).  What holds: while fewer events wait, for pipes or for the lock, than there are workers,
any task that is not one of those waiting can deal with anything but an EXPORT call during a negotiation and
a LOOKUP call of a pipe, and does what it does without pipes. -/
theorem C116_served_partial (e : Endian) (m : Mode) (db : Db) (workers : Nat) (s : Pipes F)
    (pipe : Str → Bool) (hrun : s.pool.sys.app.running = true)
    (hw : s.pool.stuck.length + s.opening.length < workers) (x : SysAction F) (ht : ForTask x)
    (hx : ∀ p ev, x = .port p ev → (∀ y ∈ s.pool.stuck, y.1 ≠ p) ∧ (∀ y ∈ s.opening, y.1 ≠ p) ∧
      (s.pool.held = true → ¬ AsksForExports ev) ∧
      ∀ st pending, listener p s.pool.sys.services.rpc.tasks = some (.nfs (.running st pending)) →
        st.path ≠ [] ∧ ¬ OpensPipe pipe st.path ev) :
    pipesStep e m db workers s (.act pipe (.take x)) =
      some ((sysStep e m db s.pool.sys x).1,
        { s with pool := { s.pool with sys := (sysStep e m db s.pool.sys x).2 } }) := by
  have hpool := C103_served_partial e m db (workers - s.opening.length) s.pool hrun (by omega) x ht
    fun p ev hp => ⟨(hx p ev hp).1, (hx p ev hp).2.2.1⟩
  have hnw : notWaiting s.opening x = true := by
    cases x with
    | port p ev => exact notWaiting_port (hx p ev rfl).2.1
    | _ => rfl
  have hop : opensPipe pipe s.pool.sys x = none := by
    cases ho : opensPipe pipe s.pool.sys x with
    | none => rfl
    | some y =>
      obtain ⟨rfl, st, pending, hl, hp⟩ := opensPipe_some ho
      obtain ⟨h1, h2⟩ := (hx _ _ rfl).2.2.2 st pending hl
      exact absurd (hp h1) h2
  simp only [pipesStep]
  rw [if_pos hnw, hpool, hop]

/-- C116: the other threads do not notice: whatever waits for pipes, announcing, hearing players, linking and
answering status packets go on as without pipes, and so do EXPORT calls that have waited for the lock. -/
theorem C116_threads_go_on (e : Endian) (m : Mode) (db : Db) (workers : Nat) (s : Pipes F)
    (pipe : Str → Bool) (x : PoolAction F) (hx : ∀ y, x ≠ .take y) :
    pipesStep e m db workers s (.act pipe x) =
      (poolStep e m db workers s.pool x).map fun r => (r.1, { s with pool := r.2 }) :=
  pipesStep_act hx

/-- C116: a LOOKUP call of a pipe is not answered as long as nobody writes to the pipe; it occupies a
worker, and its handler does nothing else meanwhile.  When the pipe is opened it is dealt with as at any
other time. -/
theorem C116_lookup_waits (e : Endian) (m : Mode) (db : Db) (workers : Nat) (s : Pipes F)
    (pipe : Str → Bool) (p : UInt16) (ev : NfsEvent F) :
    (∀ o s' st pending, listener p s.pool.sys.services.rpc.tasks = some (.nfs (.running st pending)) →
      OpensPipe pipe st.path ev →
      pipesStep e m db workers s (.act pipe (.take (.port p ev))) = some (o, s') →
      o = [] ∧ s' = { s with opening := s.opening ++ [(p, ev)] }) ∧
    ((∃ y ∈ s.opening, y.1 = p) → ∀ pipe' ev',
      pipesStep e m db workers s (.act pipe' (.take (.port p ev'))) = none) ∧
    (s.pool.sys.app.running = true → ∀ before after, s.opening = before ++ (p, ev) :: after →
      pipesStep e m db workers s (.opened before.length) =
        some ((sysStep e m db s.pool.sys (.port p ev)).1,
          ⟨{ s.pool with sys := (sysStep e m db s.pool.sys (.port p ev)).2 }, before ++ after⟩)) := by
  refine ⟨?_, ?_, ?_⟩
  · intro o s' st pending hl ha h
    simp only [pipesStep] at h
    rw [opensPipe_listener hl ha] at h
    split at h
    · cases hp : poolStep e m db (workers - s.opening.length) s.pool (.take (.port p ev)) with
      | none => rw [hp] at h; exact nomatch h
      | some r =>
        rw [hp] at h
        injection h with h
        injection h with h1 h2
        exact ⟨h1.symm, h2.symm⟩
    · exact nomatch h
  · rintro ⟨y, hy, hp⟩ pipe' ev'
    simp only [pipesStep]
    rw [if_neg]
    simp only [notWaiting, List.all_eq_true, bne_iff_ne, ne_eq]
    exact fun hall => hall y hy hp
  · intro hrun before after hs
    simp only [pipesStep]
    rw [if_pos hrun, hs]
    simp [List.eraseIdx_append_of_length_le]

/-! ### Order -/

theorem poolStep_take_notWaiting {e : Endian} {m : Mode} {db : Db} {n : Nat} {s : Pool F} {x : SysAction F}
    {r : List SysOut × Pool F} (h : poolStep e m db n s (.take x) = some r) :
    notWaiting s.stuck x = true ∧ s.stuck.length < n := by
  simp only [poolStep] at h
  split at h
  · rename_i hc
    simp only [Bool.and_eq_true, decide_eq_true_eq] at hc
    exact ⟨hc.2, hc.1.2⟩
  · exact nomatch h

theorem waitingFor_of_notWaiting {l : List (UInt16 × NfsEvent F)} {p : UInt16} {ev : NfsEvent F}
    (h : notWaiting l (.port p ev) = true) : waitingFor p l = [] := by
  simp only [notWaiting, List.all_eq_true, bne_iff_ne, ne_eq] at h
  exact waitingFor_none h

theorem poolStep_other_ports {e : Endian} {m : Mode} {db : Db} {n : Nat} {s : Pool F} {x : PoolAction F}
    {r : List SysOut × Pool F} (h : poolStep e m db n s x = some r) (hx : ∀ y, x ≠ .take y) (p : UInt16) :
    portPart p (takenUp [x]) = [] := by
  cases x with
  | take y => exact absurd rfl (hx y)
  | thread x =>
    simp only [poolStep] at h
    split at h
    · exact nomatch h
    · split at h
      · rename_i hc
        have : atPort x = false := by
          cases x <;> first | rfl | (simp [SysAction.ofTask] at hc)
        exact portPart_other p x this
      · exact nomatch h
  | _ => rfl

theorem pipesTakenUp_cons (x : PipesAction F) (h : List (PipesAction F)) :
    pipesTakenUp (x :: h) = pipesTakenUp [x] ++ pipesTakenUp h := by
  cases x with
  | act pipe x => exact takenUp_cons _ _
  | opened i => rfl

/-- What one action amounts to. -/
theorem pipesStep_sys {e : Endian} {m : Mode} {db : Db} {n : Nat} {s s' : Pipes F} {x : PipesAction F}
    {o : List SysOut} (h : pipesStep e m db n s x = some (o, s'))
    (hd : ∀ p, (waitingFor p s.pool.stuck).length + (waitingFor p s.opening).length ≤ 1) :
    (∀ p, (waitingFor p s'.pool.stuck).length + (waitingFor p s'.opening).length ≤ 1) ∧
    ∃ xs, sysRun e m db s.pool.sys xs = (o, s'.pool.sys) ∧ notAtPorts xs = notAtPorts (pipesTakenUp [x]) ∧
      ∀ p, waitingFor p s.pool.stuck ++ waitingFor p s.opening ++ portPart p (pipesTakenUp [x]) =
        portPart p xs ++ (waitingFor p s'.pool.stuck ++ waitingFor p s'.opening) := by
  have hdp : ∀ p, (waitingFor p s.pool.stuck).length ≤ 1 := fun p => by have := hd p; omega
  cases x with
  | opened i =>
    simp only [pipesStep] at h
    split at h
    · split at h
      · rename_i y hy
        injection h with h
        injection h with ho hs
        subst ho hs
        obtain ⟨hi, hy⟩ := List.getElem?_eq_some_iff.1 hy
        have he : s.opening = s.opening.take i ++ y :: s.opening.drop (i + 1) := by
          rw [← hy, List.getElem_cons_drop, List.take_append_drop]
        have hr : s.opening.eraseIdx i = s.opening.take i ++ s.opening.drop (i + 1) :=
          List.eraseIdx_eq_take_drop_succ ..
        generalize s.opening.take i = a at he hr
        generalize s.opening.drop (i + 1) = b at he hr
        simp only [hr]
        rw [he] at hd ⊢
        refine ⟨?_, [.port y.1 y.2], sysRun_one .., rfl, ?_⟩
        · intro p
          have := hd p
          rw [waitingFor_append, waitingFor_cons] at this
          rw [waitingFor_append]
          simp only [List.length_append] at this ⊢
          omega
        · intro p
          have := hd p
          rw [portPart_one]
          simp only [waitingFor_append, waitingFor_cons, pipesTakenUp, List.filterMap_cons, List.filterMap_nil,
            takenUp, portPart, List.append_nil] at this ⊢
          by_cases hp : y.1 = p
          · simp only [hp, if_true, List.length_append, List.length_cons, List.length_nil] at this ⊢
            have ha : waitingFor p a = [] := List.length_eq_zero_iff.1 (by omega)
            have hs : waitingFor p s.pool.stuck = [] := List.length_eq_zero_iff.1 (by omega)
            rw [ha, hs]
            simp
          · simp [hp]
      · exact nomatch h
    · exact nomatch h
  | act pipe x =>
    have htk : pipesTakenUp [PipesAction.act pipe x] = takenUp [x] := rfl
    rw [htk]
    by_cases hx : ∃ y, x = .take y
    · obtain ⟨y, rfl⟩ := hx
      simp only [pipesStep] at h
      split at h
      · rename_i hw
        cases hp : poolStep e m db (n - s.opening.length) s.pool (.take y) with
        | none => rw [hp] at h; exact nomatch h
        | some r =>
          rw [hp] at h
          cases ho : opensPipe pipe s.pool.sys y with
          | some z =>
            rw [ho] at h
            injection h with h
            injection h with ho' hs'
            subst ho' hs'
            obtain ⟨rfl, -⟩ := opensPipe_some ho
            have h1 := waitingFor_of_notWaiting hw
            have h2 := waitingFor_of_notWaiting (poolStep_take_notWaiting hp).1
            refine ⟨?_, [], rfl, rfl, ?_⟩
            · intro p
              show (waitingFor p s.pool.stuck).length + (waitingFor p (s.opening ++ [z])).length ≤ 1
              rw [waitingFor_append, waitingFor_cons]
              by_cases hpz : z.1 = p
              · subst hpz
                rw [h1, h2]
                simp [waitingFor]
              · simpa [hpz, waitingFor] using hd p
            · intro p
              show _ = portPart p [] ++ (waitingFor p s.pool.stuck ++ waitingFor p (s.opening ++ [z]))
              rw [waitingFor_append, waitingFor_cons]
              simp [takenUp, portPart, waitingFor]
          | none =>
            rw [ho] at h
            injection h with h
            injection h with ho' hs'
            subst ho' hs'
            obtain ⟨a1, xs, a2, a3, a4⟩ := poolStep_sys (o := r.1) (s' := r.2) hp hdp
            have hfree : ∀ p, portPart p [y] ≠ [] → waitingFor p s.opening = [] := by
              intro p hne
              cases y with
              | port q ev =>
                rw [portPart_one] at hne
                by_cases hq : q = p
                · subst hq
                  exact waitingFor_of_notWaiting hw
                · simp [hq] at hne
              | _ => exact absurd rfl hne
            refine ⟨?_, xs, a2, a3, ?_⟩
            · intro p
              have b1 := a1 p
              have b2 := congrArg List.length (a4 p)
              have b3 := hd p
              simp only [takenUp, List.length_append] at b2
              by_cases hne : portPart p [y] = []
              · rw [hne] at b2
                simp only [List.length_nil] at b2
                show (waitingFor p r.2.stuck).length + (waitingFor p s.opening).length ≤ 1
                omega
              · show (waitingFor p r.2.stuck).length + (waitingFor p s.opening).length ≤ 1
                rw [hfree p hne]
                simpa using b1
            · intro p
              have b2 := a4 p
              show _ = portPart p xs ++ (waitingFor p r.2.stuck ++ waitingFor p s.opening)
              simp only [takenUp] at b2 ⊢
              by_cases hne : portPart p [y] = []
              · rw [hne, List.append_nil] at b2 ⊢
                rw [b2, List.append_assoc]
              · rw [hfree p hne, List.append_nil, List.append_nil]
                exact b2
      · exact nomatch h
    · have hx : ∀ y, x ≠ .take y := fun y hy => hx ⟨y, hy⟩
      rw [pipesStep_act hx] at h
      cases hp : poolStep e m db n s.pool x with
      | none => rw [hp] at h; exact nomatch h
      | some r =>
        rw [hp] at h
        injection h with h
        injection h with ho' hs'
        subst ho' hs'
        obtain ⟨a1, xs, a2, a3, a4⟩ := poolStep_sys (o := r.1) (s' := r.2) hp hdp
        refine ⟨?_, xs, a2, a3, ?_⟩
        · intro p
          have b2 := congrArg List.length (a4 p)
          have b3 := hd p
          rw [poolStep_other_ports hp hx p] at b2
          simp only [List.length_append, List.length_nil] at b2
          show (waitingFor p r.2.stuck).length + (waitingFor p s.opening).length ≤ 1
          omega
        · intro p
          have b2 := a4 p
          rw [poolStep_other_ports hp hx p, List.append_nil] at b2 ⊢
          show _ = portPart p xs ++ (waitingFor p r.2.stuck ++ waitingFor p s.opening)
          rw [b2, List.append_assoc]

theorem mem_of_waitingFor {p : UInt16} {l : List (UInt16 × NfsEvent F)} {ev : NfsEvent F}
    (h : ev ∈ waitingFor p l) : (p, ev) ∈ l := by
  simp only [waitingFor, List.mem_filterMap] at h
  obtain ⟨y, hy, he⟩ := h
  split at he
  · rename_i hp
    injection he with he
    subst hp he
    exact hy
  · exact nomatch he

/-- C116: pipes change nothing but the order: in any history everything that is sent, and the state
afterwards, is what the process does (`sysRun`) for the events in some order; events other than those at the
ports of RPC handlers in the order in which they are taken up; those at such a port as well, except that the
last one may still wait for the lock or for a pipe. -/
theorem C116_in_order (e : Endian) (m : Mode) (db : Db) (workers : Nat) (h : List (PipesAction F))
    (o : List SysOut) (s' : Pipes F) (hr : pipesRun e m db workers .start h = some (o, s')) :
    ∃ xs, sysRun e m db .start xs = (o, s'.pool.sys) ∧ notAtPorts xs = notAtPorts (pipesTakenUp h) ∧
      ∀ p, portPart p xs = portPart p (pipesTakenUp h) ∨
        ∃ ev, ((p, ev) ∈ s'.pool.stuck ∨ (p, ev) ∈ s'.opening) ∧
          portPart p xs ++ [ev] = portPart p (pipesTakenUp h) := by
  have key : ∀ (s : Pipes F) (o : List SysOut), pipesRun e m db workers s h = some (o, s') →
      (∀ p, (waitingFor p s.pool.stuck).length + (waitingFor p s.opening).length ≤ 1) →
      (∀ p, (waitingFor p s'.pool.stuck).length + (waitingFor p s'.opening).length ≤ 1) ∧
      ∃ xs, sysRun e m db s.pool.sys xs = (o, s'.pool.sys) ∧ notAtPorts xs = notAtPorts (pipesTakenUp h) ∧
        ∀ p, waitingFor p s.pool.stuck ++ waitingFor p s.opening ++ portPart p (pipesTakenUp h) =
          portPart p xs ++ (waitingFor p s'.pool.stuck ++ waitingFor p s'.opening) := by
    clear hr o
    induction h with
    | nil =>
      intro s o hr hd
      simp only [pipesRun] at hr
      injection hr with hr
      injection hr with ho hs
      subst ho hs
      exact ⟨hd, [], rfl, rfl, fun p => by simp [pipesTakenUp, takenUp, portPart]⟩
    | cons x h ih =>
      intro s o hr hd
      obtain ⟨o₁, s₁, o₂, h1, h2, rfl⟩ := pipesRun_cons.1 hr
      obtain ⟨d1, xs, a1, a2, a3⟩ := pipesStep_sys h1 hd
      obtain ⟨d2, ys, b1, b2, b3⟩ := ih s₁ o₂ h2 d1
      refine ⟨d2, xs ++ ys, ?_, ?_, ?_⟩
      · rw [sysRun_append, a1, b1]
      · rw [pipesTakenUp_cons]
        simp only [notAtPorts, List.filter_append] at a2 b2 ⊢
        rw [a2, b2]
      · intro p
        rw [pipesTakenUp_cons, portPart_append', portPart_append', ← List.append_assoc, a3, List.append_assoc,
          b3, List.append_assoc]
  obtain ⟨d, xs, h1, h2, h3⟩ := key .start o hr (fun p => by simp [Pipes.start, Pool.start, waitingFor])
  refine ⟨xs, h1, h2, fun p => ?_⟩
  have h3 := h3 p
  have hd := d p
  rw [show waitingFor p (Pipes.start : Pipes F).pool.stuck ++ waitingFor p (Pipes.start : Pipes F).opening = []
    from rfl, List.nil_append] at h3
  rw [← List.length_append] at hd
  cases hw : waitingFor p s'.pool.stuck ++ waitingFor p s'.opening with
  | nil =>
    left
    rw [hw, List.append_nil] at h3
    exact h3.symm
  | cons ev l =>
    right
    rw [hw] at hd h3
    have hl : l = [] := List.length_eq_zero_iff.1 (by simp only [List.length_cons] at hd; omega)
    subst hl
    refine ⟨ev, ?_, h3.symm⟩
    have : ev ∈ waitingFor p s'.pool.stuck ++ waitingFor p s'.opening := by rw [hw]; simp
    rcases List.mem_append.1 this with h | h
    · exact .inl (mem_of_waitingFor h)
    · exact .inr (mem_of_waitingFor h)

/-- C116: what waits never needs more workers than there are. -/
theorem C116_at_most_workers (e : Endian) (m : Mode) (db : Db) (workers : Nat) (h : List (PipesAction F))
    (o : List SysOut) (s' : Pipes F) (hr : pipesRun e m db workers .start h = some (o, s')) :
    s'.pool.stuck.length + s'.opening.length ≤ workers := by
  have key : ∀ (s : Pipes F) (o : List SysOut), pipesRun e m db workers s h = some (o, s') →
      s.pool.stuck.length + s.opening.length ≤ workers →
      s'.pool.stuck.length + s'.opening.length ≤ workers := by
    clear hr o
    induction h with
    | nil =>
      intro s o hr hs
      simp only [pipesRun] at hr
      injection hr with hr
      injection hr with _ hr
      subst hr
      exact hs
    | cons x h ih =>
      intro s o hr hs
      obtain ⟨o₁, s₁, o₂, h1, h2, rfl⟩ := pipesRun_cons.1 hr
      refine ih s₁ o₂ h2 ?_
      clear ih hr h2
      cases x with
      | opened i =>
        simp only [pipesStep] at h1
        split at h1
        · split at h1
          · injection h1 with h1
            injection h1 with _ h1
            subst h1
            have := List.length_eraseIdx_le s.opening i
            show s.pool.stuck.length + (s.opening.eraseIdx i).length ≤ workers
            omega
          · exact nomatch h1
        · exact nomatch h1
      | act pipe x =>
        have hgrow : ∀ n r, poolStep e m db n s.pool x = some r → (∀ y, x ≠ .take y) →
            r.2.stuck.length ≤ s.pool.stuck.length := by
          intro n r hp hx
          cases x with
          | take y => exact absurd rfl (hx y)
          | resume i =>
            simp only [poolStep] at hp
            split at hp
            · split at hp
              · injection hp with hp
                subst hp
                exact List.length_eraseIdx_le s.pool.stuck i
              · exact nomatch hp
            · exact nomatch hp
          | lock =>
            simp only [poolStep] at hp
            split at hp
            · injection hp with hp
              subst hp
              exact Nat.le_refl _
            · exact nomatch hp
          | unlock oks =>
            simp only [poolStep] at hp
            split at hp
            · injection hp with hp
              subst hp
              exact Nat.le_refl _
            · exact nomatch hp
          | thread x =>
            simp only [poolStep] at hp
            split at hp
            · exact nomatch hp
            · split at hp
              · injection hp with hp
                subst hp
                exact Nat.le_refl _
              · exact nomatch hp
        by_cases hx : ∃ y, x = .take y
        · obtain ⟨y, rfl⟩ := hx
          simp only [pipesStep] at h1
          split at h1
          · cases hp : poolStep e m db (workers - s.opening.length) s.pool (.take y) with
            | none => rw [hp] at h1; exact nomatch h1
            | some r =>
              have hlt := (poolStep_take_notWaiting hp).2
              rw [hp] at h1
              cases ho : opensPipe pipe s.pool.sys y with
              | some z =>
                rw [ho] at h1
                injection h1 with h1
                injection h1 with _ h1
                subst h1
                show s.pool.stuck.length + (s.opening ++ [z]).length ≤ workers
                simp only [List.length_append, List.length_cons, List.length_nil]
                omega
              | none =>
                rw [ho] at h1
                injection h1 with h1
                injection h1 with _ h1
                subst h1
                have hs' : r.2.stuck.length ≤ s.pool.stuck.length + 1 := by
                  simp only [poolStep] at hp
                  split at hp
                  · split at hp <;>
                    · injection hp with hp
                      subst hp
                      simp
                  · exact nomatch hp
                show r.2.stuck.length + s.opening.length ≤ workers
                omega
          · exact nomatch h1
        · have hx : ∀ y, x ≠ .take y := fun y hy => hx ⟨y, hy⟩
          rw [pipesStep_act hx] at h1
          cases hp : poolStep e m db workers s.pool x with
          | none => rw [hp] at h1; exact nomatch h1
          | some r =>
            rw [hp] at h1
            injection h1 with h1
            injection h1 with _ h1
            subst h1
            have := hgrow workers r hp hx
            show r.2.stuck.length + s.opening.length ≤ workers
            omega
  exact key .start o hr (by simp [Pipes.start, Pool.start])

theorem task_iff (x : SysAction F) : x.ofTask = true ↔ ForTask x := by
  cases x <;> simp [SysAction.ofTask, ForTask]

theorem notWaiting_iff (l : List (UInt16 × NfsEvent F)) (x : SysAction F) :
    notWaiting l x = true ↔ ∀ p ev, x = .port p ev → ∀ y ∈ l, y.1 ≠ p := by
  cases x with
  | port p ev =>
    simp only [notWaiting, List.all_eq_true, bne_iff_ne, ne_eq, SysAction.port.injEq, and_imp]
    exact ⟨fun h q _ e _ y hy => e ▸ h y hy, fun h y hy => h p ev rfl rfl y hy⟩
  | _ => simp [notWaiting]

theorem locksState_iff (s : System F) (x : SysAction F) :
    locksState s x ≠ none ↔ ∃ p ev, x = .port p ev ∧
      listener p s.services.rpc.tasks = some (.program true) ∧ AsksForExports ev := by
  constructor
  · intro h
    cases hy : locksState s x with
    | none => exact absurd hy h
    | some y =>
      obtain ⟨rfl, ha⟩ := locksState_some hy
      refine ⟨y.1, y.2, rfl, ?_, ha⟩
      have hf := find_listener y.1 s.services.rpc.tasks
      cases hz : s.services.rpc.tasks.find? (fun t => t.1 = y.1 && t.2.live) with
      | none => simp [locksState, hz] at hy
      | some z =>
        rw [hz] at hf
        have hlive := List.find?_some hz
        obtain ⟨zp, zt⟩ := z
        cases zt with
        | nfs t => simp [locksState, hz] at hy
        | program b =>
          simp only [RpcTask.live, Bool.and_eq_true] at hlive
          rw [hlive.2] at hf
          exact hf.symm
  · rintro ⟨p, ev, rfl, hl, ha⟩
    rw [locksState_listener hl ha]
    simp

/-- C116 and C103, exactly: a worker can turn to an event if and only if the process runs, a task deals with such
events, fewer events wait, for the lock or for pipes, than there are workers, and the handler it is for is not one
of those that wait. -/
theorem C116_taken_iff (e : Endian) (m : Mode) (db : Db) (workers : Nat) (s : Pipes F) (pipe : Str → Bool)
    (x : SysAction F) :
    pipesStep e m db workers s (.act pipe (.take x)) ≠ none ↔
      s.pool.sys.app.running = true ∧ ForTask x ∧ s.pool.stuck.length + s.opening.length < workers ∧
        ∀ p ev, x = .port p ev → ∀ y ∈ s.pool.stuck ++ s.opening, y.1 ≠ p := by
  have hp : poolStep e m db (workers - s.opening.length) s.pool (.take x) ≠ none ↔
      s.pool.sys.app.running = true ∧ ForTask x ∧ s.pool.stuck.length + s.opening.length < workers ∧
        notWaiting s.pool.stuck x = true := by
    rw [← task_iff]
    simp only [poolStep]
    split
    · rename_i hc
      simp only [Bool.and_eq_true, decide_eq_true_eq] at hc
      constructor
      · exact fun _ => ⟨hc.1.1.1, hc.1.1.2, by omega, hc.2⟩
      · intro _
        split <;> simp
    · rename_i hc
      simp only [Bool.and_eq_true, decide_eq_true_eq] at hc
      refine ⟨fun h => absurd rfl h, fun h => absurd ⟨⟨⟨h.1, h.2.1⟩, ?_⟩, h.2.2.2⟩ hc⟩
      omega
  have hw : (∀ p ev, x = .port p ev → ∀ y ∈ s.pool.stuck ++ s.opening, y.1 ≠ p) ↔
      notWaiting s.pool.stuck x = true ∧ notWaiting s.opening x = true := by
    rw [notWaiting_iff, notWaiting_iff]
    constructor
    · exact fun h => ⟨fun p ev hx y hy => h p ev hx y (List.mem_append_left _ hy),
        fun p ev hx y hy => h p ev hx y (List.mem_append_right _ hy)⟩
    · rintro ⟨h1, h2⟩ p ev hx y hy
      rcases List.mem_append.1 hy with hy | hy
      · exact h1 p ev hx y hy
      · exact h2 p ev hx y hy
  rw [hw]
  simp only [pipesStep]
  split
  · rename_i ho
    cases hps : poolStep e m db (workers - s.opening.length) s.pool (.take x) with
    | none =>
      rw [hps] at hp
      exact ⟨fun h => absurd rfl h, fun h => absurd rfl (hp.2 ⟨h.1, h.2.1, h.2.2.1, h.2.2.2.1⟩)⟩
    | some r =>
      have h := hp.1 (by rw [hps]; simp)
      refine ⟨fun _ => ⟨h.1, h.2.1, h.2.2.1, h.2.2.2, ho⟩, fun _ => ?_⟩
      cases opensPipe pipe s.pool.sys x <;> simp
  · rename_i ho
    exact ⟨fun h => absurd rfl h, fun h => absurd h.2.2.2.2 ho⟩

/-- Of the events a worker turns to it keeps waiting those that are an EXPORT call at a mount handler during a
negotiation or a LOOKUP call of a pipe, if all handlers are at a path. -/
theorem waits_exactly (e : Endian) (m : Mode) (db : Db) (workers : Nat) (s s' : Pipes F) (pipe : Str → Bool)
    (x : SysAction F) (o : List SysOut)
    (hp : ∀ p st pending, listener p s.pool.sys.services.rpc.tasks = some (.nfs (.running st pending)) → st.path ≠ [])
    (hr : pipesStep e m db workers s (.act pipe (.take x)) = some (o, s')) :
    let waits := ∃ p ev, x = .port p ev ∧
      ((s.pool.held = true ∧ listener p s.pool.sys.services.rpc.tasks = some (.program true) ∧ AsksForExports ev) ∨
        ∃ st pending, listener p s.pool.sys.services.rpc.tasks = some (.nfs (.running st pending)) ∧
          OpensPipe pipe st.path ev)
    (waits → o = [] ∧ s'.pool.sys = s.pool.sys ∧
      s'.pool.stuck.length + s'.opening.length = s.pool.stuck.length + s.opening.length + 1) ∧
    (¬ waits → (o, s'.pool.sys) = sysStep e m db s.pool.sys x ∧
      s'.pool.stuck = s.pool.stuck ∧ s'.opening = s.opening) := by
  intro waits
  simp only [pipesStep] at hr
  split at hr
  · split at hr
    · -- a pipe
      rename_i y h1 h2
      injection hr with hr
      injection hr with ho hs
      subst ho hs
      obtain ⟨rfl, st, pending, hl, hy⟩ := opensPipe_some h2
      refine ⟨fun _ => ⟨rfl, rfl, by simp; omega⟩, fun hn => absurd ?_ hn⟩
      exact ⟨_, _, rfl, .inr ⟨st, pending, hl, hy (hp _ _ _ hl)⟩⟩
    · rename_i r h1 h2
      injection hr with hr
      injection hr with ho hs
      subst ho hs
      have hnp : ¬ ∃ p ev, x = .port p ev ∧ ∃ st pending,
          listener p s.pool.sys.services.rpc.tasks = some (.nfs (.running st pending)) ∧
            OpensPipe pipe st.path ev := by
        rintro ⟨p, ev, rfl, st, pending, hl, ha⟩
        rw [opensPipe_listener hl ha] at h2
        exact nomatch h2
      simp only [poolStep] at h1
      split at h1
      · split at h1
        · rename_i y hheld hlock
          injection h1 with h1
          subst h1
          have := (locksState_iff s.pool.sys x).1 (by rw [hlock]; simp)
          obtain ⟨p, ev, hx, hl, ha⟩ := this
          exact ⟨fun _ => ⟨rfl, rfl, by simp; omega⟩, fun hn => absurd ⟨p, ev, hx, .inl ⟨hheld, hl, ha⟩⟩ hn⟩
        · rename_i hno
          injection h1 with h1
          subst h1
          refine ⟨?_, fun _ => ⟨rfl, rfl, rfl⟩⟩
          rintro ⟨p, ev, hx, ⟨hh, hl, ha⟩ | hpipe⟩
          · exfalso
            subst hx
            exact hno _ hh (locksState_listener hl ha)
          · exact absurd ⟨p, ev, hx, hpipe⟩ hnp
      · exact nomatch h1
    · exact nomatch hr
  · exact nomatch hr

/-- C116 and C103, exactly, at any point of any history: of the events a worker turns to it keeps waiting those that are an EXPORT call at a
mount handler during a negotiation or a LOOKUP call of a pipe, and no others; all others are dealt with at once,
as if there were neither lock nor pipes. -/
theorem C116_waits_iff (e : Endian) (m : Mode) (db : Db) (workers : Nat) (s s' : Pipes F) (pipe : Str → Bool)
    (x : SysAction F) (o : List SysOut)
    (h : List (PipesAction F)) (before : List SysOut) (hs : pipesRun e m db workers .start h = some (before, s))
    (hr : pipesStep e m db workers s (.act pipe (.take x)) = some (o, s')) :
    let waits := ∃ p ev, x = .port p ev ∧
      ((s.pool.held = true ∧ listener p s.pool.sys.services.rpc.tasks = some (.program true) ∧ AsksForExports ev) ∨
        ∃ st pending, listener p s.pool.sys.services.rpc.tasks = some (.nfs (.running st pending)) ∧
          OpensPipe pipe st.path ev)
    (waits → o = [] ∧ s'.pool.sys = s.pool.sys ∧
      s'.pool.stuck.length + s'.opening.length = s.pool.stuck.length + s.opening.length + 1) ∧
    (¬ waits → (o, s'.pool.sys) = sysStep e m db s.pool.sys x ∧
      s'.pool.stuck = s.pool.stuck ∧ s'.opening = s.opening) := by
  refine waits_exactly e m db workers s s' pipe x o ?_ hr
  obtain ⟨xs, hx, -⟩ := C116_in_order e m db workers h before s hs
  intro p st pending hl
  have hsome := sys_somewhere e m db xs .start (fun t ht => nomatch ht)
  rw [hx] at hsome
  exact listener_somewhere hsome hl

/-! ## Non-vacuity -/

/-- A file system in which `/p` is a pipe. -/
def pipeWorld : World Nat where
  stat p := if p = ['/', 'p'] then some { sampleMeta 9 false with isDir := false } else none
  openFile p := if p = ['/', 'p'] then some 9 else none
  fstat _ := none
  pread _ _ _ := none

def examplePipe (p : Str) : Bool := p == ['/', 'p']

/-- A LOOKUP call of the pipe as an event. -/
def examplePipeEvent : NfsEvent Nat :=
  ⟨pipeWorld, fun _ _ _ => true,
    .datagram (callDatagram exampleHdr (.nfsLookup (List.replicate 32 0) ['p'])) exampleAsker⟩

theorem examplePipeEvent_opens : OpensPipe examplePipe ['/'] examplePipeEvent :=
  ⟨_, _, exampleHdr.xid, List.replicate 32 0, ['p'], ['/', 'p'], rfl,
    isCall_callDatagram exampleHdr _ _ _ (.lookup _ ['p'] (by decide) (by decide)) (by intro p; simp),
    .below [] ['p'] (by decide), by decide, by decide⟩

/-- C116: for any number of workers up to 65535 the services can be stopped right after the start, before any
player has been heard. -/
example (e : Endian) (m : Mode) (db : Db) (workers : Nat) (hw : 0 < workers) (hb : workers < 65536) :=
  C116_stoppable (F := Nat) e m db workers hw .start rfl rfl rfl rfl ((List.range workers).map UInt16.ofNat)
    (by
      rw [List.nodup_iff_pairwise_ne, List.pairwise_map]
      refine List.Pairwise.imp_of_mem ?_ List.nodup_range
      intro a b ha hb' hab he
      rw [List.mem_range] at ha hb'
      have := congrArg UInt16.toNat he
      rw [UInt16.toNat_ofNat_of_lt' (by simp [UInt16.size]; omega), UInt16.toNat_ofNat_of_lt' (by simp [UInt16.size]; omega)] at this
      exact hab this)
    (by simp) (fun _ _ => rfl) exampleHdr 2 0 exampleAsker examplePipe examplePipeEvent
    examplePipeEvent_opens

/-- A process with two NFS handlers and a mount handler, one of which waits for a pipe. -/
def exampleOpening : Pipes Nat :=
  ⟨⟨{ (System.start : System Nat) with
      services := ⟨⟨true, [(40000, .nfs .start), (40001, .nfs .start), (40002, .program true)]⟩, true⟩ },
    false, []⟩, [(40000, examplePipeEvent)]⟩

/-- With two workers the other NFS handler still answers READ calls, -/
example (e : Endian) (m : Mode) (db : Db) (w : World Nat) (os : SendOs) :=
  C116_served_partial e m db 2 exampleOpening examplePipe rfl (by decide)
    (.port 40001 ⟨w, os, .datagram (callDatagram exampleHdr (.nfsRead (List.replicate 32 0) 0 512 512))
      exampleAsker⟩) trivial
    (by
      intro p ev h
      cases h
      refine ⟨by simp [exampleOpening], by simp [exampleOpening], fun h => (nomatch h), ?_⟩
      intro st pending hl
      cases hl
      refine ⟨by decide, ?_⟩
      rintro ⟨d, peer, xid, fh, name, path, hd, hc, -⟩
      injection hd with hd
      subst hd
      exact nomatch (C81_call_unique _ _ _ _ _ hc (isCall_callDatagram exampleHdr _ _ _
        (.read _ 0 512 512 (by decide)) (by intro p; simp))).2)

/-- and the portmapper answers. -/
example (e : Endian) (m : Mode) (db : Db) (os : Bytes → Addr → Bool) (r : Recv) :=
  C116_served_partial e m db 2 exampleOpening examplePipe rfl (by decide) (.portmap os (some 40003) r) trivial
    (fun _ _ h => nomatch h)

/-- With one worker nothing is answered, -/
example (e : Endian) (m : Mode) (db : Db) (r : StatusRecv) (o : List SysOut) (s' : Pipes Nat)
    (h : pipesRun e m db 1 exampleOpening [.act examplePipe (.thread (.status r))] = some (o, s')) :=
  C116_stopped e m db 1 exampleOpening s' (by decide) rfl _ o h (by simp)

example (e : Endian) (m : Mode) (db : Db) (r : StatusRecv) : ∃ o s',
    pipesRun e m db 1 exampleOpening [.act examplePipe (.thread (.status r))] = some (o, s') := ⟨_, _, rfl⟩

/-- but the broadcaster goes on. -/
example (e : Endian) (m : Mode) (db : Db) :=
  C116_threads_go_on e m db 1 exampleOpening examplePipe (.thread (.app (.broadcast true))) (fun _ h => nomatch h)

example (e : Endian) (m : Mode) (db : Db) (o : List SysOut) (s' : Pipes Nat)
    (h : pipesStep e m db 2 exampleOpening (.act examplePipe (.take (.port 40001 examplePipeEvent))) =
      some (o, s')) :=
  (C116_lookup_waits e m db 2 exampleOpening examplePipe 40001 examplePipeEvent).1 o s' .new none rfl
    examplePipeEvent_opens h

example (e : Endian) (m : Mode) (db : Db) : ∃ o s',
    pipesStep e m db 2 exampleOpening (.act examplePipe (.take (.port 40001 examplePipeEvent))) =
      some (o, s') := ⟨_, _, rfl⟩

example (e : Endian) (m : Mode) (db : Db) :=
  (C116_lookup_waits e m db 2 exampleOpening examplePipe 40000 examplePipeEvent).2.2 rfl [] [] rfl

/-- A history: a port is handed out, the pipe is looked up there, and it is opened. -/
def examplePiping : List (PipesAction Nat) :=
  [getportNfs examplePipe exampleHdr 2 0 exampleAsker 40000, lookupAt examplePipe examplePipeEvent 40000,
    .opened 0]

example (e : Endian) (m : Mode) (db : Db) (workers : Nat) (o : List SysOut) (s : Pipes Nat)
    (h : pipesRun e m db workers .start examplePiping = some (o, s)) :=
  And.intro (C116_in_order e m db workers examplePiping o s h)
    (C116_at_most_workers e m db workers examplePiping o s h)

example (e : Endian) (m : Mode) (db : Db) : ∃ o s,
    pipesRun (F := Nat) e m db 1 .start (examplePiping.take 2) = some (o, s) := by
  obtain ⟨o, s', h, -⟩ := C116_stoppable (F := Nat) e m db 1 (by decide) .start rfl rfl rfl rfl [40000]
    (by decide) rfl (fun _ _ => rfl) exampleHdr 2 0 exampleAsker examplePipe examplePipeEvent
    examplePipeEvent_opens
  exact ⟨o, s', h⟩

/-- With two workers one of which waits for a pipe, a call for the other handlers is taken up, one for the handler
that waits is not; and a LOOKUP of the pipe then waits as well. -/
example (e : Endian) (m : Mode) (db : Db) (ev : NfsEvent Nat) := And.intro
  ((C116_taken_iff e m db 2 exampleOpening examplePipe (.port 40002 ev)).2
    ⟨rfl, trivial, by decide, by intro p _ h; cases h; simp [exampleOpening]⟩)
  (mt (C116_taken_iff e m db 2 exampleOpening examplePipe (.port 40000 ev)).1
    fun h => h.2.2.2 _ _ rfl (40000, examplePipeEvent) (by simp [exampleOpening]) rfl)

/-- A port is handed out and a pipe is looked up there. -/
example (e : Endian) (m : Mode) (db : Db) : ∃ before s o s',
    pipesRun e m db 2 (.start : Pipes Nat) [getportNfs examplePipe exampleHdr 2 0 exampleAsker 40000] = some (before, s) ∧
    pipesStep e m db 2 s (.act examplePipe (.take (.port 40000 examplePipeEvent))) = some (o, s') ∧
    listener 40000 s.pool.sys.services.rpc.tasks = some (.nfs (.running .new none)) ∧
    OpensPipe examplePipe (Nfs.new : Nfs Nat).path examplePipeEvent :=
  ⟨_, _, _, _, rfl, rfl, rfl, examplePipeEvent_opens⟩

example (e : Endian) (m : Mode) (db : Db) (before o : List SysOut) (s s' : Pipes Nat)
    (h : pipesRun e m db 2 .start [getportNfs examplePipe exampleHdr 2 0 exampleAsker 40000] = some (before, s))
    (h' : pipesStep e m db 2 s (.act examplePipe (.take (.port 40000 examplePipeEvent))) = some (o, s')) :=
  C116_waits_iff e m db 2 s s' examplePipe _ o _ before h h'

end PDJ

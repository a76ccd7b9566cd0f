import Verif.Lemmas.Workers
import Verif.Props.RpcServer
import Verif.Props.App

/-!
# Property C103: requests are served during a negotiation
-/

namespace PDJ

open Spec

variable {F : Type}

/-! ## What is false -/

/-- C103 (full claim: a request is answered although a negotiation is going on).  The claim is false: when
as many EXPORT calls as there are workers wait for the lock, no request of any kind is answered, in
whatever order things happen, until the negotiation ends. -/
theorem C103_starved (e : Endian) (m : Mode) (db : Db) (workers : Nat) (s s' : Pool F)
    (hh : s.held = true) (hs : workers ≤ s.stuck.length) (h : List (PoolAction F)) (o : List SysOut)
    (hr : poolRun e m db workers s h = some (o, s')) (hu : ∀ oks, PoolAction.unlock oks ∉ h) :
    (∀ x ∈ o, ∃ d, x = .status d) ∧ (∀ x, PoolAction.take x ∉ h) ∧ s'.held = true ∧
      s'.stuck = s.stuck := by
  induction h generalizing s o with
  | nil =>
    simp only [poolRun] at hr
    injection hr with hr
    injection hr with ho hs'
    subst ho hs'
    exact ⟨fun x hx => (nomatch hx), fun x hx => (nomatch hx), hh, rfl⟩
  | cons x h ih =>
    obtain ⟨o₁, s₁, o₂, h1, h2, rfl⟩ := poolRun_cons.1 hr
    have hstep : (∀ x ∈ o₁, ∃ d, x = .status d) ∧ s₁.held = true ∧ s₁.stuck = s.stuck ∧
        ∀ y, x ≠ .take y := by
      cases x with
      | take x =>
        simp only [poolStep] at h1
        rw [if_neg (by simp only [Bool.and_eq_true, decide_eq_true_eq]; omega)] at h1
        exact nomatch h1
      | resume i =>
        simp only [poolStep] at h1
        rw [if_neg (by simp [hh])] at h1
        exact nomatch h1
      | lock =>
        simp only [poolStep] at h1
        rw [if_neg (by simp [hh])] at h1
        exact nomatch h1
      | unlock oks => exact absurd (by simp) (hu oks)
      | thread x =>
        simp only [poolStep] at h1
        split at h1
        · exact nomatch h1
        · rename_i hx
          split at h1
          · rename_i hc
            injection h1 with h1
            injection h1 with ho hs1
            subst ho hs1
            refine ⟨?_, hh, rfl, fun y hy => (nomatch hy)⟩
            simp only [Bool.and_eq_true, hh, Bool.true_and] at hc
            simp only [sysStep, hc.1.1, if_true]
            cases x with
            | app x =>
              cases x with
              | receive ifaces d => simp [appStep, hc.1.1]
              | broadcast ok => simp [threadLocks] at hc
              | appRecv => simp [threadLocks] at hc
              | appLink oks => simp [threadLocks] at hc
            | status r =>
              intro y hy
              simp only [List.mem_map] at hy
              obtain ⟨d, -, hd⟩ := hy
              exact ⟨d, hd.symm⟩
            | _ => simp [SysAction.ofTask] at hc
          · exact nomatch h1
    obtain ⟨a1, a2, a3, a4⟩ := hstep
    obtain ⟨b1, b2, b3, b4⟩ := ih s₁ a2 (by rw [a3]; exact hs) o₂ h2 fun oks ho => hu oks (by simp [ho])
    refine ⟨?_, ?_, b3, b4.trans a3⟩
    · intro y hy
      rcases List.mem_append.1 hy with hy | hy
      · exact a1 y hy
      · exact b1 y hy
    · intro y hy
      rcases List.mem_cons.1 hy with hy | hy
      · exact a4 y hy.symm
      · exact b2 y hy

/-- An action that hands out ports for MOUNT: a GETPORT call, answered. -/
def getportMount (hdr : Hdr) (v pt : UInt32) (peer : Addr) (p : UInt16) : PoolAction F :=
  .take (.portmap (fun _ _ => true) (some p) (.datagram (callDatagram hdr (.pmapGetport 100005 v pt)) peer))

/-- Handing out ports one after the other. -/
theorem mounts_run (e : Endian) (m : Mode) (db : Db) (workers : Nat) (hdr : Hdr) (v pt : UInt32)
    (peer : Addr) (ps : List UInt16) (hn : ps.Nodup) (s : Pool F) (hrun : s.sys.app.running = true)
    (hpm : s.sys.services.rpc.portmap = true) (hw : s.stuck.length < workers)
    (hf : ∀ p ∈ ps, listener p s.sys.services.rpc.tasks = none) :
    ∃ o s', poolRun e m db workers s (ps.map (getportMount hdr v pt peer)) = some (o, s') ∧
      s'.sys.app = s.sys.app ∧ s'.held = s.held ∧ s'.stuck = s.stuck ∧
      (∀ p ∈ ps, listener p s'.sys.services.rpc.tasks = some (.program true)) ∧
      ∀ p, p ∉ ps → listener p s'.sys.services.rpc.tasks = listener p s.sys.services.rpc.tasks := by
  induction ps generalizing s with
  | nil => exact ⟨[], s, rfl, rfl, rfl, rfl, fun p hp => (nomatch hp), fun p _ => rfl⟩
  | cons p ps ih =>
    obtain ⟨t, h1, h2, h3, h4⟩ := C30_getport_mount e s.sys.services.rpc hpm hdr v pt peer p
      (hf p (by simp)) (fun _ _ => true) rfl
    obtain ⟨hnp, hnps⟩ := List.nodup_cons.1 hn
    have hstep : poolStep e m db workers s (getportMount hdr v pt peer p) =
        some ([.rpc (none, rfcReply hdr.xid (portWord p), peer)],
          ⟨{ s.sys with services := ⟨t, s.sys.services.accepting && t.portmap⟩ }, s.held, s.stuck⟩) := by
      unfold getportMount
      simp only [poolStep]
      rw [if_pos (by simp [hrun, hw, SysAction.ofTask, notWaiting])]
      have hl : ∀ os bound r, locksState s.sys (.portmap os bound r) = none := fun _ _ _ => rfl
      simp only [hl]
      cases s.held <;> simp [sysStep, hrun, servicesStep, h1]
    obtain ⟨o, s', i1, i2, i3, i4, i5, i6⟩ := ih hnps
      ⟨{ s.sys with services := ⟨t, s.sys.services.accepting && t.portmap⟩ }, s.held, s.stuck⟩ hrun h2 hw
      (by
        intro q hq
        show listener q t.tasks = none
        rw [h4 q (fun e => hnp (e ▸ hq))]
        exact hf q (by simp [hq]))
    refine ⟨[.rpc (none, rfcReply hdr.xid (portWord p), peer)] ++ o, s', ?_, i2, i3, i4, ?_, ?_⟩
    · rw [List.map_cons, poolRun_cons]
      exact ⟨_, _, o, hstep, i1, rfl⟩
    · intro q hq
      rcases List.mem_cons.1 hq with rfl | hq
      · rw [i6 q hnp]
        exact h3
      · exact i5 q hq
    · intro q hq
      rw [i6 q (fun h => hq (by simp [h]))]
      exact h4 q (fun h => hq (by simp [h]))

/-- An EXPORT call at the port of a mount handler. -/
def exportAt (ev : NfsEvent F) (p : UInt16) : PoolAction F := .take (.port p ev)

theorem exports_run (e : Endian) (m : Mode) (db : Db) (workers : Nat) (ev : NfsEvent F)
    (ha : AsksForExports ev) (ps : List UInt16) (hn : ps.Nodup) (s : Pool F)
    (hrun : s.sys.app.running = true) (hh : s.held = true) (hw : s.stuck.length + ps.length ≤ workers)
    (hl : ∀ p ∈ ps, listener p s.sys.services.rpc.tasks = some (.program true))
    (hf : ∀ p ∈ ps, ∀ y ∈ s.stuck, y.1 ≠ p) :
    poolRun e m db workers s (ps.map (exportAt ev)) =
      some ([], { s with stuck := s.stuck ++ ps.map fun p => (p, ev) }) := by
  induction ps generalizing s with
  | nil => simp [poolRun]
  | cons p ps ih =>
    obtain ⟨hnp, hnps⟩ := List.nodup_cons.1 hn
    simp only [List.length_cons] at hw
    have hstep : poolStep e m db workers s (exportAt ev p) =
        some ([], { s with stuck := s.stuck ++ [(p, ev)] }) := by
      unfold exportAt
      simp only [poolStep]
      have hfree : notWaiting s.stuck (.port p ev) = true := by
        simp only [notWaiting, List.all_eq_true, bne_iff_ne, ne_eq]
        exact hf p (by simp)
      have hlt : s.stuck.length < workers := by omega
      rw [if_pos (by simp [hrun, SysAction.ofTask, hfree, hlt])]
      rw [locksState_listener (hl p (by simp)) ha]
      simp only [hh]
    have hi := ih hnps { s with stuck := s.stuck ++ [(p, ev)] } hrun hh (by simp; omega)
      (fun q hq => hl q (by simp [hq])) (by
        intro q hq y hy
        rcases List.mem_append.1 hy with hy | hy
        · exact hf q (by simp [hq]) y hy
        · simp only [List.mem_singleton] at hy
          subst hy
          rintro rfl
          exact hnp hq)
    rw [List.map_cons, poolRun_cons]
    refine ⟨[], _, [], hstep, ?_, rfl⟩
    rw [hi]
    simp

/-- C103: it is false in every state in which a negotiation is about to begin and whatever the number of
workers (as long as there are that many unused ports): that many GETPORT calls for MOUNT and that many
EXPORT calls at the ports handed out make every request wait until the negotiation ends. -/
theorem C103_starvable (e : Endian) (m : Mode) (db : Db) (workers : Nat) (hw : 0 < workers) (s : Pool F)
    (hrun : s.sys.app.running = true) (hpend : s.sys.app.pending = true) (hh : s.held = false)
    (hst : s.stuck = []) (hpm : s.sys.services.rpc.portmap = true) (ps : List UInt16) (hn : ps.Nodup)
    (hlen : ps.length = workers) (hf : ∀ p ∈ ps, listener p s.sys.services.rpc.tasks = none) (hdr : Hdr)
    (v pt : UInt32) (peer : Addr) (ev : NfsEvent F) (ha : AsksForExports ev) :
    ∃ o s', poolRun e m db workers s (ps.map (getportMount hdr v pt peer) ++ [.lock] ++
        ps.map (exportAt ev)) = some (o, s') ∧
      ∀ h o' s'', poolRun e m db workers s' h = some (o', s'') → (∀ oks, PoolAction.unlock oks ∉ h) →
        (∀ x ∈ o', ∃ d, x = .status d) ∧ ∀ x, PoolAction.take x ∉ h := by
  obtain ⟨o, s₁, h1, h2, h3, h4, h5, -⟩ := mounts_run e m db workers hdr v pt peer ps hn s hrun hpm
    (by rw [hst]; exact hw) hf
  have hlock : poolRun e m db workers s₁ [.lock] = some ([], { s₁ with held := true }) := by
    simp [poolRun, poolStep, h2, h3, hrun, hpend, hh]
  have hex := exports_run e m db workers ev ha ps hn { s₁ with held := true } (by rw [← hrun, ← h2]) rfl
    (by simp [h4, hst, hlen]) h5 (by simp [h4, hst])
  refine ⟨_, _, poolRun_append (poolRun_append h1 hlock) hex, ?_⟩
  intro h o' s'' hr hu
  obtain ⟨r1, r2, -, -⟩ := C103_starved e m db workers _ s'' rfl (by simp [hlen]) h o' hr hu
  exact ⟨r1, r2⟩

/-! ## What holds -/

/-- C103: an EXPORT call at a mount handler during a negotiation is not answered; it occupies a worker. -/
theorem C103_export_waits (e : Endian) (m : Mode) (db : Db) (workers : Nat) (s s' : Pool F) (p : UInt16)
    (ev : NfsEvent F) (o : List SysOut) (hh : s.held = true)
    (hl : listener p s.sys.services.rpc.tasks = some (.program true)) (ha : AsksForExports ev)
    (hr : poolStep e m db workers s (.take (.port p ev)) = some (o, s')) :
    o = [] ∧ s' = { s with stuck := s.stuck ++ [(p, ev)] } := by
  simp only [poolStep] at hr
  split at hr
  · rw [locksState_listener hl ha] at hr
    simp only [hh] at hr
    injection hr with hr
    injection hr with h1 h2
    exact ⟨h1.symm, by rw [← h2, hh]⟩
  · exact nomatch hr

/-- C103 (full claim: a request is answered although a negotiation is going on).  Missing: the claim is
false (`C103_starvable`), and even a free worker need not turn to the request at once, which is up to
tokio.  What holds: while fewer EXPORT calls wait than there are workers, any task that is not one of
those waiting can deal with anything but an EXPORT call, and does what it does without a negotiation. -/
theorem C103_served_partial (e : Endian) (m : Mode) (db : Db) (workers : Nat) (s : Pool F)
    (hrun : s.sys.app.running = true) (hw : s.stuck.length < workers) (x : SysAction F) (ht : ForTask x)
    (hx : ∀ p ev, x = .port p ev → (∀ y ∈ s.stuck, y.1 ≠ p) ∧ (s.held = true → ¬ AsksForExports ev)) :
    poolStep e m db workers s (.take x) =
      some ((sysStep e m db s.sys x).1, { s with sys := (sysStep e m db s.sys x).2 }) := by
  simp only [poolStep]
  have h1 : notWaiting s.stuck x = true := by
    cases x with
    | port p ev =>
      simp only [notWaiting, List.all_eq_true, bne_iff_ne, ne_eq]
      exact (hx p ev rfl).1
    | _ => rfl
  have h2 : x.ofTask = true := by cases x <;> first | rfl | exact ht.elim
  rw [if_pos (by simp [hrun, hw, h1, h2])]
  split
  · rename_i y hheld hl
    obtain ⟨rfl, ha⟩ := locksState_some hl
    exact absurd ha ((hx _ _ rfl).2 hheld)
  · rfl

/-- C103: the workers change nothing but the order: in any history everything that is sent, and the state
afterwards, is what the process does (`sysRun`, C77 and C95 to C101) for the events in some order; events
other than those at the ports of RPC handlers in the order in which they are taken up; those at such a port
as well, except that the last one may still wait for the lock. -/
theorem C103_in_order (e : Endian) (m : Mode) (db : Db) (workers : Nat) (h : List (PoolAction F))
    (o : List SysOut) (s' : Pool F) (hr : poolRun e m db workers .start h = some (o, s')) :
    ∃ xs, sysRun e m db .start xs = (o, s'.sys) ∧ notAtPorts xs = notAtPorts (takenUp h) ∧
      ∀ p, portPart p xs = portPart p (takenUp h) ∨
        ∃ ev, (p, ev) ∈ s'.stuck ∧ portPart p xs ++ [ev] = portPart p (takenUp h) := by
  have key : ∀ (s : Pool F) (o : List SysOut), poolRun e m db workers s h = some (o, s') →
      (∀ p, (waitingFor p s.stuck).length ≤ 1) →
      (∀ p, (waitingFor p s'.stuck).length ≤ 1) ∧
      ∃ xs, sysRun e m db s.sys xs = (o, s'.sys) ∧ notAtPorts xs = notAtPorts (takenUp h) ∧
        ∀ p, waitingFor p s.stuck ++ portPart p (takenUp h) = portPart p xs ++ waitingFor p s'.stuck := by
    clear hr o
    induction h with
    | nil =>
      intro s o hr hd
      simp only [poolRun] at hr
      injection hr with hr
      injection hr with ho hs
      subst ho hs
      exact ⟨hd, [], rfl, rfl, fun p => by simp [takenUp, portPart]⟩
    | cons x h ih =>
      intro s o hr hd
      obtain ⟨o₁, s₁, o₂, h1, h2, rfl⟩ := poolRun_cons.1 hr
      obtain ⟨d1, xs, a1, a2, a3⟩ := poolStep_sys h1 hd
      obtain ⟨d2, ys, b1, b2, b3⟩ := ih s₁ o₂ h2 d1
      refine ⟨d2, xs ++ ys, ?_, ?_, ?_⟩
      · rw [sysRun_append, a1, b1]
      · rw [takenUp_cons]
        simp only [notAtPorts, List.filter_append] at a2 b2 ⊢
        rw [a2, b2]
      · intro p
        rw [takenUp_cons, portPart_append', portPart_append', ← List.append_assoc, a3, List.append_assoc, b3,
          List.append_assoc]
  obtain ⟨d, xs, h1, h2, h3⟩ := key .start o hr (fun p => by simp [Pool.start, waitingFor])
  refine ⟨xs, h1, h2, fun p => ?_⟩
  have h3 := h3 p
  have hd := d p
  simp only [Pool.start, waitingFor, List.filterMap_nil, List.nil_append] at h3
  cases hw : waitingFor p s'.stuck with
  | nil =>
    left
    rw [show List.filterMap _ s'.stuck = waitingFor p s'.stuck from rfl, hw, List.append_nil] at h3
    exact h3.symm
  | cons ev l =>
    right
    rw [hw] at hd
    have hl : l = [] := List.length_eq_zero_iff.1 (by simp only [List.length_cons] at hd; omega)
    subst hl
    rw [show List.filterMap _ s'.stuck = waitingFor p s'.stuck from rfl, hw] at h3
    refine ⟨ev, ?_, h3.symm⟩
    have : ev ∈ waitingFor p s'.stuck := by rw [hw]; simp
    simp only [waitingFor, List.mem_filterMap] at this
    obtain ⟨y, hy, he⟩ := this
    split at he
    · rename_i hp
      injection he with he
      subst hp he
      exact hy
    · exact nomatch he

/-- C103: a negotiation can end whatever else waits, and afterwards, if it has not ended the process, each
of the waiting calls can be dealt with, in any order, and is dealt with as at any other time. -/
theorem C103_released (e : Endian) (m : Mode) (db : Db) (workers : Nat) (s : Pool F)
    (hrun : s.sys.app.running = true) :
    (s.held = true → ∀ oks, ∃ o s', poolStep e m db workers s (.unlock oks) = some (o, s') ∧
      s'.held = false ∧ s'.stuck = s.stuck ∧ (o, s'.sys) = sysStep e m db s.sys (.app (.appLink oks))) ∧
    (s.held = false → ∀ before p ev after, s.stuck = before ++ (p, ev) :: after →
      ∃ o s', poolStep e m db workers s (.resume before.length) = some (o, s') ∧ s'.held = false ∧
        s'.stuck = before ++ after ∧ (o, s'.sys) = sysStep e m db s.sys (.port p ev)) := by
  constructor
  · intro hh oks
    refine ⟨(sysStep e m db s.sys (.app (.appLink oks))).1,
      ⟨(sysStep e m db s.sys (.app (.appLink oks))).2, false, s.stuck⟩, ?_, rfl, rfl, rfl⟩
    simp only [poolStep, hrun, hh]
    rfl
  · intro hh before p ev after hs
    refine ⟨(sysStep e m db s.sys (.port p ev)).1,
      ⟨(sysStep e m db s.sys (.port p ev)).2, false, before ++ after⟩, ?_, rfl, rfl, rfl⟩
    simp only [poolStep]
    rw [if_pos (by simp [hrun, hh])]
    rw [hs]
    simp [hh, List.eraseIdx_append_of_length_le]

/-- What a step leaves of the state while the lock is held. -/
theorem held_step {e : Endian} {m : Mode} {db : Db} {n : Nat} {s s' : Pool F} {x : PoolAction F}
    {o : List SysOut} (hh : s.held = true) (h : poolStep e m db n s x = some (o, s'))
    (hu : ∀ oks, x ≠ .unlock oks) :
    s'.held = true ∧ s'.sys.app.state = s.sys.app.state ∧ s'.sys.app.pending = s.sys.app.pending ∧
      s'.sys.app.queue = s.sys.app.queue ∧ ∀ b, SysOut.broadcast b ∉ o := by
  cases x with
  | take x =>
    simp only [poolStep] at h
    split at h
    · rename_i hc
      simp only [Bool.and_eq_true] at hc
      split at h
      · injection h with h
        injection h with ho hs
        subst ho hs
        exact ⟨hh, rfl, rfl, rfl, fun b hb => (nomatch hb)⟩
      · injection h with h
        injection h with ho hs
        subst ho hs
        simp only [sysStep, hc.1.1.1, if_true]
        cases x with
        | app x => simp [SysAction.ofTask] at hc
        | status x => simp [SysAction.ofTask] at hc
        | accept c => cases ha : s.sys.services.accepting <;> exact ⟨hh, by simp, by simp, by simp, by simp⟩
        | main c q => by_cases hm : c ∈ s.sys.mains <;> simp [hm, hh]
        | _ => exact ⟨hh, rfl, rfl, rfl, by simp⟩
    · exact nomatch h
  | resume i => simp [poolStep, hh] at h
  | lock => simp [poolStep, hh] at h
  | unlock oks => exact absurd rfl (hu oks)
  | thread x =>
    simp only [poolStep] at h
    split at h
    · exact nomatch h
    · split at h
      · rename_i hc
        simp only [Bool.and_eq_true, hh, Bool.true_and] at hc
        injection h with h
        injection h with ho hs
        subst ho hs
        simp only [sysStep, hc.1.1, if_true]
        cases x with
        | app x =>
          cases x with
          | receive ifaces d =>
            simp only [appStep, hc.1.1, if_true]
            refine ⟨hh, ?_, ?_, ?_, by simp⟩ <;>
            · split
              · unfold receiveStep
                have ht := hc.2
                simp only [threadLocks] at ht
                split
                · rfl
                · rfl
                · rename_i p hp
                  rw [hp] at ht
                  cases ha : acceptedStatus p with
                  | none => rfl
                  | some st => simp [ha] at ht
              · rfl
          | _ => simp [threadLocks] at hc
        | status r => exact ⟨hh, rfl, rfl, rfl, by simp⟩
        | _ => simp [SysAction.ofTask] at hc
      · exact nomatch h

/-- C103: while the lock is held for a negotiation no thread or task touches the state: nothing is
announced, and nobody is taken notice of. -/
theorem C103_exclusive (e : Endian) (m : Mode) (db : Db) (workers : Nat) (s s' : Pool F)
    (hh : s.held = true) (h : List (PoolAction F)) (o : List SysOut)
    (hr : poolRun e m db workers s h = some (o, s')) (hu : ∀ oks, PoolAction.unlock oks ∉ h) :
    s'.held = true ∧ s'.sys.app.state = s.sys.app.state ∧ s'.sys.app.queue = s.sys.app.queue ∧
      ∀ b, SysOut.broadcast b ∉ o := by
  induction h generalizing s o with
  | nil =>
    simp only [poolRun] at hr
    injection hr with hr
    injection hr with ho hs
    subst ho hs
    exact ⟨hh, rfl, rfl, fun b hb => (nomatch hb)⟩
  | cons x h ih =>
    obtain ⟨o₁, s₁, o₂, h1, h2, rfl⟩ := poolRun_cons.1 hr
    obtain ⟨a1, a2, -, a4, a5⟩ := held_step hh h1 fun oks ho => hu oks (by simp [ho])
    obtain ⟨b1, b2, b3, b4⟩ := ih s₁ a1 o₂ h2 fun oks ho => hu oks (by simp [ho])
    refine ⟨b1, b2.trans a2, b3.trans a4, fun b hb => ?_⟩
    rcases List.mem_append.1 hb with hb | hb
    · exact a5 b hb
    · exact b4 b hb

/-- C103: from the start on, the lock is held for long only when the application has been told to link, so
that the end of the time in which it is held is the end of a negotiation (C51). -/
theorem C103_only_negotiations (e : Endian) (m : Mode) (db : Db) (workers : Nat) (h : List (PoolAction F))
    (o : List SysOut) (s' : Pool F) (hr : poolRun e m db workers .start h = some (o, s'))
    (hh : s'.held = true) : s'.sys.app.pending = true := by
  have key : ∀ (s : Pool F) (o : List SysOut), poolRun e m db workers s h = some (o, s') →
      (s.held = true → s.sys.app.pending = true) → s'.sys.app.pending = true := by
    clear hr o
    induction h with
    | nil =>
      intro s o hr hs
      simp only [poolRun] at hr
      injection hr with hr
      injection hr with _ hr
      subst hr
      exact hs hh
    | cons x h ih =>
      intro s o hr hs
      obtain ⟨o₁, s₁, o₂, h1, h2, rfl⟩ := poolRun_cons.1 hr
      refine ih s₁ o₂ h2 fun h₁ => ?_
      by_cases hs' : s.held = true
      · by_cases hu : ∃ oks, x = .unlock oks
        · obtain ⟨oks, rfl⟩ := hu
          simp only [poolStep] at h1
          split at h1
          · injection h1 with h1
            injection h1 with _ h1
            subst h1
            exact nomatch h₁
          · exact nomatch h1
        · obtain ⟨-, -, a3, -, -⟩ := held_step hs' h1 fun oks ho => hu ⟨oks, ho⟩
          rw [a3]
          exact hs hs'
      · simp only [Bool.not_eq_true] at hs'
        cases x with
        | take x =>
          simp only [poolStep] at h1
          split at h1
          · split at h1 <;>
            · injection h1 with h1
              injection h1 with _ h1
              subst h1
              exact absurd h₁ (by simp [hs'])
          · exact nomatch h1
        | resume i =>
          simp only [poolStep] at h1
          split at h1
          · split at h1
            · injection h1 with h1
              injection h1 with _ h1
              subst h1
              exact absurd h₁ (by simp [hs'])
            · exact nomatch h1
          · exact nomatch h1
        | lock =>
          simp only [poolStep] at h1
          split at h1
          · rename_i hc
            simp only [Bool.and_eq_true] at hc
            injection h1 with h1
            injection h1 with _ h1
            subst h1
            exact hc.1.2
          · exact nomatch h1
        | unlock oks => simp [poolStep, hs'] at h1
        | thread x =>
          simp only [poolStep] at h1
          split at h1
          · exact nomatch h1
          · split at h1
            · injection h1 with h1
              injection h1 with _ h1
              subst h1
              exact absurd h₁ (by simp [hs'])
            · exact nomatch h1
  exact key .start o hr (fun h => nomatch h)

/-! ## Non-vacuity -/

/-- An EXPORT call as an event. -/
def exampleExportEvent : NfsEvent Nat :=
  ⟨sampleWorld, fun _ _ _ => true, .datagram exampleExportCall exampleAsker⟩

theorem exampleExportEvent_asks : AsksForExports exampleExportEvent :=
  ⟨_, _, _, rfl, exampleExportCall_isCall⟩

/-- From the start: a player is heard, and the main thread takes the events from the channel. -/
def exampleHearing : List (PoolAction Nat) :=
  [.thread (.app (.receive exampleInterfaces exampleDatagram)), .thread (.app .appRecv),
    .thread (.app .appRecv)]

theorem exampleHearing_run (e : Endian) (m : Mode) (db : Db) (workers : Nat) :
    ∃ o s, poolRun e m db workers .start exampleHearing = some (o, s) ∧ s.sys.app.running = true ∧
      s.sys.app.pending = true ∧ s.held = false ∧ s.stuck = [] ∧ s.sys.services = .start :=
  ⟨_, _, rfl, rfl, rfl, rfl, rfl, rfl⟩

/-- C103: for any number of workers up to 65535 the process can be brought to a standstill. -/
example (e : Endian) (m : Mode) (db : Db) (workers : Nat) (hw : 0 < workers) (hb : workers < 65536) :
    ∃ h o s, poolRun (F := Nat) e m db workers .start h = some (o, s) ∧
      ∀ k o' s', poolRun e m db workers s k = some (o', s') → (∀ oks, PoolAction.unlock oks ∉ k) →
        (∀ x ∈ o', ∃ d, x = .status d) ∧ ∀ x, PoolAction.take x ∉ k := by
  obtain ⟨o, s, h1, h2, h3, h4, h5, h6⟩ := exampleHearing_run e m db workers
  obtain ⟨o', s', r1, r2⟩ := C103_starvable e m db workers hw s h2 h3 h4 h5 (by rw [h6]; rfl)
    ((List.range workers).map UInt16.ofNat)
    (by
      rw [List.nodup_iff_pairwise_ne, List.pairwise_map]
      refine List.Pairwise.imp_of_mem ?_ List.nodup_range
      intro a b ha hb' hab he
      rw [List.mem_range] at ha hb'
      have := congrArg UInt16.toNat he
      rw [UInt16.toNat_ofNat_of_lt' (by simp [UInt16.size]; omega), UInt16.toNat_ofNat_of_lt' (by simp [UInt16.size]; omega)] at this
      exact hab this)
    (by simp) (by intro p _; rw [h6]; rfl) exampleHdr 1 0 exampleAsker exampleExportEvent
    exampleExportEvent_asks
  exact ⟨_, _, s', poolRun_append h1 r1, r2⟩

/-- A process with two workers in a negotiation, one of them waiting. -/
def exampleBusy : Pool Nat :=
  ⟨{ (System.start : System Nat) with
    app := exampleLinking, services := ⟨⟨true, [(40000, .program true), (40001, .program true)]⟩, true⟩ },
    true, [(40000, exampleExportEvent)]⟩

/-- The portmapper still answers. -/
example (e : Endian) (m : Mode) (db : Db) (os : Bytes → Addr → Bool) (r : Recv) :=
  C103_served_partial e m db 2 exampleBusy rfl (by decide) (.portmap os (some 40002) r) trivial
    (fun _ _ h => nomatch h)

/-- The other mount handler still answers MNT calls. -/
example (e : Endian) (m : Mode) (db : Db) (os : SendOs) :=
  C103_served_partial e m db 2 exampleBusy rfl (by decide)
    (.port 40001 ⟨sampleWorld, os, .datagram (callDatagram exampleHdr (.mntMnt ['/'])) exampleAsker⟩) trivial
    (by
      intro p ev h
      cases h
      refine ⟨by simp [exampleBusy], ?_⟩
      rintro - ⟨d, peer, xid, hd, hc⟩
      injection hd with hd
      subst hd
      exact nomatch (C81_call_unique _ _ _ _ _ hc (isCall_callDatagram exampleHdr _ _ _ (.mnt ['/'] (by decide))
        (by intro p hp; cases hp; decide))).2)

example (e : Endian) (m : Mode) (db : Db) (o : List SysOut) (s' : Pool Nat)
    (h : poolStep e m db 2 exampleBusy (.take (.port 40001 exampleExportEvent)) = some (o, s')) :=
  C103_export_waits e m db 2 exampleBusy s' 40001 exampleExportEvent o rfl rfl exampleExportEvent_asks h

example (e : Endian) (m : Mode) (db : Db) : ∃ o s',
    poolStep e m db 2 exampleBusy (.take (.port 40001 exampleExportEvent)) = some (o, s') := ⟨_, _, rfl⟩

example (e : Endian) (m : Mode) (db : Db) :=
  (C103_released e m db 2 { exampleBusy with held := false } rfl).2 rfl [] 40000 exampleExportEvent [] rfl

/-- With one worker that process is at a standstill. -/
example (e : Endian) (m : Mode) (db : Db) (r : StatusRecv) (o : List SysOut) (s' : Pool Nat)
    (h : poolRun e m db 1 exampleBusy [.thread (.status r)] = some (o, s')) :=
  C103_starved e m db 1 exampleBusy s' rfl (by decide) _ o h (by simp)

example (e : Endian) (m : Mode) (db : Db) (r : StatusRecv) : ∃ o s',
    poolRun e m db 1 exampleBusy [.thread (.status r)] = some (o, s') := ⟨_, _, rfl⟩

example (e : Endian) (m : Mode) (db : Db) (workers : Nat) (o : List SysOut) (s : Pool Nat)
    (h : poolRun e m db workers .start exampleHearing = some (o, s)) :=
  C103_in_order e m db workers exampleHearing o s h

example (e : Endian) (m : Mode) (db : Db) (r : StatusRecv) (o : List SysOut) (s' : Pool Nat)
    (h : poolRun e m db 1 exampleBusy [.thread (.status r)] = some (o, s')) :=
  C103_exclusive e m db 1 exampleBusy s' rfl _ o h (by simp)

example (e : Endian) (m : Mode) (db : Db) (workers : Nat) :
    ∃ o s, poolRun e m db workers .start (exampleHearing ++ [.lock]) = some (o, s) ∧ s.held = true :=
  ⟨_, _, rfl, rfl⟩

example (e : Endian) (m : Mode) (db : Db) (workers : Nat) (o : List SysOut) (s : Pool Nat)
    (h : poolRun e m db workers .start (exampleHearing ++ [.lock]) = some (o, s)) (hh : s.held = true) :=
  C103_only_negotiations e m db workers _ o s h hh

end PDJ

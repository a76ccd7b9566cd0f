import Verif.Spec.Exhaustion
import Verif.Props.RpcServer

/-!
# Properties C93, C94: the ports run out
-/

namespace PDJ

open Spec

variable {F : Type}

theorem length_le_of_pool {α : Type} [DecidableEq α] : ∀ (l pool : List α), l.Nodup →
    (∀ x ∈ l, x ∈ pool) → l.length ≤ pool.length
  | [], _, _, _ => Nat.zero_le _
  | a :: l, pool, hn, hp => by
    have ha := hp a List.mem_cons_self
    have hn := List.nodup_cons.1 hn
    have := length_le_of_pool l (pool.erase a) hn.2 (fun x hx =>
      (List.mem_erase_of_ne (fun e : x = a => hn.1 (e ▸ hx))).2 (hp x (List.mem_cons_of_mem _ hx)))
    rw [List.length_erase_of_mem ha] at this
    have := List.length_pos_of_mem ha
    simp only [List.length_cons]
    omega

/-- Of what is all in the pool and all different, there is less than the pool exactly if some of the pool is
left. -/
theorem pool_left_iff {α : Type} [DecidableEq α] (l pool : List α) (hn : l.Nodup) (hp : pool.Nodup)
    (hl : ∀ x ∈ l, x ∈ pool) : l.length < pool.length ↔ ∃ x ∈ pool, x ∉ l := by
  constructor
  · intro h
    apply Classical.byContradiction
    intro hc
    have : ∀ x ∈ pool, x ∈ l := fun x hx => Classical.byContradiction fun hx' => hc ⟨x, hx, hx'⟩
    have := length_le_of_pool pool l hp this
    omega
  · rintro ⟨x, hx, hx'⟩
    have := length_le_of_pool (x :: l) pool (List.nodup_cons.2 ⟨hx', hn⟩) (by
      intro y hy
      rcases List.mem_cons.1 hy with rfl | hy
      · exact hx
      · exact hl y hy)
    exact this

/-! ## C93 -/

/-- The ports on which handlers listen. -/
def livePorts (l : List (UInt16 × RpcTask F)) : List UInt16 := (l.filter fun t => t.2.live).map Prod.fst

theorem listener_none_iff (port : UInt16) (l : List (UInt16 × RpcTask F)) :
    listener port l = none ↔ port ∉ livePorts l := by
  induction l with
  | nil => simp [listener, livePorts]
  | cons t ts ih =>
    simp only [listener, livePorts, List.filter_cons]
    by_cases h : t.1 = port ∧ t.2.live = true
    · simp [h.1, h.2]
    · rw [if_neg h, ih]
      by_cases hl : t.2.live = true
      · have : t.1 ≠ port := fun e => h ⟨e, hl⟩
        simp only [hl, if_true, List.map_cons, List.mem_cons, livePorts]
        constructor
        · rintro h1 (h2 | h2)
          · exact this h2.symm
          · exact h1 h2
        · exact fun h1 h2 => h1 (.inr h2)
      · simp only [hl, Bool.false_eq_true, if_false]
        rfl

theorem deliver_ports (e : Endian) (net : Option PioneerNetwork) (port : UInt16) (ev : NfsEvent F)
    (l : List (UInt16 × RpcTask F)) : (deliver e net port ev l).2.length = l.length ∧
      (livePorts (deliver e net port ev l).2).Sublist (livePorts l) := by
  induction l with
  | nil => exact ⟨rfl, List.Sublist.refl _⟩
  | cons t ts ih =>
    simp only [deliver]
    split
    · rename_i h
      refine ⟨rfl, ?_⟩
      simp only [livePorts, List.filter_cons, h.2, if_true]
      split
      · exact List.Sublist.refl _
      · exact List.sublist_cons_self _ _
    · refine ⟨by simp [ih.1], ?_⟩
      simp only [livePorts, List.filter_cons]
      split
      · exact ih.2.cons_cons _
      · exact ih.2

/-- What one event does to the handlers. -/
theorem rpcStep_tasks (e : Endian) (s : RpcSystem F) (x : RpcEvent F) :
    ((rpcStep e s x).2.portmap = true → s.portmap = true) ∧
    s.tasks.length ≤ (rpcStep e s x).2.tasks.length ∧
    ((rpcStep e s x).2.portmap = true → Getports [x] 1 →
      s.tasks.length + 1 ≤ (rpcStep e s x).2.tasks.length) ∧
    ((livePorts (rpcStep e s x).2.tasks).Sublist (livePorts s.tasks) ∨
      ∃ os port r, x = .portmap os (some port) r ∧
        (livePorts (rpcStep e s x).2.tasks).Sublist (livePorts s.tasks ++ [port])) := by
  cases x with
  | port p net ev =>
    obtain ⟨h1, h2⟩ := deliver_ports e net p ev s.tasks
    refine ⟨id, Nat.le_of_eq h1.symm, ?_, .inl h2⟩
    intro _ h
    cases h with
    | other h => cases h
  | portmap os bound r =>
    show ((portmapStep os bound r s).2.portmap = true → _) ∧ _ ≤ (portmapStep os bound r s).2.tasks.length ∧
      ((portmapStep os bound r s).2.portmap = true → _ → _ ≤ (portmapStep os bound r s).2.tasks.length) ∧
      ((livePorts (portmapStep os bound r s).2.tasks).Sublist _ ∨ ∃ os' port r', _ ∧
        (livePorts (portmapStep os bound r s).2.tasks).Sublist _)
    by_cases hp : s.portmap = true
    case neg =>
      have : portmapStep os bound r s = ([], s) := by simp [portmapStep, hp]
      rw [this]
      exact ⟨id, Nat.le_refl _, fun h => absurd h hp, .inl (List.Sublist.refl _)⟩
    have noGet : (∀ d peer, r = .datagram d peer → ∀ q, rpcFrame d ≠ .request q) →
        ¬ Getports [RpcEvent.portmap (F := F) os bound r] 1 := by
      intro hn hg
      cases hg with
      | getport hc hx =>
        obtain ⟨q, hq, _⟩ := (C81_call_iff _ _ _).1 hc
        exact hn _ _ rfl q hq
      | other h => cases h
    cases r with
    | ioError =>
      have : portmapStep os bound .ioError s = ([], s) := by simp [portmapStep]
      rw [this]
      exact ⟨id, Nat.le_refl _, fun _ h => absurd h (noGet (fun _ _ h => nomatch h)),
        .inl (List.Sublist.refl _)⟩
    | datagram d peer =>
      unfold portmapStep
      rw [if_pos hp]
      cases hf : rpcFrame d with
      | nothing =>
        simp only [hf]
        exact ⟨fun _ => hp, Nat.le_refl _,
          fun _ h => absurd h (noGet (by rintro _ _ h q; cases h; rw [hf]; exact fun h => nomatch h)),
          .inl (List.Sublist.refl _)⟩
      | invalid =>
        simp only [hf]
        exact ⟨fun _ => hp, Nat.le_refl _,
          fun _ h => absurd h (noGet (by rintro _ _ h q; cases h; rw [hf]; exact fun h => nomatch h)),
          .inl (List.Sublist.refl _)⟩
      | panic =>
        simp only [hf]
        exact ⟨fun _ => hp, Nat.le_refl _, fun h => (nomatch h), .inl (List.Sublist.refl _)⟩
      | request q =>
        cases bound with
        | none =>
          simp only [hf]
          exact ⟨fun _ => hp, Nat.le_refl _, fun h => (nomatch h), .inl (List.Sublist.refl _)⟩
        | some port =>
          simp only [hf]
          have live : ∀ t : RpcTask F, (livePorts (s.tasks ++ [(port, t)])).Sublist
              (livePorts s.tasks ++ [port]) := by
            intro t
            simp only [livePorts, List.filter_append, List.map_append, List.filter_cons]
            refine List.Sublist.append (List.Sublist.refl _) ?_
            split
            · exact List.Sublist.refl _
            · exact List.nil_sublist _
          have spawn : Getports [RpcEvent.portmap (F := F) os (some port) (.datagram d peer)] 1 →
              ∃ t : RpcTask F, spawned q.call.procedure = some t := by
            intro hg
            cases hg with
            | getport hc hx =>
              obtain ⟨q', hq, _, hm⟩ := (C81_call_iff _ _ _).1 hc
              rw [hf] at hq
              cases hq
              generalize q.call.program = a at *
              generalize q.call.procedure = b at *
              cases hm <;> exact ⟨_, rfl⟩
            | other h => cases h
          cases hs : (spawned q.call.procedure : Option (RpcTask F)) with
          | none =>
            refine ⟨fun _ => hp, ?_, fun _ h => ?_, .inl ?_⟩
            · split <;> exact Nat.le_refl _
            · obtain ⟨t, ht⟩ := spawn h
              rw [hs] at ht
              exact nomatch ht
            · split <;> exact List.Sublist.refl _
          | some t =>
            refine ⟨fun _ => hp, ?_, fun _ _ => ?_, .inr ⟨os, port, _, rfl, ?_⟩⟩
            · split <;> simp
            · split <;> simp
            · split <;> exact live t

theorem rpc_ports_run (e : Endian) (pool : List UInt16) (es : List (RpcEvent F)) (s : RpcSystem F)
    (hh : HonestRpc e pool s es) (hn : (livePorts s.tasks).Nodup)
    (hp : ∀ p ∈ livePorts s.tasks, p ∈ pool) :
    (livePorts (rpcRun e s es).2.tasks).Nodup ∧ ∀ p ∈ livePorts (rpcRun e s es).2.tasks, p ∈ pool := by
  induction es generalizing s with
  | nil => exact ⟨hn, hp⟩
  | cons x es ih =>
    refine ih _ hh.2 ?_ ?_
    · rcases (rpcStep_tasks e s x).2.2.2 with h | ⟨os, port, r, rfl, h⟩
      · exact h.nodup hn
      · refine h.nodup (List.nodup_append.2 ⟨hn, by simp, ?_⟩)
        intro a ha b hb
        rw [List.mem_singleton.1 hb]
        have := (hh.1 os port r rfl).2
        rw [listener_none_iff] at this
        exact fun h => this (h ▸ ha)
    · intro p hpm
      rcases (rpcStep_tasks e s x).2.2.2 with h | ⟨os, port, r, rfl, h⟩
      · exact hp p (h.subset hpm)
      · rcases List.mem_append.1 (h.subset hpm) with h | h
        · exact hp p h
        · rw [List.mem_singleton.1 h]
          exact (hh.1 os port r rfl).1

theorem rpc_tasks_run (e : Endian) (es : List (RpcEvent F)) (s : RpcSystem F) (n : Nat)
    (hg : Getports es n) (hp : (rpcRun e s es).2.portmap = true) :
    s.portmap = true ∧ s.tasks.length + n ≤ (rpcRun e s es).2.tasks.length := by
  induction es generalizing s n with
  | nil =>
    cases hg
    exact ⟨hp, Nat.le_refl _⟩
  | cons x es ih =>
    obtain ⟨h1, h2, h3, _⟩ := rpcStep_tasks e s x
    cases hg with
    | getport hc hx =>
      obtain ⟨i1, i2⟩ := ih _ _ hx hp
      have := h3 i1 (.getport hc .nil)
      refine ⟨h1 i1, ?_⟩
      show _ ≤ (rpcRun e (rpcStep e s _).2 es).2.tasks.length
      omega
    | other hx =>
      obtain ⟨i1, i2⟩ := ih _ _ hx hp
      refine ⟨h1 i1, ?_⟩
      show _ ≤ (rpcRun e (rpcStep e s _).2 es).2.tasks.length
      omega

theorem live_or_ended (l : List (UInt16 × RpcTask F)) :
    l.length = (livePorts l).length + (l.filter fun t => !t.2.live).length := by
  induction l with
  | nil => rfl
  | cons t ts ih =>
    simp only [livePorts, List.filter_cons] at ih ⊢
    cases t.2.live <;> simp <;> simp at ih <;> omega

/-- C93 (full claim: the portmapper serves any number of requests).  Missing: the claim is false.  What
holds: in every history in which the portmapper still runs, the number of GETPORT calls is at most the
number of ports the OS has to hand out plus the number of handlers that have ended. -/
theorem C93_capacity_partial (e : Endian) (pool : List UInt16) (es : List (RpcEvent F))
    (hh : HonestRpc e pool .start es) (n : Nat) (hg : Getports es n)
    (hp : (rpcRun e .start es).2.portmap = true) : n ≤ pool.length + ended (rpcRun e .start es).2 := by
  obtain ⟨h1, h2⟩ := rpc_ports_run e pool es .start hh (by simp [livePorts, RpcSystem.start])
    (by simp [livePorts, RpcSystem.start])
  have h3 := length_le_of_pool _ pool h1 h2
  have h4 := (rpc_tasks_run e es .start n hg hp).2
  have h5 := live_or_ended (rpcRun e .start es).2.tasks
  rw [show (RpcSystem.start : RpcSystem F).tasks.length = 0 from rfl] at h4
  unfold ended
  omega

/-- C93, the negation: whatever ports the OS has, once there were more GETPORT calls than ports and no
handler has ended (going away does not end one), the portmapper has stopped and the library accepts
nobody any more. -/
theorem C93_exhausted (e : Endian) (pool : List UInt16) (es : List (RpcEvent F))
    (hh : HonestRpc e pool .start es) (n : Nat) (hg : Getports es n) (hn : pool.length < n)
    (hl : ended (rpcRun e .start es).2 = 0) :
    (servicesRun e .start es).2.rpc.portmap = false ∧ (servicesRun e .start es).2.accepting = false := by
  have hrpc : ∀ (es : List (RpcEvent F)) (s : Services F), (servicesRun e s es).2.rpc =
      (rpcRun e s.rpc es).2 := by
    intro es
    induction es with
    | nil => exact fun _ => rfl
    | cons x es ih => exact fun s => ih _
  have hacc : ∀ (es : List (RpcEvent F)) (s : Services F), (s.accepting = true → s.rpc.portmap = true) →
      (servicesRun e s es).2.accepting = true → (servicesRun e s es).2.rpc.portmap = true := by
    intro es
    induction es with
    | nil => exact fun _ h => h
    | cons x es ih =>
      intro s h
      refine ih _ ?_
      intro ha
      have ha : (s.accepting && (rpcStep e s.rpc x).2.portmap) = true := ha
      exact (Bool.and_eq_true _ _ ▸ ha).2
  have hp : (rpcRun e .start es).2.portmap = false := by
    cases h : (rpcRun e .start es).2.portmap with
    | false => rfl
    | true =>
      have := C93_capacity_partial e pool es hh n hg h
      omega
  have hp' : (servicesRun e .start es).2.rpc.portmap = false := by
    rw [hrpc]
    exact hp
  refine ⟨hp', ?_⟩
  cases h : (servicesRun e .start es).2.accepting with
  | false => rfl
  | true =>
    have := hacc es .start (fun _ => rfl) h
    rw [hp'] at this
    exact nomatch this

/-- C93, the negation: for every pool of ports the OS has there is a history like this.  As many GETPORT calls
as there are ports, all answered; and the next one ends the portmapper, without an answer, and with it the
listener of the library. -/
theorem C93_one_too_many (e : Endian) (pool : List UInt16) (hnd : pool.Nodup) (d : Bytes) (peer : Addr)
    (xid prog vers port : UInt32) (hd : IsCall d xid (.pmapGetport prog vers port)) :
    let es : List (RpcEvent F) := pool.map fun p => .portmap (fun _ _ => true) (some p) (.datagram d peer)
    let more : RpcEvent F := .portmap (fun _ _ => true) none (.datagram d peer)
    HonestRpc e pool .start (es ++ [more]) ∧
    (servicesRun e .start es).1 = pool.map (fun p => (none, rfcReply xid (portWord p), peer)) ∧
    (servicesRun e .start (es ++ [more])).1 = (servicesRun e .start es).1 ∧
    (servicesRun e .start (es ++ [more])).2.rpc.portmap = false ∧
    (servicesRun e .start (es ++ [more])).2.accepting = false := by
  intro es more
  obtain ⟨q, hf, rfl, hm⟩ := (C81_call_iff d xid _).1 hd
  obtain ⟨t, ht, hl⟩ : ∃ t : RpcTask F, spawned q.call.procedure = some t ∧ t.live = true := by
    obtain ⟨b, hb⟩ := hm.of_getport
    rw [hb]
    cases hpr : b.program with
    | nfs => exact ⟨.nfs .start, by simp [spawned, hpr], rfl⟩
    | portmap => exact ⟨.program true, by simp [spawned, hpr], rfl⟩
    | mount => exact ⟨.program true, by simp [spawned, hpr], rfl⟩
  have step : ∀ (s : RpcSystem F) (p : UInt16), s.portmap = true →
      rpcStep e s (.portmap (fun _ _ => true) (some p) (.datagram d peer)) =
        ([(none, rfcReply q.xid (portWord p), peer)], ⟨true, s.tasks ++ [(p, t)]⟩) := by
    intro s p hp
    simp only [rpcStep]
    rw [portmapStep_request _ p d peer q hf s hp rfl, ht]
    rfl
  have last : ∀ s : RpcSystem F, s.portmap = true → (rpcStep e s more).1 = [] ∧
      (rpcStep e s more).2.portmap = false := by
    intro s hp
    simp only [more, rpcStep, portmapStep, if_pos hp, hf]
    exact ⟨by trivial, by trivial⟩
  have key : ∀ (ps : List UInt16) (s : Services F), s.rpc.portmap = true → s.accepting = true → ps.Nodup →
      (∀ p ∈ ps, p ∈ pool ∧ p ∉ livePorts s.rpc.tasks) →
      let es : List (RpcEvent F) := ps.map fun p => .portmap (fun _ _ => true) (some p) (.datagram d peer)
      HonestRpc e pool s.rpc (es ++ [more]) ∧
      (servicesRun e s es).1 = ps.map (fun p => (none, rfcReply q.xid (portWord p), peer)) ∧
      (servicesRun e s (es ++ [more])).1 = ps.map (fun p => (none, rfcReply q.xid (portWord p), peer)) ∧
      (servicesRun e s (es ++ [more])).2.rpc.portmap = false ∧
      (servicesRun e s (es ++ [more])).2.accepting = false := by
    intro ps
    induction ps with
    | nil =>
      intro s hp ha _ _
      obtain ⟨l1, l2⟩ := last s.rpc hp
      refine ⟨⟨fun os port r h => absurd (RpcEvent.portmap.inj h).2.1 (fun h => nomatch h), trivial⟩, rfl,
        ?_, ?_, ?_⟩
      · simp only [List.map_nil, List.nil_append, servicesRun, servicesStep, l1]
      · exact l2
      · simp only [List.map_nil, List.nil_append, servicesRun, servicesStep, l2, Bool.and_false]
    | cons p ps ih =>
      intro s hp ha hn hps
      obtain ⟨hn1, hn2⟩ := List.nodup_cons.1 hn
      obtain ⟨i1, i2, i3, i4, i5⟩ := ih ⟨⟨true, s.rpc.tasks ++ [(p, t)]⟩, true⟩ rfl rfl hn2 (by
        intro p' hp'
        refine ⟨(hps p' (List.mem_cons_of_mem _ hp')).1, ?_⟩
        simp only [livePorts, List.filter_append, List.map_append, List.mem_append]
        rintro (h | h)
        · exact (hps p' (List.mem_cons_of_mem _ hp')).2 h
        · simp only [List.filter_cons, hl, if_true, List.filter_nil, List.map_cons, List.map_nil,
            List.mem_singleton] at h
          exact hn1 (h ▸ hp'))
      have hs : servicesStep e s (.portmap (fun _ _ => true) (some p) (.datagram d peer)) =
          ([(none, rfcReply q.xid (portWord p), peer)], ⟨⟨true, s.rpc.tasks ++ [(p, t)]⟩, true⟩) := by
        simp only [servicesStep, step s.rpc p hp, ha, Bool.and_true]
      refine ⟨⟨?_, ?_⟩, ?_, ?_, ?_, ?_⟩
      · intro os port r h
        cases h
        have := hps _ List.mem_cons_self
        exact ⟨this.1, (listener_none_iff _ _).2 this.2⟩
      · rw [step s.rpc p hp]
        exact i1
      · simp only [List.map_cons, servicesRun, hs, i2, List.singleton_append]
      · simp only [List.map_cons, List.cons_append, servicesRun, hs, i3, List.nil_append]
      · simp only [List.map_cons, List.cons_append, servicesRun, hs, i4]
      · simp only [List.map_cons, List.cons_append, servicesRun, hs, i5]
  obtain ⟨k1, k2, k3, k4, k5⟩ := key pool .start rfl rfl hnd (fun p hp => ⟨hp, List.not_mem_nil⟩)
  exact ⟨k1, k2, k3.trans k2.symm, k4, k5⟩

/-- C93, exactly when a call is answered: as long as fewer handlers are left than the OS has ports.  Then
the answer is a port on which nobody listens and the portmapper goes on; if not, there is no answer and
the portmapper has ended. -/
theorem C93_answered_iff (e : Endian) (pool : List UInt16) (hnd : pool.Nodup) (es : List (RpcEvent F))
    (hh : HonestRpc e pool .start es) (hp : (rpcRun e .start es).2.portmap = true)
    (os : Bytes → Addr → Bool) (hos : ∀ b a, os b a = true) (bound : Option UInt16)
    (hb : HandsOut pool (rpcRun e .start es).2 bound) (d : Bytes) (peer : Addr) (xid : UInt32) (c : Proc)
    (hd : IsCall d xid c) :
    let s := (rpcRun e .start es).2
    let r := rpcStep e s (.portmap os bound (.datagram d peer))
    (s.tasks.length < pool.length + ended s ↔
      ∃ port ∈ pool, listener port s.tasks = none ∧ r.1 = [(none, rfcReply xid (portWord port), peer)]) ∧
    (s.tasks.length < pool.length + ended s ↔ r.2.portmap = true) ∧
    (s.tasks.length < pool.length + ended s ↔ r.1 ≠ []) := by
  intro s r
  obtain ⟨q, hf, rfl, hm⟩ := (C81_call_iff d xid _).1 hd
  obtain ⟨h1, h2⟩ := rpc_ports_run e pool es .start hh (by simp [livePorts, RpcSystem.start])
    (by simp [livePorts, RpcSystem.start])
  have h5 := live_or_ended s.tasks
  have hl : s.tasks.length < pool.length + ended s ↔ ∃ x ∈ pool, x ∉ livePorts s.tasks := by
    rw [← pool_left_iff (livePorts s.tasks) pool h1 hnd h2]
    unfold ended
    omega
  rw [hl]
  cases hbd : bound with
  | none =>
    have hno : ¬ ∃ x ∈ pool, x ∉ livePorts s.tasks := by
      rintro ⟨x, hx, hx'⟩
      exact hb.2 hbd x hx ((listener_none_iff _ _).2 hx')
    have hr : r.1 = [] ∧ r.2.portmap = false := by
      simp only [r, hbd, rpcStep, portmapStep]
      rw [if_pos hp]
      simp only [hf]
      exact ⟨by trivial, by trivial⟩
    simp [hno, hr.1, hr.2]
  | some port =>
    obtain ⟨p1, p2⟩ := hb.1 port hbd
    have hyes : ∃ x ∈ pool, x ∉ livePorts s.tasks := ⟨port, p1, (listener_none_iff _ _).1 p2⟩
    have hr : r.1 = [(none, rfcReply q.xid (portWord port), peer)] ∧ r.2.portmap = true := by
      simp only [r, hbd, rpcStep]
      rw [portmapStep_request os port d peer q hf _ hp (hos _ _)]
      exact ⟨rfl, rfl⟩
    refine ⟨⟨fun _ => ⟨port, p1, p2, hr.1⟩, fun _ => hyes⟩, ⟨fun _ => hr.2, fun _ => hyes⟩,
      ⟨fun _ => by rw [hr.1]; simp, fun _ => hyes⟩⟩

/-! ## C94 -/

/-- The ports that handlers of the library hold. -/
def heldPorts (l : List Handler) : List UInt16 := (l.filter fun h => h.phase ≠ .finished).map Handler.port

theorem held_iff (l : List Handler) (port : UInt16) :
    port ∈ heldPorts l ↔ ∃ h ∈ l, Holds h port := by
  simp only [heldPorts, List.mem_map, List.mem_filter, decide_eq_true_eq, Holds]
  constructor
  · rintro ⟨h, ⟨h1, h2⟩, h3⟩; exact ⟨h, h1, h3, h2⟩
  · rintro ⟨h, h1, h3, h2⟩; exact ⟨h, ⟨h1, h2⟩, h3⟩

theorem set_held (l : List Handler) (i : Nat) (hd : Handler) (hi : l[i]? = some hd) (p : Phase)
    (hfin : hd.phase = .finished → p = .finished) :
    (heldPorts (l.set i ⟨hd.port, p⟩)).Sublist (heldPorts l) := by
  induction l generalizing i with
  | nil => exact nomatch hi
  | cons h l ih =>
    cases i with
    | zero =>
      cases hi
      simp only [heldPorts, List.set_cons_zero, List.filter_cons]
      by_cases h1 : hd.phase = .finished
      · simp [h1, hfin h1]
      · by_cases h2 : p = .finished
        · simp [h1, h2]
        · simp [h1, h2]
    | succ i =>
      have := ih i hi
      simp only [heldPorts, List.set_cons_succ, List.filter_cons] at this ⊢
      split
      · exact this.cons_cons _
      · exact this

theorem handlerStep_finished (m : Mode) (db : Db) (e : HandlerEvent) :
    (handlerStep m db e .finished).2 = .finished := by
  cases e <;> rfl

theorem libStep_held (m : Mode) (db : Db) (s : LibServer) (x : LibEvent) :
    ((heldPorts (libStep m db s x).2.handlers).Sublist (heldPorts s.handlers) ∨
      ∃ c port, x = .main c (some port) ∧
        heldPorts (libStep m db s x).2.handlers = heldPorts s.handlers ++ [port]) ∧
    (libStep m db s x).2.handlers.length = s.handlers.length + portAnswers (libStep m db s x).1 := by
  cases x with
  | main c bound =>
    simp only [libStep]
    split
    · exact ⟨.inl (List.Sublist.refl _), rfl⟩
    · cases bound with
      | none => exact ⟨.inl (List.Sublist.refl _), rfl⟩
      | some p =>
        refine ⟨.inr ⟨c, p, rfl, by simp [heldPorts]⟩, by simp [portAnswers]⟩
  | handler i ev =>
    simp only [libStep]
    cases hi : s.handlers[i]? with
    | none => exact ⟨.inl (List.Sublist.refl _), rfl⟩
    | some hd =>
      refine ⟨.inl (set_held _ i hd hi _ (fun h => by rw [h]; exact handlerStep_finished m db ev)), ?_⟩
      have : ∀ l : List Bytes, portAnswers (l.map (.toHandler i)) = 0 := by
        intro l
        induction l with
        | nil => rfl
        | cons a l ih => simp [portAnswers]
      simp [this]

theorem lib_ports_run (m : Mode) (db : Db) (pool : List UInt16) (es : List LibEvent) (s : LibServer)
    (hh : HonestLib m db pool s es) (hn : (heldPorts s.handlers).Nodup)
    (hp : ∀ p ∈ heldPorts s.handlers, p ∈ pool) :
    (heldPorts (libRun m db s es).2.handlers).Nodup ∧
    (∀ p ∈ heldPorts (libRun m db s es).2.handlers, p ∈ pool) ∧
    (libRun m db s es).2.handlers.length = s.handlers.length + portAnswers (libRun m db s es).1 := by
  induction es generalizing s with
  | nil => exact ⟨hn, hp, rfl⟩
  | cons x es ih =>
    obtain ⟨hx, hlen⟩ := libStep_held m db s x
    have h1 : (heldPorts (libStep m db s x).2.handlers).Nodup := by
      rcases hx with h | ⟨c, port, rfl, h⟩
      · exact h.nodup hn
      · rw [h]
        refine List.nodup_append.2 ⟨hn, by simp, ?_⟩
        intro a ha b hb
        rw [List.mem_singleton.1 hb]
        rintro rfl
        obtain ⟨hd, h1, h2⟩ := (held_iff _ _).1 ha
        exact (hh.1 c _ rfl).2 hd h1 h2
    have h2 : ∀ p ∈ heldPorts (libStep m db s x).2.handlers, p ∈ pool := by
      intro p hpm
      rcases hx with h | ⟨c, port, rfl, h⟩
      · exact hp p (h.subset hpm)
      · rw [h] at hpm
        rcases List.mem_append.1 hpm with h | h
        · exact hp p h
        · rw [List.mem_singleton.1 h]
          exact (hh.1 c _ rfl).1
    obtain ⟨i1, i2, i3⟩ := ih _ hh.2 h1 h2
    refine ⟨i1, i2, ?_⟩
    have : portAnswers (libRun m db s (x :: es)).1 =
        portAnswers (libStep m db s x).1 + portAnswers (libRun m db (libStep m db s x).2 es).1 := by
      simp [libRun, portAnswers]
    rw [this]
    show (libRun m db (libStep m db s x).2 es).2.handlers.length = _
    omega

theorem held_or_finished (l : List Handler) :
    l.length = (heldPorts l).length + (l.filter fun h => h.phase = .finished).length := by
  induction l with
  | nil => rfl
  | cons h l ih =>
    simp only [heldPorts, List.filter_cons] at ih ⊢
    by_cases hf : h.phase = .finished <;> simp [hf] <;> simp at ih <;> omega

/-- C94 (full claim: every player that asks for a library connection gets a port).  Missing: the claim
is false.  What holds: in every history the number of ports announced is at most the number of ports the
OS has to hand out plus the number of connections that were made and have ended; a port that is
announced and never connected to is never given back. -/
theorem C94_capacity_partial (m : Mode) (db : Db) (pool : List UInt16) (es : List LibEvent)
    (hh : HonestLib m db pool .start es) : portAnswers (libRun m db .start es).1 ≤
      pool.length + finishedHandlers (libRun m db .start es).2 := by
  obtain ⟨h1, h2, h3⟩ := lib_ports_run m db pool es .start hh (by simp [heldPorts, LibServer.start])
    (by simp [heldPorts, LibServer.start])
  have h4 := length_le_of_pool _ pool h1 h2
  have h5 := held_or_finished (libRun m db .start es).2.handlers
  rw [show LibServer.start.handlers.length = 0 from rfl] at h3
  unfold finishedHandlers
  omega

/-- C94, exactly when a player that asks for a library connection is answered: its connection to the
well-known port was never refused a port, and fewer handlers are left than the OS has ports.  Then it is
told a port that no handler holds; if not, it gets no answer, and none to what it asks after that. -/
theorem C94_answered_iff (m : Mode) (db : Db) (pool : List UInt16) (hnd : pool.Nodup) (es : List LibEvent)
    (hh : HonestLib m db pool .start es) (c : Nat) (bound : Option UInt16)
    (hb : HandsOutLib pool (libRun m db .start es).2 bound) :
    let s := (libRun m db .start es).2
    let r := libStep m db s (.main c bound)
    (c ∉ s.deadMains ∧ portAnswers (libRun m db .start es).1 < pool.length + finishedHandlers s ↔
      ∃ port ∈ pool, (∀ h ∈ s.handlers, ¬ Holds h port) ∧ r.1 = [.toMain c (be16 port)]) ∧
    (c ∉ s.deadMains ∧ portAnswers (libRun m db .start es).1 < pool.length + finishedHandlers s ↔
      r.1 ≠ []) ∧
    (c ∉ s.deadMains ∧ portAnswers (libRun m db .start es).1 < pool.length + finishedHandlers s ↔
      c ∉ r.2.deadMains) := by
  intro s r
  obtain ⟨h1, h2, h3⟩ := lib_ports_run m db pool es .start hh (by simp [heldPorts, LibServer.start])
    (by simp [heldPorts, LibServer.start])
  have h5 := held_or_finished s.handlers
  rw [show LibServer.start.handlers.length = 0 from rfl] at h3
  have hl : portAnswers (libRun m db .start es).1 < pool.length + finishedHandlers s ↔
      ∃ x ∈ pool, x ∉ heldPorts s.handlers := by
    rw [← pool_left_iff (heldPorts s.handlers) pool h1 hnd h2]
    have h3 : s.handlers.length = 0 + portAnswers (libRun m db .start es).1 := h3
    unfold finishedHandlers
    omega
  rw [hl]
  by_cases hc : c ∈ s.deadMains
  · have hr : r = ([], s) := by
      simp only [r, libStep]
      rw [if_pos hc]
    simp [hr, hc]
  · cases hbd : bound with
    | none =>
      have hno : ¬ ∃ x ∈ pool, x ∉ heldPorts s.handlers := by
        rintro ⟨x, hx, hx'⟩
        exact hx' ((held_iff _ _).2 (hb.2 hbd x hx))
      have hr : r = ([], { s with deadMains := c :: s.deadMains }) := by
        simp only [r, libStep, hbd]
        rw [if_neg hc]
      simp [hr, hno]
    | some port =>
      obtain ⟨p1, p2⟩ := hb.1 port hbd
      have hyes : ∃ x ∈ pool, x ∉ heldPorts s.handlers := ⟨port, p1, fun h => by
        obtain ⟨hd, q1, q2⟩ := (held_iff _ _).1 h
        exact p2 hd q1 q2⟩
      have hr : r = ([.toMain c (be16 port)], { s with handlers := s.handlers ++ [⟨port, .listening⟩] }) := by
        simp only [r, libStep, hbd]
        rw [if_neg hc]
      refine ⟨⟨fun _ => ⟨port, p1, p2, by rw [hr]⟩, fun _ => ⟨hc, hyes⟩⟩, ⟨fun _ => by rw [hr]; simp,
        fun _ => ⟨hc, hyes⟩⟩, ⟨fun _ => by rw [hr]; exact hc, fun _ => ⟨hc, hyes⟩⟩⟩

/-- C94: a handler that was announced and that nobody connects to keeps its port for ever. -/
theorem C94_kept_forever (m : Mode) (db : Db) (es : List LibEvent) (s : LibServer) (i : Nat)
    (port : UInt16) (hi : s.handlers[i]? = some ⟨port, .listening⟩)
    (hn : LibEvent.handler i .connect ∉ es) (hn' : LibEvent.handler i .refused ∉ es) :
    (libRun m db s es).2.handlers[i]? = some ⟨port, .listening⟩ := by
  induction es generalizing s with
  | nil => exact hi
  | cons x es ih =>
    refine ih _ ?_ (fun h => hn (List.mem_cons_of_mem _ h)) (fun h => hn' (List.mem_cons_of_mem _ h))
    cases x with
    | main c bound =>
      simp only [libStep]
      split
      · exact hi
      · cases bound with
        | none => exact hi
        | some p =>
          have hlt : i < s.handlers.length := (List.getElem?_eq_some_iff.1 hi).1
          show (s.handlers ++ _)[i]? = _
          rw [List.getElem?_append_left hlt]
          exact hi
    | handler j ev =>
      simp only [libStep]
      by_cases hj : j = i
      · subst hj
        rw [hi]
        have hlt : j < s.handlers.length := (List.getElem?_eq_some_iff.1 hi).1
        cases ev with
        | connect => exact absurd List.mem_cons_self hn
        | refused => exact absurd List.mem_cons_self hn'
        | data io c => simp [handlerStep, hlt]
        | close => simp [handlerStep, hlt]
      · cases hjj : s.handlers[j]? with
        | none => exact hi
        | some hd =>
          show (s.handlers.set j _)[i]? = _
          rw [List.getElem?_set_ne hj]
          exact hi

/-- C94, the negation: if all ports of the OS are held, the next player to ask gets no answer, and
neither does any further request on its connection. -/
theorem C94_exhausted (m : Mode) (db : Db) (pool : List UInt16) (s : LibServer) (c : Nat)
    (bound : Option UInt16) (hall : ∀ port ∈ pool, ∃ h ∈ s.handlers, Holds h port)
    (hh : HonestLib m db pool s [.main c bound]) (bound' : Option UInt16) :
    (libRun m db s [.main c bound, .main c bound']).1 = [] := by
  have hb : bound = none := by
    cases bound with
    | none => rfl
    | some port =>
      obtain ⟨h1, h2⟩ := hh.1 c port rfl
      obtain ⟨h, h3, h4⟩ := hall port h1
      exact absurd h4 (h2 h h3)
  subst hb
  simp only [libRun, libStep]
  by_cases hc : c ∈ s.deadMains <;> simp [hc]

/-- C94, the negation: for every pool of ports the OS has, a player that asks for as many ports is answered each
time; and then, as long as it connects to none of them, nobody is answered at the well-known port any more,
whatever else happens. -/
theorem C94_one_too_many (m : Mode) (db : Db) (pool : List UInt16) (hnd : pool.Nodup) (c : Nat) :
    let es : List LibEvent := pool.map fun p => .main c (some p)
    HonestLib m db pool .start es ∧
    (libRun m db .start es).1 = pool.map (fun p => .toMain c (be16 p)) ∧
    ∀ (later : List LibEvent), (∀ i, .handler i .connect ∉ later) → (∀ i, .handler i .refused ∉ later) →
      HonestLib m db pool (libRun m db .start es).2 later →
      portAnswers (libRun m db (libRun m db .start es).2 later).1 = 0 := by
  intro es
  have key : ∀ (ps : List UInt16) (s : LibServer), s.deadMains = [] → ps.Nodup →
      (∀ p ∈ ps, p ∈ pool ∧ ∀ h ∈ s.handlers, ¬ Holds h p) →
      HonestLib m db pool s (ps.map fun p => .main c (some p)) ∧
      (libRun m db s (ps.map fun p => .main c (some p))).1 = ps.map (fun p => .toMain c (be16 p)) ∧
      (libRun m db s (ps.map fun p => .main c (some p))).2.handlers =
        s.handlers ++ ps.map (fun p => ⟨p, .listening⟩) := by
    intro ps
    induction ps with
    | nil => exact fun s _ _ _ => ⟨trivial, rfl, (List.append_nil _).symm⟩
    | cons p ps ih =>
      intro s hs hn hps
      obtain ⟨hn1, hn2⟩ := List.nodup_cons.1 hn
      have e : libStep m db s (.main c (some p)) =
          ([.toMain c (be16 p)], { s with handlers := s.handlers ++ [⟨p, .listening⟩] }) := by
        simp only [libStep, hs, List.not_mem_nil, if_false]
      obtain ⟨i1, i2, i3⟩ := ih { s with handlers := s.handlers ++ [⟨p, .listening⟩] } hs hn2 (by
        intro p' hp'
        refine ⟨(hps p' (List.mem_cons_of_mem _ hp')).1, fun h hh => ?_⟩
        rcases List.mem_append.1 hh with hh | hh
        · exact (hps p' (List.mem_cons_of_mem _ hp')).2 h hh
        · rw [List.mem_singleton.1 hh]
          exact fun hp => hn1 ((show p = p' from hp.1) ▸ hp'))
      refine ⟨⟨?_, ?_⟩, ?_, ?_⟩
      · intro c' p' h
        cases h
        exact hps _ List.mem_cons_self
      · rw [e]
        exact i1
      · simp only [List.map_cons, libRun, e, i2, List.singleton_append]
      · simp only [List.map_cons, libRun, e, i3, List.append_assoc, List.singleton_append]
  obtain ⟨k1, k2, k3⟩ := key pool .start rfl hnd
    (fun p hp => ⟨hp, fun h hh => absurd hh List.not_mem_nil⟩)
  refine ⟨k1, k2, ?_⟩
  intro later hc hr hh
  have full : ∀ p ∈ pool, ∃ i : Nat, (libRun m db .start es).2.handlers[i]? = some ⟨p, .listening⟩ := by
    intro p hp
    rw [k3]
    obtain ⟨i, hi⟩ := List.getElem?_of_mem hp
    refine ⟨i, ?_⟩
    show ([] ++ _)[i]? = _
    rw [List.nil_append, List.getElem?_map, hi]
    rfl
  generalize (libRun m db .start es).2 = s at full hh
  clear k1 k2 k3 key hnd
  induction later generalizing s with
  | nil => rfl
  | cons x later ih =>
    have hc1 : ∀ i, LibEvent.handler i .connect ∉ [x] := fun i h =>
      hc i (List.mem_singleton.1 h ▸ List.mem_cons_self)
    have hr1 : ∀ i, LibEvent.handler i .refused ∉ [x] := fun i h =>
      hr i (List.mem_singleton.1 h ▸ List.mem_cons_self)
    have i1 := ih (fun i h => hc i (List.mem_cons_of_mem _ h)) (fun i h => hr i (List.mem_cons_of_mem _ h))
      (libStep m db s x).2 (fun p hp => (full p hp).imp fun i hi =>
        C94_kept_forever m db [x] s i p hi (hc1 i) (hr1 i)) hh.2
    have ex : portAnswers (libStep m db s x).1 = 0 := by
      cases x with
      | handler i ev =>
        simp only [libStep]
        cases s.handlers[i]? with
        | none => rfl
        | some hd =>
          unfold portAnswers
          rw [List.filter_eq_nil_iff.2]
          · rfl
          · intro o ho
            obtain ⟨b, _, rfl⟩ := List.mem_map.1 ho
            exact Bool.false_ne_true
      | main c' bound =>
        cases bound with
        | none =>
          simp only [libStep]
          split <;> rfl
        | some p =>
          obtain ⟨h1, h2⟩ := hh.1 c' p rfl
          obtain ⟨i, hi⟩ := full p h1
          exact absurd ⟨rfl, fun h => (nomatch h)⟩ (h2 _ (List.mem_of_getElem? hi))
    show portAnswers ((libStep m db s x).1 ++ _) = 0
    unfold portAnswers at ex i1 ⊢
    rw [List.filter_append, List.length_append, ex, i1]

/-! ## Non-vacuity -/

/-- Two players ask for NFS of a host with a single port. -/
def exampleRush : List (RpcEvent Nat) :=
  [.portmap willing (some 40000)
      (.datagram (callDatagram exampleHdr (.pmapGetport 100003 2 0)) exampleAsker),
    .portmap willing none (.datagram (callDatagram exampleHdr (.pmapGetport 100003 2 0)) exampleAsker)]

/-- C93: the first of them is served, after the second the portmapper is gone. -/
example : 1 ≤ 1 + ended (rpcRun .little .start (exampleRush.take 1)).2 ∧
    (servicesRun .little .start exampleRush).2.accepting = false := by
  have hp := exampleRpcSystem_serves.1
  have h40000 : ∀ xs, (∀ os port r, RpcEvent.portmap os (some port) r ∉ xs) →
      HonestRpc .little [40000] exampleRpcSystem xs := by
    intro xs
    generalize exampleRpcSystem = s
    induction xs generalizing s with
    | nil => exact fun _ => trivial
    | cons x xs ih =>
      refine fun h => ⟨fun os port r e => ?_, ih _ fun os port r hm => h os port r (.tail _ hm)⟩
      exact absurd (e ▸ .head _) (h os port r)
  have hh : ∀ xs, HonestRpc .little [40000] exampleRpcSystem xs →
      HonestRpc .little [40000] .start ((exampleRush.take 1) ++ xs) := by
    refine fun xs h => ⟨?_, h⟩
    intro os port r e
    injection e with _ e _
    injection e with e
    subst e
    exact ⟨by simp, rfl⟩
  refine ⟨C93_capacity_partial .little [40000] _ (hh [] trivial) 1 (.getport exampleGetport .nil) hp, ?_⟩
  refine (C93_exhausted .little [40000] exampleRush (hh _ (h40000 _ ?_)) 2
    (.getport exampleGetport (.getport exampleGetport .nil)) (by decide) ?_).2
  · intro os port r hm
    exact absurd (List.mem_singleton.1 hm) (by simp)
  · have h2 : ∀ (q : RpcRequest) (d : Bytes) (s : RpcSystem Nat), rpcFrame d = .request q →
        (portmapStep willing none (.datagram d exampleAsker) s).2.tasks = s.tasks := by
      intro q d s hf
      unfold portmapStep
      split
      · simp only [hf]
      · rfl
    obtain ⟨q, hq, _⟩ := (C81_call_iff _ _ _).1 exampleGetport
    have h3 : (rpcRun .little .start exampleRush).2.tasks = exampleRpcSystem.tasks := h2 q _ _ hq
    obtain ⟨s', h, _, _, _, h5⟩ := getport_step (F := Nat) .little .start rfl exampleHdr _ _
      (.getportNfs 2 0) (.nfs .start) rfl rfl exampleAsker 40000 rfl willing rfl
    have h4 : exampleRpcSystem.tasks = [(40000, .nfs .start)] := by
      unfold exampleRpcSystem
      rw [h]
      exact h5
    unfold ended
    rw [h3, h4]
    rfl

/-- C94: of two players that ask a host with a single port, the first is answered. -/
example : portAnswers (libRun .debug .empty .start [.main 0 (some 40000), .main 1 none]).1 ≤ 1 +
    finishedHandlers (libRun .debug .empty .start [.main 0 (some 40000), .main 1 none]).2 :=
  C94_capacity_partial .debug .empty [40000] _ ⟨by
    intro c port e
    injection e with _ e
    injection e with e
    subst e
    exact ⟨by simp, fun _ h => nomatch h⟩, fun _ _ e => (nomatch e), trivial⟩

example : (libRun .debug .empty ⟨[], [⟨40000, .listening⟩]⟩ [.handler 0 .close, .main 1 none]).2.handlers[0]? =
    some ⟨40000, .listening⟩ :=
  C94_kept_forever .debug .empty _ ⟨[], [⟨40000, .listening⟩]⟩ 0 40000 rfl (by simp) (by simp)

example := C94_exhausted .debug .empty [40000] ⟨[], [⟨40000, .listening⟩]⟩ 1 none
  (by simp [Holds]) ⟨fun _ _ e => (nomatch e), trivial⟩ (some 40001)

example := C93_one_too_many (F := Nat) .little [40000, 40001] (by decide) _ exampleAsker _ _ _ _ exampleGetport

example := (C94_one_too_many .debug .empty [40000, 40001] (by decide) 0).2.2 [.main 1 none, .main 0 none]
  (by simp) (by simp) ⟨fun _ _ e => (nomatch e), fun _ _ e => (nomatch e), trivial⟩

/-- C93: with two ports, the first call is answered. -/
example := C93_answered_iff (F := Nat) .little [40000, 40001] (by decide) [] trivial rfl (fun _ _ => true)
  (fun _ _ => rfl) (some 40001) ⟨by
    intro port h
    cases h
    exact ⟨by decide, rfl⟩, fun h => nomatch h⟩ _ exampleAsker _ _ exampleGetport

/-- C94: with a single port, the second player to ask is not answered. -/
example := C94_answered_iff .debug .empty [40000] (by decide) [.main 0 (some 40000)] ⟨by
    intro c port e
    injection e with _ e
    injection e with e
    subst e
    exact ⟨by simp, fun _ h => nomatch h⟩, trivial⟩ 1 none ⟨fun _ h => (nomatch h), fun _ port h => by
    rw [List.mem_singleton.1 h]
    exact ⟨⟨40000, .listening⟩, by simp [libRun, libStep, LibServer.start], rfl, by simp⟩⟩

end PDJ

import Verif.Spec.RpcServer
import Verif.Props.Nfs

/-!
# Lemmas about the portmapper and the mount program
-/

namespace PDJ

open Spec

variable {F : Type}

theorem portWord_eq (port : UInt16) : be32 (UInt32.ofNat port.toNat) = portWord port := by
  have hp := port.toNat_lt
  simp only [be32, portWord, be16, List.cons_append, List.nil_append, UInt32.toNat_ofNat']
  have e : ∀ a b : Nat, a % 256 = b % 256 → UInt8.ofNat a = UInt8.ofNat b := by
    intro a b h
    apply UInt8.toNat.inj
    simpa only [UInt8.toNat_ofNat'] using h
  refine List.cons_eq_cons.2 ⟨e _ 0 (by omega), List.cons_eq_cons.2 ⟨e _ 0 (by omega),
    List.cons_eq_cons.2 ⟨e _ _ (by omega), List.cons_eq_cons.2 ⟨e _ _ (by omega), rfl⟩⟩⟩⟩

theorem datagram_getport (xid : UInt32) (port : UInt16) :
    rpcDatagram (successReply xid (.portmapGetport (UInt32.ofNat port.toNat))) =
      rfcReply xid (portWord port) := by
  rw [C27_reply_header]
  simp only [RpcReplyMessage.encode, portWord_eq]
  rw [pad_of_aligned (by simp [portWord, be16]), List.append_nil]

theorem portmapStep_request (os : Bytes → Addr → Bool) (port : UInt16) (d : Bytes) (peer : Addr)
    (q : RpcRequest) (hf : rpcFrame d = .request q) (s : RpcSystem F) (hp : s.portmap = true)
    (hos : os (rfcReply q.xid (portWord port)) peer = true) :
    portmapStep os (some port) (.datagram d peer) s =
      ([(rfcReply q.xid (portWord port), peer)],
        ⟨true, s.tasks ++ ((spawned q.call.procedure).map fun t => (port, t)).toList⟩) := by
  unfold portmapStep
  rw [if_pos hp]
  simp only [hf, datagram_getport]
  rw [if_pos hos, hp]
  cases spawned (F := F) q.call.procedure with
  | none => simp
  | some t => simp

theorem listener_append (port : UInt16) (ts us : List (UInt16 × RpcTask F)) :
    listener port (ts ++ us) = (listener port ts).or (listener port us) := by
  induction ts with
  | nil => simp [listener]
  | cons t ts ih =>
    simp only [List.cons_append, listener]
    split
    · rfl
    · exact ih

/-! ### Delivering -/

theorem deliver_filter_other (e : Endian) (net : Option PioneerNetwork) (p port : UInt16)
    (hne : p ≠ port) (ev : NfsEvent F) (ts : List (UInt16 × RpcTask F)) :
    (deliver e net p ev ts).2.filter (fun x => x.1 = port) = ts.filter (fun x => x.1 = port) := by
  induction ts with
  | nil => rfl
  | cons t ts ih =>
    unfold deliver
    split
    · rename_i h
      have : t.1 ≠ port := by rw [h.1]; exact hne
      simp [this]
    · simp only [List.filter_cons, ih]

theorem deliver_filter_same (e : Endian) (net : Option PioneerNetwork) (port : UInt16)
    (ev : NfsEvent F) (ts : List (UInt16 × RpcTask F)) :
    (deliver e net port ev ts).1 = (deliver e net port ev (ts.filter (fun x => x.1 = port))).1 ∧
    (deliver e net port ev ts).2.filter (fun x => x.1 = port) =
      (deliver e net port ev (ts.filter (fun x => x.1 = port))).2 := by
  induction ts with
  | nil => exact ⟨rfl, rfl⟩
  | cons t ts ih =>
    by_cases hp : t.1 = port
    · have hf : (t :: ts).filter (fun x => x.1 = port) = t :: ts.filter (fun x => x.1 = port) := by
        simp [hp]
      rw [hf]
      by_cases hl : t.2.live = true
      · simp only [deliver, if_pos (And.intro hp hl)]
        simp [hp]
      · have : ¬ (t.1 = port ∧ t.2.live = true) := fun h => hl h.2
        simp only [deliver, if_neg this]
        refine ⟨ih.1, ?_⟩
        rw [← ih.2]
        simp [hp]
    · have hf : (t :: ts).filter (fun x => x.1 = port) = ts.filter (fun x => x.1 = port) := by
        simp [hp]
      rw [hf]
      have : ¬ (t.1 = port ∧ t.2.live = true) := fun h => hp h.1
      simp only [deliver, if_neg this]
      refine ⟨ih.1, ?_⟩
      rw [← ih.2]
      simp [hp]

theorem deliver_skip (e : Endian) (net : Option PioneerNetwork) (port : UInt16) (ev : NfsEvent F)
    (ts us : List (UInt16 × RpcTask F)) (h : listener port ts = none) :
    deliver e net port ev (ts ++ us) =
      ((deliver e net port ev us).1, ts ++ (deliver e net port ev us).2) := by
  induction ts with
  | nil => rfl
  | cons t ts ih =>
    unfold listener at h
    split at h
    · exact nomatch h
    · rename_i hn
      simp only [List.cons_append]
      rw [deliver, if_neg hn, ih h]

theorem deliver_nfs (e : Endian) (net : Option PioneerNetwork) (port : UInt16) (ev : NfsEvent F)
    (t : NfsTask F) :
    deliver e net port ev [(port, .nfs t)] =
      ((nfsStep e ev.world ev.os ev.recv t).1,
        [(port, .nfs (nfsStep e ev.world ev.os ev.recv t).2)]) := by
  cases t with
  | dead => simp [deliver, RpcTask.live, nfsStep]
  | running s p => simp [deliver, RpcTask.live, taskStep]

theorem listener_filter (port : UInt16) (ts : List (UInt16 × RpcTask F)) :
    listener port (ts.filter (fun x => x.1 = port)) = listener port ts := by
  induction ts with
  | nil => rfl
  | cons t ts ih =>
    by_cases hp : t.1 = port
    · simp only [List.filter_cons, hp, decide_true, if_true, listener]
      rw [ih]
    · simp only [List.filter_cons, hp, decide_false, listener]
      simp [ih]

theorem portmap_tasks (os : Bytes → Addr → Bool) (bound : Option UInt16) (r : Recv)
    (s : RpcSystem F) : (portmapStep os bound r s).2.tasks = s.tasks ∨
      ∃ port t, bound = some port ∧ (portmapStep os bound r s).2.tasks = s.tasks ++ [(port, t)] := by
  unfold portmapStep
  split
  · cases r with
    | ioError => exact .inl rfl
    | datagram d peer =>
      simp only
      cases hf : rpcFrame d with
      | nothing => exact .inl rfl
      | invalid => exact .inl rfl
      | panic => exact .inl rfl
      | request q =>
        simp only
        cases bound with
        | none => exact .inl rfl
        | some port =>
          simp only
          cases hs : spawned (F := F) q.call.procedure with
          | none => split <;> exact .inl rfl
          | some t => split <;> exact .inr ⟨port, t, rfl, rfl⟩
  · exact .inl rfl

/-- The handler at a port only depends on the events at that port. -/
theorem handler_isolated (e : Endian) (port : UInt16) (es : List (RpcEvent F))
    (hre : NotRebound port es) : ∀ (s : RpcSystem F) (dead : List (UInt16 × RpcTask F))
    (t : NfsTask F), s.tasks.filter (fun x => x.1 = port) = dead ++ [(port, .nfs t)] →
    listener port dead = none →
    sentFrom port (rpcRun e s es).1 = (nfsRun e t (eventsAt port es)).1 ∧
    (rpcRun e s es).2.tasks.filter (fun x => x.1 = port) =
      dead ++ [(port, .nfs (nfsRun e t (eventsAt port es)).2)] := by
  induction es with
  | nil => intro s dead t h _; exact ⟨rfl, h⟩
  | cons x xs ih =>
    intro s dead t h hd
    have hre' : NotRebound port xs := fun os b r hm => hre os b r (List.mem_cons_of_mem _ hm)
    have hsent : ∀ a b, sentFrom port (a ++ b) = sentFrom port a ++ sentFrom port b := by
      intro a b; simp [sentFrom]
    cases x with
    | portmap os bound r =>
      have hf : (rpcStep e s (.portmap os bound r)).2.tasks.filter (fun x => x.1 = port) =
          dead ++ [(port, .nfs t)] := by
        rw [← h]
        show (portmapStep os bound r s).2.tasks.filter _ = _
        rcases portmap_tasks os bound r s with h1 | ⟨p, t', hb, h1⟩
        · rw [h1]
        · rw [h1]
          have : p ≠ port := by
            rintro rfl
            exact hre os bound r (List.mem_cons_self ..) hb
          simp [this]
      obtain ⟨h1, h2⟩ := ih hre' _ dead t hf hd
      refine ⟨?_, h2⟩
      simp only [rpcRun, hsent, h1, eventsAt]
      have : sentFrom port (rpcStep e s (.portmap os bound r)).1 = [] := by
        simp [rpcStep, sentFrom, List.filter_map]
      rw [this, List.nil_append]
    | port p net ev =>
      by_cases hp : p = port
      · subst hp
        have hd' := deliver_filter_same e net p ev s.tasks
        rw [h, deliver_skip e net p ev dead _ hd, deliver_nfs] at hd'
        obtain ⟨h1, h2⟩ := ih hre' (rpcStep e s (.port p net ev)).2 dead _ hd'.2 hd
        simp only [eventsAt, if_true, nfsRun, rpcRun, hsent]
        refine ⟨?_, h2⟩
        rw [h1]
        congr 1
        show sentFrom p ((deliver e net p ev s.tasks).1.map _) = _
        rw [hd'.1]
        simp [sentFrom, List.filter_map, Function.comp_def]
      · have hf : (rpcStep e s (.port p net ev)).2.tasks.filter (fun x => x.1 = port) =
            dead ++ [(port, .nfs t)] := by
          rw [← h]
          exact deliver_filter_other e net p port hp ev s.tasks
        obtain ⟨h1, h2⟩ := ih hre' _ dead t hf hd
        simp only [eventsAt, if_neg hp, rpcRun, hsent]
        refine ⟨?_, h2⟩
        rw [h1]
        have : sentFrom port (rpcStep e s (.port p net ev)).1 = [] := by
          simp [rpcStep, sentFrom, List.filter_map, Function.comp_def, hp]
        rw [this, List.nil_append]

theorem deliver_program (e : Endian) (net : Option PioneerNetwork) (port : UInt16) (ev : NfsEvent F) (b : Bool) :
    deliver e net port ev [(port, .program b)] =
      ((progStep net (ev.os false) ev.recv b).1, [(port, .program (progStep net (ev.os false) ev.recv b).2)]) := by
  cases b with
  | false => simp [deliver, RpcTask.live, progStep]
  | true => simp [deliver, RpcTask.live, taskStep]

/-- The same for a mount handler. -/
theorem mount_isolated (e : Endian) (port : UInt16) (es : List (RpcEvent F))
    (hre : NotRebound port es) : ∀ (s : RpcSystem F) (dead : List (UInt16 × RpcTask F))
    (t : Bool), s.tasks.filter (fun x => x.1 = port) = dead ++ [(port, .program t)] →
    listener port dead = none →
    sentFrom port (rpcRun e s es).1 = (mountRun t (portArrivals port es)).1 ∧
    (rpcRun e s es).2.tasks.filter (fun x => x.1 = port) =
      dead ++ [(port, .program (mountRun t (portArrivals port es)).2)] := by
  induction es with
  | nil => intro s dead t h _; exact ⟨rfl, h⟩
  | cons x xs ih =>
    intro s dead t h hd
    have hre' : NotRebound port xs := fun os b r hm => hre os b r (List.mem_cons_of_mem _ hm)
    have hsent : ∀ a b, sentFrom port (a ++ b) = sentFrom port a ++ sentFrom port b := by
      intro a b; simp [sentFrom]
    cases x with
    | portmap os bound r =>
      have hf : (rpcStep e s (.portmap os bound r)).2.tasks.filter (fun x => x.1 = port) =
          dead ++ [(port, .program t)] := by
        rw [← h]
        show (portmapStep os bound r s).2.tasks.filter _ = _
        rcases portmap_tasks os bound r s with h1 | ⟨p, t', hb, h1⟩
        · rw [h1]
        · rw [h1]
          have : p ≠ port := by
            rintro rfl
            exact hre os bound r (List.mem_cons_self ..) hb
          simp [this]
      obtain ⟨h1, h2⟩ := ih hre' _ dead t hf hd
      refine ⟨?_, h2⟩
      simp only [rpcRun, hsent, h1, portArrivals]
      have : sentFrom port (rpcStep e s (.portmap os bound r)).1 = [] := by
        simp [rpcStep, sentFrom, List.filter_map]
      rw [this, List.nil_append]
    | port p net ev =>
      by_cases hp : p = port
      · subst hp
        have hd' := deliver_filter_same e net p ev s.tasks
        rw [h, deliver_skip e net p ev dead _ hd, deliver_program] at hd'
        obtain ⟨h1, h2⟩ := ih hre' (rpcStep e s (.port p net ev)).2 dead _ hd'.2 hd
        simp only [portArrivals, if_true, mountRun, rpcRun, hsent]
        refine ⟨?_, h2⟩
        rw [h1]
        congr 1
        show sentFrom p ((deliver e net p ev s.tasks).1.map _) = _
        rw [hd'.1]
        simp [sentFrom, List.filter_map, Function.comp_def]
      · have hf : (rpcStep e s (.port p net ev)).2.tasks.filter (fun x => x.1 = port) =
            dead ++ [(port, .program t)] := by
          rw [← h]
          exact deliver_filter_other e net p port hp ev s.tasks
        obtain ⟨h1, h2⟩ := ih hre' _ dead t hf hd
        simp only [portArrivals, if_neg hp, rpcRun, hsent]
        refine ⟨?_, h2⟩
        rw [h1]
        have : sentFrom port (rpcStep e s (.port p net ev)).1 = [] := by
          simp [rpcStep, sentFrom, List.filter_map, Function.comp_def, hp]
        rw [this, List.nil_append]

end PDJ

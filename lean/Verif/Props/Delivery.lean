import Verif.Spec.Delivery
import Verif.Props.Nfs
import Verif.Props.RpcServer

/-!
# C76: replies of the RPC services are delivered once, in order, to the asker

Whatever the operating system does with the datagrams handed to it.
-/

namespace PDJ

open Spec

variable {F : Type}

/-- A reply begins with the first word of its request. -/
theorem reply_take {d : Bytes} {q : RpcRequest} (h : rpcFrame d = .request q)
    (r : RpcReplyMessage) : (rpcDatagram (successReply q.xid r)).take 4 = d.take 4 := by
  obtain ⟨rest, hd⟩ : ∃ rest, RpcRequest.decode d = .ok rest q := by
    unfold rpcFrame at h
    split at h
    · split at h <;> first | (cases h; exact ⟨_, by assumption⟩) | (exact Frame.noConfusion h)
    · exact nomatch h
  obtain ⟨n, v, args, e, _⟩ := request_eq_ok hd
  rw [e, C27_reply_header]
  rfl

/-- One step compared with the same step under an accepting operating system. -/
theorem step_delivery (e : Endian) (ev : NfsEvent F) (t t' : NfsTask F) (hs : SameState t t')
    (hh : held t' = []) :
    SameState (nfsStep e ev.world ev.os ev.recv t).2
        (nfsStep e ev.world (accepting ev).os ev.recv t').2 ∧
      held (nfsStep e ev.world (accepting ev).os ev.recv t').2 = [] ∧
      ((nfsStep e ev.world ev.os ev.recv t).1 ++ held (nfsStep e ev.world ev.os ev.recv t).2).Sublist
        (held t ++ (nfsStep e ev.world (accepting ev).os ev.recv t').1) ∧
      ((∀ b to, ev.os true b to = true) → (nfsStep e ev.world ev.os ev.recv t).2 ≠ .dead →
        (nfsStep e ev.world ev.os ev.recv t).1 ++ held (nfsStep e ev.world ev.os ev.recv t).2 =
          held t ++ (nfsStep e ev.world (accepting ev).os ev.recv t').1) := by
  obtain ⟨w, os, rv⟩ := ev
  cases t with
  | dead =>
    cases t' with
    | dead => simp [nfsStep, SameState, held]
    | running s' p' => exact hs.elim
  | running s p =>
    cases t' with
    | dead => exact hs.elim
    | running s' p' =>
      cases hs
      cases p' with
      | some x => simp [held] at hh
      | none =>
        cases rv with
        | ioError => simp [nfsStep, SameState, held]
        | datagram d peer =>
          simp only [nfsStep]
          cases hf : rpcFrame d with
          | nothing => simp [SameState, held]
          | invalid => simp [SameState, held]
          | panic => simp [SameState, held]
          | request q =>
            simp only
            cases hc : s.callProcedure e w q.call.procedure with
            | panic => simp [nfsReply, SameState, held]
            | ok x =>
              obtain ⟨r, s1⟩ := x
              cases r with
              | error _ => simp [nfsReply, SameState, held]
              | ok reply =>
                simp only [nfsReply, accepting, udpSend]
                generalize rpcDatagram (successReply q.xid reply) = b
                cases p with
                | none => by_cases h1 : os false b peer = true <;> simp [h1, SameState, held]
                | some p =>
                  by_cases h1 : os true p.1 p.2 = true
                  · by_cases h2 : os false b peer = true <;> simp [h1, h2, SameState, held]
                  · simp only [h1, SameState, held]
                    refine ⟨trivial, rfl, by simp, ?_⟩
                    intro hr
                    exact absurd (hr p.1 p.2) h1

theorem run_delivery (e : Endian) (evs : List (NfsEvent F)) :
    ∀ (t t' : NfsTask F), SameState t t' → held t' = [] →
    SameState (nfsRun e t evs).2 (nfsRun e t' (evs.map accepting)).2 ∧
      ((nfsRun e t evs).1 ++ held (nfsRun e t evs).2).Sublist
        (held t ++ (nfsRun e t' (evs.map accepting)).1) ∧
      ((∀ ev ∈ evs, ∀ b to, ev.os true b to = true) → (nfsRun e t evs).2 ≠ .dead →
        (nfsRun e t evs).1 ++ held (nfsRun e t evs).2 =
          held t ++ (nfsRun e t' (evs.map accepting)).1) := by
  induction evs with
  | nil =>
    intro t t' hs hh
    refine ⟨hs, by simp [nfsRun], fun _ _ => by simp [nfsRun]⟩
  | cons ev evs ih =>
    intro t t' hs hh
    obtain ⟨h1, h2, h3, h4⟩ := step_delivery e ev t t' hs hh
    obtain ⟨i1, i2, i3⟩ := ih _ _ h1 h2
    simp only [nfsRun, List.map_cons]
    refine ⟨i1, ?_, ?_⟩
    · rw [List.append_assoc]
      refine (List.Sublist.append_left i2 _).trans ?_
      rw [← List.append_assoc, ← List.append_assoc]
      exact List.Sublist.append_right h3 _
    · intro hr hd
      rw [List.append_assoc, i3 (fun x hx => hr x (List.mem_cons_of_mem _ hx)) hd,
        ← List.append_assoc, h4 (hr ev (List.mem_cons_self ..)) ?_, List.append_assoc]
      · rfl
      · intro hd'
        rw [hd', nfsRun_dead] at hd
        exact hd rfl

/-- C76: whatever the operating system does with the replies of an NFS handler, over every history,
the replies sent are among those of the same handler with an accepting operating system, in the same
order and none twice; and what the handler does otherwise is the same. -/
theorem C76_refusals_only_drop (e : Endian) (evs : List (NfsEvent F)) :
    (nfsRun e .start evs).1.Sublist (nfsRun e .start (evs.map accepting)).1 ∧
      SameState (nfsRun e .start evs).2 (nfsRun e .start (evs.map accepting)).2 := by
  obtain ⟨h1, h2, _⟩ := run_delivery e evs .start .start rfl rfl
  exact ⟨(List.sublist_append_left ..).trans h2, h1⟩

/-- C76: a reply refused once is only delayed: if the second attempt always succeeds and the handler
is still alive, every reply has been sent in order, except perhaps the latest one, which is held
back. -/
theorem C76_refused_once_is_delayed (e : Endian) (evs : List (NfsEvent F))
    (hr : ∀ ev ∈ evs, ∀ b to, ev.os true b to = true) (hd : (nfsRun e .start evs).2 ≠ .dead) :
    (nfsRun e .start evs).1 ++ held (nfsRun e .start evs).2 =
        (nfsRun e .start (evs.map accepting)).1 ∧
      (held (nfsRun e .start evs).2).length ≤ 1 := by
  obtain ⟨_, _, h3⟩ := run_delivery e evs .start .start rfl rfl
  refine ⟨h3 hr hd, ?_⟩
  cases (nfsRun e .start evs).2 with
  | dead => simp [held]
  | running s p => cases p <;> simp [held]

/-- The replies under an accepting operating system, one step. -/
theorem step_answers (e : Endian) (ev : NfsEvent F) (t : NfsTask F) (ht : held t = []) :
    held (nfsStep e ev.world (accepting ev).os ev.recv t).2 = [] ∧
      ((nfsStep e ev.world (accepting ev).os ev.recv t).1.map answered).Sublist (asked [ev]) := by
  obtain ⟨w, os, rv⟩ := ev
  cases t with
  | dead => simp [nfsStep, held]
  | running s p =>
    cases p with
    | some x => simp [held] at ht
    | none =>
      cases rv with
      | ioError => simp [nfsStep, held, asked]
      | datagram d peer =>
        simp only [nfsStep, asked]
        cases hf : rpcFrame d with
        | nothing => simp [held]
        | invalid => simp [held]
        | panic => simp [held]
        | request q =>
          simp only
          cases hc : s.callProcedure e w q.call.procedure with
          | panic => simp [nfsReply, held]
          | ok x =>
            obtain ⟨r, s1⟩ := x
            cases r with
            | error _ => simp [nfsReply, held]
            | ok reply => simp [nfsReply, accepting, udpSend, held, answered, reply_take hf]

theorem run_answers (e : Endian) (evs : List (NfsEvent F)) :
    ∀ t : NfsTask F, held t = [] →
      ((nfsRun e t (evs.map accepting)).1.map answered).Sublist (asked evs) := by
  induction evs with
  | nil => intro t _; simp [nfsRun]
  | cons ev evs ih =>
    intro t ht
    obtain ⟨h1, h2⟩ := step_answers e ev t ht
    have := ih _ h1
    simp only [nfsRun, List.map_cons, List.map_append]
    have e2 : asked (ev :: evs) = asked [ev] ++ asked evs := by
      obtain ⟨w, os, rv⟩ := ev
      cases rv <;> rfl
    rw [e2]
    exact h2.append this

/-- C76: over every history and whatever the operating system does, the datagrams an NFS handler sends
correspond one to one, in order, to datagrams it received earlier: same transaction id, sent back to
where it came from.  Nothing is sent twice, unasked or to anyone else. -/
theorem C76_nfs_answers_the_asker (e : Endian) (evs : List (NfsEvent F)) :
    ((nfsRun e .start evs).1.map answered).Sublist (asked evs) :=
  ((C76_refusals_only_drop e evs).1.map answered).trans (run_answers e evs .start rfl)

/-- C76 for mount handlers: at most one answer for each datagram, to its sender, with its
transaction id. -/
theorem C76_mount_answers_the_asker (net : Option PioneerNetwork) (os : Bytes → Addr → Bool)
    (d : Bytes) (peer : Addr) (alive : Bool) :
    ((progStep net os (.datagram d peer) alive).1.map answered).Sublist [(d.take 4, peer)] := by
  cases alive with
  | false => simp [progStep]
  | true =>
    simp only [progStep]
    cases hf : rpcFrame d with
    | nothing => simp
    | invalid => simp
    | panic => simp
    | request q =>
      simp only
      cases hc : routeProcedure net q.call.procedure with
      | none => simp
      | some reply =>
        simp only
        split <;> simp [answered, reply_take hf]

/-- C76 for the portmapper: at most one answer for each datagram, to its sender, with its
transaction id. -/
theorem C76_portmap_answers_the_asker (os : Bytes → Addr → Bool) (bound : Option UInt16)
    (d : Bytes) (peer : Addr) (s : RpcSystem F) :
    ((portmapStep os bound (.datagram d peer) s).1.map answered).Sublist [(d.take 4, peer)] := by
  unfold portmapStep
  split
  · cases hf : rpcFrame d with
    | nothing => simp [hf]
    | invalid => simp [hf]
    | panic => simp [hf]
    | request q =>
      cases bound with
      | none => simp [hf]
      | some port =>
        simp only [hf]
        split <;> simp [answered, reply_take hf]
  · simp

/-- A handler whose first reply is refused once: it is sent before the second one. -/
example (w : World Unit) (m : Meta) (hm : w.stat ['/', 'a'] = some m) (hd : Dated m)
    (ho : w.openFile ['/', 'a'] = some ()) (hf : m.isFile = true) (h h' : Hdr) (peer peer' : Addr) :
    (nfsRun .little .start
      [⟨w, fun retry _ _ => retry,
          .datagram (callDatagram h (.nfsLookup (List.replicate 32 0) ['a'])) peer⟩,
       ⟨w, fun _ _ _ => true,
          .datagram (callDatagram h' (.nfsLookup (List.replicate 32 0) ['a'])) peer'⟩]).1 =
      [(lookupReply h.xid m, peer), (lookupReply h'.xid m, peer')] := by
  obtain ⟨a, ha, hfa⟩ := attributesOf_dated m hd
  have hn : (utf16le ['a']).length < 4294967296 := by decide
  simp only [nfsRun, NfsTask.start]
  rw [nfsStep_call .little w _ h _ _ _ (.lookup _ ['a'] (by simp) hn) (by intro p; simp)]
  have l : ∀ s : Nfs Unit, s.path = ['/'] → s.lookup w ⟨['a'], ⟨List.replicate 32 0⟩⟩ =
      .ok (.ok (.nfsLookup .ok ⟨encodeFileHandler m.ino⟩ a),
        ⟨['/'], fun j => if j = m.ino then some () else s.handlers j⟩) := by
    intro s hs
    have hp : pushPath s.path ['a'] = ['/', 'a'] := by rw [hs]; rfl
    rw [lookup_found w ⟨['a'], ⟨_⟩⟩ s m () (by simpa only [hp] using hm)
      (by simpa only [hp] using ho), ha]
    simp only [Outcome.bind, hf, if_true]
  show _ ++ _ = _
  have e1 : nfsReply (fun retry _ _ => retry) none h.xid peer
      ((Nfs.new : Nfs Unit).lookup w ⟨['a'], ⟨List.replicate 32 0⟩⟩) =
      ([], .running ⟨['/'], fun j => if j = m.ino then some () else Nfs.new.handlers j⟩
        (some (lookupReply h.xid m, peer))) := by
    rw [l _ rfl]
    simp [nfsReply, udpSend, datagram_lookup _ m a hfa]
  rw [show nfsReply (fun retry _ _ => retry) none h.xid peer
      (Nfs.callProcedure .little w (.nfsLookup ⟨['a'], ⟨List.replicate 32 0⟩⟩) Nfs.new) = _ from e1]
  rw [nfsStep_call .little w _ h' _ _ _ (.lookup _ ['a'] (by simp) hn) (by intro p; simp)]
  show _ ++ (Prod.fst (nfsReply _ _ _ _ (Nfs.lookup w ⟨['a'], ⟨List.replicate 32 0⟩⟩ _)) ++ _) = _
  rw [l _ rfl]
  simp [nfsReply, udpSend, datagram_lookup _ m a hfa]

/-- C76, instance: a LOOKUP whose reply is refused at first. -/
example := C76_refused_once_is_delayed .little
  [{ (sampleReq ['a']).event with os := fun retry _ _ => retry }]
  (by intro ev h b to; cases List.mem_singleton.1 h; rfl)
  (by
    obtain ⟨o, s, p, h⟩ := run_alive .little
      [{ (sampleReq ['a']).event with os := fun retry _ _ => retry }]
      (by intro ev h; cases List.mem_singleton.1 h; exact datedWorld_sampleWorld)
      (by
        intro ev h d peer hd
        cases List.mem_singleton.1 h
        cases hd
        exact fun hr => absurd hr.2 (by decide)) Nfs.new none
    show (nfsRun .little (.running Nfs.new none) _).2 ≠ .dead
    rw [h]
    simp)

/-- C76, instance: a MNT call. -/
example := C76_mount_answers_the_asker none willing (callDatagram exampleHdr (.mntMnt ['/']))
  exampleAsker true

end PDJ

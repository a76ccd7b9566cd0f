import Verif.Spec.Volume
import Verif.Props.Status
import Verif.Props.RpcServer
import Verif.Props.System

/-!
# Property C110: how many bytes are sent for those received
-/

namespace PDJ

open Spec

variable {F : Type}

theorem rpcDatagram_length (xid : UInt32) (d : RpcReplyMessage) :
    (rpcDatagram (successReply xid d)).length = 24 + d.encode.length + (4 - d.encode.length % 4) % 4 := by
  rw [C27_reply_header]
  simp [rfcReply, opaqueAuth, xdrOpaque, xdrPad]
  omega

/-- The calls that are answered, with their lengths. -/
theorem call_lengths {d : Bytes} {q : RpcRequest} (h : rpcFrame d = .request q) :
    60 ≤ d.length ∧
    (∀ a, q.call.procedure = .nfsGetAttr a → 92 ≤ d.length) ∧
    (∀ a, q.call.procedure = .nfsLookup a → 96 ≤ d.length) ∧
    (∀ a, q.call.procedure = .nfsRead a → 104 ≤ d.length ∧ askedBytes d = a.count.toNat) ∧
    (∀ a, q.call.procedure = .mountMnt a → 66 ≤ d.length) := by
  obtain ⟨p, hc, hm⟩ := request_isCall h
  have h60 := hc.header
  have hl : (d.drop 60).length = d.length - 60 := by simp
  have ha := hc.args
  generalize q.call.program = pr at hm
  refine ⟨h60, ?_, ?_, ?_, ?_⟩ <;> intro a e <;> rw [e] at hm <;> cases hm
  · obtain ⟨h32, rest, hr⟩ := ha
    rw [hr] at hl
    simp [h32] at hl
    omega
  · obtain ⟨h32, n, rest, hr, _⟩ := ha
    rw [hr] at hl
    simp [h32] at hl
    omega
  · obtain ⟨h32, rest, hr⟩ := ha
    have hd := hr
    rw [hr] at hl
    simp [h32] at hl
    refine ⟨by omega, ?_⟩
    unfold askedBytes
    rw [if_pos ⟨hc.prog, hc.proc⟩]
    have e1 : wordAt 96 d = wordAt 36 (d.drop 60) := by
      unfold wordAt
      rw [List.drop_drop]
    rename_i fh o c t _
    have e2 : d.drop 60 = fh ++ (be32 o ++ (be32 c ++ (be32 t ++ rest))) := by rw [hd]; simp
    have e3 : wordAt 36 (fh ++ (be32 o ++ (be32 c ++ (be32 t ++ rest)))) = wordAt 4 (be32 o ++ (be32 c ++ (be32 t ++ rest))) := by
      unfold wordAt
      rw [show (36 : Nat) = 32 + 4 from rfl, ← List.drop_drop, List.drop_left' h32]
    rw [e1, e2, e3, wordAt_succ 0, wordAt_zero]
  · obtain ⟨n, rest, hr, _, h2⟩ := ha
    rw [hr] at hl
    simp at hl
    omega

theorem export_length (n : PioneerNetwork) (r : RpcReplyMessage) (h : mountExport (some n) = some r) (xid : UInt32) :
    (rpcDatagram (successReply xid r)).length ≤ 120 := by
  rw [rpcDatagram_length]
  simp only [mountExport, Option.some.injEq] at h
  subst h
  have h1 := (C33_address_text n.ip).2
  have h2 := (C33_address_text n.mask).2
  have h3 : (utf8 (ipText n.ip ++ '/' :: ipText n.mask)).length ≤ 31 := by
    have ha := dotted_ascii (C33_address_text n.ip).1
    have hm := dotted_ascii (C33_address_text n.mask).1
    rw [length_utf8_ascii]
    · simp only [List.length_append, List.length_cons]; omega
    · intro c hc
      simp only [List.mem_append, List.mem_cons] at hc
      rcases hc with hc | hc | hc
      · exact ha c hc
      · rw [hc]; decide
      · exact hm c hc
  have h4 : (utf16le ['/']).length = 2 := by decide
  simp [RpcReplyMessage.encode, ExportListEntry.encode, encodeGroup, h4]
  omega

/-- A mount handler. -/
theorem progStep_volume (net : Option PioneerNetwork) (os : Bytes → Addr → Bool) (d : Bytes) (peer : Addr) (b : Bool) :
    ((progStep net os (.datagram d peer) b).1.map (·.1.length)).sum ≤ 2 * d.length := by
  unfold progStep
  split
  · simp
  · simp only
    split
    · simp
    · simp
    · simp
    · rename_i q hq
      have hl := call_lengths hq
      split
      · simp
      · rename_i reply hr
        split
        · simp only [List.map_cons, List.map_nil, List.sum_cons, List.sum_nil, Nat.add_zero]
          unfold routeProcedure at hr
          split at hr
          · cases net with
            | none => exact nomatch hr
            | some n =>
              have := export_length n reply hr q.xid
              omega
          · cases hr
            rw [rpcDatagram_length]
            simp [mountMnt, RpcReplyMessage.encode]
            omega
          · exact nomatch hr
        · simp

theorem length_fileAttributes (a : NfsFileAttributes) : a.encode.length = 68 := (C41_attributes a).2

/-- What an NFS procedure answers. -/
theorem call_volume (e : Endian) (w : World F) {d : Bytes} {q : RpcRequest} (hq : rpcFrame d = .request q) (s s' : Nfs F)
    (r : RpcReplyMessage) (h : s.callProcedure e w q.call.procedure = .ok (.ok r, s')) :
    (rpcDatagram (successReply q.xid r)).length ≤ 2 * d.length + askedBytes d := by
  obtain ⟨_, h1, h2, h3, _⟩ := call_lengths hq
  rw [rpcDatagram_length]
  cases hp : q.call.procedure with
  | nfsLookup a =>
    have := h2 a hp
    rw [hp] at h
    simp only [Nfs.callProcedure, Nfs.lookup] at h
    split at h
    · exact nomatch h
    · split at h
      · exact nomatch h
      · rename_i m _ _ _ _
        cases ha : attributesOf m with
        | panic => rw [ha] at h; exact nomatch h
        | ok at' =>
          rw [ha] at h
          simp only [Outcome.bind, Outcome.ok.injEq, Prod.mk.injEq, Except.ok.injEq] at h
          rw [← h.1]
          have := (C41_lookup .ok m.ino at').2
          rw [this]
          omega
  | nfsGetAttr a =>
    have := h1 a hp
    rw [hp] at h
    simp only [Nfs.callProcedure, Nfs.getattr] at h
    cases hi : a.fhandle.ino e with
    | panic => rw [hi] at h; exact nomatch h
    | ok i =>
      rw [hi] at h
      simp only [Outcome.bind] at h
      split at h
      · exact nomatch h
      · split at h
        · exact nomatch h
        · rename_i m _
          cases ha : attributesOf m with
          | panic => rw [ha] at h; exact nomatch h
          | ok at' =>
            rw [ha] at h
            simp only [Outcome.ok.injEq, Prod.mk.injEq, Except.ok.injEq] at h
            rw [← h.1, (C41_getattr .ok at').2]
            omega
  | nfsRead a =>
    obtain ⟨h104, hask⟩ := h3 a hp
    rw [hp] at h
    simp only [Nfs.callProcedure, Nfs.read] at h
    cases hi : a.fhandle.ino e with
    | panic => rw [hi] at h; exact nomatch h
    | ok i =>
      rw [hi] at h
      simp only [Outcome.bind] at h
      split at h
      · exact nomatch h
      · split at h
        · exact nomatch h
        · rename_i data hd
          split at h
          · exact nomatch h
          · rename_i m _
            cases ha : attributesOf m with
            | panic => rw [ha] at h; exact nomatch h
            | ok at' =>
              rw [ha] at h
              simp only [Outcome.ok.injEq, Prod.mk.injEq, Except.ok.injEq] at h
              rw [← h.1, (C41_read .ok at' data).2]
              have hlen : data.length = a.count.toNat := by
                unfold readFileRange at hd
                rw [Option.map_eq_some_iff] at hd
                obtain ⟨b, _, rfl⟩ := hd
                simp
                omega
              omega
  | _ => rw [hp] at h; exact nomatch h

/-- The bytes that wait in the write buffer of an NFS handler. -/
def waiting : NfsTask F → Nat
  | .running _ (some p) => p.1.length
  | _ => 0

theorem udpSend_volume (os : SendOs) (pending : Option (Bytes × Addr)) (b : Bytes) (peer : Addr) (s : Nfs F) :
    ((udpSend os pending b peer).2.1.map (·.1.length)).sum + waiting (.running s (udpSend os pending b peer).2.2) ≤
      waiting (.running s pending) + b.length := by
  unfold udpSend
  cases pending with
  | none => by_cases h : os false b peer = true <;> simp [h, waiting]
  | some p =>
    by_cases h : os true p.1 p.2 = true <;> by_cases h' : os false b peer = true <;> simp [h, h', waiting]

/-- The bytes one event allows. -/
def allowedAt : NfsEvent F → Nat
  | ⟨_, _, .datagram d _⟩ => 2 * d.length + askedBytes d
  | _ => 0

theorem nfsStep_volume (e : Endian) (ev : NfsEvent F) (t : NfsTask F) :
    ((nfsStep e ev.world ev.os ev.recv t).1.map (·.1.length)).sum + waiting (nfsStep e ev.world ev.os ev.recv t).2 ≤
      waiting t + allowedAt ev := by
  obtain ⟨w, os, r⟩ := ev
  cases t with
  | dead => simp [nfsStep, waiting]
  | running s pending =>
    cases r with
    | ioError => simp [nfsStep]
    | datagram d peer =>
      simp only [nfsStep, allowedAt]
      cases hf : rpcFrame d with
      | nothing => simp
      | invalid => simp
      | panic => simp [waiting]
      | request q =>
        simp only
        cases hc : s.callProcedure e w q.call.procedure with
        | panic => simp [nfsReply, waiting]
        | ok v =>
          obtain ⟨r, s'⟩ := v
          cases r with
          | error x => 
            simp only [nfsReply, List.map_nil, List.sum_nil, Nat.zero_add]
            cases pending <;> simp [waiting]
          | ok r =>
            simp only [nfsReply]
            have h1 := call_volume e w hf s s' r hc
            have h2 := udpSend_volume os pending (rpcDatagram (successReply q.xid r)) peer s'
            have h3 : waiting (.running s' pending) = waiting (.running s pending) := by
              cases pending <;> rfl
            omega

/-- The bytes that wait at all handlers. -/
def waitingAll (ts : List (UInt16 × RpcTask F)) : Nat :=
  (ts.map fun t => match t.2 with
    | .nfs t => waiting t
    | .program _ => 0).sum

theorem deliver_volume (e : Endian) (net : Option PioneerNetwork) (port : UInt16) (ev : NfsEvent F)
    (ts : List (UInt16 × RpcTask F)) :
    ((deliver e net port ev ts).1.map (·.1.length)).sum + waitingAll (deliver e net port ev ts).2 ≤
      waitingAll ts + allowedAt ev := by
  induction ts with
  | nil => simp [deliver, waitingAll]
  | cons t ts ih =>
    unfold deliver
    split
    · obtain ⟨p, t⟩ := t
      cases t with
      | nfs t =>
        have := nfsStep_volume e ev t
        simp only [taskStep, waitingAll, List.map_cons, List.sum_cons] at this ⊢
        omega
      | program b =>
        obtain ⟨w, os, r⟩ := ev
        simp only [taskStep, waitingAll, List.map_cons, List.sum_cons]
        cases r with
        | ioError => cases b <;> simp [progStep]
        | datagram d peer =>
          have := progStep_volume net (os false) d peer b
          simp only [allowedAt]
          omega
    · simp only [waitingAll, List.map_cons, List.sum_cons] at ih ⊢
      omega

theorem portmap_volume (os : Bytes → Addr → Bool) (bound : Option UInt16) (r : Recv) (s : RpcSystem F) :
    ((portmapStep os bound r s).1.map (·.1.length)).sum ≤ allowed (F := F) (.portmap os bound r) ∧
      waitingAll (portmapStep os bound r s).2.tasks = waitingAll s.tasks := by
  unfold portmapStep
  split
  · cases r with
    | ioError => simp
    | datagram d peer =>
      simp only
      cases hf : rpcFrame d with
      | nothing => simp
      | invalid => simp
      | panic => simp
      | request q =>
        simp only
        have hl := (call_lengths hf).1
        cases bound with
        | none => simp
        | some port =>
          simp only
          have ht : waitingAll (match (spawned q.call.procedure : Option (RpcTask F)) with
              | some t => s.tasks ++ [(port, t)]
              | none => s.tasks) = waitingAll s.tasks := by
            cases hs : (spawned q.call.procedure : Option (RpcTask F)) with
            | none => rfl
            | some t =>
              unfold spawned at hs
              split at hs
              · split at hs <;> cases hs <;> simp [waitingAll, waiting, NfsTask.start]
              · exact nomatch hs
          split
          · refine ⟨?_, ht⟩
            simp only [List.map_cons, List.map_nil, List.sum_cons, List.sum_nil, allowed]
            rw [rpcDatagram_length]
            simp [RpcReplyMessage.encode]
            omega
          · exact ⟨by simp, ht⟩
  · simp

theorem status_volume (r : StatusRecv) (b : Bool) :
    ((statusStep r b).1.map (·.1.length)).sum ≤ allowed (F := F) (.status r) := by
  cases b with
  | false => simp [statusStep]
  | true =>
    cases r with
    | ioError => simp [statusStep]
    | datagram d sender =>
      rcases statusStep_datagram d sender with ⟨_, h⟩ | ⟨_, out, ha, h⟩
      · rw [h]; simp
      · rw [h]
        cases ha with
        | hello _ _ echo hh =>
          have := hh.1
          simp [allowed, (C56_sizes echo).1]
          omega
        | query _ _ echo hh hl =>
          simp [allowed, (C56_sizes echo).2]
          omega
        | silent => simp

theorem step_volume (e : Endian) (m : Mode) (db : Db) (s : System F) (x : SysAction F) :
    ((sysStep e m db s x).1.map datagramBytes).sum + waitingAll (sysStep e m db s x).2.services.rpc.tasks ≤
      waitingAll s.services.rpc.tasks + allowed x := by
  have zero : ∀ {α : Type} (l : List α) (f : α → SysOut), (∀ a, datagramBytes (f a) = 0) →
      ((l.map f).map datagramBytes).sum = 0 := by
    intro α l f h
    induction l with
    | nil => rfl
    | cons a l ih => simp only [List.map_cons, List.sum_cons, h, ih]
  unfold sysStep
  split
  · cases x with
    | app x => simp only [zero _ SysOut.broadcast fun _ => rfl]; omega
    | portmap os bound r =>
      have := portmap_volume os bound r s.services.rpc
      simp only [servicesStep, rpcStep, List.map_map]
      have e : (datagramBytes ∘ SysOut.rpc ∘ fun o : Bytes × Addr => ((none : Option UInt16), o)) =
        fun o => o.1.length := rfl
      rw [e]
      omega
    | port p ev =>
      have := deliver_volume e (knownNetwork s.app) p ev s.services.rpc.tasks
      simp only [servicesStep, rpcStep, List.map_map]
      have e : (datagramBytes ∘ SysOut.rpc ∘ fun o : Bytes × Addr => (some p, o)) = fun o => o.1.length := rfl
      rw [e]
      have ha : allowed (.port p ev) = allowedAt ev := by
        obtain ⟨w, os, r⟩ := ev
        cases r <;> rfl
      omega
    | accept c =>
      simp only
      split <;> simp
    | main c bound =>
      simp only
      split
      · simp only [zero _ SysOut.lib fun _ => rfl]; omega
      · simp
    | hangup c => simp
    | handler h ev => simp only [zero _ SysOut.lib fun _ => rfl]; omega
    | status r =>
      have := status_volume (F := F) r s.status
      simp only [List.map_map]
      have e : (datagramBytes ∘ SysOut.status) = fun o => o.1.length := rfl
      rw [e]
      omega
  · simp

/-- C110: in every history of the whole process, the datagrams sent in answer to others have together no more bytes
than those received at the portmapper, twice those received at the RPC handlers, what the READ calls among them ask
for, and nine times those received at the status server.  The full claim (no more than a fixed multiple of what
is received) is false: see `C110_read_multiplies`. -/
theorem C110_bytes_partial (e : Endian) (m : Mode) (db : Db) (xs : List (SysAction F)) :
    ((sysRun e m db .start xs).1.map datagramBytes).sum ≤ (xs.map allowed).sum := by
  have key : ∀ (xs : List (SysAction F)) (s : System F),
      ((sysRun e m db s xs).1.map datagramBytes).sum ≤ waitingAll s.services.rpc.tasks + (xs.map allowed).sum := by
    intro xs
    induction xs with
    | nil => intro s; simp [sysRun]
    | cons x xs ih =>
      intro s
      have h1 := step_volume e m db s x
      have h2 := ih (sysStep e m db s x).2
      simp only [sysRun, List.map_append, List.sum_append, List.map_cons, List.sum_cons]
      omega
  have := key xs .start
  simpa [System.start, Services.start, RpcSystem.start, waitingAll] using this

/-- C110, against the full claim: once anybody has looked up a file at a port, a READ call of 104 bytes there makes
the process send a datagram of 100 bytes and as many as the call asks for (filled up to a multiple of four) to
whatever address the call bears, and the file need not even be as long. -/
theorem C110_read_multiplies (rs : List (LookupReq F)) (m : Meta) (f : F) (hw : Walk [] rs m f) (w : World F)
    (h : Hdr) (victim : Addr) (c t : UInt32) (b : Bytes) (hb : w.pread f 0 c.toNat = some b)
    (hlen : b.length ≤ c.toNat) (m' : Meta) (hm : w.fstat f = some m') (hd : Dated m') :
    (callDatagram h (.nfsRead (handleOf m.ino) 0 c t)).length = 104 ∧
    ∃ answer, (nfsStep .little w (fun _ _ _ => true)
        (.datagram (callDatagram h (.nfsRead (handleOf m.ino) 0 c t)) victim)
        (nfsRun .little .start (rs.map LookupReq.event)).2).1 = [(answer, victim)] ∧
      answer.length = 100 + (c.toNat + 3) / 4 * 4 := by
  have halive : (nfsRun .little (.running Nfs.new none) (rs.map LookupReq.event ++ [])).2 ≠ .dead := by
    obtain ⟨out, r, h1, _, _, _⟩ := C34_path_walk .little rs m f hw Nfs.new rfl
    rw [List.append_nil, h1]
    exact fun h => (nomatch h)
  have key := C38_read_from_same_file rs m f hw Nfs.new rfl [] (fun _ h => (nomatch h)) (fun _ h => (nomatch h)) halive w h
    victim 0 c t b hb hlen m' hm hd
  rw [List.append_nil] at key
  refine ⟨?_, readReplyOf h.xid m' (b ++ List.replicate (c.toNat - b.length) 0), key, ?_⟩
  · have : (handleOf m.ino).length = 32 := by simp [handleOf]
    simp [callDatagram, rfcCall, opaqueAuth, authUnixBody, xdrOpaque, xdrPad, Proc.args, this]
  · rw [length_readReplyOf_le]
    simp only [List.length_append, List.length_replicate]
    omega

/-- After a walk to a file of a few bytes, 104 bytes in the name of a third party earn it 65500. -/
example : ∃ answer, (nfsStep .little sampleWorld (fun _ _ _ => true)
    (.datagram (callDatagram sampleHdr (.nfsRead (handleOf (sampleMeta 3 true).ino) 0 65400 0)) ⟨7, 7⟩)
      (nfsRun .little .start ([sampleReq ['a'], sampleReq ['x']].map LookupReq.event)).2).1 = [(answer, ⟨7, 7⟩)] ∧
    answer.length = 65500 :=
  (C110_read_multiplies _ _ _ sampleWalk sampleWorld sampleHdr ⟨7, 7⟩ 65400 0 [3, 3, 3] (by decide) (by decide)
    (sampleMeta 3 true) rfl (dated_sampleMeta _ _)).2

end PDJ

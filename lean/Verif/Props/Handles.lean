import Verif.Props.System
import Verif.Props.Calls
import Verif.Props.Files
import Verif.Props.Amid
import Verif.Lemmas.Workers

/-!
# Property C111: file handles at other ports
-/

namespace PDJ

open Spec

variable {F : Type}

/-- No LOOKUP call is among what arrives. -/
def NoLookup (evs : List (NfsEvent F)) : Prop :=
  ∀ ev ∈ evs, ∀ d peer, ev.recv = .datagram d peer → ∀ xid fh name, ¬ IsCall d xid (.nfsLookup fh name)

theorem empty_silent (e : Endian) (ev : NfsEvent F) (s : Nfs F) (hs : ∀ i, s.handlers i = none)
    (h : ∀ d peer, ev.recv = .datagram d peer → ∀ xid fh name, ¬ IsCall d xid (.nfsLookup fh name)) :
    nfsStep e ev.world ev.os ev.recv (.running s none) = ([], .running s none) ∨
      nfsStep e ev.world ev.os ev.recv (.running s none) = ([], .dead) := by
  cases hrecv : ev.recv with
  | ioError => exact .inl rfl
  | datagram d peer =>
    unfold nfsStep
    cases hf : rpcFrame d with
    | nothing => simp only [hf]; exact .inl trivial
    | invalid => simp only [hf]; exact .inl trivial
    | panic => simp only [hf]; exact .inr trivial
    | request q =>
      simp only [hf]
      obtain ⟨p, hc, hm⟩ := request_isCall hf
      have hnot := h d peer hrecv
      generalize q.call.program = pr at hm
      cases hp : q.call.procedure with
      | nfsLookup a =>
        rw [hp] at hm
        cases hm
        exact absurd hc (hnot _ _ _)
      | nfsGetAttr a =>
        simp only [Nfs.callProcedure, Nfs.getattr]
        cases hi : a.fhandle.ino e with
        | panic => exact .inr rfl
        | ok i => simp only [Outcome.bind, hs i]; exact .inl rfl
      | nfsRead a =>
        simp only [Nfs.callProcedure, Nfs.read]
        cases hi : a.fhandle.ino e with
        | panic => exact .inr rfl
        | ok i => simp only [Outcome.bind, hs i]; exact .inl rfl
      | _ => exact .inl rfl

theorem silent_run (e : Endian) (evs : List (NfsEvent F)) (h : NoLookup evs) (s : Nfs F)
    (hs : ∀ i, s.handlers i = none) : (nfsRun e (.running s none) evs).1 = [] := by
  induction evs with
  | nil => rfl
  | cons ev evs ih =>
    have ih := ih fun x hx => h x (List.mem_cons_of_mem _ hx)
    simp only [nfsRun]
    rcases empty_silent e ev s hs (h ev List.mem_cons_self) with h' | h'
    · rw [h', ih]; rfl
    · rw [h', nfsRun_dead]; rfl

/-- C111, against the full claim: at a port just handed out nothing is answered before a LOOKUP call arrives there,
whatever handles the calls bear and wherever in the process, or in an earlier one, these have been returned. -/
theorem C111_unknown_at_new_port (e : Endian) (m : Mode) (db : Db) (before : List (SysAction F))
    (hr : (sysRun e m db .start before).2.app.running = true)
    (hp : (sysRun e m db .start before).2.services.rpc.portmap = true) (port : UInt16)
    (hfresh : listener port (sysRun e m db .start before).2.services.rpc.tasks = none) (h : Hdr)
    (v pt : UInt32) (peer : Addr) (os : Bytes → Addr → Bool)
    (hos : os (rfcReply h.xid (portWord port)) peer = true) (after : List (SysAction F))
    (hre : NeverRebound port after) (hno : NoLookup (portPart port after)) :
    ∃ s', sysStep e m db (sysRun e m db .start before).2 (.portmap os (some port)
          (.datagram (callDatagram h (.pmapGetport 100003 v pt)) peer)) =
        ([.rpc (none, rfcReply h.xid (portWord port), peer)], s') ∧
      ((sysRun e m db s' after).2.app.running = true → portOf port (sysRun e m db s' after).1 = []) := by
  obtain ⟨s', h1, h2⟩ := C77_nfs_undisturbed e m db before hr hp port hfresh h v pt peer os hos after hre
  exact ⟨s', h1, fun ha => (h2 ha).trans (silent_run e _ hno Nfs.new fun _ => rfl)⟩

theorem nfsRun_snoc (e : Endian) (evs : List (NfsEvent F)) (ev : NfsEvent F) (t : NfsTask F) :
    (nfsRun e t (evs ++ [ev])).1 = (nfsRun e t evs).1 ++ (nfsStep e ev.world ev.os ev.recv (nfsRun e t evs).2).1 := by
  induction evs generalizing t with
  | nil => simp [nfsRun]
  | cons x evs ih => simp only [List.cons_append, nfsRun, ih, List.append_assoc]

/-- C111, exactly: at a port that has been handed out a READ call is answered if and only if it bears the handle of a
file for which a LOOKUP was answered at that very port since, whatever has been answered anywhere else (as long as the
process and the handler run, there are only files and directories, and the OS takes the answers and knows every open
file). -/
theorem C111_usable_iff (m : Mode) (db : Db) (before : List (SysAction F))
    (hr : (sysRun .little m db .start before).2.app.running = true)
    (hp : (sysRun .little m db .start before).2.services.rpc.portmap = true) (port : UInt16)
    (hfresh : listener port (sysRun .little m db .start before).2.services.rpc.tasks = none) (h : Hdr)
    (v pt : UInt32) (peer : Addr) (os : Bytes → Addr → Bool)
    (hos : os (rfcReply h.xid (portWord port)) peer = true) (after : List (SysAction F))
    (hre : NeverRebound port after) (hacc : AcceptsAll (portPart port after))
    (hw : ∀ ev ∈ portPart port after, FilesAndDirs ev.world)
    (halive : (nfsRun .little .start (portPart port after)).2 ≠ .dead) (w : World F)
    (hstat : ∀ f, ∃ m, w.fstat f = some m ∧ Dated m)
    (hread : ∀ f o n, ∃ b, w.pread f o n = some b ∧ b.length ≤ n) (h' : Hdr) (peer' : Addr) (i : UInt64)
    (o c t : UInt32) :
    ∃ s', sysStep .little m db (sysRun .little m db .start before).2 (.portmap os (some port)
          (.datagram (callDatagram h (.pmapGetport 100003 v pt)) peer)) =
        ([.rpc (none, rfcReply h.xid (portWord port), peer)], s') ∧
      ((sysRun .little m db s' after).2.app.running = true →
        (portOf port (sysRun .little m db s' (after ++ [.port port ⟨w, fun _ _ _ => true,
            .datagram (callDatagram h' (.nfsRead (handleOf i) o c t)) peer'⟩])).1 ≠
          portOf port (sysRun .little m db s' after).1 ↔ AnsweredFile .little (portPart port after) i)) := by
  obtain ⟨s', h1, h2⟩ := C77_nfs_undisturbed .little m db before hr hp port hfresh h v pt peer os hos after hre
  let ev : NfsEvent F := ⟨w, fun _ _ _ => true, .datagram (callDatagram h' (.nfsRead (handleOf i) o c t)) peer'⟩
  obtain ⟨s'', h1', h2'⟩ := C77_nfs_undisturbed .little m db before hr hp port hfresh h v pt peer os hos
    (after ++ [.port port ev]) (by
      intro os b r hm
      rcases List.mem_append.1 hm with hm | hm
      · exact hre os b r hm
      · simp at hm)
  have hs : s'' = s' := by
    rw [h1] at h1'
    exact ((Prod.mk.inj h1').2).symm
  subst hs
  refine ⟨s'', h1, fun ha => ?_⟩
  have hb : (sysRun .little m db s'' (after ++ [.port port ev])).2.app.running = true := by
    rw [sysRun_append]
    simp only [sysRun, sysStep, if_pos ha]
    exact ha
  rw [h2 ha, h2' hb]
  have hpp : portPart port (after ++ [.port port ev]) = portPart port after ++ [ev] := by
    rw [portPart_append']
    simp [portPart]
  rw [hpp, nfsRun_snoc]
  rw [← (C40_answered_iff (portPart port after) hacc hw halive w hstat hread h' peer' i).2 o c t]
  simp [ev]

/-- C111: what holds: a player that looks the path up again, at whatever handler, is given the same handle, and
READ calls with it are answered there. -/
theorem C111_looked_up_again_partial (rs rs' : List (LookupReq F)) (m m' : Meta) (f f' : F) (hw : Walk [] rs m f)
    (hw' : Walk [] rs' m' f') (hsame : m.ino = m'.ino) (w : World F) (h : Hdr) (peer : Addr) (o c t : UInt32) (b : Bytes)
    (hb : w.pread f' o.toNat c.toNat = some b) (hlen : b.length ≤ c.toNat) (md : Meta) (hm : w.fstat f' = some md)
    (hd : Dated md) :
    ∃ fh answer answer' peer₁ peer₂,
      (nfsRun .little .start (rs.map LookupReq.event)).1.getLast? = some (answer, peer₁) ∧
      (nfsRun .little .start (rs'.map LookupReq.event)).1.getLast? = some (answer', peer₂) ∧
      (answer.drop 28).take 32 = fh ∧ (answer'.drop 28).take 32 = fh ∧
      (nfsStep .little w (fun _ _ _ => true) (.datagram (callDatagram h (.nfsRead fh o c t)) peer)
          (nfsRun .little .start (rs'.map LookupReq.event)).2).1 =
        [(readReplyOf h.xid md (b ++ List.replicate (c.toNat - b.length) 0), peer)] := by
  obtain ⟨out, r, h1, _, _, h4⟩ := C34_path_walk .little rs m f hw Nfs.new rfl
  obtain ⟨out', r', h1', _, _, h4'⟩ := C34_path_walk .little rs' m' f' hw' Nfs.new rfl
  have key := C38_read_from_same_file rs' m' f' hw' Nfs.new rfl [] (fun _ h => (nomatch h)) (fun _ h => (nomatch h))
    (by rw [List.append_nil, h1']; exact fun h => (nomatch h)) w h peer o c t b hb hlen md hm hd
  rw [List.append_nil] at key
  have hl : ∀ (xid : UInt32) (m : Meta), ((lookupReply xid m).drop 28).take 32 = handleOf m.ino := by
    intro xid m
    have h32 : (handleOf m.ino).length = 32 := by simp [handleOf]
    have e : lookupReply xid m = (be32 xid ++ be32 1 ++ be32 0 ++ opaqueAuth 0 [] ++ be32 0 ++ be32 0) ++
        (handleOf m.ino ++ (fattr m).flatMap be32) := by
      simp [lookupReply, rfcReply, List.append_assoc]
    rw [e, List.drop_left' (by simp [opaqueAuth, xdrOpaque, xdrPad]), List.take_left' h32]
  exact ⟨handleOf m'.ino, _, _, _, _, (congrArg (·.1.getLast?) h1).trans h4, (congrArg (·.1.getLast?) h1').trans h4',
    by rw [hl, hsame], hl _ _, key⟩

/-- A player that has the handle of `/a/x` from the port it was handed before and sends READ to the new one. -/
example (m : Mode) (db : Db) := C111_unknown_at_new_port (F := Nat) .little m db
  [.portmap (fun _ _ => true) (some 5) (.datagram (callDatagram sampleHdr (.pmapGetport 100003 2 17)) ⟨1, 2⟩),
    .port 5 (sampleReq ['a']).event, .port 5 (sampleReq ['x']).event]
  rfl rfl 6 rfl sampleHdr 2 17 ⟨1, 2⟩ (fun _ _ => true) rfl
  [.port 6 ⟨sampleWorld, fun _ _ _ => true,
    .datagram (callDatagram sampleHdr (.nfsRead (handleOf (sampleMeta 3 true).ino) 0 3 0)) ⟨1, 2⟩⟩]
  (by intro os b r hm; simp at hm)
  (by
    intro ev hev d peer hd xid fh name hc
    cases List.mem_singleton.1 hev
    cases hd
    have h6 : wordAt 20 (callDatagram sampleHdr (.nfsRead (handleOf (sampleMeta 3 true).ino) 0 3 0)) = 6 := by decide
    exact absurd (h6.symm.trans hc.proc) (by decide : ¬ (6 : Nat) = 4))

/-- The walk is done at port 5, the READ call arrives there too. -/
example (m : Mode) (db : Db) := C111_usable_iff (F := Nat) m db [] rfl rfl 5 rfl sampleHdr 2 17 ⟨1, 2⟩
  (fun _ _ => true) rfl (sampleWalkEvents.map (.port 5)) (by intro os b r hm; simp at hm)
  (by
    intro ev he
    simp only [sampleWalkEvents, List.map, portPart, if_true, List.mem_cons, List.not_mem_nil, or_false] at he
    rcases he with rfl | rfl <;> rfl)
  (by
    intro ev he
    simp only [sampleWalkEvents, List.map, portPart, if_true, List.mem_cons, List.not_mem_nil, or_false] at he
    rcases he with rfl | rfl <;> exact filesAndDirs_sample)
  (by
    obtain ⟨out, hr⟩ := sampleWalkEvents_run
    simp only [sampleWalkEvents, List.map, portPart, if_true] at hr ⊢
    rw [hr]
    exact (nomatch ·))
  fullWorld (fun f => ⟨_, rfl, dated_sampleMeta _ _⟩)
  (fun f o n => ⟨_, rfl, by simp only [List.length_take]; omega⟩) sampleHdr ⟨1, 2⟩ 3 0 3 0

example := C111_looked_up_again_partial _ _ _ _ _ _ sampleWalk sampleWalk rfl sampleWorld sampleHdr ⟨1, 2⟩ 0 3 0 [3, 3, 3]
  (by decide) (by decide) (sampleMeta 3 true) rfl (dated_sampleMeta _ _)

end PDJ

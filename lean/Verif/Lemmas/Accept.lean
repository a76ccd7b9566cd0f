import Verif.Spec.Accept
import Verif.Lemmas.Log

/-!
# Lemmas about the length of the log and the queue at the library's port
-/

namespace PDJ

open Spec

variable {F : Type}

/-! ## The lines of a step -/

/-- At most `n` lines, none of them about a failing `accept`. -/
def Few (n : Nat) (l : List LogLine) : Prop := l.length ≤ n ∧ LogLine.acceptError ∉ l

theorem few_nil (n : Nat) : Few n [] := ⟨Nat.zero_le _, List.not_mem_nil⟩

theorem few_mono {n k : Nat} {l : List LogLine} (h : Few n l) (hk : n ≤ k) : Few k l := ⟨Nat.le_trans h.1 hk, h.2⟩

theorem few_append {n k : Nat} {l l' : List LogLine} (h : Few n l) (h' : Few k l') : Few (n + k) (l ++ l') := by
  refine ⟨?_, fun hm => ?_⟩
  · rw [List.length_append]
    exact Nat.add_le_add h.1 h'.1
  · rcases List.mem_append.1 hm with hm | hm
    · exact h.2 hm
    · exact h'.2 hm

theorem few_writeLine (o : LogOs) (k : Nat) (l : LogLine) (hl : l ≠ .acceptError) : Few 1 (writeLine o k l).1 := by
  rcases writeLine_cases o k l with h | h <;> rw [h]
  · exact ⟨Nat.le_refl _, fun hm => hl (List.mem_singleton.1 hm).symm⟩
  · exact few_nil _

theorem few_sendAll (a : PioneerNetwork) (o : LogOs) (ps : List KaPacket) (k n : Nat) (oks : List Bool) :
    Few ps.length (sendAllLog a o k n ps oks).2.1 := by
  induction ps generalizing k n oks with
  | nil => exact few_nil _
  | cons p ps ih =>
    simp only [sendAllLog]
    cases sendBroadcast a p (oks.headD true) with
    | panic => exact few_nil _
    | ok x =>
      simp only
      have hw := few_writeLine o n .broadcastRefused (by simp)
      split
      · exact few_mono (ih _ _ _) (Nat.le_succ _)
      · split
        · rw [List.length_cons, Nat.add_comm]
          exact few_append hw (ih _ _ _)
        · exact few_mono hw (by simp)

theorem few_app (s : AppSystem) (o : LogOs) (x : AppAction) :
    Few (worthLines (.app x : SysAction F)) (appLog s o x).2.1 := by
  unfold appLog
  split
  · cases x with
    | receive i d =>
      simp only [worthLines]
      split
      · unfold receiveLog
        split
        · exact few_writeLine _ _ _ (by simp)
        · exact few_nil _
      · exact few_nil _
    | broadcast ok =>
      simp only [worthLines]
      split
      · unfold broadcastLog
        split
        · exact few_nil _
        · split
          · exact few_nil _
          · split
            · split
              · exact few_nil _
              · exact few_writeLine _ _ _ (by simp)
            · exact few_nil _
      · exact few_nil _
    | appRecv =>
      simp only [worthLines]
      split
      · exact few_nil _
      · unfold appRecvLog
        split
        · exact few_nil _
        · exact few_nil _
        · exact few_writeLine _ _ _ (by simp)
    | appLink oks =>
      simp only [worthLines]
      split
      · unfold appLinkLog
        simp only
        have hw := few_writeLine o 0 .initiateLink (by simp)
        split
        · rw [show (41 : Nat) = 1 + 40 from rfl]
          refine few_append hw ?_
          unfold appLinkBody
          split
          · exact few_mono (few_writeLine _ _ _ (by simp)) (by omega)
          · split
            · exact few_nil _
            · exact few_mono (few_sendAll _ _ _ _ _ _) (by simp [negotiationPackets])
        · exact few_mono hw (by omega)
      · exact few_nil _
  · exact few_nil _

theorem few_status (o : LogOs) (r : StatusRecv) (b : Bool) : Few 1 (statusLog o r b).2.1 := by
  unfold statusLog
  split
  · exact few_nil _
  · split
    · exact few_writeLine _ _ _ (by simp)
    · split
      · exact few_writeLine _ _ _ (by simp)
      · exact few_writeLine _ _ _ (by simp)
      · exact few_writeLine _ _ _ (by simp)
      · unfold statusEventLog
        split
        · split
          · exact few_nil _
          · exact few_writeLine _ _ _ (by simp)
        · split
          · split
            · exact few_nil _
            · exact few_writeLine _ _ _ (by simp)
          · exact few_nil _

theorem few_portmap (os : Bytes → Addr → Bool) (bound : Option UInt16) (r : Recv) (o : LogOs) (s : RpcSystem F) :
    Few 1 (portmapLog os bound r o s).2.1 := by
  unfold portmapLog
  split
  · split
    · exact few_nil _
    · split
      · exact few_writeLine _ _ _ (by simp)
      · exact few_nil _
  · exact few_nil _

theorem few_prog (net : Option PioneerNetwork) (os : Bytes → Addr → Bool) (r : Recv) (o : LogOs) (b : Bool) :
    Few 2 (progLog net os r o b).2.1 := by
  unfold progLog
  split
  · exact few_nil _
  · split
    · exact few_mono (few_writeLine _ _ _ (by simp)) (by omega)
    · split
      · simp only
        split
        · exact few_append (few_writeLine _ _ _ (by simp)) (few_writeLine _ _ _ (by simp))
        · exact few_mono (few_writeLine _ _ _ (by simp)) (by omega)
      · exact few_nil _

theorem few_nfs (e : Endian) (w : World F) (os : SendOs) (r : Recv) (o : LogOs) (t : NfsTask F) :
    Few 2 (nfsLog e w os r o t).2.1 := by
  unfold nfsLog
  split
  · exact few_nil _
  · split
    · exact few_nil _
    · split
      · exact few_nil _
      · exact few_mono (few_writeLine _ _ _ (by simp)) (by omega)
      · exact few_nil _
      · unfold nfsReplyLog
        split
        · exact few_mono (few_writeLine _ _ _ (by simp)) (by omega)
        · exact few_nil _

theorem few_deliver (e : Endian) (net : Option PioneerNetwork) (port : UInt16) (ev : NfsEvent F) (o : LogOs)
    (ts : List (UInt16 × RpcTask F)) : Few 2 (deliverLog e net port ev o ts).2.1 := by
  induction ts with
  | nil => exact few_nil _
  | cons t ts ih =>
    unfold deliverLog
    split
    · cases t.2 with
      | nfs n => exact few_nfs _ _ _ _ _ _
      | program b => exact few_prog _ _ _ _ _
    · exact ih

theorem few_handler (m : Mode) (db : Db) (o : LogOs) (ev : HandlerEvent) (p : Phase) :
    Few 2 (handlerLog m db o ev p).2.1 := by
  unfold handlerLog
  split
  · exact few_mono (few_writeLine _ _ _ (by simp)) (by omega)
  · rename_i io chunk ctx
    have hq : Few 1 (queryLog m o chunk).1 := by
      unfold queryLog
      split
      · exact few_nil _
      · rename_i l hl
        refine few_writeLine _ _ _ ?_
        intro he
        subst he
        unfold queryLine at hl
        split at hl
        · simp at hl
        · split at hl
          · split at hl <;> simp at hl
          · simp at hl
          · simp at hl
          · simp at hl
    simp only
    split
    · show Few (1 + 1) (_ ++ _)
      refine few_append hq ?_
      unfold replyLog
      split
      · exact few_nil _
      · split
        · exact few_nil _
        · exact few_writeLine _ _ _ (by simp)
    · exact few_mono hq (by omega)
  · split
    · exact few_nil _
    · exact few_mono (few_writeLine _ _ _ (by simp)) (by omega)
  · exact few_nil _

theorem few_main (o : LogOs) (c : Nat) (r : List LibOut × LibServer) : Few 1 (mainLog o c r).2.1 := by
  unfold mainLog
  split
  · exact few_nil _
  · split
    · exact few_nil _
    · exact few_writeLine _ _ _ (by simp)

theorem few_sys (e : Endian) (m : Mode) (db : Db) (s : System F) (x : SysAction F) (o : LogOs) :
    Few (worthLines x) (sysLog e m db s x o).2.1 := by
  unfold sysLog
  split
  · cases x with
    | app x => exact few_app _ _ _
    | portmap os bound r => exact few_portmap _ _ _ _ _
    | port p ev => exact few_deliver _ _ _ _ _ _
    | accept c => exact few_nil _
    | main c bound =>
      simp only [worthLines]
      split
      · exact few_main _ _ _
      · exact few_nil _
    | hangup c => exact few_nil _
    | handler h ev =>
      simp only [worthLines, libLog]
      split
      · exact few_nil _
      · exact few_handler _ _ _ _ _
    | status r => exact few_status _ _ _
  · exact few_nil _

/-! ## The queue -/

theorem worth_other (x : SysAction F) (o : LogOs) : worth (.other x o) = worthLines x := rfl

theorem acceptFails_written (o : LogOs) (s : System F) (h : o.written 0 = true) :
    acceptFails o s = ([.acceptError], s) := by
  simp [acceptFails, writeLine, h]

theorem acceptFails_lost (o : LogOs) (s : System F) (h : o.written 0 = false) :
    acceptFails o s = ([], { s with services := { s.services with accepting := false } }) := by
  simp [acceptFails, writeLine, h]

theorem settled_of {s : Listen F} (h : Listening s) : s.settled = s := by
  obtain ⟨h1, h2⟩ := h
  simp [Listen.settled, h1, h2]

theorem settled_sys (s : Listen F) : s.settled.sys = s.sys := by
  unfold Listen.settled
  split <;> rfl

theorem listening_iff (s : Listen F) : Listening s ↔ (s.sys.app.running && s.sys.services.accepting) = true := by
  simp [Listening]

theorem accepting_before (e : Endian) (m : Mode) (db : Db) (s : System F) (x : SysAction F) (o : LogOs)
    (ha : (sysLog e m db s x o).2.2.services.accepting = true) : s.services.accepting = true := by
  unfold sysLog at ha
  split at ha
  · rename_i h
    cases x with
    | app x => exact ha
    | portmap os bound r => exact (Bool.and_eq_true_iff.1 ha).1
    | port p ev => exact (Bool.and_eq_true_iff.1 ha).1
    | accept c =>
      simp only [sysStep, h, if_true] at ha
      split at ha <;> exact ha
    | main c bound =>
      simp only at ha
      split at ha <;> exact ha
    | hangup c =>
      simp only [sysStep, h, if_true] at ha
      exact ha
    | handler k ev => exact ha
    | status r => exact ha
  · exact ha

theorem running_before (e : Endian) (m : Mode) (db : Db) (s : System F) (x : SysAction F) (o : LogOs)
    (hr : (sysLog e m db s x o).2.2.app.running = true) : s.app.running = true := by
  unfold sysLog at hr
  split at hr
  · assumption
  · exact hr

theorem settled_not {s : Listen F} (h : ¬ Listening s) : s.settled = ⟨s.sys, []⟩ := by
  rw [listening_iff] at h
  simp [Listen.settled, h]

end PDJ

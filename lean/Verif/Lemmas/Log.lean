import Verif.Spec.Log

/-!
# Lemmas about the log
-/

namespace PDJ

open Spec

variable {F : Type}

/-! ## A log that takes every line -/

theorem writeLine_working (o : LogOs) (k : Nat) (l : LogLine) : writeLine (working o) k l = ([l], true) := rfl

theorem writeLine_cases (o : LogOs) (k : Nat) (l : LogLine) :
    writeLine o k l = ([l], true) ∨ writeLine o k l = ([], false) := by
  unfold writeLine
  split
  · exact .inl rfl
  · exact .inr rfl

theorem receiveLog_working (i : List Interface) (d : Bytes) (o : LogOs) (s : AppSystem) :
    (receiveLog i d (working o) s).2 = receiveStep i d s := by
  unfold receiveLog receiveStep
  cases kaReceive d with
  | panic => rfl
  | ok p =>
    cases p with
    | none => simp [writeLine_working]
    | some p => rfl

theorem broadcastLog_working (ok : Bool) (o : LogOs) (s : AppSystem) :
    ((broadcastLog ok (working o) s).1, (broadcastLog ok (working o) s).2.2) = broadcastStep ok s := by
  unfold broadcastLog broadcastStep
  split
  · rfl
  · cases s.state.address with
    | none => rfl
    | some a =>
      simp only
      cases sendBroadcast a (kaStatusPackage a.ip a.mac 1 0) ok with
      | panic => rfl
      | ok x =>
        simp only [writeLine_working, if_true]
        split <;> rfl

theorem appRecvLog_working (o : LogOs) (s : AppSystem) (hr : s.running = true) :
    (appRecvLog (working o) s).2 = appRecvStep s := by
  unfold appRecvLog appRecvStep
  cases s.queue with
  | nil => rfl
  | cons x q =>
    cases x with
    | initiateLink => rfl
    | deviceChange => simp [writeLine_working, hr]

theorem sendAllLog_working (a : PioneerNetwork) (o : LogOs) (ps : List KaPacket) (k n : Nat) (oks : List Bool) :
    ((sendAllLog a (working o) k n ps oks).1, (sendAllLog a (working o) k n ps oks).2.2) = sendAll a ps oks := by
  induction ps generalizing k n oks with
  | nil => rfl
  | cons p ps ih =>
    simp only [sendAllLog, sendAll]
    cases sendBroadcast a p (oks.headD true) with
    | panic => rfl
    | ok x =>
      simp only [writeLine_working, if_true]
      split
      · have := ih (k + 1) n oks.tail
        simp only [← this]
      · have := ih (k + 1) (n + 1) oks.tail
        simp only [← this]

theorem appLinkLog_working (oks : List Bool) (o : LogOs) (s : AppSystem) :
    ((appLinkLog oks (working o) s).1, (appLinkLog oks (working o) s).2.2) = appLinkStep oks s := by
  unfold appLinkLog appLinkBody appLinkStep
  simp only [writeLine_working, if_true]
  split
  · rfl
  · cases s.state.address with
    | none => rfl
    | some a =>
      simp only
      rw [← sendAllLog_working a o (negotiationPackets a) 0 1 oks]

theorem appLog_working (s : AppSystem) (o : LogOs) (x : AppAction) :
    ((appLog s (working o) x).1, (appLog s (working o) x).2.2) = appStep s x := by
  unfold appLog appStep
  cases hr : s.running with
  | false => rfl
  | true =>
    cases x with
    | receive i d =>
      simp only [if_true]
      cases s.receiver with
      | false => rfl
      | true => simp [receiveLog_working]
    | broadcast ok =>
      simp only [if_true]
      cases s.broadcaster with
      | false => rfl
      | true => simpa using broadcastLog_working ok o s
    | appRecv =>
      simp only [if_true]
      cases s.pending with
      | true => rfl
      | false => simp [appRecvLog_working o s hr]
    | appLink oks =>
      simp only [if_true]
      cases s.pending with
      | false => rfl
      | true => simpa using appLinkLog_working oks o s

theorem statusLog_working (o : LogOs) (r : StatusRecv) (b : Bool) :
    ((statusLog (working o) r b).1, (statusLog (working o) r b).2.2) = statusStep r b := by
  cases b with
  | false => rfl
  | true =>
    cases r with
    | ioError => rfl
    | datagram d sender =>
      simp only [statusLog, statusStep]
      cases StatusPacket.decode (d.take 1024) with
      | err => rfl
      | fail => rfl
      | panic => rfl
      | ok r p =>
        simp only [statusEventLog]
        cases processPacket p with
        | none =>
          simp only
          split <;> rfl
        | some reply =>
          simp only
          cases reply.encode with
          | panic => rfl
          | ok b =>
            simp only
            split <;> rfl

theorem progLog_working (net : Option PioneerNetwork) (os : Bytes → Addr → Bool) (r : Recv) (o : LogOs) (b : Bool) :
    ((progLog net os r (working o) b).1, (progLog net os r (working o) b).2.2) = progStep net os r b := by
  cases b with
  | false => rfl
  | true =>
    cases r with
    | ioError => rfl
    | datagram d peer =>
      simp only [progLog, progStep]
      cases rpcFrame d <;> rfl

theorem portmapLog_working (os : Bytes → Addr → Bool) (bound : Option UInt16) (r : Recv) (o : LogOs)
    (s : RpcSystem F) :
    ((portmapLog os bound r (working o) s).1, (portmapLog os bound r (working o) s).2.2) =
      portmapStep os bound r s := by
  obtain ⟨b, tasks⟩ := s
  unfold portmapLog portmapStep
  cases b with
  | false => rfl
  | true =>
    cases r with
    | ioError => rfl
    | datagram d peer =>
      simp only [if_true]
      cases rpcFrame d <;> rfl

theorem nfsLog_working (e : Endian) (w : World F) (os : SendOs) (r : Recv) (o : LogOs) (t : NfsTask F) :
    ((nfsLog e w os r (working o) t).1, (nfsLog e w os r (working o) t).2.2) = nfsStep e w os r t := by
  cases t with
  | dead => rfl
  | running s pending =>
    cases r with
    | ioError => rfl
    | datagram d peer =>
      simp only [nfsLog, nfsStep]
      cases rpcFrame d with
      | nothing => rfl
      | invalid => rfl
      | panic => rfl
      | request q =>
        simp only
        cases s.callProcedure e w q.call.procedure with
        | panic => rfl
        | ok r =>
          obtain ⟨r, s'⟩ := r
          cases r <;> rfl

theorem taskLog_working (e : Endian) (net : Option PioneerNetwork) (ev : NfsEvent F) (o : LogOs) (t : RpcTask F) :
    ((taskLog e net ev (working o) t).1, (taskLog e net ev (working o) t).2.2) = taskStep e net ev t := by
  cases t with
  | nfs t =>
    simp only [taskLog, taskStep, ← nfsLog_working e ev.world ev.os ev.recv o t]
  | program b =>
    simp only [taskLog, taskStep, ← progLog_working net (ev.os false) ev.recv o b]

theorem deliverLog_working (e : Endian) (net : Option PioneerNetwork) (p : UInt16) (ev : NfsEvent F) (o : LogOs)
    (ts : List (UInt16 × RpcTask F)) :
    ((deliverLog e net p ev (working o) ts).1, (deliverLog e net p ev (working o) ts).2.2) =
      deliver e net p ev ts := by
  induction ts with
  | nil => rfl
  | cons t ts ih =>
    simp only [deliverLog, deliver]
    split
    · simp only [← taskLog_working e net ev o t.2]
    · simp only [← ih]

theorem queryLog_working (m : Mode) (o : LogOs) (chunk : Bytes) :
    queryLog m (working o) chunk = ((queryLine m chunk).toList, true) := by
  unfold queryLog
  cases queryLine m chunk <;> rfl

theorem replyLog_working (o : LogOs) (n : Nat) (r : List Bytes × Phase) :
    ((replyLog (working o) n r).1, (replyLog (working o) n r).2.2) = r := by
  obtain ⟨bs, p⟩ := r
  cases bs with
  | nil => rfl
  | cons b bs =>
    simp only [replyLog, writeLine_working]
    split <;> rfl

theorem mainLog_working (o : LogOs) (c : Nat) (r : List LibOut × LibServer) :
    ((mainLog (working o) c r).1, (mainLog (working o) c r).2.2) = r := by
  obtain ⟨bs, p⟩ := r
  cases bs with
  | nil => rfl
  | cons b bs =>
    simp only [mainLog, writeLine_working]
    split <;> rfl

theorem handlerLog_working (m : Mode) (db : Db) (o : LogOs) (ev : HandlerEvent) (p : Phase) :
    ((handlerLog m db (working o) ev p).1, (handlerLog m db (working o) ev p).2.2) = handlerStep m db ev p := by
  cases ev with
  | connect => cases p <;> rfl
  | refused => cases p <;> rfl
  | close =>
    cases p with
    | listening => rfl
    | finished => rfl
    | serving ctx =>
      simp only [handlerLog]
      split <;> rfl
  | data io chunk =>
    cases p with
    | listening => rfl
    | finished => rfl
    | serving ctx =>
      simp only [handlerLog, queryLog_working, if_true]
      exact replyLog_working o _ _

theorem libLog_working (m : Mode) (db : Db) (o : LogOs) (s : LibServer) (ev : LibEvent) :
    ((libLog m db (working o) s ev).1, (libLog m db (working o) s ev).2.2) = libStep m db s ev := by
  cases ev with
  | main c bound => exact mainLog_working o c _
  | handler h ev =>
    simp only [libLog, libStep]
    cases s.handlers[h]? with
    | none => rfl
    | some hd => simp only [← handlerLog_working m db o ev hd.phase]

theorem sysLog_working (e : Endian) (m : Mode) (db : Db) (s : System F) (x : SysAction F) (o : LogOs) :
    ((sysLog e m db s x (working o)).1, (sysLog e m db s x (working o)).2.2) = sysStep e m db s x := by
  unfold sysLog sysStep
  cases hr : s.app.running with
  | false => rfl
  | true =>
    cases x with
    | app x => simp only [if_true, ← appLog_working s.app o x]
    | portmap os bound recv =>
      simp only [if_true, servicesStep, rpcStep, ← portmapLog_working os bound recv o s.services.rpc, List.map_map]
      rfl
    | port p ev =>
      simp only [if_true, servicesStep, rpcStep, ← deliverLog_working e (knownNetwork s.app) p ev o
        s.services.rpc.tasks, List.map_map]
      rfl
    | accept c => simp
    | main c bound =>
      simp only [if_true]
      split
      · simp only [← libLog_working m db o s.lib (.main c bound)]
      · rfl
    | hangup c => simp
    | handler h ev => simp only [if_true, ← libLog_working m db o s.lib (.handler h ev)]
    | status r => simp only [if_true, ← statusLog_working o r s.status]

/-! ## A log that does not -/

/-- Either the step is what it is with a working log, or it is cut short and its state is as described. -/
def Either {α σ : Type} (o : LogOs) (r f : List α × List LogLine × σ) (P : σ → Prop) : Prop :=
  (Whole o f ∧ r = f) ∨ (CutAt o r f ∧ P r.2.2)

theorem either_quiet {α σ : Type} {o : LogOs} {r f : List α × List LogLine × σ} {P : σ → Prop} (h : r = f)
    (hl : f.2.1 = []) : Either o r f P :=
  .inl ⟨fun k hk => by rw [hl] at hk; exact absurd hk (by simp), h⟩

/-- A step that ends with its only line. -/
theorem either_one {α σ : Type} {o : LogOs} {l : LogLine} {a b : List α} {c d : σ} {P : σ → Prop} (hw : a <+: b)
    (hs : o.written 0 = true → a = b ∧ c = d) (hp : o.written 0 = false → P c) :
    Either o (a, (writeLine o 0 l).1, c) (b, [l], d) P := by
  cases hk : o.written 0 with
  | true =>
    obtain ⟨ha, hc⟩ := hs hk
    refine .inl ⟨fun k hlt => ?_, ?_⟩
    · have : k = 0 := by simp at hlt; exact hlt
      rw [this, hk]
    · simp [writeLine, hk, ha, hc]
  | false =>
    refine .inr ⟨⟨0, by simp, fun j hj => absurd hj (by omega), hk, ?_, hw⟩, hp hk⟩
    simp [writeLine, hk]

theorem receiveLog_either (i : List Interface) (d : Bytes) (o : LogOs) (s : AppSystem) :
    Either (α := Bytes × Ip4 × UInt16) o ([], receiveLog i d o s) ([], receiveLog i d (working o) s)
      (fun s' => s' = { s with receiver := false }) := by
  unfold receiveLog
  cases kaReceive d with
  | panic => exact either_quiet rfl rfl
  | ok p =>
    cases p with
    | some p => exact either_quiet rfl rfl
    | none =>
      refine either_one List.prefix_rfl (fun h => ⟨rfl, ?_⟩) (fun h => ?_)
      · simp [writeLine, h, working]
      · simp [writeLine, h]

theorem broadcastLog_either (ok : Bool) (o : LogOs) (s : AppSystem) :
    Either o (broadcastLog ok o s) (broadcastLog ok (working o) s)
      (fun s' => s' = { s with broadcaster := false, poisoned := true }) := by
  unfold broadcastLog
  split
  · exact either_quiet rfl rfl
  · cases s.state.address with
    | none => exact either_quiet rfl rfl
    | some a =>
      simp only
      cases sendBroadcast a (kaStatusPackage a.ip a.mac 1 0) ok with
      | panic => exact either_quiet rfl rfl
      | ok x =>
        simp only [show (working o).accepted 0 = o.accepted 0 from rfl]
        cases o.accepted 0 with
        | true => exact either_quiet rfl rfl
        | false =>
          refine either_one List.prefix_rfl (fun h => ⟨rfl, ?_⟩) (fun h => ?_)
          · simp [writeLine, h, working]
          · simp [writeLine, h]

theorem appRecvLog_either (o : LogOs) (s : AppSystem) :
    Either (α := Bytes × Ip4 × UInt16) o ([], appRecvLog o s) ([], appRecvLog (working o) s)
      (fun s' => s'.running = false) := by
  unfold appRecvLog
  cases s.queue with
  | nil => exact either_quiet rfl rfl
  | cons x q =>
    cases x with
    | initiateLink => exact either_quiet rfl rfl
    | deviceChange =>
      refine either_one List.prefix_rfl (fun h => ⟨rfl, ?_⟩) (fun h => ?_)
      · simp [writeLine, h, working]
      · simp [writeLine, h]

/-- The same for the datagrams of a negotiation, whose lines are counted from `n` on. -/
theorem sendAllLog_either (a : PioneerNetwork) (o : LogOs) (ps : List KaPacket) (k n : Nat) (oks : List Bool) :
    ((∀ j, j < (sendAllLog a (working o) k n ps oks).2.1.length → o.written (n + j) = true) ∧
      sendAllLog a o k n ps oks = sendAllLog a (working o) k n ps oks) ∨
    (∃ j, j < (sendAllLog a (working o) k n ps oks).2.1.length ∧ (∀ i, i < j → o.written (n + i) = true) ∧
      o.written (n + j) = false ∧
      (sendAllLog a o k n ps oks).2.1 = (sendAllLog a (working o) k n ps oks).2.1.take j ∧
      (sendAllLog a o k n ps oks).1 <+: (sendAllLog a (working o) k n ps oks).1 ∧
      (sendAllLog a o k n ps oks).2.2 = false) := by
  induction ps generalizing k n oks with
  | nil => exact .inl ⟨fun j hj => absurd hj (by simp [sendAllLog]), rfl⟩
  | cons p ps ih =>
    simp only [sendAllLog]
    cases sendBroadcast a p (oks.headD true) with
    | panic => exact .inl ⟨fun j hj => absurd hj (by simp), rfl⟩
    | ok x =>
      simp only [show (working o).accepted k = o.accepted k from rfl]
      split
      · rcases ih (k + 1) n oks.tail with ⟨h1, h2⟩ | ⟨j, h1, h2, h3, h4, h5, h6⟩
        · exact .inl ⟨h1, by rw [h2]⟩
        · refine .inr ⟨j, h1, h2, h3, h4, ?_, h6⟩
          exact (List.prefix_cons_inj x).2 h5
      · cases hw : o.written n with
        | false =>
          refine .inr ⟨0, by simp [writeLine, working], fun i hi => absurd hi (by omega), hw, ?_⟩
          simp [writeLine, working, hw]
        | true =>
          simp only [writeLine, working, hw, if_true]
          rcases ih (k + 1) (n + 1) oks.tail with ⟨h1, h2⟩ | ⟨j, h1, h2, h3, h4, h5, h6⟩
          · refine .inl ⟨fun j hj => ?_, by rw [h2]; rfl⟩
            cases j with
            | zero => exact hw
            | succ j =>
              have := h1 j (by simpa [working] using hj)
              rwa [show n + (j + 1) = n + 1 + j by omega]
          · refine .inr ⟨j + 1, by simpa [working] using h1, fun i hi => ?_, ?_, ?_, ?_, h6⟩
            · cases i with
              | zero => exact hw
              | succ i =>
                rw [show n + (i + 1) = n + 1 + i by omega]
                exact h2 i (by omega)
            · rwa [show n + (j + 1) = n + 1 + j by omega]
            · simp only [List.singleton_append, List.take_succ_cons, h4]
              rfl
            · exact (List.prefix_cons_inj x).2 h5

theorem appLinkBody_quiet (oks : List Bool) (o : LogOs) (s : AppSystem) (hp : s.poisoned = false)
    (ha : s.state.address = none) : appLinkBody oks o s = appLinkBody oks (working o) s ∧
      (appLinkBody oks (working o) s).2.1 = [] := by
  unfold appLinkBody
  rw [hp, ha]
  exact ⟨rfl, rfl⟩

theorem appLinkLog_either (oks : List Bool) (o : LogOs) (s : AppSystem) :
    Either o (appLinkLog oks o s) (appLinkLog oks (working o) s) (fun s' => s'.running = false) := by
  unfold appLinkLog
  cases h0 : o.written 0 with
  | false =>
    refine .inr ⟨⟨0, by simp [writeLine, working], fun j hj => absurd hj (by omega), h0, ?_⟩, ?_⟩
    · simp [writeLine, h0]
    · simp [writeLine, h0]
  | true =>
    simp only [writeLine, working, h0, if_true]
    unfold appLinkBody
    cases hp : s.poisoned with
    | true =>
      cases h1 : o.written 1 with
      | true =>
        refine .inl ⟨fun k hk => ?_, ?_⟩
        · match k, hk with
          | 0, _ => exact h0
          | 1, _ => exact h1
          | k + 2, hk => exact absurd hk (by simp [writeLine])
        · simp [writeLine, h1]
      | false =>
        refine .inr ⟨⟨1, by simp [writeLine], fun j hj => ?_, h1, ?_, ?_⟩, ?_⟩
        · have : j = 0 := by omega
          rw [this, h0]
        · simp [writeLine, h1]
        · simp
        · simp
    | false =>
      cases s.state.address with
      | none =>
        refine .inl ⟨fun k hk => ?_, ?_⟩
        · match k, hk with
          | 0, _ => exact h0
          | k + 1, hk => exact absurd hk (by simp)
        · simp
      | some a =>
        simp only [Bool.false_eq_true, if_false]
        rcases sendAllLog_either a o (negotiationPackets a) 0 1 oks with ⟨h1, h2⟩ | ⟨j, h1, h2, h3, h4, h5, h6⟩
        · refine .inl ⟨fun k hk => ?_, ?_⟩
          · match k, hk with
            | 0, _ => exact h0
            | k + 1, hk =>
              have := h1 k (by simpa [working] using hk)
              rwa [Nat.add_comm] at this
          · rw [h2]; rfl
        · refine .inr ⟨⟨j + 1, by simpa [working] using h1, fun i hi => ?_, ?_, ?_, h5⟩, h6⟩
          · match i, hi with
            | 0, _ => exact h0
            | i + 1, hi =>
              have := h2 i (by omega)
              rwa [Nat.add_comm] at this
          · rwa [Nat.add_comm] at h3
          · simp only [List.singleton_append, List.take_succ_cons, h4]
            rfl

/-- What a lost line of a thread does to the system of threads. -/
def AppLoss (s : AppSystem) (x : AppAction) (s' : AppSystem) : Prop :=
  match x with
  | .receive _ _ => s' = { s with receiver := false }
  | .broadcast _ => s' = { s with broadcaster := false, poisoned := true }
  | _ => s'.running = false

theorem appLog_either (s : AppSystem) (o : LogOs) (x : AppAction) :
    Either o (appLog s o x) (appLog s (working o) x) (AppLoss s x) := by
  unfold appLog
  cases s.running with
  | false => exact either_quiet rfl rfl
  | true =>
    simp only [if_true]
    cases x with
    | receive i d =>
      simp only
      cases s.receiver with
      | false => exact either_quiet rfl rfl
      | true => exact receiveLog_either i d o s
    | broadcast ok =>
      simp only
      cases s.broadcaster with
      | false => exact either_quiet rfl rfl
      | true => exact broadcastLog_either ok o s
    | appRecv =>
      simp only
      cases s.pending with
      | true => exact either_quiet rfl rfl
      | false => exact appRecvLog_either o s
    | appLink oks =>
      simp only
      cases s.pending with
      | false => exact either_quiet rfl rfl
      | true => exact appLinkLog_either oks o s

theorem either_line {α : Type} (o : LogOs) (a : List α) (l : LogLine) :
    Either o (a, writeLine o 0 l) (a, writeLine (working o) 0 l) (fun b => b = false) :=
  either_one (c := (writeLine o 0 l).2) List.prefix_rfl (fun h => ⟨rfl, by simp [writeLine, h]⟩)
    (fun h => by simp [writeLine, h])

theorem statusLog_either (o : LogOs) (r : StatusRecv) (b : Bool) :
    Either o (statusLog o r b) (statusLog (working o) r b) (fun b => b = false) := by
  cases b with
  | false => exact either_quiet rfl rfl
  | true =>
    cases r with
    | ioError => exact either_line o _ _
    | datagram d sender =>
      simp only [statusLog]
      cases StatusPacket.decode (d.take 1024) with
      | err => exact either_line o _ _
      | fail => exact either_line o _ _
      | panic => exact either_one List.prefix_rfl (fun _ => ⟨rfl, rfl⟩) (fun _ => rfl)
      | ok r p =>
        simp only [statusEventLog]
        cases processPacket p with
        | none =>
          simp only
          split
          · exact either_quiet rfl rfl
          · exact either_line o _ _
        | some reply =>
          simp only
          cases reply.encode with
          | panic => exact either_quiet rfl rfl
          | ok b =>
            simp only [show (working o).accepted 0 = o.accepted 0 from rfl]
            cases o.accepted 0 with
            | true => exact either_quiet rfl rfl
            | false => exact either_line o _ _

theorem progLog_either (net : Option PioneerNetwork) (os : Bytes → Addr → Bool) (r : Recv) (o : LogOs) (b : Bool) :
    Either o (progLog net os r o b) (progLog net os r (working o) b) (fun b' => b = true ∧ b' = false) := by
  cases b with
  | false => exact either_quiet rfl rfl
  | true =>
    simp only [true_and]
    cases r with
    | ioError => exact either_line o _ _
    | datagram d peer =>
      simp only [progLog]
      cases rpcFrame d with
      | nothing => exact either_quiet rfl rfl
      | request q => exact either_quiet rfl rfl
      | panic => exact either_quiet rfl rfl
      | invalid =>
        simp only
        cases h0 : o.written 0 with
        | false =>
          refine .inr ⟨⟨0, by simp [writeLine, working], fun j hj => absurd hj (by omega), h0, ?_⟩, ?_⟩
          · simp [writeLine, h0, working]
          · simp [writeLine, h0]
        | true =>
          cases h1 : o.written 1 with
          | true =>
            refine .inl ⟨fun k hk => ?_, ?_⟩
            · match k, hk with
              | 0, _ => exact h0
              | 1, _ => exact h1
              | k + 2, hk => exact absurd hk (by simp [writeLine, working])
            · simp [writeLine, h1, h0, working]
          | false =>
            refine .inr ⟨⟨1, by simp [writeLine, working], fun j hj => ?_, h1, ?_⟩, ?_⟩
            · have : j = 0 := by omega
              rw [this, h0]
            · simp [writeLine, h1, h0, working]
            · simp [writeLine, h1, h0]

theorem portmapLog_either (os : Bytes → Addr → Bool) (bound : Option UInt16) (r : Recv) (o : LogOs)
    (s : RpcSystem F) :
    Either o (portmapLog os bound r o s) (portmapLog os bound r (working o) s)
      (fun s' => s' = { s with portmap := false }) := by
  unfold portmapLog
  cases s.portmap with
  | false => exact either_quiet rfl rfl
  | true =>
    simp only [if_true]
    cases r with
    | ioError => exact either_quiet rfl rfl
    | datagram d peer =>
      simp only
      cases rpcFrame d with
      | nothing => exact either_quiet rfl rfl
      | request q => exact either_quiet rfl rfl
      | panic => exact either_quiet rfl rfl
      | invalid =>
        refine either_one List.prefix_rfl (fun h => ⟨rfl, ?_⟩) (fun h => ?_)
        · simp [writeLine, h, working]
        · simp [writeLine, h]

theorem nfsLog_either (e : Endian) (w : World F) (os : SendOs) (r : Recv) (o : LogOs) (t : NfsTask F) :
    Either o (nfsLog e w os r o t) (nfsLog e w os r (working o) t) (fun t' => t' = .dead) := by
  cases t with
  | dead => exact either_quiet rfl rfl
  | running s pending =>
    cases r with
    | ioError => exact either_quiet rfl rfl
    | datagram d peer =>
      simp only [nfsLog]
      cases rpcFrame d with
      | nothing => exact either_quiet rfl rfl
      | panic => exact either_quiet rfl rfl
      | invalid =>
        refine either_one List.prefix_rfl (fun h => ⟨rfl, ?_⟩) (fun h => ?_)
        · simp [writeLine, h, working]
        · simp [writeLine, h]
      | request q =>
        simp only
        cases s.callProcedure e w q.call.procedure with
        | panic => exact either_quiet rfl rfl
        | ok r =>
          obtain ⟨r, s'⟩ := r
          cases r with
          | ok x => exact either_quiet rfl rfl
          | error er =>
            refine either_one List.prefix_rfl (fun h => ⟨rfl, ?_⟩) (fun h => ?_)
            · simp [writeLine, h, working]
            · simp [writeLine, h]

/-- From a part of the state to the whole. -/
theorem either_map {α β σ τ : Type} {o : LogOs} {r f : List α × List LogLine × σ} {P : σ → Prop} {Q : τ → Prop}
    (g : List α → List β) (hg : ∀ a b : List α, a <+: b → g a <+: g b) (t : σ → τ) (h : Either o r f P)
    (hq : ∀ s, P s → Q (t s)) :
    Either o (g r.1, r.2.1, t r.2.2) (g f.1, f.2.1, t f.2.2) Q := by
  rcases h with ⟨h1, h2⟩ | ⟨⟨k, h1, h2, h3, h4, h5⟩, h6⟩
  · exact .inl ⟨h1, by rw [h2]⟩
  · exact .inr ⟨⟨k, h1, h2, h3, h4, hg _ _ h5⟩, hq _ h6⟩

theorem taskLog_either (e : Endian) (net : Option PioneerNetwork) (ev : NfsEvent F) (o : LogOs) (t : RpcTask F) :
    Either o (taskLog e net ev o t) (taskLog e net ev (working o) t) (fun t' => t'.live = false) := by
  cases t with
  | nfs t =>
    exact either_map id (fun _ _ h => h) RpcTask.nfs (nfsLog_either e ev.world ev.os ev.recv o t)
      (fun s hs => by rw [hs]; rfl)
  | program b =>
    exact either_map id (fun _ _ h => h) RpcTask.program (progLog_either net (ev.os false) ev.recv o b)
      (fun s hs => by rw [hs.2]; rfl)

theorem deliverLog_either (e : Endian) (net : Option PioneerNetwork) (p : UInt16) (ev : NfsEvent F) (o : LogOs)
    (ts : List (UInt16 × RpcTask F)) :
    Either o (deliverLog e net p ev o ts) (deliverLog e net p ev (working o) ts) (HandlerEnds p ts) := by
  induction ts with
  | nil => exact either_quiet rfl rfl
  | cons t ts ih =>
    simp only [deliverLog]
    split
    · rename_i h
      refine either_map id (fun _ _ h => h) (fun r => (t.1, r) :: ts) (taskLog_either e net ev o t.2)
        (fun s hs => ⟨[], t.2, s, ts, ?_, ?_, h.2, hs⟩)
      · rw [← h.1]; rfl
      · rw [← h.1]; rfl
    · refine either_map id (fun _ _ h => h) (fun r => t :: r) ih ?_
      rintro s ⟨pre, a, b, post, h1, h2, h3, h4⟩
      exact ⟨t :: pre, a, b, post, by rw [h1]; rfl, by rw [h2]; rfl, h3, h4⟩

theorem replyLog_either (o : LogOs) (n : Nat) (r : List Bytes × Phase) :
    (replyLog (working o) n r).2.1 = [] ∧ replyLog o n r = replyLog (working o) n r ∨
    (replyLog (working o) n r).2.1.length = 1 ∧ (replyLog o n r).1 = (replyLog (working o) n r).1 ∧
      if o.written n then replyLog o n r = replyLog (working o) n r
      else (replyLog o n r).2.1 = [] ∧ (replyLog o n r).2.2 = .finished := by
  obtain ⟨bs, p⟩ := r
  cases bs with
  | nil => exact .inl ⟨rfl, rfl⟩
  | cons b bs =>
    simp only [replyLog, show (working o).accepted 0 = o.accepted 0 from rfl]
    cases o.accepted 0 with
    | true => exact .inl ⟨rfl, rfl⟩
    | false =>
      refine .inr ⟨rfl, rfl, ?_⟩
      cases h : o.written n <;> simp [writeLine, working, h]

theorem handlerLog_either (m : Mode) (db : Db) (o : LogOs) (ev : HandlerEvent) (p : Phase) :
    Either o (handlerLog m db o ev p) (handlerLog m db (working o) ev p) (fun p' => p' = .finished) := by
  cases ev with
  | connect => cases p <;> exact either_quiet rfl rfl
  | close =>
    cases p with
    | listening => exact either_quiet rfl rfl
    | finished => exact either_quiet rfl rfl
    | serving ctx =>
      simp only [handlerLog, show (working o).accepted 0 = o.accepted 0 from rfl]
      split
      · exact either_quiet rfl rfl
      · exact either_one List.prefix_rfl (fun _ => ⟨rfl, rfl⟩) (fun _ => rfl)
  | refused =>
    cases p with
    | listening => exact either_one List.prefix_rfl (fun _ => ⟨rfl, rfl⟩) (fun _ => rfl)
    | serving ctx => exact either_quiet rfl rfl
    | finished => exact either_quiet rfl rfl
  | data io chunk =>
    cases p with
    | listening => exact either_quiet rfl rfl
    | finished => exact either_quiet rfl rfl
    | serving ctx =>
      simp only [handlerLog, queryLog_working, if_true]
      generalize handlerStep m db (.data io chunk) (.serving ctx) = r
      cases hq : queryLine m chunk with
      | none =>
        have hl : queryLog m o chunk = ([], true) := by rw [queryLog, hq]
        simp only [hl, Option.toList, if_true, List.length_nil, List.nil_append]
        rcases replyLog_either o 0 r with ⟨h1, h2⟩ | ⟨h1, h2, h3⟩
        · exact either_quiet h2 h1
        · cases h0 : o.written 0 with
          | true =>
            rw [if_pos h0] at h3
            exact .inl ⟨fun k hk => by rw [show k = 0 by simp only at hk; omega, h0], h3⟩
          | false =>
            rw [if_neg (by simp [h0])] at h3
            exact .inr ⟨⟨0, by simp only; omega, fun j hj => absurd hj (by omega), h0, h3.1, by simp only [h2]; exact
              List.prefix_rfl⟩, h3.2⟩
      | some l =>
        have hl : queryLog m o chunk = writeLine o 0 l := by rw [queryLog, hq]
        simp only [hl, Option.toList]
        cases h0 : o.written 0 with
        | false =>
          refine .inr ⟨⟨0, by simp, fun j hj => absurd hj (by omega), h0, ?_⟩, ?_⟩
          · simp [writeLine, h0]
          · simp [writeLine, h0]
        | true =>
          simp only [writeLine, h0, if_true, List.length_singleton]
          rcases replyLog_either o 1 r with ⟨h1, h2⟩ | ⟨h1, h2, h3⟩
          · refine .inl ⟨fun k hk => ?_, by rw [h2]⟩
            simp only [h1, List.append_nil, List.length_singleton] at hk
            rw [show k = 0 by omega, h0]
          · cases hw : o.written 1 with
            | true =>
              rw [if_pos hw] at h3
              refine .inl ⟨fun k hk => ?_, by rw [h3]⟩
              simp only [List.length_append, List.length_singleton, h1] at hk
              match k, hk with
              | 0, _ => exact h0
              | 1, _ => exact hw
            | false =>
              rw [if_neg (by simp [hw])] at h3
              refine .inr ⟨⟨1, by simp [h1], fun j hj => ?_, hw, ?_, ?_⟩, h3.2⟩
              · rw [show j = 0 by omega, h0]
              · simp only [h3.1]
                rfl
              · simp only [h2]
                exact List.prefix_rfl

theorem mainLog_either (m : Mode) (db : Db) (o : LogOs) (s : LibServer) (c : Nat) (bound : Option UInt16) :
    Either o (libLog m db o s (.main c bound)) (libLog m db (working o) s (.main c bound))
      (fun s' => ∃ p, bound = some p ∧ s' = ⟨c :: s.deadMains, s.handlers ++ [⟨p, .listening⟩]⟩) := by
  simp only [libLog, libStep]
  split
  · exact either_quiet rfl rfl
  · cases bound with
    | none => exact either_quiet rfl rfl
    | some p =>
      simp only [mainLog, show (working o).accepted 0 = o.accepted 0 from rfl]
      split
      · exact either_quiet rfl rfl
      · refine either_one List.prefix_rfl (fun h => ⟨rfl, ?_⟩) (fun h => ?_)
        · simp [writeLine, h, working]
        · exact ⟨p, rfl, by simp [writeLine, h]⟩

theorem sysLog_either (e : Endian) (m : Mode) (db : Db) (s : System F) (x : SysAction F) (o : LogOs) :
    Either o (sysLog e m db s x o) (sysLog e m db s x (working o)) (AfterLoss s x) := by
  unfold sysLog
  cases s.app.running with
  | false => exact either_quiet rfl rfl
  | true =>
    simp only [if_true]
    cases x with
    | app x =>
      refine either_map (List.map SysOut.broadcast) (fun _ _ h => h.map _) (fun a => { s with app := a })
        (appLog_either s.app o x) (fun a ha => ?_)
      cases x with
      | receive i d => rw [show a = _ from ha]; rfl
      | broadcast ok => rw [show a = _ from ha]; rfl
      | appRecv => exact ⟨a, ha, rfl⟩
      | appLink oks => exact ⟨a, ha, rfl⟩
    | portmap os bound recv =>
      refine either_map (List.map (fun y => SysOut.rpc (none, y))) (fun _ _ h => h.map _)
        (fun a => { s with services := ⟨a, s.services.accepting && a.portmap⟩ })
        (portmapLog_either os bound recv o s.services.rpc) (fun a ha => ?_)
      rw [ha]
      simp [AfterLoss]
    | port p ev =>
      refine either_map (List.map (fun y => SysOut.rpc (some p, y))) (fun _ _ h => h.map _)
        (fun a => { s with services := ⟨{ s.services.rpc with tasks := a },
            s.services.accepting && s.services.rpc.portmap⟩ })
        (deliverLog_either e (knownNetwork s.app) p ev o s.services.rpc.tasks) (fun a ha => ?_)
      exact ⟨a, ha, rfl⟩
    | accept c => exact either_quiet rfl rfl
    | hangup c => exact either_quiet rfl rfl
    | main c bound =>
      simp only
      split
      · refine either_map (List.map SysOut.lib) (fun _ _ h => h.map _) (fun l => { s with lib := l })
          (mainLog_either m db o s.lib c bound) ?_
        rintro l ⟨p, h1, h2⟩
        exact ⟨p, h1, by rw [h2]⟩
      · exact either_quiet rfl rfl
    | handler h ev =>
      simp only [libLog]
      cases hh : s.lib.handlers[h]? with
      | none => exact either_quiet rfl rfl
      | some hd =>
        refine either_map (List.map SysOut.lib ∘ List.map (LibOut.toHandler h)) (fun _ _ h => (h.map _).map _)
          (fun p => { s with lib := { s.lib with handlers := s.lib.handlers.set h ⟨hd.port, p⟩ } })
          (handlerLog_either m db o ev hd.phase) (fun a ha => ?_)
        exact ⟨hd, hh, by rw [ha]⟩
    | status r =>
      refine either_map (List.map SysOut.status) (fun _ _ h => h.map _) (fun b => { s with status := b })
        (statusLog_either o r s.status) (fun b hb => ?_)
      rw [hb]
      rfl

end PDJ

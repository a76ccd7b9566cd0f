import Mathlib.Data.List.Perm.Subperm
import Verif.Spec.Asked
import Verif.Props.Delivery
import Verif.Props.Explained
import Verif.Props.System
import Verif.Props.Traffic

/-!
# Property C100: apart from the broadcasts the process sends nothing but answers
-/

namespace PDJ

open Spec

variable {F : Type}

/-- Answers an RPC handler holds back. -/
def heldBack : RpcTask F → List (Bytes × Addr)
  | .nfs t => held t
  | .program _ => []

theorem heldBack_dead {t : RpcTask F} (h : t.live = false) : heldBack t = [] := by
  match t, h with
  | .nfs .dead, _ => rfl
  | .program _, _ => rfl

/-- One step of a handler: what it sends and holds back afterwards is what it held back and an answer. -/
theorem taskStep_asked (e : Endian) (net : Option PioneerNetwork) (ev : NfsEvent F) (t : RpcTask F) :
    (((taskStep e net ev t).1 ++ heldBack (taskStep e net ev t).2).map answered).Sublist
      ((heldBack t).map answered ++ asked [ev]) := by
  cases t with
  | nfs t =>
    cases t with
    | dead => simp [taskStep, nfsStep, heldBack, held]
    | running s p =>
      obtain ⟨_, _, h3, _⟩ := step_delivery e ev (.running s p) (.running s none) rfl rfl
      obtain ⟨_, h4⟩ := step_answers e ev (.running s none) rfl
      have h5 := h3.map answered
      rw [List.map_append (l₁ := held _)] at h5
      exact h5.trans (h4.append_left _)
  | program b =>
    have : ((progStep net (ev.os false) ev.recv b).1.map answered).Sublist (asked [ev]) := by
      obtain ⟨w, os, rv⟩ := ev
      cases rv with
      | ioError => cases b <;> simp [progStep]
      | datagram d peer => exact C76_mount_answers_the_asker net (os false) d peer b
    simpa [taskStep, heldBack] using this

/-- What the handler that listens on a port holds back. -/
def heldAt (p : UInt16) : List (UInt16 × RpcTask F) → List (Bytes × Addr)
  | [] => []
  | t :: ts => if t.1 = p ∧ t.2.live = true then heldBack t.2 else heldAt p ts

/-- Handlers that do not get at what arrives at their port hold nothing back. -/
def OthersIdle (p : UInt16) : List (UInt16 × RpcTask F) → Prop
  | [] => True
  | t :: ts => if t.1 = p ∧ t.2.live = true then ∀ u ∈ ts, u.1 = p → heldBack u.2 = []
    else OthersIdle p ts

theorem idle_of_none {p : UInt16} {ts : List (UInt16 × RpcTask F)}
    (h : ∀ u ∈ ts, u.1 = p → heldBack u.2 = []) : heldAt p ts = [] ∧ OthersIdle p ts := by
  induction ts with
  | nil => exact ⟨rfl, trivial⟩
  | cons t ts ih =>
    obtain ⟨h1, h2⟩ := ih (fun u hu => h u (List.mem_cons_of_mem _ hu))
    unfold heldAt OthersIdle
    by_cases hc : t.1 = p ∧ t.2.live = true
    · rw [if_pos hc, if_pos hc]
      exact ⟨h t List.mem_cons_self hc.1, fun u hu => h u (List.mem_cons_of_mem _ hu)⟩
    · rw [if_neg hc, if_neg hc]
      exact ⟨h1, h2⟩

theorem idle_spawn {p : UInt16} {ts : List (UInt16 × RpcTask F)} (h : OthersIdle p ts)
    (t : UInt16 × RpcTask F) (ht : heldBack t.2 = []) :
    heldAt p (ts ++ [t]) = heldAt p ts ∧ OthersIdle p (ts ++ [t]) := by
  induction ts with
  | nil =>
    exact idle_of_none (ts := [t]) (fun u hu _ => by
      cases List.mem_singleton.1 hu
      exact ht)
  | cons x ts ih =>
    unfold OthersIdle at h
    simp only [List.cons_append, heldAt, OthersIdle]
    by_cases hc : x.1 = p ∧ x.2.live = true
    · rw [if_pos hc] at h
      rw [if_pos hc, if_pos hc, if_pos hc]
      refine ⟨rfl, fun u hu hp => ?_⟩
      rcases List.mem_append.1 hu with hu | hu
      · exact h u hu hp
      · cases List.mem_singleton.1 hu
        exact ht
    · rw [if_neg hc] at h
      rw [if_neg hc, if_neg hc, if_neg hc]
      exact ih h

/-- Delivery at the port. -/
theorem deliver_asked (e : Endian) (net : Option PioneerNetwork) (p : UInt16) (ev : NfsEvent F)
    (ts : List (UInt16 × RpcTask F)) (h : OthersIdle p ts) :
    OthersIdle p (deliver e net p ev ts).2 ∧
      (((deliver e net p ev ts).1 ++ heldAt p (deliver e net p ev ts).2).map answered).Sublist
        ((heldAt p ts).map answered ++ asked [ev]) := by
  induction ts with
  | nil => exact ⟨trivial, by simp [deliver, heldAt]⟩
  | cons t ts ih =>
    unfold OthersIdle at h
    by_cases hc : t.1 = p ∧ t.2.live = true
    · rw [if_pos hc] at h
      have hs := taskStep_asked e net ev t.2
      simp only [deliver, heldAt]
      rw [if_pos hc, if_pos hc]
      by_cases hl : (taskStep e net ev t.2).2.live = true
      · simp only [OthersIdle, heldAt]
        rw [if_pos ⟨hc.1, hl⟩, if_pos ⟨hc.1, hl⟩]
        exact ⟨h, hs⟩
      · obtain ⟨h1, h2⟩ := idle_of_none h
        simp only [OthersIdle, heldAt]
        rw [if_neg (fun x => hl x.2), if_neg (fun x => hl x.2), h1]
        refine ⟨h2, ?_⟩
        rwa [heldBack_dead (by simpa using hl)] at hs
    · rw [if_neg hc] at h
      simp only [deliver, heldAt]
      rw [if_neg hc, if_neg hc]
      simp only [OthersIdle, heldAt]
      rw [if_neg hc, if_neg hc]
      exact ih h

/-- Delivery at another port. -/
theorem deliver_elsewhere (e : Endian) (net : Option PioneerNetwork) (p q : UInt16) (hq : q ≠ p)
    (ev : NfsEvent F) (ts : List (UInt16 × RpcTask F)) (h : OthersIdle p ts) :
    OthersIdle p (deliver e net q ev ts).2 ∧ heldAt p (deliver e net q ev ts).2 = heldAt p ts := by
  have other : ∀ ts : List (UInt16 × RpcTask F), (∀ u ∈ ts, u.1 = p → heldBack u.2 = []) →
      ∀ u ∈ (deliver e net q ev ts).2, u.1 = p → heldBack u.2 = [] := by
    intro ts
    induction ts with
    | nil => intro h; exact h
    | cons t ts ih =>
      intro h u hu hp
      simp only [deliver] at hu
      split at hu
      · rename_i hc
        rcases List.mem_cons.1 hu with rfl | hu
        · exact absurd (hc.1.symm.trans hp) hq
        · exact h u (List.mem_cons_of_mem _ hu) hp
      · rcases List.mem_cons.1 hu with rfl | hu
        · exact h u List.mem_cons_self hp
        · exact ih (fun v hv => h v (List.mem_cons_of_mem _ hv)) u hu hp
  induction ts with
  | nil => exact ⟨trivial, rfl⟩
  | cons t ts ih =>
    unfold OthersIdle at h
    by_cases hc : t.1 = p ∧ t.2.live = true
    · rw [if_pos hc] at h
      have hn : ¬ (t.1 = q ∧ t.2.live = true) := fun x => hq (x.1.symm.trans hc.1)
      simp only [deliver]
      rw [if_neg hn]
      simp only [OthersIdle, heldAt]
      rw [if_pos hc, if_pos hc, if_pos hc]
      exact ⟨other ts h, rfl⟩
    · rw [if_neg hc] at h
      simp only [deliver]
      split
      · rename_i hd
        have hn : ¬ (t.1 = p ∧ (taskStep e net ev t.2).2.live = true) := fun x => hq (hd.1.symm.trans x.1)
        simp only [OthersIdle, heldAt]
        rw [if_neg hn, if_neg hn, if_neg hc]
        exact ⟨h, rfl⟩
      · simp only [OthersIdle, heldAt]
        rw [if_neg hc, if_neg hc, if_neg hc]
        exact ih h

/-- What waits at a socket to be sent. -/
def waitingAt (s : System F) : Sock → List (Bytes × Addr)
  | .rpc p => heldAt p s.services.rpc.tasks
  | _ => []

/-- A party by transaction id and address. -/
def partyOf (x : Bytes × Addr) : Party := .peer x.1 x.2

theorem answersAt_append (k : Sock) (a b : List SysOut) :
    answersAt k (a ++ b) = answersAt k a ++ answersAt k b := by
  simp [answersAt]

theorem questionsAt_cons (k : Sock) (x : SysAction F) (xs : List (SysAction F)) :
    questionsAt k (x :: xs) = questionsAt k [x] ++ questionsAt k xs := by
  unfold questionsAt
  rw [← List.map_append, ← List.filter_append, ← List.filterMap_append]
  rfl

theorem portmap_spawned (os : Bytes → Addr → Bool) (bound : Option UInt16) (r : Recv) (s : RpcSystem F) :
    (portmapStep os bound r s).2.tasks = s.tasks ∨
      ∃ t, heldBack t.2 = [] ∧ (portmapStep os bound r s).2.tasks = s.tasks ++ [t] := by
  have hsp : ∀ (pr : RpcProcedure) (t : RpcTask F), spawned pr = some t → heldBack t = [] := by
    intro pr t h
    unfold spawned at h
    split at h
    · split at h <;> (cases h; rfl)
    · exact nomatch h
  unfold portmapStep
  by_cases hp : s.portmap = true
  · rw [if_pos hp]
    cases r with
    | ioError => exact .inl rfl
    | datagram d peer =>
      simp only
      cases rpcFrame d with
      | nothing => exact .inl rfl
      | invalid => exact .inl rfl
      | panic => exact .inl rfl
      | request q =>
        cases bound with
        | none => exact .inl rfl
        | some port =>
          simp only
          cases hs : spawned (F := F) q.call.procedure with
          | none =>
            left
            split <;> rfl
          | some t =>
            right
            refine ⟨(port, t), hsp _ _ hs, ?_⟩
            split <;> rfl
  · rw [if_neg hp]
    exact .inl rfl

theorem answers_portmap (k : Sock) (o : List (Bytes × Addr)) :
    answersAt k ((o.map fun x => ((none : Option UInt16), x)).map SysOut.rpc) =
      if k = .portmap then (o.map answered).map partyOf else [] := by
  induction o with
  | nil => cases k <;> rfl
  | cons x o ih =>
    have h := answersAt_append k [SysOut.rpc (none, x)] ((o.map fun x => ((none : Option UInt16), x)).map SysOut.rpc)
    simp only [List.map_cons]
    refine h.trans ?_
    rw [ih]
    cases k <;> rfl

theorem answers_port (k : Sock) (p : UInt16) (o : List (Bytes × Addr)) :
    answersAt k ((o.map fun x => (some p, x)).map SysOut.rpc) =
      if k = .rpc p then (o.map answered).map partyOf else [] := by
  induction o with
  | nil => cases k <;> simp [answersAt]
  | cons x o ih =>
    have h := answersAt_append k [SysOut.rpc (some p, x)] ((o.map fun x => (some p, x)).map SysOut.rpc)
    simp only [List.map_cons]
    refine h.trans ?_
    rw [ih]
    by_cases hk : k = .rpc p
    · subst hk
      simp [answersAt, answer, partyOf, answered]
    · have hk' : ¬ Sock.rpc p = k := fun x => hk x.symm
      simp [answersAt, answer, hk, hk']

/-- What waits, as answers. -/
def waitingParties (s : System F) (k : Sock) : List Party := ((waitingAt s k).map answered).map partyOf

theorem asked_parties (ev : NfsEvent F) (p : UInt16) :
    (asked [ev]).map partyOf = questionsAt (.rpc p) [SysAction.port p ev] := by
  obtain ⟨w, os, rv⟩ := ev
  cases rv with
  | ioError => rfl
  | datagram d peer => simp [asked, partyOf, questionsAt, question]

theorem portmapStep_asked (os : Bytes → Addr → Bool) (bound : Option UInt16) (r : Recv) (s : RpcSystem F) :
    (((portmapStep os bound r s).1.map answered).map partyOf).Sublist
      (questionsAt .portmap [(SysAction.portmap os bound r : SysAction F)]) := by
  cases r with
  | ioError =>
    unfold portmapStep
    split <;> simp
  | datagram d peer =>
    refine ((C76_portmap_answers_the_asker os bound d peer s).map partyOf).trans ?_
    simp [partyOf, questionsAt, question]

theorem statusStep_asked (r : StatusRecv) (b : Bool) :
    (answersAt .status ((statusStep r b).1.map SysOut.status)).Sublist
      (questionsAt .status [(SysAction.status r : SysAction F)]) := by
  cases b with
  | false => cases r <;> simp [statusStep, answersAt]
  | true =>
    cases r with
    | ioError => simp [statusStep, answersAt]
    | datagram d sender =>
      simp only [statusStep]
      split
      · simp [answersAt]
      · simp [answersAt]
      · simp [answersAt]
      · split
        · simp [answersAt]
        · split
          · simp [answersAt, answer, questionsAt, question, statusPort]
          · simp [answersAt]

theorem answers_status (k : Sock) (hk : k ≠ .status) (o : List (Bytes × Ip4 × UInt16)) :
    answersAt k (o.map SysOut.status) = [] := by
  have hk' : ¬ Sock.status = k := fun x => hk x.symm
  induction o with
  | nil => rfl
  | cons x o ih =>
    refine (answersAt_append k [SysOut.status x] (o.map SysOut.status)).trans ?_
    rw [ih]
    simp [answersAt, answer, hk']

theorem answers_broadcast (k : Sock) (o : List (Bytes × Ip4 × UInt16)) :
    answersAt k (o.map SysOut.broadcast) = [] := by
  induction o with
  | nil => rfl
  | cons x o ih => exact (answersAt_append k [SysOut.broadcast x] (o.map SysOut.broadcast)).trans (by rw [ih]; rfl)

theorem handlerStep_length (m : Mode) (db : Db) (ev : HandlerEvent) (p : Phase) :
    (handlerStep m db ev p).1 = [] ∨ ∃ io chunk b, ev = .data io chunk ∧ (handlerStep m db ev p).1 = [b] := by
  cases ev with
  | connect => cases p <;> exact .inl rfl
  | refused => cases p <;> exact .inl rfl
  | close => cases p <;> exact .inl rfl
  | data io chunk =>
    cases p with
    | listening => exact .inl rfl
    | finished => exact .inl rfl
    | serving ctx =>
      simp only [handlerStep]
      cases process m io db chunk ctx with
      | panic => exact .inl rfl
      | ok r => exact .inr ⟨io, chunk, r.1, rfl, rfl⟩

theorem libStep_main_asked (m : Mode) (db : Db) (s : LibServer) (c : Nat) (bound : Option UInt16) (k : Sock) :
    (answersAt k ((libStep m db s (.main c bound)).1.map SysOut.lib)).Sublist
      (questionsAt k [(SysAction.main c bound : SysAction F)]) := by
  simp only [libStep]
  split
  · simp [answersAt]
  · cases bound with
    | none => simp [answersAt]
    | some p => exact List.Sublist.refl _

theorem libStep_handler_asked (m : Mode) (db : Db) (s : LibServer) (h : Nat) (ev : HandlerEvent) (k : Sock) :
    (answersAt k ((libStep m db s (.handler h ev)).1.map SysOut.lib)).Sublist
      (questionsAt k [(SysAction.handler h ev : SysAction F)]) := by
  simp only [libStep]
  cases s.handlers[h]? with
  | none => simp [answersAt]
  | some hd =>
    simp only
    rcases handlerStep_length m db ev hd.phase with hs | ⟨io, chunk, b, rfl, hs⟩
    · rw [hs]
      simp [answersAt]
    · rw [hs]
      exact List.Sublist.refl _

/-- One event of the process, seen from a socket. -/
theorem sysStep_asked (e : Endian) (m : Mode) (db : Db) (k : Sock) (s : System F) (x : SysAction F)
    (h : ∀ p, OthersIdle p s.services.rpc.tasks) :
    (∀ p, OthersIdle p (sysStep e m db s x).2.services.rpc.tasks) ∧
      (answersAt k (sysStep e m db s x).1 ++ waitingParties (sysStep e m db s x).2 k).Sublist
        (waitingParties s k ++ questionsAt k [x]) := by
  unfold sysStep
  by_cases hr : s.app.running = true
  · rw [if_pos hr]
    have quiet : ∀ (o : List SysOut) (s' : System F), s'.services = s.services →
        (answersAt k o).Sublist (questionsAt k [x]) → (∀ p, k = .rpc p → answersAt k o = []) →
        (answersAt k o ++ waitingParties s' k).Sublist (waitingParties s k ++ questionsAt k [x]) := by
      intro o s' hs ho hp
      cases k with
      | rpc p =>
        rw [hp p rfl]
        have : waitingParties s' (.rpc p) = waitingParties s (.rpc p) := by
          simp only [waitingParties, waitingAt, hs]
        rw [this]
        exact List.sublist_append_left ..
      | _ => simpa [waitingParties, waitingAt] using ho
    have libQuiet : ∀ (o : List LibOut) (p : UInt16), answersAt (.rpc p) (o.map SysOut.lib) = [] := by
      intro o p
      induction o with
      | nil => rfl
      | cons y o ih =>
        refine (answersAt_append _ [SysOut.lib y] (o.map SysOut.lib)).trans ?_
        rw [ih]
        cases y <;> rfl
    cases x with
    | app x =>
      refine ⟨h, quiet _ _ rfl ?_ ?_⟩
      · rw [answers_broadcast]
        exact List.nil_sublist _
      · intro p _
        rw [answers_broadcast]
    | portmap os bound r =>
      have ho : (servicesStep e s.services (.portmap os bound r)).1.map SysOut.rpc =
          ((portmapStep os bound r s.services.rpc).1.map fun x => ((none : Option UInt16), x)).map SysOut.rpc := rfl
      have ht : (servicesStep e s.services (.portmap os bound r)).2.rpc.tasks =
          (portmapStep os bound r s.services.rpc).2.tasks := rfl
      have hsp := portmap_spawned os bound r s.services.rpc
      simp only [ho, ht]
      have hidle : ∀ p, heldAt p (portmapStep os bound r s.services.rpc).2.tasks = heldAt p s.services.rpc.tasks ∧
          OthersIdle p (portmapStep os bound r s.services.rpc).2.tasks := by
        intro p
        rcases hsp with hsp | ⟨t, h1, hsp⟩
        · rw [hsp]
          exact ⟨rfl, h p⟩
        · rw [hsp]
          exact idle_spawn (h p) t h1
      refine ⟨fun p => (hidle p).2, ?_⟩
      rw [answers_portmap]
      cases k with
      | portmap =>
        rw [if_pos rfl]
        simpa [waitingParties, waitingAt] using portmapStep_asked os bound r s.services.rpc
      | rpc p =>
        rw [if_neg (by intro h; exact nomatch h)]
        simp only [waitingParties, waitingAt, ht, (hidle p).1, List.nil_append]
        exact List.sublist_append_left ..
      | _ =>
        rw [if_neg (by intro h; exact nomatch h)]
        simp [waitingParties, waitingAt]
    | port q ev =>
      have ho : (servicesStep e s.services (.port q (knownNetwork s.app) ev)).1.map SysOut.rpc =
          ((deliver e (knownNetwork s.app) q ev s.services.rpc.tasks).1.map fun x => (some q, x)).map SysOut.rpc := rfl
      have ht : (servicesStep e s.services (.port q (knownNetwork s.app) ev)).2.rpc.tasks =
          (deliver e (knownNetwork s.app) q ev s.services.rpc.tasks).2 := rfl
      simp only [ho, ht]
      refine ⟨fun p => ?_, ?_⟩
      · by_cases hq : q = p
        · subst hq
          exact (deliver_asked e _ q ev _ (h q)).1
        · exact (deliver_elsewhere e _ p q hq ev _ (h p)).1
      · rw [answers_port]
        cases k with
        | rpc p =>
          by_cases hq : q = p
          · subst hq
            rw [if_pos rfl, ← asked_parties]
            have := ((deliver_asked e (knownNetwork s.app) q ev _ (h q)).2).map partyOf
            simpa [waitingParties, waitingAt, ht] using this
          · rw [if_neg (by intro h; cases h; exact hq rfl)]
            simp only [waitingParties, waitingAt, ht, (deliver_elsewhere e _ p q hq ev _ (h p)).2, List.nil_append]
            exact List.sublist_append_left ..
        | _ =>
          rw [if_neg (by intro h; exact nomatch h)]
          simp [waitingParties, waitingAt]
    | accept c =>
      have hs : (if s.services.accepting then { s with mains := c :: s.mains } else s).services = s.services := by
        split <;> rfl
      refine ⟨fun p => ?_, quiet _ _ hs (List.nil_sublist _) (fun _ _ => rfl)⟩
      show OthersIdle p (if s.services.accepting then { s with mains := c :: s.mains } else s).services.rpc.tasks
      rw [hs]
      exact h p
    | hangup c => exact ⟨h, quiet _ _ rfl (List.nil_sublist _) (fun _ _ => rfl)⟩
    | main c bound =>
      simp only
      by_cases hc : c ∈ s.mains
      · rw [if_pos hc]
        exact ⟨h, quiet _ _ rfl (libStep_main_asked m db s.lib c bound k) (fun p hp => hp ▸ libQuiet _ p)⟩
      · rw [if_neg hc]
        exact ⟨h, quiet _ _ rfl (List.nil_sublist _) (fun _ _ => rfl)⟩
    | handler i ev =>
      exact ⟨h, quiet _ _ rfl (libStep_handler_asked m db s.lib i ev k) (fun p hp => hp ▸ libQuiet _ p)⟩
    | status r =>
      refine ⟨h, quiet _ _ rfl ?_ (fun p hp => answers_status _ (by rw [hp]; intro h; exact nomatch h) _)⟩
      by_cases hk : k = .status
      · subst hk
        exact statusStep_asked r s.status
      · rw [answers_status k hk]
        exact List.nil_sublist _
  · rw [if_neg hr]
    exact ⟨h, by simp [answersAt]⟩

theorem sysRun_asked (e : Endian) (m : Mode) (db : Db) (k : Sock) (xs : List (SysAction F)) (s : System F)
    (h : ∀ p, OthersIdle p s.services.rpc.tasks) :
    (answersAt k (sysRun e m db s xs).1).Sublist (waitingParties s k ++ questionsAt k xs) := by
  induction xs generalizing s with
  | nil => exact List.nil_sublist _
  | cons x xs ih =>
    obtain ⟨h1, h2⟩ := sysStep_asked e m db k s x h
    have h3 := ih _ h1
    show (answersAt k ((sysStep e m db s x).1 ++ (sysRun e m db (sysStep e m db s x).2 xs).1)).Sublist _
    rw [answersAt_append, questionsAt_cons, ← List.append_assoc]
    refine (h3.append_left _).trans ?_
    rw [← List.append_assoc]
    exact h2.append_right _

/-- C100: apart from its broadcasts (C71) the process sends nothing but answers: in every history, what is
sent from a socket are answers to some of the questions that arrived at this socket, at most one for each,
in their order, and each to the party that asked (with its transaction id if it is a datagram of the RPC
services, to port 50002 of the sender if it is one of the status server). -/
theorem C100_nothing_unasked (e : Endian) (m : Mode) (db : Db) (xs : List (SysAction F)) (k : Sock) :
    (answersAt k (sysRun e m db .start xs).1).Sublist (questionsAt k xs) := by
  have := sysRun_asked e m db k xs (.start : System F) (fun _ => trivial)
  cases k <;> exact this

theorem length_of_sockets (a q : List (Sock × Party))
    (h : ∀ k, ((a.filter fun x => x.1 = k).map (·.2)).Sublist ((q.filter fun x => x.1 = k).map (·.2))) :
    a.length ≤ q.length := by
  have count : ∀ (l : List (Sock × Party)) (x : Sock × Party),
      l.count x = ((l.filter fun y => y.1 = x.1).map (·.2)).count x.2 := by
    intro l x
    induction l with
    | nil => rfl
    | cons y l ih =>
      obtain ⟨y1, y2⟩ := y
      obtain ⟨x1, x2⟩ := x
      by_cases hy : y1 = x1
      · subst hy
        simp [List.count_cons, ih]
      · simp [ih, hy]
  refine List.Subperm.length_le (List.subperm_ext_iff.2 fun x _ => ?_)
  rw [count a, count q]
  exact (h x.1).count_le x.2

theorem answers_and_broadcasts (out : List SysOut) :
    out.length = (out.filterMap answer).length + (broadcastsOf out).length := by
  induction out with
  | nil => rfl
  | cons x out ih =>
    rcases x with b | ⟨_ | p, b, a⟩ | l | ⟨b, ip, port⟩ <;>
      simp only [broadcastsOf, List.filterMap_cons, answer, List.length_cons] at ih ⊢ <;>
      first | omega | (cases l <;> simp only [List.length_cons] at ih ⊢ <;> omega)

/-- C100: so the process does not multiply traffic: it sends at most one datagram or reply for each that
arrives, at most 40 broadcasts for each player announcement heard and one for each iteration of the
broadcaster. -/
theorem C100_no_amplification (e : Endian) (m : Mode) (db : Db) (xs : List (SysAction F))
    (h : List (List Interface × Announcement)) (hh : Heard (appPart xs) h) :
    (sysRun e m db .start xs).1.length ≤
      (xs.filterMap question).length + (40 * h.length + broadcasts (appPart xs)) := by
  have h1 := length_of_sockets ((sysRun e m db .start xs).1.filterMap answer) (xs.filterMap question)
    (fun k => C100_nothing_unasked e m db xs k)
  have h2 := (C77_application_undisturbed e m db xs).2
  have h3 := C71_traffic_bounded (appPart xs) h hh
  rw [answers_and_broadcasts, h2]
  omega

/-- C99 in the whole process: after any history, what is sent from the port handed out for NFS is accounted
for by what arrives at that port afterwards, while the process runs. -/
theorem C99_in_the_process (m : Mode) (db : Db) (before : List (SysAction F))
    (hr : (sysRun .little m db .start before).2.app.running = true)
    (hp : (sysRun .little m db .start before).2.services.rpc.portmap = true) (port : UInt16)
    (hfresh : listener port (sysRun .little m db .start before).2.services.rpc.tasks = none) (h : Hdr)
    (v pt : UInt32) (peer : Addr) (os : Bytes → Addr → Bool)
    (hos : os (rfcReply h.xid (portWord port)) peer = true) (after : List (SysAction F))
    (hre : NeverRebound port after) :
    ∃ s', sysStep .little m db (sysRun .little m db .start before).2 (.portmap os (some port)
          (.datagram (callDatagram h (.pmapGetport 100003 v pt)) peer)) =
        ([.rpc (none, rfcReply h.xid (portWord port), peer)], s') ∧
      ((sysRun .little m db s' after).2.app.running = true →
        Accounted [] (portPart port after) (portOf port (sysRun .little m db s' after).1)) := by
  obtain ⟨s', h1, h2⟩ := C77_nfs_undisturbed .little m db before hr hp port hfresh h v pt peer os hos after hre
  refine ⟨s', h1, fun hrun => ?_⟩
  rw [h2 hrun]
  exact C99_accounted _

/-! ## Non-vacuity -/

/-- Two hellos, one from each of two hosts, and a chunk on a library connection: all are answered. -/
def exampleAsked : List (SysAction F) :=
  [.status (.datagram (ownHeader 0x10 1 ++ []) 7), .accept 0, .main 0 (some 4711),
    .status (.datagram (ownHeader 0x10 1 ++ []) 8)]

example (e : Endian) (m : Mode) (db : Db) :
    answersAt .status (sysRun (F := F) e m db .start exampleAsked).1 = [.host 7 50002, .host 8 50002] ∧
    answersAt (.main 0) (sysRun (F := F) e m db .start exampleAsked).1 = [.connection] := by
  have h7 := C56_hello _ 7 1 (exampleHeader 0x10 [])
  have h8 := C56_hello _ 8 1 (exampleHeader 0x10 [])
  rw [List.append_nil] at h7 h8
  constructor <;>
    simp [exampleAsked, sysRun, sysStep, System.start, AppSystem.start, Services.start, LibServer.start,
      libStep, h7, h8, answersAt, answer]

example (e : Endian) (m : Mode) (db : Db) :=
  C100_no_amplification (F := F) e m db exampleAsked [] (by simpa [exampleAsked, appPart] using Heard.nil)

example (m : Mode) (db : Db) (h : Hdr) (peer : Addr) :=
  C99_in_the_process (F := F) m db [.accept 0] rfl rfl 4711 rfl h 2 0 peer (fun _ _ => true) rfl exampleAsked
    (by simp [NeverRebound, exampleAsked])

end PDJ

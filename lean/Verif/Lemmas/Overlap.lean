import Verif.Spec.Overlap
import Verif.Props.Stall

/-!
# Steps that overlap in time: lemmas

What a step without the lock does is the same before and after the writes of somebody who has it.
-/

namespace PDJ

open Spec

variable {F : Type}

/-! ## Steps without the lock -/

theorem progStep_net (net net' : Option PioneerNetwork) (os : Bytes → Addr → Bool) (r : Recv) (b : Bool)
    (h : ∀ d peer q, r = .datagram d peer → rpcFrame d = .request q → q.call.procedure ≠ .mountExport) :
    progStep net os r b = progStep net' os r b := by
  cases b with
  | false => rfl
  | true =>
    cases r with
    | ioError => rfl
    | datagram d peer =>
      simp only [progStep]
      cases hf : rpcFrame d with
      | request q =>
        have hq := h d peer q rfl hf
        have : routeProcedure net q.call.procedure = routeProcedure net' q.call.procedure := by
          cases hp : q.call.procedure <;> first | rfl | exact absurd hp hq
        simp only [this]
      | _ => rfl

theorem deliver_net (e : Endian) (net net' : Option PioneerNetwork) (p : UInt16) (ev : NfsEvent F)
    (ts : List (UInt16 × RpcTask F))
    (h : ∀ b z, ts.find? (fun t => t.1 = p && t.2.live) = some (z, .program b) →
      ∀ d peer q, ev.recv = .datagram d peer → rpcFrame d = .request q → q.call.procedure ≠ .mountExport) :
    deliver e net p ev ts = deliver e net' p ev ts := by
  induction ts with
  | nil => rfl
  | cons t ts ih =>
    simp only [deliver]
    by_cases ht : t.1 = p ∧ t.2.live = true
    · rw [if_pos ht, if_pos ht]
      obtain ⟨z, t⟩ := t
      have hf : List.find? (fun t => t.1 = p && t.2.live) ((z, t) :: ts) = some (z, t) := by
        rw [List.find?_cons_of_pos (by simpa using ht)]
      cases t with
      | nfs t => rfl
      | program b =>
        simp only [taskStep]
        rw [progStep_net net net' _ _ _ (h b z hf)]
    · rw [if_neg ht, if_neg ht, ih]
      intro b z hf
      refine h b z ?_
      rw [List.find?_cons_of_neg (by simpa using ht)]
      exact hf

theorem port_net (e : Endian) (s : System F) (p : UInt16) (ev : NfsEvent F) (net net' : Option PioneerNetwork)
    (h : locksState s (.port p ev) = none) :
    servicesStep e s.services (.port p net ev) = servicesStep e s.services (.port p net' ev) := by
  simp only [servicesStep, rpcStep]
  rw [deliver_net e net net' p ev s.services.rpc.tasks]
  intro b z hf d peer q hr hq hp
  simp only [locksState, hf, hr, hq, hp] at h
  exact nomatch h

@[simp] theorem apply_running (s : System F) (w : Write) : (w.apply s).app.running = s.app.running := by
  cases w <;> rfl

theorem apply_needsLock (s : System F) (w : Write) (x : SysAction F) : needsLock (w.apply s) x = needsLock s x := by
  cases w <;> rfl

theorem apply_awaits (s : System F) (w : Write) (x : SysAction F) (h : awaitsEvent s x = false) :
    awaitsEvent (w.apply s) x = false := by
  cases x with
  | app y =>
    cases y with
    | appRecv =>
      cases w with
      | tell ev =>
        simp only [awaitsEvent, Write.apply, Bool.and_eq_false_iff] at h ⊢
        right
        simp
      | _ => exact h
    | _ => rfl
  | _ => rfl

/-- A step that neither needs the lock nor waits for an event does the same before and after a write of the receiver. -/
theorem apply_step (e : Endian) (m : Mode) (db : Db) (s : System F) (w : Write) (x : SysAction F)
    (hn : needsLock s x = false) (ha : awaitsEvent s x = false) (hp : x.party ≠ .receiver) :
    sysStep e m db (w.apply s) x = ((sysStep e m db s x).1, w.apply (sysStep e m db s x).2) := by
  by_cases hr : s.app.running = true
  · have hr' : (w.apply s).app.running = true := by rw [apply_running]; exact hr
    cases x with
    | app y =>
      cases y with
      | receive i d => exact absurd rfl hp
      | broadcast ok => simp [needsLock, locksFirst] at hn
      | appLink oks => simp [needsLock, SysAction.links] at hn
      | appRecv =>
        simp only [sysStep, if_pos hr, if_pos hr', appStep, List.map_nil, Prod.mk.injEq, true_and]
        have hpend : (w.apply s).app.pending = s.app.pending := by cases w <;> rfl
        rw [hpend]
        cases hpd : s.app.pending with
        | true => cases w <;> rfl
        | false =>
          simp only [awaitsEvent, hpd, Bool.not_false, Bool.true_and] at ha
          cases hq : s.app.queue with
          | nil => rw [hq] at ha; exact nomatch ha
          | cons ev q =>
            cases w <;> cases ev <;> simp [appRecvStep, hq, Write.apply]
    | port p ev =>
      have hl : locksState s (.port p ev) = none := by
        simp only [needsLock, locksFirst, SysAction.links, Bool.or_false] at hn
        cases h : locksState s (.port p ev) with
        | none => rfl
        | some y => rw [h] at hn; exact nomatch hn
      simp only [sysStep, if_pos hr, if_pos hr']
      have hs : (w.apply s).services = s.services := by cases w <;> rfl
      rw [hs, port_net e s p ev _ (knownNetwork s.app) hl]
      cases w <;> rfl
    | accept c =>
      simp only [sysStep, if_pos hr, if_pos hr']
      cases hc : s.services.accepting <;> cases w <;> simp [Write.apply, hc]
    | main c b =>
      simp only [sysStep, if_pos hr, if_pos hr']
      by_cases hc : c ∈ s.mains <;> cases w <;> simp [Write.apply, hc]
    | _ =>
      simp only [sysStep, if_pos hr, if_pos hr']
      cases w <;> rfl
  · have hr' : ¬ (w.apply s).app.running = true := by rw [apply_running]; exact hr
    simp only [sysStep, if_neg hr, if_neg hr']

/-- The state once the receiver has done its writes. -/
def settled (s : System F) (ws : List Write) : System F := ws.foldl Write.apply s

theorem settled_sysStep (e : Endian) (m : Mode) (db : Db) (ws : List Write) (s : System F) (x : SysAction F)
    (hn : needsLock s x = false) (ha : awaitsEvent s x = false) (hp : x.party ≠ .receiver) :
    sysStep e m db (settled s ws) x = ((sysStep e m db s x).1, settled (sysStep e m db s x).2 ws) := by
  induction ws generalizing s with
  | nil => rfl
  | cons w ws ih =>
    have h := ih (w.apply s) (by rw [apply_needsLock]; exact hn) (apply_awaits s w x ha)
    simp only [settled, List.foldl_cons] at h ⊢
    rw [h, apply_step e m db s w x hn ha hp]

theorem settled_running (s : System F) (ws : List Write) : (settled s ws).app.running = s.app.running := by
  induction ws generalizing s with
  | nil => rfl
  | cons w ws ih =>
    have := ih (w.apply s)
    simp only [settled, List.foldl_cons] at this ⊢
    rw [this, apply_running]

theorem settled_tells (s : System F) (evs : List AppEvent) :
    settled s (evs.map .tell) = { s with app := { s.app with queue := s.app.queue ++ evs } } := by
  induction evs generalizing s with
  | nil => simp [settled]
  | cons ev evs ih =>
    have := ih (Write.apply s (.tell ev))
    simp only [settled, List.map_cons, List.foldl_cons] at this ⊢
    rw [this]
    simp [Write.apply]

theorem handled {i : List Interface} {n : Str} {st : KaStatus} {s t : ServerState} {evs : List AppEvent}
    (h : handleKeepaliveStatus i n st s = .ok (t, evs)) : ∃ network evs', t = { s with
      address := network, players := addOrUpdate (Player.new n st.playerNumber st.ip) s.players } ∧ evs = evs' := by
  unfold handleKeepaliveStatus at h
  cases hm : matchInterface st.ip i with
  | panic => rw [hm] at h; exact nomatch h
  | ok network =>
    rw [hm] at h
    simp only [Outcome.bind, Outcome.ok.injEq, Prod.mk.injEq] at h
    exact ⟨network, _, h.1.symm, h.2.symm⟩

/-- What the receiver does with the lock is the whole step. -/
theorem settled_writes (e : Endian) (m : Mode) (db : Db) (s : System F) (i : List Interface) (d : Bytes) :
    settled { (sysStep e m db s (.app (.receive i d))).2 with
        app := { (sysStep e m db s (.app (.receive i d))).2.app with state := s.app.state, queue := s.app.queue } }
      (writesTo s.app (sysStep e m db s (.app (.receive i d))).2.app) = (sysStep e m db s (.app (.receive i d))).2 := by
  have key : ∀ (t : System F), (∃ a ps, t.app.state = { s.app.state with address := a, players := ps }) →
      (∃ evs, t.app.queue = s.app.queue ++ evs) →
      settled { t with app := { t.app with state := s.app.state, queue := s.app.queue } } (writesTo s.app t.app) = t := by
    rintro ⟨⟨st, po, qu, re, br, pe, ru⟩, sv, ma, li, stt⟩ ⟨a, ps, hst⟩ ⟨evs, hq⟩
    simp only at hst hq
    subst hst hq
    have h : writesTo s.app ⟨{ s.app.state with address := a, players := ps }, po, s.app.queue ++ evs, re, br, pe, ru⟩ =
        .address a :: .players ps :: evs.map .tell := by
      simp [writesTo]
    simp only [h]
    have := settled_tells (F := F) (Write.apply (Write.apply ⟨⟨s.app.state, po, s.app.queue, re, br, pe, ru⟩, sv, ma, li, stt⟩
      (.address a)) (.players ps)) evs
    simp only [settled, List.foldl_cons] at this ⊢
    rw [this]
    rfl
  refine key _ ?_ ?_
  all_goals
    by_cases hr : s.app.running = true
    · simp only [sysStep, if_pos hr, appStep]
      split
      · unfold receiveStep
        split
        · first | exact ⟨_, _, rfl⟩ | exact ⟨[], (List.append_nil _).symm⟩
        · first | exact ⟨_, _, rfl⟩ | exact ⟨[], (List.append_nil _).symm⟩
        · split
          · first | exact ⟨_, _, rfl⟩ | exact ⟨[], (List.append_nil _).symm⟩
          · split
            · first | exact ⟨_, _, rfl⟩ | exact ⟨[], (List.append_nil _).symm⟩
            · split
              · first | exact ⟨_, _, rfl⟩ | exact ⟨[], (List.append_nil _).symm⟩
              · rename_i hk
                obtain ⟨network, evs, rfl, rfl⟩ := handled hk
                first | exact ⟨_, _, rfl⟩ | exact ⟨_, rfl⟩
      · first | exact ⟨_, _, rfl⟩ | exact ⟨[], (List.append_nil _).symm⟩
    · simp only [sysStep, if_neg hr]
      first | exact ⟨_, _, rfl⟩ | exact ⟨[], (List.append_nil _).symm⟩

/-! ## Whose step it is -/

theorem unlocked_app (e : Endian) (m : Mode) (db : Db) (s : System F) (x : SysAction F) (hn : needsLock s x = false)
    (hp : x.party ≠ .main) : ∃ b, (sysStep e m db s x).2.app = { s.app with receiver := b } := by
  by_cases hr : s.app.running = true
  · cases x with
    | app y =>
      cases y with
      | receive i d =>
        simp only [needsLock, locksFirst, threadLocks, SysAction.links, Bool.or_false] at hn
        simp only [sysStep, if_pos hr, appStep]
        split
        · unfold receiveStep
          cases hk : kaReceive d with
          | panic => exact ⟨false, rfl⟩
          | ok o =>
            cases o with
            | none => exact ⟨s.app.receiver, rfl⟩
            | some p =>
              simp only [hk, Option.isSome_eq_false_iff, Option.isNone_iff_eq_none] at hn
              simp only [hn]
              exact ⟨s.app.receiver, rfl⟩
        · exact ⟨s.app.receiver, rfl⟩
      | broadcast ok => simp [needsLock, locksFirst] at hn
      | appLink oks => simp [needsLock, SysAction.links] at hn
      | appRecv => exact absurd rfl hp
    | accept c =>
      simp only [sysStep, if_pos hr]
      split <;> exact ⟨s.app.receiver, rfl⟩
    | main c b =>
      simp only [sysStep, if_pos hr]
      split <;> exact ⟨s.app.receiver, rfl⟩
    | _ =>
      simp only [sysStep, if_pos hr]
      exact ⟨s.app.receiver, rfl⟩
  · simp only [sysStep, if_neg hr]
    exact ⟨s.app.receiver, rfl⟩

theorem link_same (e : Endian) (m : Mode) (db : Db) (s t : System F) (x : SysAction F) (hx : x.links = true) (b : Bool)
    (h : t.app = { s.app with receiver := b }) : (sysStep e m db t x).1 = (sysStep e m db s x).1 := by
  cases x with
  | app y =>
    cases y with
    | appLink oks =>
      simp only [sysStep, h, appStep]
      by_cases hr : s.app.running = true
      · simp only [if_pos hr]
        by_cases hp : s.app.pending = true
        · simp only [if_pos hp, appLinkStep]
          cases s.app.poisoned with
          | true => rfl
          | false =>
            cases s.app.state.address <;> rfl
        · simp only [if_neg hp]
      · simp only [if_neg hr]
    | _ => exact nomatch hx
  | _ => exact nomatch hx

theorem sysRun_snoc (e : Endian) (m : Mode) (db : Db) (s : System F) (xs : List (SysAction F)) (x : SysAction F) :
    (sysRun e m db s (xs ++ [x])).2 = (sysStep e m db (sysRun e m db s xs).2 x).2 := by
  induction xs generalizing s with
  | nil => rfl
  | cons y xs ih => exact ih _

theorem sentBy_snoc (e : Endian) (m : Mode) (db : Db) (p : Party) (s : System F) (xs : List (SysAction F))
    (x : SysAction F) : sentBy e m db p s (xs ++ [x]) = sentBy e m db p s xs ++
      if isOf p x then (sysStep e m db (sysRun e m db s xs).2 x).1 else [] := by
  induction xs generalizing s with
  | nil => simp [sentBy, sysRun]
  | cons y xs ih =>
    simp only [List.cons_append, sentBy, ih, List.append_assoc, sysRun]

theorem isOf_self (x : SysAction F) : isOf x.party x = true := (isOf_party _ _).2 rfl

theorem sentBy_own (e : Endian) (m : Mode) (db : Db) (s : System F) (xs : List (SysAction F)) (x : SysAction F)
    (p : Party) (hp : x.party = p) : sentBy e m db p s (xs ++ [x]) =
      sentBy e m db p s xs ++ (sysStep e m db (sysRun e m db s xs).2 x).1 := by
  rw [sentBy_snoc, if_pos ((isOf_party _ _).2 hp)]

theorem sentBy_other (e : Endian) (m : Mode) (db : Db) (s : System F) (xs : List (SysAction F)) (x : SysAction F)
    (p : Party) (hp : x.party ≠ p) : sentBy e m db p s (xs ++ [x]) = sentBy e m db p s xs := by
  rw [sentBy_snoc, if_neg (fun h => hp ((isOf_party _ _).1 h)), List.append_nil]

theorem stepsOf_own (xs : List (SysAction F)) (x : SysAction F) (p : Party) (hp : x.party = p) :
    stepsOf p (xs ++ [x]) = stepsOf p xs ++ [x] := by
  simp [stepsOf, (isOf_party p x).2 hp]

theorem stepsOf_other (xs : List (SysAction F)) (x : SysAction F) (p : Party) (hp : x.party ≠ p) :
    stepsOf p (xs ++ [x]) = stepsOf p xs := by
  have : isOf p x = false := by
    cases h : isOf p x with
    | false => rfl
    | true => exact absurd ((isOf_party _ _).1 h) hp
  simp [stepsOf, this]

theorem sentOf_own (p : Party) (o : List (Party × SysOut)) (l : List SysOut) :
    sentOf p (o ++ l.map fun x => (p, x)) = sentOf p o ++ l := by
  simp [sentOf, List.filterMap_append, List.filterMap_map]

theorem sentOf_other (p q : Party) (h : p ≠ q) (o : List (Party × SysOut)) (l : List SysOut) :
    sentOf q (o ++ l.map fun x => (p, x)) = sentOf q o := by
  simp [sentOf, List.filterMap_append, List.filterMap_map, h]

/-! ## The order in which the steps have their effect -/

/-- The state once the receiver has done the writes it is at. -/
def Overlap.whole (s : Overlap F) : System F :=
  match s.doing .receiver with
  | .updating ws => settled s.sys ws
  | _ => s.sys

/-- The step that has its effect with an action. -/
def effectOf (s : Overlap F) : OverlapAction F → List (SysAction F)
  | .take _ => []
  | .go p =>
    match s.doing p with
    | .taken x => if x.links then [] else [x]
    | .linking x [] => [x]
    | _ => []

/-- How a party stands: what it has sent and what it has to send are what it sends in whole steps. -/
def PartyOk (e : Endian) (m : Mode) (db : Db) (lin : List (SysAction F)) (o : List (Party × SysOut))
    (begun : List (SysAction F)) (s : Overlap F) (p : Party) : Prop :=
  match s.doing p with
  | .idle => sentOf p o = sentBy e m db p .start lin ∧ stepsOf p lin = stepsOf p begun
  | .taken x => x.party = p ∧ sentOf p o = sentBy e m db p .start lin ∧ stepsOf p lin ++ [x] = stepsOf p begun
  | .updating _ => p = .receiver ∧ s.lock = some p ∧ sentOf p o = sentBy e m db p .start lin ∧
      stepsOf p lin = stepsOf p begun
  | .linking x rest => x.party = p ∧ x.links = true ∧ s.lock = some p ∧
      sentOf p o ++ rest = sentBy e m db p .start lin ++ (sysStep e m db s.sys x).1 ∧
      stepsOf p lin ++ [x] = stepsOf p begun
  | .holding outs => s.lock = some p ∧ sentOf p o ++ outs = sentBy e m db p .start lin ∧ stepsOf p lin = stepsOf p begun
  | .reading outs => s.lock = some p ∧ sentOf p o ++ outs = sentBy e m db p .start lin ∧ stepsOf p lin = stepsOf p begun
  | .sending outs => sentOf p o ++ outs = sentBy e m db p .start lin ∧ stepsOf p lin = stepsOf p begun

/-- The steps that have had their effect account for the state and for everybody. -/
structure Lined (e : Endian) (m : Mode) (db : Db) (lin : List (SysAction F)) (o : List (Party × SysOut))
    (begun : List (SysAction F)) (s : Overlap F) : Prop where
  run : (sysRun e m db .start lin).2 = s.whole
  ok : ∀ p, PartyOk e m db lin o begun s p

theorem links_main {x : SysAction F} (h : x.links = true) : x.party = .main := by
  cases x with
  | app y => cases y <;> first | rfl | exact nomatch h
  | _ => exact nomatch h

/-- Parties that do nothing stand as before. -/
theorem PartyOk.other {e : Endian} {m : Mode} {db : Db} {lin lin' : List (SysAction F)} {o o' : List (Party × SysOut)}
    {begun begun' : List (SysAction F)} {s s' : Overlap F} {q : Party} (h : PartyOk e m db lin o begun s q)
    (hd : s'.doing q = s.doing q) (ho : sentOf q o' = sentOf q o)
    (hl : sentBy e m db q .start lin' = sentBy e m db q .start lin) (hs : stepsOf q lin' = stepsOf q lin)
    (hb : stepsOf q begun' = stepsOf q begun) (hk : s.lock = some q → s'.lock = some q)
    (hx : s.lock = some .main → q = .main → ∃ b, s'.sys.app = { s.sys.app with receiver := b }) :
    PartyOk e m db lin' o' begun' s' q := by
  unfold PartyOk at h ⊢
  rw [hd]
  cases hq : s.doing q with
  | linking x rest =>
    simp only [hq] at h ⊢
    obtain ⟨h1, h2, h3, h4, h5⟩ := h
    obtain rfl : q = .main := h1 ▸ links_main h2
    obtain ⟨b, hb'⟩ := hx h3 rfl
    rw [ho, hl, hs, hb, link_same e m db s.sys s'.sys x h2 b hb']
    exact ⟨h1, h2, hk h3, h4, h5⟩
  | _ =>
    simp only [hq] at h ⊢
    rw [ho, hl, hs, hb]
    first
      | exact h
      | exact ⟨hk h.1, h.2⟩
      | exact ⟨h.1, hk h.2.1, h.2.2⟩

theorem now_doing (s : Overlap F) (p q : Party) (st : Stage F) :
    (s.now p st).doing q = if q = p then st else s.doing q := rfl

theorem now_own (s : Overlap F) (p : Party) (st : Stage F) : (s.now p st).doing p = st := if_pos rfl

theorem now_other (s : Overlap F) {p q : Party} (h : q ≠ p) (st : Stage F) : (s.now p st).doing q = s.doing q :=
  if_neg h

/-- Who has the lock is the only one at a stage that needs it. -/
theorem Lined.not_updating {e : Endian} {m : Mode} {db : Db} {lin : List (SysAction F)} {o : List (Party × SysOut)}
    {begun : List (SysAction F)} {s : Overlap F} (h : Lined e m db lin o begun s) (hl : s.lock ≠ some .receiver)
    (ws : List Write) : s.doing .receiver ≠ .updating ws := by
  intro hd
  have := h.ok .receiver
  simp only [PartyOk, hd] at this
  exact hl this.2.1

theorem Overlap.whole_of {s : Overlap F} (h : ∀ ws, s.doing .receiver ≠ .updating ws) : s.whole = s.sys := by
  unfold Overlap.whole
  cases hd : s.doing .receiver with
  | updating ws => exact absurd hd (h ws)
  | _ => rfl

/-! ## Every action keeps the account -/

theorem begunSteps_append (h h' : List (OverlapAction F)) : begunSteps (h ++ h') = begunSteps h ++ begunSteps h' := by
  induction h with
  | nil => rfl
  | cons x h ih => cases x <;> simp [begunSteps, ih]

section
variable {e : Endian} {m : Mode} {db : Db} {lin : List (SysAction F)} {o : List (Party × SysOut)}
  {begun : List (SysAction F)} {s : Overlap F}

theorem Lined.take (h : Lined e m db lin o begun s) (x : SysAction F) (hi : s.doing x.party = .idle) :
    Lined e m db lin o (begun ++ [x]) (s.now x.party (.taken x)) := by
  refine ⟨?_, fun q => ?_⟩
  · rw [h.run]
    unfold Overlap.whole
    rw [now_doing]
    by_cases hq : Party.receiver = x.party
    · rw [if_pos hq, hq, hi]
      rfl
    · rw [if_neg hq]
      rfl
  · by_cases hq : q = x.party
    · subst hq
      have := h.ok x.party
      simp only [PartyOk, hi] at this
      simp only [PartyOk, now_own]
      refine ⟨trivial, this.1, ?_⟩
      rw [stepsOf_own _ _ _ rfl, this.2]
    · refine (h.ok q).other (now_other s hq _) rfl rfl rfl (stepsOf_other _ _ _ (Ne.symm hq)) (fun h => h) ?_
      intro _ _
      exact ⟨s.sys.app.receiver, rfl⟩

/-- A party goes on without a step having its effect and without the shared state being changed. -/
theorem Lined.quiet (h : Lined e m db lin o begun s) (p : Party) (outs : List SysOut) (lk : Option Party)
    (st : Stage F) (hk : ∀ q, q ≠ p → s.lock = some q → lk = some q)
    (hu : ∀ ws, s.doing p ≠ .updating ws ∨ ws = []) (hu' : ∀ ws, st ≠ .updating ws)
    (hp : PartyOk e m db lin (o ++ outs.map fun x => (p, x)) begun ({ s with lock := lk }.now p st) p) :
    Lined e m db lin (o ++ outs.map fun x => (p, x)) begun ({ s with lock := lk }.now p st) := by
  refine ⟨?_, fun q => ?_⟩
  · rw [h.run]
    unfold Overlap.whole
    rw [now_doing]
    by_cases hq : Party.receiver = p
    · subst hq
      rw [if_pos rfl]
      cases hd : s.doing .receiver with
      | updating ws =>
        rcases hu ws with hw | hw
        · exact absurd hd hw
        · subst hw
          cases st with
          | updating ws => exact absurd rfl (hu' ws)
          | _ => rfl
      | _ =>
        cases st with
        | updating ws => exact absurd rfl (hu' ws)
        | _ => rfl
    · rw [if_neg hq]
      rfl
  · by_cases hq : q = p
    · subst hq
      exact hp
    · refine (h.ok q).other (now_other _ hq _) (sentOf_other _ _ (Ne.symm hq) _ _) rfl rfl rfl (hk q hq) ?_
      intro _ _
      exact ⟨s.sys.app.receiver, rfl⟩

/-- A step has its effect at once. -/
theorem Lined.effect (h : Lined e m db lin o begun s) (x : SysAction F) (lk : Option Party) (st : Stage F)
    (hk : ∀ q, q ≠ x.party → s.lock = some q → lk = some q)
    (hu : (∀ ws, s.doing .receiver ≠ .updating ws) ∨
      (x.party ≠ .receiver ∧ needsLock s.sys x = false ∧ awaitsEvent s.sys x = false))
    (hu' : ∀ ws, st ≠ .updating ws)
    (hm : x.party ≠ .main → s.lock = some .main → needsLock s.sys x = false)
    (hp : PartyOk e m db (lin ++ [x]) o begun
      ({ s with sys := (sysStep e m db s.sys x).2, lock := lk }.now x.party st) x.party) :
    Lined e m db (lin ++ [x]) o begun ({ s with sys := (sysStep e m db s.sys x).2, lock := lk }.now x.party st) := by
  refine ⟨?_, fun q => ?_⟩
  · rw [sysRun_snoc, h.run]
    rcases hu with hu | ⟨h1, h2, h3⟩
    · rw [Overlap.whole_of hu, Overlap.whole_of]
      · rfl
      · intro ws
        rw [now_doing]
        split
        · exact hu' ws
        · exact hu ws
    · unfold Overlap.whole
      rw [now_other _ (Ne.symm h1)]
      cases hd : s.doing .receiver with
      | updating ws =>
        simp only
        rw [settled_sysStep e m db ws s.sys x h2 h3 h1]
        rfl
      | _ =>
        simp only
        rfl
  · by_cases hq : q = x.party
    · subst hq
      exact hp
    · refine (h.ok q).other (now_other _ hq _) rfl (sentBy_other _ _ _ _ _ _ _ (Ne.symm hq))
        (stepsOf_other _ _ _ (Ne.symm hq)) rfl (hk q hq) ?_
      intro hl hqm
      subst hqm
      exact unlocked_app e m db s.sys x (hm (Ne.symm hq) hl) (Ne.symm hq)
theorem snd_only {p : Party} {o : List (Party × SysOut)} : o ++ ([] : List SysOut).map (fun x => (p, x)) = o := by simp

theorem receive_silent (e : Endian) (m : Mode) (db : Db) (s : System F) (i : List Interface) (d : Bytes) :
    (sysStep e m db s (.app (.receive i d))).1 = [] := by
  simp only [sysStep, appStep]
  split
  · split <;> rfl
  · rfl

/-- Going on keeps the account, with the step that has its effect, if any. -/
theorem Lined.go (h : Lined e m db lin o begun s) (p : Party) {outs : List SysOut} {s' : Overlap F}
    (hg : goOn e m db s p = some (outs, s')) :
    Lined e m db (lin ++ effectOf s (.go p)) (o ++ outs.map fun x => (p, x)) begun s' := by
  have hok := h.ok p
  unfold goOn at hg
  unfold PartyOk at hok
  unfold effectOf
  cases hd : s.doing p with
  | idle => simp only [hd] at hg; exact nomatch hg
  | taken x =>
    simp only [hd] at hg hok ⊢
    obtain ⟨hx, hs, hb⟩ := hok
    subst hx
    by_cases hn : needsLock s.sys x = true
    · rw [if_pos hn] at hg
      by_cases hl : s.lock = none
      · rw [if_pos hl] at hg
        simp only [Option.some.injEq, Prod.mk.injEq] at hg
        obtain ⟨rfl, rfl⟩ := hg
        have hnu := h.not_updating (by rw [hl]; simp)
        rw [snd_only]
        have hvac : ∀ q, q ≠ x.party → s.lock = some q → some x.party = some q := by
          intro q _ hq; rw [hl] at hq; exact nomatch hq
        have hvac' : x.party ≠ .main → s.lock = some .main → needsLock s.sys x = false := by
          intro _ hq; rw [hl] at hq; exact nomatch hq
        have hrun : (sysRun e m db .start lin).2 = s.sys := by rw [h.run, Overlap.whole_of hnu]
        have gen : ∀ st : Stage F, (∀ ws, st ≠ .updating ws) →
            (st = .holding (sysStep e m db s.sys x).1 ∨ st = .reading (sysStep e m db s.sys x).1) →
            Lined e m db (lin ++ [x]) o begun
              ({ s with sys := (sysStep e m db s.sys x).2, lock := some x.party }.now x.party st) := by
          intro st hst hor
          refine h.effect x (some x.party) st hvac (.inl hnu) hst hvac' ?_
          unfold PartyOk
          rw [now_own]
          rcases hor with rfl | rfl
          all_goals
            simp only
            rw [sentBy_own _ _ _ _ _ _ _ rfl, stepsOf_own _ _ _ rfl, hrun, hs]
            exact ⟨rfl, rfl, hb⟩
        cases x with
        | app y =>
          cases y with
          | receive i d =>
            rw [if_neg (by simp [SysAction.links])]
            refine ⟨?_, fun q => ?_⟩
            · rw [sysRun_snoc, hrun]
              exact (settled_writes e m db s.sys i d).symm
            · by_cases hq : q = .receiver
              · subst hq
                unfold PartyOk
                rw [show (enter e m db s (SysAction.app (.receive i d) : SysAction F).party
                  (.app (.receive i d))).doing .receiver = .updating (writesTo s.sys.app
                    (sysStep e m db s.sys (.app (.receive i d))).2.app) from rfl]
                simp only
                rw [sentBy_own _ _ _ _ _ _ .receiver rfl, stepsOf_own _ _ .receiver rfl, hrun, receive_silent,
                  List.append_nil]
                exact ⟨trivial, rfl, hs, hb⟩
              · refine (h.ok q).other (if_neg hq) rfl (sentBy_other _ _ _ _ _ _ _ (Ne.symm hq))
                  (stepsOf_other _ _ _ (Ne.symm hq)) rfl (hvac q hq) ?_
                intro hq
                rw [hl] at hq
                exact nomatch hq
          | appLink oks =>
            rw [if_pos (by rfl), List.append_nil]
            have := h.quiet .main [] (some .main)
              (.linking (.app (.appLink oks)) (sysStep e m db s.sys (.app (.appLink oks))).1) hvac ?_ ?_ ?_
            · rw [snd_only] at this
              exact this
            · intro ws
              left
              intro hc
              rw [show s.doing .main = _ from hd] at hc
              exact nomatch hc
            · intro ws hc
              exact nomatch hc
            · unfold PartyOk
              rw [now_own, snd_only]
              exact ⟨rfl, rfl, rfl, by rw [show sentOf .main o = _ from hs]; rfl, hb⟩
          | broadcast ok =>
            rw [if_neg (by simp [SysAction.links])]
            exact gen (.holding _) (fun ws hc => nomatch hc) (.inl rfl)
          | appRecv => exact nomatch hn
        | _ =>
          rw [if_neg (by simp [SysAction.links])]
          exact gen (.reading _) (fun ws hc => nomatch hc) (.inr rfl)
      · rw [if_neg hl] at hg
        exact nomatch hg
    · rw [if_neg hn] at hg
      have hn : needsLock s.sys x = false := by simpa using hn
      by_cases ha : awaitsEvent s.sys x = true
      · rw [if_pos ha] at hg
        exact nomatch hg
      · rw [if_neg ha] at hg
        have ha : awaitsEvent s.sys x = false := by simpa using ha
        simp only [Option.some.injEq, Prod.mk.injEq] at hg
        obtain ⟨rfl, rfl⟩ := hg
        have hnl : x.links = false := by
          simp only [needsLock, Bool.or_eq_false_iff] at hn
          exact hn.2
        rw [if_neg (by simp [hnl]), snd_only]
        have hu : (∀ ws, s.doing .receiver ≠ .updating ws) ∨
            (x.party ≠ .receiver ∧ needsLock s.sys x = false ∧ awaitsEvent s.sys x = false) := by
          by_cases hr : x.party = .receiver
          · left
            intro ws hc
            rw [← hr, hd] at hc
            exact nomatch hc
          · exact .inr ⟨hr, hn, ha⟩
        refine h.effect x s.lock _ (fun _ _ h => h) hu (fun ws hc => nomatch hc) (fun _ _ => hn) ?_
        unfold PartyOk
        rw [now_own]
        simp only
        rw [sentBy_own _ _ _ _ _ _ _ rfl, stepsOf_own _ _ _ rfl, hs]
        refine ⟨?_, hb⟩
        congr 1
        rw [h.run]
        unfold Overlap.whole
        cases hdr : s.doing .receiver with
        | updating ws =>
          rcases hu with hu | hu
          · exact absurd hdr (hu ws)
          · simp only
            rw [settled_sysStep e m db ws s.sys x hn ha hu.1]
        | _ => rfl
  | updating ws =>
    simp only [hd] at hg hok ⊢
    obtain ⟨rfl, hl, hs, hb⟩ := hok
    cases ws with
    | nil =>
      simp only [Option.some.injEq, Prod.mk.injEq] at hg
      obtain ⟨rfl, rfl⟩ := hg
      rw [List.append_nil]
      refine h.quiet .receiver [] none (.sending []) ?_ ?_ (fun ws hc => nomatch hc) ?_
      · intro q hq hq'
        rw [hl] at hq'
        exact absurd (Option.some.inj hq').symm hq
      · intro ws
        by_cases hw : ws = []
        · exact .inr hw
        · left
          intro hc
          rw [hd] at hc
          exact hw (Stage.updating.inj hc).symm
      · unfold PartyOk
        rw [now_own, snd_only]
        simp only [List.append_nil]
        exact ⟨hs, hb⟩
    | cons w ws =>
      simp only [Option.some.injEq, Prod.mk.injEq] at hg
      obtain ⟨rfl, rfl⟩ := hg
      rw [List.append_nil, snd_only]
      refine ⟨?_, fun q => ?_⟩
      · rw [h.run]
        unfold Overlap.whole
        rw [now_own, hd]
        rfl
      · by_cases hq : q = .receiver
        · subst hq
          unfold PartyOk
          rw [now_own]
          exact ⟨rfl, hl, hs, hb⟩
        · refine (h.ok q).other (now_other _ hq _) rfl rfl rfl rfl (fun h => h) ?_
          intro hc
          rw [hl] at hc
          exact nomatch hc
  | linking x rest =>
    simp only [hd] at hg hok ⊢
    obtain ⟨hx, hlk, hl, hs, hb⟩ := hok
    subst hx
    have hnu' : ∀ ws, s.doing x.party ≠ .updating ws := by
      intro ws hc
      rw [hd] at hc
      exact nomatch hc
    cases rest with
    | nil =>
      simp only [Option.some.injEq, Prod.mk.injEq] at hg
      obtain ⟨rfl, rfl⟩ := hg
      have hm : x.party = .main := links_main hlk
      have hnu := h.not_updating (by rw [hl, hm]; simp)
      rw [snd_only]
      refine h.effect x none (.sending []) ?_ (.inl hnu) (fun ws hc => nomatch hc) (fun hc => absurd hm hc) ?_
      · intro q hq hq'
        rw [hl] at hq'
        exact absurd (Option.some.inj hq').symm hq
      · unfold PartyOk
        rw [now_own]
        simp only
        rw [sentBy_own _ _ _ _ _ _ _ rfl, stepsOf_own _ _ _ rfl, h.run, Overlap.whole_of hnu, ← hs]
        exact ⟨rfl, hb⟩
    | cons y ys =>
      simp only [Option.some.injEq, Prod.mk.injEq] at hg
      obtain ⟨rfl, rfl⟩ := hg
      rw [List.append_nil]
      refine h.quiet x.party [y] s.lock (.linking x ys) (fun _ _ h => h) (fun ws => .inl (hnu' ws))
        (fun ws hc => nomatch hc) ?_
      unfold PartyOk
      rw [now_own, sentOf_own]
      simp only [List.append_assoc, List.cons_append, List.nil_append]
      exact ⟨trivial, hlk, hl, hs, hb⟩
  | holding os =>
    simp only [hd] at hg hok ⊢
    obtain ⟨hl, hs, hb⟩ := hok
    have hnu' : ∀ ws, s.doing p ≠ .updating ws := by
      intro ws hc
      rw [hd] at hc
      exact nomatch hc
    rw [List.append_nil]
    cases os with
    | nil =>
      simp only [Option.some.injEq, Prod.mk.injEq] at hg
      obtain ⟨rfl, rfl⟩ := hg
      refine h.quiet p [] none (.sending []) ?_ (fun ws => .inl (hnu' ws)) (fun ws hc => nomatch hc) ?_
      · intro q hq hq'
        rw [hl] at hq'
        exact absurd (Option.some.inj hq').symm hq
      · unfold PartyOk
        rw [now_own, snd_only]
        exact ⟨hs, hb⟩
    | cons y ys =>
      simp only [Option.some.injEq, Prod.mk.injEq] at hg
      obtain ⟨rfl, rfl⟩ := hg
      refine h.quiet p [y] s.lock (.holding ys) (fun _ _ h => h) (fun ws => .inl (hnu' ws))
        (fun ws hc => nomatch hc) ?_
      unfold PartyOk
      rw [now_own, sentOf_own]
      simp only [List.append_assoc, List.cons_append, List.nil_append]
      exact ⟨hl, hs, hb⟩
  | reading os =>
    simp only [hd] at hg hok ⊢
    obtain ⟨hl, hs, hb⟩ := hok
    simp only [Option.some.injEq, Prod.mk.injEq] at hg
    obtain ⟨rfl, rfl⟩ := hg
    rw [List.append_nil]
    refine h.quiet p [] none (.sending os) ?_ ?_ (fun ws hc => nomatch hc) ?_
    · intro q hq hq'
      rw [hl] at hq'
      exact absurd (Option.some.inj hq').symm hq
    · intro ws
      left
      intro hc
      rw [hd] at hc
      exact nomatch hc
    · unfold PartyOk
      rw [now_own, snd_only]
      exact ⟨hs, hb⟩
  | sending os =>
    simp only [hd] at hg hok ⊢
    obtain ⟨hs, hb⟩ := hok
    have hnu' : ∀ ws, s.doing p ≠ .updating ws := by
      intro ws hc
      rw [hd] at hc
      exact nomatch hc
    rw [List.append_nil]
    cases os with
    | nil =>
      simp only [Option.some.injEq, Prod.mk.injEq] at hg
      obtain ⟨rfl, rfl⟩ := hg
      refine h.quiet p [] s.lock .idle (fun _ _ h => h) (fun ws => .inl (hnu' ws)) (fun ws hc => nomatch hc) ?_
      unfold PartyOk
      rw [now_own, snd_only]
      exact ⟨by simpa using hs, hb⟩
    | cons y ys =>
      simp only [Option.some.injEq, Prod.mk.injEq] at hg
      obtain ⟨rfl, rfl⟩ := hg
      refine h.quiet p [y] s.lock (.sending ys) (fun _ _ h => h) (fun ws => .inl (hnu' ws))
        (fun ws hc => nomatch hc) ?_
      unfold PartyOk
      rw [now_own, sentOf_own]
      simp only [List.append_assoc, List.cons_append, List.nil_append]
      exact ⟨hs, hb⟩
end

/-! ## Who has the lock -/

/-- The stages at which a party has the lock. -/
def Stage.locked : Stage F → Bool
  | .updating _ => true
  | .linking _ _ => true
  | .holding _ => true
  | .reading _ => true
  | _ => false

/-- Who has the lock is at a stage with it. -/
def Overlap.Held (s : Overlap F) : Prop := ∀ p, s.lock = some p → (s.doing p).locked = true

theorem enter_lock (e : Endian) (m : Mode) (db : Db) (s : Overlap F) (p : Party) (x : SysAction F) :
    (enter e m db s p x).lock = some p ∧ ((enter e m db s p x).doing p).locked = true ∧
      ∀ q, q ≠ p → (enter e m db s p x).doing q = s.doing q := by
  cases x with
  | app y =>
    cases y <;> refine ⟨rfl, ?_, fun q hq => if_neg hq⟩ <;> simp [enter, Overlap.now, Stage.locked]
  | _ =>
    refine ⟨rfl, ?_, fun q hq => if_neg hq⟩
    simp [enter, Overlap.now, Stage.locked]

theorem Overlap.Held.now_of {s : Overlap F} (h : s.Held) (p : Party) (st : Stage F)
    (hs : s.lock = some p → st.locked = true) : (s.now p st).Held := by
  intro q hq
  by_cases hqp : q = p
  · subst hqp
    rw [now_own]
    exact hs hq
  · rw [now_other s hqp]
    exact h q hq

theorem held_free (s : Overlap F) (h : s.lock = none) : s.Held := by
  intro p hp
  rw [h] at hp
  exact nomatch hp

theorem Overlap.Held.sys {s : Overlap F} (h : s.Held) (t : System F) : ({ s with sys := t } : Overlap F).Held := h

theorem Overlap.Held.go {e : Endian} {m : Mode} {db : Db} {s s' : Overlap F} (h : s.Held) (p : Party)
    {outs : List SysOut} (hg : goOn e m db s p = some (outs, s')) : s'.Held := by
  have hfree : ∀ (t : Overlap F) (st : Stage F), t.lock = none → (t.now p st).Held := fun t st ht =>
    (held_free t ht).now_of p st (by rw [ht]; exact nofun)
  have hcase : ∀ st : Stage F, s.doing p = st → st.locked = false → s.lock ≠ some p := by
    intro st hst hl hp
    have := h p hp
    rw [hst, hl] at this
    exact nomatch this
  unfold goOn at hg
  cases hd : s.doing p with
  | idle => simp only [hd] at hg; exact nomatch hg
  | taken x =>
    simp only [hd] at hg
    split at hg
    · split at hg
      · simp only [Option.some.injEq, Prod.mk.injEq] at hg
        obtain ⟨_, rfl⟩ := hg
        obtain ⟨h1, h2, _⟩ := enter_lock e m db s p x
        intro q hq
        rw [h1] at hq
        cases hq
        exact h2
      · exact nomatch hg
    · split at hg
      · exact nomatch hg
      · simp only [Option.some.injEq, Prod.mk.injEq] at hg
        obtain ⟨_, rfl⟩ := hg
        exact (h.sys _).now_of p _ fun hp => absurd hp (hcase _ hd rfl)
  | updating ws =>
    cases ws <;> simp only [hd, Option.some.injEq, Prod.mk.injEq] at hg <;> obtain ⟨_, rfl⟩ := hg
    · exact hfree _ _ rfl
    · exact (h.sys _).now_of p _ fun _ => rfl
  | linking x os =>
    cases os <;> simp only [hd, Option.some.injEq, Prod.mk.injEq] at hg <;> obtain ⟨_, rfl⟩ := hg
    · exact hfree _ _ rfl
    · exact h.now_of p _ fun _ => rfl
  | holding os =>
    cases os <;> simp only [hd, Option.some.injEq, Prod.mk.injEq] at hg <;> obtain ⟨_, rfl⟩ := hg
    · exact hfree _ _ rfl
    · exact h.now_of p _ fun _ => rfl
  | reading os =>
    simp only [hd, Option.some.injEq, Prod.mk.injEq] at hg
    obtain ⟨_, rfl⟩ := hg
    exact hfree _ _ rfl
  | sending os =>
    cases os <;> simp only [hd, Option.some.injEq, Prod.mk.injEq] at hg <;> obtain ⟨_, rfl⟩ := hg
    · exact h.now_of p _ fun hp => absurd hp (hcase _ hd rfl)
    · exact h.now_of p _ fun hp => absurd hp (hcase _ hd rfl)

theorem Overlap.Held.step {e : Endian} {m : Mode} {db : Db} {s s' : Overlap F} (h : s.Held) {a : OverlapAction F}
    {o : List (Party × SysOut)} (hg : overlapStep e m db s a = some (o, s')) : s'.Held := by
  cases a with
  | take x =>
    simp only [overlapStep] at hg
    split at hg
    · cases hd : s.doing x.party <;> simp only [hd] at hg <;> try (cases hg; done)
      simp only [Option.some.injEq, Prod.mk.injEq] at hg
      obtain ⟨_, rfl⟩ := hg
      refine h.now_of _ _ fun hp => ?_
      have := h _ hp
      rw [hd] at this
      exact nomatch this
    · exact nomatch hg
  | go p =>
    simp only [overlapStep] at hg
    split at hg
    · cases hr : goOn e m db s p with
      | none => rw [hr] at hg; exact nomatch hg
      | some r =>
        rw [hr] at hg
        simp only [Option.map_some, Option.some.injEq, Prod.mk.injEq] at hg
        obtain ⟨_, rfl⟩ := hg
        exact h.go p (outs := r.1) hr
    · exact nomatch hg

theorem Lined.step {e : Endian} {m : Mode} {db : Db} {lin : List (SysAction F)} {o : List (Party × SysOut)}
    {begun : List (SysAction F)} {s s' : Overlap F} (h : Lined e m db lin o begun s) {a : OverlapAction F}
    {o' : List (Party × SysOut)} (hg : overlapStep e m db s a = some (o', s')) :
    Lined e m db (lin ++ effectOf s a) (o ++ o') (begun ++ begunSteps [a]) s' := by
  cases a with
  | take x =>
    simp only [overlapStep] at hg
    split at hg
    · cases hd : s.doing x.party <;> simp only [hd] at hg <;> try (cases hg; done)
      simp only [Option.some.injEq, Prod.mk.injEq] at hg
      obtain ⟨rfl, rfl⟩ := hg
      simp only [effectOf, List.append_nil, begunSteps]
      exact h.take x hd
    · exact nomatch hg
  | go p =>
    simp only [overlapStep] at hg
    split at hg
    · cases hr : goOn e m db s p with
      | none => rw [hr] at hg; exact nomatch hg
      | some r =>
        rw [hr] at hg
        simp only [Option.map_some, Option.some.injEq, Prod.mk.injEq] at hg
        obtain ⟨rfl, rfl⟩ := hg
        simp only [begunSteps, List.append_nil]
        exact h.go p (outs := r.1) hr
    · exact nomatch hg

/-- The steps in the order in which they have their effect in a history. -/
def effects (e : Endian) (m : Mode) (db : Db) : Overlap F → List (OverlapAction F) → List (SysAction F)
  | _, [] => []
  | s, a :: h =>
    match overlapStep e m db s a with
    | none => []
    | some (_, s') => effectOf s a ++ effects e m db s' h

theorem effects_prefix (e : Endian) (m : Mode) (db : Db) (s : Overlap F) (h h' : List (OverlapAction F)) :
    effects e m db s h <+: effects e m db s (h ++ h') := by
  induction h generalizing s with
  | nil => exact List.nil_prefix
  | cons a h ih =>
    simp only [List.cons_append, effects]
    cases overlapStep e m db s a with
    | none => exact List.prefix_rfl
    | some r => exact (List.prefix_append_right_inj _).2 (ih r.2)

theorem Lined.history {e : Endian} {m : Mode} {db : Db} {lin : List (SysAction F)} {o : List (Party × SysOut)}
    {begun : List (SysAction F)} {s s' : Overlap F} (h : Lined e m db lin o begun s) (hh : s.Held)
    (xs : List (OverlapAction F)) {o' : List (Party × SysOut)} (hg : overlapRun e m db s xs = some (o', s')) :
    Lined e m db (lin ++ effects e m db s xs) (o ++ o') (begun ++ begunSteps xs) s' ∧ s'.Held := by
  induction xs generalizing lin o begun s o' with
  | nil =>
    simp only [overlapRun, Option.some.injEq, Prod.mk.injEq] at hg
    obtain ⟨rfl, rfl⟩ := hg
    simpa [effects, begunSteps] using ⟨h, hh⟩
  | cons a xs ih =>
    simp only [overlapRun] at hg
    cases hs : overlapStep e m db s a with
    | none => rw [hs] at hg; exact nomatch hg
    | some r =>
      obtain ⟨o1, s1⟩ := r
      rw [hs] at hg
      simp only at hg
      cases hr : overlapRun e m db s1 xs with
      | none => rw [hr] at hg; exact nomatch hg
      | some r' =>
        rw [hr] at hg
        simp only [Option.some.injEq, Prod.mk.injEq] at hg
        obtain ⟨rfl, rfl⟩ := hg
        have := ih (h.step hs) (hh.step hs) hr
        simp only [effects, hs]
        rw [show a :: xs = [a] ++ xs from rfl, begunSteps_append]
        simpa only [List.append_assoc] using this

theorem lined_start (e : Endian) (m : Mode) (db : Db) : Lined e m db [] [] [] (Overlap.start : Overlap F) :=
  ⟨rfl, fun _ => ⟨rfl, rfl⟩⟩

theorem held_start : (Overlap.start : Overlap F).Held := held_free _ rfl

/-! ## Nobody waits for the lock for ever -/

/-- One state is reached from another by going on alone. -/
def GoesTo (e : Endian) (m : Mode) (db : Db) (s s' : Overlap F) : Prop :=
  ∃ h o, OnlyGoing h ∧ overlapRun e m db s h = some (o, s')

theorem overlapRun_append (e : Endian) (m : Mode) (db : Db) {s s' s'' : Overlap F} {h h' : List (OverlapAction F)}
    {o o' : List (Party × SysOut)} (h1 : overlapRun e m db s h = some (o, s'))
    (h2 : overlapRun e m db s' h' = some (o', s'')) : overlapRun e m db s (h ++ h') = some (o ++ o', s'') := by
  induction h generalizing s o with
  | nil =>
    simp only [overlapRun, Option.some.injEq, Prod.mk.injEq] at h1
    obtain ⟨rfl, rfl⟩ := h1
    exact h2
  | cons a h ih =>
    simp only [List.cons_append, overlapRun] at h1 ⊢
    cases hs : overlapStep e m db s a with
    | none => rw [hs] at h1; exact nomatch h1
    | some r =>
      obtain ⟨o1, s1⟩ := r
      rw [hs] at h1
      simp only at h1 ⊢
      cases hr : overlapRun e m db s1 h with
      | none => rw [hr] at h1; exact nomatch h1
      | some r' =>
        rw [hr] at h1
        simp only [Option.some.injEq, Prod.mk.injEq] at h1
        obtain ⟨rfl, rfl⟩ := h1
        rw [ih hr]
        simp only [List.append_assoc]

theorem GoesTo.refl (e : Endian) (m : Mode) (db : Db) (s : Overlap F) : GoesTo e m db s s :=
  ⟨[], [], nofun, rfl⟩

theorem GoesTo.trans {e : Endian} {m : Mode} {db : Db} {s s' s'' : Overlap F} (h : GoesTo e m db s s')
    (h' : GoesTo e m db s' s'') : GoesTo e m db s s'' := by
  obtain ⟨x, o, hx, hr⟩ := h
  obtain ⟨x', o', hx', hr'⟩ := h'
  refine ⟨x ++ x', o ++ o', ?_, overlapRun_append e m db hr hr'⟩
  intro y hy
  rcases List.mem_append.1 hy with hy | hy
  · exact hx y hy
  · exact hx' y hy

theorem GoesTo.one {e : Endian} {m : Mode} {db : Db} {s s' : Overlap F} (hr : s.sys.app.running = true) (p : Party)
    {outs : List SysOut} (h : goOn e m db s p = some (outs, s')) : GoesTo e m db s s' := by
  refine ⟨[.go p], outs.map fun o => (p, o), ?_, ?_⟩
  · intro x hx
    simp at hx
  · simp [overlapRun, overlapStep, hr, h]

theorem goes_sending (e : Endian) (m : Mode) (db : Db) (p : Party) (os : List SysOut) (s : Overlap F)
    (hr : s.sys.app.running = true) (hd : s.doing p = .sending os) :
    ∃ s', GoesTo e m db s s' ∧ s'.doing p = .idle := by
  induction os generalizing s with
  | nil => exact ⟨s.now p .idle, .one hr p (outs := []) (by simp only [goOn, hd]), now_own _ _ _⟩
  | cons o os ih =>
    obtain ⟨s', h, hi⟩ := ih (s.now p (.sending os)) hr (now_own _ _ _)
    exact ⟨s', .trans (.one hr p (outs := [o]) (by simp only [goOn, hd])) h, hi⟩

/-- Who has the lock gives it back. -/
theorem goes_locked (e : Endian) (m : Mode) (db : Db) (p : Party) (s : Overlap F)
    (hr : s.sys.app.running = true) (hl : (s.doing p).locked = true) :
    ∃ s' os, GoesTo e m db s s' ∧ s'.lock = none ∧ s'.doing p = .sending os ∧ ∀ q, q ≠ p → s'.doing q = s.doing q := by
  cases hd : s.doing p with
  | updating ws =>
    clear hl
    induction ws generalizing s with
    | nil =>
      exact ⟨{ s with lock := none }.now p (.sending []), [],
        .one hr p (outs := []) (by simp only [goOn, hd]), rfl, now_own _ _ _, fun q hq => now_other _ hq _⟩
    | cons w ws ih =>
      obtain ⟨s', os, h, h1, h2, h3⟩ := ih ({ s with sys := w.apply s.sys }.now p (.updating ws))
        (by rw [← hr]; exact apply_running s.sys w) (now_own _ _ _)
      exact ⟨s', os, .trans (.one hr p (outs := []) (by simp only [goOn, hd])) h, h1, h2,
        fun q hq => by rw [h3 q hq]; exact now_other _ hq _⟩
  | linking x os =>
    clear hl
    induction os generalizing s with
    | nil =>
      exact ⟨{ s with sys := (sysStep e m db s.sys x).2, lock := none }.now p (.sending []), [],
        .one hr p (outs := []) (by simp only [goOn, hd]), rfl, now_own _ _ _, fun q hq => now_other _ hq _⟩
    | cons o os ih =>
      obtain ⟨s', os', h, h1, h2, h3⟩ := ih (s.now p (.linking x os)) hr (now_own _ _ _)
      exact ⟨s', os', .trans (.one hr p (outs := [o]) (by simp only [goOn, hd])) h, h1, h2,
        fun q hq => by rw [h3 q hq]; exact now_other _ hq _⟩
  | holding os =>
    clear hl
    induction os generalizing s with
    | nil =>
      exact ⟨{ s with lock := none }.now p (.sending []), [],
        .one hr p (outs := []) (by simp only [goOn, hd]), rfl, now_own _ _ _, fun q hq => now_other _ hq _⟩
    | cons o os ih =>
      obtain ⟨s', os', h, h1, h2, h3⟩ := ih (s.now p (.holding os)) hr (now_own _ _ _)
      exact ⟨s', os', .trans (.one hr p (outs := [o]) (by simp only [goOn, hd])) h, h1, h2,
        fun q hq => by rw [h3 q hq]; exact now_other _ hq _⟩
  | reading os =>
    exact ⟨{ s with lock := none }.now p (.sending os), os, .one hr p (outs := []) (by simp only [goOn, hd]), rfl, now_own _ _ _,
      fun q hq => now_other _ hq _⟩
  | _ =>
    rw [hd] at hl
    exact nomatch hl

/-! ## Whole steps are steps that do not overlap -/

theorem overlapRun_go (e : Endian) (m : Mode) (db : Db) {s s' s'' : Overlap F} (hr : s.sys.app.running = true)
    (p : Party) {outs : List SysOut} (h : goOn e m db s p = some (outs, s')) {xs : List (OverlapAction F)}
    {o : List (Party × SysOut)} (hx : overlapRun e m db s' xs = some (o, s'')) :
    overlapRun e m db s (.go p :: xs) = some ((outs.map fun o => (p, o)) ++ o, s'') := by
  simp [overlapRun, overlapStep, hr, h, hx]

/-- Somebody finishes a step, sends some things and leaves a state; everybody else is where they were. -/
def Finishes (e : Endian) (m : Mode) (db : Db) (s : Overlap F) (p : Party) (outs : List SysOut) (t : System F) : Prop :=
  ∃ h s', overlapRun e m db s h = some (outs.map fun o => (p, o), s') ∧ s'.sys = t ∧ s'.lock = none ∧
    (∀ q, q ≠ p → s'.doing q = s.doing q) ∧ (t.app.running = true → s'.doing p = .idle) ∧ begunSteps h = []

theorem Finishes.go {e : Endian} {m : Mode} {db : Db} {s s' : Overlap F} (hr : s.sys.app.running = true)
    {p : Party} {outs outs' : List SysOut} (h : goOn e m db s p = some (outs, s')) {t : System F}
    (hq : ∀ q, q ≠ p → s'.doing q = s.doing q) (hf : Finishes e m db s' p outs' t) :
    Finishes e m db s p (outs ++ outs') t := by
  obtain ⟨xs, s'', h1, h2, h3, h4, h5, h6⟩ := hf
  refine ⟨.go p :: xs, s'', ?_, h2, h3, fun q h => by rw [h4 q h, hq q h], h5, h6⟩
  rw [overlapRun_go e m db hr p h h1, List.map_append]

theorem finishes_sending (e : Endian) (m : Mode) (db : Db) (p : Party) (os : List SysOut) (s : Overlap F)
    (hr : s.sys.app.running = true) (hd : s.doing p = .sending os) (hl : s.lock = none) :
    Finishes e m db s p os s.sys := by
  induction os generalizing s with
  | nil =>
    refine .go (outs := []) (s' := s.now p .idle) hr (by simp only [goOn, hd]) (fun q hq => now_other _ hq _) ?_
    exact ⟨[], _, rfl, rfl, hl, fun q hq => rfl, fun _ => now_own _ _ _, rfl⟩
  | cons o os ih =>
    exact .go (outs := [o]) (s' := s.now p (.sending os)) hr (by simp only [goOn, hd]) (fun q hq => now_other _ hq _)
      (ih _ hr (now_own _ _ _) hl)

theorem finishes_updating (e : Endian) (m : Mode) (db : Db) (p : Party) (ws : List Write) (s : Overlap F)
    (hr : s.sys.app.running = true) (hd : s.doing p = .updating ws) :
    Finishes e m db s p [] (settled s.sys ws) := by
  induction ws generalizing s with
  | nil =>
    exact .go (outs := []) (s' := { s with lock := none }.now p (.sending [])) hr (by simp only [goOn, hd])
      (fun q hq => now_other _ hq _) (finishes_sending e m db p [] ({ s with lock := none }.now p (.sending [])) hr (now_own _ _ _) rfl)
  | cons w ws ih =>
    exact .go (outs := []) (s' := { s with sys := w.apply s.sys }.now p (.updating ws)) hr (by simp only [goOn, hd])
      (fun q hq => now_other _ hq _) (ih _ (by rw [← hr]; exact apply_running s.sys w) (now_own _ _ _))

theorem finishes_linking (e : Endian) (m : Mode) (db : Db) (p : Party) (x : SysAction F) (os : List SysOut)
    (s : Overlap F) (hr : s.sys.app.running = true) (hd : s.doing p = .linking x os) :
    Finishes e m db s p os (sysStep e m db s.sys x).2 := by
  induction os generalizing s with
  | nil =>
    refine .go (outs := []) (s' := { s with sys := (sysStep e m db s.sys x).2, lock := none }.now p (.sending [])) hr
      (by simp only [goOn, hd]) (fun q hq => now_other _ hq _) ?_
    cases hr' : (sysStep e m db s.sys x).2.app.running with
    | true => exact finishes_sending e m db p [] _ hr' (now_own _ _ _) rfl
    | false => exact ⟨[], _, rfl, rfl, rfl, fun q hq => rfl, fun h => (by rw [hr'] at h; exact nomatch h), rfl⟩
  | cons o os ih =>
    exact .go (outs := [o]) (s' := s.now p (.linking x os)) hr (by simp only [goOn, hd]) (fun q hq => now_other _ hq _)
      (ih _ hr (now_own _ _ _))

theorem finishes_holding (e : Endian) (m : Mode) (db : Db) (p : Party) (os : List SysOut) (s : Overlap F)
    (hr : s.sys.app.running = true) (hd : s.doing p = .holding os) : Finishes e m db s p os s.sys := by
  induction os generalizing s with
  | nil =>
    exact .go (outs := []) (s' := { s with lock := none }.now p (.sending [])) hr (by simp only [goOn, hd])
      (fun q hq => now_other _ hq _) (finishes_sending e m db p [] ({ s with lock := none }.now p (.sending [])) hr (now_own _ _ _) rfl)
  | cons o os ih =>
    exact .go (outs := [o]) (s' := s.now p (.holding os)) hr (by simp only [goOn, hd]) (fun q hq => now_other _ hq _)
      (ih _ hr (now_own _ _ _))

theorem finishes_reading (e : Endian) (m : Mode) (db : Db) (p : Party) (os : List SysOut) (s : Overlap F)
    (hr : s.sys.app.running = true) (hd : s.doing p = .reading os) : Finishes e m db s p os s.sys :=
  .go (outs := []) (s' := { s with lock := none }.now p (.sending os)) hr (by simp only [goOn, hd])
    (fun q hq => now_other _ hq _) (finishes_sending e m db p os ({ s with lock := none }.now p (.sending os)) hr (now_own _ _ _) rfl)

/-- Only a negotiation ends the process. -/
theorem runs_on (e : Endian) (m : Mode) (db : Db) (s : System F) (x : SysAction F) (hp : x.links = false)
    (hr : s.app.running = true) : (sysStep e m db s x).2.app.running = true := by
  by_cases hm : x.party = .main
  · cases x with
    | app y =>
      cases y with
      | appLink oks => exact nomatch hp
      | appRecv =>
        simp only [sysStep, if_pos hr, appStep]
        split
        · exact hr
        · unfold appRecvStep
          split <;> exact hr
      | _ => exact nomatch hm
    | _ => exact nomatch hm
  · cases x with
    | app y =>
      cases y with
      | receive i d =>
        simp only [sysStep, if_pos hr, appStep]
        split
        · unfold receiveStep
          split
          · exact hr
          · exact hr
          · split
            · exact hr
            · split
              · exact hr
              · split <;> exact hr
        · exact hr
      | broadcast ok =>
        simp only [sysStep, if_pos hr, appStep]
        split
        · unfold broadcastStep
          split
          · exact hr
          · split
            · exact hr
            · split <;> exact hr
        · exact hr
      | _ => exact absurd rfl hm
    | accept c => simp only [sysStep, if_pos hr]; split <;> exact hr
    | main c b => simp only [sysStep, if_pos hr]; split <;> exact hr
    | _ => simp only [sysStep, if_pos hr]; exact hr

/-- A step that is taken up by somebody who is between two steps, while nobody has the lock, can be finished before
anybody else does anything, and is the whole step. -/
theorem finishes_taken (e : Endian) (m : Mode) (db : Db) (s : Overlap F) (x : SysAction F)
    (hr : s.sys.app.running = true) (hd : s.doing x.party = .taken x) (hl : s.lock = none)
    (ha : awaitsEvent s.sys x = false) :
    Finishes e m db s x.party (sysStep e m db s.sys x).1 (sysStep e m db s.sys x).2 := by
  cases hn : needsLock s.sys x with
  | false =>
    have hg : goOn e m db s x.party = some ([], { s with sys := (sysStep e m db s.sys x).2 }.now x.party
        (.sending (sysStep e m db s.sys x).1)) := by simp [goOn, hd, hn, ha]
    have hlk : x.links = false := by
      simp only [needsLock, Bool.or_eq_false_iff] at hn
      exact hn.2
    exact .go (outs := []) hr hg (fun q hq => now_other _ hq _)
      (finishes_sending e m db x.party _ ({ s with sys := (sysStep e m db s.sys x).2 }.now x.party
        (.sending (sysStep e m db s.sys x).1)) (runs_on e m db s.sys x hlk hr) (now_own _ _ _) hl)
  | true =>
    have hg : goOn e m db s x.party = some ([], enter e m db s x.party x) := by simp [goOn, hd, hn, hl]
    refine .go (outs := []) hr hg (enter_lock e m db s x.party x).2.2 ?_
    cases x with
    | app y =>
      cases y with
      | receive i d =>
        have := finishes_updating e m db .receiver (writesTo s.sys.app (sysStep e m db s.sys (.app (.receive i d))).2.app)
          (enter e m db s .receiver (.app (.receive i d))) (runs_on e m db s.sys (.app (.receive i d)) rfl hr)
          (now_own _ _ _)
        rw [show settled (enter e m db s .receiver (.app (.receive i d))).sys _ = _ from
          settled_writes e m db s.sys i d, ← receive_silent e m db s.sys i d] at this
        exact this
      | appLink oks => exact finishes_linking e m db _ _ _ _ hr (now_own _ _ _)
      | broadcast ok =>
        exact finishes_holding e m db _ _ (enter e m db s .broadcaster (.app (.broadcast ok)))
          (runs_on e m db s.sys (.app (.broadcast ok)) rfl hr) (now_own _ _ _)
      | appRecv => exact nomatch hn
    | _ =>
      exact finishes_reading e m db _ _ _ (runs_on e m db s.sys _ rfl hr) (now_own _ _ _)

theorem awaits_nothing (e : Endian) (m : Mode) (db : Db) (s : System F) (x : SysAction F) (h : awaitsEvent s x = true) :
    sysStep e m db s x = ([], s) := by
  cases x with
  | app y =>
    cases y with
    | appRecv =>
      simp only [awaitsEvent, Bool.and_eq_true, Bool.not_eq_true', List.isEmpty_iff] at h
      simp only [sysStep, appStep, h.1, appRecvStep, h.2]
      split <;> rfl
    | _ => exact nomatch h
  | _ => exact nomatch h

end PDJ

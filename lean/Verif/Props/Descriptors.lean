import Verif.Spec.Descriptors
import Verif.Props.Files
import Verif.Props.System

/-!
# The sockets and files the process holds: property C106
-/

namespace PDJ

open Spec

variable {F : Type}

/-! ## Counting -/

theorem rpcUses_unique {ts : List (UInt16 × RpcTask F)} {n k : Nat} (h : RpcUses ts n) (h' : RpcUses ts k) :
    n = k := by
  induction h generalizing k with
  | nil => cases h'; rfl
  | nfs ho _ ih =>
    cases h' with
    | nfs ho' ht' =>
      have := ih ht'
      have := hasOpen_length ho ho'
      have := hasOpen_length ho' ho
      omega
    | ended hl _ => exact nomatch hl
  | program _ ih =>
    cases h' with
    | program ht' => rw [ih ht']
    | ended hl _ => exact nomatch hl
  | ended hl _ ih =>
    cases h' with
    | nfs _ _ => exact nomatch hl
    | program _ => exact nomatch hl
    | ended _ ht' => exact ih ht'

theorem uses_unique {s : System F} {n k : Nat} (h : Uses s n) (h' : Uses s k) : n = k := by
  obtain ⟨a, h1, rfl⟩ := h
  obtain ⟨b, h2, rfl⟩ := h'
  rw [rpcUses_unique h1 h2]

theorem rpcUses_append {ts : List (UInt16 × RpcTask F)} {n : Nat} (h : RpcUses ts n)
    {us : List (UInt16 × RpcTask F)} {k : Nat} (hu : RpcUses us k) : RpcUses (ts ++ us) (n + k) := by
  induction h with
  | nil => simpa using hu
  | nfs ho _ ih =>
    rename_i l _ n _
    rw [show n + 1 + l.length + k = n + k + 1 + l.length by omega]
    exact .nfs ho ih
  | program _ ih =>
    rename_i n _
    rw [show n + 1 + k = n + k + 1 by omega]
    exact .program ih
  | ended hl _ ih => exact .ended hl ih

theorem spawned_uses {p : RpcProcedure} {t : RpcTask F} (h : spawned p = some t) (port : UInt16) :
    RpcUses [(port, t)] 1 := by
  unfold spawned at h
  split at h
  · split at h
    · cases h
      exact RpcUses.nfs (l := []) hasOpen_start .nil
    · cases h
      exact .program .nil
  · exact nomatch h

/-- One event at an RPC handler takes at most one file, and only for a LOOKUP. -/
theorem taskStep_uses (e : Endian) (net : Option PioneerNetwork) (port : UInt16) (ev : NfsEvent F)
    (t : RpcTask F) (k : Nat) (h : RpcUses [(port, t)] k) :
    ∃ k', RpcUses [(port, (taskStep e net ev t).2)] k' ∧
      (k' ≤ k ∨ k' = k + 1 ∧ Asking (SysAction.port port ev)) := by
  cases t with
  | program b =>
    simp only [taskStep]
    cases hb : (progStep net (ev.os false) ev.recv b).2 with
    | false => exact ⟨0, .ended rfl .nil, .inl (Nat.zero_le _)⟩
    | true =>
      refine ⟨1, .program .nil, .inl ?_⟩
      cases b with
      | false => exact nomatch hb
      | true =>
        cases h with
        | program h => omega
        | ended hl _ => exact nomatch hl
  | nfs t =>
    simp only [taskStep]
    cases t with
    | dead => exact ⟨0, .ended rfl .nil, .inl (Nat.zero_le _)⟩
    | running s p =>
      cases h with
      | ended hl _ => exact nomatch hl
      | nfs ho ht =>
        rename_i l n
        cases ht
        rcases hs : nfsStep e ev.world ev.os ev.recv (.running s p) with ⟨out, t'⟩
        cases t' with
        | dead => exact ⟨0, .ended rfl .nil, .inl (Nat.zero_le _)⟩
        | running s' p' =>
          rcases step_handlers e _ _ _ s p out s' p' hs with h1 | ⟨d, peer, q, a, m, f, hd, hq, ha, _, _, _, h5, _⟩
          · exact ⟨_, RpcUses.nfs (l := l) ⟨ho.1, fun i => by rw [h1]; exact ho.2 i⟩ .nil, .inl (Nat.le_refl _)⟩
          · have hask : Asking (SysAction.port port ev) := by
              obtain ⟨pr, hc, hm⟩ := request_isCall hq
              rw [ha] at hm
              obtain ⟨fh, name, rfl⟩ : ∃ fh name, pr = .nfsLookup fh name := by
                generalize q.call.program = pg at hm
                cases hm
                exact ⟨_, _, rfl⟩
              exact .lookup hd hc
            by_cases hm : m.ino ∈ l
            · refine ⟨_, RpcUses.nfs (l := l) ⟨ho.1, fun i => ?_⟩ .nil, .inl (Nat.le_refl _)⟩
              rw [h5]
              by_cases hi : i = m.ino
              · simp [hi, hm]
              · simp only [if_neg hi]
                exact ho.2 i
            · refine ⟨_, RpcUses.nfs (l := m.ino :: l) ⟨List.nodup_cons.2 ⟨hm, ho.1⟩, fun i => ?_⟩ .nil,
                .inr ⟨rfl, hask⟩⟩
              rw [h5]
              by_cases hi : i = m.ino
              · simp [hi]
              · simp only [List.mem_cons, hi, false_or, if_false]
                exact ho.2 i

theorem rpcUses_split {t : UInt16 × RpcTask F} {ts : List (UInt16 × RpcTask F)} {n : Nat}
    (h : RpcUses (t :: ts) n) : ∃ a b, RpcUses [t] a ∧ RpcUses ts b ∧ n = a + b := by
  cases h with
  | nfs ho ht => exact ⟨_, _, .nfs ho .nil, ht, by omega⟩
  | program ht => exact ⟨_, _, .program .nil, ht, by omega⟩
  | ended hl ht => exact ⟨0, _, .ended hl .nil, ht, by omega⟩

theorem deliver_uses (e : Endian) (net : Option PioneerNetwork) (port : UInt16) (ev : NfsEvent F)
    (ts : List (UInt16 × RpcTask F)) (n : Nat) (h : RpcUses ts n) :
    ∃ k, RpcUses (deliver e net port ev ts).2 k ∧ (k ≤ n ∨ k = n + 1 ∧ Asking (SysAction.port port ev)) := by
  induction ts generalizing n with
  | nil => exact ⟨n, h, .inl (Nat.le_refl _)⟩
  | cons t ts ih =>
    obtain ⟨a, b, ha, hb, rfl⟩ := rpcUses_split h
    simp only [deliver]
    split
    · rename_i hc
      obtain ⟨a', h1, h2⟩ := taskStep_uses e net port ev t.2 a (by rw [← hc.1]; exact ha)
      rw [hc.1]
      refine ⟨a' + b, rpcUses_append h1 hb, ?_⟩
      rcases h2 with h2 | ⟨h2, h3⟩
      · exact .inl (by omega)
      · exact .inr ⟨by omega, h3⟩
    · obtain ⟨b', h1, h2⟩ := ih b hb
      refine ⟨a + b', rpcUses_append (ts := [t]) ha h1, ?_⟩
      rcases h2 with h2 | ⟨h2, h3⟩
      · exact .inl (by omega)
      · exact .inr ⟨by omega, h3⟩

theorem portmap_uses (os : Bytes → Addr → Bool) (bound : Option UInt16) (r : Recv) (s : RpcSystem F) (n : Nat)
    (h : RpcUses s.tasks n) :
    ∃ k, RpcUses (portmapStep os bound r s).2.tasks k ∧
      (k ≤ n ∨ k = n + 1 ∧ Asking (SysAction.portmap (F := F) os bound r)) := by
  unfold portmapStep
  split
  case isFalse => exact ⟨n, h, .inl (Nat.le_refl _)⟩
  cases r with
  | ioError => exact ⟨n, h, .inl (Nat.le_refl _)⟩
  | datagram d peer =>
    simp only
    cases hq : rpcFrame d with
    | nothing => exact ⟨n, h, .inl (Nat.le_refl _)⟩
    | invalid => exact ⟨n, h, .inl (Nat.le_refl _)⟩
    | panic => exact ⟨n, h, .inl (Nat.le_refl _)⟩
    | request q =>
      cases bound with
      | none => exact ⟨n, h, .inl (Nat.le_refl _)⟩
      | some port =>
        cases hs : (spawned q.call.procedure : Option (RpcTask F)) with
        | none =>
          refine ⟨n, ?_, .inl (Nat.le_refl _)⟩
          simp only [hs]
          split <;> exact h
        | some t =>
          refine ⟨n + 1, ?_, .inr ⟨rfl, ?_⟩⟩
          · have := rpcUses_append h (spawned_uses hs port)
            simp only [hs]
            split <;> exact this
          · obtain ⟨pr, hc, hm⟩ := request_isCall hq
            unfold spawned at hs
            split at hs
            · rename_i a ha
              rw [ha] at hm
              obtain ⟨pg, v, po, rfl⟩ : ∃ pg v po, pr = .pmapGetport pg v po := by
                generalize q.call.program = pg at hm
                cases hm <;> exact ⟨_, _, _, rfl⟩
              exact .getport hc
            · exact nomatch hs

theorem libUses_append (a b : List Handler) : libUses (a ++ b) = libUses a + libUses b := by
  induction a with
  | nil => simp [libUses]
  | cons x a ih => simp only [List.cons_append, libUses, ih]; omega

theorem libUses_set (l : List Handler) (i : Nat) (h h' : Handler) (hi : l[i]? = some h) :
    libUses (l.set i h') + libUses [h] = libUses l + libUses [h'] := by
  induction l generalizing i with
  | nil => simp at hi
  | cons x l ih =>
    cases i with
    | zero =>
      simp only [List.getElem?_cons_zero, Option.some.injEq] at hi
      subst hi
      simp only [List.set_cons_zero, libUses]
      omega
    | succ i =>
      have := ih i (by simpa using hi)
      simp only [List.set_cons_succ, libUses] at this ⊢
      omega

theorem lib_uses (m : Mode) (db : Db) (s : LibServer) (h : Nat) (ev : HandlerEvent) :
    libUses (libStep m db s (.handler h ev)).2.handlers ≤ libUses s.handlers ∨
    libUses (libStep m db s (.handler h ev)).2.handlers = libUses s.handlers + 1 ∧ ev = .connect := by
  simp only [libStep]
  cases hh : s.handlers[h]? with
  | none => exact .inl (Nat.le_refl _)
  | some hd =>
    have := libUses_set s.handlers h hd ⟨hd.port, (handlerStep m db ev hd.phase).2⟩ hh
    simp only
    simp only [libUses] at this
    cases hp : hd.phase with
    | listening =>
      rw [hp] at this
      cases ev with
      | connect => exact .inr ⟨by simp only [handlerStep] at this ⊢; omega, rfl⟩
      | refused => simp only [handlerStep] at this ⊢; omega
      | data io c => simp only [handlerStep] at this ⊢; omega
      | close => simp only [handlerStep] at this ⊢; omega
    | serving ctx =>
      rw [hp] at this
      cases ev with
      | connect => simp only [handlerStep] at this ⊢; omega
      | refused => simp only [handlerStep] at this ⊢; omega
      | data io c =>
        simp only [handlerStep] at this ⊢
        cases hpr : process m io db c ctx with
        | panic => simp only [hpr] at this ⊢; omega
        | ok v => simp only [hpr] at this ⊢; omega
      | close => simp only [handlerStep] at this ⊢; omega
    | finished =>
      rw [hp] at this
      cases ev <;> simp only [handlerStep] at this ⊢ <;> omega

/-- One action takes at most one socket or file more, and only if a client asks for something. -/
theorem uses_step (e : Endian) (m : Mode) (db : Db) (s : System F) (x : SysAction F) (n : Nat) (h : Uses s n) :
    ∃ k, Uses (sysStep e m db s x).2 k ∧ (k ≤ n ∨ k = n + 1 ∧ Asking x) := by
  obtain ⟨a, ha, rfl⟩ := h
  unfold sysStep
  split
  case isFalse => exact ⟨_, ⟨a, ha, rfl⟩, .inl (Nat.le_refl _)⟩
  cases x with
  | app x => exact ⟨_, ⟨a, ha, rfl⟩, .inl (Nat.le_refl _)⟩
  | portmap os bound r =>
    obtain ⟨k, h1, h2⟩ := portmap_uses os bound r s.services.rpc a ha
    refine ⟨_, ⟨k, h1, rfl⟩, ?_⟩
    simp only [mainUses]
    rcases h2 with h2 | ⟨h2, h3⟩
    · exact .inl (by omega)
    · exact .inr ⟨by omega, h3⟩
  | port p ev =>
    obtain ⟨k, h1, h2⟩ := deliver_uses e (knownNetwork s.app) p ev s.services.rpc.tasks a ha
    refine ⟨_, ⟨k, h1, rfl⟩, ?_⟩
    simp only [mainUses]
    rcases h2 with h2 | ⟨h2, h3⟩
    · exact .inl (by omega)
    · exact .inr ⟨by omega, h3⟩
  | accept c =>
    by_cases hacc : s.services.accepting = true
    · simp only [hacc, if_true]
      refine ⟨_, ⟨a, ha, rfl⟩, ?_⟩
      simp only [mainUses, List.filter_cons]
      split
      · exact .inr ⟨by simp only [List.length_cons]; omega, .accept⟩
      · exact .inl (Nat.le_refl _)
    · simp only [hacc]
      exact ⟨_, ⟨a, ha, rfl⟩, .inl (Nat.le_refl _)⟩
  | hangup c =>
    refine ⟨_, ⟨a, ha, rfl⟩, .inl ?_⟩
    have : mainUses { s with mains := s.mains.erase c } ≤ mainUses s :=
      ((List.erase_sublist (a := c) (l := s.mains)).filter _).length_le
    simp only at this ⊢
    omega
  | main c bound =>
    by_cases hc : c ∈ s.mains
    case neg => simp only [hc, if_false]; exact ⟨_, ⟨a, ha, rfl⟩, .inl (Nat.le_refl _)⟩
    simp only [hc, if_true]
    by_cases hd : c ∈ s.lib.deadMains
    · simp only [libStep, hd, if_true]
      exact ⟨_, ⟨a, ha, rfl⟩, .inl (Nat.le_refl _)⟩
    · simp only [libStep, hd, if_false]
      cases bound with
      | none =>
        refine ⟨_, ⟨a, ha, rfl⟩, .inl ?_⟩
        have : mainUses { s with lib := { s.lib with deadMains := c :: s.lib.deadMains } } ≤ mainUses s := by
          unfold mainUses
          rw [← List.countP_eq_length_filter, ← List.countP_eq_length_filter]
          refine List.countP_mono_left fun x _ hx => ?_
          simp only [List.mem_cons, not_or, decide_eq_true_eq] at hx ⊢
          exact hx.2
        simp only at this ⊢
        omega
      | some p =>
        refine ⟨_, ⟨a, ha, rfl⟩, .inr ⟨?_, .chunk⟩⟩
        simp only [libUses_append, libUses, mainUses]
        omega
  | handler h ev =>
    refine ⟨_, ⟨a, ha, rfl⟩, ?_⟩
    have hm : mainUses { s with lib := (libStep m db s.lib (.handler h ev)).2 } = mainUses s := by
      have : (libStep m db s.lib (.handler h ev)).2.deadMains = s.lib.deadMains := by
        simp only [libStep]
        split <;> rfl
      simp only [mainUses, this]
    simp only at hm ⊢
    rcases lib_uses m db s.lib h ev with h1 | ⟨h1, rfl⟩
    · exact .inl (by omega)
    · exact .inr ⟨by omega, .connect⟩
  | status r => exact ⟨_, ⟨a, ha, rfl⟩, .inl (Nat.le_refl _)⟩

theorem uses_start : Uses (System.start : System F) 0 := ⟨0, .nil, rfl⟩

theorem uses_run (e : Endian) (m : Mode) (db : Db) (xs : List (SysAction F)) (k : Nat) (hk : AskedFor xs k)
    (s : System F) (n : Nat) (h : Uses s n) : ∃ n', Uses (sysRun e m db s xs).2 n' ∧ n' ≤ n + k := by
  induction hk generalizing s n with
  | nil => exact ⟨n, h, Nat.le_refl _⟩
  | ask _ _ ih =>
    obtain ⟨n1, h1, h2⟩ := uses_step e m db s _ n h
    obtain ⟨n2, h3, h4⟩ := ih _ n1 h1
    exact ⟨n2, h3, by rcases h2 with h2 | ⟨h2, _⟩ <;> omega⟩
  | other hx _ ih =>
    obtain ⟨n1, h1, h2⟩ := uses_step e m db s _ n h
    obtain ⟨n2, h3, h4⟩ := ih _ n1 h1
    exact ⟨n2, h3, by rcases h2 with h2 | ⟨_, h2⟩; omega; exact absurd h2 hx⟩

/-- C106: the process holds no more sockets and files for its clients than they have asked for. -/
theorem C106_bound (e : Endian) (m : Mode) (db : Db) (xs : List (SysAction F)) (k : Nat) (hk : AskedFor xs k) :
    ∃ n, Uses (sysRun e m db .start xs).2 n ∧ n ≤ k := by
  obtain ⟨n, h1, h2⟩ := uses_run e m db xs k hk .start 0 uses_start
  exact ⟨n, h1, by omega⟩

/-- C106: a player that closes its connection to the library's well-known port gives one socket back, and one that
closes its connection to a handler gives two back, the connection and the listener. -/
theorem C106_given_back (e : Endian) (m : Mode) (db : Db) (s : System F) (hr : s.app.running = true) (n : Nat)
    (h : Uses s n) :
    (∀ c ∈ s.mains, c ∉ s.lib.deadMains → ∃ k, Uses (sysStep e m db s (.hangup c)).2 k ∧ n = k + 1) ∧
    ∀ (i : Nat) (p : UInt16) (ctx : Ctx), s.lib.handlers[i]? = some ⟨p, .serving ctx⟩ →
      ∃ k, Uses (sysStep e m db s (.handler i .close)).2 k ∧ n = k + 2 := by
  obtain ⟨a, ha, rfl⟩ := h
  constructor
  · intro c hc hd
    simp only [sysStep, hr, if_true]
    refine ⟨_, ⟨a, ha, rfl⟩, ?_⟩
    have hp := (List.perm_cons_erase hc).filter fun c => decide (c ∉ s.lib.deadMains)
    have := hp.length_eq
    rw [List.filter_cons, if_pos (by simpa using hd), List.length_cons] at this
    simp only [mainUses]
    omega
  · intro i p ctx hi
    have := libUses_set s.lib.handlers i _ ⟨p, .finished⟩ hi
    simp only [sysStep, hr, if_true, libStep, hi, handlerStep]
    refine ⟨_, ⟨a, ha, rfl⟩, ?_⟩
    simp only [libUses, mainUses] at this ⊢
    omega

theorem supplied_all (e : Endian) (m : Mode) (db : Db) (limit : Nat) (xs : List (SysAction F)) (k : Nat)
    (hk : AskedFor xs k) (s : System F) (n : Nat) (h : Uses s n) (hl : n + k < limit)
    (hg : Generous e m db limit s xs) : ∀ x ∈ xs, Supplied x := by
  induction hk generalizing s n with
  | nil => exact fun _ hx => nomatch hx
  | ask _ _ ih =>
    obtain ⟨n1, h1, h2⟩ := uses_step e m db s _ n h
    intro y hy
    rcases List.mem_cons.1 hy with rfl | hy
    · exact hg.1 n h (by omega)
    · exact ih _ n1 h1 (by rcases h2 with h2 | ⟨h2, _⟩ <;> omega) hg.2 y hy
  | other hx _ ih =>
    obtain ⟨n1, h1, h2⟩ := uses_step e m db s _ n h
    intro y hy
    rcases List.mem_cons.1 hy with rfl | hy
    · exact hg.1 n h (by omega)
    · exact ih _ n1 h1 (by rcases h2 with h2 | ⟨_, h2⟩; omega; exact absurd h2 hx) hg.2 y hy

theorem mem_appPart {x : AppAction} {xs : List (SysAction F)} (h : x ∈ appPart xs) : SysAction.app x ∈ xs := by
  induction xs with
  | nil => exact nomatch h
  | cons y xs ih =>
    cases y with
    | app z =>
      rcases List.mem_cons.1 h with rfl | h
      · exact List.mem_cons_self
      · exact List.mem_cons_of_mem _ (ih h)
    | _ => exact List.mem_cons_of_mem _ (ih h)

/-- C106 (full claim: what clients ask for never keeps the application from announcing itself and from serving
others).  Missing: the claim is false (`C106_silenced`, `C106_getports`).  What holds: as long as they have asked
for less than the OS gives, in every history without the other causes of C79, everything keeps running. -/
theorem C106_up_partial (e : Endian) (m : Mode) (db : Db) (limit : Nat) (xs : List (SysAction F)) (k : Nat)
    (hg : Generous e m db limit .start xs) (hk : AskedFor xs k) (hl : k < limit) (hloc : AllLocal (appPart xs))
    (hpm : ∀ os bound r, .portmap os bound r ∈ xs →
      (∀ d peer, r = .datagram d peer → ¬ IsReply d) ∧ ∀ b dst, os b dst = true)
    (hst : ∀ d s, .status (.datagram d s) ∈ xs → ¬ Stops d) :
    Healthy (sysRun e m db .start xs).2.app ∧
      (sysRun e m db .start xs).2.app.broadcaster = true ∧
      (sysRun e m db .start xs).2.services.rpc.portmap = true ∧
      (sysRun e m db .start xs).2.services.accepting = true ∧
      (sysRun e m db .start xs).2.status = true := by
  have hall := supplied_all e m db limit xs k hk .start 0 uses_start (by omega) hg
  refine C79_survives_partial e m db xs ⟨⟨fun ok h => ?_, fun oks h => ?_⟩, hloc, fun os bound r h => ?_, hst⟩
  · exact hall _ (mem_appPart h)
  · exact hall _ (mem_appPart h)
  · exact ⟨(hpm os bound r h).1, hall _ h, (hpm os bound r h).2⟩

/-! ## Running out -/

theorem appStep_broadcast_refused (s : AppSystem) (hh : Healthy s) (hb : s.broadcaster = true) (a : PioneerNetwork)
    (ha : s.state.address = some a) :
    appStep s (.broadcast false) = ([], { s with broadcaster := false, poisoned := true }) := by
  unfold appStep
  rw [if_pos hh.running]
  simp only [hb, if_true]
  unfold broadcastStep
  rw [if_neg (by simp [hh.lock]), ha]
  rfl

theorem limitedSys_at {e : Endian} {m : Mode} {db : Db} {limit : Nat} {xs : List (SysAction F)} {x : SysAction F}
    {ys : List (SysAction F)} {s : System F} (h : LimitedSys e m db limit s (xs ++ x :: ys)) {n : Nat}
    (hn : Uses (sysRun e m db s xs).2 n) (hl : limit ≤ n) : Refused x := by
  induction xs generalizing s with
  | nil => exact h.1 n hn hl
  | cons y xs ih => exact ih h.2 hn

/-- With the lock poisoned and the broadcaster gone nothing is broadcast and the registry stays as it is. -/
theorem appRun_poisoned (ys : List AppAction) (s : AppSystem) (hp : s.poisoned = true)
    (hb : s.broadcaster = false) : (appRun s ys).1 = [] ∧ (appRun s ys).2.state = s.state := by
  induction ys generalizing s with
  | nil => exact ⟨rfl, rfl⟩
  | cons y ys ih =>
    have key : (appStep s y).1 = [] ∧ (appStep s y).2.poisoned = true ∧ (appStep s y).2.broadcaster = false ∧
        (appStep s y).2.state = s.state := by
      unfold appStep
      split
      case isFalse => exact ⟨by trivial, hp, hb, by trivial⟩
      cases y with
      | receive i d =>
        simp only
        split
        · unfold receiveStep
          split
          · exact ⟨by trivial, hp, hb, by trivial⟩
          · exact ⟨by trivial, hp, hb, by trivial⟩
          · split
            · exact ⟨by trivial, hp, hb, by trivial⟩
            · rw [if_pos hp]
              exact ⟨by trivial, hp, hb, by trivial⟩
        · exact ⟨by trivial, hp, hb, by trivial⟩
      | broadcast ok => simp only [hb]; exact ⟨by trivial, hp, hb, by trivial⟩
      | appRecv =>
        simp only
        split
        · exact ⟨by trivial, hp, hb, by trivial⟩
        · unfold appRecvStep
          split <;> exact ⟨by trivial, hp, hb, by trivial⟩
      | appLink oks =>
        simp only
        split
        · unfold appLinkStep
          rw [if_pos hp]
          exact ⟨by trivial, hp, hb, by trivial⟩
        · exact ⟨by trivial, hp, hb, by trivial⟩
    obtain ⟨h1, h2, h3, h4⟩ := key
    obtain ⟨h5, h6⟩ := ih _ h2 h3
    simp only [appRun, h1, h5, h6, h4]
    exact ⟨by trivial, by trivial⟩

/-- C106, the negation: when the clients hold all the sockets and files the OS gives and the broadcaster's turn
comes, it ends, with the lock poisoned; from then on, whatever happens, nothing is broadcast and no player is
taken notice of. -/
theorem C106_silenced (e : Endian) (m : Mode) (db : Db) (limit : Nat) (xs ys : List (SysAction F)) (ok : Bool)
    (n : Nat) (hlim : LimitedSys e m db limit .start (xs ++ .app (.broadcast ok) :: ys))
    (hn : Uses (sysRun e m db .start xs).2 n) (hl : limit ≤ n)
    (hh : Healthy (sysRun e m db .start xs).2.app) (hb : (sysRun e m db .start xs).2.app.broadcaster = true)
    (a : PioneerNetwork) (ha : (sysRun e m db .start xs).2.app.state.address = some a) :
    broadcastsOf (sysRun e m db (sysRun e m db .start xs).2 (.app (.broadcast ok) :: ys)).1 = [] ∧
    (sysRun e m db .start (xs ++ .app (.broadcast ok) :: ys)).2.app.state =
      (sysRun e m db .start xs).2.app.state := by
  have hr : ok = false := limitedSys_at hlim hn hl
  subst hr
  have hrun : ∀ (xs ys : List (SysAction F)) (s : System F),
      (sysRun e m db s (xs ++ ys)).2 = (sysRun e m db (sysRun e m db s xs).2 ys).2 := by
    intro xs ys
    induction xs with
    | nil => exact fun _ => rfl
    | cons x xs ih => exact fun s => ih _
  rw [hrun]
  generalize (sysRun e m db .start xs).2 = s at *
  obtain ⟨h1, h2⟩ := app_undisturbed e m db (.app (.broadcast false) :: ys) s
  rw [h1, h2]
  show (appRun s.app (.broadcast false :: appPart ys)).1 = [] ∧
    (appRun s.app (.broadcast false :: appPart ys)).2.state = _
  have hstep := appStep_broadcast_refused s.app hh hb a ha
  obtain ⟨h3, h4⟩ := appRun_poisoned (appPart ys) { s.app with broadcaster := false, poisoned := true } rfl rfl
  simp only [appRun, hstep, h3, h4]
  exact ⟨by trivial, by trivial⟩

theorem appStep_broadcast_supplied (s : AppSystem) (hh : Healthy s) (hb : s.broadcaster = true) (a : PioneerNetwork)
    (ha : s.state.address = some a) :
    (appStep s (.broadcast true)).1 ≠ [] ∧ (appStep s (.broadcast true)).2.broadcaster = true := by
  unfold appStep
  rw [if_pos hh.running]
  simp only [hb, if_true]
  unfold broadcastStep
  rw [if_neg (by simp [hh.lock]), ha]
  exact ⟨List.cons_ne_nil _ _, hb⟩

theorem generous_at {e : Endian} {m : Mode} {db : Db} {limit : Nat} {xs : List (SysAction F)} {x : SysAction F}
    {ys : List (SysAction F)} {s : System F} (h : Generous e m db limit s (xs ++ x :: ys)) {n : Nat}
    (hn : Uses (sysRun e m db s xs).2 n) (hl : n < limit) : Supplied x := by
  induction xs generalizing s with
  | nil => exact h.1 n hn hl
  | cons y xs ih => exact ih h.2 hn

/-- C106, exactly: when the OS gives so many sockets and files and no more, a turn of the broadcaster on a known
network announces the application and leaves the broadcaster running if and only if the clients hold fewer. -/
theorem C106_announced_iff (e : Endian) (m : Mode) (db : Db) (limit : Nat) (xs ys : List (SysAction F)) (ok : Bool)
    (n : Nat) (hlim : LimitedSys e m db limit .start (xs ++ .app (.broadcast ok) :: ys))
    (hgen : Generous e m db limit .start (xs ++ .app (.broadcast ok) :: ys))
    (hn : Uses (sysRun e m db .start xs).2 n)
    (hh : Healthy (sysRun e m db .start xs).2.app) (hb : (sysRun e m db .start xs).2.app.broadcaster = true)
    (a : PioneerNetwork) (ha : (sysRun e m db .start xs).2.app.state.address = some a) :
    (broadcastsOf (sysStep e m db (sysRun e m db .start xs).2 (.app (.broadcast ok))).1 ≠ [] ↔ n < limit) ∧
    ((sysStep e m db (sysRun e m db .start xs).2 (.app (.broadcast ok))).2.app.broadcaster = true ↔ n < limit) := by
  have hs : ∀ s : System F, s.app.running = true → ∀ ok,
      broadcastsOf (sysStep e m db s (.app (.broadcast ok))).1 = (appStep s.app (.broadcast ok)).1 ∧
      (sysStep e m db s (.app (.broadcast ok))).2.app = (appStep s.app (.broadcast ok)).2 := by
    intro s hr ok
    obtain ⟨h1, h2⟩ := app_undisturbed e m db [.app (.broadcast ok)] s
    simp only [sysRun, List.append_nil, appPart, appRun] at h1 h2
    exact ⟨h2, h1⟩
  obtain ⟨h1, h2⟩ := hs _ hh.running ok
  rw [h1, h2]
  by_cases hl : n < limit
  · have hr : ok = true := generous_at hgen hn hl
    subst hr
    have := appStep_broadcast_supplied _ hh hb a ha
    exact ⟨⟨fun _ => hl, fun _ => this.1⟩, ⟨fun _ => hl, fun _ => this.2⟩⟩
  · have hr : ok = false := limitedSys_at hlim hn (by omega)
    subst hr
    rw [appStep_broadcast_refused _ hh hb a ha]
    exact ⟨⟨fun h => absurd rfl h, fun h => absurd h hl⟩, ⟨fun h => absurd h (by simp), fun h => absurd h hl⟩⟩

/-! ## A way to get there -/

theorem getportCall_step (e : Endian) (m : Mode) (db : Db) (s : System F) (hr : s.app.running = true)
    (hp : s.services.rpc.portmap = true) (g : GetportCall) (hg : g.Good) (n : Nat) (h : Uses s n) :
    ∃ s', sysStep e m db s g.action = ([g.answer], s') ∧ s'.app = s.app ∧ s'.services.rpc.portmap = true ∧
      Uses s' (n + 1) := by
  obtain ⟨q, hf, hx, hm⟩ := (C81_call_iff _ _ _).1 hg
  obtain ⟨t, ht⟩ : ∃ t : RpcTask F, spawned q.call.procedure = some t := by
    obtain ⟨b, hb⟩ := hm.of_getport
    rw [hb]
    cases hpr : b.program with
    | nfs => exact ⟨.nfs .start, by simp [spawned, hpr]⟩
    | portmap => exact ⟨.program true, by simp [spawned, hpr]⟩
    | mount => exact ⟨.program true, by simp [spawned, hpr]⟩
  obtain ⟨k, hk, rfl⟩ := h
  refine ⟨⟨s.app, ⟨⟨true, s.services.rpc.tasks ++ [(g.bound, t)]⟩, s.services.accepting⟩, s.mains, s.lib, s.status⟩,
    ?_, ?_, ?_, ⟨k + 1, ?_, ?_⟩⟩
  · simp only [GetportCall.action, sysStep, hr, if_true, servicesStep, rpcStep]
    rw [portmapStep_request _ g.bound g.data g.peer q hf s.services.rpc hp rfl, ht]
    simp [GetportCall.answer, hx]
  · rfl
  · rfl
  · exact rpcUses_append hk (spawned_uses ht g.bound)
  · simp only [mainUses]; omega

theorem getportCalls_run (e : Endian) (m : Mode) (db : Db) (gs : List GetportCall) (hg : ∀ g ∈ gs, g.Good)
    (s : System F) (hr : s.app.running = true) (hp : s.services.rpc.portmap = true) (n : Nat) (h : Uses s n) :
    (sysRun e m db s (gs.map GetportCall.action)).1 = gs.map GetportCall.answer ∧
    (sysRun e m db s (gs.map GetportCall.action)).2.app = s.app ∧
    Uses (sysRun e m db s (gs.map GetportCall.action)).2 (n + gs.length) ∧
    LimitedSys e m db (n + gs.length) s (gs.map GetportCall.action ++ [.app (.broadcast false)]) := by
  induction gs generalizing s n with
  | nil => exact ⟨rfl, rfl, h, fun _ _ _ => rfl, trivial⟩
  | cons g gs ih =>
    obtain ⟨s', h1, h2, h3, h4⟩ := getportCall_step e m db s hr hp g (hg g List.mem_cons_self) n h
    obtain ⟨i1, i2, i3, i4⟩ := ih (fun g' hg' => hg g' (List.mem_cons_of_mem _ hg')) s' (by rw [h2]; exact hr) h3
      (n + 1) h4
    rw [show n + 1 + gs.length = n + (g :: gs).length by simp only [List.length_cons]; omega] at i3 i4
    simp only [List.map_cons, sysRun, h1, i1, i2, h2, List.singleton_append]
    refine ⟨trivial, trivial, i3, ?_, ?_⟩
    · intro k hk hl
      have := uses_unique h hk
      simp only [List.length_cons] at hl
      omega
    · rw [h1]
      exact i4

/-- After the announcement of a player, and things of other services (`mid`) that take all there is. -/
theorem silenced_by (e : Endian) (m : Mode) (db : Db) (ifaces : List Interface) (d : Bytes) (a : Announcement)
    (n : PioneerNetwork) (ha : Accepted d a) (hn : FirstMatch ifaces a.ip n) (limit : Nat)
    (mid : List (SysAction F)) (out : List SysOut) (hmid : ∀ ys, appPart (mid ++ ys) = appPart ys)
    (hrun : ∀ st : AppSystem, st.running = true →
      (sysRun e m db { System.start with app := st } mid).1 = out ∧
      LimitedSys e m db limit { System.start with app := st } (mid ++ [.app (.broadcast false)])) :
    let hist : List (SysAction F) := .app (.receive ifaces d) :: mid
    LimitedSys e m db limit .start (hist ++ [.app (.broadcast false)]) ∧
    (sysRun e m db .start hist).1 = out ∧
    (∀ ys, broadcastsOf (sysRun e m db .start (hist ++ .app (.broadcast false) :: ys)).1 = [] ∧
      (sysRun e m db .start (hist ++ .app (.broadcast false) :: ys)).2.app.state.players.map Player.address =
        [a.ip]) ∧
    ∀ oks, (sysRun e m db .start (hist ++ [.app (.broadcast false), .app .appRecv, .app .appRecv,
      .app (.appLink oks)])).2.app.running = false := by
  intro hist
  obtain ⟨st, hst⟩ : ∃ st, appStep .start (.receive ifaces d) = ([], st) := ⟨_, rfl⟩
  have hstep : sysStep e m db (.start : System F) (.app (.receive ifaces d)) = ([], { System.start with app := st }) := by
    simp only [sysStep, System.start] at hst ⊢
    rw [hst]
    rfl
  have hm : ¬ MacMissing ifaces a.ip := by
    intro h
    have := (C55_panics_exactly _ _).2 h
    rw [(firstMatch_iff _ _ _).1 hn] at this
    exact nomatch this
  have hq := C50_events_of_announcement .start exampleHealthy ifaces d a ha hm
  rw [hst] at hq
  have key : Healthy st ∧ st.broadcaster = true ∧ st.pending = false ∧ st.state.address = some n ∧
      st.state.players.map Player.address = [a.ip] := by
    have hto := stepTo .start (.receive ifaces d)
    rw [hst] at hto
    simp only at hto
    cases hto with
    | dead h => exact nomatch h
    | ignored _ h =>
      rcases h with h | h | h
      · exact nomatch h
      · exact nomatch h
      · exact absurd ha (h a)
    | macMissing _ ha' hp =>
      obtain rfl := announcement_unique ha.1 ha'.1
      exact absurd ((C55_panics_exactly _ _).1 hp) hm
    | heard _ ha' hp =>
      obtain rfl := announcement_unique ha.1 ha'.1
      rw [(firstMatch_iff _ _ _).1 hn] at hp
      cases hp
      exact ⟨⟨rfl, rfl, rfl⟩, rfl, rfl, rfl, rfl⟩
  obtain ⟨hh, hb, hpe, had, hpl⟩ := key
  have hbf := appStep_broadcast_refused st hh hb n had
  obtain ⟨g1, g4⟩ := hrun st hh.running
  have happ : ∀ ys : List (SysAction F), appPart (hist ++ ys) = .receive ifaces d :: appPart ys := by
    intro ys
    show AppAction.receive ifaces d :: appPart (mid ++ ys) = _
    rw [hmid]
  refine ⟨⟨fun _ _ _ => trivial, ?_⟩, ?_, fun ys => ?_, fun oks => ?_⟩
  · rw [hstep]
    exact g4
  · simp only [hist, sysRun, hstep, g1, List.nil_append]
  · obtain ⟨h1, h2⟩ := app_undisturbed e m db (hist ++ .app (.broadcast false) :: ys) (.start : System F)
    rw [h1, h2, happ]
    obtain ⟨h3, h4⟩ := appRun_poisoned (appPart ys) { st with broadcaster := false, poisoned := true } rfl rfl
    show (appRun .start (.receive ifaces d :: .broadcast false :: appPart ys)).1 = [] ∧
      (appRun .start (.receive ifaces d :: .broadcast false :: appPart ys)).2.state.players.map Player.address = _
    simp only [appRun, hst, hbf, h3, h4, hpl]
    exact ⟨by trivial, by trivial⟩
  · obtain ⟨h2, _⟩ := app_undisturbed e m db (hist ++ [.app (.broadcast false), .app .appRecv, .app .appRecv,
      .app (.appLink oks)]) (.start : System F)
    rw [h2, happ]
    show (appRun .start [.receive ifaces d, .broadcast false, .appRecv, .appRecv, .appLink oks]).2.running = false
    simp only [appRun, hst, hbf]
    have hq' : st.queue = [.deviceChange, .initiateLink] := hq
    simp [appStep, hh.running, hpe, appRecvStep, hq', appLinkStep]

/-- C106, the negation: for every limit of the OS there is a history like this.  A player announces itself, and as
many GETPORT calls come as the OS gives sockets; all are answered.  At its next turn the broadcaster ends; from then on,
whatever happens, nothing is broadcast and the players known stay the same; when the main thread acts on the link
request of the player, the process ends. -/
theorem C106_getports (e : Endian) (m : Mode) (db : Db) (ifaces : List Interface) (d : Bytes) (a : Announcement)
    (n : PioneerNetwork) (ha : Accepted d a) (hn : FirstMatch ifaces a.ip n) (gs : List GetportCall)
    (hg : ∀ g ∈ gs, g.Good) :
    let hist : List (SysAction F) := .app (.receive ifaces d) :: gs.map GetportCall.action
    LimitedSys e m db gs.length .start (hist ++ [.app (.broadcast false)]) ∧
    (sysRun e m db .start hist).1 = gs.map GetportCall.answer ∧
    (∀ ys, broadcastsOf (sysRun e m db .start (hist ++ .app (.broadcast false) :: ys)).1 = [] ∧
      (sysRun e m db .start (hist ++ .app (.broadcast false) :: ys)).2.app.state.players.map Player.address =
        [a.ip]) ∧
    ∀ oks, (sysRun e m db .start (hist ++ [.app (.broadcast false), .app .appRecv, .app .appRecv,
      .app (.appLink oks)])).2.app.running = false := by
  refine silenced_by e m db ifaces d a n ha hn gs.length _ _ ?_ ?_
  · intro ys
    clear hg
    induction gs with
    | nil => rfl
    | cons g gs ih => exact ih
  · intro st hr
    obtain ⟨g1, _, _, g4⟩ := getportCalls_run e m db gs hg { System.start with app := st } hr rfl 0
      ⟨0, .nil, rfl⟩
    rw [Nat.zero_add] at g4
    exact ⟨g1, g4⟩

theorem accepts_run (e : Endian) (m : Mode) (db : Db) (cs : List Nat) (s : System F)
    (hr : s.app.running = true) (hacc : s.services.accepting = true) (hd : s.lib.deadMains = []) (n : Nat)
    (h : Uses s n) :
    (sysRun e m db s (cs.map .accept)).1 = [] ∧
    LimitedSys e m db (n + cs.length) s (cs.map .accept ++ [.app (.broadcast false)]) := by
  induction cs generalizing s n with
  | nil => exact ⟨rfl, fun _ _ _ => rfl, trivial⟩
  | cons c cs ih =>
    have h1 : sysStep e m db s (.accept c) = ([], { s with mains := c :: s.mains }) := by
      simp only [sysStep, hr, if_true, hacc]
    have h4 : Uses { s with mains := c :: s.mains } (n + 1) := by
      obtain ⟨k, hk, rfl⟩ := h
      refine ⟨k, hk, ?_⟩
      simp [mainUses, hd]
      omega
    obtain ⟨i1, i4⟩ := ih { s with mains := c :: s.mains } hr hacc hd (n + 1) h4
    rw [show n + 1 + cs.length = n + (c :: cs).length by simp only [List.length_cons]; omega] at i4
    simp only [List.map_cons, sysRun, h1, i1, List.nil_append]
    refine ⟨trivial, ?_, ?_⟩
    · intro k hk hl
      have := uses_unique h hk
      simp only [List.length_cons] at hl
      omega
    · rw [h1]
      exact i4

/-- C106, the negation, without any request: as many connections to the library's well-known port as the OS gives
sockets, on which nothing is ever sent, have the same effect. -/
theorem C106_connections (e : Endian) (m : Mode) (db : Db) (ifaces : List Interface) (d : Bytes) (a : Announcement)
    (n : PioneerNetwork) (ha : Accepted d a) (hn : FirstMatch ifaces a.ip n) (cs : List Nat) :
    let hist : List (SysAction F) := .app (.receive ifaces d) :: cs.map .accept
    LimitedSys e m db cs.length .start (hist ++ [.app (.broadcast false)]) ∧
    (sysRun e m db .start hist).1 = [] ∧
    (∀ ys, broadcastsOf (sysRun e m db .start (hist ++ .app (.broadcast false) :: ys)).1 = [] ∧
      (sysRun e m db .start (hist ++ .app (.broadcast false) :: ys)).2.app.state.players.map Player.address =
        [a.ip]) ∧
    ∀ oks, (sysRun e m db .start (hist ++ [.app (.broadcast false), .app .appRecv, .app .appRecv,
      .app (.appLink oks)])).2.app.running = false := by
  refine silenced_by e m db ifaces d a n ha hn cs.length _ _ ?_ ?_
  · intro ys
    induction cs with
    | nil => rfl
    | cons g gs ih => exact ih
  · intro st hr
    have := accepts_run (F := F) e m db cs { System.start with app := st } hr rfl rfl 0 ⟨0, .nil, rfl⟩
    rw [Nat.zero_add] at this
    exact this

/-! ## Instances -/

/-- A GETPORT call for NFS. -/
def getportSample (h : Hdr) (peer : Addr) (bound : UInt16) : GetportCall :=
  ⟨callDatagram h (.pmapGetport 100003 2 0), peer, h.xid, 100003, 2, 0, bound⟩

theorem getportSample_good (h : Hdr) (peer : Addr) (bound : UInt16) : (getportSample h peer bound).Good :=
  isCall_callDatagram h _ _ _ (.getportNfs 2 0) (by intro p; simp)

/-- C106, non-vacuity: for a limit of 1000, a thousand times the same call. -/
example (e : Endian) (m : Mode) (db : Db) (h : Hdr) (peer : Addr) (bound : UInt16) :=
  C106_getports (F := F) e m db exampleInterfaces exampleDatagram exampleAnnouncement exampleNetwork
    exampleDatagram_accepted exampleMatch (List.replicate 1000 (getportSample h peer bound))
    (fun g hg => by rw [(List.mem_replicate.1 hg).2]; exact getportSample_good h peer bound)

/-- C106, non-vacuity: a thousand connections. -/
example (e : Endian) (m : Mode) (db : Db) :=
  C106_connections (F := F) e m db exampleInterfaces exampleDatagram exampleAnnouncement exampleNetwork
    exampleDatagram_accepted exampleMatch (List.range 1000)

/-- C106, non-vacuity: a connection that is closed again, and one that stays. -/
example (e : Endian) (m : Mode) (db : Db) :
    ∃ n, Uses (sysRun (F := F) e m db .start [.accept 0, .accept 1, .hangup 0]).2 n ∧ n ≤ 2 :=
  C106_bound e m db _ 2 (.ask .accept (.ask .accept (.other (fun h => nomatch h) .nil)))

/-- C106, non-vacuity: a connection that is given back. -/
example (e : Endian) (m : Mode) (db : Db) (k : Nat)
    (h : Uses (sysRun (F := F) e m db .start [.accept 0, .main 0 (some 4711), .handler 0 .connect]).2 k) :=
  (C106_given_back e m db _ rfl k h).1 0 (List.Mem.head []) (List.not_mem_nil (a := 0))
example (e : Endian) (m : Mode) (db : Db) (k : Nat)
    (h : Uses (sysRun (F := F) e m db .start [.accept 0, .main 0 (some 4711), .handler 0 .connect]).2 k) :=
  (C106_given_back e m db _ rfl k h).2 0 4711 none rfl

/-- C106, non-vacuity: two GETPORT calls. -/
example (e : Endian) (m : Mode) (db : Db) (h : Hdr) (peer : Addr) (b b' : UInt16) :
    ∃ n, Uses (sysRun (F := F) e m db .start [(getportSample h peer b).action, (getportSample h peer b').action]).2 n
      ∧ n ≤ 2 :=
  C106_bound e m db _ 2 (.ask (.getport (getportSample_good h peer b))
    (.ask (.getport (getportSample_good h peer b')) .nil))

/-- C106, non-vacuity: a broadcast below the limit. -/
example (e : Endian) (m : Mode) (db : Db) :=
  C106_up_partial (F := F) e m db 1 [.app (.broadcast true)] 0 ⟨fun _ _ _ => rfl, trivial⟩
    (.other (fun h => nomatch h) .nil) (by decide) (by simp [AllLocal, appPart]) (by simp) (by simp)

/-- C106, non-vacuity: with a limit of 0 the first broadcast fails. -/
example (e : Endian) (m : Mode) (db : Db) :=
  C106_silenced (F := F) e m db 0 [.app (.receive exampleInterfaces exampleDatagram)] [.status .ioError] false 0
    ⟨fun _ _ _ => trivial, fun _ _ _ => rfl, fun _ _ _ => trivial, trivial⟩ ⟨0, .nil, rfl⟩
    (Nat.le_refl _) ⟨rfl, rfl, rfl⟩ rfl exampleNetwork rfl

/-- C106, non-vacuity: with a limit of 1 and a connection that is open the first broadcast fails, without it the
application is announced. -/
example (e : Endian) (m : Mode) (db : Db) := And.intro
  (C106_announced_iff (F := F) e m db 1 [.app (.receive exampleInterfaces exampleDatagram)] [] true 0
    ⟨fun _ _ _ => trivial, fun n hn hl => absurd hl (by
      obtain ⟨k, hk, rfl⟩ := hn
      cases hk
      decide), trivial⟩ ⟨fun _ _ _ => trivial, fun _ _ _ => rfl, trivial⟩ ⟨0, .nil, rfl⟩
    ⟨rfl, rfl, rfl⟩ rfl exampleNetwork rfl)
  (C106_announced_iff (F := F) e m db 1 [.app (.receive exampleInterfaces exampleDatagram), .accept 0] [] false 1
    ⟨fun _ _ _ => trivial, fun n hn hl => absurd hl (by
      obtain ⟨k, hk, rfl⟩ := hn
      cases hk
      decide), fun _ _ _ => rfl, trivial⟩
    ⟨fun _ _ _ => trivial, fun _ _ _ => trivial, fun n hn hl => absurd hl (by
      obtain ⟨k, hk, rfl⟩ := hn
      cases hk
      exact Nat.lt_irrefl 1), trivial⟩ ⟨0, .nil, rfl⟩
    ⟨rfl, rfl, rfl⟩ rfl exampleNetwork rfl)

end PDJ

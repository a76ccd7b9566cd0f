import Verif.Model.Startup
import Verif.Spec.Startup
import Verif.Lemmas.System

/-!
# Property C88: which services run after start-up
-/

namespace PDJ

open Spec

variable {F : Type}

theorem rpcSent_append (a b : List SysOut) : rpcSent (a ++ b) = rpcSent a ++ rpcSent b := by
  simp [rpcSent]

theorem libSent_append (a b : List SysOut) : libSent (a ++ b) = libSent a ++ libSent b := by
  simp [libSent]

/-- Two processes whose application threads and status servers are in the same state send the same
broadcasts and status datagrams in the same history; if their RPC services are in the same state, the
same RPC datagrams. -/
theorem twins (e : Endian) (m : Mode) (db : Db) (xs : List (SysAction F)) (s t : System F)
    (ha : s.app = t.app) (hs : s.status = t.status) :
    broadcastsOf (sysRun e m db s xs).1 = broadcastsOf (sysRun e m db t xs).1 ∧
    statusOf (sysRun e m db s xs).1 = statusOf (sysRun e m db t xs).1 ∧
    (s.services.rpc = t.services.rpc →
      rpcSent (sysRun e m db s xs).1 = rpcSent (sysRun e m db t xs).1) := by
  induction xs generalizing s t with
  | nil => exact ⟨rfl, rfl, fun _ => rfl⟩
  | cons x xs ih =>
    have step : (sysStep e m db s x).2.app = (sysStep e m db t x).2.app ∧
        (sysStep e m db s x).2.status = (sysStep e m db t x).2.status ∧
        broadcastsOf (sysStep e m db s x).1 = broadcastsOf (sysStep e m db t x).1 ∧
        statusOf (sysStep e m db s x).1 = statusOf (sysStep e m db t x).1 ∧
        (s.services.rpc = t.services.rpc →
          (sysStep e m db s x).2.services.rpc = (sysStep e m db t x).2.services.rpc ∧
          rpcSent (sysStep e m db s x).1 = rpcSent (sysStep e m db t x).1) := by
      by_cases hr : s.app.running = true
      · have hr' : t.app.running = true := ha ▸ hr
        cases x with
        | app y =>
          simp only [sysStep, hr', if_true, ha, hs]
          exact ⟨trivial, trivial, trivial, trivial, fun h => ⟨h, trivial⟩⟩
        | status r =>
          simp only [sysStep, hr', if_true, ha, hs]
          exact ⟨trivial, trivial, trivial, trivial, fun h => ⟨h, trivial⟩⟩
        | portmap os b r =>
          simp only [sysStep, hr, hr', if_true]
          refine ⟨ha, hs, ?_, ?_, fun h => ⟨?_, ?_⟩⟩
          · exact (filterMap_map_none _ _ _ (fun _ => rfl)).trans
              (filterMap_map_none _ _ _ (fun _ => rfl)).symm
          · exact (filterMap_map_none _ _ _ (fun _ => rfl)).trans
              (filterMap_map_none _ _ _ (fun _ => rfl)).symm
          · simp only [servicesStep, h]
          · simp only [servicesStep, h]
        | port p ev =>
          simp only [sysStep, hr, hr', if_true]
          refine ⟨ha, hs, ?_, ?_, fun h => ⟨?_, ?_⟩⟩
          · exact (filterMap_map_none _ _ _ (fun _ => rfl)).trans
              (filterMap_map_none _ _ _ (fun _ => rfl)).symm
          · exact (filterMap_map_none _ _ _ (fun _ => rfl)).trans
              (filterMap_map_none _ _ _ (fun _ => rfl)).symm
          · simp only [servicesStep, h, ha]
          · simp only [servicesStep, h, ha]
        | accept c =>
          simp only [sysStep, hr, hr', if_true]
          refine ⟨?_, ?_, trivial, trivial, fun h => ⟨?_, trivial⟩⟩ <;>
            split <;> split <;> assumption
        | hangup c =>
          simp only [sysStep, hr, hr', if_true]
          exact ⟨ha, hs, trivial, trivial, fun h => ⟨h, trivial⟩⟩
        | main c b =>
          have hb : ∀ l : List LibOut, broadcastsOf (l.map .lib) = [] := fun l =>
            filterMap_map_none _ _ _ (fun _ => rfl)
          have ht : ∀ l : List LibOut, statusOf (l.map .lib) = [] := fun l =>
            filterMap_map_none _ _ _ (fun _ => rfl)
          have hp : ∀ l : List LibOut, rpcSent (l.map .lib) = [] := fun l =>
            filterMap_map_none _ _ _ (fun _ => rfl)
          have e1 : broadcastsOf [] = [] := rfl
          have e2 : statusOf [] = [] := rfl
          have e3 : rpcSent [] = [] := rfl
          simp only [sysStep, hr, hr', if_true]
          refine ⟨?_, ?_, ?_, ?_, fun h => ⟨?_, ?_⟩⟩ <;>
            split <;> split <;> simp only [hb, ht, hp, e1, e2, e3] <;> assumption
        | handler k ev =>
          simp only [sysStep, hr, hr', if_true]
          refine ⟨ha, hs, ?_, ?_, fun h => ⟨h, ?_⟩⟩ <;>
          exact (filterMap_map_none _ _ _ (fun _ => rfl)).trans
              (filterMap_map_none _ _ _ (fun _ => rfl)).symm
      · have h1 : s.app.running = false := by simpa using hr
        have h2 : t.app.running = false := ha ▸ h1
        rw [sysStep_ended e m db s h1, sysStep_ended e m db t h2]
        exact ⟨ha, hs, rfl, rfl, fun h => ⟨h, rfl⟩⟩
    obtain ⟨a1, a2, a3, a4, a5⟩ := step
    obtain ⟨i1, i2, i3⟩ := ih _ _ a1 a2
    simp only [sysRun, broadcastsOf_append, statusOf_append, rpcSent_append]
    refine ⟨by rw [a3, i1], by rw [a4, i2], fun h => ?_⟩
    rw [(a5 h).2, i3 (a5 h).1]

/-- Without accepting, no connection is ever served. -/
theorem silent_library (e : Endian) (m : Mode) (db : Db) (xs : List (SysAction F)) (s : System F)
    (ha : s.services.accepting = false) (hm : s.mains = []) (hl : s.lib.handlers = []) :
    libSent (sysRun e m db s xs).1 = [] := by
  induction xs generalizing s with
  | nil => rfl
  | cons x xs ih =>
    have step : (sysStep e m db s x).2.services.accepting = false ∧ (sysStep e m db s x).2.mains = [] ∧
        (sysStep e m db s x).2.lib.handlers = [] ∧ libSent (sysStep e m db s x).1 = [] := by
      by_cases hr : s.app.running = true
      · cases x with
        | app y =>
          simp only [sysStep, hr, if_true]
          exact ⟨ha, hm, hl, filterMap_map_none _ _ _ (fun _ => rfl)⟩
        | status r =>
          simp only [sysStep, hr, if_true]
          exact ⟨ha, hm, hl, filterMap_map_none _ _ _ (fun _ => rfl)⟩
        | portmap os b r =>
          simp only [sysStep, hr, if_true, servicesStep, ha, Bool.false_and]
          exact ⟨trivial, hm, hl, filterMap_map_none _ _ _ (fun _ => rfl)⟩
        | port p ev =>
          simp only [sysStep, hr, if_true, servicesStep, ha, Bool.false_and]
          exact ⟨trivial, hm, hl, filterMap_map_none _ _ _ (fun _ => rfl)⟩
        | accept c =>
          simp only [sysStep, hr, if_true, ha, Bool.false_eq_true, if_false]
          exact ⟨trivial, hm, hl, rfl⟩
        | hangup c =>
          simp only [sysStep, hr, if_true, hm]
          exact ⟨ha, rfl, hl, rfl⟩
        | main c b =>
          simp only [sysStep, hr, if_true]
          rw [if_neg (by rw [hm]; simp)]
          exact ⟨ha, hm, hl, rfl⟩
        | handler k ev =>
          have e1 : libStep m db s.lib (.handler k ev) = ([], s.lib) := by
            simp [libStep, hl]
          simp only [sysStep, hr, if_true, e1]
          exact ⟨ha, hm, hl, rfl⟩
      · have h1 : s.app.running = false := by simpa using hr
        rw [sysStep_ended e m db s h1]
        exact ⟨ha, hm, hl, rfl⟩
    obtain ⟨a1, a2, a3, a4⟩ := step
    simp only [sysRun, libSent_append, a4, ih _ a1 a2 a3, List.append_nil]

/-- Without a portmapper, there are no RPC handlers and nothing is answered. -/
theorem silent_rpc (e : Endian) (m : Mode) (db : Db) (xs : List (SysAction F)) (s : System F)
    (hp : s.services.rpc = ⟨false, []⟩) : rpcSent (sysRun e m db s xs).1 = [] := by
  induction xs generalizing s with
  | nil => rfl
  | cons x xs ih =>
    have step : (sysStep e m db s x).2.services.rpc = ⟨false, []⟩ ∧
        rpcSent (sysStep e m db s x).1 = [] := by
      by_cases hr : s.app.running = true
      · cases x with
        | app y =>
          simp only [sysStep, hr, if_true]
          exact ⟨hp, filterMap_map_none _ _ _ (fun _ => rfl)⟩
        | status r =>
          simp only [sysStep, hr, if_true]
          exact ⟨hp, filterMap_map_none _ _ _ (fun _ => rfl)⟩
        | portmap os b r =>
          simp only [sysStep, hr, if_true, servicesStep, rpcStep, hp, portmapStep,
            Bool.false_eq_true, if_false]
          exact ⟨trivial, rfl⟩
        | port p ev =>
          simp only [sysStep, hr, if_true, servicesStep, rpcStep, hp, deliver]
          exact ⟨trivial, rfl⟩
        | accept c =>
          simp only [sysStep, hr, if_true]
          split <;> exact ⟨hp, rfl⟩
        | hangup c =>
          simp only [sysStep, hr, if_true]
          exact ⟨hp, rfl⟩
        | main c b =>
          simp only [sysStep, hr, if_true]
          split
          · exact ⟨hp, filterMap_map_none _ _ _ (fun _ => rfl)⟩
          · exact ⟨hp, rfl⟩
        | handler k ev =>
          simp only [sysStep, hr, if_true]
          exact ⟨hp, filterMap_map_none _ _ _ (fun _ => rfl)⟩
      · have h1 : s.app.running = false := by simpa using hr
        rw [sysStep_ended e m db s h1]
        exact ⟨hp, rfl⟩
    obtain ⟨a1, a2⟩ := step
    simp only [sysRun, rpcSent_append, a2, ih _ a1, List.append_nil]

/-- C88: if all ports are free and the music folder can be indexed, the process starts with all
services; this is the start of the histories in C77 - C80. -/
theorem C88_all_free (db : Db) : boot (F := F) ⟨true, true, true, true, true⟩ (.ok db) = .start := rfl

/-- C88: if the keep-alive port or the status port is taken, the keep-alive socket may not broadcast, or
indexing the music folder panics, no service ever sends anything. -/
theorem C88_needed (e : Endian) (m : Mode) (db : Db) (b : Binds) (indexed : Outcome Db)
    (h : indexed = .panic ∨ b.keepalive = false ∨ b.broadcast = false ∨ b.status = false)
    (xs : List (SysAction F)) : (sysRun e m db (boot b indexed) xs).1 = [] := by
  have hr : (boot b indexed : System F).app.running = false := by
    unfold boot
    cases indexed with
    | panic => rfl
    | ok d =>
      rcases h with h | h
      · exact nomatch h
      · simp only [h, if_true]
  rw [sysRun_ended e m db xs _ hr]

/-- C88: if only the library's port is taken, the library never sends anything, and all other services
send exactly what they would send otherwise. -/
theorem C88_library_port_taken (e : Endian) (m : Mode) (db : Db) (xs : List (SysAction F)) :
    let o := (sysRun e m db (boot ⟨true, true, true, true, false⟩ (.ok db)) xs).1
    let all := (sysRun (F := F) e m db .start xs).1
    libSent o = [] ∧ broadcastsOf o = broadcastsOf all ∧ statusOf o = statusOf all ∧
      rpcSent o = rpcSent all := by
  obtain ⟨h1, h2, h3⟩ := twins (F := F) e m db xs (boot ⟨true, true, true, true, false⟩ (.ok db)) .start
    rfl rfl
  exact ⟨silent_library e m db xs _ rfl rfl rfl, h1, h2, h3 rfl⟩

/-- C88 (full claim: a taken port disables the service on that port only).  Missing: the claim is false
for the portmapper's port; what holds is that announcements, linking and status replies go on exactly as
otherwise. -/
theorem C88_portmap_port_taken_partial (e : Endian) (m : Mode) (db : Db) (library : Bool)
    (xs : List (SysAction F)) :
    let o := (sysRun e m db (boot ⟨true, true, true, false, library⟩ (.ok db)) xs).1
    let all := (sysRun (F := F) e m db .start xs).1
    rpcSent o = [] ∧ broadcastsOf o = broadcastsOf all ∧ statusOf o = statusOf all := by
  obtain ⟨h1, h2, _⟩ := twins (F := F) e m db xs (boot ⟨true, true, true, false, library⟩ (.ok db))
    .start rfl rfl
  exact ⟨silent_rpc e m db xs _ rfl, h1, h2⟩

/-- C88, the negation: with the portmapper's port taken the library is silent too, although its own
port is free; otherwise it would have answered. -/
theorem C88_portmap_port_silences_library (e : Endian) (m : Mode) (db : Db) :
    (∀ xs : List (SysAction F),
      libSent (sysRun e m db (boot ⟨true, true, true, false, true⟩ (.ok db)) xs).1 = []) ∧
    ∃ xs : List (SysAction F), libSent (sysRun e m db .start xs).1 ≠ [] :=
  ⟨fun xs => silent_library e m db xs _ rfl rfl rfl, [.accept 0, .main 0 (some 50000)], by
    simp [sysRun, sysStep, System.start, AppSystem.start, Services.start, LibServer.start, libStep,
      libSent]⟩

theorem status_witness (e : Endian) (m : Mode) (db : Db) :
    ∃ xs : List (SysAction F), statusOf (sysRun e m db .start xs).1 ≠ [] := by
  refine ⟨[.status (.datagram (ownHeader 0x10 1 ++ []) 7)], ?_⟩
  have h : sysStep e m db (.start : System F) (.status (.datagram (ownHeader 0x10 1 ++ []) 7)) =
      ([.status (helloReply, 7, 50002)], .start) := by
    simp only [sysStep, System.start, AppSystem.start, if_true, C56_hello _ 7 1 (exampleHeader 0x10 [])]
    rfl
  simp only [sysRun, h]
  exact List.cons_ne_nil _ _

theorem broadcast_witness (e : Endian) (m : Mode) (db : Db) :
    ∃ xs : List (SysAction F), broadcastsOf (sysRun e m db .start xs).1 ≠ [] := by
  refine ⟨[.app (.receive exampleInterfaces exampleDatagram), .app (.broadcast true)], ?_⟩
  exact List.cons_ne_nil _ _

theorem rpc_witness (e : Endian) (m : Mode) (db : Db) :
    ∃ xs : List (SysAction F), rpcSent (sysRun e m db .start xs).1 ≠ [] := by
  refine ⟨[.portmap (fun _ _ => true) (some 7) (.datagram (callDatagram exampleHdr (.pmapGetport 100003 2 0)) ⟨1, 2⟩)], ?_⟩
  obtain ⟨s', h1, _⟩ := C31_getport_has_listener_partial (F := F) e ⟨true, []⟩ rfl _ _ _ _ _
    exampleGetport ⟨1, 2⟩ 7
    (fun _ _ => true) rfl
  simp only [sysRun, sysStep, System.start, AppSystem.start, if_true, servicesStep, Services.start, RpcSystem.start] 
  rw [h1]
  exact List.cons_ne_nil _ _

/-- C88, exactly: which services ever send anything, whatever happens, by what is free at the start. -/
theorem C88_serves_iff (e : Endian) (m : Mode) (db : Db) (b : Binds) (indexed : Outcome Db) :
    let up := indexed ≠ .panic ∧ b.keepalive = true ∧ b.broadcast = true ∧ b.status = true
    ((∃ xs : List (SysAction F), broadcastsOf (sysRun e m db (boot b indexed) xs).1 ≠ []) ↔ up) ∧
    ((∃ xs : List (SysAction F), statusOf (sysRun e m db (boot b indexed) xs).1 ≠ []) ↔ up) ∧
    ((∃ xs : List (SysAction F), rpcSent (sysRun e m db (boot b indexed) xs).1 ≠ []) ↔ up ∧ b.portmap = true) ∧
    ((∃ xs : List (SysAction F), libSent (sysRun e m db (boot b indexed) xs).1 ≠ []) ↔
      up ∧ b.portmap = true ∧ b.library = true) := by
  intro up
  by_cases hu : up
  · obtain ⟨h0, h1, h2, h3⟩ := hu
    obtain ⟨ka, bc, st, pm, lb⟩ := b
    simp only at h1 h2 h3
    subst h1 h2 h3
    cases indexed with
    | panic => exact absurd rfl h0
    | ok d =>
      have hup : up := ⟨h0, rfl, rfl, rfl⟩
      have hb : (boot ⟨true, true, true, pm, lb⟩ (.ok d) : System F) =
        { (System.start : System F) with services := ⟨⟨pm, []⟩, pm && lb⟩ } := rfl
      have ht := fun xs => twins (F := F) e m db xs (boot ⟨true, true, true, pm, lb⟩ (.ok d)) .start rfl rfl
      refine ⟨⟨fun _ => hup, fun _ => ?_⟩, ⟨fun _ => hup, fun _ => ?_⟩, ⟨?_, ?_⟩, ?_, ?_⟩
      · obtain ⟨xs, h⟩ := broadcast_witness (F := F) e m db
        exact ⟨xs, by rw [(ht xs).1]; exact h⟩
      · obtain ⟨xs, h⟩ := status_witness (F := F) e m db
        exact ⟨xs, by rw [(ht xs).2.1]; exact h⟩
      · rintro ⟨xs, h⟩
        cases pm with
        | true => exact ⟨hup, rfl⟩
        | false => exact absurd (silent_rpc e m db xs _ rfl) h
      · rintro ⟨_, hp⟩
        obtain rfl : pm = true := hp
        obtain ⟨xs, h⟩ := rpc_witness (F := F) e m db
        exact ⟨xs, by rw [(ht xs).2.2 rfl]; exact h⟩
      · rintro ⟨xs, h⟩
        cases pm with
        | true =>
          cases lb with
          | true => exact ⟨hup, rfl, rfl⟩
          | false => exact absurd (silent_library e m db xs _ rfl rfl rfl) h
        | false => exact absurd (silent_library e m db xs _ rfl rfl rfl) h
      · rintro ⟨_, hp, hl⟩
        obtain rfl : pm = true := hp
        obtain rfl : lb = true := hl
        exact (C88_portmap_port_silences_library (F := F) e m db).2
  · have hs : ∀ xs : List (SysAction F), (sysRun e m db (boot b indexed) xs).1 = [] := by
      refine C88_needed e m db b indexed ?_
      cases indexed with
      | panic => exact .inl rfl
      | ok d =>
        refine .inr ?_
        cases h1 : b.keepalive <;> cases h2 : b.broadcast <;> cases h3 : b.status <;> simp
        exact hu ⟨by simp, h1, h2, h3⟩
    refine ⟨⟨?_, fun h => absurd h hu⟩, ⟨?_, fun h => absurd h hu⟩, ⟨?_, fun h => absurd h.1 hu⟩,
      ⟨?_, fun h => absurd h.1 hu⟩⟩ <;>
    · rintro ⟨xs, h⟩
      rw [hs xs] at h
      exact absurd rfl h

/-- The keep-alive port taken by another program, everything else fine. -/
example := C88_needed (F := Nat) .little .debug Db.empty ⟨false, true, true, true, true⟩ (.ok Db.empty)
  (Or.inr (Or.inl rfl))

end PDJ

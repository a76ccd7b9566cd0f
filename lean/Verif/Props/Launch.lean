import Verif.Lemmas.Launch
import Verif.Props.Gap

/-!
# Properties C125 and C126: start-up step by step
-/

namespace PDJ

open Spec

variable {F : Type}

/-! ## C126 -/

theorem willAccept_sublist (e : Endian) (m : Mode) (db : Db) (xs : List (LaunchAction F)) (s : Launch F) :
    (willAccept e m db s xs).Sublist ((xs.flatMap seen).filterMap acceptOf) := by
  induction xs generalizing s with
  | nil => exact List.nil_sublist _
  | cons x xs ih =>
    simp only [willAccept, List.flatMap_cons, List.filterMap_append]
    refine List.Sublist.append ?_ (ih _)
    split
    · split
      · exact List.Sublist.refl _
      · exact List.nil_sublist _
    · exact List.nil_sublist _

/-- What a process on its way sends, one started at once can send as well. -/
theorem launch_explained {e : Endian} {m : Mode} {db : Db} (xs : List (LaunchAction F)) (s : Launch F) (t : System F)
    (h : s.sys.app.running = true → SameAs s t (acceptedLate e m db s xs)) :
    ∃ ys, (sysRun e m db t ys).1 = (launchRun e m db s xs).1 ∧
      (unlessAccepts ys).Sublist (unlessAccepts (xs.flatMap seen)) ∧ ys.filterMap acceptOf = due e m db s xs ∧
      ((launchRun e m db s xs).2.sys.app.running = true → SameAs (launchRun e m db s xs).2 (sysRun e m db t ys).2 []) := by
  induction xs generalizing s t with
  | nil =>
    refine ⟨[], rfl, List.nil_sublist _, ?_, fun hr => ?_⟩
    · simp [due, willAccept]
    · have := h hr
      simpa [acceptedLate, willAccept, launchRun, sysRun] using this
  | cons x xs ih =>
    cases hr : s.sys.app.running with
    | false =>
      rw [launchRun_ended e m db _ s hr]
      refine ⟨[], rfl, List.nil_sublist _, ?_, fun hr' => absurd (hr.symm.trans hr') (by decide)⟩
      simp [due, willAccept_ended e m db _ s hr]
    | true =>
      obtain ⟨ys, h1, ⟨h2, h3⟩, h4⟩ := explained x hr (h hr)
      obtain ⟨zs, g1, g2, g3, g4⟩ := ih _ _ h4
      refine ⟨ys ++ zs, ?_, ?_, ?_, fun hr' => ?_⟩
      · rw [sysRun_append]
        simp only [launchRun, h1, g1]
      · simp only [unlessAccepts, List.filter_append, List.flatMap_cons] at *
        exact h2.append g2
      · rw [List.filterMap_append, g3, h3]
      · rw [sysRun_append]
        exact g4 hr'

/-- C126: whatever is sent in a history that begins with the first step of the start, whichever steps fail, is sent in
a history that begins when all services run.  Nothing happens in it that does not happen in the first one, and in the
same order, except that connections to the library may be accepted earlier, and that a portmapper that gets no socket
counts as one that is ended by a reply.  When all threads and tasks have been started it has led to the same state. -/
theorem C126_same (e : Endian) (m : Mode) (db : Db) (xs : List (LaunchAction F)) :
    ∃ ys, (sysRun e m db .start ys).1 = (launchRun e m db .start xs).1 ∧
      (unlessAccepts ys).Sublist (unlessAccepts (xs.flatMap seen)) ∧
      (ys.filterMap acceptOf).Sublist ((xs.flatMap seen).filterMap acceptOf) ∧
      ((launchRun e m db .start xs).2.sys.app.running = true → (launchRun e m db .start xs).2.todo = [] →
        (launchRun e m db .start xs).2.portmapTried = true →
        (sysRun e m db .start ys).2.app = (launchRun e m db .start xs).2.sys.app ∧
        (sysRun e m db .start ys).2.services.rpc = (launchRun e m db .start xs).2.sys.services.rpc ∧
        (sysRun e m db .start ys).2.lib = (launchRun e m db .start xs).2.sys.lib ∧
        (sysRun e m db .start ys).2.status = (launchRun e m db .start xs).2.sys.status ∧
        (sysRun e m db .start ys).2.mains.Perm (launchRun e m db .start xs).2.sys.mains) := by
  have h0 : acceptedLate e m db (.start : Launch F) xs = [] := by simp [acceptedLate, portmapEnded, Launch.start]
  obtain ⟨ys, h1, h2, h3, h4⟩ := launch_explained (e := e) (m := m) (db := db) xs .start .start
    fun _ => by rw [h0]; exact sameAs_start
  refine ⟨ys, h1, h2, ?_, fun hr ht hp => ?_⟩
  · rw [h3]
    have : due e m db (.start : Launch F) xs = willAccept e m db .start xs := by simp [due, portmapEnded, Launch.start]
    rw [this]
    exact willAccept_sublist e m db xs _
  · obtain ⟨g1, g2, -, -, g5, g6, g7, -, -, -, -⟩ := h4 hr
    rw [ht, allStarted_nil] at g1
    rw [hp] at g2
    rw [ht] at g7
    refine ⟨g1, g2, g5, ?_, ?_⟩
    · rw [g7]; simp
    · simpa using g6

/-- A process on its way that has started everything. -/
structure Begun (s : Launch F) (t : System F) : Prop where
  sys : s.sys = t
  todo : s.todo = []
  portmap : s.portmapTried = true
  library : s.libraryTried = true
  joined : s.joined = s.sys.services.rpc.portmap
  accepting : s.sys.services.accepting = s.sys.services.rpc.portmap

theorem launchRun_append (e : Endian) (m : Mode) (db : Db) (xs ys : List (LaunchAction F)) (s : Launch F) :
    launchRun e m db s (xs ++ ys) = ((launchRun e m db s xs).1 ++ (launchRun e m db (launchRun e m db s xs).2 ys).1,
      (launchRun e m db (launchRun e m db s xs).2 ys).2) := by
  induction xs generalizing s with
  | nil => rfl
  | cons x xs ih => simp only [List.cons_append, launchRun, ih, List.append_assoc]

theorem launchRun_launched (e : Endian) (m : Mode) (db : Db) :
    launchRun e m db (.start : Launch F) launched = ([], ⟨[], .start, true, true, true⟩) := by
  simp [launched, List.replicate, launchRun, launchStep, Launch.start, startSteps, Launch.begun, AppSystem.start,
    System.start, Services.start, RpcSystem.start]

/-- The accept loop and the portmapper end together. -/
theorem accepting_step (e : Endian) (m : Mode) (db : Db) (t : System F) (y : SysAction F)
    (h : t.services.accepting = t.services.rpc.portmap) :
    (sysStep e m db t y).2.services.accepting = (sysStep e m db t y).2.services.rpc.portmap ∧
      ((sysStep e m db t y).2.services.rpc.portmap = true → t.services.rpc.portmap = true) := by
  cases hr : t.app.running with
  | false => rw [sysStep_ended e m db t hr]; exact ⟨h, id⟩
  | true =>
    cases y with
    | portmap os b r =>
      simp only [sysStep, hr, if_true, servicesStep, rpcStep]
      have hm : (portmapStep os b r t.services.rpc).2.portmap = true → t.services.rpc.portmap = true := by
        intro h'
        cases hp : t.services.rpc.portmap with
        | true => rfl
        | false => rw [portmapStep_off os b r _ hp, hp] at h'; exact h'
      refine ⟨?_, hm⟩
      rw [h]
      cases hq : (portmapStep os b r t.services.rpc).2.portmap with
      | true => rw [hm hq]; rfl
      | false => simp
    | port p ev =>
      simp only [sysStep, hr, if_true, servicesStep, rpcStep]
      exact ⟨by rw [h, Bool.and_self], id⟩
    | accept c =>
      simp only [sysStep, hr, if_true]
      split <;> exact ⟨h, id⟩
    | main c b =>
      simp only [sysStep, hr, if_true]
      split <;> exact ⟨h, id⟩
    | app y => simp only [sysStep, hr, if_true]; exact ⟨h, id⟩
    | hangup c => simp only [sysStep, hr, if_true]; exact ⟨h, id⟩
    | handler i ev => simp only [sysStep, hr, if_true]; exact ⟨h, id⟩
    | status r => simp only [sysStep, hr, if_true]; exact ⟨h, id⟩

theorem begun_run (e : Endian) (m : Mode) (db : Db) (ys : List (SysAction F)) (s : Launch F) (t : System F)
    (hr : s.sys.app.running = t.app.running) (h : t.app.running = true → Begun s t) :
    (launchRun e m db s (ys.flatMap fun y => [.act y, .supervise])).1 = (sysRun e m db t ys).1 := by
  induction ys generalizing s t with
  | nil => rfl
  | cons y ys ih =>
    cases hrt : t.app.running with
    | false => rw [launchRun_ended e m db _ _ (hr.trans hrt), sysRun_ended e m db _ t hrt]
    | true =>
      obtain ⟨todo, sys, pt, lt, j⟩ := s
      obtain ⟨h1, h2, h3, h4, h5, h6⟩ := h hrt
      simp only at h1 h2 h3 h4 h5 h6
      subst h1 h2 h3 h4 h5
      obtain ⟨k1, k2⟩ := accepting_step e m db sys y h6
      have hs := launchStep_act (e := e) (m := m) (db := db) (y := y)
        (s := (⟨[], sys, true, true, sys.services.rpc.portmap⟩ : Launch F)) hrt (fun _ => rfl)
      simp only [List.flatMap_cons, List.cons_append, List.nil_append, launchRun, sysRun, hs]
      simp only [launchStep]
      cases hr2 : (sysStep e m db sys y).2.app.running with
      | false =>
        simp only [Bool.false_eq_true, if_false, List.nil_append]
        rw [launchRun_ended e m db _ _ hr2, sysRun_ended e m db _ _ hr2]
      | true =>
        simp only [if_true, Bool.and_true, List.nil_append]
        congr 1
        refine ih _ _ ?_ fun _ => ?_
        · split <;> rfl
        · cases hp : (sysStep e m db sys y).2.services.rpc.portmap with
          | true =>
            simp only [Bool.not_true, Bool.and_false, Bool.false_eq_true, if_false]
            rw [hp] at k1
            refine ⟨?_, rfl, rfl, rfl, ?_, ?_⟩
            · rw [h6, k2 hp, ← k1]
            · rw [hp, k2 hp]
            · rw [hp, h6, k2 hp]
          | false =>
            simp only [Bool.not_false, Bool.and_true]
            rw [hp] at k1
            split
            · exact ⟨by simp only [← k1], rfl, rfl, rfl, hp.symm, hp.symm⟩
            · rename_i hq
              have hq' : sys.services.rpc.portmap = false := by simpa using hq
              exact ⟨by simp only [h6, hq', ← k1], rfl, rfl, rfl, hq'.trans hp.symm, (h6.trans hq').trans hp.symm⟩

/-- C126, the converse: whatever is sent in a history that begins when all services run is sent in one that begins
with the first step of the start. -/
theorem C126_all (e : Endian) (m : Mode) (db : Db) (ys : List (SysAction F)) :
    (launchRun e m db .start (launched ++ ys.flatMap fun y => [.act y, .supervise])).1 = (sysRun e m db .start ys).1 := by
  rw [launchRun_append, launchRun_launched]
  exact begun_run e m db ys _ _ rfl fun _ => ⟨rfl, rfl, rfl, rfl, rfl, rfl⟩

/-! ## C125 -/

/-- C125: with nothing in between, the steps lead to the state `boot` gives. -/
theorem C125_boot (e : Endian) (m : Mode) (db : Db) (portmap library : Bool) :
    launchRun e m db (.start : Launch F) (List.replicate 7 (.begin true) ++
      [.portmapBind portmap, .libraryBind library, .supervise]) =
    ([], ⟨[], boot ⟨true, true, true, portmap, library⟩ (.ok db), true, true, portmap && library⟩) := by
  cases portmap <;> cases library <;>
    simp [List.replicate, launchRun, launchStep, Launch.start, startSteps, Launch.begun, AppSystem.start,
      System.start, boot]

/-- A process whose main thread is not in its loop yet. -/
structure Early (s : Launch F) : Prop where
  rpc : s.sys.services.rpc = ⟨false, []⟩
  accepting : s.sys.services.accepting = false
  mains : s.sys.mains = []
  lib : s.sys.lib = .start
  pending : s.sys.app.pending = false
  joined : s.joined = false
  receiver : .receiver ∈ s.todo → s.sys.app.receiver = false ∧ s.sys.app.state.address = none
  status : .statusThread ∈ s.todo → s.sys.status = false
  order : s.todo <:+ startSteps

/-- What may be sent before the main thread is in its loop. -/
def EarlyOut (todo : List StartStep) (o : SysOut) : Prop :=
  .receiver ∉ todo ∧ ((∃ n, o = .broadcast (presence n)) ∨ .statusThread ∉ todo ∧ ∃ d, o = .status d)

theorem todo_step (e : Endian) (m : Mode) (db : Db) (s : Launch F) (x : LaunchAction F) :
    (launchStep e m db s x).2.todo <:+ s.todo := by
  unfold launchStep
  split
  · cases x with
    | begin ok =>
      cases hs : s.todo with
      | nil => simp only [hs]; exact List.suffix_refl _
      | cons t ts =>
        simp only
        split
        · have : ({ s with todo := ts }.begun t).todo = ts := by cases t <;> rfl
          rw [this]
          exact List.suffix_cons _ _
        · rw [← hs]
          exact List.suffix_refl _
    | portmapBind ok => simp only; split <;> exact List.suffix_refl _
    | libraryBind ok => simp only; split <;> exact List.suffix_refl _
    | supervise => simp only; split <;> exact List.suffix_refl _
    | act y => simp only; split <;> exact List.suffix_refl _
  · exact List.suffix_refl _

theorem todo_run (e : Endian) (m : Mode) (db : Db) (xs : List (LaunchAction F)) (s : Launch F) :
    (launchRun e m db s xs).2.todo <:+ s.todo := by
  induction xs generalizing s with
  | nil => exact List.suffix_refl _
  | cons x xs ih => exact (ih _).trans (todo_step e m db s x)

theorem app_early (a : AppSystem) (y : AppAction) (hb : byMain (.app y : SysAction F) = false) :
    (appStep a y).2.pending = a.pending ∧ (∀ o ∈ (appStep a y).1, a.state.address ≠ none ∧ ∃ n, o = presence n) ∧
      (a.receiver = false → (appStep a y).2.receiver = false ∧ (appStep a y).2.state.address = a.state.address) := by
  have hs := stepTo a y
  revert hs
  generalize (appStep a y).1 = o
  generalize (appStep a y).2 = b
  intro hs
  cases hs with
  | dead => exact ⟨rfl, by simp, fun h => ⟨h, rfl⟩⟩
  | ignored => exact ⟨rfl, by simp, fun h => ⟨h, rfl⟩⟩
  | heard hh => exact ⟨rfl, by simp, fun h => absurd (hh.receiver.symm.trans h) (by decide)⟩
  | macMissing hh => exact ⟨rfl, by simp, fun h => ⟨rfl, rfl⟩⟩
  | noBroadcast => exact ⟨rfl, by simp, fun h => ⟨h, rfl⟩⟩
  | broadcast hr hb hp hn =>
    refine ⟨rfl, fun o ho => ?_, fun h => ⟨h, rfl⟩⟩
    rw [List.mem_singleton.1 ho]
    exact ⟨by rw [hn]; simp, _, rfl⟩
  | broadcastFails => exact ⟨rfl, by simp, fun h => ⟨h, rfl⟩⟩
  | _ => exact nomatch hb

theorem order_facts {todo : List StartStep} (h : todo <:+ startSteps) :
    (.receiver ∈ todo → .statusThread ∈ todo) ∧ (todo.head? = some .services → todo = [.services]) := by
  rw [List.suffix_iff_eq_drop] at h
  rw [h]
  exact (show ∀ k < 8, (.receiver ∈ startSteps.drop k → .statusThread ∈ startSteps.drop k) ∧
    ((startSteps.drop k).head? = some .services → startSteps.drop k = [.services]) by decide) _
      (Nat.lt_succ_of_le (Nat.sub_le 7 _))

theorem early_step (e : Endian) (m : Mode) (db : Db) (s : Launch F) (h : Early s) (x : LaunchAction F)
    (ht : (launchStep e m db s x).2.todo ≠ []) :
    Early (launchStep e m db s x).2 ∧ ∀ o ∈ (launchStep e m db s x).1, EarlyOut (launchStep e m db s x).2.todo o := by
  cases hr : s.sys.app.running with
  | false =>
    have hs : launchStep e m db s x = ([], s) := by simp only [launchStep, hr, Bool.false_eq_true, if_false]
    rw [hs]
    exact ⟨h, by simp⟩
  | true =>
    have hne : s.todo ≠ [] := by
      intro h0
      have := todo_step e m db s x
      rw [h0] at this
      exact ht (List.eq_nil_of_suffix_nil this)
    obtain ⟨k1, k2, k3, k4, k5, k6, k7, k8, k9⟩ := h
    cases x with
    | begin ok =>
      cases htodo : s.todo with
      | nil => exact absurd htodo hne
      | cons a ts =>
        have hs : launchStep e m db s (.begin ok) = ([], if ok then { s with todo := ts }.begun a
            else { s with sys := { s.sys with app := { s.sys.app with running := false } } }) := by
          simp only [launchStep, hr, htodo, if_true]
        rw [hs] at ht ⊢
        refine ⟨?_, by simp⟩
        cases ok with
        | false =>
          simp only [Bool.false_eq_true, if_false]
          exact ⟨k1, k2, k3, k4, k5, k6, k7, k8, k9⟩
        | true =>
          simp only [if_true] at ht ⊢
          rw [htodo] at k7 k8 k9
          have hnd : (a :: ts).Nodup := k9.sublist.nodup (by decide)
          have hn : a ∉ ts := (List.nodup_cons.1 hnd).1
          have hsuf := (List.suffix_cons a ts).trans k9
          cases a with
          | services =>
            exact absurd (List.cons.inj ((order_facts k9).2 rfl)).2 ht
          | receiver => exact ⟨k1, k2, k3, k4, k5, k6, fun hm => absurd hm hn, fun hm => k8 (List.mem_cons_of_mem _ hm), hsuf⟩
          | statusThread => exact ⟨k1, k2, k3, k4, k5, k6, fun hm => k7 (List.mem_cons_of_mem _ hm), fun hm => absurd hm hn, hsuf⟩
          | index => exact ⟨k1, k2, k3, k4, k5, k6, fun hm => k7 (List.mem_cons_of_mem _ hm), fun hm => k8 (List.mem_cons_of_mem _ hm), hsuf⟩
          | broadcaster => exact ⟨k1, k2, k3, k4, k5, k6, fun hm => k7 (List.mem_cons_of_mem _ hm), fun hm => k8 (List.mem_cons_of_mem _ hm), hsuf⟩
          | keepalive => exact ⟨k1, k2, k3, k4, k5, k6, fun hm => k7 (List.mem_cons_of_mem _ hm), fun hm => k8 (List.mem_cons_of_mem _ hm), hsuf⟩
          | status => exact ⟨k1, k2, k3, k4, k5, k6, fun hm => k7 (List.mem_cons_of_mem _ hm), fun hm => k8 (List.mem_cons_of_mem _ hm), hsuf⟩
    | portmapBind ok =>
      have hs : launchStep e m db s (.portmapBind ok) = ([], s) := by
        simp [launchStep, hr, hne]
      rw [hs]
      exact ⟨⟨k1, k2, k3, k4, k5, k6, k7, k8, k9⟩, by simp⟩
    | libraryBind ok =>
      have hs : launchStep e m db s (.libraryBind ok) = ([], s) := by
        simp [launchStep, hr, k6]
      rw [hs]
      exact ⟨⟨k1, k2, k3, k4, k5, k6, k7, k8, k9⟩, by simp⟩
    | supervise =>
      have hs : launchStep e m db s .supervise = ([], s) := by
        simp [launchStep, hr, k6]
      rw [hs]
      exact ⟨⟨k1, k2, k3, k4, k5, k6, k7, k8, k9⟩, by simp⟩
    | act y =>
      cases hb : byMain y with
      | true =>
        have hs : launchStep e m db s (.act y) = ([], s) := by
          simp [launchStep, hr, hb, hne]
        rw [hs]
        exact ⟨⟨k1, k2, k3, k4, k5, k6, k7, k8, k9⟩, by simp⟩
      | false =>
        rw [launchStep_act hr (fun h => absurd (hb.symm.trans h) (by decide))]
        obtain ⟨todo, ⟨app, ⟨rpc, acc⟩, mains, lib, st⟩, pt, lt, j⟩ := s
        simp only at k1 k2 k3 k4 k5 k6 k7 k8 k9 hr
        subst k1 k2 k3 k4 k6
        cases y with
        | app y =>
          simp only [sysStep, hr, if_true]
          obtain ⟨a1, a2, a3⟩ := app_early (F := F) app y hb
          refine ⟨⟨rfl, rfl, rfl, rfl, a1.trans k5, rfl, fun hm => ?_, k8, k9⟩, fun o ho => ?_⟩
          · obtain ⟨b1, b2⟩ := a3 (k7 hm).1
            exact ⟨b1, b2.trans (k7 hm).2⟩
          · obtain ⟨d, hd, rfl⟩ := List.mem_map.1 ho
            obtain ⟨b1, n, rfl⟩ := a2 d hd
            exact ⟨fun hm => b1 (k7 hm).2, .inl ⟨n, rfl⟩⟩
        | portmap os b r =>
          simp only [sysStep, hr, if_true, servicesStep, rpcStep, portmapStep, Bool.false_eq_true, if_false, List.map_nil]
          exact ⟨⟨rfl, rfl, rfl, rfl, k5, rfl, k7, k8, k9⟩, by simp⟩
        | port p ev =>
          simp only [sysStep, hr, if_true, servicesStep, rpcStep, deliver_nil, List.map_nil]
          exact ⟨⟨rfl, rfl, rfl, rfl, k5, rfl, k7, k8, k9⟩, by simp⟩
        | accept c =>
          simp only [sysStep, hr, if_true, Bool.false_eq_true, if_false]
          exact ⟨⟨rfl, rfl, rfl, rfl, k5, rfl, k7, k8, k9⟩, by simp⟩
        | main c b =>
          simp only [sysStep, hr, if_true, List.not_mem_nil, if_false]
          exact ⟨⟨rfl, rfl, rfl, rfl, k5, rfl, k7, k8, k9⟩, by simp⟩
        | hangup c =>
          simp only [sysStep, hr, if_true]
          exact ⟨⟨rfl, rfl, rfl, rfl, k5, rfl, k7, k8, k9⟩, by simp⟩
        | handler i ev =>
          simp only [sysStep, hr, if_true]
          exact ⟨⟨rfl, rfl, rfl, rfl, k5, rfl, k7, k8, k9⟩, fun o ho => nomatch ho⟩
        | status r =>
          simp only [sysStep, hr, if_true]
          refine ⟨⟨rfl, rfl, rfl, rfl, k5, rfl, k7, fun hm => ?_, k9⟩, fun o ho => ?_⟩
          · show (statusStep r st).2 = false
            rw [k8 hm]; rfl
          · obtain ⟨d, hd, rfl⟩ := List.mem_map.1 ho
            have hn : .statusThread ∉ todo := by
              intro hm
              rw [k8 hm] at hd
              exact nomatch hd
            exact ⟨fun hm => hn ((order_facts k9).1 hm), .inr ⟨hn, d, rfl⟩⟩

theorem early_run (e : Endian) (m : Mode) (db : Db) (xs : List (LaunchAction F)) (s : Launch F) (h : Early s)
    (ht : (launchRun e m db s xs).2.todo ≠ []) :
    Early (launchRun e m db s xs).2 ∧ ∀ o ∈ (launchRun e m db s xs).1, EarlyOut (launchRun e m db s xs).2.todo o := by
  induction xs generalizing s with
  | nil => exact ⟨h, by simp [launchRun]⟩
  | cons x xs ih =>
    have hsuf := todo_run e m db xs (launchStep e m db s x).2
    have hne : (launchStep e m db s x).2.todo ≠ [] := by
      intro h0
      rw [h0] at hsuf
      exact ht (List.eq_nil_of_suffix_nil hsuf)
    obtain ⟨a1, a2⟩ := early_step e m db s h x hne
    obtain ⟨b1, b2⟩ := ih _ a1 ht
    refine ⟨b1, fun o ho => ?_⟩
    rcases List.mem_append.1 ho with ho | ho
    · obtain ⟨c1, c2⟩ := a2 o ho
      exact ⟨fun hm => c1 (hsuf.subset hm), c2.imp id fun ⟨d1, d2⟩ => ⟨fun hm => d1 (hsuf.subset hm), d2⟩⟩
    · exact b2 o ho

theorem early_start : Early (.start : Launch F) where
  rpc := rfl
  accepting := rfl
  mains := rfl
  lib := rfl
  pending := rfl
  joined := rfl
  receiver _ := ⟨rfl, rfl⟩
  status _ := rfl
  order := List.suffix_refl _

/-- C125 (full claim: a process whose start fails sends nothing).  Missing: the claim is false; what holds is that
nothing is sent before the receiver runs, nothing but its presence is announced before the status server runs, that
then status packets are answered as well, and that neither the portmapper nor the library does anything before the main
thread has done its last step. -/
theorem C125_before_partial (e : Endian) (m : Mode) (db : Db) (xs : List (LaunchAction F))
    (ht : (launchRun e m db .start xs).2.todo ≠ []) :
    (.receiver ∈ (launchRun e m db .start xs).2.todo → (launchRun e m db .start xs).1 = []) ∧
    ∀ o ∈ (launchRun e m db .start xs).1, (∃ n, o = .broadcast (presence n)) ∨
      .statusThread ∉ (launchRun e m db .start xs).2.todo ∧ ∃ d, o = .status d := by
  obtain ⟨-, h⟩ := early_run e m db xs .start early_start ht
  exact ⟨fun hm => List.eq_nil_iff_forall_not_mem.2 fun o ho => (h o ho).1 hm, fun o ho => (h o ho).2⟩

/-- C125: after a step of the start has failed, nothing is ever sent. -/
theorem C125_after (e : Endian) (m : Mode) (db : Db) (xs ys : List (LaunchAction F))
    (ht : (launchRun e m db .start xs).2.todo ≠ []) :
    (launchRun e m db .start (xs ++ .begin false :: ys)).1 = (launchRun e m db .start xs).1 := by
  rw [launchRun_append]
  generalize (launchRun e m db .start xs).2 = s at ht
  simp only [launchRun]
  cases hr : s.sys.app.running with
  | false =>
    have hs : launchStep e m db s (.begin false) = ([], s) := by
      simp only [launchStep, hr, Bool.false_eq_true, if_false]
    rw [hs, launchRun_ended e m db ys s hr]
    simp
  | true =>
    cases htodo : s.todo with
    | nil => exact absurd htodo ht
    | cons a ts =>
      have hs : launchStep e m db s (.begin false) =
          ([], { s with sys := { s.sys with app := { s.sys.app with running := false } } }) := by
        simp only [launchStep, hr, htodo, if_true, Bool.false_eq_true, if_false]
      rw [hs, launchRun_ended e m db ys _ rfl]
      simp

/-- A player is heard and presence is announced while the port of the status server is being asked for. -/
def heardEarly : List (LaunchAction F) := List.replicate 4 (.begin true) ++
  [.act (.app (.receive exampleInterfaces exampleDatagram)), .act (.app (.broadcast true))]

theorem heardEarly_run (e : Endian) (m : Mode) (db : Db) : ∃ s : Launch F,
    launchRun e m db (.start : Launch F) heardEarly = ([.broadcast (presence exampleNetwork)], s) ∧
    s.todo = [.status, .statusThread, .services] ∧ s.sys.app.running = true := by
  have h1 : (appStep (appStep .start (.receive exampleInterfaces exampleDatagram)).2 (.broadcast true)).1 =
      [presence exampleNetwork] := by decide +kernel
  have h2 : (appStep .start (.receive exampleInterfaces exampleDatagram)).1 = [] := by decide +kernel
  have h3 : (appStep .start (.receive exampleInterfaces exampleDatagram)).2.running = true := by decide +kernel
  have h4 : (appStep (appStep .start (.receive exampleInterfaces exampleDatagram)).2 (.broadcast true)).2.running =
      true := by decide +kernel
  have hb : launchRun e m db (.start : Launch F) (List.replicate 4 (.begin true)) =
      ([], ⟨[.status, .statusThread, .services], ⟨.start, ⟨⟨false, []⟩, false⟩, [], .start, false⟩, false, false, false⟩) := by
    simp [List.replicate, launchRun, launchStep, Launch.start, startSteps, Launch.begun, AppSystem.start]
  have hr : AppSystem.start.running = true := rfl
  unfold heardEarly
  rw [launchRun_append, hb]
  simp only [launchRun, launchStep, sysStep, byMain, hr, if_true, Bool.false_and, Bool.false_eq_true, if_false, h1, h2,
    h3, List.map_nil, List.map_cons, List.nil_append, List.append_nil]
  exact ⟨_, rfl, rfl, h4⟩

/-- C125, the negation: the status port is taken, and the process ends, but its presence has been announced. -/
theorem C125_heard (e : Endian) (m : Mode) (db : Db) : ∃ xs : List (LaunchAction F),
    (launchRun e m db .start xs).2.todo = [.status, .statusThread, .services] ∧
    (launchRun e m db .start (xs ++ [.begin false])).2.sys.app.running = false ∧
    (launchRun e m db .start (xs ++ [.begin false])).1 = [.broadcast (presence exampleNetwork)] := by
  obtain ⟨s, h1, h2, h3⟩ := heardEarly_run (F := F) e m db
  refine ⟨heardEarly, by rw [h1]; exact h2, ?_, ?_⟩
  · rw [launchRun_append, h1]
    simp only [launchRun, launchStep, h2, h3, if_true, Bool.false_eq_true, if_false]
  · rw [C125_after e m db heardEarly [] (by rw [h1, h2]; simp), h1]

/-- C125: with the portmapper's port taken, the library answers players whose connections it has accepted before the
task that joins the two is run. -/
theorem C125_library_moment (e : Endian) (m : Mode) (db : Db) : ∃ xs : List (LaunchAction F),
    .portmapBind false ∈ xs ∧ libSent (launchRun e m db .start xs).1 ≠ [] :=
  ⟨List.replicate 7 (.begin true) ++ [.portmapBind false, .libraryBind true, .act (.accept 0), .supervise,
    .act (.main 0 (some 50000))], by simp, by
    simp [List.replicate, launchRun, launchStep, Launch.start, startSteps, Launch.begun, AppSystem.start, sysStep,
      byMain, libStep, LibServer.start, libSent]⟩

theorem closed_step (e : Endian) (m : Mode) (db : Db) (s : Launch F) (x : LaunchAction F) (ht : s.todo = [])
    (hj : s.joined = false) (ha : s.sys.services.accepting = false) :
    (launchStep e m db s x).2.todo = [] ∧ (launchStep e m db s x).2.joined = false ∧
      (launchStep e m db s x).2.sys.services.accepting = false ∧
      List.Sublist (launchStep e m db s x).2.sys.mains s.sys.mains := by
  cases hr : s.sys.app.running with
  | false =>
    have hs : launchStep e m db s x = ([], s) := by simp only [launchStep, hr, Bool.false_eq_true, if_false]
    rw [hs]
    exact ⟨ht, hj, ha, List.Sublist.refl _⟩
  | true =>
    cases x with
    | begin ok =>
      simp only [launchStep, hr, ht, if_true]
      exact ⟨trivial, hj, ha, List.Sublist.refl _⟩
    | portmapBind ok =>
      simp only [launchStep, hr, if_true]
      split <;> exact ⟨ht, hj, ha, List.Sublist.refl _⟩
    | libraryBind ok =>
      simp only [launchStep, hr, hj, if_true, Bool.false_and, Bool.false_eq_true, if_false]
      exact ⟨ht, trivial, ha, List.Sublist.refl _⟩
    | supervise =>
      simp only [launchStep, hr, hj, if_true, Bool.false_and, Bool.false_eq_true, if_false]
      exact ⟨ht, trivial, ha, List.Sublist.refl _⟩
    | act y =>
      rw [launchStep_act hr (fun _ => ht)]
      refine ⟨ht, hj, ha, ?_⟩
      simp only [sysStep, hr, if_true]
      cases y with
      | accept c => simp only [ha, Bool.false_eq_true, if_false]; exact List.Sublist.refl _
      | hangup c => exact List.erase_sublist
      | main c b => simp only; split <;> exact List.Sublist.refl _
      | app y => exact List.Sublist.refl _
      | portmap os b r => exact List.Sublist.refl _
      | port p ev => exact List.Sublist.refl _
      | handler i ev => exact List.Sublist.refl _
      | status r => exact List.Sublist.refl _

theorem closed_run (e : Endian) (m : Mode) (db : Db) (xs : List (LaunchAction F)) (s : Launch F) (ht : s.todo = [])
    (hj : s.joined = false) (ha : s.sys.services.accepting = false) :
    List.Sublist (launchRun e m db s xs).2.sys.mains s.sys.mains := by
  induction xs generalizing s with
  | nil => exact List.Sublist.refl _
  | cons x xs ih =>
    obtain ⟨h1, h2, h3, h4⟩ := closed_step e m db s x ht hj ha
    exact (ih _ h1 h2 h3).trans h4

/-- C125: when the task that joins the two is run after the portmapper has ended, or has got no socket, the library
accepts no connection from then on. -/
theorem C125_library_closed (e : Endian) (m : Mode) (db : Db) (s : Launch F) (hr : s.sys.app.running = true)
    (ht : s.todo = []) (hj : s.joined = true) (hp : s.portmapTried = true) (he : s.sys.services.rpc.portmap = false)
    (xs : List (LaunchAction F)) :
    List.Sublist (launchRun e m db s (.supervise :: xs)).2.sys.mains s.sys.mains := by
  have hs : launchStep e m db s .supervise = ([], { s with
      joined := false, sys := { s.sys with services := ⟨s.sys.services.rpc, false⟩ } }) := by
    simp only [launchStep, hr, hj, hp, he, if_true, Bool.and_true, Bool.not_false]
  simp only [launchRun, hs]
  exact closed_run e m db xs _ ht rfl rfl

/-! ## Examples -/

/-- A player is heard and presence announced before the status port is asked for. -/
example := C126_same (F := Nat) .little .debug Db.empty heardEarly

theorem heardEarly_left (e : Endian) (m : Mode) (db : Db) :
    (launchRun e m db (.start : Launch F) heardEarly).2.todo ≠ [] := by
  obtain ⟨s, h1, h2, -⟩ := heardEarly_run (F := F) e m db
  rw [h1, h2]
  simp

/-- The same: three steps are left. -/
example := C125_before_partial (F := Nat) .little .debug Db.empty heardEarly (heardEarly_left _ _ _)

/-- The status port is taken; a player is heard again. -/
example := C125_after (F := Nat) .little .debug Db.empty heardEarly
  [.act (.app (.receive exampleInterfaces exampleDatagram)), .act (.app (.broadcast true))] (heardEarly_left _ _ _)

/-- The portmapper's port is taken, and a player has connected to the library. -/
example (e : Endian) (m : Mode) (db : Db) :
    let s := (launchRun e m db (.start : Launch Nat) (List.replicate 7 (.begin true) ++
      [.portmapBind false, .libraryBind true, .act (.accept 0)])).2
    s.sys.app.running = true ∧ s.todo = [] ∧ s.joined = true ∧ s.portmapTried = true ∧
      s.sys.services.rpc.portmap = false ∧ s.sys.mains = [0] := by
  simp [List.replicate, launchRun, launchStep, Launch.start, startSteps, Launch.begun, AppSystem.start, sysStep, byMain]

end PDJ

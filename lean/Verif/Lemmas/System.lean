import Verif.Spec.System
import Verif.Props.App
import Verif.Props.Traffic
import Verif.Props.RpcServer
import Verif.Props.LibServer
import Verif.Props.Status

/-!
# Helper lemmas: the parts of the process
-/

namespace PDJ

open Spec

variable {F : Type}

/-! ## Projections -/

theorem sysStep_ended (e : Endian) (m : Mode) (db : Db) (s : System F) (h : s.app.running = false)
    (x : SysAction F) : sysStep e m db s x = ([], s) := by
  unfold sysStep
  rw [if_neg (by simp [h])]

theorem sysRun_ended (e : Endian) (m : Mode) (db : Db) (xs : List (SysAction F)) (s : System F)
    (h : s.app.running = false) : sysRun e m db s xs = ([], s) := by
  induction xs with
  | nil => rfl
  | cons x xs ih => simp [sysRun, sysStep_ended e m db s h x, ih]

theorem appRun_ended (xs : List AppAction) (s : AppSystem) (h : s.running = false) :
    appRun s xs = ([], s) := by
  induction xs with
  | nil => rfl
  | cons x xs ih => simp [appRun, appStep, h, ih]

theorem broadcastsOf_append (a b : List SysOut) :
    broadcastsOf (a ++ b) = broadcastsOf a ++ broadcastsOf b := by simp [broadcastsOf]

theorem statusOf_append (a b : List SysOut) :
    statusOf (a ++ b) = statusOf a ++ statusOf b := by simp [statusOf]

theorem handlerOf_append (h : Nat) (a b : List SysOut) :
    handlerOf h (a ++ b) = handlerOf h a ++ handlerOf h b := by simp [handlerOf]

theorem portOf_append (p : UInt16) (a b : List SysOut) :
    portOf p (a ++ b) = portOf p a ++ portOf p b := by simp [portOf]

theorem handlerOf_lib (h : Nat) (l : List LibOut) : handlerOf h (l.map .lib) = toHandler h l := by
  induction l with
  | nil => rfl
  | cons a l ih =>
    have e1 : handlerOf h ((a :: l).map .lib) = handlerOf h ([a].map .lib) ++ handlerOf h (l.map .lib) :=
      handlerOf_append h [_] _
    have e2 : toHandler h (a :: l) = toHandler h [a] ++ toHandler h l := toHandler_append h [_] _
    rw [e1, e2, ih]
    congr 1
    cases a <;> rfl

theorem broadcastsOf_broadcast (l : List (Bytes × Ip4 × UInt16)) :
    broadcastsOf (l.map .broadcast) = l := by
  induction l with
  | nil => rfl
  | cons a l ih => simp only [List.map_cons, broadcastsOf, List.filterMap_cons] at *; rw [ih]

theorem statusOf_status (l : List (Bytes × Ip4 × UInt16)) : statusOf (l.map .status) = l := by
  induction l with
  | nil => rfl
  | cons a l ih => simp only [List.map_cons, statusOf, List.filterMap_cons] at *; rw [ih]

theorem filterMap_map_none {α β γ : Type} (l : List α) (f : α → β) (g : β → Option γ)
    (h : ∀ a, g (f a) = none) : (l.map f).filterMap g = [] := by
  induction l with
  | nil => rfl
  | cons a l ih => simp [h a, ih]

/-- The threads of the application in one step of the process. -/
theorem sysStep_app (e : Endian) (m : Mode) (db : Db) (s : System F) (x : SysAction F) :
    (sysStep e m db s x).2.app = (appRun s.app (appPart [x])).2 ∧
      broadcastsOf (sysStep e m db s x).1 = (appRun s.app (appPart [x])).1 := by
  by_cases hr : s.app.running = true
  · cases x with
    | app y =>
      simp only [sysStep, hr, if_true, appPart, appRun, List.append_nil]
      exact ⟨trivial, broadcastsOf_broadcast _⟩
    | portmap os b r =>
      simp only [sysStep, hr, if_true, appPart, appRun]
      exact ⟨trivial, filterMap_map_none _ _ _ (fun _ => rfl)⟩
    | port p ev =>
      simp only [sysStep, hr, if_true, appPart, appRun]
      exact ⟨trivial, filterMap_map_none _ _ _ (fun _ => rfl)⟩
    | accept c =>
      simp only [sysStep, hr, if_true, appPart, appRun]
      refine ⟨?_, rfl⟩
      split <;> rfl
    | hangup c =>
      simp only [sysStep, hr, if_true, appPart, appRun]
      exact ⟨trivial, rfl⟩
    | main c b =>
      simp only [sysStep, hr, if_true, appPart, appRun]
      split
      · exact ⟨rfl, filterMap_map_none _ _ _ (fun _ => rfl)⟩
      · exact ⟨rfl, rfl⟩
    | handler h ev =>
      simp only [sysStep, hr, if_true, appPart, appRun]
      exact ⟨trivial, filterMap_map_none _ _ _ (fun _ => rfl)⟩
    | status r =>
      simp only [sysStep, hr, if_true, appPart, appRun]
      exact ⟨trivial, filterMap_map_none _ _ _ (fun _ => rfl)⟩
  · have hr' : s.app.running = false := by simpa using hr
    rw [sysStep_ended e m db s hr', appRun_ended _ _ hr']
    exact ⟨rfl, rfl⟩

theorem appPart_cons (x : SysAction F) (xs : List (SysAction F)) :
    appPart (x :: xs) = appPart [x] ++ appPart xs := by cases x <;> rfl

/-- The threads of the application in a history of the process. -/
theorem app_undisturbed (e : Endian) (m : Mode) (db : Db) (xs : List (SysAction F))
    (s : System F) :
    (sysRun e m db s xs).2.app = (appRun s.app (appPart xs)).2 ∧
      broadcastsOf (sysRun e m db s xs).1 = (appRun s.app (appPart xs)).1 := by
  induction xs generalizing s with
  | nil => exact ⟨rfl, rfl⟩
  | cons x xs ih =>
    obtain ⟨h1, h2⟩ := sysStep_app e m db s x
    obtain ⟨i1, i2⟩ := ih (sysStep e m db s x).2
    rw [appPart_cons, appRun_append]
    simp only [sysRun, broadcastsOf_append]
    rw [i1, i2, h1, h2]
    exact ⟨rfl, rfl⟩

/-- A process that still runs has run all the time. -/
theorem running_back (e : Endian) (m : Mode) (db : Db) (xs : List (SysAction F)) (s : System F)
    (h : (sysRun e m db s xs).2.app.running = true) : s.app.running = true := by
  cases hr : s.app.running with
  | true => rfl
  | false => rw [sysRun_ended e m db xs s hr] at h; rw [hr] at h; exact nomatch h

theorem running_step (e : Endian) (m : Mode) (db : Db) (x : SysAction F) (xs : List (SysAction F))
    (s : System F) (h : (sysRun e m db s (x :: xs)).2.app.running = true) :
    s.app.running = true ∧ (sysRun e m db (sysStep e m db s x).2 xs).2.app.running = true :=
  ⟨running_back e m db (x :: xs) s h, h⟩

/-- The status server in a history of the process. -/
theorem status_undisturbed (e : Endian) (m : Mode) (db : Db) (xs : List (SysAction F))
    (s : System F) (h : (sysRun e m db s xs).2.app.running = true) :
    statusOf (sysRun e m db s xs).1 = (statusRun s.status (statusPart xs)).1 ∧
      (sysRun e m db s xs).2.status = (statusRun s.status (statusPart xs)).2 := by
  induction xs generalizing s with
  | nil => exact ⟨rfl, rfl⟩
  | cons x xs ih =>
    obtain ⟨hr, h'⟩ := running_step e m db x xs s h
    obtain ⟨i1, i2⟩ := ih _ h'
    simp only [sysRun, statusOf_append]
    rw [i1, i2]
    cases x with
    | status r =>
      simp only [sysStep, hr, if_true, statusPart, statusRun]
      rw [statusOf_status]
      exact ⟨rfl, trivial⟩
    | app y =>
      simp only [sysStep, hr, if_true, statusPart]
      rw [show statusOf _ = [] from filterMap_map_none _ _ _ (fun _ => rfl)]
      exact ⟨rfl, trivial⟩
    | portmap os b r =>
      simp only [sysStep, hr, if_true, statusPart]
      rw [show statusOf _ = [] from filterMap_map_none _ _ _ (fun _ => rfl)]
      exact ⟨rfl, trivial⟩
    | port p ev =>
      simp only [sysStep, hr, if_true, statusPart]
      rw [show statusOf _ = [] from filterMap_map_none _ _ _ (fun _ => rfl)]
      exact ⟨rfl, trivial⟩
    | accept c =>
      simp only [sysStep, hr, if_true, statusPart]
      split <;> exact ⟨rfl, rfl⟩
    | hangup c =>
      simp only [sysStep, hr, if_true, statusPart]
      exact ⟨rfl, trivial⟩
    | main c b =>
      simp only [sysStep, hr, if_true, statusPart]
      split
      · rw [show statusOf _ = [] from filterMap_map_none _ _ _ (fun _ => rfl)]
        exact ⟨rfl, rfl⟩
      · exact ⟨rfl, rfl⟩
    | handler k ev =>
      simp only [sysStep, hr, if_true, statusPart]
      rw [show statusOf _ = [] from filterMap_map_none _ _ _ (fun _ => rfl)]
      exact ⟨rfl, trivial⟩

/-- The RPC events of a history, with the networks known then. -/
def rpcEvents (e : Endian) (m : Mode) (db : Db) : System F → List (SysAction F) → List (RpcEvent F)
  | _, [] => []
  | s, .portmap os b r :: xs =>
    .portmap os b r :: rpcEvents e m db (sysStep e m db s (.portmap os b r)).2 xs
  | s, .port p ev :: xs =>
    .port p (knownNetwork s.app) ev :: rpcEvents e m db (sysStep e m db s (.port p ev)).2 xs
  | s, x :: xs => rpcEvents e m db (sysStep e m db s x).2 xs

/-- The RPC datagrams among the outputs. -/
def rpcOf (o : List SysOut) : List (Option UInt16 × Bytes × Addr) :=
  o.filterMap fun x => match x with | .rpc b => some b | _ => none

theorem rpcOf_rpc (l : List (Option UInt16 × Bytes × Addr)) : rpcOf (l.map .rpc) = l := by
  induction l with
  | nil => rfl
  | cons a l ih => simp only [List.map_cons, rpcOf, List.filterMap_cons] at *; rw [ih]

theorem rpcOf_append (a b : List SysOut) : rpcOf (a ++ b) = rpcOf a ++ rpcOf b := by simp [rpcOf]

theorem services_undisturbed (e : Endian) (m : Mode) (db : Db) (xs : List (SysAction F))
    (s : System F) (h : (sysRun e m db s xs).2.app.running = true) :
    rpcOf (sysRun e m db s xs).1 = (servicesRun e s.services (rpcEvents e m db s xs)).1 ∧
      (sysRun e m db s xs).2.services = (servicesRun e s.services (rpcEvents e m db s xs)).2 := by
  induction xs generalizing s with
  | nil => exact ⟨rfl, rfl⟩
  | cons x xs ih =>
    obtain ⟨hr, h'⟩ := running_step e m db x xs s h
    obtain ⟨i1, i2⟩ := ih _ h'
    have none : (sysStep e m db s x).2.services = s.services → rpcOf (sysStep e m db s x).1 = [] →
        rpcEvents e m db s (x :: xs) = rpcEvents e m db (sysStep e m db s x).2 xs →
        rpcOf (sysRun e m db s (x :: xs)).1 =
          (servicesRun e s.services (rpcEvents e m db s (x :: xs))).1 ∧
        (sysRun e m db s (x :: xs)).2.services =
          (servicesRun e s.services (rpcEvents e m db s (x :: xs))).2 := by
      intro e1 e2 e3
      simp only [sysRun, rpcOf_append, e2, List.nil_append, e3]
      rw [i1, i2, e1]
      exact ⟨rfl, rfl⟩
    cases x with
    | app y =>
      refine none ?_ ?_ rfl
      · simp only [sysStep, hr, if_true]
      · simp only [sysStep, hr, if_true]; exact filterMap_map_none _ _ _ (fun _ => rfl)
    | accept c =>
      refine none ?_ ?_ rfl
      · simp only [sysStep, hr, if_true]; split <;> rfl
      · simp only [sysStep, hr, if_true]; rfl
    | hangup c =>
      refine none ?_ ?_ rfl
      · simp only [sysStep, hr, if_true]
      · simp only [sysStep, hr, if_true]; rfl
    | main c b =>
      refine none ?_ ?_ rfl
      · simp only [sysStep, hr, if_true]; split <;> rfl
      · simp only [sysStep, hr, if_true]
        split
        · exact filterMap_map_none _ _ _ (fun _ => rfl)
        · rfl
    | handler k ev =>
      refine none ?_ ?_ rfl
      · simp only [sysStep, hr, if_true]
      · simp only [sysStep, hr, if_true]; exact filterMap_map_none _ _ _ (fun _ => rfl)
    | status r =>
      refine none ?_ ?_ rfl
      · simp only [sysStep, hr, if_true]
      · simp only [sysStep, hr, if_true]; exact filterMap_map_none _ _ _ (fun _ => rfl)
    | portmap os b r =>
      simp only [sysRun, rpcOf_append, rpcEvents, servicesRun]
      rw [i1, i2]
      simp only [sysStep, hr, if_true]
      rw [rpcOf_rpc]
      simp
    | port p ev =>
      simp only [sysRun, rpcOf_append, rpcEvents, servicesRun]
      rw [i1, i2]
      simp only [sysStep, hr, if_true]
      rw [rpcOf_rpc]
      simp

theorem portOf_rpcOf (p : UInt16) (o : List SysOut) : portOf p o = sentFrom p (rpcOf o) := by
  induction o with
  | nil => rfl
  | cons a o ih =>
    have e1 : portOf p (a :: o) = portOf p [a] ++ portOf p o := portOf_append p [a] o
    have e2 : rpcOf (a :: o) = rpcOf [a] ++ rpcOf o := rpcOf_append [a] o
    have e3 : ∀ x y, sentFrom p (x ++ y) = sentFrom p x ++ sentFrom p y := by
      intro x y; simp [sentFrom]
    rw [e1, e2, e3, ih]
    congr 1
    cases a with
    | rpc x =>
      obtain ⟨q, b⟩ := x
      cases q with
      | none => rfl
      | some q =>
        by_cases h : q = p <;> simp [portOf, rpcOf, sentFrom, h]
    | _ => rfl

theorem servicesRun_rpc (e : Endian) (es : List (RpcEvent F)) (s : Services F) :
    (servicesRun e s es).1 = (rpcRun e s.rpc es).1 ∧
      (servicesRun e s es).2.rpc = (rpcRun e s.rpc es).2 := by
  induction es generalizing s with
  | nil => exact ⟨rfl, rfl⟩
  | cons x es ih =>
    obtain ⟨h1, h2⟩ := ih (servicesStep e s x).2
    simp only [servicesRun, rpcRun]
    rw [h1, h2]
    exact ⟨rfl, rfl⟩

theorem eventsAt_rpcEvents (e : Endian) (m : Mode) (db : Db) (p : UInt16) (xs : List (SysAction F))
    (s : System F) : eventsAt p (rpcEvents e m db s xs) = portPart p xs := by
  induction xs generalizing s with
  | nil => rfl
  | cons x xs ih =>
    cases x with
    | port q ev =>
      simp only [rpcEvents, eventsAt, portPart, ih]
    | portmap os b r => simp only [rpcEvents, eventsAt, portPart, ih]
    | _ => simp only [rpcEvents, portPart, ih]

theorem portArrivals_rpcEvents (e : Endian) (m : Mode) (db : Db) (p : UInt16) (xs : List (SysAction F))
    (s : System F) : portArrivals p (rpcEvents e m db s xs) = mountPart p s.app xs := by
  induction xs generalizing s with
  | nil => rfl
  | cons x xs ih =>
    have ha := (sysStep_app e m db s x).1
    cases x <;> simp only [appPart, appRun] at ha <;>
      simp only [rpcEvents, portArrivals, mountPart, ih, ha, knownNetwork]

theorem mem_rpcEvents_portmap (e : Endian) (m : Mode) (db : Db) {os : Bytes → Addr → Bool}
    {b : Option UInt16} {r : Recv} (xs : List (SysAction F)) (s : System F)
    (h : .portmap os b r ∈ rpcEvents e m db s xs) : .portmap os b r ∈ xs := by
  induction xs generalizing s with
  | nil => simp [rpcEvents] at h
  | cons x xs ih =>
    cases x with
    | port q ev =>
      simp only [rpcEvents, List.mem_cons] at h
      rcases h with h | h
      · exact nomatch h
      · exact List.mem_cons_of_mem _ (ih _ h)
    | portmap os' b' r' =>
      simp only [rpcEvents, List.mem_cons] at h
      rcases h with h | h
      · cases h; simp
      · exact List.mem_cons_of_mem _ (ih _ h)
    | _ => exact List.mem_cons_of_mem _ (ih _ h)

/-- A library handler in a history of the process. -/
theorem lib_undisturbed (e : Endian) (m : Mode) (db : Db) (k : Nat) (xs : List (SysAction F))
    (s : System F) (hd : Handler) (hh : s.lib.handlers[k]? = some hd)
    (h : (sysRun e m db s xs).2.app.running = true) :
    handlerOf k (sysRun e m db s xs).1 = (handlerRun m db hd.phase (handlerPart k xs)).1 ∧
      (sysRun e m db s xs).2.lib.handlers[k]? =
        some ⟨hd.port, (handlerRun m db hd.phase (handlerPart k xs)).2⟩ := by
  induction xs generalizing s hd with
  | nil => exact ⟨rfl, hh⟩
  | cons x xs ih =>
    obtain ⟨hr, h'⟩ := running_step e m db x xs s h
    have none : (sysStep e m db s x).2.lib = s.lib → handlerOf k (sysStep e m db s x).1 = [] →
        handlerPart k (x :: xs) = handlerPart k xs →
        handlerOf k (sysRun e m db s (x :: xs)).1 =
          (handlerRun m db hd.phase (handlerPart k (x :: xs))).1 ∧
        (sysRun e m db s (x :: xs)).2.lib.handlers[k]? =
          some ⟨hd.port, (handlerRun m db hd.phase (handlerPart k (x :: xs))).2⟩ := by
      intro e1 e2 e3
      obtain ⟨i1, i2⟩ := ih (sysStep e m db s x).2 hd (by rw [e1]; exact hh) h'
      simp only [sysRun, handlerOf_append, e2, List.nil_append, e3]
      exact ⟨i1, i2⟩
    have lib : ∀ ev : LibEvent, (sysStep e m db s x).2.lib = (libStep m db s.lib ev).2 →
        handlerOf k (sysStep e m db s x).1 = toHandler k (libStep m db s.lib ev).1 →
        handlerPart k (x :: xs) = handlerEvents k [ev] ++ handlerPart k xs →
        handlerOf k (sysRun e m db s (x :: xs)).1 =
          (handlerRun m db hd.phase (handlerPart k (x :: xs))).1 ∧
        (sysRun e m db s (x :: xs)).2.lib.handlers[k]? =
          some ⟨hd.port, (handlerRun m db hd.phase (handlerPart k (x :: xs))).2⟩ := by
      intro ev e1 e2 e3
      obtain ⟨l1, l2⟩ := libStep_handler m db s.lib ev k hd hh
      rw [← e1] at l2
      obtain ⟨i1, i2⟩ := ih (sysStep e m db s x).2 _ l2 h'
      rw [e3, handlerRun_append]
      simp only [sysRun, handlerOf_append]
      rw [e2, l1, i1, i2]
      exact ⟨rfl, rfl⟩
    cases x with
    | app y =>
      refine none ?_ ?_ rfl
      · simp only [sysStep, hr, if_true]
      · simp only [sysStep, hr, if_true]; exact filterMap_map_none _ _ _ (fun _ => rfl)
    | accept c =>
      refine none ?_ ?_ rfl
      · simp only [sysStep, hr, if_true]; split <;> rfl
      · simp only [sysStep, hr, if_true]; rfl
    | hangup c =>
      refine none ?_ ?_ rfl
      · simp only [sysStep, hr, if_true]
      · simp only [sysStep, hr, if_true]; rfl
    | main c b =>
      by_cases hc : c ∈ s.mains
      · refine lib (.main c b) ?_ ?_ rfl
        · simp only [sysStep, hr, if_true, if_pos hc]
        · simp only [sysStep, hr, if_true, if_pos hc]; exact handlerOf_lib _ _
      · refine none ?_ ?_ rfl
        · simp only [sysStep, hr, if_true, if_neg hc]
        · simp only [sysStep, hr, if_true, if_neg hc]; rfl
    | handler j ev =>
      refine lib (.handler j ev) ?_ ?_ ?_
      · simp only [sysStep, hr, if_true]
      · simp only [sysStep, hr, if_true]; exact handlerOf_lib _ _
      · by_cases hj : j = k <;> simp [handlerPart, handlerEvents, hj]
    | status r =>
      refine none ?_ ?_ rfl
      · simp only [sysStep, hr, if_true]
      · simp only [sysStep, hr, if_true]; exact filterMap_map_none _ _ _ (fun _ => rfl)
    | portmap os b r =>
      refine none ?_ ?_ rfl
      · simp only [sysStep, hr, if_true]
      · simp only [sysStep, hr, if_true]; exact filterMap_map_none _ _ _ (fun _ => rfl)
    | port p ev =>
      refine none ?_ ?_ rfl
      · simp only [sysStep, hr, if_true]
      · simp only [sysStep, hr, if_true]; exact filterMap_map_none _ _ _ (fun _ => rfl)

end PDJ

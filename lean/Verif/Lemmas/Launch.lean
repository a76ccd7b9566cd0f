import Verif.Model.Launch
import Verif.Props.Startup
import Verif.Lemmas.AppStep
import Verif.Props.Amid
import Verif.Spec.Launch

/-!
# Lemmas: start-up step by step
-/

namespace PDJ

open Spec

variable {F : Type}

/-! ## The threads that have not been started yet -/

/-- The threads as if all of them had been started. -/
def allStarted (todo : List StartStep) (a : AppSystem) : AppSystem :=
  { a with
    receiver := a.receiver || decide (.receiver ∈ todo)
    broadcaster := a.broadcaster || decide (.broadcaster ∈ todo) }

theorem allStarted_nil (a : AppSystem) : allStarted [] a = a := by
  simp [allStarted]

theorem appStep_receiver_off (a : AppSystem) (y : AppAction) (h : a.receiver = false) :
    (appStep a y).2.receiver = false := by
  have hs := stepTo a y
  revert hs
  generalize (appStep a y).1 = o
  generalize (appStep a y).2 = b
  intro hs
  cases hs <;> first | exact h | rfl

theorem appStep_broadcaster_off (a : AppSystem) (y : AppAction) (h : a.broadcaster = false) :
    (appStep a y).2.broadcaster = false := by
  have hs := stepTo a y
  revert hs
  generalize (appStep a y).1 = o
  generalize (appStep a y).2 = b
  intro hs
  cases hs <;> first | exact h | rfl

theorem allStarted_receive (todo : List StartStep) (a : AppSystem) (i : List Interface) (d : Bytes)
    (h : .receiver ∉ todo) : appStep (allStarted todo a) (.receive i d) =
      ((appStep a (.receive i d)).1, allStarted todo (appStep a (.receive i d)).2) := by
  simp only [appStep, allStarted, h, decide_false, Bool.or_false]
  split
  · split
    · simp only [receiveStep]
      repeat' split
      all_goals simp_all
    · simp_all
  · simp_all

theorem allStarted_broadcast (todo : List StartStep) (a : AppSystem) (ok : Bool)
    (h : .broadcaster ∉ todo) : appStep (allStarted todo a) (.broadcast ok) =
      ((appStep a (.broadcast ok)).1, allStarted todo (appStep a (.broadcast ok)).2) := by
  simp only [appStep, allStarted, h, decide_false, Bool.or_false]
  split
  · split
    · simp only [broadcastStep]
      repeat' split
      all_goals simp_all
    · simp_all
  · simp_all

/-! ## A process on its way and one that was started at once -/

/-- The portmapper has ended, or its socket was refused. -/
def portmapEnded (s : Launch F) : Bool := s.portmapTried && !s.sys.services.rpc.portmap

/-- The connections that will be accepted. -/
def willAccept (e : Endian) (m : Mode) (db : Db) : Launch F → List (LaunchAction F) → List Nat
  | _, [] => []
  | s, x :: xs =>
    (match x with
      | .act (.accept c) => if s.sys.app.running && s.sys.services.accepting then [c] else []
      | _ => []) ++ willAccept e m db (launchStep e m db s x).2 xs

/-- The connections that will be accepted though the portmapper has ended. -/
def acceptedLate (e : Endian) (m : Mode) (db : Db) (s : Launch F) (xs : List (LaunchAction F)) : List Nat :=
  if portmapEnded s then willAccept e m db s xs else []

/-- The process started at once that does the same: it has accepted the late connections in advance. -/
structure SameAs (s : Launch F) (t : System F) (extra : List Nat) : Prop where
  app : t.app = allStarted s.todo s.sys.app
  rpc : t.services.rpc = if s.portmapTried then s.sys.services.rpc else .start
  untried : s.portmapTried = false → s.sys.services.rpc = ⟨false, []⟩
  accepting : t.services.accepting = t.services.rpc.portmap
  lib : t.lib = s.sys.lib
  mains : t.mains.Perm (s.sys.mains ++ extra)
  status : t.status = (s.sys.status || decide (.statusThread ∈ s.todo))
  order : s.todo <:+ startSteps
  receiver : .receiver ∈ s.todo → s.sys.app.receiver = false
  broadcaster : .broadcaster ∈ s.todo → s.sys.app.broadcaster = false
  statusOff : .statusThread ∈ s.todo → s.sys.status = false

theorem sameAs_start : SameAs (.start : Launch F) .start [] where
  app := rfl
  rpc := rfl
  untried _ := rfl
  accepting := rfl
  lib := rfl
  mains := .refl _
  status := rfl
  order := List.suffix_refl _
  receiver _ := rfl
  broadcaster _ := rfl
  statusOff _ := rfl

theorem sysRun_just (e : Endian) (m : Mode) (db : Db) (s : System F) (x : SysAction F) :
    sysRun e m db s [x] = sysStep e m db s x := by
  simp [sysRun]

theorem sysRun_accepts (e : Endian) (m : Mode) (db : Db) (cs : List Nat) (t : System F) (hr : t.app.running = true)
    (ha : t.services.accepting = true) :
    sysRun e m db t (cs.map .accept) = ([], { t with mains := cs.reverse ++ t.mains }) := by
  induction cs generalizing t with
  | nil => rfl
  | cons c cs ih =>
    have hs : sysStep e m db t (.accept c) = ([], { t with mains := c :: t.mains }) := by
      simp only [sysStep, hr, ha, if_true]
    simp only [List.map_cons, sysRun, hs]
    rw [ih { t with mains := c :: t.mains } hr ha]
    simp

theorem willAccept_ended (e : Endian) (m : Mode) (db : Db) (xs : List (LaunchAction F)) (s : Launch F)
    (h : s.sys.app.running = false) : willAccept e m db s xs = [] := by
  induction xs with
  | nil => rfl
  | cons x xs ih =>
    have hs : launchStep e m db s x = ([], s) := by
      simp only [launchStep, h, Bool.false_eq_true, if_false]
    simp only [willAccept, hs, ih, h, Bool.false_and, List.append_nil]
    split <;> simp

theorem launchRun_ended (e : Endian) (m : Mode) (db : Db) (xs : List (LaunchAction F)) (s : Launch F)
    (h : s.sys.app.running = false) : launchRun e m db s xs = ([], s) := by
  induction xs with
  | nil => rfl
  | cons x xs ih =>
    have hs : launchStep e m db s x = ([], s) := by
      simp only [launchStep, h, Bool.false_eq_true, if_false]
    simp only [launchRun, hs, ih, List.append_nil]

theorem portmapStep_off (os : Bytes → Addr → Bool) (b : Option UInt16) (r : Recv) (s : RpcSystem F)
    (h : s.portmap = false) : portmapStep os b r s = ([], s) := by
  simp only [portmapStep, h, Bool.false_eq_true, if_false]

/-- Nothing happens. -/
theorem sameAs_idle {e : Endian} {m : Mode} {db : Db} {s : Launch F} {t : System F} {x : LaunchAction F}
    {xs : List (LaunchAction F)} (hx : launchStep e m db s x = ([], s))
    (ha : ∀ c, x = .act (.accept c) → s.sys.services.accepting = false)
    (h : SameAs s t (acceptedLate e m db s (x :: xs))) : SameAs s t (acceptedLate e m db s xs) := by
  have : acceptedLate e m db s (x :: xs) = acceptedLate e m db s xs := by
    simp only [acceptedLate, willAccept, hx]
    split
    · split
      · rename_i c
        rw [ha c rfl]
        simp
      · rfl
    · rfl
  rwa [this] at h

/-- Neither a connection nor the end of the portmapper. -/
theorem acceptedLate_cons {e : Endian} {m : Mode} {db : Db} {s : Launch F} {x : LaunchAction F}
    {xs : List (LaunchAction F)} (ha : ∀ c, x ≠ .act (.accept c))
    (hd : portmapEnded (launchStep e m db s x).2 = portmapEnded s) :
    acceptedLate e m db (launchStep e m db s x).2 xs = acceptedLate e m db s (x :: xs) := by
  simp only [acceptedLate, hd, willAccept]
  split <;> rfl

/-- The connections that are still to be accepted by a process started at once. -/
def due (e : Endian) (m : Mode) (db : Db) (s : Launch F) (xs : List (LaunchAction F)) : List Nat :=
  if portmapEnded s then [] else willAccept e m db s xs

/-- Actions that may stand for one: the same, in the same order, and the connections when they are due. -/
structure StandsFor (e : Endian) (m : Mode) (db : Db) (s : Launch F) (x : LaunchAction F) (xs : List (LaunchAction F))
    (ys : List (SysAction F)) : Prop where
  others : (unlessAccepts ys).Sublist (unlessAccepts (seen x))
  accepts : ys.filterMap acceptOf ++ due e m db (launchStep e m db s x).2 xs = due e m db s (x :: xs)

theorem standsFor_nil {e : Endian} {m : Mode} {db : Db} {s : Launch F} {x : LaunchAction F}
    {xs : List (LaunchAction F)} (ha : ∀ c, x = .act (.accept c) → s.sys.services.accepting = false)
    (hd : portmapEnded (launchStep e m db s x).2 = portmapEnded s) : StandsFor e m db s x xs [] where
  others := List.nil_sublist _
  accepts := by
    simp only [List.filterMap_nil, List.nil_append, due, hd, willAccept]
    split
    · rfl
    · split
      · rename_i c
        rw [ha c rfl]
        simp
      · rfl

theorem standsFor_act {e : Endian} {m : Mode} {db : Db} {s : Launch F} {y : SysAction F}
    {xs : List (LaunchAction F)} (ha : acceptOf y = none)
    (hd : portmapEnded (launchStep e m db s (.act y)).2 = portmapEnded s) : StandsFor e m db s (.act y) xs [y] where
  others := List.Sublist.refl _
  accepts := by
    simp only [List.filterMap_cons, ha, List.filterMap_nil, List.nil_append, due, hd, willAccept]
    split
    · rfl
    · cases y <;> first | rfl | exact nomatch ha

theorem acceptOf_accepts (cs : List Nat) (y : SysAction F) (hy : acceptOf y = none) :
    (cs.map SysAction.accept ++ [y] : List (SysAction F)).filterMap acceptOf = cs := by
  induction cs with
  | nil => simp [hy]
  | cons c cs ih =>
    simp only [List.map_cons, List.cons_append, List.filterMap_cons, acceptOf]
    rw [ih]

theorem unlessAccepts_accepts (cs : List Nat) (y : SysAction F) (hy : acceptOf y = none) :
    unlessAccepts (cs.map SysAction.accept ++ [y]) = [y] := by
  induction cs with
  | nil => simp [unlessAccepts, hy]
  | cons c cs ih =>
    rw [unlessAccepts] at ih
    simp only [unlessAccepts, List.map_cons, List.cons_append]
    rw [List.filter_cons_of_neg (by simp [acceptOf])]
    exact ih

/-- What a process started at once does for one action. -/
def Explained (e : Endian) (m : Mode) (db : Db) (s : Launch F) (t : System F) (x : LaunchAction F)
    (xs : List (LaunchAction F)) : Prop :=
  ∃ ys, (sysRun e m db t ys).1 = (launchStep e m db s x).1 ∧ StandsFor e m db s x xs ys ∧
    ((launchStep e m db s x).2.sys.app.running = true →
      SameAs (launchStep e m db s x).2 (sysRun e m db t ys).2 (acceptedLate e m db (launchStep e m db s x).2 xs))

theorem explained_idle {e : Endian} {m : Mode} {db : Db} {s : Launch F} {t : System F} {x : LaunchAction F}
    {xs : List (LaunchAction F)} (hx : launchStep e m db s x = ([], s))
    (ha : ∀ c, x = .act (.accept c) → s.sys.services.accepting = false)
    (h : SameAs s t (acceptedLate e m db s (x :: xs))) : Explained e m db s t x xs := by
  refine ⟨[], by rw [hx]; rfl, standsFor_nil ha (by rw [hx]), fun _ => ?_⟩
  rw [hx]
  exact sameAs_idle hx ha h

theorem decide_mem_cons (x a : StartStep) (ts : List StartStep) :
    decide (x ∈ a :: ts) = (decide (x = a) || decide (x ∈ ts)) := by
  by_cases h : x = a <;> by_cases h' : x ∈ ts <;> simp [h, h']

theorem explained_begin {e : Endian} {m : Mode} {db : Db} {s : Launch F} {t : System F} (ok : Bool)
    {xs : List (LaunchAction F)} (hr : s.sys.app.running = true)
    (h : SameAs s t (acceptedLate e m db s (.begin ok :: xs))) : Explained e m db s t (.begin ok) xs := by
  cases htodo : s.todo with
  | nil =>
    refine explained_idle ?_ (by simp) h
    simp only [launchStep, hr, htodo, if_true]
  | cons a ts =>
    cases ok with
    | false =>
      refine ⟨[], ?_, standsFor_nil (by simp) ?_, fun hrun => ?_⟩
      · simp only [launchStep, hr, htodo, if_true]; rfl
      · simp only [launchStep, hr, htodo, if_true]; rfl
      · simp [launchStep, hr, htodo] at hrun
    | true =>
      have hs : launchStep e m db s (.begin true) = ([], { s with todo := ts }.begun a) := by
        simp only [launchStep, hr, htodo, if_true]
      have hl : acceptedLate e m db (launchStep e m db s (.begin true)).2 xs =
          acceptedLate e m db s (.begin true :: xs) := by
        refine acceptedLate_cons (by simp) ?_
        rw [hs]
        cases a <;> rfl
      refine ⟨[], by rw [hs]; rfl, standsFor_nil (by simp) (by rw [hs]; cases a <;> rfl), fun _ => ?_⟩
      rw [hl, hs]
      obtain ⟨h1, h2, h3, h4, h5, h6, h7, h8, h9, h10, h11⟩ := h
      rw [htodo] at h1 h7 h8 h9 h10 h11
      have hnd : (a :: ts).Nodup := h8.sublist.nodup (by decide)
      have hn : a ∉ ts := (List.nodup_cons.1 hnd).1
      refine ⟨?_, ?_, ?_, h4, ?_, ?_, ?_, ?_, ?_, ?_, ?_⟩
      · rw [show (sysRun e m db t []).2 = t from rfl, h1]
        cases a <;> simp only [allStarted, Launch.begun, decide_mem_cons, reduceCtorEq, decide_false, decide_true,
          Bool.false_or, Bool.true_or, Bool.or_true] <;> rfl
      · cases a <;> exact h2
      · cases a <;> exact h3
      · cases a <;> exact h5
      · cases a <;> exact h6
      · rw [show (sysRun e m db t []).2 = t from rfl, h7]
        cases a <;> simp only [Launch.begun, decide_mem_cons, reduceCtorEq, decide_false, decide_true, Bool.false_or,
          Bool.true_or, Bool.or_true] <;> rfl
      · cases a <;> exact (List.suffix_cons _ ts).trans h8
      · cases a <;> first | exact fun hm => h9 (List.mem_cons_of_mem _ hm) | exact fun hm => absurd hm hn
      · cases a <;> first | exact fun hm => h10 (List.mem_cons_of_mem _ hm) | exact fun hm => absurd hm hn
      · cases a <;> first | exact fun hm => h11 (List.mem_cons_of_mem _ hm) | exact fun hm => absurd hm hn

theorem explained_library {e : Endian} {m : Mode} {db : Db} {s : Launch F} {t : System F} (ok : Bool)
    {xs : List (LaunchAction F)} (hr : s.sys.app.running = true)
    (h : SameAs s t (acceptedLate e m db s (.libraryBind ok :: xs))) : Explained e m db s t (.libraryBind ok) xs := by
  cases hc : s.joined && !s.libraryTried with
  | false =>
    refine explained_idle ?_ (by simp) h
    simp only [launchStep, hr, hc, if_true, Bool.false_eq_true, if_false]
  | true =>
    have hs : launchStep e m db s (.libraryBind ok) = ([], { s with
            libraryTried := true
            joined := ok
            sys := { s.sys with services := ⟨s.sys.services.rpc, ok⟩ } }) := by
      simp only [launchStep, hr, hc, if_true]
    have hl := acceptedLate_cons (e := e) (m := m) (db := db) (s := s) (x := .libraryBind ok) (xs := xs) (by simp)
      (by rw [hs]; rfl)
    refine ⟨[], by rw [hs]; rfl, standsFor_nil (by simp) (by rw [hs]; rfl), fun _ => ?_⟩
    rw [hl, hs]
    obtain ⟨h1, h2, h3, h4, h5, h6, h7, h8, h9, h10, h11⟩ := h
    exact ⟨h1, h2, h3, h4, h5, h6, h7, h8, h9, h10, h11⟩

theorem explained_supervise {e : Endian} {m : Mode} {db : Db} {s : Launch F} {t : System F}
    {xs : List (LaunchAction F)} (hr : s.sys.app.running = true)
    (h : SameAs s t (acceptedLate e m db s (.supervise :: xs))) : Explained e m db s t .supervise xs := by
  cases hc : s.joined && s.portmapTried && !s.sys.services.rpc.portmap with
  | false =>
    refine explained_idle ?_ (by simp) h
    simp only [launchStep, hr, hc, if_true, Bool.false_eq_true, if_false]
  | true =>
    have hs : launchStep e m db s .supervise = ([], { s with
            joined := false, sys := { s.sys with services := ⟨s.sys.services.rpc, false⟩ } }) := by
      simp only [launchStep, hr, hc, if_true]
    have hl := acceptedLate_cons (e := e) (m := m) (db := db) (s := s) (x := .supervise) (xs := xs) (by simp)
      (by rw [hs]; rfl)
    refine ⟨[], by rw [hs]; rfl, standsFor_nil (by simp) (by rw [hs]; rfl), fun _ => ?_⟩
    rw [hl, hs]
    obtain ⟨h1, h2, h3, h4, h5, h6, h7, h8, h9, h10, h11⟩ := h
    exact ⟨h1, h2, h3, h4, h5, h6, h7, h8, h9, h10, h11⟩

theorem fatalReply_ends (e : Endian) (m : Mode) (db : Db) (t : System F) (hr : t.app.running = true)
    (hp : t.services.rpc = .start) : sysStep e m db t fatalReply =
      ([], { t with services := ⟨⟨false, []⟩, false⟩ }) := by
  have hf : rpcFrame [0, 0, 0, 0, 0, 0, 0, 1] = .panic := by decide
  simp [sysStep, hr, fatalReply, servicesStep, rpcStep, portmapStep, hp, RpcSystem.start, hf]

theorem sysRun_accepts_then (e : Endian) (m : Mode) (db : Db) (cs : List Nat) (t : System F)
    (hr : t.app.running = true) (ha : t.services.accepting = true) (y : SysAction F) :
    sysRun e m db t (cs.map .accept ++ [y]) = sysStep e m db { t with mains := cs.reverse ++ t.mains } y := by
  rw [sysRun_append, sysRun_accepts e m db cs t hr ha, sysRun_just]
  rfl

theorem explained_portmap_bind {e : Endian} {m : Mode} {db : Db} {s : Launch F} {t : System F} (ok : Bool)
    {xs : List (LaunchAction F)} (hr : s.sys.app.running = true)
    (h : SameAs s t (acceptedLate e m db s (.portmapBind ok :: xs))) : Explained e m db s t (.portmapBind ok) xs := by
  cases hc : s.todo.isEmpty && !s.portmapTried with
  | false =>
    refine explained_idle ?_ (by simp) h
    simp only [launchStep, hr, hc, if_true, Bool.false_eq_true, if_false]
  | true =>
    have hnt : s.portmapTried = false := by simp at hc; exact hc.2
    let s' : Launch F := { s with
            portmapTried := true
            sys := { s.sys with services := ⟨{ s.sys.services.rpc with portmap := ok }, s.sys.services.accepting⟩ } }
    have hs : launchStep e m db s (.portmapBind ok) = ([], s') := by
      simp only [launchStep, hr, hc, if_true, s']
    have hne : portmapEnded s = false := by simp [portmapEnded, hnt]
    simp only [acceptedLate, hne, Bool.false_eq_true, if_false] at h
    obtain ⟨h1, h2, h3, h4, h5, h6, h7, h8, h9, h10, h11⟩ := h
    rw [hnt] at h2
    simp only [Bool.false_eq_true, if_false] at h2
    have hrt : t.app.running = true := by rw [h1]; exact hr
    cases ok with
    | true =>
      refine ⟨[], by rw [hs]; rfl, standsFor_nil (by simp) (by rw [hs, hne]; rfl), fun _ => ?_⟩
      have hl : acceptedLate e m db s' xs = [] := by
        simp [acceptedLate, portmapEnded, s']
      rw [hs, hl]
      refine ⟨h1, ?_, fun hf => absurd hf (by simp [s']), h4, h5, h6, h7, h8, h9, h10, h11⟩
      simp only [s', h3 hnt, if_true, sysRun, h2, RpcSystem.start]
    | false =>
      have hl : acceptedLate e m db s' xs = willAccept e m db s' xs := by
        simp [acceptedLate, portmapEnded, s']
      have ha : t.services.accepting = true := by rw [h4, h2]; rfl
      refine ⟨(willAccept e m db s' xs).map .accept ++ [fatalReply], ?_, ?_, fun _ => ?_⟩
      · rw [hs, sysRun_accepts_then e m db _ t hrt ha,
          fatalReply_ends e m db { t with mains := (willAccept e m db s' xs).reverse ++ t.mains } hrt h2]
      · refine ⟨?_, ?_⟩
        · rw [unlessAccepts_accepts _ _ rfl]
          exact List.Sublist.refl _
        · rw [acceptOf_accepts _ _ rfl]
          simp only [due, hne, Bool.false_eq_true, if_false, willAccept, List.nil_append, hs]
          simp [portmapEnded, s']
      · rw [hs, hl, sysRun_accepts_then e m db _ t hrt ha,
          fatalReply_ends e m db { t with mains := (willAccept e m db s' xs).reverse ++ t.mains } hrt h2]
        refine ⟨h1, ?_, fun hf => absurd hf (by simp [s']), rfl, h5, ?_, h7, h8, h9, h10, h11⟩
        · simp only [s', h3 hnt, if_true]
        · simp only [List.append_nil] at h6
          show ((willAccept e m db s' xs).reverse ++ t.mains).Perm (s.sys.mains ++ willAccept e m db s' xs)
          exact (List.perm_append_comm).trans (h6.append (List.reverse_perm _))

/-! ## Everything that is not part of the start -/

theorem launchStep_act {e : Endian} {m : Mode} {db : Db} {s : Launch F} {y : SysAction F}
    (hr : s.sys.app.running = true) (hb : byMain y = true → s.todo = []) :
    launchStep e m db s (.act y) = ((sysStep e m db s.sys y).1, { s with
      sys := { (sysStep e m db s.sys y).2 with
        services := ⟨(sysStep e m db s.sys y).2.services.rpc, s.sys.services.accepting⟩ } }) := by
  have : (byMain y && !s.todo.isEmpty) = false := by
    cases h : byMain y with
    | false => rfl
    | true => rw [hb h]; rfl
  simp only [launchStep, hr, if_true, this, Bool.false_eq_true, if_false]

theorem explained_app {e : Endian} {m : Mode} {db : Db} {s : Launch F} {t : System F} (y : AppAction)
    {xs : List (LaunchAction F)} (hr : s.sys.app.running = true) (hb : byMain (.app y : SysAction F) = true → s.todo = [])
    (hst : appStep (allStarted s.todo s.sys.app) y =
      ((appStep s.sys.app y).1, allStarted s.todo (appStep s.sys.app y).2))
    (h : SameAs s t (acceptedLate e m db s (.act (.app y) :: xs))) : Explained e m db s t (.act (.app y)) xs := by
  have hs : launchStep e m db s (.act (.app y)) =
      ((appStep s.sys.app y).1.map .broadcast, { s with sys := { s.sys with app := (appStep s.sys.app y).2 } }) := by
    rw [launchStep_act hr hb]
    simp only [sysStep, hr, if_true]
  have hl := acceptedLate_cons (e := e) (m := m) (db := db) (s := s) (x := .act (.app y)) (xs := xs) (by simp)
    (by rw [hs]; rfl)
  obtain ⟨h1, h2, h3, h4, h5, h6, h7, h8, h9, h10, h11⟩ := h
  have hrt : t.app.running = true := by rw [h1]; exact hr
  have ht : sysRun e m db t [.app y] = ((appStep s.sys.app y).1.map .broadcast,
      { t with app := allStarted s.todo (appStep s.sys.app y).2 }) := by
    simp only [sysRun_just, sysStep, hrt, if_true]
    rw [h1, hst]
  refine ⟨[.app y], by rw [hs, ht], standsFor_act rfl (by rw [hs]; rfl), fun _ => ?_⟩
  rw [hl, hs, ht]
  exact ⟨rfl, h2, h3, h4, h5, h6, h7, h8, fun hm => appStep_receiver_off _ _ (h9 hm),
    fun hm => appStep_broadcaster_off _ _ (h10 hm), h11⟩

theorem explained_portmap {e : Endian} {m : Mode} {db : Db} {s : Launch F} {t : System F} (os : Bytes → Addr → Bool)
    (b : Option UInt16) (r : Recv) {xs : List (LaunchAction F)} (hr : s.sys.app.running = true)
    (h : SameAs s t (acceptedLate e m db s (.act (.portmap os b r) :: xs))) :
    Explained e m db s t (.act (.portmap os b r)) xs := by
  have hs : launchStep e m db s (.act (.portmap os b r)) =
      ((rpcStep e s.sys.services.rpc (.portmap os b r)).1.map .rpc, { s with
        sys := { s.sys with services := ⟨(rpcStep e s.sys.services.rpc (.portmap os b r)).2, s.sys.services.accepting⟩ } }) := by
    rw [launchStep_act hr (fun hb => absurd hb (by simp [byMain]))]
    simp only [sysStep, hr, if_true, servicesStep]
  cases hp : s.sys.services.rpc.portmap with
  | false =>
    refine explained_idle ?_ (by simp) h
    rw [hs]
    simp only [rpcStep, portmapStep_off os b r _ hp, List.map_nil]
  | true =>
    have htr : s.portmapTried = true := by
      cases hn : s.portmapTried with
      | true => rfl
      | false => rw [h.untried hn] at hp; exact nomatch hp
    have hne : portmapEnded s = false := by simp [portmapEnded, hp]
    simp only [acceptedLate, hne, Bool.false_eq_true, if_false] at h
    obtain ⟨h1, h2, h3, h4, h5, h6, h7, h8, h9, h10, h11⟩ := h
    rw [htr] at h2
    simp only [if_true] at h2
    have hrt : t.app.running = true := by rw [h1]; exact hr
    have ha : t.services.accepting = true := by rw [h4, h2]; exact hp
    let s' := (launchStep e m db s (.act (.portmap os b r))).2
    have ht : sysRun e m db t ((acceptedLate e m db s' xs).map .accept ++ [.portmap os b r]) =
        ((rpcStep e s.sys.services.rpc (.portmap os b r)).1.map .rpc, { t with
          mains := (acceptedLate e m db s' xs).reverse ++ t.mains
          services := ⟨(rpcStep e s.sys.services.rpc (.portmap os b r)).2,
            (rpcStep e s.sys.services.rpc (.portmap os b r)).2.portmap⟩ }) := by
      rw [sysRun_accepts_then e m db _ t hrt ha]
      simp only [sysStep, hrt, if_true, servicesStep, h2, ha, Bool.true_and]
    refine ⟨_, by rw [ht, hs], ?_, fun _ => ?_⟩
    · refine ⟨?_, ?_⟩
      · rw [unlessAccepts_accepts _ _ rfl]
        exact List.Sublist.refl _
      · rw [acceptOf_accepts _ _ rfl]
        show acceptedLate e m db s' xs ++ due e m db s' xs = _
        simp only [acceptedLate, due, hne, Bool.false_eq_true, if_false, willAccept, List.nil_append]
        split <;> simp [s']
    · rw [ht]
      show SameAs s' _ (acceptedLate e m db s' xs)
      generalize acceptedLate e m db s' xs = late
      show SameAs (launchStep e m db s (.act (.portmap os b r))).2 _ late
      rw [hs]
      refine ⟨h1, ?_, fun hf => absurd (htr.symm.trans hf) (by decide), rfl, h5, ?_, h7, h8, h9, h10, h11⟩
      · simp only [htr, if_true]
      · simp only [List.append_nil] at h6
        exact (List.perm_append_comm).trans (h6.append (List.reverse_perm _))

theorem deliver_nil (e : Endian) (net : Option PioneerNetwork) (p : UInt16) (ev : NfsEvent F) :
    deliver e net p ev ([] : List (UInt16 × RpcTask F)) = ([], []) := rfl

theorem explained_port {e : Endian} {m : Mode} {db : Db} {s : Launch F} {t : System F} (p : UInt16) (ev : NfsEvent F)
    {xs : List (LaunchAction F)} (hr : s.sys.app.running = true)
    (h : SameAs s t (acceptedLate e m db s (.act (.port p ev) :: xs))) : Explained e m db s t (.act (.port p ev)) xs := by
  have hs : launchStep e m db s (.act (.port p ev)) =
      ((rpcStep e s.sys.services.rpc (.port p (knownNetwork s.sys.app) ev)).1.map .rpc, { s with
        sys := { s.sys with services := ⟨(rpcStep e s.sys.services.rpc (.port p (knownNetwork s.sys.app) ev)).2,
          s.sys.services.accepting⟩ } }) := by
    rw [launchStep_act hr (fun hb => absurd hb (by simp [byMain]))]
    simp only [sysStep, hr, if_true, servicesStep]
  cases htr : s.portmapTried with
  | false =>
    refine explained_idle ?_ (by simp) h
    rw [hs]
    have h0 := h.untried htr
    obtain ⟨todo, ⟨app, ⟨rpc, acc⟩, mains, lib, st⟩, pt, lt, j⟩ := s
    simp only at h0
    subst h0
    simp only [rpcStep, deliver_nil, List.map_nil]
  | true =>
    have hl := acceptedLate_cons (e := e) (m := m) (db := db) (s := s) (x := .act (.port p ev)) (xs := xs) (by simp)
      (by rw [hs]; rfl)
    obtain ⟨h1, h2, h3, h4, h5, h6, h7, h8, h9, h10, h11⟩ := h
    rw [htr] at h2
    simp only [if_true] at h2
    have hrt : t.app.running = true := by rw [h1]; exact hr
    have hk : knownNetwork t.app = knownNetwork s.sys.app := by rw [h1]; rfl
    have ht : sysRun e m db t [.port p ev] =
        ((rpcStep e s.sys.services.rpc (.port p (knownNetwork s.sys.app) ev)).1.map .rpc, { t with
          services := ⟨(rpcStep e s.sys.services.rpc (.port p (knownNetwork s.sys.app) ev)).2,
            t.services.accepting && s.sys.services.rpc.portmap⟩ }) := by
      simp only [sysRun_just, sysStep, hrt, if_true, servicesStep, h2, hk]
      rfl
    refine ⟨_, by rw [ht, hs], standsFor_act rfl (by rw [hs]; rfl), fun _ => ?_⟩
    rw [hl, ht, hs]
    refine ⟨h1, ?_, fun hf => absurd (htr.symm.trans hf) (by decide), ?_, h5, h6, h7, h8, h9, h10, h11⟩
    · simp only [htr, if_true]
    · show (t.services.accepting && s.sys.services.rpc.portmap) = s.sys.services.rpc.portmap
      rw [h4, h2, Bool.and_self]

theorem explained_accept {e : Endian} {m : Mode} {db : Db} {s : Launch F} {t : System F} (c : Nat)
    {xs : List (LaunchAction F)} (hr : s.sys.app.running = true)
    (h : SameAs s t (acceptedLate e m db s (.act (.accept c) :: xs))) : Explained e m db s t (.act (.accept c)) xs := by
  have hs : launchStep e m db s (.act (.accept c)) =
      ([], if s.sys.services.accepting then { s with sys := { s.sys with mains := c :: s.sys.mains } } else s) := by
    rw [launchStep_act hr (fun hb => absurd hb (by simp [byMain]))]
    simp only [sysStep, hr, if_true]
    split <;> rfl
  cases ha : s.sys.services.accepting with
  | false =>
    refine explained_idle ?_ (fun _ _ => ha) h
    rw [hs, ha]
    rfl
  | true =>
    rw [ha] at hs
    simp only [if_true] at hs
    cases hne : portmapEnded s with
    | true =>
      have hn' : portmapEnded (launchStep e m db s (.act (.accept c))).2 = true := by rw [hs]; exact hne
      have hl : acceptedLate e m db s (.act (.accept c) :: xs) =
          c :: acceptedLate e m db (launchStep e m db s (.act (.accept c))).2 xs := by
        simp only [acceptedLate, hne, hn', if_true, willAccept, hr, ha, Bool.and_self, List.singleton_append]
      rw [hl] at h
      refine ⟨[], by rw [hs]; rfl, ⟨List.nil_sublist _, by simp [due, hne, hn']⟩, fun _ => ?_⟩
      revert h
      generalize acceptedLate e m db (launchStep e m db s (.act (.accept c))).2 xs = late
      rw [hs]
      intro ⟨h1, h2, h3, h4, h5, h6, h7, h8, h9, h10, h11⟩
      exact ⟨h1, h2, h3, h4, h5, h6.trans List.perm_middle, h7, h8, h9, h10, h11⟩
    | false =>
      have hn' : portmapEnded (launchStep e m db s (.act (.accept c))).2 = false := by rw [hs]; exact hne
      have hl : acceptedLate e m db (launchStep e m db s (.act (.accept c))).2 xs = [] := by
        simp only [acceptedLate, hn', Bool.false_eq_true, if_false]
      simp only [acceptedLate, hne, Bool.false_eq_true, if_false] at h
      obtain ⟨h1, h2, h3, h4, h5, h6, h7, h8, h9, h10, h11⟩ := h
      have hrt : t.app.running = true := by rw [h1]; exact hr
      have hat : t.services.accepting = true := by
        rw [h4, h2]
        simp only [portmapEnded] at hne
        split
        · simp_all
        · rfl
      have ht : sysRun e m db t [.accept c] = ([], { t with mains := c :: t.mains }) := by
        simp only [sysRun_just, sysStep, hrt, hat, if_true]
      refine ⟨_, by rw [ht, hs], ⟨by simp [unlessAccepts, acceptOf], ?_⟩, fun _ => ?_⟩
      · simp only [due, hne, hn', Bool.false_eq_true, if_false, willAccept, hr, ha, Bool.and_self, if_true]
        rfl
      rw [hl, ht, hs]
      exact ⟨h1, h2, h3, h4, h5, h6.cons c, h7, h8, h9, h10, h11⟩

theorem explained_main {e : Endian} {m : Mode} {db : Db} {s : Launch F} {t : System F} (c : Nat) (b : Option UInt16)
    {xs : List (LaunchAction F)} (hr : s.sys.app.running = true)
    (h : SameAs s t (acceptedLate e m db s (.act (.main c b) :: xs))) : Explained e m db s t (.act (.main c b)) xs := by
  have hs : launchStep e m db s (.act (.main c b)) = if c ∈ s.sys.mains then
      ((libStep m db s.sys.lib (.main c b)).1.map .lib, { s with sys := { s.sys with
        lib := (libStep m db s.sys.lib (.main c b)).2 } }) else ([], s) := by
    rw [launchStep_act hr (fun hb => absurd hb (by simp [byMain]))]
    simp only [sysStep, hr, if_true]
    split <;> rfl
  by_cases hc : c ∈ s.sys.mains
  · rw [if_pos hc] at hs
    have hl := acceptedLate_cons (e := e) (m := m) (db := db) (s := s) (x := .act (.main c b)) (xs := xs) (by simp)
      (by rw [hs]; rfl)
    obtain ⟨h1, h2, h3, h4, h5, h6, h7, h8, h9, h10, h11⟩ := h
    have hrt : t.app.running = true := by rw [h1]; exact hr
    have hct : c ∈ t.mains := h6.mem_iff.2 (List.mem_append_left _ hc)
    have ht : sysRun e m db t [.main c b] = ((libStep m db s.sys.lib (.main c b)).1.map .lib,
        { t with lib := (libStep m db s.sys.lib (.main c b)).2 }) := by
      simp only [sysRun_just, sysStep, hrt, if_true, h5, if_pos hct]
    refine ⟨_, by rw [ht, hs], standsFor_act rfl (by rw [hs]; rfl), fun _ => ?_⟩
    rw [hl, ht, hs]
    exact ⟨h1, h2, h3, h4, rfl, h6, h7, h8, h9, h10, h11⟩
  · rw [if_neg hc] at hs
    exact explained_idle hs (by simp) h

theorem explained_hangup {e : Endian} {m : Mode} {db : Db} {s : Launch F} {t : System F} (c : Nat)
    {xs : List (LaunchAction F)} (hr : s.sys.app.running = true)
    (h : SameAs s t (acceptedLate e m db s (.act (.hangup c) :: xs))) : Explained e m db s t (.act (.hangup c)) xs := by
  have hs : launchStep e m db s (.act (.hangup c)) =
      ([], { s with sys := { s.sys with mains := s.sys.mains.erase c } }) := by
    rw [launchStep_act hr (fun hb => absurd hb (by simp [byMain]))]
    simp only [sysStep, hr, if_true]
  by_cases hc : c ∈ s.sys.mains
  · have hl := acceptedLate_cons (e := e) (m := m) (db := db) (s := s) (x := .act (.hangup c)) (xs := xs) (by simp)
      (by rw [hs]; rfl)
    obtain ⟨h1, h2, h3, h4, h5, h6, h7, h8, h9, h10, h11⟩ := h
    have hrt : t.app.running = true := by rw [h1]; exact hr
    have ht : sysRun e m db t [.hangup c] = ([], { t with mains := t.mains.erase c }) := by
      simp only [sysRun_just, sysStep, hrt, if_true]
    refine ⟨_, by rw [ht, hs], standsFor_act rfl (by rw [hs]; rfl), fun _ => ?_⟩
    rw [hl, ht, hs]
    refine ⟨h1, h2, h3, h4, h5, ?_, h7, h8, h9, h10, h11⟩
    have := h6.erase c
    rwa [List.erase_append_left _ hc] at this
  · refine explained_idle ?_ (by simp) h
    rw [hs, List.erase_of_not_mem hc]

theorem explained_handler {e : Endian} {m : Mode} {db : Db} {s : Launch F} {t : System F} (i : Nat) (ev : HandlerEvent)
    {xs : List (LaunchAction F)} (hr : s.sys.app.running = true)
    (h : SameAs s t (acceptedLate e m db s (.act (.handler i ev) :: xs))) :
    Explained e m db s t (.act (.handler i ev)) xs := by
  have hs : launchStep e m db s (.act (.handler i ev)) =
      ((libStep m db s.sys.lib (.handler i ev)).1.map .lib, { s with sys := { s.sys with
        lib := (libStep m db s.sys.lib (.handler i ev)).2 } }) := by
    rw [launchStep_act hr (fun hb => absurd hb (by simp [byMain]))]
    simp only [sysStep, hr, if_true]
  have hl := acceptedLate_cons (e := e) (m := m) (db := db) (s := s) (x := .act (.handler i ev)) (xs := xs) (by simp)
    (by rw [hs]; rfl)
  obtain ⟨h1, h2, h3, h4, h5, h6, h7, h8, h9, h10, h11⟩ := h
  have hrt : t.app.running = true := by rw [h1]; exact hr
  have ht : sysRun e m db t [.handler i ev] = ((libStep m db s.sys.lib (.handler i ev)).1.map .lib,
      { t with lib := (libStep m db s.sys.lib (.handler i ev)).2 }) := by
    simp only [sysRun_just, sysStep, hrt, if_true, h5]
  refine ⟨_, by rw [ht, hs], standsFor_act rfl (by rw [hs]; rfl), fun _ => ?_⟩
  rw [hl, ht, hs]
  exact ⟨h1, h2, h3, h4, rfl, h6, h7, h8, h9, h10, h11⟩

theorem explained_status {e : Endian} {m : Mode} {db : Db} {s : Launch F} {t : System F} (r : StatusRecv)
    {xs : List (LaunchAction F)} (hr : s.sys.app.running = true)
    (h : SameAs s t (acceptedLate e m db s (.act (.status r) :: xs))) : Explained e m db s t (.act (.status r)) xs := by
  have hs : launchStep e m db s (.act (.status r)) =
      ((statusStep r s.sys.status).1.map .status, { s with sys := { s.sys with status := (statusStep r s.sys.status).2 } }) := by
    rw [launchStep_act hr (fun hb => absurd hb (by simp [byMain]))]
    simp only [sysStep, hr, if_true]
  by_cases hm : .statusThread ∈ s.todo
  · refine explained_idle ?_ (by simp) h
    have hf := h.statusOff hm
    rw [hs]
    obtain ⟨todo, ⟨app, sv, mains, lib, st⟩, pt, lt, j⟩ := s
    simp only at hf
    subst hf
    rfl
  · have hl := acceptedLate_cons (e := e) (m := m) (db := db) (s := s) (x := .act (.status r)) (xs := xs) (by simp)
      (by rw [hs]; rfl)
    obtain ⟨h1, h2, h3, h4, h5, h6, h7, h8, h9, h10, h11⟩ := h
    have hrt : t.app.running = true := by rw [h1]; exact hr
    have h7' : t.status = s.sys.status := by simpa [hm] using h7
    have ht : sysRun e m db t [.status r] =
        ((statusStep r s.sys.status).1.map .status, { t with status := (statusStep r s.sys.status).2 }) := by
      simp only [sysRun_just, sysStep, hrt, if_true, h7']
    refine ⟨_, by rw [ht, hs], standsFor_act rfl (by rw [hs]; rfl), fun _ => ?_⟩
    rw [hl, ht, hs]
    refine ⟨h1, h2, h3, h4, h5, h6, ?_, h8, h9, h10, fun hf => absurd hf hm⟩
    simp [hm]

theorem explained {e : Endian} {m : Mode} {db : Db} {s : Launch F} {t : System F} (x : LaunchAction F)
    {xs : List (LaunchAction F)} (hr : s.sys.app.running = true)
    (h : SameAs s t (acceptedLate e m db s (x :: xs))) : Explained e m db s t x xs := by
  cases x with
  | begin ok => exact explained_begin ok hr h
  | portmapBind ok => exact explained_portmap_bind ok hr h
  | libraryBind ok => exact explained_library ok hr h
  | supervise => exact explained_supervise hr h
  | act y =>
    cases y with
    | app y =>
      cases y with
      | receive i d =>
        by_cases hm : .receiver ∈ s.todo
        · refine explained_idle ?_ (by simp) h
          rw [launchStep_act hr (fun hb => absurd hb (by simp [byMain]))]
          simp only [sysStep, hr, if_true, appStep, h.receiver hm, Bool.false_eq_true, if_false, List.map_nil]
        · exact explained_app _ hr (fun hb => absurd hb (by simp [byMain])) (allStarted_receive _ _ _ _ hm) h
      | broadcast ok =>
        by_cases hm : .broadcaster ∈ s.todo
        · refine explained_idle ?_ (by simp) h
          rw [launchStep_act hr (fun hb => absurd hb (by simp [byMain]))]
          simp only [sysStep, hr, if_true, appStep, h.broadcaster hm, Bool.false_eq_true, if_false, List.map_nil]
        · exact explained_app _ hr (fun hb => absurd hb (by simp [byMain])) (allStarted_broadcast _ _ _ hm) h
      | appRecv =>
        by_cases ht : s.todo = []
        · exact explained_app _ hr (fun _ => ht) (by rw [ht, allStarted_nil, allStarted_nil]) h
        · refine explained_idle ?_ (by simp) h
          simp [launchStep, hr, byMain, ht]
      | appLink oks =>
        by_cases ht : s.todo = []
        · exact explained_app _ hr (fun _ => ht) (by rw [ht, allStarted_nil, allStarted_nil]) h
        · refine explained_idle ?_ (by simp) h
          simp [launchStep, hr, byMain, ht]
    | portmap os b r => exact explained_portmap os b r hr h
    | port p ev => exact explained_port p ev hr h
    | accept c => exact explained_accept c hr h
    | main c b => exact explained_main c b hr h
    | hangup c => exact explained_hangup c hr h
    | handler i ev => exact explained_handler i ev hr h
    | status r => exact explained_status r hr h

end PDJ

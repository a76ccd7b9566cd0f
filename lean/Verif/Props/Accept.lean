import Verif.Lemmas.Accept
import Verif.Props.Descriptors

/-!
# Properties C123 and C124: the length of the log, and the queue at the library's port
-/

namespace PDJ

open Spec

variable {F : Type}

/-! ## C123: the length of the log -/

theorem acceptFails_lines (o : LogOs) (s : System F) : (acceptFails o s).1.length ≤ 1 := by
  unfold acceptFails
  rcases writeLine_cases o 0 .acceptError with h | h <;> rw [h] <;> simp

theorem listenStep_lines (e : Endian) (m : Mode) (db : Db) (s : Listen F) (x : ListenAction F) :
    (listenStep e m db s x).2.1.length ≤ worth x + failures [x] := by
  cases x with
  | connect c =>
    simp only [listenStep]
    split <;> simp
  | accept r o =>
    simp only [listenStep]
    split
    · unfold acceptStep
      cases s.waiting with
      | nil => simp
      | cons c cs =>
        cases r with
        | over => exact Nat.le_trans (few_sys e m db s.sys (.accept c) o).1 (Nat.zero_le _)
        | stays => simpa [worth, failures] using acceptFails_lines o s.sys
        | gone => simpa [worth, failures] using acceptFails_lines o s.sys
    · simp
  | other x o =>
    have h := (few_sys e m db s.sys x o).1
    cases x with
    | accept c => simp [listenStep]
    | _ => exact h

theorem failures_cons (x : ListenAction F) (xs : List (ListenAction F)) :
    failures (x :: xs) = failures [x] + failures xs := by
  cases x with
  | connect c => simp [failures]
  | accept r o => cases r <;> simp [failures, Nat.add_comm]
  | other x o => simp [failures]

/-- C123 (full claim: the log has no more lines than what happens is worth).  Missing: the claim is false
(`C123_unbounded`).  What holds: in every history it has no more lines than that and the number of times `accept`
has failed. -/
theorem C123_bounded_partial (e : Endian) (m : Mode) (db : Db) (s : Listen F) (h : List (ListenAction F)) :
    (listenRun e m db s h).2.1.length ≤ (h.map worth).sum + failures h := by
  induction h generalizing s with
  | nil => simp [listenRun]
  | cons x h ih =>
    have h1 := listenStep_lines e m db s x
    have h2 := ih (listenStep e m db s x).2.2
    rw [failures_cons]
    simp only [listenRun, List.length_append, List.map_cons, List.sum_cons]
    omega

theorem stays_step (e : Endian) (m : Mode) (db : Db) (s : Listen F) (hl : Listening s) (hw : s.waiting ≠ [])
    (o : LogOs) (ho : o.written 0 = true) :
    listenStep e m db s (.accept .stays o) = ([], [.acceptError], s) := by
  simp only [listenStep, (listening_iff s).1 hl, if_true, acceptStep]
  cases hs : s.waiting with
  | nil => exact absurd hs hw
  | cons c cs =>
    simp only [acceptFails_written o s.sys ho]
    have : (⟨s.sys, c :: cs⟩ : Listen F) = s := by rw [← hs]
    rw [this, settled_of hl]

/-- C123: a connection that cannot be accepted keeps the loop busy: every turn writes the same line and changes nothing,
as long as the process has no descriptor left, be it for ever. -/
theorem C123_never_rests (e : Endian) (m : Mode) (db : Db) (limit : Nat) (s : Listen F) (hl : Listening s)
    (hw : s.waiting ≠ []) (n : Nat) (hn : Uses s.sys n) (hlim : limit ≤ n) (os : List (Handed × LogOs))
    (ho : ∀ x ∈ os, x.2.written 0 = true)
    (h : LimitedHere e m db limit s (os.map fun x => .accept x.1 x.2)) :
    listenRun e m db s (os.map fun x => .accept x.1 x.2) = ([], List.replicate os.length .acceptError, s) := by
  induction os with
  | nil => rfl
  | cons x os ih =>
    obtain ⟨h1, h2⟩ := h
    have hx : x.1 = .stays := h1 n hn hlim
    have hs := stays_step e m db s hl hw x.2 (ho x List.mem_cons_self)
    simp only [hx, hs] at h2
    have := ih (fun y hy => ho y (List.mem_cons_of_mem _ hy)) h2
    simp only [List.map_cons, listenRun, hx, hs, this]
    rfl

theorem limitedHere_append (e : Endian) (m : Mode) (db : Db) (limit : Nat) (s : Listen F)
    (a b : List (ListenAction F)) :
    LimitedHere e m db limit s (a ++ b) ↔
      LimitedHere e m db limit s a ∧ LimitedHere e m db limit (listenRun e m db s a).2.2 b := by
  induction a generalizing s with
  | nil => simp [LimitedHere, listenRun]
  | cons x a ih => simp only [List.cons_append, LimitedHere, listenRun, ih, and_assoc]

theorem listenRun_append (e : Endian) (m : Mode) (db : Db) (s : Listen F) (a b : List (ListenAction F)) :
    listenRun e m db s (a ++ b) =
      ((listenRun e m db s a).1 ++ (listenRun e m db (listenRun e m db s a).2.2 b).1,
        (listenRun e m db s a).2.1 ++ (listenRun e m db (listenRun e m db s a).2.2 b).2.1,
        (listenRun e m db (listenRun e m db s a).2.2 b).2.2) := by
  induction a generalizing s with
  | nil => simp [listenRun]
  | cons x a ih => simp [listenRun, ih]

/-- A process that holds these connections and nothing else for its clients. -/
def heldOnly (cs : List Nat) (ws : List Nat) : Listen F := ⟨{ (System.start : System F) with mains := cs }, ws⟩

theorem heldOnly_uses (cs ws : List Nat) : Uses (heldOnly cs ws : Listen F).sys cs.length := by
  refine ⟨0, .nil, ?_⟩
  show cs.length = 0 + 0 + (cs.filter fun c => decide (c ∉ ([] : List Nat))).length
  have : (cs.filter fun c => decide (c ∉ ([] : List Nat))) = cs := by simp
  rw [this]; omega

theorem connect_accept (e : Endian) (m : Mode) (db : Db) (cs : List Nat) (c : Nat) (o : LogOs) :
    listenRun e m db (heldOnly cs [] : Listen F) [.connect c, .accept .over o] = ([], [], heldOnly (c :: cs) []) := rfl

theorem heldOnly_run (e : Endian) (m : Mode) (db : Db) (o : LogOs) (limit : Nat) (ds cs : List Nat)
    (hl : cs.length + ds.length ≤ limit) :
    LimitedHere e m db limit (heldOnly cs [] : Listen F) (ds.flatMap fun c => [.connect c, .accept .over o]) ∧
    listenRun e m db (heldOnly cs [] : Listen F) (ds.flatMap fun c => [.connect c, .accept .over o]) =
      ([], [], heldOnly (ds.reverse ++ cs) []) := by
  induction ds generalizing cs with
  | nil => exact ⟨trivial, rfl⟩
  | cons d ds ih =>
    simp only [List.length_cons] at hl
    obtain ⟨h1, h2⟩ := ih (d :: cs) (by simp only [List.length_cons]; omega)
    rw [List.flatMap_cons, limitedHere_append, listenRun_append, connect_accept, h2]
    refine ⟨⟨⟨fun _ _ _ => trivial, ?_, trivial⟩, h1⟩, by simp⟩
    intro n hn hle
    have hu : Uses (heldOnly cs [d] : Listen F).sys cs.length := heldOnly_uses cs [d]
    have : n = cs.length := uses_unique hn hu
    omega

/-- C123, the negation: whatever the OS gives, that many connections and one more, on which nothing is ever sent, make
the log as long as you like, though nothing else happens. -/
theorem C123_unbounded (e : Endian) (m : Mode) (db : Db) (o : LogOs) (ho : o.written 0 = true) (cs : List Nat)
    (c : Nat) (lines : Nat) :
    let h : List (ListenAction F) := (cs.flatMap fun c => [.connect c, .accept .over o]) ++
      .connect c :: List.replicate lines (.accept .stays o)
    LimitedHere e m db cs.length .start h ∧ (h.map worth).sum = 0 ∧ made h = cs ++ [c] ∧
      (listenRun e m db .start h).2.1 = List.replicate lines .acceptError := by
  intro h
  obtain ⟨h1, h2⟩ := heldOnly_run (F := F) e m db o cs.length cs [] (by simp)
  have hs : (Listen.start : Listen F) = heldOnly [] [] := rfl
  have hu : Uses (heldOnly cs.reverse [c] : Listen F).sys cs.length := by
    have := heldOnly_uses (F := F) cs.reverse [c]
    rwa [List.length_reverse] at this
  have hlist : Listening (heldOnly cs.reverse [c] : Listen F) := ⟨rfl, rfl⟩
  have hstep : listenStep e m db (heldOnly cs.reverse [] : Listen F) (.connect c) =
    ([], [], heldOnly cs.reverse [c]) := rfl
  have hrep : LimitedHere e m db cs.length (heldOnly cs.reverse [c] : Listen F)
      (List.replicate lines (.accept .stays o)) := by
    induction lines with
    | zero => trivial
    | succ n ih =>
      refine ⟨fun _ _ _ => rfl, ?_⟩
      rw [stays_step e m db _ hlist (by simp [heldOnly]) o ho]
      exact ih
  refine ⟨?_, ?_, ?_, ?_⟩
  · rw [limitedHere_append]
    refine ⟨h1, ?_⟩
    rw [hs, h2, List.append_nil]
    exact ⟨fun _ _ _ => trivial, by rw [hstep]; exact hrep⟩
  · have : ∀ x ∈ h.map worth, x = 0 := by
      intro x hx
      simp only [h, List.map_append, List.map_cons, List.map_replicate, List.mem_append, List.mem_cons,
        List.map_flatMap, List.mem_flatMap] at hx
      rcases hx with ⟨_, _, hx⟩ | hx | hx
      · rcases hx with rfl | rfl | hx
        · rfl
        · rfl
        · exact nomatch hx
      · exact hx
      · exact (List.mem_replicate.1 hx).2
    have hz : ∀ l : List Nat, (∀ x ∈ l, x = 0) → l.sum = 0 := by
      intro l hl
      induction l with
      | nil => rfl
      | cons a l ih =>
        rw [List.sum_cons, hl a List.mem_cons_self, ih fun x hx => hl x (List.mem_cons_of_mem _ hx)]
    exact hz _ this
  · have hm : ∀ ds rest, made ((ds.flatMap fun c => [.connect c, .accept .over o]) ++ rest : List (ListenAction F)) =
        ds ++ made rest := by
      intro ds rest
      induction ds with
      | nil => rfl
      | cons d ds ih => simp [List.flatMap_cons, made, ih]
    have hr : ∀ n, made (List.replicate n (.accept .stays o) : List (ListenAction F)) = [] := by
      intro n
      induction n with
      | zero => rfl
      | succ n ih => exact ih
    rw [hm]
    show cs ++ c :: made _ = _
    rw [hr]
  · have hn := C123_never_rests e m db cs.length (heldOnly cs.reverse [c] : Listen F) hlist (by simp [heldOnly])
      cs.length hu (Nat.le_refl _) (List.replicate lines (.stays, o))
      (fun x hx => by rw [(List.mem_replicate.1 hx).2]; exact ho) (by rw [List.map_replicate]; exact hrep)
    rw [List.map_replicate, List.length_replicate] at hn
    rw [hs]
    simp only [h, listenRun_append, h2, listenRun, List.append_nil, hstep, hn, List.nil_append]

def exampleLogOs : LogOs := ⟨fun _ => true, fun _ => true⟩

/-- C123: the OS gives two sockets, three players connect, and the log has a million lines. -/
example (e : Endian) (m : Mode) (db : Db) :
    (listenRun e m db (.start : Listen Nat) (([1, 2].flatMap fun c => [.connect c, .accept .over exampleLogOs]) ++
      .connect 3 :: List.replicate 1000000 (.accept .stays exampleLogOs))).2.1 =
        List.replicate 1000000 .acceptError :=
  (C123_unbounded e m db exampleLogOs rfl [1, 2] 3 1000000).2.2.2

example (e : Endian) (m : Mode) (db : Db) (os : List (Handed × LogOs)) (ho : ∀ x ∈ os, x.2.written 0 = true)
    (h : LimitedHere e m db 2 (heldOnly [1, 2] [3] : Listen Nat) (os.map fun x => .accept x.1 x.2)) :=
  C123_never_rests e m db 2 (heldOnly [1, 2] [3] : Listen Nat) ⟨rfl, rfl⟩ (by simp [heldOnly]) 2
    (heldOnly_uses [1, 2] [3]) (Nat.le_refl _) os ho h

/-- A garbled datagram of the status server is worth a line and gets one. -/
example (e : Endian) (m : Mode) (db : Db) :
    (listenRun e m db (.start : Listen Nat) [.other (.status .ioError) exampleLogOs]).2.1 = [.statusUnreadable] := rfl

/-! ## C124: the queue -/

/-- What the queue adds to a history of the process is the order in which connections are accepted, and lines. -/
theorem listen_refines (e : Endian) (m : Mode) (db : Db) (s : Listen F) (h : List (ListenAction F))
    (hw : ErrorsWritten h) :
    ∃ h', sysLogRun e m db s.sys h' = ((listenRun e m db s h).1,
        (listenRun e m db s h).2.1.filter (· ≠ .acceptError), (listenRun e m db s h).2.2.sys) ∧
      besideAccepts h' = othersIn h ∧
      (Listening (listenRun e m db s h).2.2 → Listening s ∧
        (acceptedIn h' ++ (listenRun e m db s h).2.2.waiting).Sublist (s.waiting ++ made h) ∧
        (NoneDropped h → acceptedIn h' ++ (listenRun e m db s h).2.2.waiting = s.waiting ++ made h)) := by
  induction h generalizing s with
  | nil => exact ⟨[], rfl, rfl, fun hl => ⟨hl, by simp [listenRun, acceptedIn, made], by simp [listenRun, acceptedIn, made]⟩⟩
  | cons x h ih =>
    obtain ⟨h', i1, i2, i3⟩ := ih (listenStep e m db s x).2.2 (fun r o hm => hw r o (List.mem_cons_of_mem _ hm))
    have hnd : ∀ {y}, NoneDropped (y :: h) → NoneDropped h := fun hn o hm => hn o (List.mem_cons_of_mem _ hm)
    cases x with
    | connect c =>
      by_cases hl : Listening s
      · have hs : listenStep e m db s (.connect c) = ([], [], ⟨s.sys, s.waiting ++ [c]⟩) := by
          simp only [listenStep, (listening_iff s).1 hl, if_true]
        simp only [hs] at i1 i3
        refine ⟨h', ?_, i2, fun hf => ?_⟩
        · simp only [listenRun, hs, i1, List.nil_append]
        · simp only [listenRun, hs] at hf ⊢
          obtain ⟨_, j2, j3⟩ := i3 hf
          simp only [List.append_assoc, List.singleton_append] at j2 j3
          exact ⟨hl, j2, fun hn => j3 (hnd hn)⟩
      · have hs : listenStep e m db s (.connect c) = ([], [], s) := by
          have := mt (listening_iff s).2 hl
          simp only [listenStep, this, Bool.false_eq_true, if_false]
        simp only [hs] at i1 i3
        refine ⟨h', ?_, i2, fun hf => ?_⟩
        · simp only [listenRun, hs, i1, List.nil_append]
        · simp only [listenRun, hs] at hf
          exact absurd (i3 hf).1 hl
    | accept r o =>
      by_cases hl : Listening s
      · cases hq : s.waiting with
        | nil =>
          have hs : listenStep e m db s (.accept r o) = ([], [], s) := by
            simp only [listenStep, (listening_iff s).1 hl, if_true, acceptStep, hq, settled_of hl]
          simp only [hs] at i1 i3
          refine ⟨h', ?_, i2, fun hf => ?_⟩
          · simp only [listenRun, hs, i1, List.nil_append]
          · simp only [listenRun, hs] at hf ⊢
            obtain ⟨_, j2, j3⟩ := i3 hf
            rw [hq] at j2 j3
            exact ⟨hl, j2, fun hn => j3 (hnd hn)⟩
        | cons c cs =>
          have hwr : r ≠ .over → o.written 0 = true := hw r o List.mem_cons_self
          cases r with
          | over =>
            have hsys : sysLog e m db s.sys (.accept c) o = ([], [], { s.sys with mains := c :: s.sys.mains }) := by
              simp only [sysLog, sysStep, hl.1, hl.2, if_true]
            have hs : listenStep e m db s (.accept .over o) =
                ([], [], ⟨{ s.sys with mains := c :: s.sys.mains }, cs⟩) := by
              simp only [listenStep, (listening_iff s).1 hl, if_true, acceptStep, hq, hsys]
              exact congrArg (fun t => ([], [], t)) (settled_of ⟨hl.1, hl.2⟩)
            simp only [hs] at i1 i3
            refine ⟨(.accept c, o) :: h', ?_, i2, fun hf => ?_⟩
            · simp only [sysLogRun, hsys, listenRun, hs, i1, List.nil_append]
            · simp only [listenRun, hs] at hf ⊢
              obtain ⟨_, j2, j3⟩ := i3 hf
              exact ⟨hl, j2.cons_cons c, fun hn => congrArg (c :: ·) (j3 (hnd hn))⟩
          | stays =>
            have hs := stays_step e m db s hl (by rw [hq]; simp) o (hwr (by simp))
            simp only [hs] at i1 i3
            refine ⟨h', ?_, i2, fun hf => ?_⟩
            · simp only [listenRun, hs, i1, List.nil_append, List.singleton_append]
              simp
            · simp only [listenRun, hs] at hf ⊢
              obtain ⟨_, j2, j3⟩ := i3 hf
              rw [hq] at j2 j3
              exact ⟨hl, j2, fun hn => j3 (hnd hn)⟩
          | gone =>
            have hs : listenStep e m db s (.accept .gone o) = ([], [.acceptError], ⟨s.sys, cs⟩) := by
              simp only [listenStep, (listening_iff s).1 hl, if_true, acceptStep, hq,
                acceptFails_written o s.sys (hwr (by simp))]
              exact congrArg (fun t => ([], [LogLine.acceptError], t)) (settled_of (s := ⟨s.sys, cs⟩) ⟨hl.1, hl.2⟩)
            simp only [hs] at i1 i3
            refine ⟨h', ?_, i2, fun hf => ?_⟩
            · simp only [listenRun, hs, i1, List.nil_append, List.singleton_append]
              simp
            · simp only [listenRun, hs] at hf ⊢
              obtain ⟨_, j2, j3⟩ := i3 hf
              exact ⟨hl, j2.cons c, fun hn => absurd List.mem_cons_self (hn o)⟩
      · have hs : listenStep e m db s (.accept r o) = ([], [], s) := by
          have := mt (listening_iff s).2 hl
          simp only [listenStep, this, Bool.false_eq_true, if_false]
        simp only [hs] at i1 i3
        refine ⟨h', ?_, i2, fun hf => ?_⟩
        · simp only [listenRun, hs, i1, List.nil_append]
        · simp only [listenRun, hs] at hf
          exact absurd (i3 hf).1 hl
    | other x o =>
      by_cases hx : ∃ c, x = .accept c
      · obtain ⟨c, rfl⟩ := hx
        have hs : listenStep e m db s (.other (.accept c) o) = ([], [], s) := rfl
        simp only [hs] at i1 i3
        refine ⟨h', ?_, i2, fun hf => ?_⟩
        · simp only [listenRun, hs, i1, List.nil_append]
        · simp only [listenRun, hs] at hf ⊢
          obtain ⟨j1, j2, j3⟩ := i3 hf
          exact ⟨j1, j2, fun hn => j3 (hnd hn)⟩
      · have hs : listenStep e m db s (.other x o) = ((sysLog e m db s.sys x o).1, (sysLog e m db s.sys x o).2.1,
            (⟨(sysLog e m db s.sys x o).2.2, s.waiting⟩ : Listen F).settled) := by
          cases x with
          | accept c => exact absurd ⟨c, rfl⟩ hx
          | _ => rfl
        have hno : (sysLog e m db s.sys x o).2.1.filter (· ≠ .acceptError) = (sysLog e m db s.sys x o).2.1 := by
          rw [List.filter_eq_self]
          intro l hl
          have := (few_sys e m db s.sys x o).2
          exact decide_eq_true (fun he => this (he ▸ hl))
        have hb : besideAccepts ((x, o) :: h') = (x, o) :: besideAccepts h' := by
          cases x with
          | accept c => exact absurd ⟨c, rfl⟩ hx
          | _ => rfl
        have ho : othersIn (.other x o :: h) = (x, o) :: othersIn h := by
          cases x with
          | accept c => exact absurd ⟨c, rfl⟩ hx
          | _ => rfl
        have ha : acceptedIn ((x, o) :: h') = acceptedIn h' := by
          cases x with
          | accept c => exact absurd ⟨c, rfl⟩ hx
          | _ => rfl
        simp only [hs, settled_sys] at i1 i3
        refine ⟨(x, o) :: h', ?_, by rw [hb, ho, i2], fun hf => ?_⟩
        · simp only [sysLogRun, listenRun, hs, i1, List.filter_append, hno]
        · simp only [listenRun, hs] at hf ⊢
          obtain ⟨j1, j2, j3⟩ := i3 hf
          have hl' : Listening (⟨(sysLog e m db s.sys x o).2.2, s.waiting⟩ : Listen F) := by
            obtain ⟨a, b⟩ := j1
            rw [settled_sys] at a b
            exact ⟨a, b⟩
          rw [settled_of hl'] at j2 j3 ⊢
          rw [ha]
          exact ⟨⟨running_before e m db s.sys x o hl'.1, accepting_before e m db s.sys x o hl'.2⟩, j2, fun hn => j3 (hnd hn)⟩

/-- C124: connections are accepted in the order in which they were made, each at most once, and those that are not are
waiting, as long as the loop runs; none is lost unless an error takes it.  Errors of `accept` change nothing else: beside
the lines about them, everything is sent, logged and done as in a history of the process in which the rest happens and
the connections are accepted at some time. -/
theorem C124_in_order (e : Endian) (m : Mode) (db : Db) (h : List (ListenAction F)) (hw : ErrorsWritten h) :
    ∃ h', sysLogRun e m db .start h' = ((listenRun e m db .start h).1,
        (listenRun e m db .start h).2.1.filter (· ≠ .acceptError), (listenRun e m db .start h).2.2.sys) ∧
      besideAccepts h' = othersIn h ∧
      (Listening (listenRun e m db .start h).2.2 →
        (acceptedIn h' ++ (listenRun e m db .start h).2.2.waiting).Sublist (made h) ∧
        (NoneDropped h → acceptedIn h' ++ (listenRun e m db .start h).2.2.waiting = made h)) := by
  obtain ⟨h', h1, h2, h3⟩ := listen_refines e m db .start h hw
  exact ⟨h', h1, h2, fun hl => ⟨(h3 hl).2.1, (h3 hl).2.2⟩⟩

/-- C124: as soon as the OS hands them over, those that wait are accepted, one with each turn of the loop, and nothing
else changes. -/
theorem C124_recovers (e : Endian) (m : Mode) (db : Db) (o : LogOs) (s : Listen F) (hl : Listening s) :
    listenRun e m db s (s.waiting.map fun _ => .accept .over o) =
      ([], [], ⟨{ s.sys with mains := s.waiting.reverse ++ s.sys.mains }, []⟩) := by
  obtain ⟨t, ws⟩ := s
  induction ws generalizing t with
  | nil => rfl
  | cons c cs ih =>
    obtain ⟨h1, h2⟩ := hl
    have hsys : sysLog e m db t (.accept c) o = ([], [], { t with mains := c :: t.mains }) := by
      simp only [sysLog, sysStep, show t.app.running = true from h1, show t.services.accepting = true from h2, if_true]
    have hs : listenStep e m db ⟨t, c :: cs⟩ (.accept .over o) = ([], [], ⟨{ t with mains := c :: t.mains }, cs⟩) := by
      simp only [listenStep, (listening_iff ⟨t, c :: cs⟩).1 ⟨h1, h2⟩, if_true, acceptStep, hsys]
      exact congrArg (fun t => ([], [], t)) (settled_of ⟨h1, h2⟩)
    have := ih { t with mains := c :: t.mains } ⟨h1, h2⟩
    simp only [List.map_cons, listenRun, hs, this, List.nil_append]
    simp

theorem deaf_run (e : Endian) (m : Mode) (db : Db) (s : System F) (hs : s.services.accepting = false)
    (h : List (ListenAction F)) :
    listenRun e m db ⟨s, []⟩ h = ((sysLogRun e m db s (othersIn h)).1, (sysLogRun e m db s (othersIn h)).2.1,
      ⟨(sysLogRun e m db s (othersIn h)).2.2, []⟩) := by
  induction h generalizing s with
  | nil => rfl
  | cons x h ih =>
    have hdeaf : (s.app.running && s.services.accepting) = false := by rw [hs, Bool.and_false]
    cases x with
    | connect c =>
      simp only [listenRun, listenStep, hdeaf, Bool.false_eq_true, if_false, othersIn, ih s hs, List.nil_append]
    | accept r o =>
      simp only [listenRun, listenStep, hdeaf, Bool.false_eq_true, if_false, othersIn, ih s hs, List.nil_append]
    | other x o =>
      by_cases hx : ∃ c, x = .accept c
      · obtain ⟨c, rfl⟩ := hx
        simp only [listenRun, listenStep, othersIn, ih s hs, List.nil_append]
      · have hstep : listenStep e m db ⟨s, []⟩ (.other x o) = ((sysLog e m db s x o).1, (sysLog e m db s x o).2.1,
            (⟨(sysLog e m db s x o).2.2, []⟩ : Listen F)) := by
          have h1 : listenStep e m db ⟨s, []⟩ (.other x o) = ((sysLog e m db s x o).1, (sysLog e m db s x o).2.1,
              (⟨(sysLog e m db s x o).2.2, []⟩ : Listen F).settled) := by
            cases x with
            | accept c => exact absurd ⟨c, rfl⟩ hx
            | _ => rfl
          rw [h1]
          unfold Listen.settled
          split <;> rfl
        have ho : othersIn (.other x o :: h) = (x, o) :: othersIn h := by
          cases x with
          | accept c => exact absurd ⟨c, rfl⟩ hx
          | _ => rfl
        have hn : (sysLog e m db s x o).2.2.services.accepting = false := by
          cases ha : (sysLog e m db s x o).2.2.services.accepting with
          | false => rfl
          | true => exact absurd (hs.symm.trans (accepting_before e m db s x o ha)) (by decide)
        simp only [listenRun, hstep, ho, sysLogRun, ih _ hn]

/-- C124: if the line about a failing `accept` cannot be written the loop ends: the connections that wait are dropped, and
whatever happens none is accepted any more; everything else goes on as before. -/
theorem C124_lost_line (e : Endian) (m : Mode) (db : Db) (s : Listen F) (hl : Listening s) (hq : s.waiting ≠ [])
    (r : Handed) (hr : r ≠ .over) (o : LogOs) (ho : o.written 0 = false) (h : List (ListenAction F)) :
    let left : System F := { s.sys with services := { s.sys.services with accepting := false } }
    listenRun e m db s (.accept r o :: h) = ((sysLogRun e m db left (othersIn h)).1,
      (sysLogRun e m db left (othersIn h)).2.1, ⟨(sysLogRun e m db left (othersIn h)).2.2, []⟩) := by
  intro left
  have hs : listenStep e m db s (.accept r o) = ([], [], ⟨left, []⟩) := by
    simp only [listenStep, (listening_iff s).1 hl, if_true, acceptStep]
    cases hw : s.waiting with
    | nil => exact absurd hw hq
    | cons c cs =>
      have hn : ∀ ws, (⟨left, ws⟩ : Listen F).settled = ⟨left, []⟩ := fun ws => settled_not (fun hx => nomatch hx.2)
      cases r with
      | over => exact absurd rfl hr
      | stays => simp only [acceptFails_lost o s.sys ho]; exact congrArg (fun t => ([], [], t)) (hn _)
      | gone => simp only [acceptFails_lost o s.sys ho]; exact congrArg (fun t => ([], [], t)) (hn _)
  simp only [listenRun, hs, deaf_run e m db left rfl h, List.nil_append]

/-- C124: one of three connections is accepted, one is lost by an error, and the third waits while `accept` fails. -/
def exampleQueue : List (ListenAction Nat) :=
  [.connect 1, .connect 2, .accept .over exampleLogOs, .connect 3, .accept .gone exampleLogOs,
    .accept .stays exampleLogOs]

theorem exampleQueue_written : ErrorsWritten exampleQueue := by
  intro r o hm _
  simp only [exampleQueue, List.mem_cons, List.not_mem_nil, or_false] at hm
  rcases hm with h | h | h | h | h | h <;> cases h <;> rfl

example (e : Endian) (m : Mode) (db : Db) :
    (listenRun e m db .start exampleQueue).2.1 = [.acceptError, .acceptError] ∧
    (listenRun e m db .start exampleQueue).2.2.sys.mains = [1] ∧
    (listenRun e m db .start exampleQueue).2.2.waiting = [3] := ⟨rfl, rfl, rfl⟩

example (e : Endian) (m : Mode) (db : Db) := C124_in_order e m db exampleQueue exampleQueue_written

example (e : Endian) (m : Mode) (db : Db) :=
  C124_recovers e m db exampleLogOs (heldOnly [1] [3, 4] : Listen Nat) ⟨rfl, rfl⟩

example (e : Endian) (m : Mode) (db : Db) (h : List (ListenAction Nat)) :=
  C124_lost_line e m db (heldOnly [1] [3, 4]) ⟨rfl, rfl⟩ (by simp [heldOnly]) .stays (by simp)
    ⟨fun _ => false, fun _ => true⟩ rfl h

end PDJ

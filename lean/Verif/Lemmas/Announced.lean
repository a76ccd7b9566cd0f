import Verif.Lemmas.Linked

/-!
# Lemmas for C132
-/

namespace PDJ

open Spec

variable {F : Type}
variable {e : Endian} {m : Mode} {db : Db}

/-- The broadcaster runs unless the lock is poisoned. -/
def CasterUp (s : System F) : Prop := s.app.broadcaster = true ∨ s.app.poisoned = true

theorem CasterUp.sys {s : System F} (h : CasterUp s) (x : SysAction F) : CasterUp (sysStep e m db s x).2 := by
  unfold sysStep
  split
  · cases x with
    | app y =>
      have hst := stepTo s.app y
      show (appStep s.app y).2.broadcaster = true ∨ (appStep s.app y).2.poisoned = true
      unfold CasterUp at h
      generalize (appStep s.app y).2 = s' at hst ⊢
      generalize (appStep s.app y).1 = o at hst
      cases hst <;> first | exact h | exact .inr rfl
    | accept c => simp only; split <;> exact h
    | main c b => simp only; split <;> exact h
    | _ => exact h
  · exact h

theorem CasterUp.go {s s' : Overlap F} (h : CasterUp s.sys) {p : PDJ.Party} {outs : List SysOut}
    (hg : goOn e m db s p = some (outs, s')) : CasterUp s'.sys := by
  unfold goOn at hg
  cases hd : s.doing p with
  | idle => simp only [hd] at hg; exact nomatch hg
  | taken x =>
    simp only [hd] at hg
    have hk := h.sys (e := e) (m := m) (db := db) x
    split at hg
    · split at hg
      · simp only [Option.some.injEq, Prod.mk.injEq] at hg
        obtain ⟨_, rfl⟩ := hg
        cases x with
        | app y => cases y <;> first | exact hk | exact h
        | _ => exact hk
      · exact nomatch hg
    · split at hg
      · exact nomatch hg
      · simp only [Option.some.injEq, Prod.mk.injEq] at hg
        obtain ⟨_, rfl⟩ := hg
        exact hk
  | updating ws =>
    cases ws with
    | nil => simp only [hd, Option.some.injEq, Prod.mk.injEq] at hg; obtain ⟨_, rfl⟩ := hg; exact h
    | cons w ws =>
      simp only [hd, Option.some.injEq, Prod.mk.injEq] at hg
      obtain ⟨_, rfl⟩ := hg
      cases w <;> exact h
  | linking x os =>
    cases os with
    | nil =>
      simp only [hd, Option.some.injEq, Prod.mk.injEq] at hg
      obtain ⟨_, rfl⟩ := hg
      exact h.sys x
    | cons o os => simp only [hd, Option.some.injEq, Prod.mk.injEq] at hg; obtain ⟨_, rfl⟩ := hg; exact h
  | reading os => simp only [hd, Option.some.injEq, Prod.mk.injEq] at hg; obtain ⟨_, rfl⟩ := hg; exact h
  | holding os =>
    cases os <;> simp only [hd, Option.some.injEq, Prod.mk.injEq] at hg <;> obtain ⟨_, rfl⟩ := hg <;> exact h
  | sending os =>
    cases os <;> simp only [hd, Option.some.injEq, Prod.mk.injEq] at hg <;> obtain ⟨_, rfl⟩ := hg <;> exact h

theorem Spec.Endless.casterUp (r : Endless e m db F) (n : Nat) : CasterUp (r.state n).sys := by
  induction n with
  | zero => rw [r.start]; exact .inl rfl
  | succ n ih =>
    rcases overlapStep_cases (r.step n) with ⟨x, hx, _, _, hs⟩ | ⟨q, outs, hq, hg, _⟩
    · rw [hs]; exact ih
    · exact ih.go hg

/-- A history that comes back to where it was, in which then only one of them does something, for ever. -/
theorem circling {h c : List (OverlapAction F)} {o o' : List (PDJ.Party × SysOut)} {z : Overlap F}
    (hr : overlapRun e m db .start h = some (o, z)) (hc : overlapRun e m db z c = some (o', z)) (hne : 0 < c.length)
    (p : PDJ.Party) (hp : ∀ a ∈ c, a = .go p ∨ ∃ x, a = .take x ∧ x.party = p) :
    ∃ r : Endless e m db F, (∀ n (hn : n < h.length), r.act n = h[n]) ∧
      (∀ j, c[j % c.length]? = some (r.act (h.length + j))) ∧ r.state h.length = z ∧
      (∀ j, r.state (h.length + j) = r.state (h.length + j % c.length)) ∧
      (∀ j q, q ≠ p → (r.state (h.length + j)).doing q = z.doing q) ∧
      ∀ P : Overlap F → Bool, along e m db P z c = true → ∀ j, P (r.state (h.length + j)) = true := by
  obtain ⟨r, r1, r2, st, r3, r4, r5⟩ := looped hr hc hne
  have r6 : ∀ j, r.state (h.length + j) = r.state (h.length + j % c.length) := by
    intro j
    rw [r5, r5, Nat.mod_mod]
  have r7 : r.state h.length = z := by
    have := r5 0
    rw [Nat.zero_mod, r3] at this
    exact this
  refine ⟨r, r1, r2, r7, r6, fun j q hq => ?_, fun P hP j => ?_⟩
  · induction j with
    | zero => rw [Nat.add_zero, r7]
    | succ j ih =>
      rw [← ih]
      have hm := hp _ (List.mem_of_getElem? (r2 j))
      rcases overlapStep_cases (r.step (h.length + j)) with ⟨x, hx, _, _, hs⟩ | ⟨q', outs, hq', hg, _⟩
      · rw [← Nat.add_assoc, hs]
        refine now_other _ (fun h => ?_) _
        rcases hm with hm | ⟨y, hm, hy⟩ <;> rw [hx] at hm
        · exact nomatch hm
        · cases hm
          exact hq (h.trans hy)
      · refine goOn_other hg fun h => ?_
        rcases hm with hm | ⟨y, hm, hy⟩ <;> rw [hq'] at hm
        · cases hm
          exact hq h
        · exact nomatch hm
  · have here : ∀ (s : Overlap F) (g : List (OverlapAction F)), along e m db P s g = true → P s = true := by
      intro s g hg
      cases g with
      | nil => exact hg
      | cons a g => simp only [along, Bool.and_eq_true] at hg; exact hg.1
    have key : ∀ n, n ≤ c.length → along e m db P (r.state (h.length + n)) (c.drop n) = true := by
      intro n
      induction n with
      | zero => exact fun _ => by rw [Nat.add_zero, r7]; exact hP
      | succ n ih =>
        intro hn
        have h1 := ih (by omega)
        rw [List.drop_eq_getElem_cons (by omega)] at h1
        simp only [along, Bool.and_eq_true] at h1
        have h2 := h1.2
        have h3 := r2 n
        rw [Nat.mod_eq_of_lt (by omega), List.getElem?_eq_getElem (by omega), Option.some.injEq] at h3
        rw [h3, r.step] at h2
        exact h2
    rw [r6]
    exact here _ _ (key _ (Nat.le_of_lt (Nat.mod_lt _ hne)))

theorem idle_cannot {s : Overlap F} {q : PDJ.Party} (h : s.doing q = .idle) : ¬ CanGo e m db s q := by
  rintro ⟨o, s', hg⟩
  rcases overlapStep_cases hg with ⟨y, hy, _⟩ | ⟨p, outs, hp, hgo, _⟩
  · exact nomatch hy
  · cases hp
    unfold goOn at hgo
    rw [h] at hgo
    exact nomatch hgo

theorem waiting_cannot {s : Overlap F} (h : s.doing .main = .taken (.app .appRecv)) (hq : s.sys.app.queue.isEmpty = true)
    (hp : s.sys.app.pending = false) : ¬ CanGo e m db s .main := by
  rintro ⟨o, s', hg⟩
  rcases overlapStep_cases hg with ⟨y, hy, _⟩ | ⟨p, outs, hpp, hgo, _⟩
  · exact nomatch hy
  · cases hpp
    unfold goOn at hgo
    have hn : needsLock s.sys (.app .appRecv) = false := rfl
    have ha : awaitsEvent s.sys (.app .appRecv) = true := by simp [awaitsEvent, hq, hp]
    simp only [h, hn, ha] at hgo
    exact nomatch hgo


/-- A step of the receiver with the lock free that changes nothing. -/
theorem again_cycle (z : Overlap F) (hr : z.sys.app.running = true) (hl : z.lock = none) (hi : z.doing .receiver = .idle)
    (i : List Interface) (d : Bytes) (a : Announcement) (ha : Accepted d a)
    (hs : (appStep z.sys.app (.receive i d)).2 = z.sys.app) :
    (overlapStep e m db z (.take (.app (.receive i d))) = some ([], z.now .receiver (.taken (.app (.receive i d))))) ∧
    (∃ ws, overlapRun e m db z [.take (.app (.receive i d)), .go .receiver] =
      some ([], { z with lock := some .receiver }.now .receiver (.updating ws))) ∧
    (∀ P : Overlap F → Bool, (∀ s, s.sys = z.sys → P s = true) →
      along e m db P z (.take (.app (.receive i d)) :: List.replicate 5 (.go .receiver)) = true) ∧
    overlapRun e m db z (.take (.app (.receive i d)) :: List.replicate 5 (.go .receiver)) = some ([], z) := by
  have hss : (sysStep e m db z.sys (.app (.receive i d))).2 = z.sys := by
    simp only [sysStep, hr, if_true, hs]
  have hn : needsLock z.sys (.app (.receive i d)) = true := by
    simp only [needsLock, locksFirst, (receive_locks (F := F) i d).2 ⟨a, ha⟩]
    rfl
  have e1 : overlapStep e m db z (.take (.app (.receive i d))) =
      some ([], z.now .receiver (.taken (.app (.receive i d)))) := by
    simp only [overlapStep, hr, if_true]
    rw [show (SysAction.app (.receive i d) : SysAction F).party = .receiver from rfl, hi]
  have go : ∀ (s s' : Overlap F), s.sys = z.sys → goOn e m db s .receiver = some ([], s') →
      overlapStep e m db s (.go .receiver) = some ([], s') := by
    intro s s' h1 h2
    simp only [overlapStep, h1, hr, if_true, h2, Option.map_some, List.map_nil]
  have e2 : overlapStep e m db (z.now .receiver (.taken (.app (.receive i d)))) (.go .receiver) =
      some ([], { z with lock := some .receiver }.now .receiver
        (.updating [.address z.sys.app.state.address, .players z.sys.app.state.players])) := by
    refine go _ _ rfl ?_
    simp only [goOn, now_own]
    rw [show (z.now .receiver (.taken (.app (.receive i d)))).sys = z.sys from rfl, hn, if_pos rfl,
      show (z.now .receiver (.taken (.app (.receive i d)))).lock = z.lock from rfl, hl, if_pos rfl]
    refine congrArg (fun a => some ([], a)) ?_
    simp only [enter]
    rw [show (z.now .receiver (.taken (.app (.receive i d)))).sys = z.sys from rfl, hss]
    simp only [writesTo, List.drop_length, List.map_nil]
    exact now_now { z with lock := some .receiver } _ _ _
  have e3 : overlapStep e m db ({ z with lock := some .receiver }.now .receiver
      (.updating [.address z.sys.app.state.address, .players z.sys.app.state.players])) (.go .receiver) =
      some ([], { z with lock := some .receiver }.now .receiver (.updating [.players z.sys.app.state.players])) := by
    refine go _ _ rfl ?_
    simp only [goOn, now_own]
    exact congrArg (fun a => some ([], a)) (now_now { z with lock := some .receiver } _ _ _)
  have e4 : overlapStep e m db ({ z with lock := some .receiver }.now .receiver
      (.updating [.players z.sys.app.state.players])) (.go .receiver) =
      some ([], { z with lock := some .receiver }.now .receiver (.updating [])) := by
    refine go _ _ rfl ?_
    simp only [goOn, now_own]
    exact congrArg (fun a => some ([], a)) (now_now { z with lock := some .receiver } _ _ _)
  have e5 : overlapStep e m db ({ z with lock := some .receiver }.now .receiver (.updating [])) (.go .receiver) =
      some ([], z.now .receiver (.sending [])) := by
    refine go _ _ rfl ?_
    simp only [goOn, now_own]
    refine congrArg (fun a => some ([], a)) ?_
    have : z = { z with lock := none } := by rw [← hl]
    rw [this]
    exact now_now { z with lock := none } _ _ _
  have e6 : overlapStep e m db (z.now .receiver (.sending [])) (.go .receiver) = some ([], z) := by
    refine go _ _ rfl ?_
    simp only [goOn, now_own, now_now]
    rw [← hi, now_same]
  refine ⟨e1, ⟨[.address z.sys.app.state.address, .players z.sys.app.state.players], ?_⟩, fun P hP => ?_, ?_⟩
  · simp only [overlapRun, e1, e2, List.nil_append]
  · have p1 : ∀ st, P (z.now .receiver st) = true := fun _ => hP _ rfl
    have p2 : ∀ st, P ({ z with lock := some .receiver }.now .receiver st) = true := fun _ => hP _ rfl
    simp only [along, List.replicate, e1, e2, e3, e4, e5, e6, hP z rfl, p1, p2, Bool.true_and]
  · simp only [List.replicate, overlapRun, e1, e2, e3, e4, e5, e6, List.nil_append]

end PDJ

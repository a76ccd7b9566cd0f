import Verif.Model.LibServer

/-! # Projection of a service history to one task -/

namespace PDJ

/-- The events of a history that happen at handler `h`. -/
def handlerEvents (h : Nat) (es : List LibEvent) : List HandlerEvent :=
  es.filterMap fun
    | .handler h' e => if h' = h then some e else none
    | .main _ _ => none

/-- The binds of a history caused by chunks on main connection `c`. -/
def mainEvents (c : Nat) (es : List LibEvent) : List (Option UInt16) :=
  es.filterMap fun
    | .main c' b => if c' = c then some b else none
    | .handler _ _ => none

/-- What handler `h`'s connection receives. -/
def toHandler (h : Nat) (os : List LibOut) : List Bytes :=
  os.filterMap fun
    | .toHandler h' b => if h' = h then some b else none
    | .toMain _ _ => none

/-- What main connection `c` receives. -/
def toMain (c : Nat) (os : List LibOut) : List Bytes :=
  os.filterMap fun
    | .toMain c' b => if c' = c then some b else none
    | .toHandler _ _ => none

/-- A handler running on its own. -/
def handlerRun (m : Mode) (db : Db) : Phase → List HandlerEvent → List Bytes × Phase
  | p, [] => ([], p)
  | p, e :: es =>
    let r := handlerStep m db e p
    let rs := handlerRun m db r.2 es
    (r.1 ++ rs.1, rs.2)

/-- A main connection running on its own: the ports it is told. -/
def mainRun : List (Option UInt16) → List Bytes
  | [] => []
  | some p :: bs => be16 p :: mainRun bs
  | none :: _ => []

theorem toHandler_map_self (h : Nat) (l : List Bytes) :
    toHandler h (l.map (LibOut.toHandler h)) = l := by
  induction l with
  | nil => rfl
  | cons a l ih => simpa [toHandler] using ih

theorem toHandler_map_other {h h' : Nat} (hne : h' ≠ h) (l : List Bytes) :
    toHandler h (l.map (LibOut.toHandler h')) = [] := by
  induction l with
  | nil => rfl
  | cons a l _ => simp [toHandler, hne]

theorem toHandler_append (h : Nat) (a b : List LibOut) :
    toHandler h (a ++ b) = toHandler h a ++ toHandler h b := by
  simp [toHandler, List.filterMap_append]

theorem toMain_append (c : Nat) (a b : List LibOut) :
    toMain c (a ++ b) = toMain c a ++ toMain c b := by
  simp [toMain, List.filterMap_append]

theorem toMain_map_handler (c h : Nat) (l : List Bytes) :
    toMain c (l.map (LibOut.toHandler h)) = [] := by
  induction l with
  | nil => rfl
  | cons a l _ => simp [toMain]

/-- An event elsewhere does not touch handler `h`; an event at `h` is a step of the handler. -/
theorem libStep_handler (m : Mode) (db : Db) (s : LibServer) (e : LibEvent) (h : Nat)
    (hd : Handler) (hh : s.handlers[h]? = some hd) :
    toHandler h (libStep m db s e).1 = (handlerRun m db hd.phase (handlerEvents h [e])).1 ∧
    (libStep m db s e).2.handlers[h]? =
      some ⟨hd.port, (handlerRun m db hd.phase (handlerEvents h [e])).2⟩ := by
  have hlt : h < s.handlers.length := by
    rw [List.getElem?_eq_some_iff] at hh
    exact hh.1
  cases e with
  | main c b =>
    have e0 : handlerEvents h [LibEvent.main c b] = [] := rfl
    rw [e0]
    simp only [libStep, handlerRun]
    split
    · exact ⟨rfl, hh⟩
    · cases b with
      | none => exact ⟨rfl, hh⟩
      | some p =>
        refine ⟨rfl, ?_⟩
        simp only
        rw [List.getElem?_append_left hlt]
        exact hh
  | handler h' e =>
    by_cases hne : h' = h
    · subst hne
      have e0 : handlerEvents h' [LibEvent.handler h' e] = [e] := by simp [handlerEvents]
      rw [e0]
      simp only [libStep, hh, handlerRun, List.append_nil]
      exact ⟨toHandler_map_self _ _, by simp [hlt]⟩
    · have e0 : handlerEvents h [LibEvent.handler h' e] = [] := by simp [handlerEvents, hne]
      rw [e0]
      simp only [libStep, handlerRun]
      cases hx : s.handlers[h']? with
      | none => exact ⟨rfl, hh⟩
      | some hd' =>
        refine ⟨toHandler_map_other hne _, ?_⟩
        simp only
        rw [List.getElem?_set_ne hne]
        exact hh

theorem handlerRun_append (m : Mode) (db : Db) (p : Phase) (a b : List HandlerEvent) :
    handlerRun m db p (a ++ b) =
      ((handlerRun m db p a).1 ++ (handlerRun m db (handlerRun m db p a).2 b).1,
        (handlerRun m db (handlerRun m db p a).2 b).2) := by
  induction a generalizing p with
  | nil => rfl
  | cons e a ih =>
    simp only [List.cons_append, handlerRun]
    rw [ih]
    simp [List.append_assoc]

theorem libRun_append (m : Mode) (db : Db) (s : LibServer) (a b : List LibEvent) :
    libRun m db s (a ++ b) =
      ((libRun m db s a).1 ++ (libRun m db (libRun m db s a).2 b).1,
        (libRun m db (libRun m db s a).2 b).2) := by
  induction a generalizing s with
  | nil => rfl
  | cons e a ih =>
    simp only [List.cons_append, libRun]
    rw [ih]
    simp [List.append_assoc]

theorem libRun_handler (m : Mode) (db : Db) (es : List LibEvent) (s : LibServer) (h : Nat)
    (hd : Handler) (hh : s.handlers[h]? = some hd) :
    toHandler h (libRun m db s es).1 = (handlerRun m db hd.phase (handlerEvents h es)).1 ∧
    (libRun m db s es).2.handlers[h]? =
      some ⟨hd.port, (handlerRun m db hd.phase (handlerEvents h es)).2⟩ := by
  induction es generalizing s hd with
  | nil => exact ⟨rfl, hh⟩
  | cons e es ih =>
    have hs := libStep_handler m db s e h hd hh
    have hr := ih _ _ hs.2
    have he : handlerEvents h (e :: es) = handlerEvents h [e] ++ handlerEvents h es := by
      unfold handlerEvents
      rw [← List.filterMap_append]
      rfl
    rw [he, handlerRun_append]
    simp only [libRun, toHandler_append, hs.1, hr.1, hr.2, true_and]

theorem libRun_main (m : Mode) (db : Db) (es : List LibEvent) (s : LibServer) (c : Nat) :
    toMain c (libRun m db s es).1 = if c ∈ s.deadMains then [] else mainRun (mainEvents c es) := by
  induction es generalizing s with
  | nil => simp [libRun, toMain, mainRun, mainEvents]
  | cons e es ih =>
    simp only [libRun, toMain_append, ih]
    cases e with
    | handler h e =>
      have e0 : mainEvents c (LibEvent.handler h e :: es) = mainEvents c es := rfl
      rw [e0]
      have e1 : toMain c (libStep m db s (.handler h e)).1 = [] := by
        simp only [libStep]
        cases s.handlers[h]? with
        | none => rfl
        | some hd => exact toMain_map_handler _ _ _
      have e2 : (libStep m db s (.handler h e)).2.deadMains = s.deadMains := by
        simp only [libStep]
        cases s.handlers[h]? <;> rfl
      rw [e1, e2, List.nil_append]
    | main c' b =>
      by_cases hc : c' = c
      · subst hc
        have e0 : mainEvents c' (LibEvent.main c' b :: es) = b :: mainEvents c' es := by
          simp [mainEvents]
        rw [e0]
        by_cases hd : c' ∈ s.deadMains
        · simp [libStep, hd, toMain]
        · cases b with
          | none => simp [libStep, hd, toMain, mainRun]
          | some p => simp [libStep, hd, toMain, mainRun]
      · have e0 : mainEvents c (LibEvent.main c' b :: es) = mainEvents c es := by
          simp [mainEvents, hc]
        rw [e0]
        by_cases hd : c' ∈ s.deadMains
        · simp [libStep, hd, toMain]
        · cases b with
          | none =>
            have : c ≠ c' := fun h => hc h.symm
            simp [libStep, hd, toMain, this]
          | some p => simp [libStep, hd, toMain, hc]

end PDJ

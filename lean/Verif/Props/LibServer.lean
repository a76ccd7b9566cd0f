import Verif.Lemmas.LibServer
import Verif.Props.Session

/-!
# Properties of the library TCP service: C13, C61
-/

namespace PDJ

/-! ## C13 isolation -/

/-- A service in which one handler is all there is. -/
def aloneServer (hd : Handler) : LibServer := ⟨[], [hd]⟩

/-- C13: for every service state, every interleaving of events of any number of connections and
every handler, the bytes its connection receives are those it receives when it is the only handler
and only its own events happen.  In particular it does not matter which other connections come, go
or crash. -/
theorem C13_handlers_isolated (m : Mode) (db : Db) (s : LibServer) (es : List LibEvent) (h : Nat)
    (hd : Handler) (hh : s.handlers[h]? = some hd) :
    toHandler h (libRun m db s es).1 =
      toHandler 0 (libRun m db (aloneServer hd)
        ((handlerEvents h es).map (LibEvent.handler 0))).1 := by
  rw [(libRun_handler m db es s h hd hh).1,
    (libRun_handler m db _ (aloneServer hd) 0 hd rfl).1]
  congr 2
  generalize handlerEvents h es = l
  induction l with
  | nil => rfl
  | cons a l ih =>
    simp only [List.map_cons]
    unfold handlerEvents at ih ⊢
    rw [List.filterMap_cons]
    simp only [if_pos, ← ih]

/-- C13: two histories that agree on the events of a handler give it the same bytes. -/
theorem C13_only_own_events_matter (m : Mode) (db : Db) (s s' : LibServer) (es es' : List LibEvent)
    (h : Nat) (hd : Handler) (hh : s.handlers[h]? = some hd) (hh' : s'.handlers[h]? = some hd)
    (he : handlerEvents h es = handlerEvents h es') :
    toHandler h (libRun m db s es).1 = toHandler h (libRun m db s' es').1 := by
  rw [(libRun_handler m db es s h hd hh).1, (libRun_handler m db es' s' h hd hh').1, he]

/-- C13 for connections to the well-known port. -/
theorem C13_main_connections_isolated (m : Mode) (db : Db) (es : List LibEvent) (c : Nat) :
    toMain c (libRun m db .start es).1 =
      toMain c (libRun m db .start ((mainEvents c es).map (LibEvent.main c))).1 := by
  rw [libRun_main, libRun_main]
  simp only [LibServer.start, List.not_mem_nil, if_false]
  congr 1
  generalize mainEvents c es = l
  induction l with
  | nil => rfl
  | cons a l ih =>
    simp only [List.map_cons]
    unfold mainEvents at ih ⊢
    rw [List.filterMap_cons]
    simp only [if_pos, ← ih]

/-- A non-trivial case: a connection is killed by its own chunk while another one is served. -/
example : ∃ (s : LibServer) (hd : Handler), s.handlers[1]? = some hd ∧ hd.phase = .serving none ∧
    ∃ es, (libRun .debug Db.empty s es).2.handlers[0]?.map Handler.phase = some .finished ∧
      toHandler 1 (libRun .debug Db.empty s es).1 = [[1, 2, 3, 4, 5]] := by
  refine ⟨⟨[], [⟨1, .serving none⟩, ⟨2, .serving none⟩]⟩, ⟨2, .serving none⟩, rfl, rfl,
    [.handler 0 (.data .id [0x11, 0x87, 0x23, 0x49, 0xae, 0x00, 0, 0, 0, 1]),
      .handler 1 (.data .id [1, 2, 3, 4, 5])], ?_, ?_⟩
  · decide
  · decide

/-! ## C61 port allocation -/

/-- C61: as long as binding works, each chunk on a connection to the well-known port is answered
with the big-endian number of the port just bound, and a handler listens on it; everything else is
unchanged. -/
theorem C61_port_announced (m : Mode) (db : Db) (s : LibServer) (c : Nat) (p : UInt16)
    (hc : c ∉ s.deadMains) :
    libStep m db s (.main c (some p)) =
      ([.toMain c [UInt8.ofNat (p.toNat / 256), UInt8.ofNat p.toNat]],
        ⟨s.deadMains, s.handlers ++ [⟨p, .listening⟩]⟩) := by
  simp only [libStep, if_neg hc]
  rfl

/-- C61: over every history, the bytes a main connection receives are the numbers of the ports
bound for its chunks, in order, up to the first failing bind. -/
theorem C61_ports_in_order (m : Mode) (db : Db) (es : List LibEvent) (c : Nat) :
    toMain c (libRun m db .start es).1 =
      ((mainEvents c es).takeWhile Option.isSome).filterMap (·.map be16) := by
  rw [libRun_main]
  simp only [LibServer.start, List.not_mem_nil, if_false]
  generalize mainEvents c es = l
  induction l with
  | nil => rfl
  | cons a l ih => cases a <;> simp [mainRun, ih]

/-- The events that are not connection attempts (failed or not). -/
def notConnect : HandlerEvent → Bool
  | .connect => false
  | .refused => false
  | _ => true

theorem handlerRun_not_listening (m : Mode) (db : Db) (p : Phase) (hp : p ≠ .listening)
    (es : List HandlerEvent) :
    handlerRun m db p es = handlerRun m db p (es.filter notConnect) ∧
      (handlerRun m db p es).2 ≠ .listening := by
  induction es generalizing p with
  | nil => exact ⟨rfl, hp⟩
  | cons e es ih =>
    cases e with
    | connect =>
      have e0 : handlerStep m db .connect p = ([], p) := by
        cases p <;> first | rfl | exact absurd rfl hp
      simp only [handlerRun, e0, List.nil_append, List.filter_cons, notConnect]
      exact ih p hp
    | refused =>
      have e0 : handlerStep m db .refused p = ([], p) := by
        cases p <;> first | rfl | exact absurd rfl hp
      simp only [handlerRun, e0, List.nil_append, List.filter_cons, notConnect]
      exact ih p hp
    | close =>
      have e0 : (handlerStep m db .close p).2 ≠ .listening := by
        cases p <;> first | exact absurd rfl hp | simp [handlerStep]
      simp only [handlerRun, List.filter_cons, notConnect, if_true]
      exact ⟨by rw [(ih _ e0).1], (ih _ e0).2⟩
    | data io chunk =>
      have e0 : (handlerStep m db (.data io chunk) p).2 ≠ .listening := by
        cases p with
        | listening => exact absurd rfl hp
        | finished => simp [handlerStep]
        | serving ctx =>
          simp only [handlerStep]
          split <;> simp
      simp only [handlerRun, List.filter_cons, notConnect, if_true]
      exact ⟨by rw [(ih _ e0).1], (ih _ e0).2⟩

theorem handlerRun_listening (m : Mode) (db : Db) (es : List HandlerEvent)
    (h : ∀ e ∈ es, notConnect e = true) : handlerRun m db .listening es = ([], .listening) := by
  induction es with
  | nil => rfl
  | cons e es ih =>
    have h1 := h e (by simp)
    have ih := ih fun x hx => h x (by simp [hx])
    cases e with
    | connect => simp [notConnect] at h1
    | refused => simp [notConnect] at h1
    | close => simp [handlerRun, handlerStep, ih]
    | data io c => simp [handlerRun, handlerStep, ih]

/-- C61: a listener serves at most one connection: after the first connection attempt, further
connection attempts at the same listener have no effect at all, for every history. -/
theorem C61_one_connection_per_listener (m : Mode) (db : Db) (before after : List HandlerEvent)
    (hb : ∀ e ∈ before, notConnect e = true) :
    handlerRun m db .listening (before ++ .connect :: after) =
        handlerRun m db (.serving none) (after.filter notConnect) ∧
      (handlerRun m db .listening (before ++ .connect :: after)).2 ≠ .listening := by
  rw [handlerRun_append, handlerRun_listening m db before hb]
  simp only [handlerRun, handlerStep, List.nil_append]
  have h := handlerRun_not_listening m db (.serving none) (by simp) after
  exact ⟨h.1, h.2⟩

/-- C61: a listener whose `accept` fails is gone: it never serves anybody. -/
theorem C61_failed_accept (m : Mode) (db : Db) (before after : List HandlerEvent)
    (hb : ∀ e ∈ before, notConnect e = true) :
    handlerRun m db .listening (before ++ .refused :: after) = ([], .finished) := by
  rw [handlerRun_append, handlerRun_listening m db before hb]
  simp only [handlerRun, handlerStep, List.nil_append]
  induction after with
  | nil => rfl
  | cons e es ih =>
    have h : handlerStep m db e .finished = ([], .finished) := by cases e <;> rfl
    simp only [handlerRun, h, ih, List.nil_append]

theorem connRun_dead (m : Mode) (db : Db) (h : List (IterOrder × Bytes)) :
    (connRun m db .dead h).1.filterMap id = [] := by
  induction h with
  | nil => rfl
  | cons y h ih => simpa [connRun, connStep] using ih

/-- C61: the one connection of a listener starts with a fresh session: it receives what a new
session answers to its chunks (so the session properties C07-C16 apply to it). -/
theorem C61_fresh_session (m : Mode) (db : Db) (before : List HandlerEvent)
    (hb : ∀ e ∈ before, notConnect e = true) (chunks : List (IterOrder × Bytes)) :
    (handlerRun m db .listening
        (before ++ .connect :: chunks.map (fun x => .data x.1 x.2))).1 =
      (connRun m db (.open none) chunks).1.filterMap id := by
  rw [handlerRun_append, handlerRun_listening m db before hb]
  simp only [handlerRun, handlerStep, List.nil_append]
  generalize (none : Ctx) = ctx
  induction chunks generalizing ctx with
  | nil => rfl
  | cons x chunks ih =>
    simp only [List.map_cons, handlerRun, handlerStep, connRun, connStep]
    cases hp : process m x.1 db x.2 ctx with
    | panic =>
      simp only [List.nil_append, List.filterMap_cons, id, connRun_dead]
      have dead : ∀ l : List (IterOrder × Bytes), (handlerRun m db .finished
          (l.map (fun x => HandlerEvent.data x.1 x.2))).1 = [] := by
        intro l
        induction l with
        | nil => rfl
        | cons y l ih => simpa [handlerRun, handlerStep] using ih
      exact dead chunks
    | ok v =>
      obtain ⟨reply, c⟩ := v
      simp only [ih c, List.filterMap_cons, id, List.singleton_append]

/-- C61 in terms of the whole service: the port announced to main connection `c` after any history
belongs to a handler that, from then on, behaves as a fresh listener whatever happens elsewhere. -/
theorem C61_announced_port_serves (m : Mode) (db : Db) (before after : List LibEvent) (c : Nat)
    (p : UInt16) (hc : c ∉ (libRun m db .start before).2.deadMains) :
    ∃ h, (libRun m db .start (before ++ [.main c (some p)])).2.handlers[h]? =
          some ⟨p, .listening⟩ ∧
      toHandler h (libRun m db (libRun m db .start (before ++ [.main c (some p)])).2 after).1 =
        (handlerRun m db .listening (handlerEvents h after)).1 := by
  have h1 : (libRun m db .start (before ++ [.main c (some p)])).2.handlers[
      (libRun m db .start before).2.handlers.length]? = some ⟨p, .listening⟩ := by
    rw [libRun_append]
    simp only [libRun]
    rw [C61_port_announced m db _ c p hc]
    simp
  exact ⟨_, h1, (libRun_handler m db after _ _ _ h1).1⟩

example : (0 : Nat) ∉ (libRun .debug Db.empty .start [.main 1 none]).2.deadMains := by decide

/-! ## Instances -/

/-- Two handlers, the first of which gets a message that breaks it. -/
def exampleServer : LibServer := ⟨[3], [⟨1, .serving none⟩, ⟨2, .serving none⟩]⟩

example := C13_handlers_isolated .debug Db.empty exampleServer
  [.handler 0 (.data .id [0x11, 0x87, 0x23, 0x49, 0xae, 0x00, 0, 0, 0, 1]),
    .handler 1 (.data .id [1, 2, 3, 4, 5]), .main 4 (some 5)] 1 _ rfl

example := C13_only_own_events_matter .debug Db.empty exampleServer ⟨[], [⟨9, .listening⟩, ⟨2, .serving none⟩]⟩
  [.handler 0 (.data .id [0x11, 0x87, 0x23, 0x49, 0xae, 0x00, 0, 0, 0, 1]),
    .handler 1 (.data .id [1, 2, 3, 4, 5])]
  [.handler 1 (.data .id [1, 2, 3, 4, 5]), .main 4 (some 5)] 1 _ rfl rfl rfl

example := C61_port_announced .debug Db.empty exampleServer 4 40000 (by decide)

/-- A chunk before the connection, a second attempt after it. -/
example := C61_failed_accept .debug Db.empty [.data .id [1, 2, 3]] [.connect, .data .id [4]] (by decide)
example := C61_one_connection_per_listener .debug Db.empty [.data .id [1, 2, 3]]
  [.connect, .data .id [1, 2, 3, 4, 5]] (by intro e h; cases List.mem_singleton.1 h; rfl)

example := C61_fresh_session .debug Db.empty [.data .id [1, 2, 3]]
  (by intro e h; cases List.mem_singleton.1 h; rfl) [(.id, [1, 2, 3, 4, 5])]

end PDJ

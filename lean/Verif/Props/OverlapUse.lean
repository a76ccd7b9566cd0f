import Verif.Lemmas.OverlapUse

/-!
# C128: what holds of whole steps holds of steps that overlap in time

A player gets the same answers when other threads and tasks work at the same time as when they do not.
-/

namespace PDJ

open Spec

variable {F : Type}

/-- **C128.**  What C100 says of whole steps is true of steps that overlap in time: what has been sent from a socket
are answers to some of the questions that have been taken up at this socket, at most one for each, in their order, and
each to the party that asked. -/
theorem C128_nothing_unasked (e : Endian) (m : Mode) (db : Db) (h : List (OverlapAction F))
    (o : List (PDJ.Party × SysOut)) (s : Overlap F) (hr : overlapRun e m db .start h = some (o, s)) (k : Sock) :
    (answersAt k (o.map Prod.snd)).Sublist (questionsAt k (begunSteps h)) := by
  obtain ⟨outs, more, h1, h2, _, _⟩ := onwards (s := .start) (h := []) rfl hr (sockParty k)
    (by cases k <;> exact nofun) rfl
  have hw : (Overlap.start : Overlap F).whole = .start := rfl
  have h3 := C100_nothing_unasked e m db (effects e m db .start h) k
  rw [answersAt_eq, onlyOf_run (onlyOf_answer k), ← hw, ← h1, List.filterMap_append,
    ← onlyOf_overlap (onlyOf_answer k) o (overlap_from e m db h o s hr)] at h3
  rw [answersAt_eq, ← questionsAt_steps, ← h2]
  refine (List.sublist_append_left _ _).trans (h3.trans ?_)
  rw [← questionsAt_steps, questionsAt_eq, questionsAt_eq, List.filterMap_append]
  exact List.sublist_append_left _ _

/-- **C128.**  So with steps that overlap, too, there are never more answers than questions. -/
theorem C128_no_amplification (e : Endian) (m : Mode) (db : Db) (h : List (OverlapAction F))
    (o : List (PDJ.Party × SysOut)) (s : Overlap F) (hr : overlapRun e m db .start h = some (o, s)) :
    ((o.map Prod.snd).filterMap answer).length ≤ ((begunSteps h).filterMap question).length :=
  length_of_sockets _ _ fun k => C128_nothing_unasked e m db h o s hr k

/-- **C128.**  What C110 says of the bytes sent in answer is true of steps that overlap in time. -/
theorem C128_bytes (e : Endian) (m : Mode) (db : Db) (h : List (OverlapAction F))
    (o : List (PDJ.Party × SysOut)) (s : Overlap F) (hr : overlapRun e m db .start h = some (o, s)) :
    (o.map fun y => datagramBytes y.2).sum ≤ ((begunSteps h).map allowed).sum := by
  have hw : (Overlap.start : Overlap F).whole = .start := rfl
  have hone : ∀ p, ∃ more, stepsOf p (effects e m db .start h) ++ more = stepsOf p (begunSteps h) ∧
      (p ≠ .main → ∃ outs, sentOf p o ++ outs = sentBy e m db p .start (effects e m db .start h)) := by
    intro p
    by_cases hp : p = .main
    · obtain ⟨l1, _⟩ := (lined_start e m db).history held_start h hr
      simp only [List.nil_append] at l1
      have h1 := l1.ok p
      unfold PartyOk at h1
      have hsame : stepsOf p (effects e m db .start h) = stepsOf p (begunSteps h) →
          ∃ more, stepsOf p (effects e m db .start h) ++ more = stepsOf p (begunSteps h) ∧
          (p ≠ .main → ∃ outs, sentOf p o ++ outs = sentBy e m db p .start (effects e m db .start h)) :=
        fun hh => ⟨[], by rw [List.append_nil]; exact hh, fun hn => absurd hp hn⟩
      cases hd : s.doing p with
      | idle => simp only [hd] at h1; exact hsame h1.2
      | taken x => simp only [hd] at h1; exact ⟨[x], h1.2.2, fun hn => absurd hp hn⟩
      | updating ws => simp only [hd] at h1; exact hsame h1.2.2.2
      | linking x rest => simp only [hd] at h1; exact ⟨[x], h1.2.2.2.2, fun hn => absurd hp hn⟩
      | holding os => simp only [hd] at h1; exact hsame h1.2.2
      | reading os => simp only [hd] at h1; exact hsame h1.2.2
      | sending os => simp only [hd] at h1; exact hsame h1.2
    · obtain ⟨outs, more, h1, h2, _, _⟩ := onwards (s := .start) (h := []) rfl hr p hp rfl
      exact ⟨more, h2, fun _ => ⟨outs, h1⟩⟩
  have h1 : (o.map fun y => datagramBytes y.2).sum ≤
      ((sysRun e m db .start (effects e m db .start h)).1.map datagramBytes).sum := by
    have : (o.map fun y => datagramBytes y.2) = (o.map Prod.snd).map datagramBytes := by simp
    rw [this, bytes_answers, bytes_answers (sysRun _ _ _ _ _).1]
    refine sum_by_key source datagramBytes _ _ _ (Nat.le_refl _) fun k => ?_
    rw [filter_answerOf, filter_answerOf, onlyOf_run (onlyOf_answerOf k),
      onlyOf_overlap (onlyOf_answerOf k) o (overlap_from e m db h o s hr)]
    by_cases hk : k = .main
    · subst hk
      rw [List.filterMap_eq_nil_iff.2]
      · exact List.nil_sublist _
      · intro y _
        unfold answerOf
        rw [if_neg]
        rintro ⟨ha, hs⟩
        match y with
        | .broadcast _ => exact nomatch ha
        | .rpc (none, _, _) => exact nomatch hs
        | .rpc (some p, _, _) => exact nomatch hs
        | .lib (.toMain c _) => exact nomatch hs
        | .lib (.toHandler c _) => exact nomatch hs
        | .status (_, _, _) => exact nomatch hs
    · obtain ⟨_, _, h2⟩ := hone k
      obtain ⟨outs, h3⟩ := h2 hk
      rw [← h3, List.filterMap_append]
      exact List.sublist_append_left _ _
  refine Nat.le_trans h1 (Nat.le_trans (C110_bytes_partial e m db _) ?_)
  refine sum_by_key SysAction.party allowed _ _ _ (Nat.le_refl _) fun k => ?_
  have hf : ∀ l : List (SysAction F), (l.filter fun x => x.party = k) = stepsOf k l := by
    intro l
    apply List.filter_congr
    intro x _
    cases hx : isOf k x with
    | true => exact decide_eq_true ((isOf_party _ _).1 hx)
    | false => exact decide_eq_false fun h => by rw [(isOf_party _ _).2 h] at hx; exact nomatch hx
  obtain ⟨more, h2, _⟩ := hone k
  rw [hf, hf, ← h2]
  exact List.sublist_append_left _ _

/-- **C128.**  A player at a library connection gets what it gets if it is alone, whatever else overlaps with it: from
any time at which its handler is between two steps, the handler sends the beginning of what it sends by itself for
the chunks it has taken up since, and all of it when it is between two steps again, as long as the process runs. -/
theorem C128_library (e : Endian) (m : Mode) (db : Db) (h h' : List (OverlapAction F))
    (o o' : List (PDJ.Party × SysOut)) (s s' : Overlap F) (hr : overlapRun e m db .start h = some (o, s))
    (hr' : overlapRun e m db s h' = some (o', s')) (i : Nat) (hd : Handler) (hh : s.sys.lib.handlers[i]? = some hd)
    (hi : s.doing (.handler i) = .idle) (hrun : s'.sys.app.running = true) :
    handlerOf i (o'.map Prod.snd) <+: (handlerRun m db hd.phase (handlerPart i (begunSteps h'))).1 ∧
    (s'.doing (.handler i) = .idle →
      handlerOf i (o'.map Prod.snd) = (handlerRun m db hd.phase (handlerPart i (begunSteps h'))).1) := by
  obtain ⟨outs, more, h1, h2, h3, h4⟩ := onwards hr hr' (.handler i) nofun hi
  have hfrom : ∀ y ∈ o', comesFrom y.1 y.2 := fun y hy =>
    overlap_from e m db (h ++ h') (o ++ o') s' (overlapRun_append e m db hr hr') y (List.mem_append_right _ hy)
  have h5 : handlerOf i (o'.map Prod.snd) ++ handlerOf i outs =
      (handlerRun m db hd.phase (handlerPart i (effects e m db s h'))).1 := by
    rw [← (lib_undisturbed e m db i (effects e m db s h') s.whole hd (by rw [(whole_lib s).1]; exact hh)
      (by rw [h4, (whole_lib s').2.2]; exact hrun)).1]
    rw [handlerOf_sent, ← h1, handlerOf_append, handlerOf_overlap i o' hfrom]
  have h6 : handlerPart i (begunSteps h') = handlerPart i (effects e m db s h') ++ handlerPart i more := by
    rw [← handlerPart_steps i (begunSteps h'), ← h2, handlerPart_append, handlerPart_steps]
  rw [h6, handlerRun_append, ← h5]
  refine ⟨?_, fun hidle => ?_⟩
  · simp only [List.append_assoc]
    exact List.prefix_append _ _
  · obtain ⟨rfl, rfl⟩ := h3 hidle
    simp [handlerPart, handlerRun, handlerOf]

/-- **C128.**  The same at a port of the NFS service: from any time at which the handler there and the portmapper are
between two steps, no other handler listens there, and until the OS gives the port to somebody else. -/
theorem C128_nfs (e : Endian) (m : Mode) (db : Db) (h h' : List (OverlapAction F))
    (o o' : List (PDJ.Party × SysOut)) (s s' : Overlap F) (hr : overlapRun e m db .start h = some (o, s))
    (hr' : overlapRun e m db s h' = some (o', s')) (p : UInt16) (t : NfsTask F)
    (hh : OnlyNfs p s.sys.services.rpc.tasks t) (hi : s.doing (.port p) = .idle) (hm : s.doing .portmapper = .idle)
    (hre : NeverRebound p (begunSteps h')) (hrun : s'.sys.app.running = true) :
    portOf p (o'.map Prod.snd) <+: (nfsRun e t (portPart p (begunSteps h'))).1 ∧
    (s'.doing (.port p) = .idle →
      portOf p (o'.map Prod.snd) = (nfsRun e t (portPart p (begunSteps h'))).1) := by
  obtain ⟨outs, more, h1, h2, h3, h4⟩ := onwards hr hr' (.port p) nofun hi
  obtain ⟨_, morep, _, h2p, _, _⟩ := onwards hr hr' .portmapper nofun hm
  have hrl : NeverRebound p (effects e m db s h') := by
    intro os bound r hmem
    refine hre os bound r ?_
    have : SysAction.portmap os bound r ∈ stepsOf .portmapper (begunSteps h') := by
      rw [← h2p]
      exact List.mem_append_left _ (List.mem_filter.2 ⟨hmem, rfl⟩)
    exact (List.mem_filter.1 this).1
  have hfrom : ∀ y ∈ o', comesFrom y.1 y.2 := fun y hy =>
    overlap_from e m db (h ++ h') (o ++ o') s' (overlapRun_append e m db hr hr') y (List.mem_append_right _ hy)
  have h5 : portOf p (o'.map Prod.snd) ++ portOf p outs =
      (nfsRun e t (portPart p (effects e m db s h'))).1 := by
    obtain ⟨dead, hf, hdead⟩ := hh
    obtain ⟨i1, _⟩ := services_undisturbed e m db (effects e m db s h') s.whole
      (by rw [h4, (whole_lib s').2.2]; exact hrun)
    have iso := (handler_isolated e p (rpcEvents e m db s.whole (effects e m db s h'))
      (fun os b r hmm => hrl os b r (mem_rpcEvents_portmap e m db _ _ hmm)) s.whole.services.rpc
      dead t (by rw [(whole_lib s).2.1]; exact hf) hdead).1
    rw [← (servicesRun_rpc e _ _).1, ← i1, ← portOf_rpcOf, eventsAt_rpcEvents] at iso
    rw [← iso]
    rw [portOf_sent, ← h1, portOf_append, portOf_overlap p o' hfrom]
  have h6 : portPart p (begunSteps h') = portPart p (effects e m db s h') ++ portPart p more := by
    rw [← portPart_steps p (begunSteps h'), ← h2, portPart_append', portPart_steps]
  rw [h6, nfsRun_append, ← h5]
  refine ⟨?_, fun hidle => ?_⟩
  · simp only [List.append_assoc]
    exact List.prefix_append _ _
  · obtain ⟨rfl, rfl⟩ := h3 hidle
    simp [portPart, nfsRun, portOf]

/-- **C128.**  The status server has sent a beginning of what it sends by itself for the packets it has taken up, and all
of it when it is between two steps, as long as the process runs. -/
theorem C128_status (e : Endian) (m : Mode) (db : Db) (h : List (OverlapAction F)) (o : List (PDJ.Party × SysOut))
    (s : Overlap F) (hr : overlapRun e m db .start h = some (o, s)) (hrun : s.sys.app.running = true) :
    statusOf (o.map Prod.snd) <+: (statusRun true (statusPart (begunSteps h))).1 ∧
    (s.doing .status = .idle → statusOf (o.map Prod.snd) = (statusRun true (statusPart (begunSteps h))).1) := by
  obtain ⟨outs, more, h1, h2, h3, h4⟩ := onwards (s := .start) (h := []) rfl hr .status nofun rfl
  have hw : (Overlap.start : Overlap F).whole = .start := rfl
  rw [hw] at h1 h4
  have h5 : statusOf (o.map Prod.snd) ++ statusOf outs = (statusRun true (statusPart (effects e m db .start h))).1 := by
    have := (C77_status_undisturbed e m db (effects e m db .start h) (by rw [h4, (whole_lib s).2.2]; exact hrun)).1
    rw [← this, statusOf_sent, ← h1, statusOf_overlap o (overlap_from e m db h o s hr)]
    exact (List.filterMap_append ..).symm
  have h6 : statusPart (begunSteps h) = statusPart (effects e m db .start h) ++ statusPart more := by
    rw [← statusPart_steps (begunSteps h), ← h2, statusPart_append, statusPart_steps]
  rw [h6, statusRun_append, ← h5]
  refine ⟨?_, fun hidle => ?_⟩
  · simp only [List.append_assoc]
    exact List.prefix_append _ _
  · obtain ⟨rfl, rfl⟩ := h3 hidle
    simp [statusPart, statusRun, statusOf]

/-- **C128.**  So a player gets the menu it asks for (`MenuShows`: C66, C67, C85) whatever overlaps with it. -/
theorem C128_menu (e : Endian) (m : Mode) (db : Db) (type : UInt16) (args : List Val) (P : List Msg → Prop)
    (hm : MenuShows m db type args P) (h h' : List (OverlapAction F)) (o o' : List (PDJ.Party × SysOut))
    (s s' : Overlap F) (hr : overlapRun e m db .start h = some (o, s)) (hr' : overlapRun e m db s h' = some (o', s'))
    (i : Nat) (port : UInt16) (hh : s.sys.lib.handlers[i]? = some ⟨port, .listening⟩)
    (hi : s.doing (.handler i) = .idle) (hi' : s'.doing (.handler i) = .idle) (hrun : s'.sys.app.running = true)
    (earlier later : List HandlerEvent) (ctx : Ctx) (io io' : IterOrder) (tx tx' : UInt32) (more more' : Bytes)
    (window : List Val) (hserve : (handlerRun m db .listening earlier).2 = .serving ctx)
    (hq : Sendable ⟨tx', 0x3000, window⟩)
    (hpart : handlerPart i (begunSteps h') = earlier ++ [.data io (writeMsg ⟨tx, type, args⟩ ++ more),
      .data io' (writeMsg ⟨tx', 0x3000, window⟩ ++ more')] ++ later) :
    ∃ reply reply' rest msgs, handlerOf i (o'.map Prod.snd) =
        (handlerRun m db .listening earlier).1 ++ [reply, reply'] ++ rest ∧
      readReply reply' = some msgs ∧ P msgs := by
  obtain ⟨reply, ctx', reply', msgs, e1, e2, e3, e4⟩ := hm io io' ctx tx tx' more more' window hq
  refine ⟨reply, reply', (handlerRun m db (.serving ctx') later).1, msgs, ?_, e3, e4⟩
  rw [(C128_library e m db h h' o o' s s' hr hr' i _ hh hi hrun).2 hi', hpart, handlerRun_append,
    handlerRun_append, hserve]
  simp only [handlerRun, handlerStep, e1, e2]
  simp

/-- **C128.**  And so a player gets the whole way to a file (C101) whatever overlaps with it: it connects to a library
port it was told, asks for the mount info of the file and has it rendered; at any time it is handed a port for NFS,
looks the shown path up there and reads the shown size in blocks, and gets exactly the contents of the file. -/
theorem C128_file (m : Mode) (ps ns : List Str) (slash : Bool)
    (hps : ps ≠ [] ∨ slash = true) (hns : ns ≠ []) (hcomp : ∀ p ∈ ps ++ ns, Component p) (name : Bytes)
    (t : Node) (scan : List MetaTrack)
    (hscan : scanFolder m (utf8 (pathOf ps ++ if slash then ['/'] else [])) t = .ok scan)
    (l : List (IterOrder × MetaTrack)) (hl : l.map (·.2) = scan) (hcap : l.length ≤ capacity) {db : Db}
    (hb : Db.build m l = .ok db) (f : FileInfo) (hf : (name :: ns.map utf8, f) ∈ allFiles t)
    (hw : Wanted (name :: ns.map utf8)) (htag : tagTexts f ≠ none) (hs : Fits (pathOf (ps ++ ns)))
    (rs : List (LookupReq F)) (w : World F) (md : Meta) (g : F) (content : F → Bytes)
    (hrs : rs.map LookupReq.name = ps ++ ns) (hrw : ∀ x ∈ rs, x.world = w ∧ x.fh.length = 32)
    (hdisk : OnDisk w (ps ++ ns) md g) (hfull : FullReads w content)
    (hsize : f.size = some (UInt64.ofNat (content g).length)) (hlen : (content g).length < 4294967296)
    (os : SendOs) (hos : AcceptsFitting os) (hdr : Hdr) (peer : Addr) (md' : Meta)
    (hmd : w.fstat g = some md') (hdated : Dated md') (k : Nat) (hk : 0 < k) (hk' : k ≤ 65404) :
    ∃ tid : UInt32, ∀ (h h₁ h₂ : List (OverlapAction F)) (o o₁ o₂ : List (PDJ.Party × SysOut))
      (s s₁ s₂ : Overlap F), overlapRun .little m db .start h = some (o, s) →
      overlapRun .little m db s h₁ = some (o₁, s₁) → overlapRun .little m db s₁ h₂ = some (o₂, s₂) →
      s₂.sys.app.running = true →
      ∀ (i : Nat) (port : UInt16), s.sys.lib.handlers[i]? = some ⟨port, .listening⟩ →
      s.doing (.handler i) = .idle → s₂.doing (.handler i) = .idle →
      ∀ p : UInt16, OnlyNfs p s₁.sys.services.rpc.tasks .start → s₁.doing (.port p) = .idle →
      s₁.doing .portmapper = .idle → NeverRebound p (begunSteps h₂) → s₂.doing (.port p) = .idle →
      ∀ (earlier later : List HandlerEvent) (ctx : Ctx) (io io' : IterOrder) (dmst tx tx' : UInt32)
        (more more' : Bytes) (window : List Val),
        (handlerRun m db .listening earlier).2 = .serving ctx → Sendable ⟨tx', 0x3000, window⟩ →
        handlerPart i (begunSteps (h₁ ++ h₂)) = earlier ++
          [.data io (writeMsg ⟨tx, 0x2102, [.u32 dmst, .u32 tid]⟩ ++ more),
            .data io' (writeMsg ⟨tx', 0x3000, window⟩ ++ more')] ++ later →
        ∃ reply reply' rest msgs size, handlerOf i ((o₁ ++ o₂).map Prod.snd) =
            (handlerRun m db .listening earlier).1 ++ [reply, reply'] ++ rest ∧
          readReply reply' = some msgs ∧ lines 0x00 msgs = [(size, 5, pathOf (ps ++ ns))] ∧
          size.toNat = (content g).length ∧
          (portPart p (begunSteps h₂) = rs.map LookupReq.event ++
              ((List.range ((size.toNat + k - 1) / k)).map fun j =>
                ⟨w, os, .datagram (blockReq hdr md.ino size.toNat k j) peer⟩) →
            ∃ pieces : List Bytes,
              ((portOf p (o₂.map Prod.snd)).drop rs.length).map (fun x => (readData x.1, x.2)) =
                pieces.map (fun b => (some b, peer)) ∧ pieces.flatten = content g) := by
  obtain ⟨tid, htid⟩ := C85_scanned_file_downloads m ps ns slash hps hns hcomp name t scan hscan l hl hcap hb f
    hf hw htag hs rs w md g content hrs hrw hdisk hfull hsize hlen os hos hdr peer md' hmd hdated k hk hk'
  refine ⟨tid, ?_⟩
  intro h h₁ h₂ o o₁ o₂ s s₁ s₂ r r₁ r₂ hrun i port hh hi hi' p hp hpi hpm hre hpi' earlier later ctx io io' dmst tx tx'
    more more' window hserve hq hpart
  obtain ⟨reply, ctx', reply', msgs, e1, e2, e3, size, e4, e6, e5⟩ := htid dmst io io' ctx tx tx' more more' window hq
  refine ⟨reply, reply', (handlerRun m db (.serving ctx') later).1, msgs, size, ?_, e3, e4, e6, ?_⟩
  · rw [(C128_library .little m db h (h₁ ++ h₂) o (o₁ ++ o₂) s s₂ r (overlapRun_append _ _ _ r₁ r₂) i _ hh hi hrun).2 hi',
      hpart, handlerRun_append, handlerRun_append, hserve]
    simp only [handlerRun, handlerStep, e1, e2]
    simp
  · intro hat
    rw [(C128_nfs .little m db (h ++ h₁) h₂ (o ++ o₁) o₂ s₁ s₂ (overlapRun_append _ _ _ r r₁) r₂ p .start hp hpi hpm hre
      hrun).2 hpi', hat]
    exact e5

theorem now_now (s : Overlap F) (p : PDJ.Party) (a b : Stage F) : (s.now p a).now p b = s.now p b := by
  simp only [Overlap.now]
  congr 1
  funext q
  split <;> rfl

/-- A step for which there is no need to wait and in which one thing is sent. -/
theorem goes_alone (e : Endian) (m : Mode) (db : Db) (s : Overlap F) (x : SysAction F)
    (hr : s.sys.app.running = true) (hd : s.doing x.party = .idle) (hn : needsLock s.sys x = false)
    (ha : awaitsEvent s.sys x = false) (y : SysOut) (t : System F) (hs : sysStep e m db s.sys x = ([y], t))
    (ht : t.app.running = true) :
    overlapRun e m db s [.take x, .go x.party, .go x.party, .go x.party] =
      some ([(x.party, y)], { s with sys := t }.now x.party .idle) := by
  have h1 : goOn e m db (s.now x.party (.taken x)) x.party = some ([], { s with sys := t }.now x.party (.sending [y])) := by
    simp only [goOn, now_own]
    rw [show (s.now x.party (.taken x)).sys = s.sys from rfl, hn, ha, hs]
    simp only [Bool.false_eq_true, if_false, Option.some.injEq, Prod.mk.injEq, true_and]
    exact now_now { s with sys := t } _ _ _
  have h2 : goOn e m db ({ s with sys := t }.now x.party (.sending [y])) x.party =
      some ([y], { s with sys := t }.now x.party (.sending [])) := by
    simp only [goOn, now_own, now_now]
  have h3 : goOn e m db ({ s with sys := t }.now x.party (.sending [])) x.party =
      some ([], { s with sys := t }.now x.party .idle) := by
    simp only [goOn, now_own, now_now]
  have h4 := overlapRun_go e m db (s := s.now x.party (.taken x)) hr x.party h1
    (overlapRun_go e m db (s := { s with sys := t }.now x.party (.sending [y])) ht x.party h2
      (overlapRun_go e m db (s := { s with sys := t }.now x.party (.sending [])) ht x.party h3 (xs := []) rfl))
  rw [overlapRun, overlapStep, if_pos hr, hd]
  simp only [h4]
  rfl

/-- A connection to the library's port is accepted and told a port. -/
def exampleTold : List (OverlapAction Nat) :=
  [.take (.accept 0), .go .listener, .go .listener, .take (.main 0 (some 40000)), .go (.conn 0), .go (.conn 0),
    .go (.conn 0)]

/-- A player connects while the broadcaster has the lock. -/
def exampleConnects : List (OverlapAction Nat) :=
  [.take (.app (.broadcast true)), .go .broadcaster, .take (.handler 0 .connect), .go (.handler 0),
    .go (.handler 0)]

/-- The hypotheses of C128 are met. -/
example (e : Endian) (m : Mode) (db : Db) : ∃ o s o' s', overlapRun e m db .start exampleTold = some (o, s) ∧
    overlapRun e m db s exampleConnects = some (o', s') ∧ s'.lock = some .broadcaster ∧
    handlerOf 0 (o'.map Prod.snd) = (handlerRun m db .listening (handlerPart 0 (begunSteps exampleConnects))).1 :=
  ⟨_, _, _, _, rfl, rfl, rfl, (C128_library e m db exampleTold exampleConnects _ _ _ _ rfl rfl 0
    ⟨40000, .listening⟩ rfl rfl rfl).2 rfl⟩

example (e : Endian) (m : Mode) (db : Db) (o : List (PDJ.Party × SysOut)) (s : Overlap Nat)
    (hr : overlapRun e m db .start (exampleTold ++ exampleConnects) = some (o, s)) (k : Sock) :=
  And.intro (C128_nothing_unasked e m db _ o s hr k) (And.intro (C128_no_amplification e m db _ o s hr)
    (C128_bytes e m db _ o s hr))

/-- C128_status: a question to the status server is taken up and not answered yet. -/
example (e : Endian) (m : Mode) (db : Db) (d : Bytes) (sender : Ip4) :=
  C128_status e m db [.take (.status (.datagram d sender))] [] _ (F := Nat) rfl rfl

/-- A player asks for a menu. -/
def exampleAsks (io io' : IterOrder) (b b' : Bytes) : List (OverlapAction Nat) :=
  [.take (.handler 0 (.data io b)), .go (.handler 0), .go (.handler 0), .go (.handler 0)] ++
    [.take (.handler 0 (.data io' b')), .go (.handler 0), .go (.handler 0), .go (.handler 0)]

theorem exampleAsks_run (e : Endian) (m : Mode) (db : Db) (io io' : IterOrder) (b b' reply reply' : Bytes)
    (ctx' ctx'' : Ctx) (e1 : process m io db b none = .ok (reply, ctx'))
    (e2 : process m io' db b' ctx' = .ok (reply', ctx'')) (s : Overlap Nat) (hr : s.sys.app.running = true)
    (hi : s.doing (.handler 0) = .idle) (hh : s.sys.lib.handlers = [⟨40000, .serving none⟩]) :
    ∃ o' s', overlapRun e m db s (exampleAsks io io' b b') = some (o', s') ∧ s'.doing (.handler 0) = .idle ∧
      s'.lock = s.lock ∧ s'.sys.app.running = true := by
  have s1 : sysStep e m db s.sys (.handler 0 (.data io b)) =
      ([.lib (.toHandler 0 reply)], ⟨s.sys.app, s.sys.services, s.sys.mains, ⟨s.sys.lib.deadMains,
        [⟨40000, .serving ctx'⟩]⟩, s.sys.status⟩) := by
    simp [sysStep, hr, libStep, hh, handlerStep, e1]
  have r1 := goes_alone e m db s (.handler 0 (.data io b)) hr hi rfl rfl _ _ s1 hr
  generalize ht : ({ s with sys := ⟨s.sys.app, s.sys.services, s.sys.mains, ⟨s.sys.lib.deadMains,
    [⟨40000, .serving ctx'⟩]⟩, s.sys.status⟩ } : Overlap Nat).now (.handler 0) .idle = t
  rw [show (SysAction.handler 0 (.data io b) : SysAction Nat).party = .handler 0 from rfl, ht] at r1
  have hrt : t.sys.app.running = true := by rw [← ht]; exact hr
  have s2 : sysStep e m db t.sys (.handler 0 (.data io' b')) =
      ([.lib (.toHandler 0 reply')], ⟨s.sys.app, s.sys.services, s.sys.mains, ⟨s.sys.lib.deadMains,
        [⟨40000, .serving ctx''⟩]⟩, s.sys.status⟩) := by
    rw [← ht]
    simp [sysStep, Overlap.now, hr, libStep, handlerStep, e2]
  have r2 := goes_alone e m db t (.handler 0 (.data io' b')) hrt (by rw [← ht]; exact now_own _ _ _) rfl rfl _ _ s2 hr
  exact ⟨_, _, overlapRun_append e m db r1 r2, now_own _ _ _, by rw [← ht]; rfl, hr⟩

/-- A player asks for a menu and has it rendered while the broadcaster has the lock. -/
example (e : Endian) (m : Mode) (db : Db) (type : UInt16) (args : List Val) (P : List Msg → Prop)
    (hm : MenuShows m db type args P) (tx tx' : UInt32) (hq : Sendable ⟨tx', 0x3000, []⟩) (io io' : IterOrder) :
    ∃ (o o' : List (PDJ.Party × SysOut)) (s s' : Overlap Nat) (reply reply' : Bytes) (rest : List Bytes)
      (msgs : List Msg), overlapRun e m db .start exampleTold = some (o, s) ∧
      overlapRun e m db s (exampleConnects ++ exampleAsks io io' (writeMsg ⟨tx, type, args⟩ ++ [])
        (writeMsg ⟨tx', 0x3000, []⟩ ++ [])) = some (o', s') ∧
      s'.lock = some .broadcaster ∧ handlerOf 0 (o'.map Prod.snd) = [reply, reply'] ++ rest ∧
      readReply reply' = some msgs ∧ P msgs := by
  obtain ⟨reply, ctx', reply', msgs, e1, e2, _, _⟩ := hm io io' none tx tx' [] [] [] hq
  obtain ⟨o, s, o1, s1, h1, h2, k1, k2, k3, k4, k5, k6⟩ : ∃ (o : List (PDJ.Party × SysOut)) (s : Overlap Nat)
      (o1 : List (PDJ.Party × SysOut)) (s1 : Overlap Nat), overlapRun e m db .start exampleTold = some (o, s) ∧
      overlapRun e m db s exampleConnects = some (o1, s1) ∧ s.sys.lib.handlers[0]? = some ⟨40000, .listening⟩ ∧
      s.doing (.handler 0) = .idle ∧ s1.sys.app.running = true ∧
      s1.doing (.handler 0) = .idle ∧ s1.lock = some .broadcaster ∧ s1.sys.lib.handlers = [⟨40000, .serving none⟩] :=
    ⟨_, _, _, _, rfl, rfl, rfl, rfl, rfl, rfl, rfl, rfl⟩
  obtain ⟨o2, s2, h3, j1, j2, j3⟩ := exampleAsks_run e m db io io' _ _ _ _ _ _ e1 e2 s1 k3 k4 k6
  have r := overlapRun_append e m db h2 h3
  obtain ⟨a, b, c, d, p1, p2, p3⟩ := C128_menu e m db type args P hm exampleTold _ o _ s _ h1 r 0
    40000 k1 k2 j1 j3 [.connect] [] none io io' tx tx' [] [] [] rfl hq rfl
  exact ⟨o, _, s, _, a, b, c, d, h1, r, by rw [j2]; exact k5, p1, p2, p3⟩

/-- The portmapper hands out a port of the NFS service. -/
example (m : Mode) (db : Db) : ∃ (o : List (PDJ.Party × SysOut)) (s : Overlap Nat) (t : NfsTask Nat)
    (h : List (OverlapAction Nat)), overlapRun .little m db .start h = some (o, s) ∧
    OnlyNfs 40000 s.sys.services.rpc.tasks t ∧ s.doing (.port 40000) = .idle ∧ s.doing .portmapper = .idle ∧
    s.sys.app.running = true := by
  obtain ⟨s1, h1, _, _, _, h5⟩ := getport_step (F := Nat) .little .start rfl exampleHdr _ _
    (.getportNfs 2 0) (.nfs .start) rfl rfl exampleAsker 40000 rfl willing rfl
  have hs : sysStep .little m db .start (.portmap willing (some 40000)
      (.datagram (callDatagram exampleHdr (.pmapGetport 100003 2 0)) exampleAsker)) =
      ([.rpc (none, rfcReply exampleHdr.xid (portWord 40000), exampleAsker)],
        { (.start : System Nat) with services := ⟨s1, true && s1.portmap⟩ }) := by
    show ((servicesStep .little .start (.portmap willing (some 40000) _)).1.map SysOut.rpc,
      ({ (.start : System Nat) with services := (servicesStep .little .start (.portmap willing (some 40000) _)).2 } :
        System Nat)) = _
    simp only [servicesStep]
    rw [show (Services.start : Services Nat).rpc = .start from rfl, h1]
    rfl
  refine ⟨_, _, .start, _, goes_alone .little m db .start _ rfl rfl rfl rfl _ _ hs rfl, ⟨[], ?_, rfl⟩, rfl, rfl, rfl⟩
  show s1.tasks.filter _ = _
  rw [h5]
  rfl

/-- One player gets at a file (C85) while another one connects and status packets arrive. -/
example (call : Hdr) (v pt : UInt32) (asker : Addr) :
    ∃ (db : Db) (tid : UInt32) (h₂ : List (OverlapAction Nat)) (o₂ : List (PDJ.Party × SysOut)) (s₁ s₂ : Overlap Nat)
      (pieces : List Bytes), overlapRun .little .debug db s₁ h₂ = some (o₂, s₂) ∧
      begunSteps h₂ = (musicTraffic 0 tid).dropLast ∧
      ((portOf 4712 (o₂.map Prod.snd)).drop 2).map (fun x => (readData x.1, x.2)) =
        pieces.map (fun b => (some b, ⟨1, 2⟩)) ∧ pieces.flatten = [1, 2, 3] := by
  obtain ⟨db, hbuild⟩ : ∃ db, Db.build .debug [(.id, musicRecord)] = .ok db :=
    ⟨_, build_catalog .debug _ (by decide)⟩
  obtain ⟨tid, hfile⟩ := C128_file .debug [['m']] ["a.mp3".toList] false (Or.inl (by simp))
    (by simp) music_components
    [0x6d] musicFolder [musicRecord] (by decide +kernel) [(.id, musicRecord)] rfl (by decide)
    hbuild ⟨some ⟨some ['A'], some ['x'], none, none⟩, none, some 3⟩
    (by decide +kernel) music_wanted (by decide) (by unfold Fits; decide +kernel)
    musicLookups musicDisk (sampleMeta 3 true) 3 (fun f => [1, 2, UInt8.ofNat f]) rfl musicLookups_world
    music_onDisk (fun _ _ _ => rfl) rfl (by decide) (fun _ b _ => decide (b.length ≤ 65507))
    (fun _ _ h => decide_eq_true h) sampleHdr ⟨1, 2⟩ (sampleMeta 3 true) rfl (dated_sampleMeta _ _) 2
    (by decide) (by decide)
  obtain ⟨h, o, s, r, _, es, hl, hi, _, _⟩ := whole_steps .little .debug db
    [.accept 0, .main 0 (some 4711)] (.start : Overlap Nat) rfl (fun _ _ => rfl)
  have hlib : s.sys.lib.handlers[0]? = some ⟨4711, .listening⟩ := by rw [es]; rfl
  have hrun : s.sys.app.running = true := by rw [es]; rfl
  obtain ⟨h₁, o₁, s₁, r₁, _, es₁, hl₁, hi₁, _, hb₁⟩ := whole_steps .little .debug db
    [.accept 1, .handler 0 .connect, .portmap (fun _ _ => true) (some 4712)
      (.datagram (callDatagram call (.pmapGetport 100003 v pt)) asker)] s hl hi
  have hrun₁ : s₁.sys.app.running = true := by
    rw [es₁, (app_undisturbed .little .debug db _ _).1]
    exact hrun
  have hnfs : OnlyNfs 4712 s₁.sys.services.rpc.tasks .start := by
    obtain ⟨s', g1, _, _, _, g5⟩ := getport_step (F := Nat) .little .start rfl call _ _ (.getportNfs v pt) (.nfs .start)
      rfl rfl asker 4712 rfl (fun _ _ => true) rfl
    have : s₁.sys.services.rpc = s' := by
      rw [es₁, es]
      exact congrArg Prod.snd g1
    rw [this, g5]
    exact ⟨[], rfl, rfl⟩
  obtain ⟨h₂, o₂, s₂, r₂, _, es₂, hl₂, hi₂, _, hb₂⟩ := whole_steps .little .debug db (musicTraffic 0 tid).dropLast s₁ hl₁ hi₁
  have hrun₂ : s₂.sys.app.running = true := by
    rw [es₂, (app_undisturbed .little .debug db _ _).1]
    exact hrun₁
  have hb₁ := hb₁ hrun₁ (by simp)
  have hb₂ := hb₂ hrun₂ (by simp [musicTraffic, musicReads, musicLookups, List.range_succ])
  obtain ⟨_, _, _, _, size, _, _, _, hsize, hget⟩ := hfile h h₁ h₂ o o₁ o₂ s s₁ s₂ r r₁ r₂ hrun₂ 0 4711 hlib (hi hrun _)
    (hi₂ hrun₂ _) 4712 hnfs (hi₁ hrun₁ _) (hi₁ hrun₁ _)
    (by rw [hb₂]; simp [NeverRebound, musicTraffic, musicReads, musicLookups, List.range_succ]) (hi₂ hrun₂ _)
    [.connect] [] _ .id .id 0 7 8 [] [] [] rfl (by simp [Sendable])
    (by
      rw [begunSteps_append, hb₁, hb₂]
      simp [handlerPart, musicTraffic, musicReads, musicLookups, List.range_succ])
  replace hsize : size.toNat = 3 := hsize
  rw [hsize, hb₂] at hget
  obtain ⟨pieces, g1, g2⟩ := hget (by simp [portPart, musicTraffic, musicReads, musicLookups, List.range_succ])
  exact ⟨db, tid, h₂, o₂, s₁, s₂, pieces, r₂, hb₂, g1, g2⟩

end PDJ

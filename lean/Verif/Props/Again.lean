import Verif.Spec.Again
import Verif.Props.Delivery
import Verif.Props.System

/-!
# C107: calls that are sent again
-/

namespace PDJ

open Spec

variable {F : Type}

/-! ## READ calls -/

/-- If `x` goes to the player at `peer` then it answers a block call of this player rightly. -/
def RightAnswer (h : Hdr) (peer : Addr) (data : Bytes) (k : Nat) (x : Bytes × Addr) : Prop :=
  x.2 = peer → ∃ (j : Nat) (m : Meta), j * k < data.length ∧ Dated m ∧
    x.1 = readReplyOf (h.xid + UInt32.ofNat j) m ((data.drop (j * k)).take k)

theorem udpSend_all (P : Bytes × Addr → Prop) (os : SendOs) (pending : Option (Bytes × Addr))
    (hp : ∀ x ∈ pending, P x) (b : Bytes) (dest : Addr) (hb : P (b, dest)) :
    (∀ x ∈ (udpSend os pending b dest).2.1, P x) ∧ ∀ x ∈ (udpSend os pending b dest).2.2, P x := by
  unfold udpSend
  cases pending with
  | none => simp only; split <;> simp [hb]
  | some p =>
    have := hp p rfl
    simp only
    split
    · split <;> simp [hb, this]
    · simp [this]

/-- What a task holds back. -/
def Holds (P : Bytes × Addr → Prop) (t : NfsTask F) : Prop := ∀ x ∈ held t, P x

theorem nfsReply_all (P : Bytes × Addr → Prop) (os : SendOs) (pending : Option (Bytes × Addr))
    (hp : ∀ x ∈ pending, P x) (xid : UInt32) (peer : Addr) (r : NfsResult F)
    (hr : ∀ rep s, r = .ok (.ok rep, s) → P (rpcDatagram (successReply xid rep), peer)) :
    (∀ x ∈ (nfsReply os pending xid peer r).1, P x) ∧ Holds P (nfsReply os pending xid peer r).2 := by
  unfold nfsReply
  cases r with
  | panic => exact ⟨fun _ h => (nomatch h), fun _ h => (nomatch h)⟩
  | ok x =>
    obtain ⟨a, s⟩ := x
    cases a with
    | error _ =>
      refine ⟨fun _ h => (nomatch h), fun x h => hp x ?_⟩
      simpa [held] using h
    | ok rep =>
      have := udpSend_all P os pending hp _ peer (hr rep s rfl)
      refine ⟨this.1, fun x h => this.2 x ?_⟩
      simpa [held] using h

theorem block_answer (h : Hdr) (peer : Addr) (w : World F) (i : UInt64) (f : F) (data : Bytes) (k j : Nat)
    (hj : j * k < data.length) (hlen : data.length < 4294967296) (hl : LeftAlone w i f data) (s : Nfs F)
    (hs : s.handlers i = some f) (rep : RpcReplyMessage) (s' : Nfs F)
    (hc : s.read .little w ⟨⟨handleOf i⟩, UInt32.ofNat (j * k),
      UInt32.ofNat (min k (data.length - j * k)), 0⟩ = .ok (.ok rep, s')) :
    RightAnswer h peer data k (rpcDatagram (successReply (h.xid + UInt32.ofNat j) rep), peer) := by
  intro _
  have ho : (UInt32.ofNat (j * k)).toNat = j * k := by
    rw [UInt32.toNat_ofNat']; omega
  have hn : (UInt32.ofNat (min k (data.length - j * k))).toNat = min k (data.length - j * k) := by
    rw [UInt32.toNat_ofNat']; omega
  have hb : (data.drop (j * k)).take (min k (data.length - j * k)) = (data.drop (j * k)).take k := by
    rw [← List.length_drop, ← List.take_take, List.take_length]
  have hlen' : ((data.drop (j * k)).take k).length = min k (data.length - j * k) := by
    rw [List.length_take, List.length_drop]
  unfold Nfs.read readFileRange at hc
  simp only [ino_handleOf, Outcome.bind, hs] at hc
  cases hp : w.pread f (UInt32.ofNat (j * k)).toNat (UInt32.ofNat (min k (data.length - j * k))).toNat with
  | none =>
    rw [hp] at hc
    simp only [Option.map_none] at hc
    injection hc with hc
    injection hc with hc
    exact nomatch hc
  | some b =>
    have hbb := hl.2 _ _ _ hp
    rw [ho, hn, hb] at hbb
    rw [hp] at hc
    simp only [Option.map_some, hn, hbb, hlen', Nat.sub_self, List.replicate_zero, List.append_nil] at hc
    rw [List.take_of_length_le (by omega)] at hc
    cases hm : w.fstat f with
    | none =>
      rw [hm] at hc
      injection hc with hc
      injection hc with hc
      exact nomatch hc
    | some m =>
      rw [hm] at hc
      simp only at hc
      by_cases hd : Dated m
      · obtain ⟨a, ha, hf⟩ := attributesOf_dated m hd
        rw [ha] at hc
        injection hc with hc
        injection hc with hc
        injection hc with hc
        refine ⟨j, m, hj, hd, ?_⟩
        rw [← hc]
        exact datagram_read _ m a _ hf
      · rw [attributesOf_undated m hd] at hc
        exact nomatch hc

theorem again_step (h : Hdr) (peer : Addr) (i : UInt64) (f : F) (data : Bytes) (k : Nat)
    (hlen : data.length < 4294967296) (ev : NfsEvent F) (hl : LeftAlone ev.world i f data)
    (hc : ∀ d, ev.recv = .datagram d peer → ∃ j, j * k < data.length ∧ d = blockCall h i data.length k j)
    (s : Nfs F) (hs : s.handlers i = some f) (pending : Option (Bytes × Addr))
    (hp : ∀ x ∈ pending, RightAnswer h peer data k x) :
    (∀ x ∈ (nfsStep .little ev.world ev.os ev.recv (.running s pending)).1, RightAnswer h peer data k x) ∧
      Holds (RightAnswer h peer data k) (nfsStep .little ev.world ev.os ev.recv (.running s pending)).2 := by
  have hpend : Holds (F := F) (RightAnswer h peer data k) (.running s pending) := by
    intro x hx
    exact hp x (by simpa [held] using hx)
  obtain ⟨w, os, rv⟩ := ev
  cases rv with
  | ioError => exact ⟨fun _ h => (nomatch h), hpend⟩
  | datagram d from_ =>
    by_cases he : from_ = peer
    · subst he
      obtain ⟨j, hj, rfl⟩ := hc d rfl
      show (∀ x ∈ (nfsStep .little w os (.datagram (callDatagram _ _) from_) (.running s pending)).1, _) ∧ _
      have hst := nfsStep_call .little w os { h with xid := h.xid + UInt32.ofNat j } _ _ _
        (.read _ (UInt32.ofNat (j * k)) (UInt32.ofNat (min k (data.length - j * k))) 0 (length_handleOf i))
        (by intro p; simp) from_ s pending
      unfold blockCall
      rw [hst]
      exact nfsReply_all _ os pending hp _ _ _ fun rep s' hr =>
        block_answer h from_ w i f data k j hj hlen hl s hs rep s' hr
    · have hne : ∀ b, RightAnswer h peer data k (b, from_) := fun b hb => absurd hb he
      unfold nfsStep
      cases hf : rpcFrame d with
      | nothing => simp only [hf]; exact ⟨fun _ h => (nomatch h), hpend⟩
      | invalid => simp only [hf]; exact ⟨fun _ h => (nomatch h), hpend⟩
      | panic => simp only [hf]; exact ⟨fun _ h => (nomatch h), fun _ h => (nomatch h)⟩
      | request q =>
        simp only [hf]
        exact nfsReply_all _ os pending hp _ _ _ fun _ _ _ => hne _

theorem again_run (h : Hdr) (peer : Addr) (i : UInt64) (f : F) (data : Bytes) (k : Nat)
    (hlen : data.length < 4294967296) (evs : List (NfsEvent F))
    (hl : ∀ ev ∈ evs, LeftAlone ev.world i f data)
    (hc : ∀ ev ∈ evs, ∀ d, ev.recv = .datagram d peer →
      ∃ j, j * k < data.length ∧ d = blockCall h i data.length k j) :
    ∀ (s : Nfs F) (pending : Option (Bytes × Addr)), s.handlers i = some f →
      (∀ x ∈ pending, RightAnswer h peer data k x) →
      ∀ x ∈ (nfsRun .little (.running s pending) evs).1, RightAnswer h peer data k x := by
  induction evs with
  | nil => intro s pending _ _ x hx; exact nomatch hx
  | cons ev evs ih =>
    intro s pending hs hp x hx
    have h1 := again_step h peer i f data k hlen ev (hl ev (List.mem_cons_self ..))
      (hc ev (List.mem_cons_self ..)) s hs pending hp
    simp only [nfsRun, List.mem_append] at hx
    rcases hx with hx | hx
    · exact h1.1 x hx
    · cases hst : nfsStep .little ev.world ev.os ev.recv (.running s pending) with
      | mk o t =>
        rw [hst] at hx h1
        cases t with
        | dead =>
          rw [nfsRun_dead] at hx
          exact nomatch hx
        | running s1 p1 =>
          have hk := step_keeps .little _ _ _ _ _ _ _ _ hst i f hs (hl ev (List.mem_cons_self ..)).1
          refine ih (fun e he => hl e (List.mem_cons_of_mem _ he))
            (fun e he => hc e (List.mem_cons_of_mem _ he)) s1 p1 hk ?_ x hx
          intro y hy
          exact h1.2 y (by simpa [held] using hy)

theorem xidOf_readReplyOf (xid : UInt32) (m : Meta) (hd : Dated m) (data : Bytes) :
    xidOf (readReplyOf xid m data) = some xid := by
  obtain ⟨a, _, hf⟩ := attributesOf_dated m hd
  unfold xidOf
  rw [← datagram_read xid m a data hf, C27_reply_read]
  rfl

theorem dataOf_readReplyOf (xid : UInt32) (m : Meta) (hd : Dated m) (data : Bytes)
    (hl : data.length < 4294967296) : dataOf (readReplyOf xid m data) = some data := by
  have := readData_readReplyOf xid m hd data hl
  unfold readData at this
  unfold dataOf
  cases hr : readRpcReply (readReplyOf xid m data) with
  | none => rw [hr] at this; exact nomatch this
  | some r => rw [hr] at this; exact this

theorem xid_inj (base : UInt32) {i j : Nat} (hi : i < 4294967296) (hj : j < 4294967296)
    (h : base + UInt32.ofNat i = base + UInt32.ofNat j) : i = j := by
  have h := congrArg UInt32.toNat h
  simp only [UInt32.toNat_add, UInt32.toNat_ofNat'] at h
  have := base.toNat_lt
  omega

theorem findSome_of {α β : Type} (g : α → Option β) (v : β) : ∀ l : List α,
    (∀ x ∈ l, g x = none ∨ g x = some v) → (∃ x ∈ l, g x = some v) → l.findSome? g = some v
  | [], _, h => by obtain ⟨x, hx, _⟩ := h; exact nomatch hx
  | y :: l, hall, hex => by
    rw [List.findSome?_cons]
    rcases hall y (List.mem_cons_self ..) with h | h
    · rw [h]
      refine findSome_of g v l (fun x hx => hall x (List.mem_cons_of_mem _ hx)) ?_
      obtain ⟨x, hx, hv⟩ := hex
      rcases List.mem_cons.1 hx with rfl | hx
      · rw [h] at hv; exact nomatch hv
      · exact ⟨x, hx, hv⟩
    · rw [h]

theorem mapM_some {α β : Type} (g : α → Option β) (v : α → β) : ∀ l : List α,
    (∀ x ∈ l, g x = some (v x)) → l.mapM g = some (l.map v)
  | [], _ => rfl
  | y :: l, h => by
    rw [List.mapM_cons, h y (List.mem_cons_self ..),
      mapM_some g v l fun x hx => h x (List.mem_cons_of_mem _ hx)]
    rfl

/-- C107: reading a file works over a network that loses, repeats and exchanges datagrams.  The player at
`peer` asks for the blocks of a file it has the handle of, each as often as it likes.  Whatever arrives at
the handler, in whatever order and how often, whatever others send and whatever the OS refuses to send: once
the player has got an answer under each transaction id, it has got the file. -/
theorem C107_download_partial (h : Hdr) (peer : Addr) (i : UInt64) (f : F) (data : Bytes) (k : Nat)
    (hk : 0 < k) (hlen : data.length < 4294967296) (evs : List (NfsEvent F))
    (hl : ∀ ev ∈ evs, LeftAlone ev.world i f data)
    (hc : ∀ ev ∈ evs, ∀ d, ev.recv = .datagram d peer →
      ∃ j, j < blocks data.length k ∧ d = blockCall h i data.length k j)
    (s : Nfs F) (hs : s.handlers i = some f) (pending : Option (Bytes × Addr))
    (hp : ∀ x ∈ pending, x.2 ≠ peer) (got : List Bytes)
    (hgot : ∀ b ∈ got, (b, peer) ∈ (nfsRun .little (.running s pending) evs).1)
    (hall : ∀ j, j < blocks data.length k → ∃ b ∈ got, xidOf b = some (h.xid + UInt32.ofNat j)) :
    assembled h (blocks data.length k) got = some data := by
  have hin : ∀ j, j < blocks data.length k → j * k < data.length := by
    intro j hj
    have h1 : j + 1 ≤ (data.length + k - 1) / k := hj
    rw [Nat.le_div_iff_mul_le hk, Nat.succ_mul] at h1
    omega
  have hsmall : ∀ j, j * k < data.length → j < 4294967296 := fun j hj =>
    Nat.lt_of_le_of_lt (Nat.le_mul_of_pos_right j hk) (by omega)
  have hright : ∀ b ∈ got, ∃ (j : Nat) (m : Meta), j * k < data.length ∧ Dated m ∧
      b = readReplyOf (h.xid + UInt32.ofNat j) m ((data.drop (j * k)).take k) := fun b hb =>
    again_run h peer i f data k hlen evs hl
      (fun ev he d hd => (hc ev he d hd).imp fun j hj => ⟨hin j hj.1, hj.2⟩) s pending hs
      (fun x hx he => absurd he (hp x hx)) (b, peer) (hgot b hb) rfl
  have hblock : ∀ j ∈ List.range (blocks data.length k),
      blockFrom h got j = some ((data.drop (j * k)).take k) := by
    intro j hj
    have hj := List.mem_range.1 hj
    refine findSome_of _ _ got ?_ ?_
    · intro b hb
      obtain ⟨j', m, hj', hd, rfl⟩ := hright b hb
      rw [xidOf_readReplyOf _ m hd]
      by_cases he : some (h.xid + UInt32.ofNat j') = some (h.xid + UInt32.ofNat j)
      · have := xid_inj h.xid (hsmall j' hj') (hsmall j (hin j hj)) (Option.some.inj he)
        subst this
        rw [if_pos rfl]
        exact .inr (dataOf_readReplyOf _ m hd _ (by rw [List.length_take, List.length_drop]; omega))
      · rw [if_neg he]
        exact .inl rfl
    · obtain ⟨b, hb, hx⟩ := hall j hj
      refine ⟨b, hb, ?_⟩
      rw [if_pos hx]
      obtain ⟨j', m, hj', hd, rfl⟩ := hright b hb
      rw [xidOf_readReplyOf _ m hd] at hx
      have := xid_inj h.xid (hsmall j' hj') (hsmall j (hin j hj)) (Option.some.inj hx)
      subst this
      exact dataOf_readReplyOf _ m hd _ (by rw [List.length_take, List.length_drop]; omega)
  unfold assembled
  rw [mapM_some _ _ _ hblock, Option.map_some, blocks_flatten]
  congr 1
  apply List.take_of_length_le
  have h1 := Nat.lt_div_mul_add hk (a := data.length + k - 1)
  unfold blocks
  omega

/-- C107 in the whole process: the player is handed a port for NFS at any time, looks the path of a file up
there and then asks for its blocks as often as it likes.  Whatever gets lost or arrives more than once or in
another order, whatever others send to this port and whatever else happens in the process: once the player
has got an answer under each transaction id, it has got the file. -/
theorem C107_in_the_process (mode : Mode) (db : Db) (before : List (SysAction F))
    (hr : (sysRun .little mode db .start before).2.app.running = true)
    (hpm : (sysRun .little mode db .start before).2.services.rpc.portmap = true) (port : UInt16)
    (hfresh : listener port (sysRun .little mode db .start before).2.services.rpc.tasks = none) (call : Hdr)
    (v pt : UInt32) (asker : Addr) (os : Bytes → Addr → Bool)
    (hos : os (rfcReply call.xid (portWord port)) asker = true) (after : List (SysAction F))
    (hre : NeverRebound port after) :
    ∃ s', sysStep .little mode db (sysRun .little mode db .start before).2 (.portmap os (some port)
          (.datagram (callDatagram call (.pmapGetport 100003 v pt)) asker)) =
        ([.rpc (none, rfcReply call.xid (portWord port), asker)], s') ∧
      ∀ (rs : List (LookupReq F)) (m : Meta) (f : F) (evs : List (NfsEvent F)) (data : Bytes) (k : Nat)
        (h : Hdr) (peer : Addr) (got : List Bytes),
        (sysRun .little mode db s' after).2.app.running = true →
        portPart port after = rs.map LookupReq.event ++ evs → Walk [] rs m f → 0 < k →
        data.length < 4294967296 → (∀ ev ∈ evs, LeftAlone ev.world m.ino f data) →
        (∀ ev ∈ evs, ∀ d, ev.recv = .datagram d peer →
          ∃ j, j < blocks data.length k ∧ d = blockCall h m.ino data.length k j) →
        (∀ b ∈ got, (b, peer) ∈ (portOf port (sysRun .little mode db s' after).1).drop rs.length) →
        (∀ j, j < blocks data.length k → ∃ b ∈ got, xidOf b = some (h.xid + UInt32.ofNat j)) →
        assembled h (blocks data.length k) got = some data := by
  obtain ⟨s', h1, h2⟩ :=
    C77_nfs_undisturbed .little mode db before hr hpm port hfresh call v pt asker os hos after hre
  refine ⟨s', h1, ?_⟩
  intro rs m f evs data k h peer got hrun hpart hw hk hlen hl hc hgot hall
  obtain ⟨out, r, h3, h4, _, _⟩ := C34_path_walk .little rs m f hw (Nfs.new : Nfs F) rfl
  rw [h2 hrun, hpart, NfsTask.start, nfsRun_append, h3, ← h4, List.drop_left] at hgot
  exact C107_download_partial h peer m.ino f data k hk hlen evs hl hc _ (by simp) none
    (fun _ hx => (nomatch hx)) got hgot hall

/-- C107: a GETATTR call that arrives any number of times in a row is answered as often, each time
alike, and nothing else changes. -/
theorem C107_getattr_again (w : World F) (h : Hdr) (peer : Addr) (i : UInt64) (s : Nfs F) (f : F)
    (hk : s.handlers i = some f) (m : Meta) (hm : w.fstat f = some m) (hd : Dated m) (n : Nat) :
    nfsRun .little (.running s none) (List.replicate n
        ⟨w, fun _ _ _ => true, .datagram (callDatagram h (.nfsGetattr (handleOf i))) peer⟩) =
      (List.replicate n (getattrReply h.xid m, peer), .running s none) := by
  induction n with
  | zero => rfl
  | succ n ih =>
    rw [List.replicate_succ, List.replicate_succ]
    simp only [nfsRun]
    rw [getattr_step w h peer i s f hk m hm hd, ih]
    rfl

/-! ## LOOKUP calls -/

/-- C107, where the claim fails: the LOOKUP of a directory `p/a` arrives twice, because the network has
repeated it or its answer was lost.  Unless there is a `p/a/a`, the second one is not answered and the
handler is back at the root: what is looked up from then on is looked up from there. -/
theorem C107_directory_again (e : Endian) (r : LookupReq F) (p : Str) (hl : p.getLast? ≠ some '/')
    (s : Nfs F) (hp : s.path = dirPath p) (hn : Component r.name) (hh : r.fh.length = 32) (d : Meta) (g : F)
    (hs : r.world.stat (p ++ '/' :: r.name) = some d) (hf : d.isFile = false) (hd : Dated d)
    (ho : r.world.openFile (p ++ '/' :: r.name) = some g)
    (hmiss : r.world.stat (p ++ '/' :: r.name ++ '/' :: r.name) = none) (rest : List (NfsEvent F)) :
    nfsRun e (.running s none) (r.event :: r.event :: rest) =
      ((lookupReply r.hdr.xid d, r.peer) :: (nfsRun e (.running ⟨['/'], s.handlers⟩ none) rest).1,
        (nfsRun e (.running ⟨['/'], s.handlers⟩ none) rest).2) := by
  have hpush : pushPath s.path r.name = p ++ '/' :: r.name := by
    rw [hp]; exact pushPath_component p r.name hl hn
  have h1 := step_lookup e r s d g hn hh (hpush ▸ hs) hd (hpush ▸ ho)
  rw [hf, hpush] at h1
  simp only [Bool.false_eq_true, if_false] at h1
  have hpush2 : pushPath (p ++ '/' :: r.name) r.name = p ++ '/' :: r.name ++ '/' :: r.name := by
    have := pushPath_component (p ++ '/' :: r.name) r.name (getLast_component p r.name hn) hn
    rwa [dirPath_component] at this
  have h2 : nfsStep e r.event.world r.event.os r.event.recv
      (.running ⟨p ++ '/' :: r.name, s.handlers⟩ none) = ([], .running ⟨['/'], s.handlers⟩ none) := by
    show nfsStep e r.world _ (.datagram (callDatagram r.hdr (.nfsLookup r.fh r.name)) r.peer) _ = _
    rw [nfsStep_call e r.world _ r.hdr _ _ _ (.lookup r.fh r.name hh hn.2.2) (by intro p; simp)]
    show nfsReply _ _ _ _ (Nfs.lookup r.world ⟨r.name, ⟨r.fh⟩⟩ ⟨p ++ '/' :: r.name, s.handlers⟩) = _
    rw [lookup_missing r.world ⟨r.name, ⟨r.fh⟩⟩ _ (by simpa only [hpush2] using hmiss)]
    rfl
  simp only [nfsRun, h1, h2, List.nil_append, List.singleton_append]

/-- C107, the consequence: a walk whose first LOOKUP is repeated ends, without any sign of it, at the file
that has the rest of the path below the root, if there is one. -/
theorem C107_wrong_file (e : Endian) (r : LookupReq F) (rs : List (LookupReq F)) (s : Nfs F)
    (hp : s.path = ['/']) (hn : Component r.name) (hh : r.fh.length = 32) (d : Meta) (g : F)
    (hs : r.world.stat ('/' :: r.name) = some d) (hf : d.isFile = false) (hd : Dated d)
    (ho : r.world.openFile ('/' :: r.name) = some g)
    (hmiss : r.world.stat ('/' :: r.name ++ '/' :: r.name) = none)
    (m m' : Meta) (f f' : F) (hw : Walk ('/' :: r.name) rs m f) (hw' : Walk [] rs m' f') :
    ∃ last, rs.getLast? = some last ∧
      (nfsRun e (.running s none) (r.event :: rs.map LookupReq.event)).1.getLast? =
        some (lookupReply last.hdr.xid m, last.peer) ∧
      (nfsRun e (.running s none) (r.event :: r.event :: rs.map LookupReq.event)).1.getLast? =
        some (lookupReply last.hdr.xid m', last.peer) := by
  obtain ⟨out, last, h1, h2, h3, h4⟩ := C34_path_walk e (r :: rs) m f (.dir (p := []) hn hh hs hf hd ho hw) s hp
  obtain ⟨out', last', h1', h2', h3', h4'⟩ := C34_path_walk e rs m' f' hw' ⟨['/'], s.handlers⟩ rfl
  have hne : rs ≠ [] := by cases hw' <;> simp
  have hlast : last = last' := by
    rw [List.getLast?_cons] at h3
    rw [h3'] at h3
    simpa using h3.symm
  subst hlast
  refine ⟨last, h3', ?_, ?_⟩
  · rw [List.map_cons] at h1
    rw [h1]
    exact h4
  · rw [C107_directory_again e r [] (by simp) s hp hn hh d g hs hf hd ho hmiss, h1']
    show (_ :: out').getLast? = _
    rw [List.getLast?_cons, h4']
    rfl

/-- C107, where the claim fails: the LOOKUP of a file below a directory other than the root arrives twice.
Unless there is an entry of that name below the root, the second one is not answered.  So if the first
answer is lost, asking again does not help. -/
theorem C107_file_again (e : Endian) (r : LookupReq F) (p : Str) (hl : p.getLast? ≠ some '/')
    (s : Nfs F) (hp : s.path = dirPath p) (hn : Component r.name) (hh : r.fh.length = 32) (m : Meta) (f : F)
    (hs : r.world.stat (p ++ '/' :: r.name) = some m) (hf : m.isFile = true) (hd : Dated m)
    (ho : r.world.openFile (p ++ '/' :: r.name) = some f)
    (hmiss : r.world.stat ('/' :: r.name) = none) (n : Nat) :
    (nfsRun e (.running s none) (r.event :: List.replicate n r.event)).1 =
      [(lookupReply r.hdr.xid m, r.peer)] := by
  have hpush : pushPath s.path r.name = p ++ '/' :: r.name := by
    rw [hp]; exact pushPath_component p r.name hl hn
  have h1 := step_lookup e r s m f hn hh (hpush ▸ hs) hd (hpush ▸ ho)
  rw [hf, if_pos rfl] at h1
  have h2 : ∀ (handlers : UInt64 → Option F) (n : Nat),
      (nfsRun e (.running ⟨['/'], handlers⟩ none) (List.replicate n r.event)).1 = [] := by
    intro handlers n
    induction n with
    | zero => rfl
    | succ n ih =>
      rw [List.replicate_succ]
      simp only [nfsRun]
      have : nfsStep e r.event.world r.event.os r.event.recv (.running ⟨['/'], handlers⟩ none) =
          ([], .running ⟨['/'], handlers⟩ none) := by
        show nfsStep e r.world _ (.datagram (callDatagram r.hdr (.nfsLookup r.fh r.name)) r.peer) _ = _
        rw [nfsStep_call e r.world _ r.hdr _ _ _ (.lookup r.fh r.name hh hn.2.2) (by intro p; simp)]
        show nfsReply _ _ _ _ (Nfs.lookup r.world ⟨r.name, ⟨r.fh⟩⟩ ⟨['/'], handlers⟩) = _
        have hpush2 : pushPath ['/'] r.name = '/' :: r.name :=
          pushPath_component [] r.name (by simp) hn
        rw [lookup_missing r.world ⟨r.name, ⟨r.fh⟩⟩ _ (by simpa only [hpush2] using hmiss)]
        rfl
      rw [this]
      exact ih
  simp only [nfsRun, h1, h2, List.append_nil]

theorem lookupReply_ino {xid : UInt32} {m m' : Meta} (h : lookupReply xid m = lookupReply xid m') :
    m.ino = m'.ino := by
  have h1 : be32 0 ++ handleOf m.ino ++ (fattr m).flatMap be32 =
      be32 0 ++ handleOf m'.ino ++ (fattr m').flatMap be32 := List.append_cancel_left h
  rw [List.append_assoc, List.append_assoc] at h1
  have h2 := List.append_inj_left (List.append_cancel_left h1)
    ((length_handleOf m.ino).trans (length_handleOf m'.ino).symm)
  have e := ino_handleOf m.ino
  rw [h2, ino_handleOf, Outcome.ok.injEq] at e
  exact e.symm

/-- A LOOKUP call is answered with some metadata exactly if there is an entry at its place that has them,
can be opened and has its time stamps. -/
theorem lookup_answer_iff (e : Endian) (r : LookupReq F) (s : Nfs F) (hn : Component r.name)
    (hh : r.fh.length = 32) (a : Bytes) :
    (nfsStep e r.event.world r.event.os r.event.recv (.running s none)).1 = [(a, r.peer)] ↔
      ∃ m f, r.world.stat (pushPath s.path r.name) = some m ∧ Dated m ∧
        r.world.openFile (pushPath s.path r.name) = some f ∧ a = lookupReply r.hdr.xid m := by
  constructor
  · intro h
    have step : nfsStep e r.event.world r.event.os r.event.recv (.running s none) =
        nfsReply (fun _ _ _ => true) none r.hdr.xid r.peer (s.lookup r.world ⟨r.name, ⟨r.fh⟩⟩) := by
      show nfsStep e r.world _ (.datagram (callDatagram r.hdr (.nfsLookup r.fh r.name)) r.peer) _ = _
      rw [nfsStep_call e r.world _ r.hdr _ _ _ (.lookup r.fh r.name hh hn.2.2) (by intro p; simp)]
      rfl
    cases hs : r.world.stat (pushPath s.path r.name) with
    | none =>
      rw [step, lookup_missing r.world ⟨r.name, ⟨r.fh⟩⟩ _ hs] at h
      exact nomatch h
    | some m =>
      cases ho : r.world.openFile (pushPath s.path r.name) with
      | none =>
        rw [step, lookup_unopenable r.world ⟨r.name, ⟨r.fh⟩⟩ _ m hs ho] at h
        exact nomatch h
      | some f =>
        by_cases hd : Dated m
        · rw [step_lookup e r s m f hn hh hs hd ho] at h
          simp only [List.cons.injEq, Prod.mk.injEq, and_true] at h
          exact ⟨m, f, rfl, hd, rfl, h.symm⟩
        · rw [step, lookup_found r.world ⟨r.name, ⟨r.fh⟩⟩ _ m f hs ho, attributesOf_undated m hd] at h
          exact nomatch h
  · rintro ⟨m, f, hs, hd, ho, rfl⟩
    rw [step_lookup e r s m f hn hh hs hd ho]

/-- C107, exactly: a LOOKUP call that is answered is answered again, and alike, if it arrives again, exactly
if it names a regular file and the entry of that name in the root has the same answer, or it names a
directory and the entry of that name inside this has.  Where no two paths share an inode number: exactly if
it names a file in the root. -/
theorem C107_alike_iff (e : Endian) (r : LookupReq F) (p : Str) (hl : p.getLast? ≠ some '/')
    (s : Nfs F) (hp : s.path = dirPath p) (hn : Component r.name) (hh : r.fh.length = 32) (m : Meta) (f : F)
    (hs : r.world.stat (p ++ '/' :: r.name) = some m) (hd : Dated m)
    (ho : r.world.openFile (p ++ '/' :: r.name) = some f) :
    ((nfsRun e (.running s none) [r.event, r.event]).1 =
        [(lookupReply r.hdr.xid m, r.peer), (lookupReply r.hdr.xid m, r.peer)] ↔
      ∃ m' f', r.world.stat (if m.isFile then '/' :: r.name else p ++ '/' :: r.name ++ '/' :: r.name) = some m' ∧
        Dated m' ∧
        r.world.openFile (if m.isFile then '/' :: r.name else p ++ '/' :: r.name ++ '/' :: r.name) = some f' ∧
        lookupReply r.hdr.xid m = lookupReply r.hdr.xid m') ∧
    ((∀ a b ma mb, r.world.stat a = some ma → r.world.stat b = some mb → ma.ino = mb.ino → a = b) →
      ((nfsRun e (.running s none) [r.event, r.event]).1 =
          [(lookupReply r.hdr.xid m, r.peer), (lookupReply r.hdr.xid m, r.peer)] ↔
        m.isFile = true ∧ p = [])) := by
  have hpush : pushPath s.path r.name = p ++ '/' :: r.name := by
    rw [hp]; exact pushPath_component p r.name hl hn
  have h1 := step_lookup e r s m f hn hh (hpush ▸ hs) hd (hpush ▸ ho)
  have hpush2 : pushPath (p ++ '/' :: r.name) r.name = p ++ '/' :: r.name ++ '/' :: r.name := by
    have := pushPath_component (p ++ '/' :: r.name) r.name (getLast_component p r.name hn) hn
    rwa [dirPath_component] at this
  have hpush3 : pushPath ['/'] r.name = '/' :: r.name := pushPath_component [] r.name (by simp) hn
  have main : (nfsRun e (.running s none) [r.event, r.event]).1 =
        [(lookupReply r.hdr.xid m, r.peer), (lookupReply r.hdr.xid m, r.peer)] ↔
      ∃ m' f', r.world.stat (if m.isFile then '/' :: r.name else p ++ '/' :: r.name ++ '/' :: r.name) = some m' ∧
        Dated m' ∧
        r.world.openFile (if m.isFile then '/' :: r.name else p ++ '/' :: r.name ++ '/' :: r.name) = some f' ∧
        lookupReply r.hdr.xid m = lookupReply r.hdr.xid m' := by
    have hrun : (nfsRun e (.running s none) [r.event, r.event]).1 = (lookupReply r.hdr.xid m, r.peer) ::
        (nfsStep e r.event.world r.event.os r.event.recv (.running (if m.isFile then
          ⟨['/'], fun j => if j = m.ino then some f else s.handlers j⟩ else
          ⟨pushPath s.path r.name, s.handlers⟩) none)).1 := by
      simp only [nfsRun, h1, List.append_nil, List.singleton_append]
    rw [hrun, List.cons.injEq, and_iff_right rfl, lookup_answer_iff e r _ hn hh]
    cases m.isFile
    · simp only [Bool.false_eq_true, if_false, hpush, hpush2]
    · simp only [if_true, hpush3]
  refine ⟨main, fun hu => main.trans ?_⟩
  constructor
  · rintro ⟨m', f', g1, _, _, g4⟩
    have hpath := hu _ _ _ _ hs g1 (lookupReply_ino g4)
    cases hi : m.isFile
    · rw [hi] at hpath
      simp only [Bool.false_eq_true, if_false] at hpath
      have := congrArg List.length hpath
      simp at this
    · rw [hi] at hpath
      simp only [if_true] at hpath
      refine ⟨rfl, ?_⟩
      have := congrArg List.length hpath
      simp only [List.length_append, List.length_cons] at this
      exact List.length_eq_zero_iff.1 (by omega)
  · rintro ⟨hi, rfl⟩
    rw [hi]
    exact ⟨m, f, hs, hd, ho, rfl⟩

/-- C107: a LOOKUP by an absolute name is answered alike however often it arrives and whatever arrives in
between, as long as the handler runs and the OS takes the answers. -/
theorem C107_absolute_again_partial (e : Endian) (s : Nfs F) (evs : List (NfsEvent F))
    (hacc : AcceptsAll evs) (halive : (nfsRun e (.running s none) evs).2 ≠ .dead)
    (w : World F) (h : Hdr) (peer : Addr) (fh : Bytes) (name : Str) (hh : fh.length = 32)
    (hn : (utf16le name).length < 4294967296) (habs : name.head? = some '/') (m : Meta) (f : F)
    (hs : w.stat name = some m) (hd : Dated m) (ho : w.openFile name = some f) :
    (nfsStep e w (fun _ _ _ => true) (.datagram (callDatagram h (.nfsLookup fh name)) peer)
      (nfsRun e (.running s none) evs).2).1 = [(lookupReply h.xid m, peer)] := by
  rcases run_no_pending e evs hacc s with ⟨o, s', h1⟩ | h1
  · rw [h1]
    exact C36_absolute_name_escapes e w h peer fh name hh hn habs s' m f hs hd ho
  · exact absurd h1 halive

theorem pushPath_suffix (p n : Str) : n <:+ pushPath p n := by
  unfold pushPath
  split
  · exact List.suffix_refl n
  · split
    · exact ⟨p ++ ['/'], by simp⟩
    · exact ⟨p, rfl⟩

/-- C107: how a player can begin again.  Whatever has happened before at a handler that still runs (and
whose answers the OS has taken), after a LOOKUP of a name that no existing path ends with, which is not
answered, the lookups of a path from the root resolve that path. -/
theorem C107_begin_again (e : Endian) (evs : List (NfsEvent F)) (hacc : AcceptsAll evs)
    (halive : (nfsRun e .start evs).2 ≠ .dead) (r : LookupReq F) (hh : r.fh.length = 32)
    (hn : (utf16le r.name).length < 4294967296) (hno : ∀ path, r.name <:+ path → r.world.stat path = none)
    (rs : List (LookupReq F)) (m : Meta) (f : F) (hw : Walk [] rs m f) :
    ∃ out last, (nfsRun e .start (evs ++ r.event :: rs.map LookupReq.event)).1 =
        (nfsRun e .start evs).1 ++ out ∧ out.length = rs.length ∧ rs.getLast? = some last ∧
      out.getLast? = some (lookupReply last.hdr.xid m, last.peer) := by
  rcases run_no_pending e evs hacc Nfs.new with ⟨o, s, h1⟩ | h1
  · have h2 : nfsStep e r.event.world r.event.os r.event.recv (.running s none) =
        ([], .running ⟨['/'], s.handlers⟩ none) := by
      show nfsStep e r.world _ (.datagram (callDatagram r.hdr (.nfsLookup r.fh r.name)) r.peer) _ = _
      rw [nfsStep_call e r.world _ r.hdr _ _ _ (.lookup r.fh r.name hh hn) (by intro p; simp)]
      show nfsReply _ _ _ _ (Nfs.lookup r.world ⟨r.name, ⟨r.fh⟩⟩ s) = _
      rw [lookup_missing r.world ⟨r.name, ⟨r.fh⟩⟩ _ (hno _ (pushPath_suffix _ _))]
      rfl
    obtain ⟨out, last, h3, h4, h5, h6⟩ := C34_path_walk e rs m f hw ⟨['/'], s.handlers⟩ rfl
    refine ⟨out, last, ?_, h4, h5, h6⟩
    rw [nfsRun_append]
    show _ ++ (nfsRun e (nfsRun e (.running Nfs.new none) evs).2 _).1 = _
    rw [h1]
    simp only [nfsRun, h2, h3, List.nil_append]
  · exact absurd h1 halive

/-! ## Instances -/

theorem leftAlone_fullWorld : LeftAlone fullWorld 3 3 (fullContent 3) := by
  refine ⟨sampleOnly, ?_⟩
  intro o n b h
  exact (Option.some.inj h).symm

/-- What arrives: the call for the second of two blocks, the same once more, then the one for the first. -/
def againEvents : List (NfsEvent Nat) :=
  [1, 1, 0].map fun j => ⟨fullWorld, fun _ _ _ => true, .datagram (blockCall sampleHdr 3 3 2 j) ⟨1, 2⟩⟩

theorem againEvents_run : (nfsRun .little (.running sampleNfs none) againEvents).1 =
    [(readReplyOf 8 (sampleMeta 3 true) [3], ⟨1, 2⟩), (readReplyOf 8 (sampleMeta 3 true) [3], ⟨1, 2⟩),
      (readReplyOf 7 (sampleMeta 3 true) [1, 2], ⟨1, 2⟩)] := by
  have h1 : nfsStep .little fullWorld (fun _ _ _ => true)
      (.datagram (blockCall sampleHdr 3 3 2 1) ⟨1, 2⟩) (.running sampleNfs none) =
        ([(readReplyOf 8 (sampleMeta 3 true) [3], ⟨1, 2⟩)], .running sampleNfs none) :=
    C39_read_in_range fullWorld fullContent fullReads_fullWorld ⟨8, 2, 2, 0, 0, 0⟩ ⟨1, 2⟩ 3 2 1 0 sampleNfs 3
      rfl (by decide) (sampleMeta 3 true) rfl (dated_sampleMeta _ _)
  have h0 : nfsStep .little fullWorld (fun _ _ _ => true)
      (.datagram (blockCall sampleHdr 3 3 2 0) ⟨1, 2⟩) (.running sampleNfs none) =
        ([(readReplyOf 7 (sampleMeta 3 true) [1, 2], ⟨1, 2⟩)], .running sampleNfs none) :=
    C39_read_in_range fullWorld fullContent fullReads_fullWorld ⟨7, 2, 2, 0, 0, 0⟩ ⟨1, 2⟩ 3 0 2 0 sampleNfs 3
      rfl (by decide) (sampleMeta 3 true) rfl (dated_sampleMeta _ _)
  simp only [againEvents, List.map_cons, List.map_nil, nfsRun, h1, h0, List.singleton_append]

/-- The answers arrive in another order and one of them is lost. -/
example := C107_download_partial sampleHdr ⟨1, 2⟩ 3 3 (fullContent 3) 2 (by decide) (by decide) againEvents
  (by
    intro ev he
    simp only [againEvents, List.map_cons, List.map_nil, List.mem_cons, List.not_mem_nil, or_false] at he
    rcases he with rfl | rfl | rfl <;> exact leftAlone_fullWorld)
  (by
    intro ev he d hd
    simp only [againEvents, List.map_cons, List.map_nil, List.mem_cons, List.not_mem_nil, or_false] at he
    rcases he with rfl | rfl | rfl <;> cases hd
    · exact ⟨1, by decide, rfl⟩
    · exact ⟨1, by decide, rfl⟩
    · exact ⟨0, by decide, rfl⟩)
  sampleNfs rfl none (fun _ h => (nomatch h))
  [readReplyOf 7 (sampleMeta 3 true) [1, 2], readReplyOf 8 (sampleMeta 3 true) [3]]
  (by
    rw [againEvents_run]
    intro b hb
    simp only [List.mem_cons, List.not_mem_nil, or_false] at hb
    rcases hb with rfl | rfl <;> simp)
  (by
    intro j hj
    have : j = 0 ∨ j = 1 := by
      have : j < 2 := hj
      omega
    rcases this with rfl | rfl
    · exact ⟨_, List.mem_cons_self .., xidOf_readReplyOf _ _ (dated_sampleMeta _ _) _⟩
    · exact ⟨_, List.mem_cons_of_mem _ (List.mem_cons_self ..), xidOf_readReplyOf _ _ (dated_sampleMeta _ _) _⟩)

example (mode : Mode) (db : Db) (call : Hdr) (asker : Addr) :=
  C107_in_the_process (F := Nat) mode db [.accept 0] rfl rfl 4711 rfl call 2 0 asker (fun _ _ => true) rfl
    (againEvents.map (SysAction.port 4711)) (by simp [NeverRebound, againEvents])

example := C107_getattr_again sampleWorld sampleHdr ⟨1, 2⟩ 3 sampleNfs 3 rfl (sampleMeta 3 true) rfl
  (dated_sampleMeta _ _) 2

/-- The walk `a`, `x` with the first LOOKUP repeated ends at `/x` instead of `/a/x`. -/
example := C107_wrong_file .little (sampleReq ['a']) [sampleReq ['x']] (Nfs.new : Nfs Nat) rfl
  ⟨by decide, by decide, by decide⟩ (by decide) (sampleMeta 2 false) 2 (by decide) (by decide)
  (dated_sampleMeta _ _) (by decide) (by decide) (sampleMeta 3 true) (sampleMeta 4 true) 3 4
  (.last ⟨by decide, by decide, by decide⟩ (by decide) (by decide) (by decide) (dated_sampleMeta _ _)
    (by decide))
  (.last ⟨by decide, by decide, by decide⟩ (by decide) (by decide) (by decide) (dated_sampleMeta _ _)
    (by decide))

example := C107_directory_again .little (sampleReq ['a']) [] (by decide) (Nfs.new : Nfs Nat) rfl
  ⟨by decide, by decide, by decide⟩ (by decide) (sampleMeta 2 false) 2 (by decide) (by decide)
  (dated_sampleMeta _ _) (by decide) (by decide) [(sampleReq ['x']).event]

/-- A file system whose only file is `/a/x`. -/
def onlyBelow : World Nat :=
  { sampleWorld with stat := fun p => if p = ['/', 'a', '/', 'x'] then some (sampleMeta 3 true) else none }

example := C107_file_again .little ⟨onlyBelow, sampleHdr, ⟨1, 2⟩, List.replicate 32 0, ['x']⟩ ['/', 'a']
  (by decide) (⟨['/', 'a'], fun _ => none⟩ : Nfs Nat) (by decide) ⟨by decide, by decide, by decide⟩ (by decide)
  (sampleMeta 3 true) 3 (by decide) (by decide) (dated_sampleMeta _ _) (by decide) (by decide) 2

/-- In the sample file system no two paths share an inode number. -/
theorem sampleWorld_inodes (a b : Str) (ma mb : Meta) (ha : sampleWorld.stat a = some ma)
    (hb : sampleWorld.stat b = some mb) (hi : ma.ino = mb.ino) : a = b := by
  simp only [sampleWorld] at ha hb
  repeat' split at ha
  all_goals repeat' split at hb
  all_goals
    first
    | (subst_vars; rfl)
    | (cases ha; done)
    | (cases hb; done)
    | (cases ha; cases hb; exact absurd hi (by decide))

/-- The LOOKUP of `x` is answered alike when it arrives again in the root, and not below `/a`. -/
example : ((nfsRun .little (.running ⟨['/'], fun _ => none⟩ none)
      [(sampleReq ['x']).event, (sampleReq ['x']).event]).1 =
      [(lookupReply 7 (sampleMeta 4 true), ⟨1, 2⟩), (lookupReply 7 (sampleMeta 4 true), ⟨1, 2⟩)]) ∧
    ¬ ((nfsRun .little (.running ⟨['/', 'a'], fun _ => none⟩ none)
      [(sampleReq ['x']).event, (sampleReq ['x']).event]).1 =
      [(lookupReply 7 (sampleMeta 3 true), ⟨1, 2⟩), (lookupReply 7 (sampleMeta 3 true), ⟨1, 2⟩)]) :=
  ⟨((C107_alike_iff .little (sampleReq ['x']) [] (by decide) (⟨['/'], fun _ => none⟩ : Nfs Nat) (by decide)
      ⟨by decide, by decide, by decide⟩ (by decide) (sampleMeta 4 true) 4 (by decide) (dated_sampleMeta _ _)
      (by decide)).2 sampleWorld_inodes).2 (by decide),
   fun h => absurd (((C107_alike_iff .little (sampleReq ['x']) ['/', 'a'] (by decide)
      (⟨['/', 'a'], fun _ => none⟩ : Nfs Nat) (by decide) ⟨by decide, by decide, by decide⟩ (by decide)
      (sampleMeta 3 true) 3 (by decide) (dated_sampleMeta _ _) (by decide)).2 sampleWorld_inodes).1 h) (by decide)⟩

example := C107_absolute_again_partial .little (Nfs.new : Nfs Nat) [] (fun _ h => (nomatch h)) (fun h => (nomatch h))
  sampleWorld sampleHdr ⟨1, 2⟩ (List.replicate 32 0) ['/', 'x'] (by decide) (by decide) (by decide)
  (sampleMeta 4 true) 4 (by decide) (dated_sampleMeta _ _) (by decide)

/-- No path of the sample file system ends with `n`. -/
example := C107_begin_again .little [(sampleReq ['a']).event] (by intro ev he; simp at he; subst he; rfl)
  (by
    intro h
    have := step_lookup .little (sampleReq ['a']) (Nfs.new : Nfs Nat) (sampleMeta 2 false) 2
      ⟨by decide, by decide, by decide⟩ (by decide) (by decide) (dated_sampleMeta _ _) (by decide)
    simp only [NfsTask.start, nfsRun, this] at h
    exact nomatch h)
  (sampleReq ['n']) (by decide) (by decide)
  (by
    intro path hp
    show sampleWorld.stat path = none
    simp only [sampleWorld]
    repeat' split
    all_goals first | rfl | (subst_vars; exact absurd hp (by decide)))
  _ _ _ sampleWalk

end PDJ

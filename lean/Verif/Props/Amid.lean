import Verif.Props.Folder
import Verif.Props.System

/-!
# Property C101: a player gets its music whatever else goes on
-/

namespace PDJ

open Spec

variable {F : Type}

theorem sysRun_append (e : Endian) (m : Mode) (db : Db) (xs ys : List (SysAction F)) (s : System F) :
    sysRun e m db s (xs ++ ys) = ((sysRun e m db s xs).1 ++ (sysRun e m db (sysRun e m db s xs).2 ys).1,
      (sysRun e m db (sysRun e m db s xs).2 ys).2) := by
  induction xs generalizing s with
  | nil => rfl
  | cons x xs ih =>
    simp only [List.cons_append, sysRun]
    rw [ih]
    simp [List.append_assoc]

/-- C101: in the whole process, whatever else happens before and in between, a player that has been handed
a library port, connects to it, and after any exchange that leaves the connection open asks for a menu and
has it rendered, gets that menu.  `MenuShows` says what the menu is (C66, C67, C85). -/
theorem C101_menu_amid_traffic (e : Endian) (m : Mode) (db : Db) (type : UInt16) (args : List Val)
    (P : List Msg → Prop) (hm : MenuShows m db type args P) (before : List (SysAction F))
    (c : Nat) (hr : (sysRun e m db .start before).2.app.running = true)
    (hc : c ∈ (sysRun e m db .start before).2.mains)
    (hd : c ∉ (sysRun e m db .start before).2.lib.deadMains) (q : UInt16) :
    ∃ h s', sysStep e m db (sysRun e m db .start before).2 (.main c (some q)) =
        ([.lib (.toMain c (be16 q))], s') ∧
      ∀ (after : List (SysAction F)) (earlier later : List HandlerEvent) (ctx : Ctx) (io io' : IterOrder)
        (tx tx' : UInt32) (more more' : Bytes) (window : List Val),
        (sysRun e m db s' after).2.app.running = true →
        (handlerRun m db .listening earlier).2 = .serving ctx → Sendable ⟨tx', 0x3000, window⟩ →
        handlerPart h after = earlier ++ [.data io (writeMsg ⟨tx, type, args⟩ ++ more),
          .data io' (writeMsg ⟨tx', 0x3000, window⟩ ++ more')] ++ later →
        ∃ reply reply' rest msgs, handlerOf h (sysRun e m db s' after).1 =
            (handlerRun m db .listening earlier).1 ++ [reply, reply'] ++ rest ∧
          readReply reply' = some msgs ∧ P msgs := by
  obtain ⟨h, s', h1, h2⟩ := C77_library_undisturbed e m db before c hr hc hd q
  refine ⟨h, s', h1, ?_⟩
  intro after earlier later ctx io io' tx tx' more more' window hrun hserve hq hpart
  obtain ⟨reply, ctx', reply', msgs, e1, e2, e3, e4⟩ := hm io io' ctx tx tx' more more' window hq
  refine ⟨reply, reply', (handlerRun m db (.serving ctx') later).1, msgs, ?_, e3, e4⟩
  rw [h2 after hrun, hpart, handlerRun_append, handlerRun_append, hserve]
  simp only [handlerRun, handlerStep, e1, e2]
  simp

/-- C101: the same for the whole way to a file.  The music folder is an absolute path; a visible mp3 file
with a readable tag below it, whose names are UTF-8 and whose path fits the wire format, is unchanged on
disk.  It has an id; a player that is handed a library port, asks there for the mount info of that id and
has it rendered, and at any time is handed a port for NFS, looks up the path there and reads as many bytes
as the mount info says, in blocks of any size up to 65404, gets exactly the contents of the file, whatever
else arrives at the process and in whatever order, as long as the process has not ended and the OS has not
given the NFS port to anyone else. -/
theorem C101_file_amid_traffic (m : Mode) (ps ns : List Str) (slash : Bool)
    (hps : ps ≠ [] ∨ slash = true) (hns : ns ≠ []) (hcomp : ∀ p ∈ ps ++ ns, Component p) (name : Bytes)
    (t : Node) (scan : List MetaTrack)
    (hscan : scanFolder m (utf8 (pathOf ps ++ if slash then ['/'] else [])) t = .ok scan)
    (l : List (IterOrder × MetaTrack)) (hl : l.map (·.2) = scan) (hcap : l.length ≤ capacity) {db : Db}
    (hb : Db.build m l = .ok db) (f : FileInfo) (hf : (name :: ns.map utf8, f) ∈ allFiles t)
    (hw : Wanted (name :: ns.map utf8)) (htag : tagTexts f ≠ none) (hs : Fits (pathOf (ps ++ ns)))
    (rs : List (LookupReq F)) (w : World F) (md : Meta) (g : F) (content : F → Bytes)
    (hrs : rs.map LookupReq.name = ps ++ ns) (hrw : ∀ x ∈ rs, x.world = w ∧ x.fh.length = 32)
    (hdisk : OnDisk w (ps ++ ns) md g) (hfull : FullReads w content)
    (hsize : f.size = some (UInt64.ofNat (content g).length)) (hlen : (content g).length < 4294967296)
    (os : SendOs) (hos : AcceptsFitting os) (hdr : Hdr) (peer : Addr) (md' : Meta)
    (hmd : w.fstat g = some md') (hdated : Dated md') (k : Nat) (hk : 0 < k) (hk' : k ≤ 65404) :
    ∃ tid : UInt32, ∀ (before : List (SysAction F)) (c : Nat),
      (sysRun .little m db .start before).2.app.running = true →
      c ∈ (sysRun .little m db .start before).2.mains →
      c ∉ (sysRun .little m db .start before).2.lib.deadMains → ∀ q : UInt16,
      ∃ h s₁, sysStep .little m db (sysRun .little m db .start before).2 (.main c (some q)) =
          ([.lib (.toMain c (be16 q))], s₁) ∧
      ∀ (between after : List (SysAction F)) (p : UInt16) (call : Hdr) (v pt : UInt32) (asker : Addr)
        (os' : Bytes → Addr → Bool),
        (sysRun .little m db s₁ between).2.app.running = true →
        (sysRun .little m db s₁ between).2.services.rpc.portmap = true →
        listener p (sysRun .little m db s₁ between).2.services.rpc.tasks = none →
        os' (rfcReply call.xid (portWord p)) asker = true → NeverRebound p after →
        ∃ s₂, sysStep .little m db (sysRun .little m db s₁ between).2 (.portmap os' (some p)
              (.datagram (callDatagram call (.pmapGetport 100003 v pt)) asker)) =
            ([.rpc (none, rfcReply call.xid (portWord p), asker)], s₂) ∧
          ∀ (earlier later : List HandlerEvent) (ctx : Ctx) (io io' : IterOrder) (dmst tx tx' : UInt32)
            (more more' : Bytes) (window : List Val),
            (sysRun .little m db s₂ after).2.app.running = true →
            (handlerRun m db .listening earlier).2 = .serving ctx → Sendable ⟨tx', 0x3000, window⟩ →
            handlerPart h (between ++ after) = earlier ++
              [.data io (writeMsg ⟨tx, 0x2102, [.u32 dmst, .u32 tid]⟩ ++ more),
                .data io' (writeMsg ⟨tx', 0x3000, window⟩ ++ more')] ++ later →
            ∃ reply reply' rest msgs size,
              handlerOf h ((sysRun .little m db s₁ between).1 ++ (sysRun .little m db s₂ after).1) =
                (handlerRun m db .listening earlier).1 ++ [reply, reply'] ++ rest ∧
              readReply reply' = some msgs ∧ lines 0x00 msgs = [(size, 5, pathOf (ps ++ ns))] ∧
              size.toNat = (content g).length ∧
              (portPart p after = rs.map LookupReq.event ++
                  ((List.range ((size.toNat + k - 1) / k)).map fun j =>
                    ⟨w, os, .datagram (blockReq hdr md.ino size.toNat k j) peer⟩) →
                ∃ pieces : List Bytes,
                  ((portOf p (sysRun .little m db s₂ after).1).drop rs.length).map
                    (fun x => (readData x.1, x.2)) = pieces.map (fun b => (some b, peer)) ∧
                  pieces.flatten = content g) := by
  obtain ⟨tid, htid⟩ := C85_scanned_file_downloads m ps ns slash hps hns hcomp name t scan hscan l hl hcap hb f
    hf hw htag hs rs w md g content hrs hrw hdisk hfull hsize hlen os hos hdr peer md' hmd hdated k hk hk'
  refine ⟨tid, ?_⟩
  intro before c hr hc hd q
  obtain ⟨h, s₁, h1, h2⟩ := C77_library_undisturbed .little m db before c hr hc hd q
  refine ⟨h, s₁, h1, ?_⟩
  intro between after p call v pt asker os' hr1 hp1 hfresh hos' hre
  have hstate : (sysRun .little m db .start (before ++ .main c (some q) :: between)).2 =
      (sysRun .little m db s₁ between).2 := by
    rw [sysRun_append]
    simp only [sysRun, h1]
  have hnfs := C77_nfs_undisturbed .little m db (before ++ .main c (some q) :: between)
    (by rw [hstate]; exact hr1) (by rw [hstate]; exact hp1) p (by rw [hstate]; exact hfresh) call v pt asker
    os' hos' after hre
  rw [hstate] at hnfs
  obtain ⟨s₂, h3, h4⟩ := hnfs
  refine ⟨s₂, h3, ?_⟩
  intro earlier later ctx io io' dmst tx tx' more more' window hr2 hserve hq hpart
  have hwhole : sysRun .little m db s₁ (between ++ (.portmap os' (some p)
      (.datagram (callDatagram call (.pmapGetport 100003 v pt)) asker)) :: after) =
      ((sysRun .little m db s₁ between).1 ++ ([.rpc (none, rfcReply call.xid (portWord p), asker)] ++
        (sysRun .little m db s₂ after).1), (sysRun .little m db s₂ after).2) := by
    rw [sysRun_append]
    simp only [sysRun, h3]
  have hout := h2 (between ++ (.portmap os' (some p)
      (.datagram (callDatagram call (.pmapGetport 100003 v pt)) asker)) :: after)
    (by rw [hwhole]; exact hr2)
  have hparts : handlerPart h (between ++ (.portmap os' (some p)
      (.datagram (callDatagram call (.pmapGetport 100003 v pt)) asker)) :: after) =
      handlerPart h (between ++ after) := by
    clear hpart h4 hr1 hp1 hfresh h3 hout hwhole hstate
    induction between with
    | nil => rfl
    | cons x between ih =>
      cases x <;> simp only [List.cons_append, handlerPart] <;> first | exact ih | (rw [ih])
  obtain ⟨reply, ctx', reply', msgs, e1, e2, e3, size, e4, e6, e5⟩ := htid dmst io io' ctx tx tx' more more' window hq
  refine ⟨reply, reply', (handlerRun m db (.serving ctx') later).1, msgs, size, ?_, e3, e4, e6, ?_⟩
  · rw [hwhole, hparts, hpart, handlerRun_append, handlerRun_append, hserve] at hout
    simp only [handlerRun, handlerStep, e1, e2] at hout
    rw [handlerOf_append, handlerOf_append] at hout
    rw [handlerOf_append]
    have : handlerOf h [SysOut.rpc (none, rfcReply call.xid (portWord p), asker)] = [] := rfl
    rw [this] at hout
    simpa using hout
  · intro hat
    rw [h4 hr2, hat]
    exact e5

/-! ## Non-vacuity -/

/-- Any menu of C66, for the first player that connects. -/
example (m : Mode) (e : Endian) (db : Db) (type : UInt16) (args : List Val) (P : List Msg → Prop)
    (hm : MenuShows m db type args P) :=
  C101_menu_amid_traffic (F := F) e m db type args P hm [.accept 0] 0 rfl
    (by simp [sysRun, sysStep, System.start, AppSystem.start, Services.start])
    (by simp [sysRun, sysStep, System.start, AppSystem.start, Services.start, LibServer.start]) 4711

/-- The reads of a file of three bytes, two at a time, at the port of the handler. -/
def musicReads : List (NfsEvent Nat) :=
  musicLookups.map LookupReq.event ++ ((List.range 2).map fun j =>
    ⟨musicDisk, fun _ b _ => decide (b.length ≤ 65507),
      .datagram (blockReq sampleHdr (sampleMeta 3 true).ino 3 2 j) ⟨1, 2⟩⟩)

/-- What arrives after the player has been told the NFS port 4712: its requests at handler `h` and at that
port, mixed with a malformed status packet, another connection and a turn of the main thread. -/
def musicTraffic (h : Nat) (tid : UInt32) : List (SysAction Nat) :=
  [.handler h (.data .id (writeMsg ⟨7, 0x2102, [.u32 0, .u32 tid]⟩)), .accept 2,
    .handler h (.data .id (writeMsg ⟨8, 0x3000, []⟩)), .status (.datagram [1, 2, 3] 9)] ++
  (musicReads.map fun ev => .port 4712 ev) ++ [.app .appRecv]

/-- One player gets at the file while another one connects and status packets arrive. -/
example (call : Hdr) (v pt : UInt32) (asker : Addr) :
    ∃ (db : Db) (h : Nat) (tid : UInt32) (s₁ s₂ : System Nat) (pieces : List Bytes),
    Db.build .debug [(.id, musicRecord)] = .ok db ∧
    sysRun .little .debug db .start [.accept 0, .main 0 (some 4711)] =
      ([.lib (.toMain 0 (be16 4711))], s₁) ∧
    (sysRun .little .debug db s₁ [.accept 1, .handler h .connect, .portmap (fun _ _ => true) (some 4712)
      (.datagram (callDatagram call (.pmapGetport 100003 v pt)) asker)]).2 = s₂ ∧
    ((portOf 4712 (sysRun .little .debug db s₂ (musicTraffic h tid)).1).drop 2).map
      (fun x => (readData x.1, x.2)) = pieces.map (fun b => (some b, ⟨1, 2⟩)) ∧
    pieces.flatten = [1, 2, 3] := by
  obtain ⟨db, hbuild⟩ : ∃ db, Db.build .debug [(.id, musicRecord)] = .ok db :=
    ⟨_, build_catalog .debug _ (by decide)⟩
  obtain ⟨tid, h⟩ := C101_file_amid_traffic .debug [['m']] ["a.mp3".toList] false (Or.inl (by simp))
    (by simp) music_components
    [0x6d] musicFolder [musicRecord] (by decide +kernel) [(.id, musicRecord)] rfl (by decide)
    hbuild ⟨some ⟨some ['A'], some ['x'], none, none⟩, none, some 3⟩
    (by decide +kernel) music_wanted (by decide) (by unfold Fits; decide +kernel)
    musicLookups musicDisk (sampleMeta 3 true) 3 (fun f => [1, 2, UInt8.ofNat f]) rfl musicLookups_world
    music_onDisk (fun _ _ _ => rfl) rfl (by decide) (fun _ b _ => decide (b.length ≤ 65507))
    (fun _ _ h => decide_eq_true h) sampleHdr ⟨1, 2⟩ (sampleMeta 3 true) rfl (dated_sampleMeta _ _) 2
    (by decide) (by decide)
  obtain ⟨n, s₁, e1, h⟩ := h [.accept 0] 0 rfl
    (by simp [sysRun, sysStep, System.start, AppSystem.start, Services.start])
    (by simp [sysRun, sysStep, System.start, AppSystem.start, Services.start, LibServer.start]) 4711
  have es : s₁ = (sysStep .little .debug db (sysRun .little .debug db .start [.accept 0]).2
    (.main 0 (some 4711))).2 := by rw [e1]
  have hb : (sysRun .little .debug db s₁ [.accept 1, .handler n .connect]).2.app = s₁.app ∧
      (sysRun .little .debug db s₁ [.accept 1, .handler n .connect]).2.services = s₁.services := by
    rw [es]
    exact ⟨rfl, rfl⟩
  have hrun : s₁.app.running = true := by rw [es]; rfl
  obtain ⟨s₂, e2, h⟩ := h [.accept 1, .handler n .connect] (musicTraffic n tid) 4712 call v pt asker
    (fun _ _ => true) (by rw [hb.1, hrun]) (by rw [hb.2, es]; rfl) (by rw [hb.2, es]; rfl) rfl
    (by simp [NeverRebound, musicTraffic])
  have ea : s₂.app = s₁.app := by
    have := congrArg (fun x => x.2.app) e2
    rw [← hb.1, ← this]
    simp only [sysStep, hb.1, hrun, if_true]
  obtain ⟨_, _, _, _, size, _, _, _, hsize, h⟩ := h [.connect] [] _ .id .id 0 7 8 [] [] []
    (by
      rw [(app_undisturbed .little .debug db _ _).1, ea]
      rw [es]
      rfl) rfl (by simp [Sendable])
    (by simp [handlerPart, musicTraffic, musicReads, musicLookups, List.range_succ])
  replace hsize : size.toNat = 3 := hsize
  rw [hsize] at h
  obtain ⟨pieces, h1, h2⟩ := h (by simp [portPart, musicTraffic, musicReads, musicLookups, List.range_succ])
  refine ⟨db, n, tid, s₁, s₂, pieces, hbuild, ?_, ?_, h1, h2⟩
  · rw [← e1]
    rfl
  · have := congrArg Prod.snd e2
    exact this

end PDJ

import Verif.Lemmas.Nfs

/-!
# The NFS service: properties C34 - C36, C38 - C40, C42, C43, C63
-/

namespace PDJ

open Spec

variable {F : Type}

/-! ## C34: path walk -/

theorem step_lookup (e : Endian) (r : LookupReq F) (s : Nfs F) (m : Meta) (f : F)
    (hn : Component r.name) (hh : r.fh.length = 32)
    (hs : r.world.stat (pushPath s.path r.name) = some m) (hd : Dated m)
    (ho : r.world.openFile (pushPath s.path r.name) = some f) :
    nfsStep e r.event.world r.event.os r.event.recv (.running s none) =
      ([(lookupReply r.hdr.xid m, r.peer)],
        .running (if m.isFile then ⟨['/'], fun j => if j = m.ino then some f else s.handlers j⟩
          else ⟨pushPath s.path r.name, s.handlers⟩) none) := by
  show nfsStep e r.world (fun _ _ _ => true)
    (.datagram (callDatagram r.hdr (.nfsLookup r.fh r.name)) r.peer) (.running s none) = _
  rw [nfsStep_call e r.world _ r.hdr _ _ _ (.lookup r.fh r.name hh hn.2.2) (by intro p; simp)]
  obtain ⟨a, ha, hf⟩ := attributesOf_dated m hd
  show nfsReply _ _ _ _ (s.lookup r.world ⟨r.name, ⟨r.fh⟩⟩) = _
  rw [lookup_found r.world ⟨r.name, ⟨r.fh⟩⟩ s m f hs ho, ha]
  show nfsReply _ _ _ _ (.ok (.ok _, _)) = _
  simp only [nfsReply, udpSend, datagram_lookup _ m a hf, if_true]

theorem walk_run (e : Endian) {p : Str} {rs : List (LookupReq F)} {m : Meta} {f : F}
    (hw : Walk p rs m f) : ∀ (s : Nfs F), s.path = dirPath p → p.getLast? ≠ some '/' →
    ∃ out r, nfsRun e (.running s none) (rs.map LookupReq.event) =
        (out, .running ⟨['/'], fun j => if j = m.ino then some f else s.handlers j⟩ none) ∧
      out.length = rs.length ∧ rs.getLast? = some r ∧
      out.getLast? = some (lookupReply r.hdr.xid m, r.peer) := by
  induction hw with
  | @last p r m f hn hh hs hf hd ho =>
    intro s hp hl
    have hpush : pushPath s.path r.name = p ++ '/' :: r.name := by
      rw [hp]; exact pushPath_component p r.name hl hn
    refine ⟨[(lookupReply r.hdr.xid m, r.peer)], r, ?_, rfl, rfl, rfl⟩
    rw [← hpush] at hs ho
    simp only [List.map_cons, List.map_nil, nfsRun, step_lookup e r s m f hn hh hs hd ho, hf,
      if_true, List.append_nil]
  | @dir p r rs d g m f hn hh hs hf hd ho hw ih =>
    intro s hp hl
    have hpush : pushPath s.path r.name = p ++ '/' :: r.name := by
      rw [hp]; exact pushPath_component p r.name hl hn
    rw [← hpush] at hs ho
    obtain ⟨out, q, h1, h2, h3, h4⟩ := ih ⟨pushPath s.path r.name, s.handlers⟩
      (by rw [hpush, dirPath_component]) (getLast_component p r.name hn)
    refine ⟨(lookupReply r.hdr.xid d, r.peer) :: out, q, ?_, ?_, ?_, ?_⟩
    · simp only [List.map_cons, nfsRun, step_lookup e r s d g hn hh hs hd ho, hf, h1,
        List.cons_append, List.nil_append, Bool.false_eq_true, if_false]
    · simp [h2]
    · cases rs with
      | nil => simp at h3
      | cons a l => rw [List.getLast?_cons_cons]; exact h3
    · cases out with
      | nil => simp at h4
      | cons a l => rw [List.getLast?_cons_cons]; exact h4

/-- C34: looking up the components of a path one by one, starting from the root, resolves exactly
that path: one reply per request, the last one carries the handle and attributes of the file, the
handle is bound to that file, and the handler is back at the root. -/
theorem C34_path_walk (e : Endian) (rs : List (LookupReq F)) (m : Meta) (f : F)
    (hw : Walk [] rs m f) (s : Nfs F) (hs : s.path = ['/']) :
    ∃ out r, nfsRun e (.running s none) (rs.map LookupReq.event) =
        (out, .running ⟨['/'], fun j => if j = m.ino then some f else s.handlers j⟩ none) ∧
      out.length = rs.length ∧ rs.getLast? = some r ∧
      out.getLast? = some (lookupReply r.hdr.xid m, r.peer) :=
  walk_run e hw s hs (by simp)

/-- Sample metadata. -/
def sampleMeta (ino : UInt64) (file : Bool) : Meta :=
  ⟨ino, file, !file, 1, 0, 0, 3, 4096, 0, 8, some ⟨1, 0⟩, some ⟨1, 0⟩, some ⟨1, 0⟩⟩

/-- A sample file system with the directories `/`, `/a` and the files `/a/x` and `/x`. -/
def sampleWorld : World Nat where
  stat p :=
    if p = ['/', 'a'] then some (sampleMeta 2 false)
    else if p = ['/', 'a', '/', 'x'] then some (sampleMeta 3 true)
    else if p = ['/', 'x'] then some (sampleMeta 4 true)
    else none
  openFile p :=
    if p = ['/', 'a'] then some 2
    else if p = ['/', 'a', '/', 'x'] then some 3
    else if p = ['/', 'x'] then some 4
    else none
  fstat f := some (sampleMeta (UInt64.ofNat f) true)
  pread f _ n := some (List.replicate (min n 3) (UInt8.ofNat f))

/-- A sample request. -/
def sampleReq (name : Str) : LookupReq Nat :=
  ⟨sampleWorld, ⟨7, 2, 2, 0, 0, 0⟩, ⟨1, 2⟩, List.replicate 32 0, name⟩

/-- C34, non-vacuity. -/
theorem sampleWalk : Walk [] [sampleReq ['a'], sampleReq ['x']] (sampleMeta 3 true) 3 :=
  .dir (d := sampleMeta 2 false) (g := (2 : Nat)) (by refine ⟨by decide, by decide, by decide⟩) (by decide) (by decide) (by decide)
    (by refine ⟨by decide, by decide, by decide⟩) (by decide)
    (.last (by refine ⟨by decide, by decide, by decide⟩) (by decide) (by decide) (by decide)
      (by refine ⟨by decide, by decide, by decide⟩) (by decide))

/-! ## C35: failed lookups -/

/-- C35: a LOOKUP of a missing name gives no reply, returns the handler to the root and leaves the
handles unchanged, whatever the state was. -/
theorem C35_missing_name_partial (e : Endian) (w : World F) (os : SendOs) (h : Hdr) (peer : Addr)
    (fh : Bytes) (name : Str) (hh : fh.length = 32) (hn : (utf16le name).length < 4294967296)
    (s : Nfs F) (pending : Option (Bytes × Addr)) (path : Str) (hp : Resolves s.path name path)
    (hmiss : w.stat path = none) :
    nfsStep e w os (.datagram (callDatagram h (.nfsLookup fh name)) peer) (.running s pending) =
      ([], .running ⟨['/'], s.handlers⟩ pending) := by
  rw [nfsStep_call e w os h _ _ _ (.lookup fh name hh hn) (by intro p; simp)]
  show nfsReply _ _ _ _ (s.lookup w ⟨name, ⟨fh⟩⟩) = _
  rw [lookup_missing w ⟨name, ⟨fh⟩⟩ s ((push_of_resolves hp).symm ▸ hmiss)]
  rfl

/-- C35, non-vacuity: a name missing below the directory the handler is in. -/
example : Resolves ['/', 'a'] ['y'] ['/', 'a', '/', 'y'] ∧
    sampleWorld.stat ['/', 'a', '/', 'y'] = none :=
  ⟨.inside ['/'] 'a' ['y'] (by decide) (by decide), by decide⟩

/-- C35, where the claim fails: the entry exists but cannot be opened.  There is no reply and the
handler stays inside that entry. -/
theorem C35_unopenable_stays (e : Endian) (w : World F) (os : SendOs) (h : Hdr) (peer : Addr)
    (fh : Bytes) (name : Str) (hh : fh.length = 32) (hn : (utf16le name).length < 4294967296)
    (s : Nfs F) (pending : Option (Bytes × Addr)) (m : Meta)
    (path : Str) (hp : Resolves s.path name path)
    (hs : w.stat path = some m) (ho : w.openFile path = none) :
    nfsStep e w os (.datagram (callDatagram h (.nfsLookup fh name)) peer) (.running s pending) =
      ([], .running ⟨path, s.handlers⟩ pending) := by
  rw [nfsStep_call e w os h _ _ _ (.lookup fh name hh hn) (by intro p; simp)]
  show nfsReply _ _ _ _ (s.lookup w ⟨name, ⟨fh⟩⟩) = _
  rw [lookup_unopenable w ⟨name, ⟨fh⟩⟩ s m ((push_of_resolves hp).symm ▸ hs) ((push_of_resolves hp).symm ▸ ho), push_of_resolves hp]
  rfl

/-- A file system in which the directory `/a` cannot be opened and `/x` is a file. -/
def lockedWorld : World Nat where
  stat p :=
    if p = ['/', 'a'] then some (sampleMeta 2 false)
    else if p = ['/', 'x'] then some (sampleMeta 4 true)
    else none
  openFile p := if p = ['/', 'x'] then some 4 else none
  fstat f := some (sampleMeta (UInt64.ofNat f) true)
  pread f _ n := some (List.replicate (min n 3) (UInt8.ofNat f))

/-- C35, exactly: a LOOKUP of something that is missing or cannot be opened gives no reply and leaves the handles
unchanged; the handler is back at the root if and only if there is no such entry (or the entry is the root). -/
theorem C35_back_iff (e : Endian) (w : World F) (os : SendOs) (h : Hdr) (peer : Addr)
    (fh : Bytes) (name : Str) (hh : fh.length = 32) (hn : (utf16le name).length < 4294967296)
    (s : Nfs F) (pending : Option (Bytes × Addr)) (path : Str) (hp : Resolves s.path name path)
    (hf : w.stat path = none ∨ w.openFile path = none) :
    ∃ path', nfsStep e w os (.datagram (callDatagram h (.nfsLookup fh name)) peer) (.running s pending) =
        ([], .running ⟨path', s.handlers⟩ pending) ∧
      (path' = ['/'] ↔ w.stat path = none ∨ path = ['/']) := by
  cases hs : w.stat path with
  | none => exact ⟨_, C35_missing_name_partial e w os h peer fh name hh hn s pending path hp hs, by simp⟩
  | some m =>
    have ho : w.openFile path = none := by
      rcases hf with hf | hf
      · rw [hs] at hf; exact nomatch hf
      · exact hf
    exact ⟨_, C35_unopenable_stays e w os h peer fh name hh hn s pending m path hp hs ho, by simp⟩

/-- C35, the consequence: after the failed LOOKUP of `a` the existing file `/x` is not found at the
first attempt. -/
theorem C35_unopenable_breaks_next (e : Endian) (h : Hdr) (peer : Addr) :
    (nfsRun e (.running (Nfs.new : Nfs Nat) none)
      [⟨lockedWorld, fun _ _ _ => true,
        .datagram (callDatagram h (.nfsLookup (List.replicate 32 0) ['a'])) peer⟩,
       ⟨lockedWorld, fun _ _ _ => true,
        .datagram (callDatagram h (.nfsLookup (List.replicate 32 0) ['x'])) peer⟩]).1 = [] ∧
    lockedWorld.stat ['/', 'x'] = some (sampleMeta 4 true) ∧
    lockedWorld.openFile ['/', 'x'] = some 4 := by
  refine ⟨?_, by decide, by decide⟩
  simp only [nfsRun]
  rw [C35_unopenable_stays e lockedWorld _ h peer _ ['a'] (by decide) (by decide) Nfs.new none
    (sampleMeta 2 false) ['/', 'a'] (.below [] ['a'] (by decide)) (by decide) (by decide)]
  rw [C35_missing_name_partial e lockedWorld _ h peer _ ['x'] (by decide) (by decide) _ none
    ['/', 'a', '/', 'x'] (.inside ['/'] 'a' ['x'] (by decide) (by decide)) (by decide)]
  rfl

/-! ## C36: the directory handle of LOOKUP -/

/-- C36, the negation: the answer to a LOOKUP does not depend on the directory handle at all. -/
theorem C36_directory_handle_ignored (e : Endian) (w : World F) (os : SendOs) (h : Hdr)
    (peer : Addr) (fh fh' : Bytes) (name : Str) (hh : fh.length = 32) (hh' : fh'.length = 32)
    (hn : (utf16le name).length < 4294967296) (t : NfsTask F) :
    nfsStep e w os (.datagram (callDatagram h (.nfsLookup fh name)) peer) t =
      nfsStep e w os (.datagram (callDatagram h (.nfsLookup fh' name)) peer) t := by
  cases t with
  | dead => rfl
  | running s pending =>
    rw [nfsStep_call e w os h _ _ _ (.lookup fh name hh hn) (by intro p; simp),
      nfsStep_call e w os h _ _ _ (.lookup fh' name hh' hn) (by intro p; simp)]
    rfl

/-- C36, the consequence: two walks interleaved resolve the wrong file.  A second walk asks for `x`
in the root while a first walk is inside `/a`, and gets the handle of `/a/x`. -/
theorem C36_interleaved_walks_mixed_up (e : Endian) :
    (nfsRun e (.running (Nfs.new : Nfs Nat) none)
      ([sampleReq ['a'], sampleReq ['x']].map LookupReq.event)).1.getLast? =
        some (lookupReply 7 (sampleMeta 3 true), ⟨1, 2⟩) ∧
    sampleWorld.stat ['/', 'x'] = some (sampleMeta 4 true) ∧
    lookupReply 7 (sampleMeta 3 true) ≠ lookupReply 7 (sampleMeta 4 true) := by
  refine ⟨?_, by decide, ?_⟩
  · obtain ⟨out, r, h1, _, h3, h4⟩ := C34_path_walk e _ _ _ sampleWalk (Nfs.new : Nfs Nat) rfl
    rw [h1]
    have : r = sampleReq ['x'] := by
      simp only [List.getLast?_cons_cons, List.getLast?_singleton, Option.some.injEq] at h3
      exact h3.symm
    subst this
    exact h4
  · intro h
    have h := congrArg (List.drop 28) h
    exact absurd h (by decide)

/-- C36: relative to the handler's current directory a LOOKUP resolves exactly the name in that
directory. -/
theorem C36_relative_to_current_directory_partial (e : Endian) (r : LookupReq F) (s : Nfs F)
    (p : Str) (hp : s.path = dirPath p) (hl : p.getLast? ≠ some '/') (m : Meta) (f : F)
    (hn : Component r.name) (hh : r.fh.length = 32)
    (hs : r.world.stat (p ++ '/' :: r.name) = some m) (hd : Dated m)
    (ho : r.world.openFile (p ++ '/' :: r.name) = some f) :
    (nfsStep e r.event.world r.event.os r.event.recv (.running s none)).1 =
      [(lookupReply r.hdr.xid m, r.peer)] := by
  have hpush : pushPath s.path r.name = p ++ '/' :: r.name := by
    rw [hp]; exact pushPath_component p r.name hl hn
  rw [step_lookup e r s m f hn hh (by rw [hpush]; exact hs) hd (by rw [hpush]; exact ho)]

/-- C36: an absolute name escapes from wherever the handler is: the name alone is resolved. -/
theorem C36_absolute_name_escapes (e : Endian) (w : World F) (h : Hdr) (peer : Addr) (fh : Bytes)
    (name : Str) (hh : fh.length = 32) (hn : (utf16le name).length < 4294967296)
    (habs : name.head? = some '/') (s : Nfs F) (m : Meta) (f : F)
    (hs : w.stat name = some m) (hd : Dated m) (ho : w.openFile name = some f) :
    (nfsStep e w (fun _ _ _ => true) (.datagram (callDatagram h (.nfsLookup fh name)) peer)
      (.running s none)).1 = [(lookupReply h.xid m, peer)] := by
  have hp : pushPath s.path name = name := by unfold pushPath; rw [if_pos habs]
  rw [nfsStep_call e w _ h _ _ _ (.lookup fh name hh hn) (by intro p; simp)]
  obtain ⟨a, ha, hf⟩ := attributesOf_dated m hd
  show (nfsReply _ _ _ _ (s.lookup w ⟨name, ⟨fh⟩⟩)).1 = _
  rw [lookup_found w ⟨name, ⟨fh⟩⟩ s m f (by simpa only [hp] using hs) (by simpa only [hp] using ho),
    ha]
  show (nfsReply _ _ _ _ (.ok (.ok _, _))).1 = _
  simp only [nfsReply, udpSend, datagram_lookup _ m a hf, if_true]

/-! ## C39: READ -/

theorem ino_handleOf (i : UInt64) : FileHandle.ino .little ⟨handleOf i⟩ = .ok i := by
  rw [← handleOf_eq]; exact (C37_handle_identifies_inode i).2

theorem length_handleOf (i : UInt64) : (handleOf i).length = 32 := by
  rw [← handleOf_eq]; exact (C37_handle_identifies_inode i).1

/-- C39, every READ: the reply carries the bytes the OS read, padded with zeroes to `count`. -/
theorem C39_read_reply (w : World F) (os : SendOs) (h : Hdr) (peer : Addr) (i : UInt64)
    (o c t : UInt32) (s : Nfs F) (f : F) (hk : s.handlers i = some f) (b : Bytes)
    (hb : w.pread f o.toNat c.toNat = some b) (hlen : b.length ≤ c.toNat) (m : Meta)
    (hm : w.fstat f = some m) (hd : Dated m)
    (hos : os false (readReplyOf h.xid m (b ++ List.replicate (c.toNat - b.length) 0)) peer = true) :
    nfsStep .little w os (.datagram (callDatagram h (.nfsRead (handleOf i) o c t)) peer)
        (.running s none) =
      ([(readReplyOf h.xid m (b ++ List.replicate (c.toNat - b.length) 0), peer)],
        .running s none) := by
  rw [nfsStep_call .little w os h _ _ _ (.read _ o c t (length_handleOf i)) (by intro p; simp)]
  obtain ⟨a, ha, hf⟩ := attributesOf_dated m hd
  show nfsReply _ _ _ _ (s.read .little w ⟨⟨handleOf i⟩, o, c, t⟩) = _
  have hr : s.read .little w ⟨⟨handleOf i⟩, o, c, t⟩ =
      .ok (.ok (.nfsRead .ok a (b ++ List.replicate (c.toNat - b.length) 0)), s) := by
    unfold Nfs.read readFileRange
    simp only [ino_handleOf, Outcome.bind, hk, hb, Option.map_some, hm, ha,
      List.take_of_length_le hlen]
  rw [hr]
  simp only [nfsReply, udpSend, datagram_read _ m a _ hf]
  rw [if_pos hos]

/-- C39: a READ inside the file returns exactly the bytes of the range. -/
theorem C39_read_in_range (w : World F) (content : F → Bytes) (hfull : FullReads w content)
    (h : Hdr) (peer : Addr) (i : UInt64) (o c t : UInt32) (s : Nfs F) (f : F)
    (hk : s.handlers i = some f) (hin : o.toNat + c.toNat ≤ (content f).length) (m : Meta)
    (hm : w.fstat f = some m) (hd : Dated m) :
    nfsStep .little w (fun _ _ _ => true)
        (.datagram (callDatagram h (.nfsRead (handleOf i) o c t)) peer) (.running s none) =
      ([(readReplyOf h.xid m (((content f).drop o.toNat).take c.toNat), peer)],
        .running s none) := by
  have hl : (((content f).drop o.toNat).take c.toNat).length = c.toNat := by
    rw [List.length_take, List.length_drop]; omega
  have := C39_read_reply w (fun _ _ _ => true) h peer i o c t s f hk _ (hfull f o.toNat c.toNat)
    (by omega) m hm hd rfl
  rw [hl, Nat.sub_self] at this
  simpa using this

/-- C39, at the end of the file (where the claim fails): the reply still has `count` bytes, the
missing ones being zero. -/
theorem C39_read_past_end (w : World F) (content : F → Bytes) (hfull : FullReads w content)
    (h : Hdr) (peer : Addr) (i : UInt64) (o c t : UInt32) (s : Nfs F) (f : F)
    (hk : s.handlers i = some f) (hin : (content f).length < o.toNat + c.toNat) (m : Meta)
    (hm : w.fstat f = some m) (hd : Dated m) :
    nfsStep .little w (fun _ _ _ => true)
        (.datagram (callDatagram h (.nfsRead (handleOf i) o c t)) peer) (.running s none) =
      ([(readReplyOf h.xid m ((content f).drop o.toNat ++
          List.replicate (c.toNat - ((content f).length - o.toNat)) 0), peer)],
        .running s none) := by
  have hl : ((content f).drop o.toNat).take c.toNat = (content f).drop o.toNat := by
    apply List.take_of_length_le
    rw [List.length_drop]; omega
  have := C39_read_reply w (fun _ _ _ => true) h peer i o c t s f hk _ (hfull f o.toNat c.toNat)
    (by rw [List.length_take]; omega) m hm hd rfl
  rw [hl, List.length_drop] at this
  exact this

/-- C39, non-vacuity and the end-of-file case in one concrete request: four bytes of a three-byte
file. -/
example : ∃ (w : World Nat) (content : Nat → Bytes), FullReads w content ∧
    (content 3).length = 3 ∧ w.fstat 3 = some (sampleMeta 3 true) ∧ Dated (sampleMeta 3 true) :=
  ⟨⟨fun _ => none, fun _ => none, fun _ => some (sampleMeta 3 true),
      fun _ o n => some (([1, 2, 3] : Bytes).drop o |>.take n)⟩, fun _ => [1, 2, 3],
    fun _ _ _ => rfl, rfl, rfl, ⟨by decide, by decide, by decide⟩⟩

/-! ## C38: handles keep their meaning -/

/-- What a procedure does to the handles: nothing, or it adds a regular file that was looked up. -/
theorem call_handlers (e : Endian) (w : World F) (q : RpcProcedure) (s : Nfs F)
    (r : Except NfsError RpcReplyMessage) (s' : Nfs F)
    (h : s.callProcedure e w q = .ok (r, s')) :
    s'.handlers = s.handlers ∨
    ∃ a m f, q = .nfsLookup a ∧ w.stat (pushPath s.path a.filename) = some m ∧ m.isFile = true ∧
      w.openFile (pushPath s.path a.filename) = some f ∧
      (s'.handlers = fun j => if j = m.ino then some f else s.handlers j) ∧
      ∃ t, attributesOf m = .ok t ∧ r = .ok (.nfsLookup .ok ⟨encodeFileHandler m.ino⟩ t) := by
  have hsame : ∀ (x : Except NfsError RpcReplyMessage),
      (Outcome.ok (x, s) : NfsResult F) = .ok (r, s') → s'.handlers = s.handlers := by
    intro x hx; cases hx; rfl
  cases q with
  | nfsLookup a =>
    change s.lookup w a = _ at h
    cases hst : w.stat (pushPath s.path a.filename) with
    | none => rw [lookup_missing w a s hst] at h; cases h; exact .inl rfl
    | some m =>
      cases ho : w.openFile (pushPath s.path a.filename) with
      | none => rw [lookup_unopenable w a s m hst ho] at h; cases h; exact .inl rfl
      | some f =>
        rw [lookup_found w a s m f hst ho] at h
        cases ha : attributesOf m with
        | panic => rw [ha] at h; exact nomatch h
        | ok at' =>
          rw [ha] at h
          change Outcome.ok _ = _ at h
          cases hf : m.isFile with
          | false => rw [hf] at h; cases h; exact .inl rfl
          | true => rw [hf] at h; cases h; exact .inr ⟨a, m, f, rfl, hst, hf, ho, rfl, at', ha, rfl⟩
  | nfsGetAttr a =>
    change s.getattr e w a = _ at h
    unfold Nfs.getattr at h
    left
    cases hi : a.fhandle.ino e with
    | panic => rw [hi] at h; exact nomatch h
    | ok i =>
      rw [hi] at h
      simp only [Outcome.bind] at h
      cases hk : s.handlers i with
      | none => rw [hk] at h; exact hsame _ h
      | some f =>
        rw [hk] at h
        cases hm : w.fstat f with
        | none => simp only [hm] at h; exact hsame _ h
        | some m =>
          simp only [hm] at h
          cases ha : attributesOf m with
          | panic => rw [ha] at h; exact nomatch h
          | ok at' => rw [ha] at h; exact hsame _ h
  | nfsRead a =>
    change s.read e w a = _ at h
    unfold Nfs.read at h
    left
    cases hi : a.fhandle.ino e with
    | panic => rw [hi] at h; exact nomatch h
    | ok i =>
      rw [hi] at h
      simp only [Outcome.bind] at h
      cases hk : s.handlers i with
      | none => rw [hk] at h; exact hsame _ h
      | some f =>
        rw [hk] at h
        cases hr : readFileRange w f a.offset a.count with
        | none => simp only [hr] at h; exact hsame _ h
        | some d =>
          cases hm : w.fstat f with
          | none => simp only [hr, hm] at h; exact hsame _ h
          | some m =>
            simp only [hr, hm] at h
            cases ha : attributesOf m with
            | panic => rw [ha] at h; exact nomatch h
            | ok at' => rw [ha] at h; exact hsame _ h
  | _ => exact .inl (hsame _ h)

/-- What one step does to the handles of a handler that keeps running. -/
theorem step_handlers (e : Endian) (w : World F) (os : SendOs) (rv : Recv) (s : Nfs F)
    (pending : Option (Bytes × Addr)) (out : List (Bytes × Addr)) (s' : Nfs F)
    (pending' : Option (Bytes × Addr))
    (h : nfsStep e w os rv (.running s pending) = (out, .running s' pending')) :
    s'.handlers = s.handlers ∨
    ∃ d peer q a m f, rv = .datagram d peer ∧ rpcFrame d = .request q ∧
      q.call.procedure = .nfsLookup a ∧ w.stat (pushPath s.path a.filename) = some m ∧
      m.isFile = true ∧ w.openFile (pushPath s.path a.filename) = some f ∧
      (s'.handlers = fun j => if j = m.ino then some f else s.handlers j) ∧
      (out, pending') = (udpSend os pending (lookupReply q.xid m) peer).2 := by
  cases rv with
  | ioError => cases h; exact .inl rfl
  | datagram d peer =>
    unfold nfsStep at h
    cases hf : rpcFrame d with
    | nothing => simp only [hf] at h; cases h; exact .inl rfl
    | invalid => simp only [hf] at h; cases h; exact .inl rfl
    | panic => simp only [hf] at h; cases h
    | request q =>
      simp only [hf] at h
      cases hc : s.callProcedure e w q.call.procedure with
      | panic => rw [hc] at h; simp only [nfsReply] at h; cases h
      | ok x =>
        obtain ⟨r, s1⟩ := x
        have hs : s1 = s' := by
          rw [hc] at h
          cases r with
          | error _ => simp only [nfsReply] at h; cases h; rfl
          | ok _ => simp only [nfsReply] at h; cases h; rfl
        subst hs
        rcases call_handlers e w _ s _ _ hc with h' | ⟨a, m, f, h1, h2, h3, h4, h5, t, h6, h7⟩
        · exact .inl h'
        · refine .inr ⟨d, peer, q, a, m, f, rfl, hf, h1, h2, h3, h4, h5, ?_⟩
          have hd : Dated m := Classical.byContradiction fun hn => by
            rw [attributesOf_undated m hn] at h6
            exact nomatch h6
          obtain ⟨t', h6', hw⟩ := attributesOf_dated m hd
          rw [h6] at h6'
          injection h6' with h6'
          subst h6' h7
          rw [hc] at h
          simp only [nfsReply, datagram_lookup _ m t hw] at h
          cases h
          rfl

/-- In this environment, every regular file with inode number `i` is `f`. -/
def OnlyFile (w : World F) (i : UInt64) (f : F) : Prop :=
  ∀ p m g, w.stat p = some m → m.isFile = true → m.ino = i → w.openFile p = some g → g = f

theorem step_keeps (e : Endian) (w : World F) (os : SendOs) (rv : Recv) (s : Nfs F)
    (pending : Option (Bytes × Addr)) (out : List (Bytes × Addr)) (s' : Nfs F)
    (pending' : Option (Bytes × Addr))
    (h : nfsStep e w os rv (.running s pending) = (out, .running s' pending')) (i : UInt64) (f : F)
    (hk : s.handlers i = some f) (hw : OnlyFile w i f) : s'.handlers i = some f := by
  rcases step_handlers e w os rv s pending out s' pending' h with
    h' | ⟨_, _, _, a, m, g, _, _, _, h2, h3, h4, h5, _⟩
  · rw [h']; exact hk
  · rw [h5]
    show (if i = m.ino then some g else s.handlers i) = _
    by_cases hi : i = m.ino
    · rw [if_pos hi, hw _ m g h2 h3 hi.symm h4]
    · rw [if_neg hi]; exact hk

theorem nfsRun_dead (e : Endian) (evs : List (NfsEvent F)) : nfsRun e .dead evs = ([], .dead) := by
  induction evs with
  | nil => rfl
  | cons x xs ih => simp [nfsRun, nfsStep, ih]

theorem run_keeps (e : Endian) (evs : List (NfsEvent F)) :
    ∀ (s : Nfs F) (pending : Option (Bytes × Addr)) (out : List (Bytes × Addr)) (s' : Nfs F)
      (pending' : Option (Bytes × Addr)),
    nfsRun e (.running s pending) evs = (out, .running s' pending') → ∀ (i : UInt64) (f : F),
    s.handlers i = some f → (∀ ev ∈ evs, OnlyFile ev.world i f) → s'.handlers i = some f := by
  induction evs with
  | nil => intro s pending out s' pending' h i f hk _; cases h; exact hk
  | cons x xs ih =>
    intro s pending out s' pending' h i f hk hw
    simp only [nfsRun] at h
    cases hst : nfsStep e x.world x.os x.recv (.running s pending) with
    | mk o1 t1 =>
      rw [hst] at h
      cases t1 with
      | dead => rw [nfsRun_dead] at h; cases h
      | running s1 p1 =>
        have hk1 := step_keeps e _ _ _ _ _ _ _ _ hst i f hk (hw x (List.mem_cons_self ..))
        have h2 := (Prod.ext_iff.1 h).2
        simp only at h2
        exact ih s1 p1 _ s' pending' (Prod.ext rfl h2) i f hk1
          (fun ev he => hw ev (List.mem_cons_of_mem _ he))

theorem nfsRun_append (e : Endian) (xs ys : List (NfsEvent F)) : ∀ t : NfsTask F,
    nfsRun e t (xs ++ ys) =
      ((nfsRun e t xs).1 ++ (nfsRun e (nfsRun e t xs).2 ys).1, (nfsRun e (nfsRun e t xs).2 ys).2) := by
  induction xs with
  | nil => intro t; simp [nfsRun]
  | cons x xs ih => intro t; simp [nfsRun, ih]

theorem step_no_pending (e : Endian) (w : World F) (rv : Recv) (s : Nfs F) :
    (∃ out s', nfsStep e w (fun _ _ _ => true) rv (.running s none) = (out, .running s' none)) ∨
      (nfsStep e w (fun _ _ _ => true) rv (.running s none)).2 = .dead := by
  cases rv with
  | ioError => exact .inl ⟨_, _, rfl⟩
  | datagram d peer =>
    unfold nfsStep
    cases hf : rpcFrame d with
    | nothing => simp only [hf]; exact .inl ⟨_, _, rfl⟩
    | invalid => simp only [hf]; exact .inl ⟨_, _, rfl⟩
    | panic => simp only [hf]; exact .inr trivial
    | request q =>
      simp only [hf]
      cases hc : s.callProcedure e w q.call.procedure with
      | panic => exact .inr rfl
      | ok x =>
        obtain ⟨r, s1⟩ := x
        cases r with
        | error _ => exact .inl ⟨_, _, rfl⟩
        | ok _ => exact .inl ⟨_, _, rfl⟩

/-- The OS accepts every datagram for sending during these events. -/
def AcceptsAll (evs : List (NfsEvent F)) : Prop := ∀ ev ∈ evs, ev.os = fun _ _ _ => true

theorem run_no_pending (e : Endian) (evs : List (NfsEvent F)) (hacc : AcceptsAll evs) :
    ∀ s : Nfs F, (∃ out s', nfsRun e (.running s none) evs = (out, .running s' none)) ∨
      (nfsRun e (.running s none) evs).2 = .dead := by
  induction evs with
  | nil => intro s; exact .inl ⟨_, _, rfl⟩
  | cons x xs ih =>
    intro s
    have hx := hacc x (List.mem_cons_self ..)
    simp only [nfsRun, hx]
    rcases step_no_pending e x.world x.recv s with ⟨o, s1, h1⟩ | h1
    · rw [h1]
      rcases ih (fun ev he => hacc ev (List.mem_cons_of_mem _ he)) s1 with ⟨o2, s2, h2⟩ | h2
      · exact .inl ⟨_, s2, by rw [h2]⟩
      · exact .inr h2
    · rw [h1, nfsRun_dead]
      exact .inr rfl

/-- C38: after a walk returned the handle of a file and any further events, a READ with that handle
is answered from that very file, provided no other file with the same inode number is seen and the
handler still runs. -/
theorem C38_read_from_same_file (rs : List (LookupReq F)) (m : Meta) (f : F)
    (hw : Walk [] rs m f) (s : Nfs F) (hs : s.path = ['/']) (evs : List (NfsEvent F))
    (hacc : AcceptsAll evs) (honly : ∀ ev ∈ evs, OnlyFile ev.world m.ino f)
    (halive : (nfsRun .little (.running s none) (rs.map LookupReq.event ++ evs)).2 ≠ .dead)
    (w : World F) (h : Hdr) (peer : Addr) (o c t : UInt32) (b : Bytes)
    (hb : w.pread f o.toNat c.toNat = some b) (hlen : b.length ≤ c.toNat) (m' : Meta)
    (hm : w.fstat f = some m') (hd : Dated m') :
    (nfsStep .little w (fun _ _ _ => true)
        (.datagram (callDatagram h (.nfsRead (handleOf m.ino) o c t)) peer)
        (nfsRun .little (.running s none) (rs.map LookupReq.event ++ evs)).2).1 =
      [(readReplyOf h.xid m' (b ++ List.replicate (c.toNat - b.length) 0), peer)] := by
  obtain ⟨out, r, h1, _, _, _⟩ := C34_path_walk .little rs m f hw s hs
  rw [nfsRun_append, h1] at halive ⊢
  rcases run_no_pending .little evs hacc
    ⟨['/'], fun j => if j = m.ino then some f else s.handlers j⟩ with ⟨o2, s2, h2⟩ | h2
  · rw [h2]
    have hk := run_keeps .little evs _ _ _ _ _ h2 m.ino f (by simp) honly
    rw [C39_read_reply w (fun _ _ _ => true) h peer m.ino o c t s2 f hk b hb hlen m' hm hd rfl]
  · exact absurd h2 halive

theorem getattr_step (w : World F) (h : Hdr) (peer : Addr) (i : UInt64) (s : Nfs F) (f : F)
    (hk : s.handlers i = some f) (m : Meta) (hm : w.fstat f = some m) (hd : Dated m) :
    nfsStep .little w (fun _ _ _ => true) (.datagram (callDatagram h (.nfsGetattr (handleOf i))) peer)
      (.running s none) = ([(getattrReply h.xid m, peer)], .running s none) := by
  rw [nfsStep_call .little w _ h _ _ _ (.getattr _ (length_handleOf i)) (by intro p; simp)]
  obtain ⟨a, ha, hf⟩ := attributesOf_dated m hd
  show nfsReply _ _ _ _ (s.getattr .little w ⟨⟨handleOf i⟩⟩) = _
  have hr : s.getattr .little w ⟨⟨handleOf i⟩⟩ = .ok (.ok (.nfsGetAttr .ok a), s) := by
    unfold Nfs.getattr
    simp only [ino_handleOf, Outcome.bind, hk, hm, ha]
  rw [hr]
  simp only [nfsReply, udpSend, datagram_getattr _ m a hf, if_true]

/-- C38: the same for GETATTR. -/
theorem C38_getattr_from_same_file (rs : List (LookupReq F)) (m : Meta) (f : F)
    (hw : Walk [] rs m f) (s : Nfs F) (hs : s.path = ['/']) (evs : List (NfsEvent F))
    (hacc : AcceptsAll evs) (honly : ∀ ev ∈ evs, OnlyFile ev.world m.ino f)
    (halive : (nfsRun .little (.running s none) (rs.map LookupReq.event ++ evs)).2 ≠ .dead)
    (w : World F) (h : Hdr) (peer : Addr) (m' : Meta) (hm : w.fstat f = some m') (hd : Dated m') :
    (nfsStep .little w (fun _ _ _ => true)
        (.datagram (callDatagram h (.nfsGetattr (handleOf m.ino))) peer)
        (nfsRun .little (.running s none) (rs.map LookupReq.event ++ evs)).2).1 =
      [(getattrReply h.xid m', peer)] := by
  obtain ⟨out, r, h1, _, _, _⟩ := C34_path_walk .little rs m f hw s hs
  rw [nfsRun_append, h1] at halive ⊢
  rcases run_no_pending .little evs hacc
    ⟨['/'], fun j => if j = m.ino then some f else s.handlers j⟩ with ⟨o2, s2, h2⟩ | h2
  · rw [h2]
    have hk := run_keeps .little evs _ _ _ _ _ h2 m.ino f (by simp) honly
    rw [getattr_step w h peer m.ino s2 f hk m' hm hd]
  · exact absurd h2 halive

/-- C38, non-vacuity: in the sample file system the file `/a/x` is the only one with inode 3. -/
theorem sampleOnly : OnlyFile sampleWorld 3 3 := by
  intro p m g h1 h2 h3 h4
  unfold sampleWorld at h1 h4
  simp only at h1 h4
  by_cases c1 : p = ['/', 'a']
  · rw [if_pos c1] at h1; cases h1; exact absurd h3 (by decide)
  rw [if_neg c1] at h1 h4
  by_cases c2 : p = ['/', 'a', '/', 'x']
  · rw [if_pos c2] at h4; cases h4; rfl
  rw [if_neg c2] at h1 h4
  by_cases c3 : p = ['/', 'x']
  · rw [if_pos c3] at h1; cases h1; exact absurd h3 (by decide)
  rw [if_neg c3] at h1
  exact nomatch h1

/-- Two file systems mounted side by side: `/x` and `/y` are different files with the same inode
number. -/
def twoMounts : World Nat where
  stat p := if p = ['/', 'x'] ∨ p = ['/', 'y'] then some (sampleMeta 9 true) else none
  openFile p := if p = ['/', 'x'] then some 1 else if p = ['/', 'y'] then some 2 else none
  fstat _ := some (sampleMeta 9 true)
  pread f _ n := some (List.replicate n (UInt8.ofNat f))

/-- C38, why the proviso is needed: when a second file with the same inode number is looked up, a
READ with the handle returned for the first file delivers the contents of the second. -/
theorem C38_same_inode_confused (rs rs' : List (LookupReq F)) (m m' : Meta) (f f' : F)
    (hw : Walk [] rs m f) (hw' : Walk [] rs' m' f') (hi : m'.ino = m.ino) (s : Nfs F)
    (hs : s.path = ['/']) (w : World F) (h : Hdr) (peer : Addr) (o c t : UInt32) (b : Bytes)
    (hb : w.pread f' o.toNat c.toNat = some b) (hlen : b.length = c.toNat) (m'' : Meta)
    (hm : w.fstat f' = some m'') (hd : Dated m'') :
    (nfsStep .little w (fun _ _ _ => true)
        (.datagram (callDatagram h (.nfsRead (handleOf m.ino) o c t)) peer)
        (nfsRun .little (.running s none)
          (rs.map LookupReq.event ++ rs'.map LookupReq.event)).2).1 =
      [(readReplyOf h.xid m'' b, peer)] := by
  obtain ⟨out, r, h1, _, _, _⟩ := C34_path_walk .little rs m f hw s hs
  obtain ⟨out', r', h2, _, _, _⟩ := C34_path_walk .little rs' m' f' hw'
    ⟨['/'], fun j => if j = m.ino then some f else s.handlers j⟩ rfl
  rw [nfsRun_append, h1, h2]
  simp only
  rw [C39_read_reply w (fun _ _ _ => true) h peer m.ino o c t _ f' (by simp [hi]) b hb
    (Nat.le_of_eq hlen) m'' hm hd rfl]
  simp [hlen]

/-- A sample request in that environment. -/
def twoReq (name : Str) : LookupReq Nat :=
  ⟨twoMounts, ⟨7, 2, 2, 0, 0, 0⟩, ⟨1, 2⟩, List.replicate 32 0, name⟩

/-- C38, non-vacuity of the confusion: two different files, one inode number, different contents. -/
example : Walk [] [twoReq ['x']] (sampleMeta 9 true) 1 ∧
    Walk [] [twoReq ['y']] (sampleMeta 9 true) 2 ∧
    twoMounts.pread 1 0 1 = some [1] ∧ twoMounts.pread 2 0 1 = some [2] :=
  ⟨.last (by refine ⟨by decide, by decide, by decide⟩) (by decide) (by decide) (by decide)
      (by refine ⟨by decide, by decide, by decide⟩) (by decide),
   .last (by refine ⟨by decide, by decide, by decide⟩) (by decide) (by decide) (by decide)
      (by refine ⟨by decide, by decide, by decide⟩) (by decide), rfl, rfl⟩

/-! ## C40: stale handles -/

/-- The 32-byte handles that denote inode `i`: the inode in the first eight bytes. -/
def Denotes (fh : Bytes) (i : UInt64) : Prop := ∃ x, fh = (be64 i).reverse ++ x ∧ x.length = 24

theorem ino_denotes {fh : Bytes} {i : UInt64} (h : Denotes fh i) :
    FileHandle.ino .little ⟨fh⟩ = .ok i ∧ fh.length = 32 := by
  obtain ⟨x, rfl, hx⟩ := h
  obtain ⟨b0, b1, b2, b3, b4, b5, b6, b7, e, _, h⟩ := le64_cons i
  rw [e]
  refine ⟨congrArg Outcome.ok h, ?_⟩
  simp [hx]

/-- A LOOKUP reply for a non-directory with inode `i` is among the datagrams sent. -/
def Granted (i : UInt64) (out : List (Bytes × Addr)) : Prop :=
  ∃ xid m peer, m.ino = i ∧ m.isDir = false ∧ (lookupReply xid m, peer) ∈ out

/-- Nothing is a regular file and a directory at once. -/
def Sane (w : World F) : Prop := ∀ p m, w.stat p = some m → m.isFile = true → m.isDir = false

theorem run_granted (e : Endian) (evs : List (NfsEvent F)) (hacc : AcceptsAll evs)
    (hsane : ∀ ev ∈ evs, Sane ev.world) :
    ∀ (s : Nfs F) (out : List (Bytes × Addr)) (s' : Nfs F) (pending' : Option (Bytes × Addr)),
    nfsRun e (.running s none) evs = (out, .running s' pending') → ∀ (i : UInt64) (f : F),
    s'.handlers i = some f → s.handlers i = some f ∨ Granted i out := by
  induction evs with
  | nil => intro s out s' pending' h i f hk; cases h; exact .inl hk
  | cons x xs ih =>
    intro s out s' pending' h i f hk
    have hx := hacc x (List.mem_cons_self ..)
    simp only [nfsRun, hx] at h
    rcases step_no_pending e x.world x.recv s with ⟨o, s1, h1⟩ | h1
    · rw [h1] at h
      simp only at h
      have h2 := (Prod.ext_iff.1 h).2
      have h3 := (Prod.ext_iff.1 h).1
      simp only at h2 h3
      rcases ih (fun ev he => hacc ev (List.mem_cons_of_mem _ he))
        (fun ev he => hsane ev (List.mem_cons_of_mem _ he)) s1 _ s' pending' (Prod.ext rfl h2) i f hk
        with hk1 | ⟨xid, m, peer, g1, g2, g3⟩
      · rcases step_handlers e _ _ _ _ _ _ _ _ h1 with
          h' | ⟨d, peer, q, a, m, g, _, _, _, k2, k3, k4, k5, k6⟩
        · exact .inl (by rw [← h']; exact hk1)
        · by_cases hi : i = m.ino
          · refine .inr ⟨q.xid, m, peer, hi.symm,
              hsane x (List.mem_cons_self ..) _ _ k2 k3, ?_⟩
            rw [← h3]
            apply List.mem_append_left
            have : o = [(lookupReply q.xid m, peer)] := (Prod.ext_iff.1 k6).1
            rw [this]
            exact List.mem_singleton.2 rfl
          · rw [k5] at hk1
            simp only [if_neg hi] at hk1
            exact .inl hk1
      · exact .inr ⟨xid, m, peer, g1, g2, by rw [← h3]; exact List.mem_append_right _ g3⟩
    · rw [h1, nfsRun_dead] at h
      cases h

theorem stale_read (w : World F) (os : SendOs) (h : Hdr) (peer : Addr) (fh : Bytes) (i : UInt64)
    (hfh : Denotes fh i) (o c t : UInt32) (s : Nfs F) (pending : Option (Bytes × Addr))
    (hk : s.handlers i = none) :
    nfsStep .little w os (.datagram (callDatagram h (.nfsRead fh o c t)) peer)
      (.running s pending) = ([], .running s pending) := by
  rw [nfsStep_call .little w os h _ _ _ (.read fh o c t (ino_denotes hfh).2) (by intro p; simp)]
  show nfsReply _ _ _ _ (s.read .little w ⟨⟨fh⟩, o, c, t⟩) = _
  unfold Nfs.read
  simp only [(ino_denotes hfh).1, Outcome.bind, hk]
  rfl

theorem stale_getattr (w : World F) (os : SendOs) (h : Hdr) (peer : Addr) (fh : Bytes) (i : UInt64)
    (hfh : Denotes fh i) (s : Nfs F) (pending : Option (Bytes × Addr))
    (hk : s.handlers i = none) :
    nfsStep .little w os (.datagram (callDatagram h (.nfsGetattr fh)) peer)
      (.running s pending) = ([], .running s pending) := by
  rw [nfsStep_call .little w os h _ _ _ (.getattr fh (ino_denotes hfh).2) (by intro p; simp)]
  show nfsReply _ _ _ _ (s.getattr .little w ⟨⟨fh⟩⟩) = _
  unfold Nfs.getattr
  simp only [(ino_denotes hfh).1, Outcome.bind, hk]
  rfl

/-- C40: a handle whose inode was never granted by a LOOKUP of a file - be it invented, the handle
of a directory or the root handle - is refused: READ and GETATTR give no reply and change
nothing. -/
theorem C40_stale_refused (evs : List (NfsEvent F)) (hacc : AcceptsAll evs)
    (hsane : ∀ ev ∈ evs, Sane ev.world) (out : List (Bytes × Addr)) (t : NfsTask F)
    (hrun : nfsRun .little .start evs = (out, t)) (fh : Bytes) (i : UInt64) (hfh : Denotes fh i)
    (hno : ¬ Granted i out) (w : World F) (os : SendOs) (h : Hdr) (peer : Addr)
    (o c tot : UInt32) :
    nfsStep .little w os (.datagram (callDatagram h (.nfsRead fh o c tot)) peer) t = ([], t) ∧
    nfsStep .little w os (.datagram (callDatagram h (.nfsGetattr fh)) peer) t = ([], t) := by
  cases t with
  | dead => exact ⟨rfl, rfl⟩
  | running s pending =>
    have hk : s.handlers i = none := by
      cases hk : s.handlers i with
      | none => rfl
      | some f =>
        rcases run_granted .little evs hacc hsane _ _ _ _ hrun i f hk with h' | h'
        · exact nomatch h'
        · exact absurd h' hno
    exact ⟨stale_read w os h peer fh i hfh o c tot s pending hk,
      stale_getattr w os h peer fh i hfh s pending hk⟩

/-- C40, non-vacuity: the zero handle returned by MNT denotes inode 0, and nothing is granted before
the first LOOKUP. -/
example : Denotes (List.replicate 32 0) 0 ∧ ¬ Granted 0 [] :=
  ⟨⟨List.replicate 24 0, by decide, rfl⟩, by rintro ⟨_, _, _, _, _, h⟩; exact nomatch h⟩

/-! ## C42: robustness -/

/-- All files have their three time stamps. -/
def DatedWorld (w : World F) : Prop :=
  (∀ p m, w.stat p = some m → Dated m) ∧ (∀ f m, w.fstat f = some m → Dated m)

theorem step_alive (e : Endian) (ev : NfsEvent F) (hd : DatedWorld ev.world)
    (hr : ∀ d peer, ev.recv = .datagram d peer → ¬ IsReply d) (s : Nfs F)
    (pending : Option (Bytes × Addr)) :
    ∃ out s' pending', nfsStep e ev.world ev.os ev.recv (.running s pending) =
      (out, .running s' pending') := by
  cases hrecv : ev.recv with
  | ioError => exact ⟨_, _, _, rfl⟩
  | datagram d peer =>
    unfold nfsStep
    cases hf : rpcFrame d with
    | nothing => simp only [hf]; exact ⟨_, _, _, rfl⟩
    | invalid => simp only [hf]; exact ⟨_, _, _, rfl⟩
    | panic => exact absurd ((C29_panics_exactly_on_replies_partial d).1 hf) (hr d peer hrecv)
    | request q =>
      simp only [hf]
      cases hc : s.callProcedure e ev.world q.call.procedure with
      | panic => exact absurd hc (call_no_panic e ev.world hd.1 hd.2 _ (frame_procSafe hf) s)
      | ok x =>
        obtain ⟨r, s1⟩ := x
        cases r with
        | error _ => exact ⟨_, _, _, rfl⟩
        | ok _ => exact ⟨_, _, _, rfl⟩

theorem run_alive (e : Endian) (evs : List (NfsEvent F))
    (hd : ∀ ev ∈ evs, DatedWorld ev.world)
    (hr : ∀ ev ∈ evs, ∀ d peer, ev.recv = .datagram d peer → ¬ IsReply d) :
    ∀ (s : Nfs F) (pending : Option (Bytes × Addr)),
    ∃ out s' pending', nfsRun e (.running s pending) evs = (out, .running s' pending') := by
  induction evs with
  | nil => intro s pending; exact ⟨_, _, _, rfl⟩
  | cons x xs ih =>
    intro s pending
    obtain ⟨o, s1, p1, h1⟩ := step_alive e x (hd x (List.mem_cons_self ..))
      (hr x (List.mem_cons_self ..)) s pending
    obtain ⟨o2, s2, p2, h2⟩ := ih (fun ev he => hd ev (List.mem_cons_of_mem _ he))
      (fun ev he => hr ev (List.mem_cons_of_mem _ he)) s1 p1
    exact ⟨o ++ o2, s2, p2, by simp only [nfsRun, h1, h2]⟩

/-- C42: after any events - arbitrary datagrams other than RPC replies, receive errors - the
handler still serves: a LOOKUP of an existing absolute path is answered.  Not covered: refused
sends, see `C42_oversize_read_wedges`. -/
theorem C42_still_serves_partial (e : Endian) (evs : List (NfsEvent F))
    (hd : ∀ ev ∈ evs, DatedWorld ev.world)
    (hr : ∀ ev ∈ evs, ∀ d peer, ev.recv = .datagram d peer → ¬ IsReply d) (hacc : AcceptsAll evs)
    (w : World F) (h : Hdr) (peer : Addr) (fh : Bytes) (name : Str) (hh : fh.length = 32)
    (hn : (utf16le name).length < 4294967296) (habs : name.head? = some '/') (m : Meta) (f : F)
    (hs : w.stat name = some m) (hdm : Dated m) (ho : w.openFile name = some f) :
    (nfsStep e w (fun _ _ _ => true) (.datagram (callDatagram h (.nfsLookup fh name)) peer)
      (nfsRun e .start evs).2).1 = [(lookupReply h.xid m, peer)] := by
  obtain ⟨o, s, p, h1⟩ := run_alive e evs hd hr Nfs.new none
  rcases run_no_pending e evs hacc Nfs.new with ⟨o2, s2, h2⟩ | h2
  · rw [NfsTask.start, h2]
    exact C36_absolute_name_escapes e w h peer fh name hh hn habs s2 m f hs hdm ho
  · rw [h1] at h2
    exact nomatch h2

/-- A LOOKUP of an existing absolute path at a handler with a datagram that waits, or none. -/
theorem absolute_step (e : Endian) (w : World F) (os : SendOs) (h : Hdr) (peer : Addr) (fh : Bytes) (name : Str)
    (hh : fh.length = 32) (hn : (utf16le name).length < 4294967296) (habs : name.head? = some '/')
    (s : Nfs F) (pending : Option (Bytes × Addr)) (m : Meta) (f : F)
    (hs : w.stat name = some m) (hd : Dated m) (ho : w.openFile name = some f) :
    ∃ s', nfsStep e w os (.datagram (callDatagram h (.nfsLookup fh name)) peer) (.running s pending) =
      ((udpSend os pending (lookupReply h.xid m) peer).2.1,
        .running s' (udpSend os pending (lookupReply h.xid m) peer).2.2) := by
  have hp : pushPath s.path name = name := by unfold pushPath; rw [if_pos habs]
  rw [nfsStep_call e w _ h _ _ _ (.lookup fh name hh hn) (by intro p; simp)]
  obtain ⟨a, ha, hf⟩ := attributesOf_dated m hd
  refine ⟨if m.isFile then ⟨['/'], fun j => if j = m.ino then some f else s.handlers j⟩
    else ⟨pushPath s.path name, s.handlers⟩, ?_⟩
  show nfsReply _ _ _ _ (s.lookup w ⟨name, ⟨fh⟩⟩) = _
  rw [lookup_found w ⟨name, ⟨fh⟩⟩ s m f (by simpa only [hp] using hs) (by simpa only [hp] using ho),
    ha]
  show nfsReply _ _ _ _ (.ok (.ok _, _)) = _
  simp only [nfsReply, datagram_lookup _ m a hf]

/-- C42: after any events - arbitrary datagrams other than RPC replies, receive errors, refused sends - at most
one datagram waits in the handler.  When the next LOOKUP of an existing absolute path is asked for, then, if the
OS still refuses the datagram that waits, nothing is sent (the answer is lost); if it takes that datagram and
the answer, both are sent in this order and nothing waits any more; and if it takes that datagram only, the answer
waits and is sent before the next one. -/
theorem C42_recovers (e : Endian) (evs : List (NfsEvent F)) (hd : ∀ ev ∈ evs, DatedWorld ev.world)
    (hr : ∀ ev ∈ evs, ∀ d peer, ev.recv = .datagram d peer → ¬ IsReply d)
    (w : World F) (h : Hdr) (peer : Addr) (fh : Bytes) (name : Str) (hh : fh.length = 32)
    (hn : (utf16le name).length < 4294967296) (habs : name.head? = some '/') (m : Meta) (f : F)
    (hs : w.stat name = some m) (hdm : Dated m) (ho : w.openFile name = some f)
    (ask : SendOs → NfsTask F → List (Bytes × Addr) × NfsTask F)
    (hask : ask = fun os t => nfsStep e w os (.datagram (callDatagram h (.nfsLookup fh name)) peer) t) :
    ∃ waiting : List (Bytes × Addr), waiting.length ≤ 1 ∧ ∀ os : SendOs,
      (waiting ≠ [] → (∀ p ∈ waiting, os true p.1 p.2 = false) → (ask os (nfsRun e .start evs).2).1 = []) ∧
      ((∀ p ∈ waiting, os true p.1 p.2 = true) →
        (os false (lookupReply h.xid m) peer = true →
          (ask os (nfsRun e .start evs).2).1 = waiting ++ [(lookupReply h.xid m, peer)] ∧
          (ask (fun _ _ _ => true) (ask os (nfsRun e .start evs).2).2).1 = [(lookupReply h.xid m, peer)]) ∧
        (os false (lookupReply h.xid m) peer = false →
          (ask os (nfsRun e .start evs).2).1 = waiting ∧
          (ask (fun _ _ _ => true) (ask os (nfsRun e .start evs).2).2).1 =
            [(lookupReply h.xid m, peer), (lookupReply h.xid m, peer)])) := by
  subst hask
  obtain ⟨o, s, p, h1⟩ := run_alive e evs hd hr Nfs.new none
  have h1' : (nfsRun e .start evs).2 = .running s p := by rw [NfsTask.start, h1]
  rw [h1']
  have step := fun os s p => absolute_step e w os h peer fh name hh hn habs s p m f hs hdm ho
  refine ⟨p.toList, by cases p <;> simp, fun os => ?_⟩
  obtain ⟨s₁, e₁⟩ := step os s p
  simp only [e₁]
  obtain ⟨s₂, e₂⟩ := step (fun _ _ _ => true) s₁ (udpSend os p (lookupReply h.xid m) peer).2.2
  simp only [e₂]
  cases p with
  | none =>
    refine ⟨fun hne => absurd rfl hne, fun _ => ⟨fun ha => ?_, fun ha => ?_⟩⟩ <;> simp [udpSend, ha]
  | some p =>
    refine ⟨fun _ hp => ?_, fun hp => ⟨fun ha => ?_, fun ha => ?_⟩⟩ <;>
      have hp := hp p (by simp) <;> simp [udpSend, *]

/-- C42: a datagram that is no RPC call is dropped without reply and without effect. -/
theorem C42_garbage_dropped (e : Endian) (w : World F) (os : SendOs) (d : Bytes) (peer : Addr)
    (hr : ¬ IsReply d) (hq : ∀ xid p, ¬ IsCall d xid p) (t : NfsTask F) :
    nfsStep e w os (.datagram d peer) t = ([], t) := by
  cases t with
  | dead => rfl
  | running s pending =>
    unfold nfsStep
    cases hf : rpcFrame d with
    | nothing => simp only [hf]
    | invalid => simp only [hf]
    | panic => exact absurd ((C29_panics_exactly_on_replies_partial d).1 hf) hr
    | request q =>
      obtain ⟨p, hp, _⟩ := request_isCall hf
      exact absurd hp (hq _ _)

/-- C42, non-vacuity: a datagram of fewer than 60 bytes is no RPC call. -/
example (d : Bytes) (h : d.length < 60) (xid : UInt32) (p : Proc) : ¬ IsCall d xid p := by
  intro hc
  have := hc.header
  omega

/-- C42, where the claim fails: an RPC reply ends the handler for good. -/
theorem C42_reply_kills (e : Endian) (w : World F) (os : SendOs) (d : Bytes) (peer : Addr)
    (hr : IsReply d) (s : Nfs F) (pending : Option (Bytes × Addr)) :
    nfsStep e w os (.datagram d peer) (.running s pending) = ([], .dead) := by
  have hf := (C29_panics_exactly_on_replies_partial d).2 hr
  unfold nfsStep
  simp only [hf]

/-- C42, where the claim fails: on a file system without birth times (or with another time stamp
missing) a successful LOOKUP ends the handler. -/
theorem C42_undated_kills (e : Endian) (w : World F) (os : SendOs) (h : Hdr) (peer : Addr)
    (fh : Bytes) (name : Str) (hh : fh.length = 32) (hn : (utf16le name).length < 4294967296)
    (s : Nfs F) (pending : Option (Bytes × Addr)) (m : Meta) (f : F)
    (path : Str) (hp : Resolves s.path name path)
    (hs : w.stat path = some m) (hd : ¬ Dated m) (ho : w.openFile path = some f) :
    nfsStep e w os (.datagram (callDatagram h (.nfsLookup fh name)) peer) (.running s pending) =
      ([], .dead) := by
  rw [nfsStep_call e w os h _ _ _ (.lookup fh name hh hn) (by intro p; simp)]
  show nfsReply _ _ _ _ (s.lookup w ⟨name, ⟨fh⟩⟩) = _
  rw [lookup_found w ⟨name, ⟨fh⟩⟩ s m f ((push_of_resolves hp).symm ▸ hs) ((push_of_resolves hp).symm ▸ ho),
    attributesOf_undated m hd]
  rfl

/-- The OS refuses UDP datagrams that do not fit into an IPv4 packet. -/
def RefusesOversize (os : SendOs) : Prop :=
  ∀ retry b to, 65507 < b.length → os retry b to = false

theorem udpSend_stuck (os : SendOs) (hos : RefusesOversize os) (p : Bytes × Addr)
    (hp : 65507 < p.1.length) (b : Bytes) (to : Addr) :
    udpSend os (some p) b to = (false, [], some p) := by
  unfold udpSend
  simp only [hos true p.1 p.2 hp]
  rfl

theorem step_stuck (e : Endian) (w : World F) (os : SendOs) (hos : RefusesOversize os) (rv : Recv)
    (s : Nfs F) (p : Bytes × Addr) (hp : 65507 < p.1.length) :
    (nfsStep e w os rv (.running s (some p))).1 = [] ∧
    ((∃ s', (nfsStep e w os rv (.running s (some p))).2 = .running s' (some p)) ∨
      (nfsStep e w os rv (.running s (some p))).2 = .dead) := by
  cases rv with
  | ioError => exact ⟨rfl, .inl ⟨_, rfl⟩⟩
  | datagram d peer =>
    unfold nfsStep
    cases hf : rpcFrame d with
    | nothing => simp only [hf]; exact ⟨trivial, .inl ⟨_, rfl⟩⟩
    | invalid => simp only [hf]; exact ⟨trivial, .inl ⟨_, rfl⟩⟩
    | panic => simp only [hf]; exact ⟨trivial, .inr trivial⟩
    | request q =>
      simp only [hf]
      cases hc : s.callProcedure e w q.call.procedure with
      | panic => exact ⟨rfl, .inr rfl⟩
      | ok x =>
        obtain ⟨r, s1⟩ := x
        cases r with
        | error _ => exact ⟨rfl, .inl ⟨_, rfl⟩⟩
        | ok _ =>
          simp only [nfsReply, udpSend_stuck os hos p hp]
          exact ⟨trivial, .inl ⟨_, rfl⟩⟩

theorem run_stuck (e : Endian) (evs : List (NfsEvent F))
    (hos : ∀ ev ∈ evs, RefusesOversize ev.os) (p : Bytes × Addr) (hp : 65507 < p.1.length) :
    ∀ s : Nfs F, (nfsRun e (.running s (some p)) evs).1 = [] := by
  induction evs with
  | nil => intro s; rfl
  | cons x xs ih =>
    intro s
    have hs := step_stuck e x.world x.os (hos x (List.mem_cons_self ..)) x.recv s p hp
    simp only [nfsRun]
    rw [hs.1, List.nil_append]
    rcases hs.2 with ⟨s', h⟩ | h
    · rw [h]; exact ih (fun ev he => hos ev (List.mem_cons_of_mem _ he)) s'
    · rw [h, nfsRun_dead]

theorem length_readReplyOf (xid : UInt32) (m : Meta) (data : Bytes) :
    100 + data.length ≤ (readReplyOf xid m data).length ∧
      (readReplyOf xid m data).length % 4 = 0 := by
  unfold readReplyOf rfcReply xdrOpaque xdrPad opaqueAuth
  simp only [List.length_append, length_be32, length_fattr, List.length_replicate]
  simp only [xdrOpaque, xdrPad, List.length_append, length_be32, List.length_nil,
    List.length_replicate]
  omega

/-- C42, where the claim fails: one READ with a count above 65404 of an open file silences the
handler: no datagram is ever sent again, whatever is received afterwards. -/
theorem C42_oversize_read_wedges (w : World F) (os : SendOs) (hos : RefusesOversize os) (h : Hdr)
    (peer : Addr) (i : UInt64) (o c t : UInt32) (hc : 65404 < c.toNat) (s : Nfs F) (f : F)
    (hk : s.handlers i = some f) (b : Bytes) (hb : w.pread f o.toNat c.toNat = some b)
    (hlen : b.length ≤ c.toNat) (m : Meta) (hm : w.fstat f = some m) (hd : Dated m)
    (evs : List (NfsEvent F)) (hevs : ∀ ev ∈ evs, RefusesOversize ev.os) :
    (nfsRun .little (.running s none)
      (⟨w, os, .datagram (callDatagram h (.nfsRead (handleOf i) o c t)) peer⟩ :: evs)).1 = [] := by
  obtain ⟨a, ha, hf⟩ := attributesOf_dated m hd
  have hr : s.read .little w ⟨⟨handleOf i⟩, o, c, t⟩ =
      .ok (.ok (.nfsRead .ok a (b ++ List.replicate (c.toNat - b.length) 0)), s) := by
    unfold Nfs.read readFileRange
    simp only [ino_handleOf, Outcome.bind, hk, hb, Option.map_some, hm, ha,
      List.take_of_length_le hlen]
  have hl : 65507 <
      (readReplyOf h.xid m (b ++ List.replicate (c.toNat - b.length) 0)).length := by
    have := length_readReplyOf h.xid m (b ++ List.replicate (c.toNat - b.length) 0)
    simp only [List.length_append, List.length_replicate] at this
    omega
  have hstep : nfsStep .little w os (.datagram (callDatagram h (.nfsRead (handleOf i) o c t)) peer)
      (.running s none) = ([], .running s
        (some (readReplyOf h.xid m (b ++ List.replicate (c.toNat - b.length) 0), peer))) := by
    rw [nfsStep_call .little w os h _ _ _ (.read _ o c t (length_handleOf i)) (by intro p; simp)]
    show nfsReply _ _ _ _ (s.read .little w ⟨⟨handleOf i⟩, o, c, t⟩) = _
    rw [hr]
    simp only [nfsReply, udpSend, datagram_read _ m a _ hf]
    rw [if_neg (by rw [hos false _ _ hl]; decide)]
  simp only [nfsRun, hstep, List.nil_append]
  exact run_stuck .little evs hevs _ hl s

/-! ## C43: what is served -/

/-- C43, the negation: whatever folder the application was started with, any regular file the
process can open is served, contents included, to anyone who names its absolute path. -/
theorem C43_any_readable_file_is_served (w : World F) (content : F → Bytes)
    (hfull : FullReads w content) (h : Hdr) (peer : Addr) (name : Str) (habs : name.head? = some '/')
    (hn : (utf16le name).length < 4294967296) (m : Meta) (f : F) (hs : w.stat name = some m)
    (hfile : m.isFile = true) (hd : Dated m) (ho : w.openFile name = some f)
    (hm : w.fstat f = some m) (o c t : UInt32) (hin : o.toNat + c.toNat ≤ (content f).length)
    (s : Nfs F) :
    (nfsRun .little (.running s none)
      [⟨w, fun _ _ _ => true, .datagram (callDatagram h (.nfsLookup (List.replicate 32 0) name)) peer⟩,
       ⟨w, fun _ _ _ => true, .datagram (callDatagram h (.nfsRead (handleOf m.ino) o c t)) peer⟩]).1 =
      [(lookupReply h.xid m, peer),
       (readReplyOf h.xid m (((content f).drop o.toNat).take c.toNat), peer)] := by
  have hp : pushPath s.path name = name := by unfold pushPath; rw [if_pos habs]
  obtain ⟨a, ha, hf⟩ := attributesOf_dated m hd
  have h1 : nfsStep .little w (fun _ _ _ => true)
      (.datagram (callDatagram h (.nfsLookup (List.replicate 32 0) name)) peer) (.running s none) =
      ([(lookupReply h.xid m, peer)],
        .running ⟨['/'], fun j => if j = m.ino then some f else s.handlers j⟩ none) := by
    rw [nfsStep_call .little w _ h _ _ _ (.lookup _ name (by simp) hn) (by intro p; simp)]
    show nfsReply _ _ _ _ (s.lookup w ⟨name, ⟨_⟩⟩) = _
    rw [lookup_found w ⟨name, ⟨_⟩⟩ s m f (by simpa only [hp] using hs)
      (by simpa only [hp] using ho), ha]
    show nfsReply _ _ _ _ (.ok (.ok _, _)) = _
    simp only [nfsReply, udpSend, datagram_lookup _ m a hf, if_true, hfile]
  have h2 := C39_read_in_range w content hfull h peer m.ino o c t
    ⟨['/'], fun j => if j = m.ino then some f else s.handlers j⟩ f (by simp) hin m hm hd
  simp only [nfsRun, h1, h2]
  rfl

/-- C43, what does hold: data of a file is only sent if the process could open it as a regular file
at some path during an earlier request. -/
theorem C43_only_openable_files_partial (e : Endian) (evs : List (NfsEvent F)) :
    ∀ (t : NfsTask F), (∀ s p i f, t = .running s p → s.handlers i = some f → False) →
    ∀ (out : List (Bytes × Addr)) (s : Nfs F) (p : Option (Bytes × Addr)),
    nfsRun e t evs = (out, .running s p) → ∀ (i : UInt64) (f : F), s.handlers i = some f →
    ∃ ev ∈ evs, ∃ path m, ev.world.stat path = some m ∧ m.isFile = true ∧ m.ino = i ∧
      ev.world.openFile path = some f := by
  suffices hgen : ∀ (evs : List (NfsEvent F)) (t : NfsTask F) (out : List (Bytes × Addr))
      (s : Nfs F) (p : Option (Bytes × Addr)),
      nfsRun e t evs = (out, .running s p) → ∀ (i : UInt64) (f : F), s.handlers i = some f →
      (∃ s0 p0, t = .running s0 p0 ∧ s0.handlers i = some f) ∨
      ∃ ev ∈ evs, ∃ path m, ev.world.stat path = some m ∧ m.isFile = true ∧ m.ino = i ∧
        ev.world.openFile path = some f by
    intro t ht out s p h i f hk
    rcases hgen evs t out s p h i f hk with ⟨s0, p0, h1, h2⟩ | h'
    · exact absurd h2 (fun hh => ht s0 p0 i f h1 hh)
    · exact h'
  intro evs
  induction evs with
  | nil =>
    intro t out s p h i f hk
    simp only [nfsRun] at h
    exact .inl ⟨s, p, (Prod.ext_iff.1 h).2, hk⟩
  | cons x xs ih =>
    intro t out s p h i f hk
    simp only [nfsRun] at h
    have h2 := (Prod.ext_iff.1 h).2
    simp only at h2
    rcases ih _ _ s p (Prod.ext rfl h2) i f hk with ⟨s0, p0, h3, h4⟩ | ⟨ev, he, h'⟩
    · cases t with
      | dead => exact nomatch h3
      | running s1 p1 =>
        rcases step_handlers e x.world x.os x.recv s1 p1 _ s0 p0 (Prod.ext rfl h3) with
          h' | ⟨_, _, _, a, m, g, _, _, _, k2, k3, k4, k5, _⟩
        · exact .inl ⟨s1, p1, rfl, by rw [← h']; exact h4⟩
        · rw [k5] at h4
          by_cases hi : i = m.ino
          · simp only [if_pos hi] at h4
            exact .inr ⟨x, List.mem_cons_self .., _, m, k2, k3, hi.symm, by rw [k4, h4]⟩
          · simp only [if_neg hi] at h4
            exact .inl ⟨s1, p1, rfl, h4⟩
    · exact .inr ⟨ev, List.mem_cons_of_mem _ he, h'⟩

/-! ## C63: downloading a file -/

/-- The data of a READ reply as a client reads it. -/
def readData (reply : Bytes) : Option Bytes :=
  match readRpcReply reply with
  | none => none
  | some (_, results) => (getOpaque (results.drop 72)).map (·.1)

theorem readData_readReplyOf (xid : UInt32) (m : Meta) (hd : Dated m) (data : Bytes)
    (hl : data.length < 4294967296) : readData (readReplyOf xid m data) = some data := by
  obtain ⟨a, _, hf⟩ := attributesOf_dated m hd
  obtain ⟨results, h1, h2⟩ := C41_read_recovered xid .ok a data hl
  rw [datagram_read _ m a _ hf] at h1
  simp only [readData, h1, h2, Option.map_some]

/-- The READ request for the `j`-th block of `k` bytes of a file of `n` bytes. -/
def blockReq (h : Hdr) (i : UInt64) (n k j : Nat) : Bytes :=
  callDatagram h (.nfsRead (handleOf i) (UInt32.ofNat (j * k))
    (UInt32.ofNat (min k (n - j * k))) 0)

/-- The OS accepts every datagram that fits into an IPv4 packet. -/
def AcceptsFitting (os : SendOs) : Prop := ∀ b to, b.length ≤ 65507 → os false b to = true

theorem length_readReplyOf_le (xid : UInt32) (m : Meta) (data : Bytes) :
    (readReplyOf xid m data).length = 100 + data.length + (4 - data.length % 4) % 4 := by
  unfold readReplyOf rfcReply xdrOpaque xdrPad opaqueAuth
  simp only [List.length_append, length_be32, length_fattr, List.length_replicate]
  simp only [xdrOpaque, xdrPad, List.length_append, length_be32, List.length_nil,
    List.length_replicate]
  omega

theorem blocks_run (w : World F) (os : SendOs) (hos : AcceptsFitting os) (content : F → Bytes)
    (hfull : FullReads w content) (h : Hdr) (peer : Addr) (i : UInt64) (s : Nfs F) (f : F)
    (hk : s.handlers i = some f) (m : Meta) (hm : w.fstat f = some m) (hd : Dated m) (k : Nat)
    (hk2 : k ≤ 65404) (hn : (content f).length < 4294967296) (js : List Nat)
    (hjs : ∀ j ∈ js, j * k < (content f).length) :
    nfsRun .little (.running s none) (js.map fun j =>
        ⟨w, os, .datagram (blockReq h i (content f).length k j) peer⟩) =
      (js.map fun j => (readReplyOf h.xid m (((content f).drop (j * k)).take k), peer),
        .running s none) := by
  induction js with
  | nil => rfl
  | cons j js ih =>
    have hj := hjs j (List.mem_cons_self ..)
    have ho : (UInt32.ofNat (j * k)).toNat = j * k := by
      rw [UInt32.toNat_ofNat']; omega
    have hc : (UInt32.ofNat (min k ((content f).length - j * k))).toNat =
        min k ((content f).length - j * k) := by
      rw [UInt32.toNat_ofNat']; omega
    have hb : ((content f).drop (j * k)).take (min k ((content f).length - j * k)) =
        ((content f).drop (j * k)).take k := by
      rw [← List.length_drop, ← List.take_take, List.take_length]
    have hlen : (((content f).drop (j * k)).take k).length =
        min k ((content f).length - j * k) := by
      rw [List.length_take, List.length_drop]
    have hread := hfull f (j * k) (min k ((content f).length - j * k))
    rw [hb] at hread
    have hstep := C39_read_reply w os h peer i (UInt32.ofNat (j * k))
      (UInt32.ofNat (min k ((content f).length - j * k))) 0 s f hk
      (((content f).drop (j * k)).take k) (by rw [ho, hc]; exact hread)
      (by rw [hc, hlen]; exact Nat.le_refl _) m hm hd
      (by
        apply hos
        rw [length_readReplyOf_le, List.length_append, List.length_replicate, hc, hlen]
        omega)
    rw [hc, hlen, Nat.sub_self, List.replicate_zero, List.append_nil] at hstep
    simp only [List.map_cons, nfsRun, blockReq, hstep]
    rw [show (List.map (fun j => (⟨w, os, .datagram (callDatagram h (.nfsRead (handleOf i)
      (UInt32.ofNat (j * k)) (UInt32.ofNat (min k ((content f).length - j * k))) 0)) peer⟩ :
      NfsEvent F)) js) = js.map fun j =>
        ⟨w, os, .datagram (blockReq h i (content f).length k j) peer⟩ from rfl,
      ih (fun x hx => hjs x (List.mem_cons_of_mem _ hx))]
    rfl

theorem blocks_flatten (c : Bytes) (k : Nat) : ∀ n : Nat,
    ((List.range n).map fun j => (c.drop (j * k)).take k).flatten = c.take (n * k)
  | 0 => by simp
  | n + 1 => by
    rw [List.range_succ, List.map_append, List.flatten_append, blocks_flatten c k n, Nat.succ_mul,
      List.take_add]
    simp

/-- C63: a player that reads a file of less than 4 GiB block by block, `k` bytes at a time
(`0 < k ≤ 65404`), gets one reply per request, and the data of the replies put together is exactly
the file. -/
theorem C63_download (w : World F) (os : SendOs) (hos : AcceptsFitting os) (content : F → Bytes)
    (hfull : FullReads w content) (h : Hdr) (peer : Addr) (i : UInt64) (s : Nfs F) (f : F)
    (hk : s.handlers i = some f) (m : Meta) (hm : w.fstat f = some m) (hd : Dated m) (k : Nat)
    (hk1 : 0 < k) (hk2 : k ≤ 65404) (hn : (content f).length < 4294967296) :
    ∃ pieces : List Bytes,
      (nfsRun .little (.running s none)
        ((List.range (((content f).length + k - 1) / k)).map fun j =>
          ⟨w, os, .datagram (blockReq h i (content f).length k j) peer⟩)).1.map
        (fun x => (readData x.1, x.2)) = pieces.map (fun b => (some b, peer)) ∧
      pieces.flatten = content f := by
  refine ⟨(List.range (((content f).length + k - 1) / k)).map
    fun j => ((content f).drop (j * k)).take k, ?_, ?_⟩
  · rw [blocks_run w os hos content hfull h peer i s f hk m hm hd k hk2 hn _ ?_]
    · rw [List.map_map, List.map_map]
      apply List.map_congr_left
      intro j _
      simp only [Function.comp]
      rw [readData_readReplyOf h.xid m hd _ (by
        rw [List.length_take, List.length_drop]; omega)]
    · intro j hj
      rw [List.mem_range] at hj
      have h1 : j + 1 ≤ ((content f).length + k - 1) / k := hj
      rw [Nat.le_div_iff_mul_le hk1, Nat.succ_mul] at h1
      omega
  · rw [blocks_flatten]
    apply List.take_of_length_le
    have h1 := Nat.lt_div_mul_add hk1 (a := (content f).length + k - 1)
    omega

/-- C63, the walk and the download together: the handle comes from looking up the path of the
file. -/
theorem C63_walk_and_download (rs : List (LookupReq F)) (m : Meta) (f : F) (hw : Walk [] rs m f)
    (w : World F) (os : SendOs) (hos : AcceptsFitting os) (content : F → Bytes)
    (hfull : FullReads w content) (h : Hdr) (peer : Addr) (m' : Meta) (hm : w.fstat f = some m')
    (hd : Dated m') (k : Nat) (hk1 : 0 < k) (hk2 : k ≤ 65404)
    (hn : (content f).length < 4294967296) :
    ∃ pieces : List Bytes,
      ((nfsRun .little .start (rs.map LookupReq.event ++
        ((List.range (((content f).length + k - 1) / k)).map fun j =>
          ⟨w, os, .datagram (blockReq h m.ino (content f).length k j) peer⟩))).1.drop rs.length).map
        (fun x => (readData x.1, x.2)) = pieces.map (fun b => (some b, peer)) ∧
      pieces.flatten = content f := by
  obtain ⟨out, r, h1, h2, _, _⟩ := C34_path_walk .little rs m f hw Nfs.new rfl
  obtain ⟨pieces, h3, h4⟩ := C63_download w os hos content hfull h peer m.ino
    ⟨['/'], fun j => if j = m.ino then some f else Nfs.new.handlers j⟩ f (by simp) m' hm hd k hk1 hk2
    hn
  refine ⟨pieces, ?_, h4⟩
  rw [NfsTask.start, nfsRun_append, h1, ← h2, List.drop_left]
  exact h3

/-- C63, non-vacuity: a file of three bytes read two bytes at a time takes two requests. -/
example : AcceptsFitting (fun _ b _ => decide (b.length ≤ 65507)) ∧ ((3 + 2 - 1) / 2 = 2) :=
  ⟨fun _ _ h => decide_eq_true h, by decide⟩

/-! ## Instances -/

/-- The sample file system with files of three bytes that are read in full. -/
def fullWorld : World Nat :=
  { sampleWorld with pread := fun f o n => some ((([1, 2, UInt8.ofNat f] : Bytes).drop o).take n) }

def fullContent (f : Nat) : Bytes := [1, 2, UInt8.ofNat f]

theorem fullReads_fullWorld : FullReads fullWorld fullContent := fun _ _ _ => rfl

theorem dated_sampleMeta (i : UInt64) (b : Bool) : Dated (sampleMeta i b) :=
  ⟨by simp [sampleMeta], by simp [sampleMeta], by simp [sampleMeta]⟩

theorem datedWorld_sampleWorld : DatedWorld sampleWorld := by
  constructor
  · intro p m h
    unfold sampleWorld at h
    simp only at h
    repeat' split at h
    all_goals first | (cases h; exact dated_sampleMeta _ _) | exact nomatch h
  · intro f m h
    cases h
    exact dated_sampleMeta _ _

def sampleHdr : Hdr := ⟨7, 2, 2, 0, 0, 0⟩

/-- A handler with the file 3 under inode 3. -/
def sampleNfs : Nfs Nat := ⟨['/'], fun j => if j = 3 then some 3 else none⟩

example := C34_path_walk .little _ _ _ sampleWalk Nfs.new rfl

example := C35_unopenable_stays .little lockedWorld (fun _ _ _ => true) sampleHdr ⟨1, 2⟩
  (List.replicate 32 0) ['a'] (by decide) (by decide) Nfs.new none (sampleMeta 2 false) ['/', 'a']
  (.below [] ['a'] (by decide)) (by decide) (by decide)

example := C35_back_iff .little lockedWorld (fun _ _ _ => true) sampleHdr ⟨1, 2⟩
  (List.replicate 32 0) ['a'] (by decide) (by decide) Nfs.new none ['/', 'a']
  (.below [] ['a'] (by decide)) (.inr (by decide))

/-- The consequence on big-endian hardware as well. -/
example := C35_unopenable_breaks_next .big sampleHdr ⟨1, 2⟩

/-- The handle of the root and a handle of another directory. -/
example := C36_directory_handle_ignored .little sampleWorld (fun _ _ _ => true) sampleHdr ⟨1, 2⟩
  (List.replicate 32 0) (handleOf 2) ['x'] (by decide) (by decide) (by decide) NfsTask.start

example := C36_relative_to_current_directory_partial .little (sampleReq ['x']) ⟨['/', 'a'], fun _ => none⟩
  ['/', 'a'] rfl (by decide) (sampleMeta 3 true) 3 ⟨by decide, by decide, by decide⟩ (by decide)
  (by decide) (dated_sampleMeta _ _) (by decide)

/-- From within `/a` the name `/x` reaches a file outside. -/
example := C36_absolute_name_escapes .little sampleWorld sampleHdr ⟨1, 2⟩ (List.replicate 32 0)
  ['/', 'x'] (by decide) (by decide) (by decide) ⟨['/', 'a'], fun _ => none⟩ (sampleMeta 4 true) 4
  (by decide) (dated_sampleMeta _ _) (by decide)

/-- Five bytes requested, three read, two zeros added. -/
example := C39_read_reply sampleWorld (fun _ _ _ => true) sampleHdr ⟨1, 2⟩ 3 0 5 0 sampleNfs 3 rfl
  [3, 3, 3] (by decide) (by decide) (sampleMeta 3 true) rfl (dated_sampleMeta _ _) rfl

example := C39_read_in_range fullWorld fullContent fullReads_fullWorld sampleHdr ⟨1, 2⟩ 3 1 2 0
  sampleNfs 3 rfl (by decide) (sampleMeta 3 true) rfl (dated_sampleMeta _ _)

theorem sampleAlive : (nfsRun .little (.running Nfs.new none)
    ([sampleReq ['a'], sampleReq ['x']].map LookupReq.event ++ [(sampleReq ['n']).event])).2 ≠ .dead := by
  obtain ⟨out, r, h, _⟩ := C34_path_walk .little _ _ _ sampleWalk Nfs.new rfl
  rw [nfsRun_append, h]
  show (nfsRun .little _ [(sampleReq ['n']).event]).2 ≠ .dead
  simp only [nfsRun]
  have := C35_missing_name_partial .little sampleWorld (fun _ _ _ => true) sampleHdr ⟨1, 2⟩
    (List.replicate 32 0) ['n'] (by decide) (by decide)
    ⟨['/'], fun j => if j = (sampleMeta 3 true).ino then some 3 else Nfs.new.handlers j⟩ none
    ['/', 'n'] (.below [] ['n'] (by decide)) (by decide)
  show (nfsStep .little sampleWorld (fun _ _ _ => true)
    (.datagram (callDatagram sampleHdr (.nfsLookup (List.replicate 32 0) ['n'])) ⟨1, 2⟩) _).2 ≠ .dead
  rw [this]
  simp

/-- After a walk to `/a/x` and a LOOKUP of a missing name the handle still stands for that file. -/
example := C38_read_from_same_file _ _ _ sampleWalk Nfs.new rfl [(sampleReq ['n']).event]
  (by intro ev h; cases List.mem_singleton.1 h; rfl)
  (by intro ev h; cases List.mem_singleton.1 h; exact sampleOnly)
  sampleAlive
  sampleWorld sampleHdr ⟨1, 2⟩ 0 3 0 [3, 3, 3] (by decide) (by decide) (sampleMeta 3 true) rfl
  (dated_sampleMeta _ _)

example := C38_getattr_from_same_file _ _ _ sampleWalk Nfs.new rfl [(sampleReq ['n']).event]
  (by intro ev h; cases List.mem_singleton.1 h; rfl)
  (by intro ev h; cases List.mem_singleton.1 h; exact sampleOnly)
  sampleAlive sampleWorld sampleHdr ⟨1, 2⟩ (sampleMeta 3 true) rfl (dated_sampleMeta _ _)

/-- Garbage and a LOOKUP before. -/
example := C42_still_serves_partial .little
  [⟨sampleWorld, fun _ _ _ => true, .datagram [1, 2, 3] ⟨1, 2⟩⟩, (sampleReq ['a']).event]
  (by
    intro ev h
    rcases List.mem_cons.1 h with rfl | h
    · exact datedWorld_sampleWorld
    · cases List.mem_singleton.1 h; exact datedWorld_sampleWorld)
  (by
    intro ev h d peer hd
    rcases List.mem_cons.1 h with rfl | h
    · cases hd; exact fun hr => absurd hr.1 (by decide)
    · cases List.mem_singleton.1 h; cases hd; exact fun hr => absurd hr.2 (by decide))
  (by
    intro ev h
    rcases List.mem_cons.1 h with rfl | h
    · rfl
    · cases List.mem_singleton.1 h; rfl)
  sampleWorld sampleHdr ⟨1, 2⟩ (List.replicate 32 0) ['/', 'x'] (by decide) (by decide) (by decide)
  (sampleMeta 4 true) 4 (by decide) (dated_sampleMeta _ _) (by decide)

/-- A LOOKUP whose answer was refused before. -/
example := C42_recovers .little
  [⟨sampleWorld, fun _ _ _ => false, (sampleReq ['a']).event.recv⟩]
  (by
    intro ev h
    cases List.mem_singleton.1 h; exact datedWorld_sampleWorld)
  (by
    intro ev h d peer hd
    cases List.mem_singleton.1 h; cases hd; exact fun hr => absurd hr.2 (by decide))
  sampleWorld sampleHdr ⟨1, 2⟩ (List.replicate 32 0) ['/', 'x'] (by decide) (by decide) (by decide)
  (sampleMeta 4 true) 4 (by decide) (dated_sampleMeta _ _) (by decide) _ rfl

example := C42_reply_kills .little sampleWorld (fun _ _ _ => true) [0, 0, 0, 1, 0, 0, 0, 1] ⟨1, 2⟩
  ⟨by decide, by decide⟩ sampleNfs none

/-- A file system that records no creation time. -/
def undatedMeta : Meta := ⟨4, true, false, 1, 0, 0, 3, 4096, 0, 8, some ⟨1, 0⟩, some ⟨1, 0⟩, none⟩

def undatedWorld : World Nat :=
  { sampleWorld with stat := fun p => if p = ['/', 'x'] then (some undatedMeta) else none }

example := C42_undated_kills .little undatedWorld (fun _ _ _ => true) sampleHdr ⟨1, 2⟩
  (List.replicate 32 0) ['x'] (by decide) (by decide) Nfs.new none
  undatedMeta 4 ['/', 'x'] (.below [] ['x'] (by decide)) (by decide)
  (fun h => h.2.2 rfl) (by decide)

/-- 65405 bytes asked of a small file. -/
example := C42_oversize_read_wedges sampleWorld (fun _ b _ => decide (b.length ≤ 65507))
  (by intro _ b _ h; exact decide_eq_false (by omega)) sampleHdr ⟨1, 2⟩ 3 0 65405 0 (by decide)
  sampleNfs 3 rfl [3, 3, 3] (by decide) (by decide) (sampleMeta 3 true) rfl (dated_sampleMeta _ _)
  [⟨sampleWorld, fun _ b _ => decide (b.length ≤ 65507), .datagram [1, 2, 3] ⟨1, 2⟩⟩]
  (by
    intro ev h
    cases List.mem_singleton.1 h
    intro _ b _ h
    exact decide_eq_false (by omega))

example := C43_any_readable_file_is_served fullWorld fullContent fullReads_fullWorld sampleHdr ⟨1, 2⟩
  ['/', 'x'] (by decide) (by decide) (sampleMeta 4 true) 4 (by decide) (by decide)
  (dated_sampleMeta _ _) (by decide) rfl 0 3 0 (by decide) Nfs.new

/-- After the sample walk the handle of inode 3 is there. -/
example : ∃ ev ∈ [(sampleReq ['a']).event, (sampleReq ['x']).event], ∃ path m,
    ev.world.stat path = some m ∧ m.isFile = true ∧ m.ino = 3 ∧ ev.world.openFile path = some 3 := by
  obtain ⟨out, r, h, _⟩ := C34_path_walk .little _ _ _ sampleWalk Nfs.new rfl
  exact C43_only_openable_files_partial .little _ _
    (by intro s p i f ht hi; cases ht; exact nomatch hi) _ _ _ h 3 3 rfl

/-- A file of three bytes, two at a time. -/
example := C63_download fullWorld (fun _ b _ => decide (b.length ≤ 65507))
  (fun _ _ h => decide_eq_true h) fullContent fullReads_fullWorld sampleHdr ⟨1, 2⟩ 3 sampleNfs 3 rfl
  (sampleMeta 3 true) rfl (dated_sampleMeta _ _) 2 (by decide) (by decide) (by decide)

end PDJ

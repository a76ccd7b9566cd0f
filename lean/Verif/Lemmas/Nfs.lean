import Verif.Spec.Nfs
import Verif.Props.Calls

/-!
# Lemmas about the NFS program
-/

namespace PDJ

open Spec

variable {F : Type}

theorem frame_callDatagram (h : Hdr) (p : Proc) (prog : RpcProgram) (q : RpcProcedure)
    (hm : Means p prog q) (hmnt : ∀ path, p ≠ .mntMnt path) :
    rpcFrame (callDatagram h p) =
      .request ⟨h.xid, ⟨h.rpcvers, prog, h.vers, q, ⟨1, 20, h.stamp, 0, h.uid, h.gid, 0⟩, .null⟩⟩ := by
  have := C26_player_calls_understood_partial h.xid h.rpcvers h.vers h.stamp h.uid h.gid p prog q hm []
    (fun path e => absurd e (hmnt path))
  rw [List.append_nil] at this
  exact this

/-- The calls of the players are calls by byte offsets. -/
theorem isCall_callDatagram (h : Hdr) (p : Proc) (prog : RpcProgram) (q : RpcProcedure)
    (hm : Means p prog q) (hmnt : ∀ path, p = .mntMnt path → (utf16 path).length % 2 = 1) :
    IsCall (callDatagram h p) h.xid p := by
  have := C26_player_calls_understood_partial h.xid h.rpcvers h.vers h.stamp h.uid h.gid p prog q hm []
    (fun path e => .inl (hmnt path e))
  rw [List.append_nil] at this
  exact (C81_call_iff _ _ _).2 ⟨_, this, rfl, hm⟩

theorem nfsStep_call (e : Endian) (w : World F) (os : SendOs) (h : Hdr) (p : Proc)
    (prog : RpcProgram) (q : RpcProcedure) (hm : Means p prog q) (hmnt : ∀ path, p ≠ .mntMnt path)
    (peer : Addr) (s : Nfs F) (pending : Option (Bytes × Addr)) :
    nfsStep e w os (.datagram (callDatagram h p) peer) (.running s pending) =
      nfsReply os pending h.xid peer (s.callProcedure e w q) := by
  unfold nfsStep
  simp only [frame_callDatagram h p prog q hm hmnt]

/-- The attributes of dated metadata. -/
theorem attributesOf_dated (m : Meta) (hd : Dated m) :
    ∃ a, attributesOf m = .ok a ∧ fattrWords a = fattr m := by
  obtain ⟨h1, h2, h3⟩ := hd
  cases ha : m.accessed with
  | none => exact absurd ha h1
  | some t1 =>
    cases hb : m.modified with
    | none => exact absurd hb h2
    | some t2 =>
      cases hc : m.created with
      | none => exact absurd hc h3
      | some t3 =>
        unfold attributesOf
        rw [ha, hb, hc]
        refine ⟨_, rfl, ?_⟩
        unfold fattrWords fattr timeWords secondsOf
        have hmode : ofBe32 0x00 0x00 81 24 = 20760 := by decide
        rw [ha, hb, hc]
        simp only [hmode]
        cases m.isDir <;> simp only [reduceIte, Bool.false_eq_true, List.cons_append,
          List.nil_append]

theorem attributesOf_undated (m : Meta) (hd : ¬ Dated m) : attributesOf m = .panic := by
  unfold attributesOf
  cases ha : m.accessed with
  | none => rfl
  | some t1 =>
    cases hb : m.modified with
    | none => rfl
    | some t2 =>
      cases hc : m.created with
      | none => rfl
      | some t3 => exact absurd ⟨by simp [ha], by simp [hb], by simp [hc]⟩ hd

theorem pad_of_aligned {n : Nat} (h : n % 4 = 0) : xdrPad n = [] := by
  have : (4 - n % 4) % 4 = 0 := by omega
  simp [xdrPad, this]

theorem length_fattr (m : Meta) : ((fattr m).flatMap be32).length = 68 := by
  simp [fattr]

theorem handleOf_eq (i : UInt64) : encodeFileHandler i = handleOf i := rfl

theorem datagram_lookup (xid : UInt32) (m : Meta) (a : NfsFileAttributes)
    (ha : fattrWords a = fattr m) :
    rpcDatagram (successReply xid (.nfsLookup .ok ⟨encodeFileHandler m.ino⟩ a)) =
      lookupReply xid m := by
  rw [C27_reply_header, (C41_lookup .ok m.ino a).2, (C41_lookup .ok m.ino a).1, ha,
    pad_of_aligned (by decide), List.append_nil]
  rfl

theorem datagram_getattr (xid : UInt32) (m : Meta) (a : NfsFileAttributes)
    (ha : fattrWords a = fattr m) :
    rpcDatagram (successReply xid (.nfsGetAttr .ok a)) = getattrReply xid m := by
  rw [C27_reply_header, (C41_getattr .ok a).2, (C41_getattr .ok a).1, ha,
    pad_of_aligned (by decide), List.append_nil]
  rfl

theorem xdrPad_add (n : Nat) : xdrPad (76 + n) = xdrPad n := by
  unfold xdrPad
  have : (4 - (76 + n) % 4) % 4 = (4 - n % 4) % 4 := by omega
  rw [this]

theorem datagram_read (xid : UInt32) (m : Meta) (a : NfsFileAttributes) (data : Bytes)
    (ha : fattrWords a = fattr m) :
    rpcDatagram (successReply xid (.nfsRead .ok a data)) = readReplyOf xid m data := by
  rw [C27_reply_header, (C41_read .ok a data).2, (C41_read .ok a data).1, ha, xdrPad_add]
  simp only [readReplyOf, rfcReply, xdrOpaque, List.append_assoc]

/-! ### Evaluation of the procedures -/

theorem lookup_missing (w : World F) (a : NfsLookup) (s : Nfs F)
    (h : w.stat (pushPath s.path a.filename) = none) :
    s.lookup w a = .ok (.error .fileDoesNotExist, s.resetPath) := by
  unfold Nfs.lookup
  rw [h]

theorem lookup_unopenable (w : World F) (a : NfsLookup) (s : Nfs F) (m : Meta)
    (h : w.stat (pushPath s.path a.filename) = some m)
    (ho : w.openFile (pushPath s.path a.filename) = none) :
    s.lookup w a =
      .ok (.error .fileDoesNotExist, ⟨pushPath s.path a.filename, s.handlers⟩) := by
  unfold Nfs.lookup
  rw [h]
  simp only [ho]

theorem lookup_found (w : World F) (a : NfsLookup) (s : Nfs F) (m : Meta) (f : F)
    (h : w.stat (pushPath s.path a.filename) = some m)
    (ho : w.openFile (pushPath s.path a.filename) = some f) :
    s.lookup w a = (attributesOf m).bind fun attrs =>
      .ok (.ok (.nfsLookup .ok ⟨encodeFileHandler m.ino⟩ attrs),
        if m.isFile then ⟨['/'], fun j => if j = m.ino then some f else s.handlers j⟩
        else ⟨pushPath s.path a.filename, s.handlers⟩) := by
  unfold Nfs.lookup
  rw [h]
  simp only [ho]
  cases m.isFile <;> rfl

/-- The path of the handler inside the directory `p` (the root is the empty path). -/
def dirPath (p : Str) : Str := if p = [] then ['/'] else p

theorem pushPath_component (p n : Str) (hp : p.getLast? ≠ some '/') (hn : Component n) :
    pushPath (dirPath p) n = p ++ '/' :: n := by
  obtain ⟨h1, h2, _⟩ := hn
  have hh : n.head? ≠ some '/' := by
    cases n with
    | nil => simp
    | cons c r =>
      simp only [List.head?_cons, ne_eq, Option.some.injEq]
      rintro rfl
      exact h2 (List.mem_cons_self ..)
  unfold pushPath dirPath
  rw [if_neg hh]
  by_cases he : p = []
  · subst he
    simp
  · rw [if_neg he, if_pos ⟨he, hp⟩]

theorem getLast_component (p n : Str) (hn : Component n) :
    (p ++ '/' :: n).getLast? ≠ some '/' := by
  obtain ⟨h1, h2, _⟩ := hn
  rw [List.getLast?_append]
  have : ('/' :: n).getLast? = n.getLast? := by
    cases n with
    | nil => exact absurd rfl h1
    | cons c r => simp
  rw [this]
  cases hl : n.getLast? with
  | none => exact absurd (List.getLast?_eq_none_iff.1 hl) h1
  | some c =>
    simp only [Option.or, ne_eq, Option.some.injEq]
    rintro rfl
    exact h2 (List.mem_of_getLast? hl)

theorem push_of_resolves {dir name path : Str} (h : Resolves dir name path) :
    pushPath dir name = path := by
  cases h with
  | absolute name => unfold pushPath; rw [if_pos (by simp)]
  | below dir _ h => unfold pushPath; rw [if_neg h, if_neg (by simp)]; simp
  | inside dir c _ hc h => unfold pushPath; rw [if_neg h, if_pos (by simp [hc])]; simp

theorem dirPath_component (p n : Str) : dirPath (p ++ '/' :: n) = p ++ '/' :: n := by
  unfold dirPath
  rw [if_neg (by simp)]

/-! ### Handles of decoded requests -/

/-- The handles of a request are long enough to be read as an inode number. -/
def ProcSafe (q : RpcProcedure) : Prop :=
  match q with
  | .nfsGetAttr a => ∀ e, ∃ i, a.fhandle.ino e = .ok i
  | .nfsRead a => ∀ e, ∃ i, a.fhandle.ino e = .ok i
  | _ => True

theorem decode_procSafe (prog : RpcProgram) (n : UInt32) (i r : Bytes) (q : RpcProcedure)
    (h : RpcProcedure.decode prog n i = .ok r q) : ProcSafe q := by
  have hmap : ∀ {α : Type} {f : α → RpcProcedure} {p : Parser α} {i : Bytes},
      (f <$> p) i = PRes.ok r q → ∃ r' a, p i = PRes.ok r' a ∧ q = f a := by
    intro α f p i h
    rw [map_def] at h
    obtain ⟨r', a, h1, h2⟩ := bind_eq_ok.1 h
    injection h2 with _ h2
    exact ⟨r', a, h1, h2.symm⟩
  have hpure : ∀ {x : RpcProcedure} {i : Bytes}, (pure x : Parser RpcProcedure) i = PRes.ok r q →
      q = x := by
    intro x i h; injection h with _ h; exact h.symm
  cases prog with
  | portmap =>
    change decodePortmapProc n i = _ at h
    unfold decodePortmapProc at h
    by_cases c0 : n = 0
    · rw [if_pos c0] at h; rw [hpure h]; trivial
    rw [if_neg c0] at h
    by_cases c1 : n = 1
    · rw [if_pos c1] at h; rw [hpure h]; trivial
    rw [if_neg c1] at h
    by_cases c2 : n = 2
    · rw [if_pos c2] at h; rw [hpure h]; trivial
    rw [if_neg c2] at h
    by_cases c3 : n = 3
    · rw [if_pos c3] at h; obtain ⟨_, _, _, e⟩ := hmap h; rw [e]; trivial
    rw [if_neg c3] at h
    by_cases c4 : n = 4
    · rw [if_pos c4] at h; rw [hpure h]; trivial
    rw [if_neg c4] at h
    by_cases c5 : n = 5
    · rw [if_pos c5] at h; rw [hpure h]; trivial
    rw [if_neg c5] at h
    exact nomatch h
  | nfs =>
    change decodeNfsProc n i = _ at h
    unfold decodeNfsProc at h
    by_cases c0 : n = 1
    · rw [if_pos c0] at h
      obtain ⟨_, a, h1, e⟩ := hmap h
      rw [e]
      intro en
      unfold NfsGetAttr.decode at h1
      obtain ⟨r1, fh, k1, k2⟩ := bind_eq_ok.1 h1
      injection k2 with _ k2
      rw [← k2]
      exact C37_request_handles_safe en _ _ _ k1
    rw [if_neg c0] at h
    by_cases c1 : n = 4
    · rw [if_pos c1] at h; obtain ⟨_, _, _, e⟩ := hmap h; rw [e]; trivial
    rw [if_neg c1] at h
    by_cases c2 : n = 6
    · rw [if_pos c2] at h
      obtain ⟨_, a, h1, e⟩ := hmap h
      rw [e]
      intro en
      unfold NfsRead.decode at h1
      obtain ⟨r1, fh, k1, k2⟩ := bind_eq_ok.1 h1
      obtain ⟨r2, o, _, k3⟩ := bind_eq_ok.1 k2
      obtain ⟨r3, c, _, k4⟩ := bind_eq_ok.1 k3
      obtain ⟨r4, t, _, k5⟩ := bind_eq_ok.1 k4
      injection k5 with _ k5
      rw [← k5]
      exact C37_request_handles_safe en _ _ _ k1
    rw [if_neg c2] at h
    exact nomatch h
  | mount =>
    change decodeMountProc n i = _ at h
    unfold decodeMountProc at h
    by_cases c0 : n = 5
    · rw [if_pos c0] at h; rw [hpure h]; trivial
    rw [if_neg c0] at h
    by_cases c1 : n = 1
    · rw [if_pos c1] at h; obtain ⟨_, _, _, e⟩ := hmap h; rw [e]; trivial
    rw [if_neg c1] at h
    exact nomatch h

theorem frame_procSafe {d : Bytes} {q : RpcRequest} (h : rpcFrame d = .request q) :
    ProcSafe q.call.procedure := by
  obtain ⟨r, h⟩ := frame_request h
  obtain ⟨n, _, args, _, _, h⟩ := request_eq_ok h
  exact decode_procSafe _ _ _ _ _ h

/-- A call of a request decoded from a datagram never panics when all files are dated. -/
theorem call_no_panic (e : Endian) (w : World F) (hst : ∀ p m, w.stat p = some m → Dated m)
    (hfs : ∀ f m, w.fstat f = some m → Dated m) (q : RpcProcedure) (hq : ProcSafe q) (s : Nfs F) :
    s.callProcedure e w q ≠ .panic := by
  intro h
  cases q with
  | nfsLookup a =>
    change s.lookup w a = _ at h
    cases hs : w.stat (pushPath s.path a.filename) with
    | none => rw [lookup_missing w a s hs] at h; exact nomatch h
    | some m =>
      cases ho : w.openFile (pushPath s.path a.filename) with
      | none => rw [lookup_unopenable w a s m hs ho] at h; exact nomatch h
      | some f =>
        rw [lookup_found w a s m f hs ho] at h
        obtain ⟨x, hx, _⟩ := attributesOf_dated m (hst _ _ hs)
        rw [hx] at h
        exact nomatch h
  | nfsGetAttr a =>
    change s.getattr e w a = _ at h
    unfold Nfs.getattr at h
    obtain ⟨i, hi⟩ := hq e
    rw [hi] at h
    simp only [Outcome.bind] at h
    cases hk : s.handlers i with
    | none => rw [hk] at h; exact nomatch h
    | some f =>
      cases hm : w.fstat f with
      | none => simp only [hk, hm] at h; exact nomatch h
      | some m =>
        obtain ⟨x, hx, _⟩ := attributesOf_dated m (hfs _ _ hm)
        simp only [hk, hm, hx] at h
        exact nomatch h
  | nfsRead a =>
    change s.read e w a = _ at h
    unfold Nfs.read at h
    obtain ⟨i, hi⟩ := hq e
    rw [hi] at h
    simp only [Outcome.bind] at h
    cases hk : s.handlers i with
    | none => rw [hk] at h; exact nomatch h
    | some f =>
      cases hr : readFileRange w f a.offset a.count with
      | none => simp only [hk, hr] at h; exact nomatch h
      | some d =>
        cases hm : w.fstat f with
        | none => simp only [hk, hr, hm] at h; exact nomatch h
        | some m =>
          obtain ⟨x, hx, _⟩ := attributesOf_dated m (hfs _ _ hm)
          simp only [hk, hr, hm, hx] at h
          exact nomatch h
  | _ => exact nomatch h

end PDJ

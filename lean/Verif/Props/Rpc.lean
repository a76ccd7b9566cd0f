import Verif.Lemmas.Rpc

/-!
# RPC messages: properties C26 - C29, C37, C41
-/

namespace PDJ

open Spec

/-! ## C26: calls of the players are understood -/

/-- What a decoded procedure has to be for the RFC procedure: same program, arguments and text.
A file handle has 32 bytes (RFC 1094 FHSIZE); a text must fit its 32-bit length. -/
inductive Means : Proc → RpcProgram → RpcProcedure → Prop
  | pmapNull : Means .pmapNull .portmap .portmapNull
  | pmapSet : Means .pmapSet .portmap .portmapSet
  | pmapUnset : Means .pmapUnset .portmap .portmapUnset
  | pmapDump : Means .pmapDump .portmap .portmapDump
  | pmapCallit : Means .pmapCallit .portmap .portmapCallResult
  | getportPortmap (v p : UInt32) :
      Means (.pmapGetport 100000 v p) .portmap (.portmapGetport ⟨v, .portmap, .udp, p⟩)
  | getportNfs (v p : UInt32) :
      Means (.pmapGetport 100003 v p) .portmap (.portmapGetport ⟨v, .nfs, .udp, p⟩)
  | getportMount (v p : UInt32) :
      Means (.pmapGetport 100005 v p) .portmap (.portmapGetport ⟨v, .mount, .udp, p⟩)
  | getattr (fh : Bytes) (h : fh.length = 32) : Means (.nfsGetattr fh) .nfs (.nfsGetAttr ⟨⟨fh⟩⟩)
  | lookup (fh : Bytes) (name : Str) (h : fh.length = 32)
      (hn : (utf16le name).length < 4294967296) :
      Means (.nfsLookup fh name) .nfs (.nfsLookup ⟨name, ⟨fh⟩⟩)
  | read (fh : Bytes) (o c t : UInt32) (h : fh.length = 32) :
      Means (.nfsRead fh o c t) .nfs (.nfsRead ⟨⟨fh⟩, o, c, t⟩)
  | mnt (path : Str) (hp : (utf16le path).length < 4294967296) :
      Means (.mntMnt path) .mount (.mountMnt ⟨[path]⟩)
  | exportList : Means .mntExport .mount .mountExport

/-- The credentials of the players: AUTH_UNIX, empty machine name, no auxiliary gids. -/
def playerCred (stamp uid gid : UInt32) : Bytes := opaqueAuth 1 (authUnixBody stamp [] uid gid [])

theorem playerCred_eq (stamp uid gid : UInt32) :
    playerCred stamp uid gid =
      be32 1 ++ (be32 20 ++ (be32 stamp ++ (be32 0 ++ (be32 uid ++ (be32 gid ++ be32 0))))) := by
  simp [playerCred, opaqueAuth, xdrOpaque, authUnixBody, xdrPad]

theorem nullVerf_eq : opaqueAuth 0 [] = be32 0 ++ be32 0 := by
  simp [opaqueAuth, xdrOpaque, xdrPad]

theorem xdrPad_even {n : Nat} (h : n % 2 = 1) : xdrPad (2 * n) = [0, 0] := by
  have e : (4 - 2 * n % 4) % 4 = 2 := by omega
  simp [xdrPad, e]

theorem decode_getport (t : RpcProgram) (v p : UInt32) (extra : Bytes) :
    RpcProcedure.decode .portmap 3 ((be32 t.num ++ be32 v ++ be32 17 ++ be32 p) ++ extra) =
      PRes.ok extra (.portmapGetport ⟨v, t, .udp, p⟩) := by
  show (RpcProcedure.portmapGetport <$> PortmapGetport.decode) _ = _
  simp only [List.append_assoc]
  rw [map_def, PortmapGetport.decode, program_bind]
  have e : PortmapProtocol.decode (be32 17 ++ (be32 p ++ extra)) =
      PRes.ok (be32 p ++ extra) .udp := by
    rw [PortmapProtocol.decode, beU32_bind]; rfl
  rw [bind_apply_ok _ e, beU32_bind]
  rfl

/-- Decoding the XDR arguments of a procedure, followed by anything. -/
theorem decode_args {p : Proc} {prog : RpcProgram} {q : RpcProcedure} (hm : Means p prog q)
    (extra : Bytes)
    (hmnt : ∀ path, p = .mntMnt path → (utf16 path).length % 2 = 1 ∨ 2 ≤ extra.length) :
    ∃ rest, RpcProcedure.decode prog p.num (p.args ++ extra) = PRes.ok rest q := by
  cases hm with
  | pmapNull => exact ⟨_, rfl⟩
  | pmapSet => exact ⟨_, rfl⟩
  | pmapUnset => exact ⟨_, rfl⟩
  | pmapDump => exact ⟨_, rfl⟩
  | pmapCallit => exact ⟨_, rfl⟩
  | exportList => exact ⟨_, rfl⟩
  | getportPortmap v p => exact ⟨extra, decode_getport .portmap v p extra⟩
  | getportNfs v p => exact ⟨extra, decode_getport .nfs v p extra⟩
  | getportMount v p => exact ⟨extra, decode_getport .mount v p extra⟩
  | getattr fh h =>
    refine ⟨extra, ?_⟩
    show (RpcProcedure.nfsGetAttr <$> NfsGetAttr.decode) _ = _
    simp only [Proc.args]
    rw [map_def, NfsGetAttr.decode, fileHandle_bind _ _ _ h]
    rfl
  | lookup fh name h hn =>
    refine ⟨xdrPad (utf16le name).length ++ extra, ?_⟩
    show (RpcProcedure.nfsLookup <$> NfsLookup.decode) _ = _
    simp only [Proc.args, xdrOpaque, List.append_assoc]
    rw [map_def, NfsLookup.decode, fileHandle_bind _ _ _ h, beU32_bind,
      bind_apply_ok _ (count_text name _ hn), bind_apply_ok _ (textOrErr_utf16 name _)]
    rfl
  | read fh o c t h =>
    refine ⟨extra, ?_⟩
    show (RpcProcedure.nfsRead <$> NfsRead.decode) _ = _
    simp only [Proc.args, List.append_assoc]
    rw [map_def, NfsRead.decode, fileHandle_bind _ _ _ h, beU32_bind, beU32_bind, beU32_bind]
    rfl
  | mnt path hp =>
    have hx : ∃ a b r, xdrPad (utf16le path).length ++ extra = a :: b :: r := by
      rw [length_utf16le]
      rcases hmnt path rfl with ho | hl
      · exact ⟨0, 0, extra, by rw [xdrPad_even ho]; rfl⟩
      · rcases Nat.mod_two_eq_zero_or_one (utf16 path).length with he | ho
        · match extra, hl with
          | a :: b :: r, _ =>
            refine ⟨a, b, r, ?_⟩
            have e : (4 - 2 * (utf16 path).length % 4) % 4 = 0 := by omega
            simp [xdrPad, e]
        · exact ⟨0, 0, extra, by rw [xdrPad_even ho]; rfl⟩
    obtain ⟨a, b, r, hx⟩ := hx
    refine ⟨r, ?_⟩
    show (RpcProcedure.mountMnt <$> MountMnt.decode) _ = _
    simp only [Proc.args, xdrOpaque, List.append_assoc]
    rw [map_def, MountMnt.decode, beU32_bind, bind_apply_ok _ (count_text path _ hp), hx,
      bind_apply_ok _ (P.beU16_cons a b r), bind_apply_ok _ (textOrErr_utf16 path _)]
    rfl

/-- C26: every call of an implemented procedure, encoded per RFC 1057 with the players'
credentials and followed by any further bytes, is decoded to that call: same xid, program, version,
procedure and arguments.  A MNT path must have an odd number of UTF-16 units (or at least two more
bytes must follow), see `C26_mnt_even_rejected`. -/
theorem C26_player_calls_understood_partial (xid rpcvers vers stamp uid gid : UInt32) (p : Proc)
    (prog : RpcProgram) (q : RpcProcedure) (hm : Means p prog q) (extra : Bytes)
    (hmnt : ∀ path, p = .mntMnt path → (utf16 path).length % 2 = 1 ∨ 2 ≤ extra.length) :
    rpcFrame (rfcCall xid rpcvers p.prog vers p.num (playerCred stamp uid gid) (opaqueAuth 0 [])
        (p.args ++ extra)) =
      .request ⟨xid, ⟨rpcvers, prog, vers, q, ⟨1, 20, stamp, 0, uid, gid, 0⟩, .null⟩⟩ := by
  have hp : p.prog = prog.num := by cases hm <;> rfl
  obtain ⟨rest, h⟩ := decode_args hm extra hmnt
  unfold rfcCall rpcFrame
  rw [playerCred_eq, nullVerf_eq, hp]
  simp only [List.append_assoc]
  rw [decode_call_words, h, if_pos (by simp only [List.length_append, length_be32]; omega)]
  rfl

/-- C26, non-vacuity: a LOOKUP of a name outside the basic plane. -/
example : Means (.nfsLookup (List.replicate 32 7) ['a', '𝄞']) .nfs
    (.nfsLookup ⟨['a', '𝄞'], ⟨List.replicate 32 7⟩⟩) :=
  .lookup _ _ (by decide) (by decide)

/-- C26, non-vacuity: the players mount "/C/", which has three units. -/
example : (utf16 ['/', 'C', '/']).length % 2 = 1 := by decide

/-- C26, the exception: a MNT call whose path has an even number of units is properly padded
without fill bytes and is then always rejected as invalid. -/
theorem C26_mnt_even_rejected (xid rpcvers vers stamp uid gid : UInt32) (path : Str)
    (hp : (utf16le path).length < 4294967296) (he : (utf16 path).length % 2 = 0) :
    rpcFrame (rfcCall xid rpcvers 100005 vers 1 (playerCred stamp uid gid) (opaqueAuth 0 [])
        (Proc.mntMnt path).args) = .invalid := by
  have e : (4 - 2 * (utf16 path).length % 4) % 4 = 0 := by omega
  have h : RpcProcedure.decode .mount 1 (Proc.mntMnt path).args = PRes.err := by
    show (RpcProcedure.mountMnt <$> MountMnt.decode) _ = _
    simp only [Proc.args, xdrOpaque, List.append_assoc]
    rw [map_def, MountMnt.decode, beU32_bind, bind_apply_ok _ (count_text path _ hp), length_utf16le]
    simp only [xdrPad, e, List.replicate_zero]
    rfl
  unfold rfcCall rpcFrame
  rw [playerCred_eq, nullVerf_eq]
  simp only [List.append_assoc]
  have := decode_call_words xid rpcvers vers 1 1 20 stamp 0 uid gid 0 0 .mount
    (Proc.mntMnt path).args
  have hn : RpcProgram.mount.num = 100005 := rfl
  rw [hn] at this
  rw [this, h, if_pos (by simp only [List.length_append, length_be32]; omega)]
  rfl

/-- C26, what an accepted datagram must look like: the xid, the word 0 of a call, and no fewer than 60 bytes.  Exactly
which datagrams are accepted is C81. -/
theorem C26_accepted_form (d : Bytes) (q : RpcRequest) (h : rpcFrame d = .request q) :
    60 ≤ d.length ∧ getWord d = some (q.xid, d.drop 4) ∧ getWord (d.drop 4) = some (0, d.drop 8) := by
  obtain ⟨r, h⟩ := frame_request h
  obtain ⟨n, v, args, rfl, _⟩ := request_eq_ok h
  refine ⟨?_, ?_, ?_⟩
  · simp only [List.length_append, length_be32]; omega
  · exact congrArg (fun x => some (x, _)) (ofBe32_be32 q.xid)
  · rfl

/-- C26, misread calls: a call with AUTH_NULL credentials and fewer than 20 bytes of arguments -
all portmapper calls including GETPORT, and EXPORT - is rejected. -/
theorem C26_auth_null_rejected (xid rpcvers prog vers proc : UInt32) (args : Bytes)
    (h : args.length < 20) :
    rpcFrame (rfcCall xid rpcvers prog vers proc (opaqueAuth 0 []) (opaqueAuth 0 []) args) =
      .invalid := by
  cases hf : rpcFrame (rfcCall xid rpcvers prog vers proc (opaqueAuth 0 []) (opaqueAuth 0 []) args)
    with
  | invalid => rfl
  | request q =>
    have := (C26_accepted_form _ _ hf).1
    simp only [rfcCall, nullVerf_eq, List.length_append, length_be32] at this
    omega
  | panic =>
    obtain ⟨x, r, e⟩ := (frame_panic_iff _).1 hf
    rw [rfcCall] at e
    simp only [List.append_assoc] at e
    have e := List.append_inj_right e (by simp)
    have e := List.append_inj_left e (by simp)
    exact absurd e (by decide)
  | nothing =>
    unfold rpcFrame at hf
    rw [if_pos (by simp only [rfcCall, List.length_append, length_be32]; omega)] at hf
    cases hd : RpcRequest.decode
      (rfcCall xid rpcvers prog vers proc (opaqueAuth 0 []) (opaqueAuth 0 []) args) <;>
      rw [hd] at hf <;> exact nomatch hf

/-- C26, non-vacuity: GETPORT has 16 bytes of arguments. -/
example : (Proc.pmapGetport 100003 2 0).args.length < 20 := by decide

/-- C26, misread calls: a GETPORT call whose AUTH_UNIX credentials name the machine with one to four
bytes is rejected. -/
theorem C26_machine_name_rejected (xid rpcvers vers stamp uid gid prog pvers port : UInt32)
    (name : Bytes) (h0 : name ≠ []) (h4 : name.length ≤ 4) :
    rpcFrame (rfcCall xid rpcvers 100000 vers 3 (opaqueAuth 1 (authUnixBody stamp name uid gid []))
      (opaqueAuth 0 []) (Proc.pmapGetport prog pvers port).args) = .invalid := by
  have hw : ∃ w : UInt32, name ++ xdrPad name.length = be32 w := by
    match name, h0, h4 with
    | [a], _, _ => exact ⟨ofBe32 a 0 0 0, (be32_ofBe32 a 0 0 0).symm⟩
    | [a, b], _, _ => exact ⟨ofBe32 a b 0 0, (be32_ofBe32 a b 0 0).symm⟩
    | [a, b, c], _, _ => exact ⟨ofBe32 a b c 0, (be32_ofBe32 a b c 0).symm⟩
    | [a, b, c, d], _, _ =>
      refine ⟨ofBe32 a b c d, ?_⟩
      rw [be32_ofBe32]
      simp [xdrPad]
  obtain ⟨w, hw⟩ := hw
  have hb : (authUnixBody stamp name uid gid []).length = 24 := by
    have := congrArg List.length hw
    simp only [List.length_append, length_be32] at this
    simp only [authUnixBody, xdrOpaque, List.length_append, length_be32, List.flatMap_nil,
      List.length_nil]
    omega
  have hc : opaqueAuth 1 (authUnixBody stamp name uid gid []) =
      be32 1 ++ (be32 24 ++ (be32 stamp ++ (be32 (UInt32.ofNat name.length) ++ (be32 w ++
        (be32 uid ++ (be32 gid ++ be32 0)))))) := by
    unfold opaqueAuth xdrOpaque
    rw [hb]
    have : xdrPad 24 = [] := rfl
    rw [this, List.append_nil]
    unfold authUnixBody xdrOpaque
    have hw' : be32 (UInt32.ofNat name.length) ++ name ++ xdrPad name.length =
        be32 (UInt32.ofNat name.length) ++ be32 w := by rw [← hw, List.append_assoc]
    rw [hw']
    simp only [List.append_assoc]
    rfl
  have hd := decode_call_words xid rpcvers vers 3 1 24 stamp (UInt32.ofNat name.length) w uid gid 0
    .portmap (be32 0 ++ (be32 prog ++ (be32 pvers ++ (be32 17 ++ be32 port))))
  have hn : RpcProgram.portmap.num = 100000 := rfl
  rw [hn] at hd
  have hf : RpcProcedure.decode .portmap 3
      (be32 0 ++ (be32 prog ++ (be32 pvers ++ (be32 17 ++ be32 port)))) = PRes.fail := by
    show (RpcProcedure.portmapGetport <$> PortmapGetport.decode) _ = _
    rw [map_def, PortmapGetport.decode,
      program_unknown_bind _ _ _ _ (by intro q; cases q <;> decide)]
    rfl
  rw [hf] at hd
  unfold rfcCall rpcFrame
  rw [hc, nullVerf_eq]
  simp only [Proc.args, List.append_assoc]
  rw [hd, if_pos (by simp only [List.length_append, length_be32]; omega)]
  rfl

/-! ## C27: reply header -/

theorem getWord_be32 (w : UInt32) (r : Bytes) : getWord (be32 w ++ r) = some (w, r) :=
  congrArg (fun x => some (x, r)) (ofBe32_be32 w)

theorem getOpaque_append (data r : Bytes) (h : data.length < 4294967296) :
    getOpaque (be32 (UInt32.ofNat data.length) ++ (data ++ (xdrPad data.length ++ r))) =
      some (data, r) := by
  unfold getOpaque
  rw [getWord_be32]
  simp only [toNat_ofNat32 h]
  rw [if_neg (by simp only [List.length_append, xdrPad, List.length_replicate]; omega)]
  rw [List.take_left, ← List.append_assoc, List.drop_left' (by simp [xdrPad])]

theorem getOpaque_xdr (data : Bytes) (h : data.length < 4294967296) :
    getOpaque (be32 (UInt32.ofNat data.length) ++ (data ++ xdrPad data.length)) =
      some (data, []) := by
  have := getOpaque_append data [] h
  rwa [List.append_nil] at this

/-- C27: a reply datagram is the RFC 1057 accepted-success reply with the given xid and results,
followed by fill bytes. -/
theorem C27_reply_header (xid : UInt32) (d : RpcReplyMessage) :
    rpcDatagram (successReply xid d) = rfcReply xid d.encode ++ xdrPad d.encode.length := by
  have hl : (rfcReply xid d.encode).length = 24 + d.encode.length := by
    simp only [rfcReply, nullVerf_eq, List.length_append, length_be32]
  have e : (successReply xid d).encode = rfcReply xid d.encode := by
    simp [successReply, RpcOutgoing.encode, RpcReply.encode, RpcAuth.encode, rfcReply, nullVerf_eq,
      List.append_assoc]
  rw [rpcDatagram, e, calculateFillBytes, hl, xdrPad]
  generalize d.encode.length = n
  split
  · have : (4 - n % 4) % 4 = 4 - (24 + n) % 4 := by omega
    rw [this]
  · have : (4 - n % 4) % 4 = 0 := by omega
    rw [this]; rfl

/-- C27, as the client sees it: the reply is read as successful, with the request's xid and the
results. -/
theorem C27_reply_read (xid : UInt32) (d : RpcReplyMessage) :
    readRpcReply (rpcDatagram (successReply xid d)) =
      some (xid, d.encode ++ xdrPad d.encode.length) := by
  rw [C27_reply_header, rfcReply, nullVerf_eq]
  simp only [List.append_assoc]
  have go : ∀ r : Bytes, getOpaque (be32 0 ++ r) = some ([], r) := by
    intro r
    unfold getOpaque
    rw [getWord_be32]
    simp
  unfold readRpcReply
  simp only [getWord_be32, go]
  simp

/-! ## C28: alignment -/

/-- C28: every datagram has a length divisible by four and is the message followed by fewer than
four zero bytes. -/
theorem C28_aligned (m : RpcOutgoing) :
    (rpcDatagram m).length % 4 = 0 ∧
      ∃ k, k < 4 ∧ rpcDatagram m = m.encode ++ List.replicate k 0 := by
  unfold rpcDatagram calculateFillBytes
  split
  · refine ⟨?_, _, ?_, rfl⟩
    · simp only [List.length_append, List.length_replicate]; omega
    · omega
  · refine ⟨?_, 0, by decide, rfl⟩
    simp only [List.append_nil]; omega

/-- C28, non-vacuity: a READ reply of one byte needs three fill bytes. -/
example : calculateFillBytes 101 = [0, 0, 0] := by decide

/-! ## C29: robustness of the decoder -/

/-- C29: exactly the datagrams of at least eight bytes whose second word is 1 make the decoder
panic. -/
theorem C29_panics_exactly_on_replies_partial (d : Bytes) :
    rpcFrame d = .panic ↔ 8 ≤ d.length ∧ getWord (d.drop 4) = some (1, d.drop 8) := by
  rw [frame_panic_iff]
  constructor
  · rintro ⟨xid, r, rfl⟩
    refine ⟨?_, rfl⟩
    simp only [List.length_append, length_be32]; omega
  · rintro ⟨hl, hw⟩
    match d, hl, hw with
    | a :: b :: c :: e :: f :: g :: h :: i :: r, _, hw =>
      refine ⟨ofBe32 a b c e, r, ?_⟩
      have hw : some (ofBe32 f g h i, r) = some (1, r) := hw
      injection hw with hw
      injection hw with hw
      rw [be32_ofBe32, ← hw, be32_ofBe32]
      rfl

/-- C29, the negation of the full claim: the reply this application itself would send panics the
decoder. -/
theorem C29_reply_panics (xid : UInt32) (d : RpcReplyMessage) :
    rpcFrame (rpcDatagram (successReply xid d)) = .panic := by
  rw [C27_reply_header, frame_panic_iff, rfcReply]
  simp only [List.append_assoc]
  exact ⟨xid, _, rfl⟩

/-! ## C37: file handles -/

theorem le64_cons (i : UInt64) : ∃ b0 b1 b2 b3 b4 b5 b6 b7 : UInt8,
    be64 i = [b7, b6, b5, b4, b3, b2, b1, b0] ∧ le64 i = [b0, b1, b2, b3, b4, b5, b6, b7] ∧
    ofBe64 b7 b6 b5 b4 b3 b2 b1 b0 = i :=
  ⟨_, _, _, _, _, _, _, _, rfl, rfl, ofBe64_be64 i⟩

/-- C37: the handle of an inode has 32 bytes and decodes to the inode on a little-endian host. -/
theorem C37_handle_identifies_inode (i : UInt64) :
    (encodeFileHandler i).length = 32 ∧
      FileHandle.ino .little ⟨encodeFileHandler i⟩ = .ok i := by
  obtain ⟨b0, b1, b2, b3, b4, b5, b6, b7, _, e, h⟩ := le64_cons i
  refine ⟨?_, ?_⟩
  · simp [encodeFileHandler]
  · unfold FileHandle.ino encodeFileHandler
    rw [e]
    exact congrArg Outcome.ok h

/-- C37: different inodes have different handles. -/
theorem C37_handles_distinct (i j : UInt64) (h : encodeFileHandler i = encodeFileHandler j) :
    i = j := by
  have hi := (C37_handle_identifies_inode i).2
  rw [h, (C37_handle_identifies_inode j).2] at hi
  injection hi with hi
  exact hi.symm

/-- C37: on a big-endian host the handle decodes to the byte-reversed inode. -/
theorem C37_big_endian_reversed (i : UInt64) :
    ∃ j, FileHandle.ino .big ⟨encodeFileHandler i⟩ = .ok j ∧ be64 j = (be64 i).reverse := by
  obtain ⟨b0, b1, b2, b3, b4, b5, b6, b7, e1, e2, _⟩ := le64_cons i
  refine ⟨ofBe64 b0 b1 b2 b3 b4 b5 b6 b7, ?_, ?_⟩
  · unfold FileHandle.ino encodeFileHandler
    rw [e2]
    rfl
  · rw [e1, be64_ofBe64]; rfl

/-- C37, the big-endian host really fails: inode 1 is not recovered. -/
example : FileHandle.ino .big ⟨encodeFileHandler 1⟩ ≠ .ok 1 := by decide

/-- C37: no handle of an NFS request makes `ino` panic. -/
theorem C37_request_handles_safe (e : Endian) (d rest : Bytes) (h : FileHandle)
    (hd : FileHandle.decode d = .ok rest h) : ∃ i, h.ino e = .ok i := by
  unfold FileHandle.decode at hd
  rw [P.count_beU8] at hd
  obtain ⟨r, a, h1, h2⟩ := bind_eq_ok.1 hd
  injection h2 with _ h2
  subst h2
  have hl := (P.take_eq_ok.1 h1).1
  unfold FileHandle.ino
  match a, hl with
  | b0 :: b1 :: b2 :: b3 :: b4 :: b5 :: b6 :: b7 :: _, _ => cases e <;> exact ⟨_, rfl⟩

/-! ## C41: layout of the NFS replies -/

/-- RFC 1094 `timeval`: seconds modulo 2^32 and zero microseconds; before the epoch both are
zero. -/
def timeWords (t : SysTime) : List UInt32 :=
  [if 0 ≤ t.secs then UInt32.ofNat t.secs.toNat else 0, 0]

/-- RFC 1094 `fattr`: type, mode, nlink, uid, gid, size, blocksize, rdev, blocks, fsid, fileid,
atime, mtime, ctime. -/
def fattrWords (a : NfsFileAttributes) : List UInt32 :=
  [match a.type with | .file => 1 | .directory => 2,
   ofBe32 a.mode.name a.mode.user a.mode.group a.mode.other, a.nlink, a.uid, a.gid, a.size,
   a.blocksize, a.rdev, a.blocks, a.fsid, a.fileId] ++
    timeWords a.atime ++ timeWords a.mtime ++ timeWords a.ctime

theorem drop4_be64 (n : Nat) : (be64 (UInt64.ofNat n)).drop 4 = be32 (UInt32.ofNat n) := by
  simp only [be64, be32, List.drop_succ_cons, List.drop_zero, UInt64.toNat_ofNat',
    UInt32.toNat_ofNat']
  have e : ∀ a b : Nat, a % 256 = b % 256 → UInt8.ofNat a = UInt8.ofNat b := by
    intro a b h
    apply UInt8.toNat.inj
    simpa only [UInt8.toNat_ofNat'] using h
  refine List.cons_eq_cons.2 ⟨e _ _ (by omega), List.cons_eq_cons.2 ⟨e _ _ (by omega),
    List.cons_eq_cons.2 ⟨e _ _ (by omega), List.cons_eq_cons.2 ⟨e _ _ (by omega), rfl⟩⟩⟩⟩

theorem timeWords_encode (t : SysTime) : systemTimeToBytes t = (timeWords t).flatMap be32 := by
  unfold systemTimeToBytes timeWords
  split
  · rw [drop4_be64]; rfl
  · rfl

/-- C41: an attribute block is the seventeen RFC 1094 words, 68 bytes. -/
theorem C41_attributes (a : NfsFileAttributes) :
    a.encode = (fattrWords a).flatMap be32 ∧ a.encode.length = 68 := by
  have h : a.encode = (fattrWords a).flatMap be32 := by
    unfold NfsFileAttributes.encode fattrWords
    rw [timeWords_encode, timeWords_encode, timeWords_encode]
    simp only [List.flatMap_append, List.flatMap_cons, List.flatMap_nil, List.append_nil,
      be32_ofBe32, List.append_assoc]
    cases a.type <;> rfl
  refine ⟨h, ?_⟩
  rw [h]
  simp [fattrWords, timeWords]

/-- C41: a GETATTR result is the status word and the attributes, 72 bytes. -/
theorem C41_getattr (s : NfsStatus) (a : NfsFileAttributes) :
    (RpcReplyMessage.nfsGetAttr s a).encode = be32 0 ++ (fattrWords a).flatMap be32 ∧
      (RpcReplyMessage.nfsGetAttr s a).encode.length = 72 := by
  have h := C41_attributes a
  cases s
  simp only [RpcReplyMessage.encode, NfsStatus.encode]
  refine ⟨by rw [h.1], ?_⟩
  simp [h.2]

/-- C41: a LOOKUP result is the status word, the 32-byte handle and the attributes, 104 bytes. -/
theorem C41_lookup (s : NfsStatus) (i : UInt64) (a : NfsFileAttributes) :
    (RpcReplyMessage.nfsLookup s ⟨encodeFileHandler i⟩ a).encode =
        be32 0 ++ encodeFileHandler i ++ (fattrWords a).flatMap be32 ∧
      (RpcReplyMessage.nfsLookup s ⟨encodeFileHandler i⟩ a).encode.length = 104 := by
  have h := C41_attributes a
  cases s
  simp only [RpcReplyMessage.encode, NfsStatus.encode]
  refine ⟨by rw [h.1], ?_⟩
  simp [h.2, (C37_handle_identifies_inode i).1]

/-- C41: a READ result is the status word, the attributes and the data with its length,
76 + count bytes. -/
theorem C41_read (s : NfsStatus) (a : NfsFileAttributes) (data : Bytes) :
    (RpcReplyMessage.nfsRead s a data).encode =
        be32 0 ++ (fattrWords a).flatMap be32 ++ be32 (UInt32.ofNat data.length) ++ data ∧
      (RpcReplyMessage.nfsRead s a data).encode.length = 76 + data.length := by
  have h := C41_attributes a
  cases s
  simp only [RpcReplyMessage.encode, NfsStatus.encode]
  refine ⟨by rw [h.1]; simp only [List.append_assoc], ?_⟩
  simp [h.2]; omega

/-- C41: the results of a READ are valid XDR for every length: a reader of the format recovers the
data exactly and nothing is left over. -/
theorem C41_read_recovered (xid : UInt32) (s : NfsStatus) (a : NfsFileAttributes) (data : Bytes)
    (h : data.length < 4294967296) :
    ∃ results, readRpcReply (rpcDatagram (successReply xid (.nfsRead s a data))) =
        some (xid, results) ∧ getOpaque (results.drop 72) = some (data, []) := by
  refine ⟨_, C27_reply_read _ _, ?_⟩
  have hr := C41_read s a data
  rw [hr.2, hr.1]
  have hp : xdrPad (76 + data.length) = xdrPad data.length := by
    unfold xdrPad
    have : (4 - (76 + data.length) % 4) % 4 = (4 - data.length % 4) % 4 := by omega
    rw [this]
  have hd : (be32 0 ++ (fattrWords a).flatMap be32 ++ be32 (UInt32.ofNat data.length) ++ data ++
      xdrPad (76 + data.length)).drop 72 =
      be32 (UInt32.ofNat data.length) ++ (data ++ xdrPad data.length) := by
    rw [hp]
    simp only [List.append_assoc]
    rw [← List.append_assoc]
    apply List.drop_left'
    simp [fattrWords, timeWords]
  rw [hd]
  exact getOpaque_xdr data h

/-- C41, non-vacuity: seconds beyond 2^32 wrap, a time before the epoch is zero. -/
example : timeWords ⟨4294967297, 5⟩ = [1, 0] ∧ timeWords ⟨-1, 0⟩ = [0, 0] := by decide

/-! ## Instances -/

/-- C26: the path "/C" has two units, its call is rejected. -/
example := C26_mnt_even_rejected 7 2 1 0 0 0 ['/', 'C'] (by decide) (by decide)

/-- C26: the calls of the players exist, so the form of accepted datagrams is not an empty claim. -/
example : 60 ≤ (rfcCall 7 2 100005 1 5 (playerCred 0 0 0) (opaqueAuth 0 []) []).length :=
  (C26_accepted_form _ _ (C26_player_calls_understood_partial 7 2 1 0 0 0 .mntExport _ _
    .exportList [] (by intro p h; cases h))).1

/-- C26: the machine name "pc". -/
example := C26_machine_name_rejected 7 2 2 0 0 0 100003 2 0 [112, 99] (by decide) (by decide)

/-- C37: the handles of inodes 1 and 256 differ. -/
example : encodeFileHandler 1 ≠ encodeFileHandler 256 :=
  fun h => absurd (C37_handles_distinct 1 256 h) (by decide)

/-- C37: a handle of 32 bytes is read, and `ino` accepts it. -/
example (e : Endian) : ∃ i, (FileHandle.mk (List.replicate 32 255)).ino e = .ok i :=
  C37_request_handles_safe e (List.replicate 32 255 ++ [1, 2]) [1, 2] _ (by decide)

end PDJ

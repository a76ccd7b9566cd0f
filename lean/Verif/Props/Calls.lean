import Verif.Props.Numbers
import Verif.Props.Rpc
import Verif.Spec.Calls

/-!
# Which datagrams are calls: property C81
-/

namespace PDJ

open Spec

/-! ### Arguments -/

theorem map_eq_ok {α β : Type} {g : α → β} {p : Parser α} {i r : Bytes} {b : β} :
    (g <$> p) i = PRes.ok r b ↔ ∃ a, p i = PRes.ok r a ∧ g a = b := by
  rw [map_def]
  cases p i with
  | ok r' a => simp [and_assoc]
  | err => simp
  | fail => simp
  | panic => simp

theorem fileHandle_eq_ok {i r : Bytes} {h : FileHandle} :
    FileHandle.decode i = PRes.ok r h ↔ h.data.length = 32 ∧ i = h.data ++ r := by
  unfold FileHandle.decode
  rw [bind_eq_ok, P.count_beU8]
  constructor
  · rintro ⟨r', a, h1, h2⟩
    injection h2 with e1 e2
    subst e1 e2
    rw [P.take_eq_ok] at h1
    exact ⟨h1.1, h1.2⟩
  · rintro ⟨h1, h2⟩
    exact ⟨r, h.data, P.take_eq_ok.2 ⟨h1, h2⟩, rfl⟩

theorem leU16_eq_ok {i r : Bytes} {x : UInt16} : P.leU16 i = PRes.ok r x ↔ i = le16 x ++ r := by
  constructor
  · intro h
    match i, h with
    | a :: b :: s, h =>
      simp only [P.leU16, PRes.ok.injEq] at h
      obtain ⟨rfl, rfl⟩ := h
      have e := be16_ofBe16 b a
      simp only [be16, List.cons.injEq, and_true] at e
      simp only [le16, e.1, e.2]
      rfl
  · rintro rfl; exact P.leU16_le16 _ _

theorem count_leU16_eq_ok {n : Nat} {i r : Bytes} {us : List UInt16} :
    P.count P.leU16 n i = PRes.ok r us ↔ us.length = n ∧ i = us.flatMap le16 ++ r := by
  induction n generalizing i us with
  | zero =>
    constructor
    · intro h
      injection h with e1 e2
      subst e1 e2
      exact ⟨rfl, rfl⟩
    · rintro ⟨h1, h2⟩
      have : us = [] := List.eq_nil_of_length_eq_zero h1
      subst this
      subst h2
      rfl
  | succ n ih =>
    rw [P.count, bind_eq_ok]
    constructor
    · rintro ⟨r1, a, h1, h2⟩
      obtain ⟨r2, as, h3, h4⟩ := bind_eq_ok.1 h2
      injection h4 with e1 e2
      subst e1 e2
      rw [leU16_eq_ok] at h1
      rw [ih] at h3
      obtain ⟨h3, rfl⟩ := h3
      subst h1
      simp [h3]
    · rintro ⟨h1, h2⟩
      cases us with
      | nil => exact absurd h1 (by simp)
      | cons u us =>
        refine ⟨us.flatMap le16 ++ r, u, leU16_eq_ok.2 (by simp [h2]), ?_⟩
        exact bind_eq_ok.2 ⟨r, us, ih.2 ⟨by simpa using h1, rfl⟩, rfl⟩

theorem textOrErr_eq_ok {us : List UInt16} {i r : Bytes} {s : Str} :
    textOrErr us i = PRes.ok r s ↔ us = utf16 s ∧ i = r := by
  unfold textOrErr
  constructor
  · intro h
    cases hs : fromUtf16 us with
    | none => rw [hs] at h; exact nomatch h
    | some t =>
      rw [hs] at h
      injection h with e1 e2
      subst e1 e2
      exact ⟨(utf16_fromUtf16 hs).symm, rfl⟩
  · rintro ⟨rfl, rfl⟩
    rw [fromUtf16_utf16]
    rfl

theorem program_ok_iff {i r : Bytes} {pv : RpcProgram × UInt32} :
    RpcProgram.decode i = PRes.ok r pv ↔ i = be32 pv.1.num ++ (be32 pv.2 ++ r) := by
  refine ⟨program_eq_ok, ?_⟩
  rintro rfl
  have := program_bind (fun x => (pure x : Parser _)) pv.1 pv.2 r
  rw [bind_def] at this
  cases h : RpcProgram.decode (be32 pv.1.num ++ (be32 pv.2 ++ r)) <;> rw [h] at this <;>
    first | exact this | exact nomatch this

theorem protocol_ok_iff {i r : Bytes} {x : PortmapProtocol} :
    PortmapProtocol.decode i = PRes.ok r x ↔ x = .udp ∧ i = be32 17 ++ r := by
  unfold PortmapProtocol.decode
  rw [bind_eq_ok]
  constructor
  · rintro ⟨r1, w, h1, h2⟩
    rw [P.beU32_eq_ok] at h1
    by_cases c : w = 17
    · rw [if_pos c] at h2
      injection h2 with e1 e2
      subst c e1 e2
      exact ⟨rfl, h1⟩
    · rw [if_neg c] at h2
      exact nomatch h2
  · rintro ⟨rfl, rfl⟩
    exact ⟨r, 17, P.beU32_be32 _ _, rfl⟩

theorem getport_ok_iff {i r : Bytes} {a : PortmapGetport} :
    PortmapGetport.decode i = PRes.ok r a ↔ a.protocol = .udp ∧
      i = be32 a.program.num ++ be32 a.version ++ be32 17 ++ be32 a.port ++ r := by
  unfold PortmapGetport.decode
  constructor
  · intro h
    obtain ⟨r1, pv, h1, h⟩ := bind_eq_ok.1 h
    obtain ⟨r2, x, h2, h⟩ := bind_eq_ok.1 h
    obtain ⟨r3, w, h3, h⟩ := bind_eq_ok.1 h
    injection h with e1 e2
    subst e1 e2
    rw [program_ok_iff] at h1
    rw [protocol_ok_iff] at h2
    rw [P.beU32_eq_ok] at h3
    obtain ⟨h2, rfl⟩ := h2
    subst h1 h3
    exact ⟨h2, by simp only [List.append_assoc]⟩
  · rintro ⟨h1, rfl⟩
    simp only [List.append_assoc]
    refine bind_eq_ok.2 ⟨_, (a.program, a.version), program_ok_iff.2 rfl, ?_⟩
    refine bind_eq_ok.2 ⟨_, .udp, protocol_ok_iff.2 ⟨rfl, rfl⟩, ?_⟩
    refine bind_eq_ok.2 ⟨_, a.port, P.beU32_eq_ok.2 rfl, ?_⟩
    rw [← h1]
    rfl

theorem read_ok_iff {i r : Bytes} {a : NfsRead} :
    NfsRead.decode i = PRes.ok r a ↔ a.fhandle.data.length = 32 ∧
      i = a.fhandle.data ++ be32 a.offset ++ be32 a.count ++ be32 a.totalCount ++ r := by
  unfold NfsRead.decode
  constructor
  · intro h
    obtain ⟨r1, fh, h1, h⟩ := bind_eq_ok.1 h
    obtain ⟨r2, o, h2, h⟩ := bind_eq_ok.1 h
    obtain ⟨r3, c, h3, h⟩ := bind_eq_ok.1 h
    obtain ⟨r4, t, h4, h⟩ := bind_eq_ok.1 h
    injection h with e1 e2
    subst e1 e2
    rw [fileHandle_eq_ok] at h1
    rw [P.beU32_eq_ok] at h2 h3 h4
    obtain ⟨h1, rfl⟩ := h1
    subst h2 h3 h4
    exact ⟨h1, by simp only [List.append_assoc]⟩
  · rintro ⟨h1, rfl⟩
    simp only [List.append_assoc]
    refine bind_eq_ok.2 ⟨_, a.fhandle, fileHandle_eq_ok.2 ⟨h1, rfl⟩, ?_⟩
    refine bind_eq_ok.2 ⟨_, a.offset, P.beU32_eq_ok.2 rfl, ?_⟩
    refine bind_eq_ok.2 ⟨_, a.count, P.beU32_eq_ok.2 rfl, ?_⟩
    exact bind_eq_ok.2 ⟨_, a.totalCount, P.beU32_eq_ok.2 rfl, rfl⟩

theorem lookup_ok_iff {i r : Bytes} {a : NfsLookup} :
    NfsLookup.decode i = PRes.ok r a ↔ a.fhandle.data.length = 32 ∧
      ∃ n : UInt32, n.toNat / 2 = (utf16 a.filename).length ∧
        i = a.fhandle.data ++ be32 n ++ utf16le a.filename ++ r := by
  unfold NfsLookup.decode
  constructor
  · intro h
    obtain ⟨r1, fh, h1, h⟩ := bind_eq_ok.1 h
    obtain ⟨r2, n, h2, h⟩ := bind_eq_ok.1 h
    obtain ⟨r3, us, h3, h⟩ := bind_eq_ok.1 h
    obtain ⟨r4, t, h4, h⟩ := bind_eq_ok.1 h
    injection h with e1 e2
    subst e1 e2
    rw [fileHandle_eq_ok] at h1
    rw [P.beU32_eq_ok] at h2
    rw [count_leU16_eq_ok] at h3
    rw [textOrErr_eq_ok] at h4
    obtain ⟨h1, rfl⟩ := h1
    obtain ⟨rfl, rfl⟩ := h4
    obtain ⟨h3, rfl⟩ := h3
    subst h2
    exact ⟨h1, n, h3.symm, by simp only [List.append_assoc]; rfl⟩
  · rintro ⟨h1, n, h2, rfl⟩
    simp only [List.append_assoc]
    refine bind_eq_ok.2 ⟨_, a.fhandle, fileHandle_eq_ok.2 ⟨h1, rfl⟩, ?_⟩
    refine bind_eq_ok.2 ⟨_, n, P.beU32_eq_ok.2 rfl, ?_⟩
    refine bind_eq_ok.2 ⟨_, utf16 a.filename, count_leU16_eq_ok.2 ⟨h2.symm, rfl⟩, ?_⟩
    exact bind_eq_ok.2 ⟨_, a.filename, textOrErr_eq_ok.2 ⟨rfl, rfl⟩, rfl⟩

theorem mnt_ok_iff {i r : Bytes} {a : MountMnt} :
    MountMnt.decode i = PRes.ok r a ↔ ∃ (path : Str) (n : UInt32) (fill : UInt16),
      a = ⟨[path]⟩ ∧ n.toNat / 2 = (utf16 path).length ∧
        i = be32 n ++ utf16le path ++ be16 fill ++ r := by
  unfold MountMnt.decode
  constructor
  · intro h
    obtain ⟨r1, n, h1, h⟩ := bind_eq_ok.1 h
    obtain ⟨r2, us, h2, h⟩ := bind_eq_ok.1 h
    obtain ⟨r3, fill, h3, h⟩ := bind_eq_ok.1 h
    obtain ⟨r4, t, h4, h⟩ := bind_eq_ok.1 h
    injection h with e1 e2
    subst e1 e2
    rw [P.beU32_eq_ok] at h1
    rw [count_leU16_eq_ok] at h2
    rw [P.beU16_eq_ok] at h3
    rw [textOrErr_eq_ok] at h4
    obtain ⟨rfl, rfl⟩ := h4
    obtain ⟨h2, rfl⟩ := h2
    subst h1 h3
    exact ⟨t, n, fill, rfl, h2.symm, by simp only [List.append_assoc]; rfl⟩
  · rintro ⟨path, n, fill, rfl, h2, rfl⟩
    simp only [List.append_assoc]
    refine bind_eq_ok.2 ⟨_, n, P.beU32_eq_ok.2 rfl, ?_⟩
    refine bind_eq_ok.2 ⟨_, utf16 path, count_leU16_eq_ok.2 ⟨h2.symm, rfl⟩, ?_⟩
    refine bind_eq_ok.2 ⟨_, fill, P.beU16_eq_ok.2 rfl, ?_⟩
    exact bind_eq_ok.2 ⟨_, path, textOrErr_eq_ok.2 ⟨rfl, rfl⟩, rfl⟩

/-- A text whose length word is a 32-bit number. -/
theorem text_fits {n : UInt32} {s : Str} (h : n.toNat / 2 = (utf16 s).length) :
    (utf16le s).length < 4294967296 := by
  have := n.toNat_lt
  rw [length_utf16le]
  omega

theorem getport_means (a : PortmapGetport) (h : a.protocol = .udp) :
    Means (.pmapGetport a.program.num a.version a.port) .portmap (.portmapGetport a) ∧
      (a.program.num = 100000 ∨ a.program.num = 100003 ∨ a.program.num = 100005) := by
  obtain ⟨v, p, pr, pt⟩ := a
  simp only at h
  subst h
  cases p with
  | portmap => exact ⟨.getportPortmap v pt, .inl rfl⟩
  | nfs => exact ⟨.getportNfs v pt, .inr (.inl rfl)⟩
  | mount => exact ⟨.getportMount v pt, .inr (.inr rfl)⟩

/-- The procedure decoder, in terms of the specification. -/
theorem procedure_ok_iff (prog : RpcProgram) (n : UInt32) (args : Bytes) (q : RpcProcedure) :
    (∃ rest, RpcProcedure.decode prog n args = PRes.ok rest q) ↔
      ∃ p, Means p prog q ∧ n = p.num ∧ Carries p args := by
  constructor
  · rintro ⟨rest, h⟩
    cases prog with
    | portmap =>
      simp only [RpcProcedure.decode, decodePortmapProc] at h
      by_cases c0 : n = 0
      · rw [if_pos c0] at h; injection h with e1 e2; subst e2 c0
        exact ⟨_, .pmapNull, rfl, trivial⟩
      rw [if_neg c0] at h
      by_cases c1 : n = 1
      · rw [if_pos c1] at h; injection h with e1 e2; subst e2 c1
        exact ⟨_, .pmapSet, rfl, trivial⟩
      rw [if_neg c1] at h
      by_cases c2 : n = 2
      · rw [if_pos c2] at h; injection h with e1 e2; subst e2 c2
        exact ⟨_, .pmapUnset, rfl, trivial⟩
      rw [if_neg c2] at h
      by_cases c3 : n = 3
      · rw [if_pos c3] at h
        obtain ⟨a, ha, rfl⟩ := map_eq_ok.1 h
        rw [getport_ok_iff] at ha
        obtain ⟨m1, m2⟩ := getport_means a ha.1
        exact ⟨_, m1, c3, m2, rest, ha.2⟩
      rw [if_neg c3] at h
      by_cases c4 : n = 4
      · rw [if_pos c4] at h; injection h with e1 e2; subst e2 c4
        exact ⟨_, .pmapDump, rfl, trivial⟩
      rw [if_neg c4] at h
      by_cases c5 : n = 5
      · rw [if_pos c5] at h; injection h with e1 e2; subst e2 c5
        exact ⟨_, .pmapCallit, rfl, trivial⟩
      rw [if_neg c5] at h
      exact nomatch h
    | nfs =>
      simp only [RpcProcedure.decode, decodeNfsProc] at h
      by_cases c1 : n = 1
      · rw [if_pos c1] at h
        obtain ⟨a, ha, rfl⟩ := map_eq_ok.1 h
        unfold NfsGetAttr.decode at ha
        obtain ⟨r1, fh, h1, h2⟩ := bind_eq_ok.1 ha
        injection h2 with e1 e2
        subst e1 e2
        rw [fileHandle_eq_ok] at h1
        exact ⟨_, .getattr fh.data h1.1, c1, h1.1, _, h1.2⟩
      rw [if_neg c1] at h
      by_cases c4 : n = 4
      · rw [if_pos c4] at h
        obtain ⟨a, ha, rfl⟩ := map_eq_ok.1 h
        rw [lookup_ok_iff] at ha
        obtain ⟨h1, k, h2, h3⟩ := ha
        exact ⟨_, .lookup a.fhandle.data a.filename h1 (text_fits h2), c4, h1, k, rest, h3, h2⟩
      rw [if_neg c4] at h
      by_cases c6 : n = 6
      · rw [if_pos c6] at h
        obtain ⟨a, ha, rfl⟩ := map_eq_ok.1 h
        rw [read_ok_iff] at ha
        exact ⟨_, .read a.fhandle.data a.offset a.count a.totalCount ha.1, c6, ha.1, rest, ha.2⟩
      rw [if_neg c6] at h
      exact nomatch h
    | mount =>
      simp only [RpcProcedure.decode, decodeMountProc] at h
      by_cases c5 : n = 5
      · rw [if_pos c5] at h; injection h with e1 e2; subst e2 c5
        exact ⟨_, .exportList, rfl, trivial⟩
      rw [if_neg c5] at h
      by_cases c1 : n = 1
      · rw [if_pos c1] at h
        obtain ⟨a, ha, rfl⟩ := map_eq_ok.1 h
        rw [mnt_ok_iff] at ha
        obtain ⟨path, k, fill, rfl, h2, h3⟩ := ha
        refine ⟨_, .mnt path (text_fits h2), c1, k, be16 fill ++ rest, ?_, h2, ?_⟩
        · rw [h3]; simp only [List.append_assoc]
        · simp
      rw [if_neg c1] at h
      exact nomatch h
  · rintro ⟨p, hm, rfl, hc⟩
    cases hm with
    | pmapNull => exact ⟨_, rfl⟩
    | pmapSet => exact ⟨_, rfl⟩
    | pmapUnset => exact ⟨_, rfl⟩
    | pmapDump => exact ⟨_, rfl⟩
    | pmapCallit => exact ⟨_, rfl⟩
    | exportList => exact ⟨_, rfl⟩
    | getportPortmap v p =>
      obtain ⟨_, rest, rfl⟩ := hc
      exact ⟨rest, decode_getport .portmap v p rest⟩
    | getportNfs v p =>
      obtain ⟨_, rest, rfl⟩ := hc
      exact ⟨rest, decode_getport .nfs v p rest⟩
    | getportMount v p =>
      obtain ⟨_, rest, rfl⟩ := hc
      exact ⟨rest, decode_getport .mount v p rest⟩
    | getattr fh h =>
      obtain ⟨_, rest, rfl⟩ := hc
      refine ⟨rest, map_eq_ok.2 ⟨⟨⟨fh⟩⟩, ?_, rfl⟩⟩
      exact bind_eq_ok.2 ⟨rest, ⟨fh⟩, fileHandle_eq_ok.2 ⟨h, rfl⟩, rfl⟩
    | lookup fh name h hn =>
      obtain ⟨_, n, rest, rfl, h2⟩ := hc
      exact ⟨rest, map_eq_ok.2 ⟨⟨name, ⟨fh⟩⟩, lookup_ok_iff.2 ⟨h, n, h2, rfl⟩, rfl⟩⟩
    | read fh o c t h =>
      obtain ⟨_, rest, rfl⟩ := hc
      exact ⟨rest, map_eq_ok.2 ⟨⟨⟨fh⟩, o, c, t⟩, read_ok_iff.2 ⟨h, rfl⟩, rfl⟩⟩
    | mnt path hp =>
      obtain ⟨n, rest, rfl, h2, h3⟩ := hc
      match rest, h3 with
      | a :: b :: rest, _ =>
        refine ⟨rest, map_eq_ok.2 ⟨⟨[path]⟩, mnt_ok_iff.2 ⟨path, n, ofBe16 a b, rfl, h2, ?_⟩, rfl⟩⟩
        simp [be16_ofBe16]

/-! ### The header -/

theorem wordAt_zero (w : UInt32) (r : Bytes) : wordAt 0 (be32 w ++ r) = w.toNat := by
  unfold wordAt
  rw [List.drop_zero, List.take_left' (by simp)]
  exact (((C74_u32 w _).1).1 rfl).2

theorem wordAt_succ (i : Nat) (w : UInt32) (r : Bytes) :
    wordAt (i + 4) (be32 w ++ r) = wordAt i r := by
  unfold wordAt
  rw [Nat.add_comm, ← List.drop_drop, List.drop_left' (by simp)]

theorem drop_word (i : Nat) (w : UInt32) (r : Bytes) : (be32 w ++ r).drop (i + 4) = r.drop i := by
  rw [Nat.add_comm, ← List.drop_drop, List.drop_left' (by simp)]

theorem word_split (d : Bytes) (i : Nat) (h : i + 4 ≤ d.length) :
    ∃ w, d.drop i = be32 w ++ d.drop (i + 4) ∧ wordAt i d = w.toNat := by
  have hl : ((d.drop i).take 4).length = 4 := by simp; omega
  obtain ⟨a, b, c, e, he⟩ : ∃ a b c e, (d.drop i).take 4 = [a, b, c, e] := by
    match h' : (d.drop i).take 4, hl with
    | [a, b, c, e], _ => exact ⟨a, b, c, e, rfl⟩
  refine ⟨ofBe32 a b c e, ?_, ?_⟩
  · rw [be32_ofBe32, ← he, ← List.drop_drop, List.take_append_drop]
  · unfold wordAt
    rw [he]
    exact (C74_u32 0 []).2 a b c e

theorem means_num {p : Proc} {prog : RpcProgram} {q : RpcProcedure} (h : Means p prog q) :
    prog.num = p.prog := by cases h <;> rfl

theorem carries_means {p : Proc} {a : Bytes} (h : Carries p a) : ∃ prog q, Means p prog q := by
  cases p with
  | pmapNull => exact ⟨_, _, .pmapNull⟩
  | pmapSet => exact ⟨_, _, .pmapSet⟩
  | pmapUnset => exact ⟨_, _, .pmapUnset⟩
  | pmapDump => exact ⟨_, _, .pmapDump⟩
  | pmapCallit => exact ⟨_, _, .pmapCallit⟩
  | mntExport => exact ⟨_, _, .exportList⟩
  | pmapGetport prog v pt =>
    rcases h.1 with rfl | rfl | rfl
    · exact ⟨_, _, .getportPortmap v pt⟩
    · exact ⟨_, _, .getportNfs v pt⟩
    · exact ⟨_, _, .getportMount v pt⟩
  | nfsGetattr fh => exact ⟨_, _, .getattr fh h.1⟩
  | nfsLookup fh name =>
    obtain ⟨h1, n, rest, _, h2⟩ := h
    exact ⟨_, _, .lookup fh name h1 (text_fits h2)⟩
  | nfsRead fh o c t => exact ⟨_, _, .read fh o c t h.1⟩
  | mntMnt path =>
    obtain ⟨n, rest, _, h2, _⟩ := h
    exact ⟨_, _, .mnt path (text_fits h2)⟩

/-- The words of a call, decoded. -/
theorem decode_words (w0 w2 w4 w5 c0 c1 c2 c3 c4 c5 c6 a n : UInt32) (prog : RpcProgram)
    (ha : a.toNat ≤ 1) (args rest : Bytes) (q : RpcProcedure)
    (h : RpcProcedure.decode prog w5 args = PRes.ok rest q) :
    RpcRequest.decode (be32 w0 ++ (be32 0 ++ (be32 w2 ++ (be32 prog.num ++ (be32 w4 ++ (be32 w5 ++
      (be32 c0 ++ (be32 c1 ++ (be32 c2 ++ (be32 c3 ++ (be32 c4 ++ (be32 c5 ++ (be32 c6 ++
      (be32 a ++ (be32 n ++ args))))))))))))))) =
      PRes.ok rest ⟨w0, ⟨w2, prog, w4, q, ⟨c0, c1, c2, c3, c4, c5, c6⟩,
        if a = 0 then .null else .unix⟩⟩ := by
  unfold RpcRequest.decode decodeMessageType
  rw [beU32_bind]
  refine bind_eq_ok.2 ⟨rest, ⟨w2, prog, w4, q, ⟨c0, c1, c2, c3, c4, c5, c6⟩,
        if a = 0 then .null else .unix⟩, ?_, rfl⟩
  rw [beU32_bind, if_pos rfl]
  unfold RpcCall.decode
  rw [beU32_bind, program_bind, beU32_bind, credentials_bind]
  refine bind_eq_ok.2 ⟨args, if a = 0 then .null else .unix, ?_, ?_⟩
  · unfold RpcAuth.decode
    rw [beU32_bind, beU32_bind]
    by_cases h0 : a = 0
    · rw [if_pos h0, if_pos h0]; rfl
    · have h1 : a = 1 := by
        apply UInt32.toNat.inj
        have : a.toNat ≠ 0 := fun e => h0 (UInt32.toNat.inj e)
        show a.toNat = 1
        omega
      rw [if_neg h0, if_pos h1, if_neg h0]; rfl
  · exact bind_eq_ok.2 ⟨rest, q, h, rfl⟩

/-- C81: a datagram is decoded as a call with that transaction id and the arguments of that procedure
exactly if it is one by byte offsets. -/
theorem C81_call_iff (d : Bytes) (xid : UInt32) (p : Proc) :
    IsCall d xid p ↔ ∃ q, rpcFrame d = .request q ∧ q.xid = xid ∧
      Means p q.call.program q.call.procedure := by
  constructor
  · intro h
    obtain ⟨prog, q, hm⟩ := carries_means h.args
    obtain ⟨rest, hr⟩ := (procedure_ok_iff prog p.num (d.drop 60) q).2 ⟨p, hm, rfl, h.args⟩
    have hl := h.header
    obtain ⟨w0, e0, k0⟩ := word_split d 0 (by omega)
    obtain ⟨w1, e1, k1⟩ := word_split d 4 (by omega)
    obtain ⟨w2, e2, k2⟩ := word_split d 8 (by omega)
    obtain ⟨w3, e3, k3⟩ := word_split d 12 (by omega)
    obtain ⟨w4, e4, k4⟩ := word_split d 16 (by omega)
    obtain ⟨w5, e5, k5⟩ := word_split d 20 (by omega)
    obtain ⟨c0, e6, _⟩ := word_split d 24 (by omega)
    obtain ⟨c1, e7, _⟩ := word_split d 28 (by omega)
    obtain ⟨c2, e8, _⟩ := word_split d 32 (by omega)
    obtain ⟨c3, e9, _⟩ := word_split d 36 (by omega)
    obtain ⟨c4, e10, _⟩ := word_split d 40 (by omega)
    obtain ⟨c5, e11, _⟩ := word_split d 44 (by omega)
    obtain ⟨c6, e12, _⟩ := word_split d 48 (by omega)
    obtain ⟨a, e13, k13⟩ := word_split d 52 (by omega)
    obtain ⟨n, e14, _⟩ := word_split d 56 (by omega)
    have f0 : w0 = xid := UInt32.toNat.inj (k0.symm.trans h.xid_)
    have f1 : w1 = 0 := UInt32.toNat.inj (k1.symm.trans h.call)
    have f3 : w3 = prog.num := UInt32.toNat.inj (by rw [means_num hm]; exact k3.symm.trans h.prog)
    have f5 : w5 = p.num := UInt32.toNat.inj (k5.symm.trans h.proc)
    have ha : a.toNat ≤ 1 := k13 ▸ h.verifier
    have hd : d = be32 xid ++ (be32 0 ++ (be32 w2 ++ (be32 prog.num ++ (be32 w4 ++ (be32 p.num ++
        (be32 c0 ++ (be32 c1 ++ (be32 c2 ++ (be32 c3 ++ (be32 c4 ++ (be32 c5 ++ (be32 c6 ++
        (be32 a ++ (be32 n ++ d.drop 60)))))))))))))) := by
      rw [← f0, ← f1, ← f3, ← f5, ← e14, ← e13, ← e12, ← e11, ← e10, ← e9, ← e8, ← e7, ← e6, ← e5,
        ← e4, ← e3, ← e2, ← e1, ← e0, List.drop_zero]
    have hdec := decode_words xid w2 w4 p.num c0 c1 c2 c3 c4 c5 c6 a n prog ha (d.drop 60) rest q hr
    rw [← hd] at hdec
    refine ⟨⟨xid, ⟨w2, prog, w4, q, ⟨c0, c1, c2, c3, c4, c5, c6⟩,
      if a = 0 then .null else .unix⟩⟩, ?_, rfl, hm⟩
    unfold rpcFrame
    rw [if_pos (by omega), hdec]
  · rintro ⟨q, hq, rfl, hm⟩
    obtain ⟨r, hr⟩ := frame_request hq
    obtain ⟨n, v, args, rfl, hv, hp⟩ := request_eq_ok hr
    obtain ⟨p', hm', hn, hc⟩ := (procedure_ok_iff _ _ _ _).1 ⟨r, hp⟩
    have : p = p' := by
      clear hn hc hp hv hr hq
      generalize q.call.program = a at *
      generalize q.call.procedure = b at *
      cases hm <;> cases hm' <;> rfl
    subst this
    refine ⟨by simp; omega, ?_, ?_, ?_, ?_, ?_, ?_⟩
    · rw [wordAt_zero]
    · rw [show (4 : Nat) = 0 + 4 from rfl, wordAt_succ, wordAt_zero]
      rfl
    · rw [show (12 : Nat) = 0 + 4 + 4 + 4 from rfl, wordAt_succ, wordAt_succ, wordAt_succ,
        wordAt_zero, means_num hm]
    · rw [show (20 : Nat) = 0 + 4 + 4 + 4 + 4 + 4 from rfl, wordAt_succ, wordAt_succ, wordAt_succ,
        wordAt_succ, wordAt_succ, wordAt_zero, hn]
    · rw [show (52 : Nat) = 0 + 4 + 4 + 4 + 4 + 4 + 4 + 4 + 4 + 4 + 4 + 4 + 4 + 4 from rfl]
      iterate 13 rw [wordAt_succ]
      rw [wordAt_zero]
      split <;> decide
    · have : (be32 q.xid ++ (be32 0 ++ (be32 q.call.version ++
      (be32 q.call.program.num ++ (be32 q.call.programVersion ++ (be32 n ++
      (be32 q.call.credentials.flavor ++ (be32 q.call.credentials.length ++
      (be32 q.call.credentials.stamp ++ (be32 q.call.credentials.machineName ++
      (be32 q.call.credentials.uid ++ (be32 q.call.credentials.gid ++
      (be32 q.call.credentials.auxGid ++ (be32 (if q.call.verifier = .null then 0 else 1) ++
      (be32 v ++ args))))))))))))))).drop 60 = args := by
        rw [show (60 : Nat) = 0+4+4+4+4+4+4+4+4+4+4+4+4+4+4+4 from rfl]
        iterate 15 rw [drop_word]
        rfl
      rw [this]
      exact hc

/-- C81: the transaction id and the procedure of a call are determined by the datagram. -/
theorem C81_call_unique (d : Bytes) (xid xid' : UInt32) (p p' : Proc) (h : IsCall d xid p)
    (h' : IsCall d xid' p') : xid = xid' ∧ p = p' := by
  obtain ⟨q, hq, rfl, hm⟩ := (C81_call_iff d xid p).1 h
  obtain ⟨q', hq', rfl, hm'⟩ := (C81_call_iff d xid' p').1 h'
  rw [hq] at hq'
  injection hq' with e
  subst e
  refine ⟨rfl, ?_⟩
  generalize q.call.program = a at *
  generalize q.call.procedure = b at *
  cases hm <;> cases hm' <;> rfl

/-- Every decoded request is a call by byte offsets. -/
theorem request_isCall {d : Bytes} {q : RpcRequest} (h : rpcFrame d = .request q) :
    ∃ p, IsCall d q.xid p ∧ Means p q.call.program q.call.procedure := by
  obtain ⟨r, hr⟩ := frame_request h
  obtain ⟨n, v, args, _, _, hp⟩ := request_eq_ok hr
  obtain ⟨p, hm, _, _⟩ := (procedure_ok_iff _ _ _ _).1 ⟨r, hp⟩
  exact ⟨p, (C81_call_iff d q.xid p).2 ⟨q, h, rfl, hm⟩, hm⟩

/-- C81: the other fields of a decoded call are the words at their offsets. -/
theorem C81_call_fields (d : Bytes) (q : RpcRequest) (h : rpcFrame d = .request q) :
    q.call.version.toNat = wordAt 8 d ∧ q.call.programVersion.toNat = wordAt 16 d ∧
      q.call.credentials.flavor.toNat = wordAt 24 d ∧ q.call.credentials.length.toNat = wordAt 28 d ∧
      q.call.credentials.stamp.toNat = wordAt 32 d ∧
      q.call.credentials.machineName.toNat = wordAt 36 d ∧
      q.call.credentials.uid.toNat = wordAt 40 d ∧ q.call.credentials.gid.toNat = wordAt 44 d ∧
      q.call.credentials.auxGid.toNat = wordAt 48 d ∧
      q.call.verifier = if wordAt 52 d = 0 then .null else .unix := by
  obtain ⟨r, hr⟩ := frame_request h
  obtain ⟨n, v, args, rfl, hv, _⟩ := request_eq_ok hr
  clear hr h
  rw [show (52 : Nat) = 0+4+4+4+4+4+4+4+4+4+4+4+4+4 from rfl,
    show (48 : Nat) = 0+4+4+4+4+4+4+4+4+4+4+4+4 from rfl,
    show (44 : Nat) = 0+4+4+4+4+4+4+4+4+4+4+4 from rfl,
    show (40 : Nat) = 0+4+4+4+4+4+4+4+4+4+4 from rfl,
    show (36 : Nat) = 0+4+4+4+4+4+4+4+4+4 from rfl,
    show (32 : Nat) = 0+4+4+4+4+4+4+4+4 from rfl,
    show (28 : Nat) = 0+4+4+4+4+4+4+4 from rfl,
    show (24 : Nat) = 0+4+4+4+4+4+4 from rfl,
    show (16 : Nat) = 0+4+4+4+4 from rfl,
    show (8 : Nat) = 0+4+4 from rfl]
  simp only [wordAt_succ, wordAt_zero, true_and]
  rcases hv with hv | hv <;> rw [hv] <;> rfl

/-- C81: every datagram is empty, a call, a reply, or rejected. -/
theorem C81_rejected_iff (d : Bytes) :
    rpcFrame d = .invalid ↔ d ≠ [] ∧ ¬ IsReply d ∧ ∀ xid p, ¬ IsCall d xid p := by
  constructor
  · intro h
    refine ⟨?_, fun hr => ?_, fun xid p hc => ?_⟩
    · rintro rfl
      exact nomatch h
    · rw [(C29_panics_exactly_on_replies_partial d).2 hr] at h
      exact nomatch h
    · obtain ⟨q, hq, _⟩ := (C81_call_iff d xid p).1 hc
      rw [hq] at h
      exact nomatch h
  · rintro ⟨h0, h1, h2⟩
    cases h : rpcFrame d with
    | nothing =>
      unfold rpcFrame at h
      rw [if_pos (List.length_pos_iff.2 h0)] at h
      cases hd : RpcRequest.decode d <;> rw [hd] at h <;> exact nomatch h
    | request q =>
      obtain ⟨p, hp, _⟩ := request_isCall h
      exact absurd hp (h2 _ _)
    | invalid => rfl
    | panic => exact absurd ((C29_panics_exactly_on_replies_partial d).1 h) h1

/-- C26, exactly, for callers with any credentials of twenty bytes and an empty verifier: a call of an implemented
procedure, encoded per RFC 1057 and followed by any bytes, is understood as that call if the verifier is AUTH_NULL
or AUTH_UNIX and, for MNT, the path has an odd number of units or two more bytes follow; otherwise it is rejected. -/
theorem C26_understood_iff (xid rpcvers vers flavor vf : UInt32) (body : Bytes) (hb : body.length = 20) (p : Proc)
    (prog : RpcProgram) (q : RpcProcedure) (hm : Means p prog q) (extra : Bytes) :
    let d := rfcCall xid rpcvers p.prog vers p.num (opaqueAuth flavor body) (opaqueAuth vf []) (p.args ++ extra)
    let good := (vf = 0 ∨ vf = 1) ∧
      ∀ path, p = .mntMnt path → (utf16 path).length % 2 = 1 ∨ 2 ≤ extra.length
    (good → ∃ cred verf, rpcFrame d = .request ⟨xid, ⟨rpcvers, prog, vers, q, cred, verf⟩⟩) ∧
    (¬ good → rpcFrame d = .invalid) := by
  obtain ⟨c2, e2, _⟩ := word_split body 0 (by omega)
  obtain ⟨c3, e3, _⟩ := word_split body 4 (by omega)
  obtain ⟨c4, e4, _⟩ := word_split body 8 (by omega)
  obtain ⟨c5, e5, _⟩ := word_split body 12 (by omega)
  obtain ⟨c6, e6, _⟩ := word_split body 16 (by omega)
  have hbody : body = be32 c2 ++ (be32 c3 ++ (be32 c4 ++ (be32 c5 ++ be32 c6))) := by
    rw [List.drop_zero] at e2
    rw [List.drop_of_length_le (by omega : body.length ≤ 16 + 4), List.append_nil] at e6
    rw [← e6, ← e5, ← e4, ← e3, ← e2]
  have hd : rfcCall xid rpcvers p.prog vers p.num (opaqueAuth flavor body) (opaqueAuth vf []) (p.args ++ extra) =
      be32 xid ++ (be32 0 ++ (be32 rpcvers ++ (be32 prog.num ++ (be32 vers ++ (be32 p.num ++
      (be32 flavor ++ (be32 20 ++ (be32 c2 ++ (be32 c3 ++ (be32 c4 ++ (be32 c5 ++ (be32 c6 ++
      (be32 vf ++ (be32 0 ++ (p.args ++ extra))))))))))))))) := by
    have h20 : xdrOpaque body = be32 20 ++ body := by
      simp [xdrOpaque, xdrPad, hb]
    have h0 : xdrOpaque [] = be32 0 := rfl
    rw [means_num hm]
    unfold rfcCall opaqueAuth
    rw [h20, h0, hbody]
    simp only [List.append_assoc]
  intro d good
  rw [show d = _ from hd]
  have hlen : 60 ≤ (be32 xid ++ (be32 0 ++ (be32 rpcvers ++ (be32 prog.num ++ (be32 vers ++ (be32 p.num ++
      (be32 flavor ++ (be32 20 ++ (be32 c2 ++ (be32 c3 ++ (be32 c4 ++ (be32 c5 ++ (be32 c6 ++
      (be32 vf ++ (be32 0 ++ (p.args ++ extra)))))))))))))))).length := by
    simp only [List.length_append, length_be32]
    omega
  refine ⟨?_, ?_⟩
  · rintro ⟨hv, hmnt⟩
    obtain ⟨rest, h⟩ := decode_args hm extra hmnt
    refine ⟨⟨flavor, 20, c2, c3, c4, c5, c6⟩, if vf = 0 then .null else .unix, ?_⟩
    · unfold rpcFrame
      rw [if_pos (by omega), decode_words _ _ _ _ _ _ _ _ _ _ _ _ _ prog (by rcases hv with rfl | rfl <;> decide)
        _ _ _ h]
  · intro hg
    rw [C81_rejected_iff]
    refine ⟨fun h => by rw [h] at hlen; exact absurd hlen (by simp), ?_, ?_⟩
    · rintro ⟨_, hw⟩
      have e : ∀ r : Bytes, getWord (be32 0 ++ r) = some (0, r) := fun _ => rfl
      rw [drop_word 0, List.drop_zero, e, Option.some.injEq, Prod.mk.injEq] at hw
      exact absurd hw.1 (by decide)
    · intro xid' p' hc
      have hvf : vf = 0 ∨ vf = 1 := by
        have := hc.verifier
        rw [show (52 : Nat) = 0+4+4+4+4+4+4+4+4+4+4+4+4+4 from rfl] at this
        simp only [wordAt_succ, wordAt_zero] at this
        have : vf.toNat = 0 ∨ vf.toNat = 1 := by omega
        rcases this with h | h
        · exact .inl (UInt32.toNat.inj h)
        · exact .inr (UInt32.toNat.inj h)
      have hmn : ∃ path, p = .mntMnt path ∧ (utf16 path).length % 2 = 0 ∧ extra.length < 2 := by
        refine Classical.byContradiction fun hn => hg ⟨hvf, fun path hp => ?_⟩
        refine Classical.byContradiction fun ho => hn ⟨path, hp, ?_⟩
        omega
      obtain ⟨path, rfl, he, hx⟩ := hmn
      have h1 := hc.prog
      have h2 := hc.proc
      have h3 := hc.args
      rw [show (12 : Nat) = 0+4+4+4 from rfl] at h1
      rw [show (20 : Nat) = 0+4+4+4+4+4 from rfl] at h2
      rw [show (60 : Nat) = 0+4+4+4+4+4+4+4+4+4+4+4+4+4+4+4 from rfl] at h3
      simp only [wordAt_succ, wordAt_zero] at h1 h2
      simp only [drop_word, List.drop_zero] at h3
      cases hm with
      | mnt _ hpl =>
      have hp' : ∃ path', p' = .mntMnt path' := by
        cases p' with
        | mntMnt path' => exact ⟨path', rfl⟩
        | _ => exfalso; revert h1 h2; simp [RpcProgram.num, Proc.prog, Proc.num]
      obtain ⟨path', rfl⟩ := hp'
      obtain ⟨n, rest, e, hn, hr⟩ := h3
      simp only [Proc.args, xdrOpaque, List.append_assoc] at e
      have e' := List.append_inj e (by simp)
      have hnn : n = UInt32.ofNat (utf16le path).length := by
        have := congrArg (wordAt 0) e
        rw [wordAt_zero, wordAt_zero] at this
        exact (UInt32.toNat.inj this).symm
      have hl := congrArg List.length e'.2
      rw [length_utf16le] at hpl hnn
      simp only [List.length_append, length_utf16le, xdrPad, List.length_replicate] at hl
      rw [hnn, UInt32.toNat_ofNat', Nat.mod_eq_of_lt hpl] at hn
      omega

/-- C26, non-vacuity: a MNT call of a path of two units with other credentials, once with nothing behind it and
once with two bytes. -/
example (xid : UInt32) := And.intro
  (C26_understood_iff xid 2 1 6 1 (List.replicate 20 9) rfl (.mntMnt ['/', 'C']) .mount _ (.mnt _ (by decide)) [])
  (C26_understood_iff xid 2 1 6 1 (List.replicate 20 9) rfl (.mntMnt ['/', 'C']) .mount _ (.mnt _ (by decide)) [0, 0])

/-- C81, non-vacuity: an EXPORT call with credentials of another shape and a strange version. -/
example : IsCall (be32 77 ++ be32 0 ++ be32 9 ++ be32 100005 ++ be32 1 ++ be32 5 ++
    List.replicate 28 255 ++ be32 1 ++ be32 12345) 77 .mntExport :=
  ⟨by decide, by decide, by decide, by decide, by decide, by decide, trivial⟩

/-! ### Reading `Means` in both directions -/

theorem Means.of_export {prog : RpcProgram} {q : RpcProcedure} (h : Means .mntExport prog q) :
    q = .mountExport := by cases h; rfl

theorem Means.of_mnt {path : Str} {prog : RpcProgram} {q : RpcProcedure}
    (h : Means (.mntMnt path) prog q) : q = .mountMnt ⟨[path]⟩ := by cases h; rfl

theorem Means.of_getport {a v t : UInt32} {prog : RpcProgram} {q : RpcProcedure}
    (h : Means (.pmapGetport a v t) prog q) : ∃ b, q = .portmapGetport b := by
  cases h <;> exact ⟨_, rfl⟩

theorem Means.to_export {p : Proc} {prog : RpcProgram} (h : Means p prog .mountExport) :
    p = .mntExport := by cases h; rfl

theorem Means.to_mnt {p : Proc} {prog : RpcProgram} {a : MountMnt}
    (h : Means p prog (.mountMnt a)) : ∃ path, p = .mntMnt path := by cases h; exact ⟨_, rfl⟩

theorem Means.to_getport {p : Proc} {prog : RpcProgram} {a : PortmapGetport}
    (h : Means p prog (.portmapGetport a)) : ∃ b v t, p = .pmapGetport b v t := by
  cases h <;> exact ⟨_, _, _, rfl⟩

/-! ### Instances of the C81 theorems -/

/-- An EXPORT call in the form the players use. -/
def exampleExportCall : Bytes :=
  rfcCall 77 2 100005 1 5 (opaqueAuth 1 (authUnixBody 9 [] 0 0 [])) (opaqueAuth 0 []) []

theorem exampleExportCall_isCall : IsCall exampleExportCall 77 .mntExport :=
  ⟨by decide, by decide, by decide, by decide, by decide, by decide, trivial⟩

/-- Nothing else can be read from those bytes. -/
example (xid : UInt32) (p : Proc) (h : IsCall exampleExportCall xid p) : xid = 77 ∧ p = .mntExport :=
  C81_call_unique _ _ _ _ _ h exampleExportCall_isCall

example (q : RpcRequest) (h : rpcFrame exampleExportCall = .request q) :=
  C81_call_fields exampleExportCall q h

example : ∃ q, rpcFrame exampleExportCall = .request q :=
  have ⟨q, hq, _⟩ := (C81_call_iff _ _ _).1 exampleExportCall_isCall
  ⟨q, hq⟩

end PDJ

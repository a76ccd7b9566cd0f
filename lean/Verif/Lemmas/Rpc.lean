import Verif.Model.Rpc
import Verif.Spec.Rpc
import Verif.Lemmas.Safe

/-!
# Lemmas about the RPC codec
-/

namespace PDJ

open Spec

theorem P.count_beU8 (n : Nat) : P.count P.beU8 n = P.take n := by
  funext i
  induction n generalizing i with
  | zero => simp [P.count, pure_def]
  | succ n ih =>
    cases i with
    | nil => simp [P.count, bind_def, P.beU8]
    | cons a r =>
      rw [P.count, P.take_succ_cons, bind_def]
      simp only [P.beU8_cons, PRes.andThen_ok, bind_def, ih]
      rfl

theorem P.count_leU16 (us : List UInt16) (r : Bytes) :
    P.count P.leU16 us.length (us.flatMap le16 ++ r) = PRes.ok r us := by
  induction us with
  | nil => rfl
  | cons u us ih =>
    simp only [List.length_cons, P.count, List.flatMap_cons, List.append_assoc]
    rw [bind_apply_ok _ (P.leU16_le16 u _), bind_apply_ok _ ih]
    rfl

theorem toNat_ofNat32 {n : Nat} (h : n < 4294967296) : (UInt32.ofNat n).toNat = n := by
  simp only [UInt32.toNat_ofNat']; omega

theorem count_text (s : Str) (r : Bytes) (h : (utf16le s).length < 4294967296) :
    P.count P.leU16 ((UInt32.ofNat (utf16le s).length).toNat / 2) (utf16le s ++ r) =
      PRes.ok r (utf16 s) := by
  rw [toNat_ofNat32 h, length_utf16le, Nat.mul_div_cancel_left _ (by decide)]
  exact P.count_leU16 _ _

theorem textOrErr_utf16 (s : Str) (r : Bytes) : textOrErr (utf16 s) r = PRes.ok r s := by
  unfold textOrErr
  rw [fromUtf16_utf16]
  rfl

/-! ### No panic but for the reply message -/

theorem Safe.auth : Safe RpcAuth.decode :=
  Safe.beU32.bind fun _ => Safe.beU32.bind fun _ =>
    Safe.ite (Safe.pure _) (Safe.ite (Safe.pure _) Safe.err)

theorem Safe.program : Safe RpcProgram.decode :=
  Safe.beU32.bind fun _ => Safe.beU32.bind fun _ =>
    Safe.ite (Safe.pure _) (Safe.ite (Safe.pure _) (Safe.ite (Safe.pure _) Safe.fail))

theorem Safe.protocol : Safe PortmapProtocol.decode :=
  Safe.beU32.bind fun _ => Safe.ite (Safe.pure _) Safe.err

theorem Safe.getport : Safe PortmapGetport.decode :=
  Safe.program.bind fun _ => Safe.protocol.bind fun _ => Safe.beU32.bind fun _ => Safe.pure _

theorem Safe.fileHandle : Safe FileHandle.decode :=
  (Safe.beU8.count 32).bind fun _ => Safe.pure _

theorem Safe.textOrErr (us : List UInt16) : Safe (textOrErr us) := by
  unfold PDJ.textOrErr
  split
  · exact Safe.pure _
  · exact Safe.err

theorem Safe.mnt : Safe MountMnt.decode :=
  Safe.beU32.bind fun _ => (Safe.leU16.count _).bind fun _ => Safe.beU16.bind fun _ =>
    (Safe.textOrErr _).bind fun _ => Safe.pure _

theorem Safe.lookup : Safe NfsLookup.decode :=
  Safe.fileHandle.bind fun _ => Safe.beU32.bind fun _ => (Safe.leU16.count _).bind fun _ =>
    (Safe.textOrErr _).bind fun _ => Safe.pure _

theorem Safe.getAttr : Safe NfsGetAttr.decode :=
  Safe.fileHandle.bind fun _ => Safe.pure _

theorem Safe.read : Safe NfsRead.decode :=
  Safe.fileHandle.bind fun _ => Safe.beU32.bind fun _ => Safe.beU32.bind fun _ =>
    Safe.beU32.bind fun _ => Safe.pure _

theorem Safe.procedure (pr : RpcProgram) (p : UInt32) : Safe (RpcProcedure.decode pr p) := by
  cases pr
  · exact Safe.ite (Safe.pure _) (Safe.ite (Safe.pure _) (Safe.ite (Safe.pure _)
      (Safe.ite (Safe.getport.map _) (Safe.ite (Safe.pure _) (Safe.ite (Safe.pure _) Safe.err)))))
  · exact Safe.ite (Safe.getAttr.map _) (Safe.ite (Safe.lookup.map _)
      (Safe.ite (Safe.read.map _) Safe.err))
  · exact Safe.ite (Safe.pure _) (Safe.ite (Safe.mnt.map _) Safe.err)

theorem Safe.credentials : Safe RpcCredentials.decode :=
  Safe.beU32.bind fun _ => Safe.beU32.bind fun _ => Safe.beU32.bind fun _ =>
    Safe.beU32.bind fun _ => Safe.beU32.bind fun _ => Safe.beU32.bind fun _ =>
    Safe.beU32.bind fun _ => Safe.pure _

theorem Safe.call : Safe RpcCall.decode :=
  Safe.beU32.bind fun _ => Safe.program.bind fun _ => Safe.beU32.bind fun _ =>
    Safe.credentials.bind fun _ => Safe.auth.bind fun _ => (Safe.procedure _ _).bind fun _ =>
    Safe.pure _

/-! ### Evaluation on encoded words -/

theorem beU32_bind {α : Type} (x : UInt32) (f : UInt32 → Parser α) (r : Bytes) :
    (P.beU32 >>= f) (be32 x ++ r) = f x r := bind_apply_ok f (P.beU32_be32 x r)

theorem auth_null_bind {α : Type} (f : RpcAuth → Parser α) (n : UInt32) (r : Bytes) :
    (RpcAuth.decode >>= f) (be32 0 ++ (be32 n ++ r)) = f .null r := by
  apply bind_apply_ok
  unfold RpcAuth.decode
  rw [beU32_bind, beU32_bind]
  rfl

theorem credentials_bind {α : Type} (f : RpcCredentials → Parser α)
    (a b c d e g h : UInt32) (r : Bytes) :
    (RpcCredentials.decode >>= f) (be32 a ++ (be32 b ++ (be32 c ++ (be32 d ++ (be32 e ++
      (be32 g ++ (be32 h ++ r))))))) = f ⟨a, b, c, d, e, g, h⟩ r := by
  apply bind_apply_ok
  unfold RpcCredentials.decode
  simp only [beU32_bind]
  rfl

/-- RFC program number of a program. -/
def RpcProgram.num : RpcProgram → UInt32
  | .portmap => 100000
  | .nfs => 100003
  | .mount => 100005

theorem program_bind {α : Type} (f : RpcProgram × UInt32 → Parser α) (p : RpcProgram) (v : UInt32)
    (r : Bytes) :
    (RpcProgram.decode >>= f) (be32 p.num ++ (be32 v ++ r)) = f (p, v) r := by
  apply bind_apply_ok
  unfold RpcProgram.decode
  rw [beU32_bind, beU32_bind]
  cases p <;> rfl

theorem program_unknown_bind {α : Type} (f : RpcProgram × UInt32 → Parser α) (p v : UInt32)
    (r : Bytes) (h : ∀ q : RpcProgram, p ≠ q.num) :
    (RpcProgram.decode >>= f) (be32 p ++ (be32 v ++ r)) = PRes.fail := by
  have e : RpcProgram.decode (be32 p ++ (be32 v ++ r)) = PRes.fail := by
    unfold RpcProgram.decode
    rw [beU32_bind, beU32_bind]
    have h1 : p ≠ 100000 := h .portmap
    have h2 : p ≠ 100003 := h .nfs
    have h3 : p ≠ 100005 := h .mount
    rw [if_neg h1, if_neg h2, if_neg h3]
    rfl
  rw [bind_def, e]
  rfl

theorem fileHandle_bind {α : Type} (f : FileHandle → Parser α) (fh r : Bytes)
    (h : fh.length = 32) : (FileHandle.decode >>= f) (fh ++ r) = f ⟨fh⟩ r := by
  apply bind_apply_ok
  unfold FileHandle.decode
  rw [P.count_beU8]
  exact bind_apply_ok _ (P.take_append h)

/-- A call message with seven credential words and an AUTH_NULL verifier. -/
theorem decode_call_words (xid version vers procNum a b c d e g h n : UInt32) (p : RpcProgram)
    (args : Bytes) :
    RpcRequest.decode (be32 xid ++ (be32 0 ++ (be32 version ++ (be32 p.num ++ (be32 vers ++
      (be32 procNum ++ (be32 a ++ (be32 b ++ (be32 c ++ (be32 d ++ (be32 e ++ (be32 g ++ (be32 h ++
      (be32 0 ++ (be32 n ++ args))))))))))))))) =
    (RpcProcedure.decode p procNum args).andThen fun rest q =>
      PRes.ok rest ⟨xid, ⟨version, p, vers, q, ⟨a, b, c, d, e, g, h⟩, .null⟩⟩ := by
  unfold RpcRequest.decode decodeMessageType
  rw [beU32_bind, bind_def, beU32_bind]
  rw [if_pos rfl]
  unfold RpcCall.decode
  rw [beU32_bind, program_bind, beU32_bind, credentials_bind, auth_null_bind, bind_def]
  cases RpcProcedure.decode p procNum args <;> rfl

/-! ### Inversion -/

theorem bind_eq_ok {α β : Type} {p : Parser α} {f : α → Parser β} {i r : Bytes} {b : β} :
    (p >>= f) i = PRes.ok r b ↔ ∃ r' a, p i = PRes.ok r' a ∧ f a r' = PRes.ok r b := by
  rw [bind_def, PRes.andThen_eq_ok]

theorem program_eq_ok {i r : Bytes} {pv : RpcProgram × UInt32}
    (h : RpcProgram.decode i = PRes.ok r pv) : i = be32 pv.1.num ++ (be32 pv.2 ++ r) := by
  unfold RpcProgram.decode at h
  obtain ⟨r1, w, h1, h'⟩ := bind_eq_ok.1 h
  obtain ⟨r2, v, h2, h''⟩ := bind_eq_ok.1 h'
  clear h h'
  have h := h''; clear h''
  rw [P.beU32_eq_ok] at h1 h2
  subst h1 h2
  by_cases c1 : w = 100000
  · rw [if_pos c1] at h
    injection h with e1 e2
    subst c1 e1 e2; rfl
  · rw [if_neg c1] at h
    by_cases c2 : w = 100003
    · rw [if_pos c2] at h
      injection h with e1 e2
      subst c2 e1 e2; rfl
    · rw [if_neg c2] at h
      by_cases c3 : w = 100005
      · rw [if_pos c3] at h
        injection h with e1 e2
        subst c3 e1 e2; rfl
      · rw [if_neg c3] at h
        exact nomatch h

theorem credentials_eq_ok {i r : Bytes} {c : RpcCredentials}
    (h : RpcCredentials.decode i = PRes.ok r c) :
    i = be32 c.flavor ++ (be32 c.length ++ (be32 c.stamp ++ (be32 c.machineName ++ (be32 c.uid ++
      (be32 c.gid ++ (be32 c.auxGid ++ r)))))) := by
  unfold RpcCredentials.decode at h
  obtain ⟨r1, w1, h1, g1⟩ := bind_eq_ok.1 h
  obtain ⟨r2, w2, h2, g2⟩ := bind_eq_ok.1 g1
  obtain ⟨r3, w3, h3, g3⟩ := bind_eq_ok.1 g2
  obtain ⟨r4, w4, h4, g4⟩ := bind_eq_ok.1 g3
  obtain ⟨r5, w5, h5, g5⟩ := bind_eq_ok.1 g4
  obtain ⟨r6, w6, h6, g6⟩ := bind_eq_ok.1 g5
  obtain ⟨r7, w7, h7, g7⟩ := bind_eq_ok.1 g6
  clear h g1 g2 g3 g4 g5 g6
  have h := g7; clear g7
  rw [P.beU32_eq_ok] at h1 h2 h3 h4 h5 h6 h7
  subst h1 h2 h3 h4 h5 h6 h7
  injection h with e1 e2
  subst e1 e2; rfl

theorem auth_eq_ok {i r : Bytes} {a : RpcAuth} (h : RpcAuth.decode i = PRes.ok r a) :
    ∃ n, i = be32 (if a = .null then 0 else 1) ++ (be32 n ++ r) ∧ (a = .null ∨ a = .unix) := by
  unfold RpcAuth.decode at h
  obtain ⟨r1, w, h1, h'⟩ := bind_eq_ok.1 h
  obtain ⟨r2, n, h2, h''⟩ := bind_eq_ok.1 h'
  clear h h'
  have h := h''; clear h''
  rw [P.beU32_eq_ok] at h1 h2
  subst h1 h2
  by_cases c1 : w = 0
  · rw [if_pos c1] at h
    injection h with e1 e2
    subst c1 e1 e2; exact ⟨n, rfl, Or.inl rfl⟩
  · rw [if_neg c1] at h
    by_cases c2 : w = 1
    · rw [if_pos c2] at h
      injection h with e1 e2
      subst c2 e1 e2; exact ⟨n, rfl, Or.inr rfl⟩
    · rw [if_neg c2] at h
      exact nomatch h

/-- A decoded request, word by word. -/
theorem request_eq_ok {i r : Bytes} {q : RpcRequest} (h : RpcRequest.decode i = PRes.ok r q) :
    ∃ (n v : UInt32) (args : Bytes), i = be32 q.xid ++ (be32 0 ++ (be32 q.call.version ++
      (be32 q.call.program.num ++ (be32 q.call.programVersion ++ (be32 n ++
      (be32 q.call.credentials.flavor ++ (be32 q.call.credentials.length ++
      (be32 q.call.credentials.stamp ++ (be32 q.call.credentials.machineName ++
      (be32 q.call.credentials.uid ++ (be32 q.call.credentials.gid ++
      (be32 q.call.credentials.auxGid ++ (be32 (if q.call.verifier = .null then 0 else 1) ++
      (be32 v ++ args)))))))))))))) ∧
      (q.call.verifier = .null ∨ q.call.verifier = .unix) ∧
      RpcProcedure.decode q.call.program n args = PRes.ok r q.call.procedure := by
  unfold RpcRequest.decode at h
  obtain ⟨r1, xid, h1, h'⟩ := bind_eq_ok.1 h
  obtain ⟨r2, call, h2', h''⟩ := bind_eq_ok.1 h'
  clear h h'
  injection h'' with e1 e2
  subst e1 e2
  unfold decodeMessageType at h2'
  obtain ⟨r3, t, h3, h2⟩ := bind_eq_ok.1 h2'
  clear h2'
  rw [P.beU32_eq_ok] at h1 h3
  subst h1 h3
  by_cases c1 : t = 0
  · rw [if_pos c1] at h2
    unfold RpcCall.decode at h2
    obtain ⟨i1, version, k1, g1⟩ := bind_eq_ok.1 h2
    obtain ⟨i2, pv, k2, g2⟩ := bind_eq_ok.1 g1
    obtain ⟨i3, n, k3, g3⟩ := bind_eq_ok.1 g2
    obtain ⟨i4, c, k4, g4⟩ := bind_eq_ok.1 g3
    obtain ⟨i5, a, k5, g5⟩ := bind_eq_ok.1 g4
    obtain ⟨i6, pr, k6, g6⟩ := bind_eq_ok.1 g5
    clear h2 g1 g2 g3 g4 g5
    injection g6 with e1 e2
    subst e1 e2
    rw [P.beU32_eq_ok] at k1 k3
    have k2' := program_eq_ok k2
    have k4' := credentials_eq_ok k4
    obtain ⟨v, k5', ha⟩ := auth_eq_ok k5
    clear k2 k4 k5
    subst k1 k2' k3 k4' k5' c1
    exact ⟨n, v, i5, rfl, ha, k6⟩
  · rw [if_neg c1] at h2
    by_cases c2 : t = 1
    · rw [if_pos c2] at h2; exact nomatch h2
    · rw [if_neg c2] at h2; exact nomatch h2

theorem frame_request {d : Bytes} {q : RpcRequest} (h : rpcFrame d = .request q) :
    ∃ r, RpcRequest.decode d = PRes.ok r q := by
  unfold rpcFrame at h
  split at h
  · cases hd : RpcRequest.decode d with
    | ok r q' => rw [hd] at h; injection h with h; subst h; exact ⟨r, rfl⟩
    | err => rw [hd] at h; exact nomatch h
    | fail => rw [hd] at h; exact nomatch h
    | panic => rw [hd] at h; exact nomatch h
  · exact nomatch h

/-- Exactly which datagrams panic. -/
theorem decode_panic_iff (d : Bytes) :
    RpcRequest.decode d = PRes.panic ↔ ∃ xid r, d = be32 xid ++ (be32 1 ++ r) := by
  constructor
  · intro h
    unfold RpcRequest.decode at h
    rw [bind_def, PRes.andThen_eq_panic] at h
    rcases h with h | ⟨r1, xid, h1, h⟩
    · exact absurd h (Safe.beU32 d)
    · rw [bind_def, PRes.andThen_eq_panic] at h
      rcases h with h | ⟨r2, c, _, h⟩
      · unfold decodeMessageType at h
        rw [bind_def, PRes.andThen_eq_panic] at h
        rcases h with h | ⟨r3, t, h3, h⟩
        · exact absurd h (Safe.beU32 r1)
        · rw [P.beU32_eq_ok] at h1 h3
          subst h1 h3
          by_cases c1 : t = 0
          · rw [if_pos c1] at h; exact absurd h (Safe.call r3)
          · rw [if_neg c1] at h
            by_cases c2 : t = 1
            · subst c2; exact ⟨xid, r3, rfl⟩
            · rw [if_neg c2] at h; exact nomatch h
      · exact nomatch h
  · rintro ⟨xid, r, rfl⟩
    unfold RpcRequest.decode decodeMessageType
    rw [beU32_bind, bind_def, beU32_bind]
    rfl

theorem frame_panic_iff (d : Bytes) :
    rpcFrame d = .panic ↔ ∃ xid r, d = be32 xid ++ (be32 1 ++ r) := by
  rw [← decode_panic_iff]
  unfold rpcFrame
  split
  · cases RpcRequest.decode d <;> simp
  · rename_i h
    have : d = [] := List.eq_nil_of_length_eq_zero (by omega)
    subst this
    simp [RpcRequest.decode, bind_def, P.beU32]

end PDJ

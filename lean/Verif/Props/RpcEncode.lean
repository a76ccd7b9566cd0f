import Verif.Props.RpcServer

/-!
# Property C75: the RPC encoder on every message value

The values the running program builds are covered by C27, C28 and C33; these theorems say what the
encoder does on all others (other verifiers, calls, arbitrary export lists).
-/

namespace PDJ

open Spec

/-- C75: a reply with the null verifier is the RFC 1057 reply; with any other verifier the flavour
16 lands where a client expects the reply status, and the client cannot read it.  A call is
written as its transaction id alone. -/
theorem C75_verifier (xid : UInt32) (v : RpcAuth) (d : RpcReplyMessage) :
    (v = .null → RpcOutgoing.encode (.reply xid ⟨v, d⟩) = rfcReply xid d.encode) ∧
    (v ≠ .null → readRpcReply (RpcOutgoing.encode (.reply xid ⟨v, d⟩)) = none ∧
      ∃ rest, RpcOutgoing.encode (.reply xid ⟨v, d⟩) = be32 xid ++ (be32 1 ++ (be32 16 ++ rest))) ∧
    ∀ c, RpcOutgoing.encode (.call xid c) = be32 xid := by
  have key : v ≠ .null → RpcOutgoing.encode (.reply xid ⟨v, d⟩) =
      be32 xid ++ (be32 1 ++ (be32 16 ++ (be32 0 ++ (be32 0 ++ (be32 0 ++ d.encode))))) := by
    intro hv
    cases v with
    | null => exact absurd rfl hv
    | unix => simp [RpcOutgoing.encode, RpcReply.encode, RpcAuth.encode]
    | short => simp [RpcOutgoing.encode, RpcReply.encode, RpcAuth.encode]
    | des => simp [RpcOutgoing.encode, RpcReply.encode, RpcAuth.encode]
  refine ⟨?_, fun hv => ⟨?_, _, key hv⟩, fun c => rfl⟩
  · rintro rfl
    have h0 : (be32 (UInt32.ofNat ([] : Bytes).length)) = be32 0 := rfl
    have h1 : xdrPad ([] : Bytes).length = [] := rfl
    simp only [RpcOutgoing.encode, RpcReply.encode, RpcAuth.encode, rfcReply, opaqueAuth, xdrOpaque,
      h0, h1, List.append_assoc, List.append_nil]
  · rw [key hv]
    unfold readRpcReply
    simp only [getWord_be32]
    have h2 : getOpaque (be32 0 ++ (be32 0 ++ d.encode)) = some ([], be32 0 ++ d.encode) := by
      have := getOpaque_append [] (be32 0 ++ d.encode) (by decide)
      simpa [xdrPad] using this
    rw [h2]
    simp only [getWord_be32]
    rw [if_neg (by decide)]

/-- Text for which the fixed two fill bytes are the right ones. -/
def Aligned (b : Bytes) : Prop := b.length % 4 = 2 ∧ b.length < 4294967296

theorem getOpaque_aligned {b : Bytes} (h : Aligned b) (r : Bytes) :
    getOpaque (be32 (UInt32.ofNat b.length) ++ (b ++ ([0x00, 0x00] ++ r))) = some (b, r) := by
  have e : ([0x00, 0x00] : Bytes) = xdrPad b.length := by
    rw [xdrPad, h.1]; rfl
  rw [e]
  exact getOpaque_append b r h.2

/-- C75: the empty export list is the single zero word of an empty XDR list. -/
theorem C75_export_empty (fuel : Nat) (r : Bytes) :
    getExports (fuel + 1) (RpcReplyMessage.encode (.mountExport []) ++ r) = some ([], r) := by
  rfl

/-- C75: one export whose directory and group texts leave two bytes to the next word is read back
by an RFC 1094 reader, with no group or with one. -/
theorem C75_export_single (e : ExportListEntry) (hd : Aligned (utf16le e.directory))
    (hn : e.groups.length ≤ 1) (hg : ∀ g ∈ e.groups, Aligned (utf8 g)) (fuel : Nat) (r : Bytes) :
    getExports (fuel + 3) (RpcReplyMessage.encode (.mountExport [e]) ++ r) =
      some ([(utf16le e.directory, e.groups.map utf8)], r) := by
  obtain ⟨dir, groups⟩ := e
  have z : ∀ r : Bytes, getWord ([0x00, 0x00, 0x00, 0x00] ++ r) = some (0, r) := fun _ => rfl
  have o : ∀ r : Bytes, getWord ([0x00, 0x00, 0x00, 0x01] ++ r) = some (1, r) := fun _ => rfl
  match groups, hn with
  | [], _ =>
    have e1 : RpcReplyMessage.encode (.mountExport [⟨dir, []⟩]) ++ r = [0x00, 0x00, 0x00, 0x01] ++
        (be32 (UInt32.ofNat (utf16le dir).length) ++ (utf16le dir ++ ([0x00, 0x00] ++
        ([0x00, 0x00, 0x00, 0x00] ++ ([0x00, 0x00, 0x00, 0x00] ++ r))))) := by
      simp [RpcReplyMessage.encode, ExportListEntry.encode]
    rw [e1]
    unfold getExports
    simp only [o]
    rw [if_neg (by decide), if_pos trivial, getOpaque_aligned hd]
    unfold getGroups
    simp only [z, if_true]
    unfold getExports
    simp only [z, if_true, Option.map_some, List.map_nil]
  | [g], _ =>
    have hg1 := hg g (by simp)
    have e1 : RpcReplyMessage.encode (.mountExport [⟨dir, [g]⟩]) ++ r = [0x00, 0x00, 0x00, 0x01] ++
        (be32 (UInt32.ofNat (utf16le dir).length) ++ (utf16le dir ++ ([0x00, 0x00] ++
        ([0x00, 0x00, 0x00, 0x01] ++ (be32 (UInt32.ofNat (utf8 g).length) ++ (utf8 g ++
        ([0x00, 0x00] ++ ([0x00, 0x00, 0x00, 0x00] ++ ([0x00, 0x00, 0x00, 0x00] ++ r))))))))) := by
      simp [RpcReplyMessage.encode, ExportListEntry.encode, encodeGroup]
    rw [e1]
    unfold getExports
    simp only [o]
    rw [if_neg (by decide), if_pos trivial, getOpaque_aligned hd]
    unfold getGroups
    simp only [o]
    rw [if_neg (by decide), if_pos trivial, getOpaque_aligned hg1]
    unfold getGroups
    simp only [z, if_true, Option.map_some]
    unfold getExports
    simp only [z, if_true, Option.map_some, List.map_cons, List.map_nil]

/-- A length word of a non-empty text is not an XDR list marker. -/
theorem getWord_length {n : Nat} (h : 2 ≤ n) (hn : n < 4294967296) (r : Bytes) :
    ∃ w, getWord (be32 (UInt32.ofNat n) ++ r) = some (w, r) ∧ w ≠ 0 ∧ w ≠ 1 := by
  refine ⟨_, getWord_be32 _ _, ?_, ?_⟩ <;> intro hw
  · have := congrArg UInt32.toNat hw
    rw [UInt32.toNat_ofNat'] at this
    have h0 : (0 : UInt32).toNat = 0 := rfl
    omega
  · have := congrArg UInt32.toNat hw
    rw [UInt32.toNat_ofNat'] at this
    have h1 : (1 : UInt32).toNat = 1 := rfl
    omega

/-- C75: the claim "every export list is a valid RFC 1094 list" is false: a second export has no
list marker before it, so a reader rejects the whole reply — for every first export it could
read and every second export with a non-empty directory. -/
theorem C75_export_two (e e' : ExportListEntry) (es : List ExportListEntry)
    (hd : Aligned (utf16le e.directory)) (hn : e.groups.length ≤ 1)
    (hg : ∀ g ∈ e.groups, Aligned (utf8 g)) (hd' : e'.directory ≠ [])
    (hl' : (utf16le e'.directory).length < 4294967296) (fuel : Nat) (r : Bytes) :
    getExports fuel (RpcReplyMessage.encode (.mountExport (e :: e' :: es)) ++ r) = none := by
  obtain ⟨dir, groups⟩ := e
  obtain ⟨dir', groups'⟩ := e'
  have z : ∀ r : Bytes, getWord ([0x00, 0x00, 0x00, 0x00] ++ r) = some (0, r) := fun _ => rfl
  have o : ∀ r : Bytes, getWord ([0x00, 0x00, 0x00, 0x01] ++ r) = some (1, r) := fun _ => rfl
  have h2 : 2 ≤ (utf16le dir').length := by
    cases dir' with
    | nil => exact absurd rfl hd'
    | cons c cs =>
      simp only [utf16le, utf16, List.flatMap_cons, List.flatMap_append, List.length_append]
      have : 2 ≤ ((utf16Char c).flatMap le16).length := by
        unfold utf16Char
        split <;> simp [le16]
      omega
  obtain ⟨tail, htail⟩ : ∃ tail, ∀ m : Bytes, m ++ (ExportListEntry.encode ⟨dir', groups'⟩ ++
      (es.flatMap ExportListEntry.encode ++ ([0x00, 0x00, 0x00, 0x00] ++ r))) =
      m ++ (be32 (UInt32.ofNat (utf16le dir').length) ++ tail) := by
    refine ⟨utf16le dir' ++ [0x00, 0x00] ++ (if groups'.length > 0 then
      [0x00, 0x00, 0x00, 0x01] ++ groups'.flatMap encodeGroup else []) ++ [0x00, 0x00, 0x00, 0x00] ++
      (es.flatMap ExportListEntry.encode ++ ([0x00, 0x00, 0x00, 0x00] ++ r)), fun m => ?_⟩
    simp only [ExportListEntry.encode, List.append_assoc]
  obtain ⟨w, hw, hw0, hw1⟩ := getWord_length h2 hl' tail
  have last : ∀ k, getExports k (be32 (UInt32.ofNat (utf16le dir').length) ++ tail) = none := by
    intro k
    cases k with
    | zero => rfl
    | succ k =>
      unfold getExports
      simp only [hw]
      rw [if_neg hw0, if_neg hw1]
  match groups, hn with
  | [], _ =>
    have e1 : RpcReplyMessage.encode (.mountExport (⟨dir, []⟩ :: ⟨dir', groups'⟩ :: es)) ++ r =
        ([0x00, 0x00, 0x00, 0x01] ++
        (be32 (UInt32.ofNat (utf16le dir).length) ++ (utf16le dir ++ ([0x00, 0x00] ++
        ([0x00, 0x00, 0x00, 0x00] ++ (be32 (UInt32.ofNat (utf16le dir').length) ++ tail)))))) := by
      rw [← htail]
      simp [RpcReplyMessage.encode, ExportListEntry.encode]
    rw [e1]
    cases fuel with
    | zero => rfl
    | succ k =>
      unfold getExports
      simp only [o]
      rw [if_neg (by decide), if_pos trivial, getOpaque_aligned hd]
      cases k with
      | zero => rfl
      | succ k =>
        unfold getGroups
        simp only [z, if_true]
        rw [last]; rfl
  | [g], _ =>
    have hg1 := hg g (by simp)
    have e1 : RpcReplyMessage.encode (.mountExport (⟨dir, [g]⟩ :: ⟨dir', groups'⟩ :: es)) ++ r =
        ([0x00, 0x00, 0x00, 0x01] ++
        (be32 (UInt32.ofNat (utf16le dir).length) ++ (utf16le dir ++ ([0x00, 0x00] ++
        ([0x00, 0x00, 0x00, 0x01] ++ (be32 (UInt32.ofNat (utf8 g).length) ++ (utf8 g ++
        ([0x00, 0x00] ++ ([0x00, 0x00, 0x00, 0x00] ++
        (be32 (UInt32.ofNat (utf16le dir').length) ++ tail)))))))))) := by
      rw [← htail]
      simp [RpcReplyMessage.encode, ExportListEntry.encode, encodeGroup]
    rw [e1]
    cases fuel with
    | zero => rfl
    | succ k =>
      unfold getExports
      simp only [o]
      rw [if_neg (by decide), if_pos trivial, getOpaque_aligned hd]
      cases k with
      | zero => rfl
      | succ k =>
        unfold getGroups
        simp only [o]
        rw [if_neg (by decide), if_pos trivial, getOpaque_aligned hg1]
        cases k with
        | zero => rfl
        | succ k =>
          unfold getGroups
          simp only [z, if_true, Option.map_some]
          rw [last]; rfl

/-- C75, non-vacuity: the directory `/` and the group `10.0.0.1/255.0.0.0` are aligned. -/
example : Aligned (utf16le ['/']) ∧
    Aligned (utf8 ['1', '0', '.', '0', '.', '0', '.', '1', '/', '2', '5', '5', '.', '0', '.', '0',
      '.', '0']) := by
  refine ⟨⟨by decide, by decide⟩, ⟨by decide, by decide⟩⟩

/-- C75, instances: the verifier is NULL in every reply the program sends, UNIX would break it. -/
example : RpcOutgoing.encode (.reply 9 ⟨.null, .portmapGetport 50111⟩) = rfcReply 9 [0, 0, 0xc3, 0xbf] :=
  (C75_verifier 9 .null _).1 rfl

example := (C75_verifier 9 .unix (.mountExport [])).2.1 (by decide)

/-- C75, instance: the export list of the network 10.0.0.1/255.0.0.0. -/
example := C75_export_single
  ⟨['/'], [['1', '0', '.', '0', '.', '0', '.', '1', '/', '2', '5', '5', '.', '0', '.', '0', '.', '0']]⟩
  ⟨by decide, by decide⟩ (by decide)
  (by intro g h; cases List.mem_singleton.1 h; exact ⟨by decide, by decide⟩) 0 [1, 2, 3]

end PDJ

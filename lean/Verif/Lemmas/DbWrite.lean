import Verif.Spec.DbWrite
import Verif.Lemmas.DbRead

/-!
# Requests written by a player are parsed as intended
-/

namespace PDJ

open Spec

theorem writeVal_fieldOf (v : Val) (hs : ShortVal v) (hb : NotBlob v) :
    writeVal v = (fieldOf v).asBytes := by
  cases v with
  | u8 v => rfl
  | u16 v => rfl
  | u32 v => rfl
  | blob b => exact False.elim hb
  | text s =>
    have hs' : (utf16 s).length ≤ 127 := hs
    have hbe : be32 (UInt32.ofNat ((utf16 s).length + 1)) =
        [0, 0, 0, UInt8.ofNat ((utf16 s).length + 1)] := by
      have : (UInt32.ofNat ((utf16 s).length + 1)).toNat = (utf16 s).length + 1 := by
        rw [UInt32.toNat_ofNat']; omega
      simp only [be32, this]
      rw [Nat.div_eq_of_lt (by omega), Nat.div_eq_of_lt (by omega), Nat.div_eq_of_lt (by omega)]
      rfl
    simp only [writeVal, hbe, fieldOf, DBField.ofStr, DBField.asBytes, lenByte_eq hs',
      FieldKind.value, List.cons_append, List.nil_append]

theorem flatMap_congr_left {α β : Type} {l : List α} {f g : α → List β}
    (h : ∀ a ∈ l, f a = g a) : l.flatMap f = l.flatMap g := by
  rw [List.flatMap, List.flatMap, List.map_congr_left h]

/-- The arguments of a request. -/
def Writable : Val → Prop
  | .text s => (utf16 s).length < 2147483648
  | .blob _ => False
  | _ => True

theorem sendable_iff (m : Msg) : Sendable m ↔ m.args.length ≤ 12 ∧ ∀ v ∈ m.args, Writable v := by
  unfold Sendable
  refine and_congr_right fun _ => forall_congr' fun v => imp_congr_right fun _ => ?_
  cases v <;> simp [Writable]

theorem argDecode_writeVal (m : Mode) (v : Val) (hw : Writable v) (r : Bytes) :
    argDecode m (fieldOf v).kind (writeVal v ++ r) = PRes.ok r (fieldOf v) := by
  cases v with
  | u8 v => exact argDecode_u8 ..
  | u16 v => exact argDecode_u16 ..
  | u32 v => exact argDecode_u32 ..
  | blob b => exact hw.elim
  | text s =>
    have hw : (utf16 s).length < 2147483648 := hw
    have hn : (UInt32.ofNat ((utf16 s).length + 1)).toNat = (utf16 s).length + 1 := by
      rw [UInt32.toNat_ofNat']; omega
    show argDecode m .string (0x26 :: be32 (UInt32.ofNat ((utf16 s).length + 1)) ++ utf16be s ++ [0, 0] ++ r) =
      PRes.ok r ⟨.string, utf16be s⟩
    simp only [argDecode, bind_def, List.cons_append, List.nil_append, List.append_assoc, P.take_succ_cons, P.take_zero,
      PRes.andThen_ok, P.beU32_be32, strTakeLen_fits m hn hw]
    rw [P.take_append (by simp; omega)]
    rfl

theorem argsLoop_written (m : Mode) (vs : List Val) (pre post : Bytes) (r : Bytes) (hs : ∀ v ∈ vs, Writable v) :
    argsLoop m (pre ++ vs.map (fun v => (fieldOf v).kind.argValue) ++ post) pre.length vs.length
      (vs.flatMap writeVal ++ r) = .ok (vs.map fieldOf) := by
  induction vs generalizing pre with
  | nil => rfl
  | cons v vs ih =>
    have ht : (pre ++ List.map (fun v => (fieldOf v).kind.argValue) (v :: vs) ++ post)[pre.length]? =
        some (fieldOf v).kind.argValue := by
      simp
    have hv := hs v (by simp)
    have ih' := ih (pre ++ [(fieldOf v).kind.argValue]) (fun w hw => hs w (by simp [hw]))
    simp only [List.length_append, List.length_cons, List.length_nil, List.append_assoc,
      List.cons_append, List.nil_append] at ih'
    simp only [List.length_cons]
    unfold argsLoop
    rw [ht]
    simp only [argNew_argValue]
    simp only [List.flatMap_cons, List.append_assoc]
    rw [argDecode_writeVal m v hv]
    simp only [List.map_cons, List.cons_append]
    simp only [Nat.zero_add] at ih' ⊢
    rw [ih']

/-- The first 20 bytes of a request. -/
def head20 (q : Msg) : Bytes :=
  [0x11, 0x87, 0x23, 0x49, 0xae, 0x11] ++ be32 q.tx ++ [0x10] ++ be16 q.type ++
    [0x0f, UInt8.ofNat q.args.length, 0x14, 0x00, 0x00, 0x00, 0x0c]

theorem writeMsg_head (q : Msg) (h12 : q.args.length ≤ 12) :
    writeMsg q = head20 q ++ ((q.args.map (fun v => (fieldOf v).kind.argValue) ++
      List.replicate (12 - q.args.length) 0) ++ q.args.flatMap writeVal) := by
  have htags : q.args.map tagOf = q.args.map (fun v => (fieldOf v).kind.argValue) := by
    apply List.map_congr_left
    intro v _
    exact (argValue_fieldOf v).symm
  have hlen : (q.args.map tagOf ++ List.replicate (12 - q.args.length) (0 : UInt8)).length = 12 := by
    simp; omega
  have h3 : ∀ b : Bytes, b.length = 12 → writeVal (.blob b) = [0x14, 0, 0, 0, 0x0c] ++ b := by
    intro b hb
    simp only [writeVal, hb]
    rfl
  have h1 : writeVal (.u32 0x872349ae) = [0x11, 0x87, 0x23, 0x49, 0xae] := rfl
  unfold writeMsg
  rw [h3 _ hlen, h1, htags]
  simp only [head20, writeVal, List.cons_append, List.nil_append, List.append_assoc]

theorem parse_head20 (m : Mode) (q : Msg) (r : Bytes) : DBMessage.parse m (head20 q ++ r) =
    ((P.take 12 r).andThen fun r' types => argsBody m types (UInt8.ofNat q.args.length).toNat r').andThen
      fun r' a => .ok r' ⟨.ofU32 q.tx, ReqType.new q.type, a⟩ := by
  unfold DBMessage.parse head20
  simp only [List.cons_append, List.nil_append, List.append_assoc, bind_def]
  have h1 := magic_ok 0x11 (0x11 :: (be32 q.tx ++ 0x10 :: (be16 q.type ++ 0x0f ::
    UInt8.ofNat q.args.length :: 0x14 :: 0 :: 0 :: 0 :: 0x0c :: r)))
  have h2 := transactionId_known .u32 (UInt8.ofNat (q.tx.toNat / 16777216))
    (UInt8.ofNat (q.tx.toNat / 65536)) (UInt8.ofNat (q.tx.toNat / 256)) (UInt8.ofNat q.tx.toNat)
    (0x10 :: (be16 q.type ++ 0x0f :: UInt8.ofNat q.args.length :: 0x14 :: 0 :: 0 :: 0 :: 0x0c :: r))
  simp only [DBMessage.magicBytes, List.cons_append, List.nil_append] at h1
  rw [h1]
  simp only [PRes.andThen_ok]
  refine (congrArg (fun x => PRes.andThen x _) h2).trans ?_
  simp only [PRes.andThen_ok]
  rw [requestType_be16]
  simp only [PRes.andThen_ok, argsDecode, bind_def, P.take_succ_cons, P.take_zero]
  rfl

theorem parse_writeMsg (m : Mode) (q : Msg) (h : Sendable q) (r : Bytes) :
    DBMessage.parse m (writeMsg q ++ r) =
      PRes.ok [] ⟨.ofU32 q.tx, ReqType.new q.type, q.args.map fieldOf⟩ := by
  obtain ⟨h12, hs⟩ := (sendable_iff q).1 h
  have hc : (UInt8.ofNat q.args.length).toNat = q.args.length := by
    simp only [UInt8.toNat_ofNat']; omega
  have := argsLoop_written m q.args [] (List.replicate (12 - q.args.length) 0) r hs
  simp only [List.nil_append, List.length_nil] at this
  rw [writeMsg_head q h12, List.append_assoc, List.append_assoc, parse_head20, P.take_append (by simp; omega)]
  simp only [PRes.andThen_ok, argsBody, hc, this]

theorem writeMsg_length (q : Msg) (h : Sendable q) : 32 ≤ (writeMsg q).length := by
  obtain ⟨h12, _⟩ := h
  simp only [writeMsg, writeVal, List.length_append, List.length_cons, List.length_map,
    List.length_replicate, length_be32, length_be16, List.length_nil]
  omega

end PDJ

import Verif.Lemmas.DbCodec

/-!
# The independent wire reader reads what the model writes
-/

namespace PDJ

open Spec

theorem value_eq_be16 (rt : ReqType) : rt.value = be16 (wireCode rt) := by
  cases rt <;> simp only [ReqType.value, wireCode] <;> rfl

theorem units_flatMap (us : List UInt16) : units (us.flatMap be16) = some us := by
  induction us with
  | nil => rfl
  | cons u us ih =>
    simp only [List.flatMap_cons, be16, List.cons_append, List.nil_append, units]
    rw [ih]
    simp only [Option.map_some, ofBe16_be16]

theorem textOf_utf16be (s : Str) : textOf (utf16be s ++ [0, 0]) = some s := by
  have h : utf16be s ++ [0, 0] = (utf16 s ++ [0]).flatMap be16 := by
    simp only [utf16be, List.flatMap_append, List.flatMap_cons, List.flatMap_nil, List.append_nil]
    rfl
  unfold textOf
  rw [h, units_flatMap]
  simp [fromUtf16_utf16]

theorem readField_0f (a : UInt8) (r : Bytes) : readField (0x0f :: a :: r) = some (.u8 a, r) := by
  simp [readField]

theorem readField_10 (a b : UInt8) (r : Bytes) :
    readField (0x10 :: a :: b :: r) = some (.u16 (ofBe16 a b), r) := by
  simp [readField]

theorem readField_11 (a b c d : UInt8) (r : Bytes) :
    readField (0x11 :: a :: b :: c :: d :: r) = some (.u32 (ofBe32 a b c d), r) := by
  simp [readField]

theorem readField_14 (a b c d : UInt8) (p r : Bytes) (h : (ofBe32 a b c d).toNat = p.length) :
    readField (0x14 :: a :: b :: c :: d :: (p ++ r)) = some (.blob p, r) := by
  simp [readField, h]

theorem readField_26 (a b c d : UInt8) (p r : Bytes) (s : Str)
    (h : 2 * (ofBe32 a b c d).toNat = p.length) (hp : textOf p = some s) :
    readField (0x26 :: a :: b :: c :: d :: (p ++ r)) = some (.text s, r) := by
  simp [readField, h, hp]

theorem readField_u8 (v : UInt8) (r : Bytes) :
    readField ((fieldOf (.u8 v)).asBytes ++ r) = some (.u8 v, r) := readField_0f v r

theorem readField_u16 (v : UInt16) (r : Bytes) :
    readField ((fieldOf (.u16 v)).asBytes ++ r) = some (.u16 v, r) := by
  have := readField_10 (UInt8.ofNat (v.toNat / 256)) (UInt8.ofNat v.toNat) r
  rw [ofBe16_be16] at this
  exact this

theorem readField_u32 (v : UInt32) (r : Bytes) :
    readField ((fieldOf (.u32 v)).asBytes ++ r) = some (.u32 v, r) := by
  have := readField_11 (UInt8.ofNat (v.toNat / 16777216)) (UInt8.ofNat (v.toNat / 65536))
    (UInt8.ofNat (v.toNat / 256)) (UInt8.ofNat v.toNat) r
  rw [ofBe32_be32] at this
  exact this

theorem readField_text (s : Str) (h : (utf16 s).length ≤ 127) (r : Bytes) :
    readField ((fieldOf (.text s)).asBytes ++ r) = some (.text s, r) := by
  have hn : (ofBe32 0 0 0 (UInt8.ofNat ((utf16 s).length + 1))).toNat = (utf16 s).length + 1 :=
    ofBe32_small (by omega)
  have e : (fieldOf (.text s)).asBytes ++ r =
      0x26 :: 0 :: 0 :: 0 :: UInt8.ofNat ((utf16 s).length + 1) :: ((utf16be s ++ [0, 0]) ++ r) := by
    simp only [fieldOf, DBField.ofStr, DBField.asBytes, lenByte_eq h, FieldKind.value,
      List.cons_append, List.nil_append, List.append_assoc]
  rw [e]
  exact readField_26 _ _ _ _ _ _ s (by rw [hn]; simp; omega) (textOf_utf16be s)

theorem readField_blob (b : Bytes) (h : b.length < 4294967296) (hb : b ≠ []) (r : Bytes) :
    readField ((fieldOf (.blob b)).asBytes ++ r) = some (.blob b, r) := by
  have hpos : b.length > 0 := List.length_pos_iff.2 hb
  have e : (fieldOf (.blob b)).asBytes ++ r =
      0x14 :: (be32 (UInt32.ofNat b.length) ++ (b ++ r)) := by
    show (if b.length > 0 then [0x14] ++ be32 (UInt32.ofNat b.length) ++ b else []) ++ r = _
    rw [if_pos hpos]
    simp only [List.cons_append, List.nil_append, List.append_assoc]
  rw [e]
  refine readField_14 _ _ _ _ b r ?_
  rw [ofBe32_be32, UInt32.toNat_ofNat']; omega

theorem asBytes_blob_nil : (fieldOf (.blob [])).asBytes = [] := rfl

theorem argValue_fieldOf (v : Val) : (fieldOf v).kind.argValue = tagOf v := by
  cases v <;> rfl

theorem argValue_eq_three (v : Val) :
    (fieldOf v).kind.argValue = 0x03 ↔ ∃ b, v = .blob b := by
  cases v <;> simp [fieldOf, DBField.ofU8, DBField.ofU16, DBField.ofU32, DBField.ofStr,
    FieldKind.argValue]

theorem readArgs_fields (vs : List Val) (prev : Option Val) (r : Bytes) (h : Readable prev vs) :
    readArgs (vs.map (fun v => (fieldOf v).kind.argValue)) prev
      (vs.flatMap (fun v => (fieldOf v).asBytes) ++ r) = some (vs, r) := by
  induction vs generalizing prev with
  | nil => rfl
  | cons v vs ih =>
    simp only [Readable] at h
    obtain ⟨hv, hvs⟩ := h
    have ih' := ih (some v) hvs
    simp only [List.map_cons, List.flatMap_cons, List.append_assoc]
    unfold readArgs
    split
    · rename_i hc
      obtain ⟨b, rfl⟩ := (argValue_eq_three v).1 hc.1
      simp only at hv
      have hb : b = [] := hv.2.2 hc.2
      subst hb
      rw [asBytes_blob_nil, List.nil_append, ih']
      rfl
    · rename_i hc
      have hf : readField ((fieldOf v).asBytes ++
          (vs.flatMap (fun v => (fieldOf v).asBytes) ++ r)) =
          some (v, vs.flatMap (fun v => (fieldOf v).asBytes) ++ r) := by
        cases v with
        | u8 v => exact readField_u8 ..
        | u16 v => exact readField_u16 ..
        | u32 v => exact readField_u32 ..
        | text s => exact readField_text s hv _
        | blob b =>
          simp only at hv
          refine readField_blob b hv.1 ?_ _
          intro hb
          exact hc ⟨rfl, hv.2.1 hb⟩
      rw [hf]
      simp only
      rw [if_pos (argValue_fieldOf v), ih']
      rfl

theorem readBlob_tags (tags r : Bytes) (h : tags.length = 12) :
    readBlob (0x14 :: 0 :: 0 :: 0 :: 0x0c :: (tags ++ r)) = some (tags, r) := by
  unfold readBlob
  rw [readField_14 _ _ _ _ _ _ (by rw [h]; rfl)]

theorem encode_eq_rawMsg (tx : UInt32) (rt : ReqType) (a : Args) :
    (⟨.ofU32 tx, rt, a⟩ : DBMessage).encode = rawMsg tx (wireCode rt) a := by
  simp only [DBMessage.encode, DBMessage.toResponse, rawMsg, value_eq_be16]

/-- The header of a message is always read; what is left is to read the arguments. -/
theorem readMsg_raw_eq (tx : UInt32) (code : UInt16) (vs : List Val) (r : Bytes)
    (h12 : vs.length ≤ 12) :
    readMsg (rawMsg tx code (vs.map fieldOf) ++ r) =
      (readArgs (vs.map (fun v => (fieldOf v).kind.argValue)) none
        (vs.flatMap (fun v => (fieldOf v).asBytes) ++ r)).map
          (fun x => (⟨tx, code, x.1⟩, x.2)) := by
  have hc : (UInt8.ofNat (vs.map fieldOf).length).toNat = vs.length := by
    simp only [List.length_map, UInt8.toNat_ofNat']; omega
  have hpad : (if (UInt8.ofNat (vs.map fieldOf).length).toNat < 12 then
      List.replicate (12 - (UInt8.ofNat (vs.map fieldOf).length).toNat) (0 : UInt8) else []) =
      List.replicate (12 - vs.length) 0 := by
    rw [hc]
    split
    · rfl
    · rw [show 12 - vs.length = 0 by omega]; rfl
  unfold rawMsg argsEncode
  simp only [hpad]
  simp only [DBMessage.magicBytes, List.cons_append, List.nil_append, List.append_assoc]
  unfold readMsg
  have h1 : ∀ r : Bytes, readU32 (0x11 :: 0x87 :: 0x23 :: 0x49 :: 0xae :: r) =
      some (0x872349ae, r) := by
    intro r
    unfold readU32
    rw [readField_11]
    rfl
  have h2 : ∀ r : Bytes, readU32 ((DBField.ofU32 tx).asBytes ++ r) = some (tx, r) := by
    intro r
    have := readField_u32 tx r
    simp only [fieldOf] at this
    simp only [readU32, this]
  have h3 : ∀ r : Bytes, readU16 (0x10 :: (be16 (code) ++ r)) =
      some (code, r) := by
    intro r
    have e : (fieldOf (.u16 (code))).asBytes ++ r = 0x10 :: (be16 (code) ++ r) := rfl
    have := readField_u16 (code) r
    rw [e] at this
    simp only [readU16, this]
  have h4 : ∀ (n : UInt8) (r : Bytes), readU8 (0x0f :: n :: r) = some (n, r) := by
    intro n r
    simp only [readU8, readField_0f]
  simp only [h1, h2, h3, h4, Option.bind_eq_bind, Option.bind_some, guard, if_true, pure]
  rw [← List.append_assoc (List.map _ _)]
  rw [readBlob_tags _ _ (by simp; omega)]
  simp only [hc, Option.bind_some]
  have hmap : List.map (fun f => f.kind.argValue) (vs.map fieldOf) =
      vs.map (fun v => (fieldOf v).kind.argValue) := by simp [Function.comp_def]
  have hlen : (vs.map (fun v => (fieldOf v).kind.argValue)).length = vs.length := by simp
  rw [hmap]
  have hdrop : (vs.map (fun v => (fieldOf v).kind.argValue) ++
      List.replicate (12 - vs.length) (0 : UInt8)).drop vs.length =
      List.replicate (12 - vs.length) 0 := by
    rw [← hlen, List.drop_left]
  have htake : (vs.map (fun v => (fieldOf v).kind.argValue) ++
      List.replicate (12 - vs.length) (0 : UInt8)).take vs.length =
      vs.map (fun v => (fieldOf v).kind.argValue) := by
    rw [← hlen, List.take_left]
  rw [hdrop, htake, if_pos]
  · have : (vs.map fieldOf).flatMap DBField.asBytes =
      vs.flatMap (fun v => (fieldOf v).asBytes) := by simp [List.flatMap_map]
    rw [this]
    cases readArgs (vs.map (fun v => (fieldOf v).kind.argValue)) none
        (vs.flatMap (fun v => (fieldOf v).asBytes) ++ r) <;> rfl
  · refine ⟨by simp; omega, h12, ?_⟩
    simp

/-- The player reads one message with an arbitrary type code. -/
theorem readMsg_raw (tx : UInt32) (code : UInt16) (vs : List Val) (r : Bytes)
    (h12 : vs.length ≤ 12) (h : Readable none vs) :
    readMsg (rawMsg tx code (vs.map fieldOf) ++ r) = some (⟨tx, code, vs⟩, r) := by
  rw [readMsg_raw_eq tx code vs r h12, readArgs_fields vs none r h]
  rfl

/-- The player reads one message. -/
theorem readMsg_encode (tx : UInt32) (rt : ReqType) (vs : List Val) (r : Bytes)
    (h12 : vs.length ≤ 12) (h : Readable none vs) :
    readMsg ((⟨.ofU32 tx, rt, vs.map fieldOf⟩ : DBMessage).encode ++ r) =
      some (⟨tx, wireCode rt, vs⟩, r) := by
  rw [encode_eq_rawMsg]
  exact readMsg_raw tx (wireCode rt) vs r h12 h

theorem encodeMany_eq (l : List DBMessage) : DBMessage.encodeMany l = l.flatMap DBMessage.encode := by
  have key : ∀ (l : List DBMessage) (acc : Bytes),
      l.foldl (fun acc d => acc ++ d.encode) acc = acc ++ l.flatMap DBMessage.encode := by
    intro l
    induction l with
    | nil => simp
    | cons d l ih => intro acc; simp [ih]
  simpa [DBMessage.encodeMany] using key l []

theorem encode_length_pos (d : DBMessage) : 1 ≤ d.encode.length := by
  simp [DBMessage.encode, DBMessage.toResponse]

theorem readMany_encode (l : List (UInt32 × ReqType × List Val)) (fuel : Nat)
    (hf : l.length ≤ fuel)
    (h : ∀ x ∈ l, x.2.2.length ≤ 12 ∧ Readable none x.2.2) :
    readMany fuel ((l.map (fun x => (⟨.ofU32 x.1, x.2.1, x.2.2.map fieldOf⟩ : DBMessage))).flatMap
      DBMessage.encode) = some (l.map (fun x => ⟨x.1, wireCode x.2.1, x.2.2⟩)) := by
  induction l generalizing fuel with
  | nil => cases fuel <;> rfl
  | cons x l ih =>
    cases fuel with
    | zero => simp at hf
    | succ n =>
      have hx := h x (by simp)
      have hr := readMsg_encode x.1 x.2.1 x.2.2
        ((l.map (fun x => (⟨.ofU32 x.1, x.2.1, x.2.2.map fieldOf⟩ : DBMessage))).flatMap
          DBMessage.encode) hx.1 hx.2
      have ih' := ih n (by simpa using hf) (fun y hy => h y (by simp [hy]))
      simp only [List.map_cons, List.flatMap_cons]
      have hne : ∃ a t, (⟨.ofU32 x.1, x.2.1, x.2.2.map fieldOf⟩ : DBMessage).encode ++
          (l.map (fun x => (⟨.ofU32 x.1, x.2.1, x.2.2.map fieldOf⟩ : DBMessage))).flatMap
          DBMessage.encode = a :: t := by
        simp [DBMessage.encode, DBMessage.toResponse]
      obtain ⟨a, t, hat⟩ := hne
      rw [hat] at hr ⊢
      unfold readMany
      simp only [hr, ih', Option.map_some]

theorem length_le_flatMap_encode (l : List DBMessage) :
    l.length ≤ (l.flatMap DBMessage.encode).length := by
  induction l with
  | nil => simp
  | cons d l ih =>
    have := encode_length_pos d
    simp only [List.flatMap_cons, List.length_append, List.length_cons]
    omega

/-- The player reads a whole reply. -/
theorem readReply_encodeMany (l : List (UInt32 × ReqType × List Val))
    (h : ∀ x ∈ l, x.2.2.length ≤ 12 ∧ Readable none x.2.2) :
    readReply (DBMessage.encodeMany
      (l.map (fun x => (⟨.ofU32 x.1, x.2.1, x.2.2.map fieldOf⟩ : DBMessage)))) =
      some (l.map (fun x => ⟨x.1, wireCode x.2.1, x.2.2⟩)) := by
  unfold readReply
  rw [encodeMany_eq]
  apply readMany_encode _ _ _ h
  have := length_le_flatMap_encode
    (l.map (fun x => (⟨.ofU32 x.1, x.2.1, x.2.2.map fieldOf⟩ : DBMessage)))
  simpa using this

end PDJ

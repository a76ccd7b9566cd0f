import Verif.Lemmas.DbRead

/-!
# A reply that is read back correctly contains no long text
-/

namespace PDJ

open Spec

theorem units_length {b : Bytes} {us : List UInt16} (h : units b = some us) :
    b.length = 2 * us.length := by
  induction b using units.induct generalizing us with
  | case1 => simp only [units, Option.some.injEq] at h; subst h; rfl
  | case2 => simp [units] at h
  | case3 a b r ih =>
    simp only [units, Option.map_eq_some_iff] at h
    obtain ⟨us', h', rfl⟩ := h
    have := ih h'
    simp only [List.length_cons]
    omega

theorem textOf_length {b : Bytes} {s : Str} (h : textOf b = some s) :
    b.length = 2 * ((utf16 s).length + 1) := by
  unfold textOf at h
  split at h
  · simp at h
  · rename_i us hus
    split at h
    · simp at h
    · rename_i z front hrev
      split at h
      · have h2 := utf16_fromUtf16 h
        have h1 := units_length hus
        have h3 := congrArg List.length hrev
        simp at h3
        rw [h2, h1, h3]
        simp
      · simp at h

/-- C04, the failing part: a text of 128 or more units is never recovered from the wire. -/
theorem readField_long_text (s : Str) (rest rest' : Bytes)
    (h : 128 ≤ (utf16 s).length) :
    readField ((fieldOf (.text s)).asBytes ++ rest) ≠ some (.text s, rest') := by
  intro hr
  have hb : UInt8.ofNat (utf16be s).length / 2 + 1 = UInt8.ofNat ((utf16 s).length % 128 + 1) := by
    apply UInt8.toNat.inj
    simp only [length_utf16be, UInt8.toNat_add, UInt8.toNat_div, UInt8.toNat_ofNat',
      UInt8.reduceToNat]
    omega
  have e : (fieldOf (.text s)).asBytes ++ rest =
      0x26 :: 0 :: 0 :: 0 :: UInt8.ofNat ((utf16 s).length % 128 + 1) ::
        (utf16be s ++ (0 :: 0 :: rest)) := by
    simp only [fieldOf, DBField.ofStr, DBField.asBytes, hb, FieldKind.value,
      List.cons_append, List.nil_append, List.append_assoc]
  rw [e] at hr
  have hn : (ofBe32 0 0 0 (UInt8.ofNat ((utf16 s).length % 128 + 1))).toNat =
    (utf16 s).length % 128 + 1 := ofBe32_small (by omega)
  simp only [readField, hn] at hr
  rw [if_neg (by decide), if_neg (by decide), if_neg (by decide), if_neg (by decide),
    if_pos (by decide)] at hr
  split at hr
  · simp at hr
  · rename_i hlt
    rw [Option.map_eq_some_iff] at hr
    obtain ⟨s', hs', heq⟩ := hr
    simp only [Prod.mk.injEq, Val.text.injEq] at heq
    have hl := textOf_length hs'
    rw [heq.1, List.length_take] at hl
    omega


/-- The two halves of `Readable`: what it says about blobs (a matter of how the application forms
its messages) and what it says about texts (a matter of the library's contents). -/
theorem readable_iff (prev : Option Val) (vs : List Val) :
    Readable prev vs ↔ BlobsOk prev vs ∧ ∀ s, Val.text s ∈ vs → (utf16 s).length ≤ 127 := by
  induction vs generalizing prev with
  | nil => simp [Readable, BlobsOk]
  | cons v vs ih =>
    simp only [Readable, BlobsOk, ih (some v)]
    cases v <;> simp [and_assoc] <;> grind

theorem readArgs_texts (vs : List Val) (prev : Option Val) (r r' : Bytes) (hb : BlobsOk prev vs)
    (h : readArgs (vs.map (fun v => (fieldOf v).kind.argValue)) prev
      (vs.flatMap (fun v => (fieldOf v).asBytes) ++ r) = some (vs, r')) :
    ∀ s, Val.text s ∈ vs → (utf16 s).length ≤ 127 := by
  induction vs generalizing prev with
  | nil => intro s hs; simp at hs
  | cons v vs ih =>
    simp only [BlobsOk] at hb
    obtain ⟨hv, hvs⟩ := hb
    simp only [List.map_cons, List.flatMap_cons, List.append_assoc] at h
    unfold readArgs at h
    split at h
    · rename_i hc
      obtain ⟨b, rfl⟩ := (argValue_eq_three v).1 hc.1
      simp only at hv
      have hb : b = [] := hv.2.2 hc.2
      subst hb
      rw [asBytes_blob_nil, List.nil_append, Option.map_eq_some_iff] at h
      obtain ⟨x, hx, he⟩ := h
      simp only [Prod.mk.injEq, List.cons.injEq, true_and] at he
      obtain ⟨x1, x2⟩ := x
      simp only at he
      obtain ⟨rfl, rfl⟩ := he
      intro s hs
      exact ih _ hvs hx s (by simpa using hs)
    · rename_i hc
      have hf : (∃ s, v = .text s ∧ 128 ≤ (utf16 s).length) ∨
          readField ((fieldOf v).asBytes ++
          (vs.flatMap (fun v => (fieldOf v).asBytes) ++ r)) =
          some (v, vs.flatMap (fun v => (fieldOf v).asBytes) ++ r) := by
        cases v with
        | u8 v => exact .inr (readField_u8 ..)
        | u16 v => exact .inr (readField_u16 ..)
        | u32 v => exact .inr (readField_u32 ..)
        | text s =>
          by_cases hs : (utf16 s).length ≤ 127
          · exact .inr (readField_text s hs _)
          · exact .inl ⟨s, rfl, by omega⟩
        | blob b =>
          simp only at hv
          refine .inr (readField_blob b hv.1 ?_ _)
          intro hb
          exact hc ⟨rfl, hv.2.1 hb⟩
      split at h
      · simp at h
      · rename_i w rest hw
        split at h
        · rw [Option.map_eq_some_iff] at h
          obtain ⟨⟨x1, x2⟩, hx, he⟩ := h
          simp only [Prod.mk.injEq, List.cons.injEq] at he
          obtain ⟨⟨rfl, rfl⟩, rfl⟩ := he
          rcases hf with ⟨s, rfl, hs⟩ | hf
          · exact absurd hw (readField_long_text s _ _ hs)
          · rw [hw] at hf
            simp only [Option.some.injEq, Prod.mk.injEq, true_and] at hf
            subst hf
            intro s hs
            rcases List.mem_cons.1 hs with rfl | hs
            · by_cases hl : (utf16 s).length ≤ 127
              · exact hl
              · exact absurd hw (readField_long_text s _ _ (by omega))
            · exact ih _ hvs hx s hs
        · simp at h

theorem readMany_texts (l : List (UInt32 × ReqType × List Val)) (fuel : Nat)
    (h12 : ∀ x ∈ l, x.2.2.length ≤ 12 ∧ BlobsOk none x.2.2)
    (h : readMany fuel ((l.map (fun x => (⟨.ofU32 x.1, x.2.1, x.2.2.map fieldOf⟩ : DBMessage))).flatMap
      DBMessage.encode) = some (l.map (fun x => ⟨x.1, wireCode x.2.1, x.2.2⟩))) :
    ∀ x ∈ l, ∀ s, Val.text s ∈ x.2.2 → (utf16 s).length ≤ 127 := by
  induction l generalizing fuel with
  | nil => simp
  | cons x l ih =>
    have hx := h12 x (by simp)
    simp only [List.map_cons, List.flatMap_cons] at h
    have hne : ∃ a t, (⟨.ofU32 x.1, x.2.1, x.2.2.map fieldOf⟩ : DBMessage).encode ++
        (l.map (fun x => (⟨.ofU32 x.1, x.2.1, x.2.2.map fieldOf⟩ : DBMessage))).flatMap
        DBMessage.encode = a :: t := by
      simp [DBMessage.encode, DBMessage.toResponse]
    obtain ⟨a, t, hat⟩ := hne
    have hm := readMsg_raw_eq x.1 (wireCode x.2.1) x.2.2
      ((l.map (fun x => (⟨.ofU32 x.1, x.2.1, x.2.2.map fieldOf⟩ : DBMessage))).flatMap
        DBMessage.encode) hx.1
    rw [← encode_eq_rawMsg, hat] at hm
    rw [hat] at h
    cases fuel with
    | zero => simp [readMany] at h
    | succ n =>
      unfold readMany at h
      split at h
      · simp at h
      · rename_i m r hr
        rw [Option.map_eq_some_iff] at h
        obtain ⟨ms, hms, he⟩ := h
        simp only [List.cons.injEq] at he
        obtain ⟨rfl, rfl⟩ := he
        rw [hr, eq_comm, Option.map_eq_some_iff] at hm
        obtain ⟨⟨vs, r'⟩, hra, he⟩ := hm
        simp only [Prod.mk.injEq, Msg.mk.injEq, true_and] at he
        obtain ⟨rfl, rfl⟩ := he
        have ht := readArgs_texts x.2.2 none _ _ hx.2 hra
        have hrd := readMsg_encode x.1 x.2.1 x.2.2
          ((l.map (fun x => (⟨.ofU32 x.1, x.2.1, x.2.2.map fieldOf⟩ : DBMessage))).flatMap
            DBMessage.encode) hx.1 ((readable_iff _ _).2 ⟨hx.2, ht⟩)
        rw [hat, hr] at hrd
        simp only [Option.some.injEq, Prod.mk.injEq, true_and] at hrd
        subst hrd
        intro y hy
        rcases List.mem_cons.1 hy with rfl | hy
        · exact ht
        · exact ih n (fun y hy => h12 y (by simp [hy])) hms y hy

theorem readReply_iff (l : List (UInt32 × ReqType × List Val))
    (h12 : ∀ x ∈ l, x.2.2.length ≤ 12 ∧ BlobsOk none x.2.2) :
    readReply (DBMessage.encodeMany
      (l.map (fun x => (⟨.ofU32 x.1, x.2.1, x.2.2.map fieldOf⟩ : DBMessage)))) =
      some (l.map (fun x => ⟨x.1, wireCode x.2.1, x.2.2⟩)) ↔
    ∀ x ∈ l, ∀ s, Val.text s ∈ x.2.2 → (utf16 s).length ≤ 127 := by
  constructor
  · intro h
    unfold readReply at h
    rw [encodeMany_eq] at h
    exact readMany_texts l _ h12 h
  · intro h
    exact readReply_encodeMany l (fun x hx =>
      ⟨(h12 x hx).1, (readable_iff _ _).2 ⟨(h12 x hx).2, h x hx⟩⟩)

end PDJ

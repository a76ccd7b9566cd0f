import Verif.Spec.Codec
import Verif.Lemmas.DbCut
import Verif.Props.DbCodec

/-!
# Properties C95, C96: the codec and the argument writer
-/

namespace PDJ

open Spec

theorem codecDecode_empties {m : Mode} {buf : Bytes} {r} (h : codecDecode m buf = .ok r) : r.2 = [] := by
  unfold codecDecode at h
  split at h
  · split at h <;> first | (cases h; simp) | exact nomatch h
  · rename_i hb
    cases h
    cases buf with
    | nil => rfl
    | cons b bs => simp at hb

/-- One chunk is one frame. -/
theorem framed_cons {m : Mode} {c : Bytes} {f : DbFrame} (cs : List Bytes)
    (h : codecDecode m c = .ok (some f, [])) :
    framed m [] (c :: cs) = (framed m [] cs).bind fun fs => .ok (f :: fs) := by
  have hn : codecDecode m [] = .ok (none, []) := rfl
  have hc : c ≠ [] := by
    rintro rfl
    rw [hn] at h
    exact nomatch h
  have hd : ∀ n, drain m (n + 1) c = .ok ([f], []) := by
    intro n
    unfold drain
    rw [h]
    cases n with
    | zero => rfl
    | succ n => rfl
  obtain ⟨b, c', rfl⟩ := List.exists_cons_of_ne_nil hc
  show ((drain m (c'.length + 1) (b :: c')).bind fun r => _) = _
  rw [hd]
  rfl

theorem codecDecode_writeMsg (m : Mode) (q : Msg) (hq : Sendable q) (more : Bytes) :
    ∃ f, codecDecode m (writeMsg q ++ more) = .ok (some f, []) ∧ Says f q := by
  have hl := writeMsg_length q hq
  refine ⟨_, ?_, _, rfl, rfl⟩
  unfold codecDecode
  rw [if_pos (by simp; omega), List.take_length, parse_writeMsg m q hq more, List.drop_length]

/-- C95 (full claim: the messages decoded depend only on the bytes of the stream).  Missing: the claim is
false.  What holds: if every chunk begins with a message, exactly these messages are decoded, in order;
whatever follows in a chunk is dropped. -/
theorem C95_one_message_per_chunk_partial (m : Mode) (qs : List (Msg × Bytes))
    (hq : ∀ q ∈ qs, Sendable q.1) :
    ∃ fs, framed m [] (qs.map fun q => writeMsg q.1 ++ q.2) = .ok fs ∧ SayAll fs (qs.map Prod.fst) := by
  induction qs with
  | nil => exact ⟨[], rfl, .nil⟩
  | cons q qs ih =>
    obtain ⟨fs, h1, h2⟩ := ih (fun q hm => hq q (List.mem_cons_of_mem _ hm))
    obtain ⟨f, h3, h4⟩ := codecDecode_writeMsg m q.1 (hq q List.mem_cons_self) q.2
    refine ⟨f :: fs, ?_, .cons h4 h2⟩
    rw [List.map_cons, framed_cons _ h3, h1]
    rfl

/-- C95, the negation: every two messages in one chunk yield one frame, in two chunks two. -/
theorem C95_segmentation_matters (m : Mode) (q₁ q₂ : Msg) (h₁ : Sendable q₁) (h₂ : Sendable q₂) :
    ∃ f₁ f₂, Says f₁ q₁ ∧ Says f₂ q₂ ∧ framed m [] [writeMsg q₁, writeMsg q₂] = .ok [f₁, f₂] ∧
      framed m [] [writeMsg q₁ ++ writeMsg q₂] = .ok [f₁] := by
  obtain ⟨f₁, e₁, s₁⟩ := codecDecode_writeMsg m q₁ h₁ (writeMsg q₂)
  obtain ⟨g₁, d₁, t₁⟩ := codecDecode_writeMsg m q₁ h₁ []
  obtain ⟨f₂, e₂, s₂⟩ := codecDecode_writeMsg m q₂ h₂ []
  rw [List.append_nil] at d₁ e₂
  have : g₁ = f₁ := by
    obtain ⟨_, rfl, rfl⟩ := s₁
    obtain ⟨_, rfl, rfl⟩ := t₁
    rfl
  subst this
  refine ⟨g₁, f₂, s₁, s₂, ?_, ?_⟩
  · rw [framed_cons _ d₁, framed_cons _ e₂]
    rfl
  · rw [framed_cons _ e₁]
    rfl

/-- C95, the negation: the beginning of a message, however long, yields an error, and if all but some
arguments have arrived it panics. -/
theorem C95_split_rejected (m : Mode) (q : Msg) (hq : Sendable q) (k : Nat) (h0 : 0 < k)
    (hk : k < (writeMsg q).length) :
    framed m [] [(writeMsg q).take k] = if k < 32 then .ok [.invalid] else .panic := by
  have hp := parse_cut m q hq k hk
  have hl : 0 < ((writeMsg q).take k).length := by
    simp
    omega
  have h : codecDecode m ((writeMsg q).take k) = if k < 32 then .ok (some .invalid, []) else .panic := by
    unfold codecDecode
    rw [if_pos hl, List.take_length, hp, List.drop_length]
    by_cases h : k < 32
    · rw [if_pos h, if_pos h]
    · rw [if_neg h, if_neg h]
  by_cases h32 : k < 32
  · rw [if_pos h32] at h ⊢
    rw [framed_cons _ h]
    rfl
  · rw [if_neg h32] at h ⊢
    show ((drain m ((writeMsg q).take k).length ((writeMsg q).take k)).bind fun r => _) = _
    obtain ⟨n, hn⟩ : ∃ n, ((writeMsg q).take k).length = n + 1 := ⟨_, (Nat.succ_pred_eq_of_pos hl).symm⟩
    rw [hn]
    unfold drain
    rw [h]
    rfl

/-- C95: what is encoded into an empty buffer is decoded again, and the buffer is empty afterwards. -/
theorem C95_roundtrip (m : Mode) (tx : UInt32) (rt : ReqType) (vs : List Val) (hr : HasOwnCode rt)
    (h12 : vs.length ≤ 12) (hs : ∀ v ∈ vs, ShortVal v ∧ NotBlob v) :
    codecDecode m (codecEncode ⟨.ofU32 tx, rt, vs.map fieldOf⟩ []) =
      .ok (some (.message ⟨.ofU32 tx, rt, vs.map fieldOf⟩), []) := by
  have h := C02_message_roundtrip m tx rt vs [] hr h12 hs
  rw [List.append_nil] at h
  unfold codecDecode codecEncode
  rw [if_pos (by simp [DBMessage.encode]; omega), List.take_length, List.nil_append, h, List.drop_length]

/-- C95: what is encoded into a buffer goes to its end. -/
theorem C95_encode_appends (d : DBMessage) (buf : Bytes) :
    codecEncode d buf = buf ++ codecEncode d [] := by
  simp [codecEncode]

/-- C95: nothing is yielded exactly if nothing is in the buffer. -/
theorem C95_nothing_iff_empty (m : Mode) (buf : Bytes) (b : Bytes) :
    codecDecode m buf = .ok (none, b) ↔ buf = [] ∧ b = [] := by
  constructor
  · intro h
    have hb := codecDecode_empties h
    refine ⟨?_, hb⟩
    unfold codecDecode at h
    split at h
    · split at h <;> exact nomatch h
    · cases h
      exact hb
  · rintro ⟨rfl, rfl⟩
    rfl

/-- C96 (full claim: an argument is written as the field of its kind and value).  Missing: the claim is
false for binary arguments.  What holds: it is for all others. -/
theorem C96_argument_partial (k : FieldKind) (v : Bytes) (h : k ≠ .binary) :
    argEncode k v = (⟨k, v⟩ : DBField).asBytes := by
  cases k <;> first | rfl | exact absurd rfl h

/-- C96: so a player reads the value. -/
theorem C96_argument_wire (v : Val) (h : ShortVal v ∧ NotBlob v) :
    argEncode (fieldOf v).kind (fieldOf v).value = writeVal v := by
  rw [writeVal_fieldOf v h.1 h.2]
  refine C96_argument_partial _ _ ?_
  cases v <;> first | exact h.2.elim | (intro e; exact nomatch e)

/-- C96, the negation: a binary argument is never written as the field is. -/
theorem C96_binary_differs (v : Bytes) : argEncode .binary v ≠ (⟨.binary, v⟩ : DBField).asBytes := by
  intro h
  have := congrArg List.length h
  simp only [argEncode, DBField.asBytes] at this
  split at this <;> simp at this

/-! ## Non-vacuity -/

/-- A request for the artist menu and a request to render. -/
def exampleMsgs : List Msg := [⟨1, 0x1002, [.u32 0x02010401, .u32 0]⟩, ⟨2, 0x3000, [.text ['a']]⟩]

theorem exampleMsgs_sendable : ∀ q ∈ exampleMsgs, Sendable q := by
  intro q hq
  simp only [exampleMsgs, List.mem_cons, List.not_mem_nil, or_false] at hq
  rcases hq with rfl | rfl
  · simp [Sendable]
  · have : (utf16 ['a']).length < 2147483648 := by decide
    simp [Sendable, this]

example := C95_one_message_per_chunk_partial .debug (exampleMsgs.map fun q => (q, [1, 2, 3])) (by
  intro q hq
  obtain ⟨x, hx, rfl⟩ := List.mem_map.1 hq
  exact exampleMsgs_sendable x hx)
example := C95_segmentation_matters .debug exampleMsgs[0] exampleMsgs[1]
  (exampleMsgs_sendable _ (by simp [exampleMsgs])) (exampleMsgs_sendable _ (by simp [exampleMsgs]))
example := C95_split_rejected .debug exampleMsgs[0] (exampleMsgs_sendable _ (by simp [exampleMsgs])) 3
  (by decide) (by decide +kernel)
example := C95_roundtrip .debug 7 .artist [.u32 3, .text ['a']] trivial (by decide)
  (by
    have : (utf16 ['a']).length ≤ 127 := by decide
    simp [ShortVal, NotBlob, this])
example := C96_argument_partial .string [0, 65] (by decide)
example := C96_argument_wire (.text ['a']) (by
    have : (utf16 ['a']).length ≤ 127 := by decide
    simp [ShortVal, NotBlob, this])

end PDJ

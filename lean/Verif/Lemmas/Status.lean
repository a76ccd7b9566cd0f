import Verif.Spec.Status
import Verif.Lemmas.Keepalive

/-!
# Lemmas about status packets
-/

namespace PDJ

open Spec

/-! ## Code tables -/

theorem statusKind_decode_ok {i r : Bytes} {k : StatusKind} :
    StatusKind.decode i = .ok r k ↔ i = k.encode ++ r ∧ CanonicalStatusKind k := by
  have e : ∀ b s, StatusKind.decode (b :: s) = if b = 0x0a then .ok s .cdj else if b = 0x29 then
      .ok s .djm else if b = 0x19 then .ok s .loadCmd else if b = 0x1a then .ok s .loadCmdReply else
      if b = 0x05 then .ok s .linkQuery else if b = 0x06 then .ok s .linkReply else
      if b = 0x10 then .ok s .rekordboxHello else if b = 0x11 then .ok s .rekordboxReply else
      .ok s (.unknown b) := by
    intro b s
    unfold StatusKind.decode
    rw [bind_def, P.beU8_cons, PRes.andThen_ok, pure_def]
    repeat' split
    all_goals rfl
  constructor
  · intro h
    match i, h with
    | [], h => exact nomatch h
    | b :: s, h =>
      rw [e] at h
      repeat' split at h
      all_goals obtain ⟨rfl, rfl⟩ := PRes.ok.inj h
      all_goals first
        | (subst b; exact ⟨rfl, trivial⟩)
        | (refine ⟨rfl, ?_⟩
           simp only [CanonicalStatusKind, List.mem_cons, List.not_mem_nil, or_false, not_or]
           simp_all)
  · rintro ⟨rfl, hc⟩
    cases k with
    | unknown v =>
      simp only [CanonicalStatusKind, List.mem_cons, List.not_mem_nil, or_false, not_or] at hc
      obtain ⟨h1, h2, h3, h4, h5, h6, h7, h8⟩ := hc
      simp only [StatusKind.encode, List.cons_append, List.nil_append, e, if_neg h1, if_neg h2,
        if_neg h3, if_neg h4, if_neg h5, if_neg h6, if_neg h7, if_neg h8]
    | _ => rfl

theorem Safe.statusKind : Safe StatusKind.decode := Safe.bind Safe.beU8 fun _ => Safe.pure _

theorem slot_decode_ok {i r : Bytes} {k : PlayerSlot} :
    PlayerSlot.decode i = .ok r k ↔ i = k.encode ++ r ∧ CanonicalSlot k := by
  have e : ∀ b s, PlayerSlot.decode (b :: s) = if b = 0 then .ok s .empty else if b = 1 then
      .ok s .cd else if b = 2 then .ok s .sd else if b = 3 then .ok s .usb else
      if b = 4 then .ok s .rekordbox else .ok s (.unknown b) := by
    intro b s
    unfold PlayerSlot.decode
    rw [bind_def, P.beU8_cons, PRes.andThen_ok, pure_def]
    repeat' split
    all_goals rfl
  constructor
  · intro h
    match i, h with
    | [], h => exact nomatch h
    | b :: s, h =>
      rw [e] at h
      repeat' split at h
      all_goals obtain ⟨rfl, rfl⟩ := PRes.ok.inj h
      all_goals first
        | (subst b; exact ⟨rfl, trivial⟩)
        | (refine ⟨rfl, ?_⟩
           simp only [CanonicalSlot, List.mem_cons, List.not_mem_nil, or_false, not_or]
           simp_all)
  · rintro ⟨rfl, hc⟩
    cases k with
    | unknown v =>
      simp only [CanonicalSlot, List.mem_cons, List.not_mem_nil, or_false, not_or] at hc
      obtain ⟨h1, h2, h3, h4, h5⟩ := hc
      simp only [PlayerSlot.encode, List.cons_append, List.nil_append, e, if_neg h1, if_neg h2,
        if_neg h3, if_neg h4, if_neg h5]
    | _ => rfl

theorem Safe.slot : Safe PlayerSlot.decode := Safe.bind Safe.beU8 fun _ => Safe.pure _

/-- A kind byte has a kind, which is written as that byte. -/
theorem statusKind_of_byte (b : UInt8) : ∃ k, (∀ r, StatusKind.decode (b :: r) = .ok r k) ∧
    k.encode = [b] ∧ CanonicalStatusKind k := by
  have h : ∃ k, ∀ r, StatusKind.decode (b :: r) = .ok r k := ⟨_, fun _ => rfl⟩
  obtain ⟨k, hk⟩ := h
  have h2 := statusKind_decode_ok.1 (hk [])
  refine ⟨k, hk, ?_, h2.2⟩
  have := h2.1
  rw [List.append_nil] at this
  exact this.symm

/-! ## Fixed strings -/

theorem count_beU16 (us : List UInt16) (r : Bytes) :
    P.count P.beU16 us.length (us.flatMap be16 ++ r) = .ok r us := by
  induction us with
  | nil => rfl
  | cons u us ih =>
    rw [List.length_cons, P.count, List.flatMap_cons, List.append_assoc,
      bind_apply_ok _ (P.beU16_eq_ok.2 rfl), bind_apply_ok _ ih]
    rfl

theorem flatMap_be16_zeros (k : Nat) :
    (List.replicate k (0 : UInt16)).flatMap be16 = List.replicate (2 * k) 0 := by
  induction k with
  | zero => rfl
  | succ k ih =>
    rw [List.replicate_succ, List.flatMap_cons, ih, Nat.mul_succ, List.replicate_succ,
      List.replicate_succ]
    rfl

theorem utf16_nuls (k : Nat) : utf16 (List.replicate k '\x00') = List.replicate k 0 := by
  induction k with
  | zero => rfl
  | succ k ih =>
    rw [List.replicate_succ, utf16_cons, ih, List.replicate_succ]
    rfl

theorem Safe.fixed (n : Nat) : Safe (FixedString.decode n) := by
  refine Safe.bind (Safe.count Safe.beU16 _) fun v => ?_
  cases fromUtf16 v
  · exact Safe.err
  · exact Safe.pure _

/-! ## Contents -/

theorem linkQuery_decode (i : Bytes) :
    (14 ≤ i.length → ∃ r q, decodeLinkQuery i = .ok r (.linkQuery q)) ∧
    (i.length < 14 → decodeLinkQuery i = .err) := by
  unfold decodeLinkQuery
  rw [bind_def]
  rcases P.beU16_cases i with ⟨r1, x1, h1⟩ | ⟨h1, hl1⟩
  rotate_left
  · rw [h1]; exact ⟨fun h => by omega, fun _ => rfl⟩
  have l1 := congrArg List.length (P.beU16_eq_ok.1 h1)
  rw [h1, PRes.andThen_ok, bind_def]
  rcases P.beU32_cases r1 with ⟨r2, x2, h2⟩ | ⟨h2, hl2⟩
  rotate_left
  · rw [h2]; simp at l1; exact ⟨fun h => by omega, fun _ => rfl⟩
  have l2 := congrArg List.length (P.beU32_eq_ok.1 h2)
  rw [h2, PRes.andThen_ok, bind_def]
  simp only [List.length_append, length_be16, length_be32] at l1 l2
  by_cases h3 : r2.length < 3
  · rw [P.take_short h3]; exact ⟨fun h => by omega, fun _ => rfl⟩
  rw [P.take_long (by omega), PRes.andThen_ok, bind_def]
  have l3 : (r2.drop 3).length = r2.length - 3 := List.length_drop
  generalize r2.drop 3 = r3 at l3
  rcases P.beU8_cases r3 with ⟨r4, x4, h4⟩ | ⟨h4, hl4⟩
  rotate_left
  · rw [h4]; exact ⟨fun h => by omega, fun _ => rfl⟩
  have l4 := congrArg List.length (P.beU8_eq_ok.1 h4)
  rw [h4, PRes.andThen_ok, bind_def]
  simp only [List.length_cons] at l4
  by_cases h5 : r4.length < 3
  · rw [P.take_short h5]; exact ⟨fun h => by omega, fun _ => rfl⟩
  rw [P.take_long (by omega), PRes.andThen_ok, bind_def]
  have l5 : (r4.drop 3).length = r4.length - 3 := List.length_drop
  generalize r4.drop 3 = r5 at l5
  unfold PlayerSlot.decode
  rw [bind_def]
  rcases P.beU8_cases r5 with ⟨r6, x6, h6⟩ | ⟨h6, hl6⟩
  rotate_left
  · rw [h6]; exact ⟨fun h => by omega, fun _ => rfl⟩
  have l6 := congrArg List.length (P.beU8_eq_ok.1 h6)
  rw [h6]
  simp only [List.length_cons] at l6
  exact ⟨fun _ => ⟨r6, _, rfl⟩, fun h => by omega⟩

theorem Safe.cdj : Safe decodeCdj :=
  Safe.bind Safe.beU16 fun _ => Safe.bind Safe.beU16 fun _ => Safe.bind Safe.slot fun _ =>
    Safe.bind (Safe.bind Safe.beU8 fun _ => Safe.pure _) fun _ => Safe.bind (Safe.take 1) fun _ =>
    Safe.bind Safe.beU32 fun _ => Safe.bind Safe.beU32 fun _ => Safe.pure _

theorem Safe.linkReply : Safe decodeLinkReply :=
  Safe.bind Safe.slot fun _ => Safe.bind (Safe.fixed 64) fun _ => Safe.bind (Safe.fixed 24) fun _ =>
    Safe.bind (Safe.fixed 32) fun _ => Safe.bind Safe.beU32 fun _ => Safe.bind Safe.beU16 fun _ =>
    Safe.bind Safe.beU16 fun _ => Safe.bind Safe.beU32 fun _ => Safe.bind Safe.beU64 fun _ =>
    Safe.bind Safe.beU64 fun _ => Safe.pure _

/-! ## Headers -/

/-- The bytes of a header. -/
def HeaderBytes (h : Bytes) (kind echo player : UInt8) (model : Str) : Prop :=
  ∃ name whole x, h = udpMagic ++ ([kind] ++ (name ++ ([x] ++ ([echo] ++ [player])))) ∧
    name.length = 20 ∧ fromUtf8 name = some whole ∧ NulPadded whole model

theorem HeaderBytes.length {h : Bytes} {kind echo player : UInt8} {model : Str}
    (hh : HeaderBytes h kind echo player model) : h.length = 34 := by
  obtain ⟨name, whole, x, rfl, hl, _⟩ := hh
  simp [udpMagic, hl]

theorem header_split {d : Bytes} {kind echo : UInt8} :
    StatusHeader d kind echo ↔ ∃ h player model rest, HeaderBytes h kind echo player model ∧
      d = h ++ rest := by
  have hsplit : ∀ (n k : Nat), d.drop n = (d.drop n).take k ++ d.drop (n + k) := by
    intro n k
    rw [← List.drop_drop, List.take_append_drop]
  have hhead : ∀ (n : Nat) x, d[n]? = some x → d.drop n = [x] ++ d.drop (n + 1) := by
    intro n x h
    obtain ⟨hn, rfl⟩ := List.getElem?_eq_some_iff.1 h
    exact List.drop_eq_getElem_cons hn
  constructor
  · rintro ⟨hl, h1, h2, ⟨s, h3⟩, h4⟩
    have g31 : d[31]? = some d[31] := List.getElem?_eq_getElem (by omega)
    have g33 : d[33]? = some d[33] := List.getElem?_eq_getElem (by omega)
    generalize d[31] = x31 at g31
    generalize d[33] = x33 at g33
    refine ⟨udpMagic ++ ([kind] ++ ((d.drop 11).take 20 ++ ([x31] ++ ([echo] ++ [x33])))), x33,
      trimEndNul s, d.drop 34, ⟨_, s, x31, rfl, by simp; omega, h3, trimEndNul_padded s⟩, ?_⟩
    conv => lhs; rw [← List.drop_zero (l := d), hsplit 0 10, List.drop_zero, h1, hhead 10 _ h2,
      hsplit 11 20, hhead 31 _ g31, hhead 32 _ h4, hhead 33 _ g33]
    simp only [List.append_assoc]
    rfl
  · rintro ⟨h, player, model, rest, hh, rfl⟩
    have hl := hh.length
    obtain ⟨name, whole, x, rfl, hn, hf, _⟩ := hh
    refine ⟨by rw [List.length_append]; omega, rfl, rfl, ⟨whole, ?_⟩, ?_⟩
    · rw [← hf]
      congr 1
      simp [udpMagic, ← hn]
    · simp [udpMagic, List.getElem?_append, hn]

/-- Decoding after a header. -/
theorem status_decode_header {h : Bytes} {kind echo player : UInt8} {model : Str}
    (hh : HeaderBytes h kind echo player model) {k : StatusKind}
    (hk : ∀ r, StatusKind.decode (kind :: r) = .ok r k) (rest : Bytes) :
    StatusPacket.decode (h ++ rest) = (k.decodeContent rest).andThen fun r c =>
      .ok r ⟨k, model, echo, player, c⟩ := by
  obtain ⟨name, whole, x, rfl, hl, hf, hp⟩ := hh
  simp only [List.append_assoc]
  have hk' : ∀ r, StatusKind.decode ([kind] ++ r) = .ok r k := hk
  unfold StatusPacket.decode
  rw [bind_apply_ok _ (magic_decode_ok (u := ()).2 rfl), bind_apply_ok _ (hk' _),
    bind_apply_ok _ (model_decode_ok.2 ⟨name, whole, rfl, hl, hf, hp⟩),
    bind_apply_ok _ (beU8_single _ _), bind_apply_ok _ (beU8_single _ _),
    bind_apply_ok _ (beU8_single _ _)]
  rfl

/-- Without a header there is only an error. -/
theorem status_decode_no_header {d : Bytes} (hd : ∀ kind echo, ¬ StatusHeader d kind echo) :
    StatusPacket.decode d ≠ .panic ∧ ∀ r p, StatusPacket.decode d ≠ .ok r p := by
  unfold StatusPacket.decode
  have key : ∀ r1 r2 r3 r4 r5 r6 k m x y z, UdpMagic.decode d = .ok r1 () →
      StatusKind.decode r1 = .ok r2 k → ModelName.decode r2 = .ok r3 m → P.beU8 r3 = .ok r4 x →
      P.beU8 r4 = .ok r5 y → P.beU8 r5 = .ok r6 z → False := by
    intro r1 r2 r3 r4 r5 r6 k m x y z h1 h2 h3 h4 h5 h6
    obtain ⟨name, whole, h31, h32, h33, h34⟩ := model_decode_ok.1 h3
    have hkb : ∃ b, k.encode = [b] := by cases k <;> exact ⟨_, rfl⟩
    obtain ⟨b, hb⟩ := hkb
    have h2' := (statusKind_decode_ok.1 h2).1
    rw [hb] at h2'
    refine hd b y (header_split.2 ⟨_, z, m, r6, ⟨name, whole, x, rfl, h32, h33, h34⟩, ?_⟩)
    rw [magic_decode_ok.1 h1, h2', h31, P.beU8_eq_ok.1 h4, P.beU8_eq_ok.1 h5, P.beU8_eq_ok.1 h6]
    simp
  constructor
  · intro h
    rw [bind_def, PRes.andThen_eq_panic] at h
    obtain h | ⟨r1, u, h1, h⟩ := h
    · exact Safe.magic _ h
    rw [bind_def, PRes.andThen_eq_panic] at h
    obtain h | ⟨r2, k, h2, h⟩ := h
    · exact Safe.statusKind _ h
    rw [bind_def, PRes.andThen_eq_panic] at h
    obtain h | ⟨r3, m, h3, h⟩ := h
    · exact Safe.model _ h
    rw [bind_def, PRes.andThen_eq_panic] at h
    obtain h | ⟨r4, x, h4, h⟩ := h
    · exact Safe.beU8 _ h
    rw [bind_def, PRes.andThen_eq_panic] at h
    obtain h | ⟨r5, y, h5, h⟩ := h
    · exact Safe.beU8 _ h
    rw [bind_def, PRes.andThen_eq_panic] at h
    obtain h | ⟨r6, z, h6, h⟩ := h
    · exact Safe.beU8 _ h
    exact key _ _ _ _ _ _ _ _ _ _ _ h1 h2 h3 h4 h5 h6
  · intro r p h
    rw [bind_def, PRes.andThen_eq_ok] at h
    obtain ⟨r1, u, h1, h⟩ := h
    rw [bind_def, PRes.andThen_eq_ok] at h
    obtain ⟨r2, k, h2, h⟩ := h
    rw [bind_def, PRes.andThen_eq_ok] at h
    obtain ⟨r3, m, h3, h⟩ := h
    rw [bind_def, PRes.andThen_eq_ok] at h
    obtain ⟨r4, x, h4, h⟩ := h
    rw [bind_def, PRes.andThen_eq_ok] at h
    obtain ⟨r5, y, h5, h⟩ := h
    rw [bind_def, PRes.andThen_eq_ok] at h
    obtain ⟨r6, z, h6, h⟩ := h
    exact key _ _ _ _ _ _ _ _ _ _ _ h1 h2 h3 h4 h5 h6

end PDJ

import Verif.Spec.Keepalive
import Verif.Lemmas.Safe

/-!
# Lemmas about keep-alive packets
-/

namespace PDJ

open Spec

theorem beU8_single (x : UInt8) (r : Bytes) : P.beU8 ([x] ++ r) = .ok r x := rfl

/-! ## Names -/

theorem utf8_nuls (k : Nat) : utf8 (List.replicate k '\x00') = List.replicate k 0 := by
  induction k with
  | zero => rfl
  | succ k ih =>
    rw [List.replicate_succ, utf8_cons, ih, List.replicate_succ]
    rfl

theorem takeWhile_nul (s : Str) :
    s.takeWhile (· == '\x00') = List.replicate (s.takeWhile (· == '\x00')).length '\x00' := by
  rw [List.eq_replicate_iff]
  refine ⟨rfl, fun c hc => ?_⟩
  have := List.all_takeWhile (l := s) (p := (· == '\x00'))
  rw [List.all_eq_true] at this
  exact eq_of_beq (this c hc)

theorem trimEndNul_padded (s : Str) : NulPadded s (trimEndNul s) := by
  refine ⟨(s.reverse.takeWhile (· == '\x00')).length, ?_, ?_⟩
  · have h := List.takeWhile_append_dropWhile (p := (· == '\x00')) (l := s.reverse)
    have h2 := congrArg List.reverse h
    rw [List.reverse_append, List.reverse_reverse, takeWhile_nul, List.reverse_replicate] at h2
    rw [trimEndNul, h2]
  · rw [trimEndNul, List.getLast?_reverse]
    intro h
    have := List.head?_dropWhile_not (p := (· == '\x00')) s.reverse
    rw [h] at this
    simp at this

theorem trimEndNul_unique {whole text : Str} (h : NulPadded whole text) :
    trimEndNul whole = text := by
  obtain ⟨k, rfl, ht⟩ := h
  rw [trimEndNul, List.reverse_append, List.reverse_replicate]
  have : ∀ k (l : Str), l.head? ≠ some '\x00' →
      (List.replicate k '\x00' ++ l).dropWhile (· == '\x00') = l := by
    intro k l hl
    induction k with
    | zero =>
      cases l with
      | nil => rfl
      | cons c l =>
        have : c ≠ '\x00' := by intro e; exact hl (by simp [e])
        simp [this]
    | succ k ih => rw [List.replicate_succ, List.cons_append, List.dropWhile_cons]; simpa using ih
  rw [this k _ (by rwa [List.head?_reverse]), List.reverse_reverse]

/-- Exactly what the name decoder accepts. -/
theorem model_decode_ok {i r : Bytes} {m : Str} :
    ModelName.decode i = .ok r m ↔
      ∃ b whole, i = b ++ r ∧ b.length = 20 ∧ fromUtf8 b = some whole ∧ NulPadded whole m := by
  unfold ModelName.decode
  rw [bind_def, PRes.andThen_eq_ok]
  constructor
  · rintro ⟨r', b, h1, h2⟩
    rw [P.take_eq_ok] at h1
    cases hf : fromUtf8 b with
    | none => simp only [hf] at h2; exact nomatch h2
    | some w =>
      simp only [hf, pure_def, PRes.ok.injEq] at h2
      obtain ⟨rfl, rfl⟩ := h2
      exact ⟨b, w, h1.2, h1.1, hf, trimEndNul_padded w⟩
  · rintro ⟨b, w, rfl, hl, hf, hp⟩
    refine ⟨r, b, P.take_append hl, ?_⟩
    simp only [hf, pure_def, trimEndNul_unique hp]

theorem Safe.model : Safe ModelName.decode := by
  refine Safe.bind (Safe.take 20) fun b => ?_
  cases fromUtf8 b
  · exact Safe.err
  · exact Safe.pure _

/-! ## Code tables -/

theorem device_decode_ok {i r : Bytes} {t : DeviceType} :
    DeviceType.decode i = .ok r t ↔ i = t.encode ++ r := by
  constructor
  · intro h
    match i, h with
    | [], h => exact nomatch h
    | b :: s, h =>
      have e : DeviceType.decode (b :: s) = if b = 1 then .ok s .djm else if b = 2 then .ok s .cdj
          else if b = 3 then .ok s .rekordbox else .err := by
        unfold DeviceType.decode
        rw [bind_def, P.beU8_cons, PRes.andThen_ok]
        repeat' split
        all_goals rfl
      rw [e] at h
      repeat' split at h
      all_goals first
        | (obtain ⟨rfl, rfl⟩ := PRes.ok.inj h; subst b; rfl)
        | cases h
  · rintro rfl
    cases t <;> rfl

theorem Safe.device : Safe DeviceType.decode :=
  Safe.bind Safe.beU8 fun _ => Safe.ite (Safe.pure _) (Safe.ite (Safe.pure _)
    (Safe.ite (Safe.pure _) Safe.err))

theorem kind_decode_ok {i r : Bytes} {k : KaKind} :
    KaKind.decode i = .ok r k ↔ i = k.encode ++ r := by
  constructor
  · intro h
    match i, h with
    | [], h => exact nomatch h
    | b :: s, h =>
      have e : KaKind.decode (b :: s) = if b = 0x0a then .ok s .hello else if b = 0x04 then
          .ok s .number else if b = 0x00 then .ok s .mac else if b = 0x02 then .ok s .ip else
          if b = 0x06 then .ok s .status else if b = 0x08 then .ok s .change else .err := by
        unfold KaKind.decode
        rw [bind_def, P.beU8_cons, PRes.andThen_ok]
        repeat' split
        all_goals rfl
      rw [e] at h
      repeat' split at h
      all_goals first
        | (obtain ⟨rfl, rfl⟩ := PRes.ok.inj h; subst b; rfl)
        | cases h
  · rintro rfl
    cases k <;> rfl

theorem Safe.kind : Safe KaKind.decode :=
  Safe.bind Safe.beU8 fun _ => Safe.ite (Safe.pure _) (Safe.ite (Safe.pure _)
    (Safe.ite (Safe.pure _) (Safe.ite (Safe.pure _) (Safe.ite (Safe.pure _)
    (Safe.ite (Safe.pure _) Safe.err)))))

theorem assignment_decode_ok {i r : Bytes} {t : Assignment} :
    Assignment.decode i = .ok r t ↔ i = t.encode ++ r := by
  constructor
  · intro h
    match i, h with
    | [], h => exact nomatch h
    | b :: s, h =>
      have e : Assignment.decode (b :: s) = if b = 1 then .ok s .auto else if b = 2 then .ok s .manual
          else .err := by
        unfold Assignment.decode
        rw [bind_def, P.beU8_cons, PRes.andThen_ok]
        repeat' split
        all_goals rfl
      rw [e] at h
      repeat' split at h
      all_goals first
        | (obtain ⟨rfl, rfl⟩ := PRes.ok.inj h; subst b; rfl)
        | cases h
  · rintro rfl
    cases t <;> rfl

theorem Safe.assignment : Safe Assignment.decode :=
  Safe.bind Safe.beU8 fun _ => Safe.ite (Safe.pure _) (Safe.ite (Safe.pure _) Safe.err)

theorem subkind_decode_ok {i r : Bytes} {k : KaSubKind} :
    KaSubKind.decode i = .ok r k ↔ i = k.encode ++ r ∧ Canonical k := by
  have e : ∀ b s, KaSubKind.decode (b :: s) = if b = 0x25 then .ok s .hello else if b = 0x26 then
      .ok s .number else if b = 0x2c then .ok s .mac else if b = 0x32 then .ok s .ip else
      if b = 0x36 then .ok s .status else if b = 0x29 then .ok s .change else
      if b = 0x00 then .ok s .statusMixer else .ok s (.unknown b) := by
    intro b s
    unfold KaSubKind.decode
    rw [bind_def, P.beU8_cons, PRes.andThen_ok, pure_def]
    repeat' split
    all_goals rfl
  constructor
  · intro h
    match i, h with
    | [], h => exact nomatch h
    | b :: s, h =>
      rw [e] at h
      repeat' split at h
      all_goals obtain ⟨rfl, rfl⟩ := PRes.ok.inj h
      all_goals first
        | (subst b; exact ⟨rfl, trivial⟩)
        | (refine ⟨rfl, ?_⟩
           simp only [Canonical, List.mem_cons, List.not_mem_nil, or_false, not_or]
           simp_all)
  · rintro ⟨rfl, hc⟩
    cases k with
    | unknown v =>
      simp only [Canonical, List.mem_cons, List.not_mem_nil, or_false, not_or] at hc
      obtain ⟨h1, h2, h3, h4, h5, h6, h7⟩ := hc
      simp only [KaSubKind.encode, List.cons_append, List.nil_append, e, if_neg h1, if_neg h2,
        if_neg h3, if_neg h4, if_neg h5, if_neg h6, if_neg h7]
    | _ => rfl

theorem Safe.subkind : Safe KaSubKind.decode := Safe.bind Safe.beU8 fun _ => Safe.pure _

/-! ## Contents -/

theorem mac_decode_ok {i r : Bytes} {m : Mac} : Mac.decode i = .ok r m ↔ i = m.octets ++ r := by
  unfold Mac.decode
  constructor
  · intro h
    rw [bind_def, PRes.andThen_eq_ok] at h
    obtain ⟨r1, a, h1, h⟩ := h
    rw [bind_def, PRes.andThen_eq_ok] at h
    obtain ⟨r2, b, h2, h⟩ := h
    rw [bind_def, PRes.andThen_eq_ok] at h
    obtain ⟨r3, c, h3, h⟩ := h
    rw [bind_def, PRes.andThen_eq_ok] at h
    obtain ⟨r4, d, h4, h⟩ := h
    rw [bind_def, PRes.andThen_eq_ok] at h
    obtain ⟨r5, e, h5, h⟩ := h
    rw [bind_def, PRes.andThen_eq_ok] at h
    obtain ⟨r6, f, h6, h⟩ := h
    rw [P.beU8_eq_ok] at h1 h2 h3 h4 h5 h6
    obtain ⟨rfl, rfl⟩ := PRes.ok.inj h
    rw [h1, h2, h3, h4, h5, h6]
    rfl
  · rintro rfl
    rfl

theorem Safe.mac : Safe Mac.decode :=
  Safe.bind Safe.beU8 fun _ => Safe.bind Safe.beU8 fun _ => Safe.bind Safe.beU8 fun _ =>
    Safe.bind Safe.beU8 fun _ => Safe.bind Safe.beU8 fun _ => Safe.bind Safe.beU8 fun _ =>
    Safe.pure _

theorem status_decode_ok {i r : Bytes} {c : KaContent} :
    decodeStatus i = .ok r c ↔ ∃ s p, c = .status s ∧ p.length = 2 ∧
      i = [s.playerNumber] ++ ([s.unknown2] ++ (s.mac.octets ++ (be32 s.ip ++ ([s.deviceCount] ++
        (p ++ (be16 s.unknown3 ++ ([s.unknown4] ++ r))))))) := by
  unfold decodeStatus
  constructor
  · intro h
    rw [bind_def, PRes.andThen_eq_ok] at h
    obtain ⟨r1, n, h1, h⟩ := h
    rw [bind_def, PRes.andThen_eq_ok] at h
    obtain ⟨r2, u2, h2, h⟩ := h
    rw [bind_def, PRes.andThen_eq_ok] at h
    obtain ⟨r3, m, h3, h⟩ := h
    rw [bind_def, PRes.andThen_eq_ok] at h
    obtain ⟨r4, a, h4, h⟩ := h
    rw [bind_def, PRes.andThen_eq_ok] at h
    obtain ⟨r5, cnt, h5, h⟩ := h
    rw [bind_def, PRes.andThen_eq_ok] at h
    obtain ⟨r6, p, h6, h⟩ := h
    rw [bind_def, PRes.andThen_eq_ok] at h
    obtain ⟨r7, u3, h7, h⟩ := h
    rw [bind_def, PRes.andThen_eq_ok] at h
    obtain ⟨r8, u4, h8, h⟩ := h
    rw [P.beU8_eq_ok] at h1 h2 h5 h8
    rw [mac_decode_ok] at h3
    rw [P.beU32_eq_ok] at h4
    rw [P.take_eq_ok] at h6
    rw [P.beU16_eq_ok] at h7
    obtain ⟨rfl, rfl⟩ := PRes.ok.inj h
    refine ⟨_, p, rfl, h6.1, ?_⟩
    rw [h1, h2, h3, h4, h5, h6.2, h7, h8]
    rfl
  · rintro ⟨s, p, rfl, hp, rfl⟩
    rw [bind_apply_ok _ (beU8_single _ _),
      bind_apply_ok _ (beU8_single _ _), bind_apply_ok _ (mac_decode_ok.2 rfl),
      bind_apply_ok _ (P.beU32_eq_ok.2 rfl), bind_apply_ok _ (beU8_single _ _),
      bind_apply_ok _ (P.take_eq_ok.2 ⟨hp, rfl⟩), bind_apply_ok _ (P.beU16_eq_ok.2 rfl),
      bind_apply_ok _ (beU8_single _ _)]
    rfl

theorem Safe.content (k : KaKind) : Safe k.decodeContent := by
  cases k with
  | hello => exact Safe.bind Safe.beU8 fun _ => Safe.pure _
  | number => exact Safe.bind Safe.beU8 fun _ => Safe.bind Safe.beU8 fun _ => Safe.pure _
  | mac => exact Safe.bind Safe.beU8 fun _ => Safe.bind Safe.beU8 fun _ => Safe.bind Safe.mac fun _ =>
      Safe.pure _
  | ip => exact Safe.bind Safe.beU32 fun _ => Safe.bind Safe.mac fun _ => Safe.bind Safe.beU8 fun _ =>
      Safe.bind Safe.beU8 fun _ => Safe.bind Safe.beU8 fun _ => Safe.bind Safe.assignment fun _ => Safe.pure _
  | status => exact Safe.bind Safe.beU8 fun _ => Safe.bind Safe.beU8 fun _ => Safe.bind Safe.mac fun _ =>
      Safe.bind Safe.beU32 fun _ => Safe.bind Safe.beU8 fun _ => Safe.bind (Safe.take 2) fun _ =>
      Safe.bind Safe.beU16 fun _ => Safe.bind Safe.beU8 fun _ => Safe.pure _
  | change => exact Safe.bind Safe.beU8 fun _ => Safe.bind Safe.beU32 fun _ => Safe.pure _

/-- The decoded content belongs to the kind. -/
theorem content_agrees {k : KaKind} {i r : Bytes} {c : KaContent}
    (h : k.decodeContent i = .ok r c) : Agrees k c := by
  cases k with
  | hello =>
    replace h : decodeHello i = .ok r c := h
    unfold decodeHello at h
    rw [bind_def, PRes.andThen_eq_ok] at h
    obtain ⟨_, _, _, h⟩ := h
    obtain ⟨_, rfl⟩ := PRes.ok.inj h
    trivial
  | number =>
    replace h : decodeNumber i = .ok r c := h
    unfold decodeNumber at h
    rw [bind_def, PRes.andThen_eq_ok] at h
    obtain ⟨_, _, _, h⟩ := h
    rw [bind_def, PRes.andThen_eq_ok] at h
    obtain ⟨_, _, _, h⟩ := h
    obtain ⟨_, rfl⟩ := PRes.ok.inj h
    trivial
  | mac =>
    replace h : decodeMac i = .ok r c := h
    unfold decodeMac at h
    rw [bind_def, PRes.andThen_eq_ok] at h
    obtain ⟨_, _, _, h⟩ := h
    rw [bind_def, PRes.andThen_eq_ok] at h
    obtain ⟨_, _, _, h⟩ := h
    rw [bind_def, PRes.andThen_eq_ok] at h
    obtain ⟨_, _, _, h⟩ := h
    obtain ⟨_, rfl⟩ := PRes.ok.inj h
    trivial
  | ip =>
    replace h : decodeIp i = .ok r c := h
    unfold decodeIp at h
    rw [bind_def, PRes.andThen_eq_ok] at h
    obtain ⟨_, _, _, h⟩ := h
    rw [bind_def, PRes.andThen_eq_ok] at h
    obtain ⟨_, _, _, h⟩ := h
    rw [bind_def, PRes.andThen_eq_ok] at h
    obtain ⟨_, _, _, h⟩ := h
    rw [bind_def, PRes.andThen_eq_ok] at h
    obtain ⟨_, _, _, h⟩ := h
    rw [bind_def, PRes.andThen_eq_ok] at h
    obtain ⟨_, _, _, h⟩ := h
    rw [bind_def, PRes.andThen_eq_ok] at h
    obtain ⟨_, _, _, h⟩ := h
    obtain ⟨_, rfl⟩ := PRes.ok.inj h
    trivial
  | status =>
    obtain ⟨s, p, rfl, _⟩ := status_decode_ok.1 (show decodeStatus i = .ok r c from h)
    trivial
  | change =>
    replace h : decodeChange i = .ok r c := h
    unfold decodeChange at h
    rw [bind_def, PRes.andThen_eq_ok] at h
    obtain ⟨_, _, _, h⟩ := h
    rw [bind_def, PRes.andThen_eq_ok] at h
    obtain ⟨_, _, _, h⟩ := h
    obtain ⟨_, rfl⟩ := PRes.ok.inj h
    trivial

/-! ## Packets -/

theorem Safe.magic : Safe UdpMagic.decode := Safe.bind (Safe.tag _) fun _ => Safe.pure _

theorem magic_decode_ok {i r : Bytes} {u : Unit} :
    UdpMagic.decode i = .ok r u ↔ i = udpMagic ++ r := by
  unfold UdpMagic.decode
  rw [bind_def, PRes.andThen_eq_ok]
  constructor
  · rintro ⟨r', v, h1, h2⟩
    obtain ⟨rfl, _⟩ := PRes.ok.inj h2
    exact (P.tag_eq_ok.1 h1).2
  · rintro rfl
    exact ⟨r, _, P.tag_append _ _, rfl⟩

/-- Exactly what the packet decoder accepts. -/
theorem packet_decode_ok {i r : Bytes} {p : KaPacket} :
    KaPacket.decode i = .ok r p ↔ ∃ p1 p2 name whole rest, p1.length = 1 ∧ p2.length = 1 ∧
      name.length = 20 ∧ fromUtf8 name = some whole ∧ NulPadded whole p.model ∧
      Canonical p.subkind ∧
      i = udpMagic ++ (p.kind.encode ++ (p1 ++ (name ++ ([p.unknown1] ++ (p.deviceType.encode ++
        (p2 ++ (p.subkind.encode ++ rest))))))) ∧
      p.kind.decodeContent rest = .ok r p.content := by
  unfold KaPacket.decode
  constructor
  · intro h
    rw [bind_def, PRes.andThen_eq_ok] at h
    obtain ⟨r1, _, h1, h⟩ := h
    rw [bind_def, PRes.andThen_eq_ok] at h
    obtain ⟨r2, k, h2, h⟩ := h
    rw [bind_def, PRes.andThen_eq_ok] at h
    obtain ⟨r3, p1, h3, h⟩ := h
    rw [bind_def, PRes.andThen_eq_ok] at h
    obtain ⟨r4, m, h4, h⟩ := h
    rw [bind_def, PRes.andThen_eq_ok] at h
    obtain ⟨r5, u1, h5, h⟩ := h
    rw [bind_def, PRes.andThen_eq_ok] at h
    obtain ⟨r6, t, h6, h⟩ := h
    rw [bind_def, PRes.andThen_eq_ok] at h
    obtain ⟨r7, p2, h7, h⟩ := h
    rw [bind_def, PRes.andThen_eq_ok] at h
    obtain ⟨r8, sk, h8, h⟩ := h
    rw [bind_def, PRes.andThen_eq_ok] at h
    obtain ⟨r9, c, h9, h⟩ := h
    obtain ⟨rfl, rfl⟩ := PRes.ok.inj h
    rw [magic_decode_ok] at h1
    rw [kind_decode_ok] at h2
    rw [P.take_eq_ok] at h3 h7
    rw [P.beU8_eq_ok] at h5
    rw [device_decode_ok] at h6
    rw [subkind_decode_ok] at h8
    obtain ⟨name, whole, h41, h42, h43, h44⟩ := model_decode_ok.1 h4
    refine ⟨p1, p2, name, whole, r8, h3.1, h7.1, h42, h43, h44, h8.2, ?_, h9⟩
    rw [h1, h2, h3.2, h41, h5, h6, h7.2, h8.1]
    rfl
  · rintro ⟨p1, p2, name, whole, rest, h1, h2, h3, h4, h5, h6, rfl, h7⟩
    rw [bind_apply_ok _ (magic_decode_ok (u := ()).2 rfl), bind_apply_ok _ (kind_decode_ok.2 rfl),
      bind_apply_ok _ (P.take_eq_ok.2 ⟨h1, rfl⟩),
      bind_apply_ok _ (model_decode_ok.2 ⟨name, whole, rfl, h3, h4, h5⟩),
      bind_apply_ok _ (beU8_single _ _), bind_apply_ok _ (device_decode_ok.2 rfl),
      bind_apply_ok _ (P.take_eq_ok.2 ⟨h2, rfl⟩), bind_apply_ok _ (subkind_decode_ok.2 ⟨rfl, h6⟩),
      bind_apply_ok _ h7]
    rfl

theorem Safe.packet : Safe KaPacket.decode :=
  Safe.bind Safe.magic fun _ => Safe.bind Safe.kind fun _ => Safe.bind (Safe.take 1) fun _ =>
    Safe.bind Safe.model fun _ => Safe.bind Safe.beU8 fun _ => Safe.bind Safe.device fun _ =>
    Safe.bind (Safe.take 1) fun _ => Safe.bind Safe.subkind fun _ => Safe.bind (Safe.content _) fun _ =>
    Safe.pure _

end PDJ
